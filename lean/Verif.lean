import Verif.RingBuffer
import Verif.RingBufferSpec
import Verif.RingBufferLemmas
import Verif.RingBufferProps
import Verif.RingBufferConcLemmas
import Verif.RingBufferConcProps
import Verif.SingleThreadRingBuffer
import Verif.SingleThreadRingBufferProps
import Verif.MovingMedian
import Verif.MovingMedianSpec
import Verif.MovingMedianLemmas
import Verif.MovingMedianProps
import Verif.HistogramFilter
import Verif.HistogramFilterSpec
import Verif.HistogramFilterLemmas
import Verif.HistogramFilterProps
import Verif.MathMisc
import Verif.MathMiscLemmas
import Verif.MathMiscProps
import Verif.Peak
import Verif.PeakSpec
import Verif.PeakLemmas
import Verif.PeakProps
import Verif.Scavenger
import Verif.ScavengerSpec
import Verif.ScavengerLemmas
import Verif.ScavengerProps
import Verif.VectorOps
import Verif.VectorOpsLemmas
import Verif.VectorOpsProps
import Verif.BQResampler
import Verif.BQPhase
import Verif.BQMono
import Verif.BQSetup
import Verif.BQChannels
import Verif.BQChannelLoops
import Verif.BQChannelFade
import Verif.BQChannelCalls
import Verif.BQFixed
import Verif.BQSpec
import Verif.BQSession
import Verif.BQProps
import Verif.BQProps2
import Verif.BQProps3
import Verif.BQProps4
import Verif.BQPlanar
import Verif.BQTiny
import Verif.Round
import Verif.StretchCalc
import Verif.StretchCalcRT
import Verif.StretchCalcPeaks
import Verif.StretchCalcProfile
import Verif.StretchCalcMap
import Verif.StretchCalcOffline
import Verif.StretchCalcTight
import Verif.Fifo
import Verif.R3
import Verif.R3Limits
import Verif.R3Lemmas
import Verif.R3Process
import Verif.R3Inv
import Verif.R3Props
import Verif.R3Protocol
import Verif.R3Defined
import Verif.R3Stream
import Verif.R3Observer
import Verif.R3Output
import Verif.R3OutStream
import Verif.R3Required
import Verif.R3Lost
import Verif.Guide
import Verif.GuideProps
import Verif.GuideRanges
import Verif.Segmenter
import Verif.SegmenterProps
import Verif.Classifier
import Verif.ClassifierProps
import Verif.PhaseAdvance
import Verif.PhaseUnity
import Verif.PhaseSafe
import Verif.PhaseLock
import Verif.Synth
import Verif.SynthProps
import Verif.PreKick
import Verif.MathMiscSimple
import Verif.Live
import Verif.LiveLemmas
import Verif.LiveFlow
import Verif.LiveProps
import Verif.LiveBQ
import Verif.R2Sizes
import Verif.R2SizesProps
import Verif.R2
import Verif.R2Shape
import Verif.R2Step
import Verif.R2StepProps
import Verif.R2Flow
import Verif.R2Offline
import Verif.R2OfflineRun
import Verif.R2Prepare
import Verif.R2Together
import Verif.R2OfflineProps
import Verif.R2Reset
import Verif.R2ResetProps
import Verif.R2Duration
import Verif.R2DurationLater
import Verif.R2Tail
import Verif.R2MidSide
import Verif.StretchCalcBounds
import Verif.R2Study
import Verif.R2Whole
import Verif.R2StudyProps
import Verif.FFT
import Verif.FFTLemmas
import Verif.FFTReal
import Verif.FFTProps
import Verif.R2Modify
import Verif.R2ModifyProps
import Verif.R2ModifyUnity
import Verif.R2Fresh
import Verif.R2Spectral
import Verif.R2Gain
import Verif.R2UnityProps
import Verif.R2UnityTogether
import Verif.AudioCurve
import Verif.AudioCurveLemmas
import Verif.AudioCurveProps
import Verif.Plugin
import Verif.PluginLemmas
import Verif.PluginProps
import Verif.PluginLive
import Verif.PluginLiveProps
import Verif.Cli
import Verif.CliLemmas
import Verif.CliLog
import Verif.CliProps
import Verif.CliMaps
import Verif.CliMapsProps
import Verif.CliOptions
import Verif.CliOptionsProps
import Verif.Jni
import Verif.JniProps
import Verif.R2Map
import Verif.R2Level
import Verif.R2LevelProps
import Verif.R2Numbers
import Verif.PluginAgain
import Verif.PluginControls
import Verif.BQMap
import Verif.BQLinear
import Verif.Window
import Verif.R3Spectral
import Verif.R3SpectralSafe
import Verif.R3SpectralKick
import Verif.FFTShift
import Verif.R3Overlap
import Verif.R3UnityRound
import Verif.R3UnityStep
import Verif.R3UnityRun
import Verif.R3UnityLog
import Verif.R3UnityOut
import Verif.R3UnityGain
import Verif.R3UnityProps
import Verif.R3LiveUnityProps
import Verif.R3Values
import Verif.R3Silence
import Verif.R3Builtin
import Verif.R3SilenceProps
import Verif.R3Tied
import Verif.PhaseSame
import Verif.R3Same
import Verif.R3SameProps
import Verif.R2Given
import Verif.R2GivenProps
import Verif.R2Builtin
import Verif.R2Thirds
import Verif.R2Threads
import Verif.R2ThreadsLemmas
import Verif.R2ThreadsRun
import Verif.R2ThreadsOut
import Verif.R2ThreadsTold
import Verif.R2ThreadsLive
import Verif.R2ThreadsEnd
import Verif.R2ThreadsSmall
import Verif.R2ThreadsProps
import Verif.R2ThreadsGhost
import Verif.R2ThreadsAny
import Verif.R2ThreadsReturn
import Verif.R2ThreadsAnyProps
import Verif.R2ThreadsRace
import Verif.R2Same
import Verif.R2SameProps
import Verif.R2SameStudy
import Verif.R2SameStudyProps
import Verif.R2Required
import Verif.R2RequiredProps
import Verif.R2Grown
import Verif.R2Cut
import Verif.R2CutProps
import Verif.Formant
import Verif.FormantLemmas
import Verif.FormantProps
import Verif.FormantFasterProps
import Verif.LiveAudio
import Verif.LiveAudioLemmas
import Verif.LiveAudioProps
import Verif.LiveAudioSame
import Verif.R3Forget
import Verif.Vamp
import Verif.VampProps
import Verif.ScavengerConc
import Verif.ScavengerConcProps
import Verif.Alloc
import Verif.AllocLemmas
import Verif.AllocProps
import Verif.Threads
import Verif.ThreadsProps
import Verif.BQFilter
import Verif.BQFilterProps
import Verif.R2Polarity
import Verif.PhasePolarity
import Verif.PhaseTied
import Verif.CApi
import Verif.CApiProps
import Verif.CApiLive
import Verif.CApiLiveProps
import Verif.DebugLevel
import Verif.DebugLevelProps
import Verif.R2ThreadsClose
import Verif.R2ThreadsCloseProps
import Verif.PluginPorts
import Verif.PluginPortsProps
import Verif.VampParams
import Verif.VampParamsProps
import Verif.JavaApi
import Verif.JavaApiProps
import Verif.R2Windows
import Verif.R2WindowsProps
