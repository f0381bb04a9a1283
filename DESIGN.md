# Formal model of Rubber Band: design

## Method

Every modelled function is written as a small total Lean function close to the
C++ text, with the file and line range in its comment.  Each area has a model
file, lemma files, and one or more files of property theorems: the statements,
the independent specification they are stated against, and worked examples
showing that the hypotheses can be met.

* What the code leaves to others (transforms, the resampler, the sums over
  filter taps, the detection curves) is a parameter of the model, so that
  theorems hold whatever it does; where a theorem needs something of it (for
  instance that a resampler's counts depend on counts only), that is a
  hypothesis of the theorem, and an example shows an instance.
* Undefined behaviour (reading outside an array, division by zero, a loop
  that never ends) is `none`.  Theorems about safety say that the result is
  not `none`.
* Histories are lists of calls; theorems quantify over all of them, and are
  proved with invariants by induction.
* A property that is false of the code stays in view: `CNN_statement` is
  the property in full, `CNN_violated` proves its negation with a concrete
  run of the model, and the `_partial` theorems prove what remains true.

## Trusted base

* The Lean 4 kernel (Lean 4.33.0), and the definitions of Mathlib used in
  statements (rationals, floor, lists).
* Axioms: no theorem depends on any but `propext` (p), `Classical.choice` (c)
  and `Quot.sound` (q); the table gives them for each theorem as printed by
  `#print axioms`.
* The reading of the C++ source by hand.  The model is not extracted from it.
* Number representation: `int`/`size_t` values are unbounded `Int`/`Nat`
  (no overflow) unless a definition says otherwise.  `double`/`float`
  computations are exact rationals (or elements of any ordered field) unless a
  definition says otherwise; NaN and infinities are represented where they can
  be passed in through the API.  Sample values are an arbitrary type with the
  operations needed.
* The memory model used for the ring buffer is sequentially consistent at the
  granularity of single atomic loads/stores and single element copies.  The
  source uses default (sequentially consistent) atomics plus a full fence, for
  which data-race freedom (part of C02) gives sequential consistency.

## What is modelled, and what is not

| source | modelled in | not modelled |
|----|----|----|
| common/RingBuffer.h | RingBuffer* | locking of memory |
| common/SingleThreadRingBuffer.h | SingleThreadRingBuffer* | |
| common/MovingMedian.h, SampleFilter.h | MovingMedian* | |
| common/HistogramFilter.h | HistogramFilter* | |
| common/mathmisc.* | MathMisc* , Round | princarg is in PhaseAdvance |
| common/Scavenger.h | Scavenger*, ScavengerConc (any number of threads that claim and one that scavenges, a step per access to a shared variable) | memory orders weaker than sequential consistency; wrapping of the counters; the clock is a parameter |
| common/VectorOps.h | VectorOps* (interleave, fftshift, fold) | arithmetic kernels |
| common/BQResampler.cpp | BQ* (whole control flow, buffers, phases, fades; BQLinear: the sums and fades over the reals; BQFilter: the values of the filter over the reals) | rounding; where not needed the filter and the sums are parameters |
| common/Resampler.cpp | BQPlanar (planar calls) | other resampler libraries |
| common/StretchCalculator.cpp | StretchCalc* | debug output |
| finer/R3Stretcher.* | R3* (calls, buffers, hops, key-frame map, resampling), Synth*, PreKick; R3Spectral*, R3Unity*, R3LiveUnityProps (start pad and delay), R3Values, R3Silence*, R3Builtin, R3Tied, R3Same*, PhaseSame: windows, transforms, polar form, read-ahead, guidance, kicks, formants, phases and accumulators over the reals; Formant*: formants over the reals | `setFormantOption` between calls; classification and segmentation are parameters (they are modelled on their own); rounding |
| finer/Guide.h | Guide* | |
| finer/BinSegmenter.h, BinClassifier.h, Peak.h, PhaseAdvance.h | Segmenter*, Classifier*, Peak*, Phase* | logging |
| finer/R3LiveShifter.* | Live* (counts of samples in the buffers), LiveAudio* (the values: padding, mid/side, both resamplers, hops, fill, formant scale and option; analysis, formants and synthesis are line by line R3Stretcher's, so R3Spectral is used for them); Formant* by themselves | logging |
| faster/R2Stretcher.*, StretcherProcess.cpp, StretcherChannelData.* | R2* (sizes, calls, buffers, chunks, study; R2Modify*, R2Polarity: the phases of modifyChunk, over a field; R2Spectral: windows and accumulators over the reals; R2Level: the same with the true transform and any size; R2Numbers: with values that are not numbers; R2Map: maps between environments; R2Thirds, R2Given: with the built-in resampler and its calls logged; R2Threads*: the threads and the user offline, a step for each access to what is shared, all interleavings; R2ThreadsClose: also while `reset` or the destructor waits for the threads); Formant, FormantFasterProps: formants over the reals | waiting and waking of threads, weak memory (sequential consistency is assumed), threads with pitch shifting; spectra (parameters of all but R2Modify*, R2Spectral and Formant*), debug output |
| common/FFT.cpp | FFT* (the built-in and the slow transform, the choice between them; exact reals) | other FFT libraries, interleaved calls, rounding |
| common/VectorOpsComplex.h | FFT (polar conversion) | fast arctangent variants, vectorised variants |
| common/Window.h | R2Spectral, R2Gain, Window (Hann window, the two Niemitalo windows, areas, cut and add; exact reals) | other windows |
| CompoundAudioCurve.*, PercussiveAudioCurve.*, HighFrequencyAudioCurve.*, SilentAudioCurve.*, AudioCurveCalculator.* | creation, setType, setFftSize, reset, processDouble, processFiltering, over an ordered field, the rise threshold (10^0.15) a parameter above 1 | processFloat (the same in float); rounding |
| Allocators.h | `allocate`, `deallocate`, the reallocating functions, those for channels, `StlAllocator::allocate`, and the arithmetic of the aligned allocation of its own (Alloc) | the calls of the system (parameters) |
| Thread.cpp | `Mutex`, `Condition` of the POSIX version with threads interleaved, and the time until which `wait` waits (Threads) | `Thread`, Windows, weak memory |
| common/Log.*, `setDebugLevel` of both engines and the live shifter | DebugLevel* (the copies of the level in the parts, and where they come from) | texts of messages, ticks above level 2 |
| faster/R2Stretcher.cpp `configure`, `reconfigure`, StretcherChannelData `setSizes`: the maps of windows, filters and FFTs in real time | R2Windows* (by their sizes) | the window functions |
| sysutils.* | | whole |
| ladspa-lv2/RubberBandPitchShifter.*, RubberBandR3PitchShifter.* | Plugin* (constructor, activateImpl, changes of settings, both runImpl; the stretcher a parameter, with a contract on what it is given and gives for C91) | rounding in updateRatio, minfill |
| ladspa-lv2/RubberBandLivePitchShifter.* | PluginLive* (constructor, activateImpl, changes of settings, runImpl; the shifter a parameter, with a contract for C92) | rounding in updateRatio |
| ladspa-lv2/ (the three plugins, libmain-ladspa.cpp, libmain-lv2.cpp, rubberband.lv2/lv2-rubberband.ttl) | PluginPorts* (what is announced, descriptors, instantiation, connection of ports, updateRatio over the reals) | defaults, manifest.ttl, rdf and cat files |
| main/main.cpp | Cli* (the passes: studying, padding, changes of pitch, retrieving, gain and starting over, completing; the stretcher a parameter), CliMaps* (the map files), CliOptions* (from the options to the making of the stretcher; `atof` and `pow` parameters) | what `getopt_long` makes of the arguments, messages, files that cannot be opened or read, the format of the output file, rounding of samples |
| vamp/RubberBandVampPlugin.cpp | Vamp* (initialise, reset, process and remaining features, offline with the whole of R2's study and calculator, in real time with the increments and curve of the chunks as input), VampParams* (parameters, options, numbers of the outputs) | texts of the descriptors, labels, the reading of the output in real time (which is thrown away) |
| src/jni/RubberBandStretcherJNI.cpp | Jni* (the calls that pass arrays: study, process, retrieve, shift, setKeyFrameMap; the stretcher a parameter, other threads of the Java program between any two steps), JavaApi* (handles, numbers and all methods of both Java classes, several objects at once, any allocator) | negative offsets, failing allocation |
| rubberband-c.cpp, rubberband-c.h, RubberBandStretcher.cpp | CApi* (each function of the stretcher, several of them at once; the choice of the engine and the calls passed to it; the option constants; the engines are parameters); CApiLive* (each function of the live shifter, several of them at once; RubberBandLiveShifter.cpp, which passes the calls on) | loggers, default debug level |

## The properties

| id | property | status | theorems (module, axioms) | what is covered, what is missing |
|----|----|----|----|----|
| C01 | Ring buffer is a bounded FIFO | proved | `C01_fifo` (RingBufferProps, pcq); `C01_stream` (RingBufferProps, pcq) | RingBuffer refines a bounded FIFO queue |
| C02 | Ring buffer is safe with one writer and one reader thread | proved | `C02_safe` (RingBufferConcProps, pcq); `C02_nothing_lost` (RingBufferConcProps, pcq); `C02_race_free` (RingBufferConcProps, pcq); `C02_no_waiting` (RingBufferConcProps, pcq) | all interleavings of one writer and one reader, sequentially consistent atomics |
| C03 | Ring buffer space reports are safe under concurrency | proved | `C03_read_space` (RingBufferConcProps, pcq); `C03_write_space` (RingBufferConcProps, pcq) |  |
| C04 | Resizing a ring buffer keeps its unread contents | proved | `C04_resized` (RingBufferProps, pcq) |  |
| C05 | Short reads zero-fill the remainder | partial | `C05_violated` (RingBufferProps, p); `C05_partial` (RingBufferProps, pcq) | The claim (short reads zero-fill the destination) is false of the code: C05_violated proves its negation. C05_partial proves what does hold: the rest of the destination keeps the caller's previous contents. |
| C06 | Single-threaded ring buffer is a bounded FIFO | proved | `C06_fifo` (SingleThreadRingBufferProps, pcq); `C06_default` (SingleThreadRingBufferProps, pcq) |  |
| C07 | Moving median returns the true order statistic of its window | proved | `C07_get` (MovingMedianProps, pcq); `C07_no_fault` (MovingMedianProps, pcq); `C07_rank_unique` (MovingMedianProps, p) |  |
| C08 | Median filtering a signal in place uses the original centred window | proved | `C08_filter` (MovingMedianProps, pcq) |  |
| C09 | Histogram filter median is the median of its window | proved | `C09_median` (HistogramFilterProps, pcq); `C09_medianFilter` (HistogramFilterProps, pcq) |  |
| C10 | Histogram filter mode is the smallest most frequent value of its window | partial | `C10_violated` (HistogramFilterProps, pq); `C10_violated_modalFilter` (HistogramFilterProps, p); `C10_partial` (HistogramFilterProps, pcq); `C10_range_partial` (HistogramFilterProps, pcq); `C10_modalFilter_partial` (HistogramFilterProps, pcq) | The claim is false of the code: C10_violated proves its negation. The partial theorems cover histories where no full-window push displaces the mode. |
| C11 | roundUp gives the least power of two | proved | `C11_roundUp` (MathMiscProps, pcq); `C11_roundUpDiv` (MathMiscProps, pcq) |  |
| C12 | Rational approximation of a ratio | partial | `C12_violated` (MathMiscProps, pcq); `C12_partial` (MathMiscProps, pcq); `C12_admissible_partial` (MathMiscProps, pcq); `C12_simple_partial` (MathMiscSimple, pcq) | Nearest-ness is false of the code: C12_violated. Proved: termination, admissible denominator, error below 1/max + 1e-9, admissible ratios reproduced; no fraction of denominator at most half the maximum lies between the ratio and the result. |
| C13 | Offline stretch profile has exactly the requested duration | partial | `C13_partial` (StretchCalcOffline, pcq); `C13_violated` (StretchCalcOffline, pcq); `C13_violated_map` (StretchCalcOffline, pcq) | Proved for detection functions of length other than one and maps that rise and start at the beginning (or no map); the full statement is false (C13_violated, C13_violated_map). |
| C14 | Stretch profile hits every fixed point exactly | partial | `C14_partial` (StretchCalcOffline, pcq); `C14_partial_map` (StretchCalcOffline, pcq); `C14_violated` (StretchCalcOffline, pcq) | Proved without a map for ratios of at least 1/2 + 3/(2 increment), and with a map that leaves room between key frames; false for smaller ratios (C14_violated). |
| C15 | Real-time increments stay within the clamp | proved | `C15_clamp` (StretchCalcRT, pcq) | Any state, any detection value. |
| C16 | Real-time output does not drift | partial | `C16_partial` (StretchCalcRT, pcq); `C16_violated` (StretchCalcRT, pcq); `C16_violated_small` (StretchCalcRT, pcq) | False when the increment is left to the default (input counter stands still) or less than a quarter frame is due per call; otherwise an explicit bound holds for ever. |
| C17 | Hard transients are spaced apart | proved | `C17_spacing` (StretchCalcRT, pcq) | Spacing in calls times increment is at least a twentieth of a second. |
| C18 | Detected peaks are ordered and in range | partial | `C18_partial` (StretchCalcPeaks, pcq); `C18_violated` (StretchCalcPeaks, pcq) | False for functions of one value (window read out of range); proved for all others. |
| C19 | Resampler output length | proved | `C19_length` (BQProps, pcq); `C19_effective` (BQProps, pcq) | Exact rational arithmetic for the ratio; 'sufficient space' means each call returned fewer frames than it had space for (C24_partial gives a sufficient size). Ratios of at least 1/40000. |
| C20 | Resampling is independent of block boundaries | proved | `C20_partition` (BQProps, pcq) | Output space as in C19. |
| C21 | Resampler never exceeds the caller's buffers and emits whole frames | proved | `C21_bounds` (BQProps, pcq); `C22_planar` (BQPlanar, pcq) | Interleaved calls, any history with changing ratios and resets (C21_bounds); planar calls in C22_planar. |
| C22 | Channels are resampled independently | proved | `C22_channels` (BQProps, pcq); `C22_same_sum` (BQProps, p); `C22_no_leak` (BQProps, pcq); `C22_planar` (BQPlanar, pcq) | Equality with a mono resampler holds when the mono sum (v_multiply_and_sum) is computed as the multi-channel sum is (C22_same_sum): in C++ the former is in single and the latter in double precision. |
| C23 | Resampler reset forgets the past | partial | `C23_violated` (BQProps3, pcq); `C23_partial` (BQProps3, pcq) | False: after a change of ratio, reset keeps the buffer of the state faded from (C23_violated). True for histories in which the ratio changed only at resets. |
| C24 | Resampler does not lose input when given the documented output space | partial | `C24_violated` (BQProps2, pcq); `C24_partial` (BQProps2, pcq) | False: ceil(incount*ratio) can be one frame too few (C24_violated). One frame more is always enough at a fixed ratio. |
| C25 | Deferred deletion happens exactly once and not early | partial | `C25_once` (ScavengerProps, pq); `C25_not_early_violated` (ScavengerProps, pq); `C25_not_early_partial` (ScavengerProps, pq); `C25_timely` (ScavengerProps, pq) | Each claimed object is deleted exactly once, and timely. 'Not before the delay' is false for objects that arrive when every slot is taken: C25_not_early_violated exhibits one deleted at once; C25_not_early_partial covers the others. |
| C26 | Call protocol of the finer engine | proved | `C26_refused` (R3Protocol, pcq); `C26_accepted` (R3Protocol, pcq); `C26_end` (R3Protocol, pcq); `C26_forever` (R3Protocol, pcq) | For the R3 engine, over all call histories (phase is a function of the calls alone). |
| C27 | retrieve delivers what available promises, channels in step | proved | `C27_count` (R3Props, pcq); `C27_order` (R3Props, pcq) | whole R3 control flow over any history of calls; spectral processing and resampler as parameters |
| C28 | process takes in every input frame once | partial | `C28_stream` (R3Stream, pcq); `forget_run` (R3Observer, pcq); `observed` (R3Observer, pcq); `C28_returns` (R3Defined, pcq); `C28_returns_violated` (R3Defined, pcq) | C28_stream with observed/forget_run: every frame reaches the analysis exactly once and in order, for all histories without pre-resampling. C28_returns: the calls return for bounded ratios and no key-frame map; for effective ratios beyond about 4096 the hop exceeds the FFT size and the code reads outside its buffers (C28_returns_violated). |
| C29 | Offline output never exceeds the requested duration | partial | `C29_partial` (R3Output, pcq); `C29_violated` (R3Output, pcq) | Proved: the total written never passes the target when the target is positive (C29_partial). The full claim is false (C29_violated): a target that rounds to 0 is treated as no target, and everything is written. |
| C30 | Hop calculation is always valid | proved | `C30_hops` (R3Props, pcq); `C30_preferred` (R3Props, pcq); `C30_valid` (R3Props, pcq) | exact rationals in place of doubles; NaN and infinities as arguments included |
| C31 | Key-frame maps do not change the pitch | partial | `C31_violated` (R3Protocol, pcq); `C31_partial` (R3Protocol, pcq) | False for a map whose first key is 0 (both ratios are reset to 1); true for maps with positive keys. |
| C32 | Mid/side coding is transparent | proved | `C32_transparent` (R3Props, pcq); `C32_others` (R3Props, pq) | in any arithmetic where halving is exact |
| C33 | Resampling happens at most once | proved | `C33_once` (R3Props, pcq); `C33_side` (R3Props, pcq); `C33_needs` (R3Props, pcq) | decision function for every configuration, and over histories |
| C34 | Samples required are sufficient | proved | `C34_enough` (R3Required, pcq); `C34_needed` (R3Required, pcq) | Enough: after as many frames as getSamplesRequired asks for, output is available. Needed: with fewer, process makes no output. Real time, without resampling of the output. |
| C35 | Frequency bands tile the spectrum | partial | `C35_partial` (GuideProps, pcq); `C35_violated` (GuideProps, pcq) | False below 9600 Hz in multi-window mode: the third band runs backwards (C35_violated, 8000 Hz). Proved for single-window mode and for rates of at least 9600 Hz, over all frame histories. |
| C36 | Nearest-peak maps are right | proved | `C36_nearest_next` (PeakProps, pcq); `C36_peak_exists` (PeakProps, pcq) |  |
| C37 | Faster engine sizes are always usable | partial | `C37_violated` (R2SizesProps, pcq); `C37_partial` (R2SizesProps, pcq) | The full statement is false of the code (division by zero for short windows at low rates when the pitch is raised in real time, C37_violated). C37_partial covers every other case, within an effective ratio of 2^20 either way; exact rationals. |
| C38 | Faster engine offline output length | partial | `C38_partial` (R2OfflineProps, pcq); `C38_exact` (R2OfflineProps, pcq); `C38_unity` (R2OfflineProps, pcq); `C38_violated` (R2OfflineProps, pcq) | False of the code in general (C38_violated: studied input of 60 samples at ratio 1/2 gives 128). Proved after any history for ordinary offline configurations (pitch scale 1, rate 8000..192000, increments shorter than the window) and increments not longer than the target; C38_exact gives the exact length. |
| C39 | Faster engine reset forgets the past | partial | `C39_partial` (R2ResetProps, pcq); `past_forgotten` (R2ResetProps, pcq); `C39_violated` (R2ResetProps, pcq) | False of the code (C39_violated: after study, processing and reset, the stretch profile is still there: 450 samples against 408). Proved offline for ordinary configurations and histories of any calls but study: the totals are those of a new stretcher, and the samples too (channels apart) if the spectral state is the same and there is enough input for a frame. past_forgotten: two stretchers with any histories that agree in sizes and profile give the same. Missing: call-by-call amounts, real time. |
| C40 | Faster engine pads the final partial frame with silence | partial | `C40_partial` (R2Tail, pcq); `C40_violated` (R2Tail, pcq) | False of the code (C40_violated: the frame buffer keeps the end of the frame before). Proved offline for ordinary configurations with channels apart, after any history: what is heard of all frames that are full is what would be heard if the input were followed by zeros. |
| C41 | Faster engine offline channels stay in step | proved | `C41_channels_in_step` (R2StepProps, pcq) | Offline, every history of calls since construction; the resampler's counts are assumed to depend on counts alone (Counted). Calls that do not end or are undefined (none) are outside. |
| C42 | Live shifter returns a full block | partial | `C42_violated` (LiveProps, pcq); `C42_partial` (LiveProps, pcq); `resampler_counts` (LiveBQ, pcq) | False of the code at very low pitch scales: C42_violated (1/20: second block is 417 frames). Proved for pitch scales from 1/15 to 7/2, any rate, any number of blocks; the resampler counts used are proved of the resampler model in resampler_counts. |
| C43 | Frame extraction stays in bounds | proved | `C43_cuts` (R3Limits, pcq) | all rates and inhops in range |
| C44 | Vector reordering helpers | proved | `C44_interleave` (VectorOpsProps, pcq); `C44_round_trip` (VectorOpsProps, pcq); `C44_fftshift` (VectorOpsProps, pcq); `C44_fold` (VectorOpsProps, pcq) | Fold: windowSize >= 2; when the window size equals the target size the size must be even, as every FFT size is. |
| C45 | Expected input duration is ignored in real time | partial | `C45_partial` (R2Duration, pcq); `C45_later_partial` (R2DurationLater, pcq); `C45_violated` (R2Duration, pcq) | False of the code (C45_violated: a duration of 64 gives 16 samples instead of 128). Proved in real time, after any history since the last reset of which no duration was told: C45_partial, a duration of at least four increments changes nothing in what any later processing calls give; C45_later_partial, nor in what any later calls of every kind give (changes of the ratios, setMaxProcessSize, reset, setExpectedInputDuration itself), so long as at no time four increments are more than the duration. Missing: shorter durations, of which it is false. |
| C46 | Cross-fades never divide by zero | partial | `C46_violated` (BQProps4, pcq); `C46_partial` (BQProps4, pcq) | False: a fade in progress meeting a call with space for (or expecting) fewer than two frames divides by zero (C46_violated). |
| C47 | Resampled output is time-aligned | partial | `C47_violated` (BQProps2, pcq); `C47_partial` (BQProps2, pcq) | False only in the last filter tap, which the buffer may be too short for (C47_violated); the position is exact (C47_partial). |
| C48 | Any positive ratio can be used for resampling | partial | `C48_violated` (BQTiny, pcq); `C48_partial` (BQTiny, pcq) | False for ratios below 1/384000 (C48_violated); true from 1/40000. |
| C49 | Offline profile has one increment per chunk | partial | `C49_partial` (StretchCalcOffline, pcq); `C49_partial_map` (StretchCalcOffline, pcq); `C49_partial_le` (StretchCalcOffline, pcq); `C49_violated` (StretchCalcOffline, pcq) | As C14; never more increments than chunks for any ratio (C49_partial_le); false at ratio 1/2 (C49_violated). |
| C50 | Soft peaks are local maxima of the smoothed detection function | partial | `C50_partial` (StretchCalcPeaks, pcq); `C50_violated` (StretchCalcPeaks, pcq); `C50_violated_short` (StretchCalcPeaks, pcq) | False for windows of odd size early on and for functions shorter than half the window. |
| C51 | A change of ratio in real time does not disturb the output position | partial | `C51_partial` (StretchCalcRT, pcq); `C51_violated` (StretchCalcRT, pcq) | False when time ratio and effective pitch ratio change by the same factor; true otherwise. |
| C52 | No phase resets in an offline profile when transients are not to be kept | partial | `C52_partial` (StretchCalcOffline, pcq); `C52_violated` (StretchCalcOffline, pcq) | Proved without a map; false with a key frame at a soft peak (C52_violated). |
| C53 | Phase resets of an offline profile are at exactly the hard onsets | partial | `C53_partial` (StretchCalcOffline, pcq); `C53_violated` (StretchCalcOffline, pcq) | Proved for ratios of at least 1/2 + 3/(2 increment); false at ratio 1/2 (C53_violated). |
| C54 | Without transients the output keeps within five frames of the target | proved | `C54_tight` (StretchCalcTight, pcq) | Exact rationals in place of double; varying input increments allowed. |
| C55 | R3 real time: no synthesised frame is lost or reordered | proved | `C55` (R3OutStream, pcq) | Whole histories, every signal processing; output not resampled. |
| C56 | R3 offline: output is what was synthesised, less the start padding, cut at the target | partial | `C56_partial` (R3OutStream, pcq); `C56_violated` (R3OutStream, pcq) | Proved for target 0 or at least the longest FFT size (C56_partial); false for shorter targets (C56_violated), because the clamp to the target counts the frames that are then skipped. |
| C58 | R3 real time: no resampled output is dropped | partial | `C58_partial` (R3Lost, pcq); `C58_violated` (R3Lost, pcq) | Proved for resamplers that never return more than they are given (C58_partial). The full claim is false (C58_violated): room is made for the hop before resampling only, so with a lowered pitch the surplus is dropped. |
| C59 | R3: reset forgets the band decisions of the old stream | partial | `C59_partial` (GuideRanges, pcq); `C59_violated` (GuideRanges, pcq) | False: ChannelData::reset leaves the guidance, so the first frames after a reset use band limits of the old stream (C59_violated). Proved for single-window mode away from real-time unity. |
| C60 | R3 real time: at unity ratio the whole spectrum comes to be phase-reset | proved | `C60_unity` (GuideRanges, pcq) | Over the model of Guide.h; frames are those of any history whose segmentations lie within the spectrum. |
| C61 | R3: a frame is handled as pre-kick exactly when the next one is a kick | partial | `C61_partial` (GuideRanges, pcq); `C61_violated` (GuideRanges, pcq) | False: the comparison with the next frame uses unscaled magnitudes, so a frame is treated as pre-kick without a kick following (C61_violated). Proved: every kick was preceded by a pre-kick. |
| C62 | R3: segmentation boundaries are ordered and describe the filtered classes | partial | `C62_partial` (SegmenterProps, pcq); `C62_violated` (SegmenterProps, pcq) | Refuted as stated: an all-residual frame gets residualAbove = half the rate, with nothing above it (C62_violated). Proved over all sequences of frames: array safety, order, and every boundary's meaning; missing only outermostness of the first and third boundary for frames all percussive or all residual. |
| C63 | R3: bin classification is the median comparison it is documented as, and reset restores it | proved | `C63_classify` (ClassifierProps, pcq); `C63_reset` (ClassifierProps, pcq); `C63_thresholds` (ClassifierProps, pcq) | Magnitudes are exact rationals. |
| C64 | R3: at unity ratio phases come out as they went in | proved | `C64_unity` (PhaseUnity, pcq); `C64_after_reset` (PhaseUnity, pcq); `C64_unity_whole` (PhaseUnity, pcq) | Phases are exact elements of any ordered field with floor; pi any positive element. The theorems take calls that stay within the arrays (advance = some); C65 shows they do. |
| C65 | Phase advance never leaves its arrays | proved | `C65_safe` (PhaseSafe, pcq); `C65_principal` (PhaseSafe, pcq) | All event sequences on all channels; phases are elements of an ordered field with a floor |
| C66 | Phase-locked bins keep their phase relative to the peak | proved | `C66_locked` (PhaseLock, pcq); `C66_peak` (PhaseLock, pcq) | For bins that follow a peak of their own channel; magnitudes and phases exact |
| C67 | R3: every synthesised bin was analysed in the same frame, inside the arrays | proved | `C67_analysed` (SynthProps, pcq); `C67_preKick` (PreKick, pcq) | All reachable guidance; transforms themselves not modelled |
| C68 | R3: the window sizes join without overlap | partial | `C68_violated` (SynthProps, pcq); `C68_partial` (SynthProps, pcq) | False as claimed: the fixed limits (500, 700, 4000, 4800 Hz) do not fall on bins and the scales overlap (C68_violated); exact join proved for every other limit the guide gives |
| C69 | R3: energy held back before a kick is put out with it | partial | `C69_violated` (PreKick, pcq); `C69_partial` (PreKick, pcq); `C69_partial_fresh` (PreKick, pcq); `C69_frame` (R3SpectralKick, pcq) | False as claimed: what is held back is forgotten when the expected kick does not come (C69_violated, cf. C61); conservation proved when each frame before a kick is followed by one. C69_frame: the same for a frame of the model of the spectra over the reals. |
| C70 | Live shifter uses all its input | partial | `C70_violated` (LiveProps, pcq); `C70_partial` (LiveProps, pcq) | False of the code at high pitch scales: C70_violated (5: first block refused). Proved for pitch scales from 1/15 to 7/2. |
| C71 | Live shifter: the backlog does not drift | partial | `C71_violated` (LiveProps, pcq); `C71_partial` (LiveProps, pcq) | False of the code at 8000 Hz and pitch scale 1/100: C71_violated. Proved for pitch scales from 1/15 to 7/2, with explicit bounds. |
| C72 | Faster engine real-time channels stay in step | partial | `C72_partial` (R2StepProps, pcq); `C72_violated` (R2Thirds, pcq); `thirds_is_builtin` (R2Thirds, pcq) | Refuted in full: with three channels together, resampled before stretching, the last block can leave the third channel short (C72_violated; the resampler counts as the built-in one, thirds_is_builtin). C72_partial: at most two channels, or channels not processed together, or OptionPitchHighConsistency; for every resampler whose counts depend on counts alone, of which the built-in one is one (builtinCounted). |
| C73 | Faster engine never stalls after the end | partial | `C73_partial` (R2OfflineProps, pcq); `C73_violated` (R2OfflineProps, pcq) | False of the code in real time with short input (C73_violated). Proved offline for ordinary configurations. |
| C74 | Faster engine offline output independent of blocks | partial | `C74_partial` (R2OfflineProps, pcq); `C74_together_partial` (R2MidSide, pcq); `C74_violated` (R2OfflineProps, pcq) | False of the code for unstudied input (C74_violated: 95 against 448 samples). Proved for ordinary offline configurations, for every division and interleaving, for channels apart (C74_partial) and together (C74_together_partial). |
| C75 | No offline increment is much longer than its share | proved | `C75_increments_bounded` (StretchCalcBounds, pcq) | Bounds on every increment of a profile without key frames, for every detection function; the bound of twice the share comes from a phase reset followed by a short region. |
| C76 | Studied audio gives exactly the rounded length offline | partial | `C76_partial` (R2Whole, pcq); `C76_violated` (R2Whole, pcq) | False of the code for audio shorter than a window (C76_violated: 60 samples at 1/2 give 128). Proved at pitch scale 1, for at least a window of audio with a last block that is not empty, and ratios above 1/2 + 3/(2*increment); any history without study or key-frame maps before. |
| C77 | What study finds does not depend on the blocks | partial | `C77_partial` (R2StudyProps, pcq); `C77_violated` (R2StudyProps, pcq); `C77_violated_long` (R2StudyProps, pcq) | False of the code for an empty last block (C77_violated) and for a long one (C77_violated_long). Proved for last blocks that are not empty and not longer than a window, after any history: the states after the two studies are equal. |
| C78 | Channels together are mid and side apart | proved | `C78_mid_side` (R2MidSide, pcq) | By simulation: a run with channels together is the run with channels apart on mid and side, with the output turned back (run_apart); the channels being in step (C41), the whole of every output is turned back. Where the input is resampled before being stretched (real time without high consistency) is not covered. |
| C79 | The FFT computes the discrete Fourier transform | proved | `C79_builtin` (FFTProps, pcq); `C79_dft_forward` (FFTProps, pcq); `C79_dft_inverse` (FFTProps, pcq); `C79_picked` (FFTProps, pcq) | Exact over the reals; rounding not modelled. The built-in transform for every power of two up to 2^31 and any history, the slow transform for any size, and the choice between them. A size of 0 is excluded (an FFT of size 0 set to the built-in transform would not end). |
| C80 | There and back gives the input times the size | proved | `C80_round_trip` (FFTProps, pcq); `C80_polar` (FFTProps, pcq); `C80_dft` (FFTProps, pcq) | Exact over the reals, both transforms, cartesian and (built-in) polar. |
| C81 | The faster engine keeps the frequency of a steady tone | proved | `C81_steady` (R2ModifyProps, pcq) | modifyChunk is modelled over an ordered field with a floor; phases, errors and unwrapped phases as the code keeps them. |
| C82 | The faster engine remembers the phases it put out | partial | `C82_partial` (R2ModifyUnity, pcq); `C82_violated` (R2ModifyUnity, pcq); `C82_violated_reset` (R2ModifyUnity, pcq) | False in general: with laminar phases, inherited phases at a distance of two bins or more mix in the advance, so what is remembered differs from the unchanged frame put out (C82_violated); reset() sets the flag but keeps old phases (C82_violated_reset). Proved for independent phases without reset. |
| C83 | Back at ratio 1 the faster engine gives back the phases of the input | partial | `C83_partial` (R2ModifyUnity, pcq); `C83_violated` (R2ModifyUnity, pcq) | False in general: bins between 16 kHz and the topmost are never reset at ratio 1 (C83_violated). Proved for independent phases and bins up to 16 kHz. |
| C84 | With nothing changed the faster engine gives back the input, each sample with a gain that does not depend on the audio | proved | `C84_unity` (R2UnityProps, pcq); `C84_together` (R2UnityTogether, pcq) | With nothing changed, offline, all audio comes out with a fixed gain per position: channels apart (C84_unity) and together (C84_together). |
| C85 | With nothing changed the faster engine keeps the level of each sample | partial | `C85_partial` (R2UnityProps, pcq); `C85_violated` (R2UnityProps, pcq); `unity_sizes` (R2UnityProps, pcq) | False as stated: for 44.1 kHz the first sample is more than 8% too loud (C85_violated). Proved from half a window after the beginning to half a window before the end: within 4*(window mod increment)/window, which by unity_sizes is at most 1/16, and 1/256 for windows of 2048 and more, without an expected duration. |
| C86 | Onset detection values of the faster engine are always between 0 and 1 | proved | `C86_range` (AudioCurveProps, pcq) | Never a fault, one value per frame, in [0,1]; the values of compound and soft. |
| C87 | Resetting the faster engine makes onset detection start afresh | partial | `C87_violated` (AudioCurveProps, pcq); `C87_partial` (AudioCurveProps, pcq) | Refuted in full (the rising count survives a reset); proved from the fifth frame on, and for the percussive detector from the first on. |
| C88 | Onset detection does not depend on the level of the audio | partial | `C88_violated` (AudioCurveProps, pcq); `C88_partial` (AudioCurveProps, pcq); `C88_soft_partial` (AudioCurveProps, pcq) | Refuted in full (magnitudes are compared to 10^-8); proved where no magnitude changes sides of 10^-8, and for the soft detector without any condition. |
| C89 | Steady sound is not detected as an onset | proved | `C89_steady` (AudioCurveProps, pcq) | All detectors, after any history, from the twentieth equal frame on. |
| C90 | The dry signal of the pitch shifter plugins is delayed by the latency they report | partial | `C90_violated` (PluginProps, pcq); `C90_partial` (PluginProps, pcq); `C90_mix_partial` (PluginProps, pcq) | False in full: after a block of more than 9216 samples the dry signal has lost samples for good (C90_violated). Proved for blocks up to that size, all dry and for any mix above 0. |
| C91 | The pitch shifter plugins give the stretcher all audio in order and pass on all it gives | proved | `C91_wet` (PluginProps, pcq) | The stretcher is a parameter with a contract on its history. |
| C92 | The live plugin never runs short and gives the shifted audio in order | proved | `C92_live` (PluginLiveProps, pcq) | The shifter is a parameter with a contract: a block for a block. |
| C93 | The dry signal of the live plugin is delayed by the latency it reports | partial | `C93_violated` (PluginLiveProps, pcq); `C93_partial` (PluginLiveProps, pcq) | False in full: the block gathered before shifting is in the reported latency but not in the delay of the dry signal (C93_violated). Proved: the delay is exactly the start delay the shifter had when the plugin was made. |
| C94 | The utility writes what the stretcher gives, all with one gain, and nothing twice | proved | `C94_output` (CliProps, pcq); `C94_quiet` (CliProps, pcq) | The stretcher is a parameter with a history; exact arithmetic. |
| C95 | The utility comes to an end | proved | `C95_ends` (CliProps, pcq) | The stretcher is a parameter; exact arithmetic. |
| C96 | The utility gives the stretcher the whole file | partial | `C96_partial` (CliProps, pcq); `C96_violated` (CliProps, pcq) | Refuted in full: a header that gives fewer frames than there are cuts the file short; proved otherwise. |
| C97 | Changes of pitch come at their frames | proved | `C97_map` (CliProps, pcq) | The stretcher is a parameter; entries of the map in order. |
| C98 | Level does not change the result | proved | `C98_level` (R2LevelProps, pcq); `C98_builtin` (R2Builtin, pcq) | Over the exact reals, with the transform of C44; formant preservation excluded; the detection functions are parameters that have to follow the level, and so is the resampler in C98_level; C98_builtin is with the built-in resampler, of which nothing is assumed |
| C99 | Silence in, silence out | proved | `C99_silence` (R2LevelProps, pcq); `C99_builtin` (R2Builtin, pcq) | Over the exact reals, with the transform of C44; 0/0 counts as 0 here, where the divisor is 0 see C100; the resampler is a parameter that gives silence for silence in C99_silence, the built-in one in C99_builtin, which also has the engine's own preservation of formants, at a pitch scale that is left alone |
| C100 | Output is made of numbers | partial | `C100_partial` (R2Numbers, pcq); `C100_violated` (R2Numbers, pcq) | Violated: a key-frame map for which a chunk is given exactly as much output as the window is long (8000 Hz: 170 to 1024) makes one sample not a number. Proved offline, without pitch shift, if each chunk is given less than a window of output |
| C101 | Activating a plugin again forgets earlier audio | proved | `C101_again` (PluginAgain, pq); `C101_live` (PluginAgain, pq) | All three plugins; for the live plugin the shifter is assumed to fill its blocks (else what is left in the output block would be heard, see C42) |
| C102 | Plugins process audio with the settings asked for | proved | `C102_controls` (PluginControls, pcq); `C102_live` (PluginControls, pcq) | All three plugins; the stretcher is a parameter that keeps its settings until told otherwise (its pitch scale may be lost in a reset) |
| C103 | Resampling is linear | proved | `C103_linear` (BQLinear, pcq) | Over the exact reals with a value that is not a number (which a cross-fade of length 0 makes, C46); filter values arbitrary; interleaved calls (C22 relates planar calls to them) |
| C104 | With nothing changed the finer engine gives back what it gets | partial | `C104_formula` (R3UnityOut, pcq); `C104_partial` (R3UnityProps, pcq); `C104_whole` (R3UnityProps, pcq); `C104_nyquist` (R3UnityProps, pcq); `C104_violated` (R3UnityProps, pcq) | C104_formula gives every output sample: a gain that depends on the position only, times the input, less what was in the two highest bins of the frames there. C104_partial: the gain is 1 at the rates at which hops fit windows (up to 65536 with several windows, above 32768 with one), from half a transform after the beginning; the audio comes back wherever frames have nothing in their two highest bins. C104_whole: as many samples as went in can be had. The full claim is refuted: a tone at half the sample rate comes out as silence. With OptionFormantPreserved the formant scale has to stay 0 or 1. |
| C105 | The spectral part of the finer engine stays inside its arrays | proved | `C105` (R3SilenceProps, pcq); `C105_polar` (R3SilenceProps, pcq) | An access outside an array is none in the spectral model; no history gives it. C105_polar: the bins converted to polar form are within the arrays. The kicks' bins are C67. |
| C106 | Silence in, silence out for the finer engine | partial | `C106_builtin` (R3SilenceProps, pcq); `C106_partial` (R3SilenceProps, pcq); `C106_steady_partial` (R3Forget, pcq); `C106_constant_partial` (R3Forget, pcq); `C106_forgotten` (R3SilenceProps, pcq); `C106_new` (R3SilenceProps, pcq) | Over the reals, with the built-in resampler. C106_builtin: from creation on, with any changes and resets. C106_partial: after a reset if no resampler was ever made. C106_steady_partial: after a reset, whatever was played before it, if before it the pitch scale was only changed up to the first process after creation or an earlier reset; C106_constant_partial: in particular if it was given at creation and left. C106_forgotten: with any resampler that forgets on that reset. Missing: changes of the pitch scale while running; the built-in resampler by itself then keeps old audio (C23_violated). |
| C107 | In real time with the short window the finer engine gives back what it gets, where it says | partial | `C107_partial` (R3LiveUnityProps, pcq); `C107_formula` (R3LiveUnityProps, pcq); `C107_violated` (R3LiveUnityProps, pcq) | refuted as claimed (C107_violated: a tone at half the sample rate is taken away); proved at rates above 32768 from half a transform after the silence on, where the frames have nothing in their two highest bins; C107_formula gives all of the output; over the reals. With OptionFormantPreserved the formant scale has to stay 0 or 1. |
| C108 | Finer engine: channels given the same audio come out the same | proved | `C108` (R3SameProps, pcq); `C108_same` (R3SameProps, pcq) | any history, any pair of channels, mid/side included; C108_same for any resampler that treats equal channels equally, C108 with the built-in one. Over the reals, with or without OptionFormantPreserved, pitch scales up to 40000 |
| C109 | Faster engine with threads: the output is what it is without threads | partial | `C109_violated` (R2ThreadsRace, pcq); `C109_partial` (R2ThreadsProps, pcq); `C109_small` (R2ThreadsProps, pcq); `C109_safe` (R2ThreadsProps, pcq); `C109_always` (R2ThreadsAnyProps, pcq) | Refuted in full (C109_violated): what is retrieved while a thread has copied its output buffer into a longer one, and not yet put this in its place, is retrieved twice; shown by turns of two channels at 8000 Hz with 8300 samples, put together by induction. Otherwise any interleaving of the threads and the user, a step for each access to shared state; the invariant Phase says for each point of a thread what its channel holds. Holds if nothing is read just then, which is shown never to happen if all the output and a window fit into the buffers (C109_small). C109_safe and C109_always: every turn can be taken, the latter whatever the user asks for. Missing: pitch shifting, channels turned into mid and side. |
| C110 | Faster engine with threads: available() says -1 only when everything was retrieved | partial | `C110_violated` (R2ThreadsProps, pcq); `C110_partial` (R2ThreadsProps, pcq) | Refuted in full: the threads can come to their end between the two loads in available(). Holds when -1 was given twice running. |
| C111 | Faster engine with threads: asking for more than there is loses nothing | partial | `C111_violated` (R2ThreadsProps, pcq); `C111_partial` (R2ThreadsProps, pcq) | Refuted in full: samples of a channel that is ahead are read and lost. Holds if no more is asked for than available() said: then each retrieve gives all that was asked for, in each channel. |
| C112 | Faster engine with threads: every thread comes to its end | proved | `C112_always` (R2ThreadsAnyProps, pcq); `C112_end` (R2ThreadsProps, pcq); `C112_wait` (R2ThreadsProps, pcq) | A measure that becomes less with every turn of a thread (step_less), bounded by the sizes of the buffers; any interleaving with the other threads and with a user who asks for anything at any time (a simulation by a system whose output buffers are never replaced and never read, R2ThreadsGhost). C112_end: what is then in the output buffer, if no more was retrieved than available() said and nothing was read during a replacement. C112_wait: a user who waits gets there. Waits of the code, bounded in time, are turns not given. |
| C113 | Faster engine with threads: process() returns | proved | `C113` (R2ThreadsAnyProps, pcq) | Rounds in which every thread has so many turns and the caller three for each channel and two, in any order; whatever was called before (any amounts retrieved at any time). In two rounds at least one sample is taken or the call returns. Nothing is assumed to go well: that every turn can be taken is part of the conclusion. Waits of the code, bounded in time, are turns not given. |
| C114 | Faster engine: channels given the same audio come out the same | partial | `C114_violated` (R2SameProps, pcq); `C114_partial` (R2SameProps, pcq); `C114_studied_partial` (R2SameStudyProps, pcq) | False of the code (C114_violated): after a study, an empty final block makes channel 0 play a magnitude the study left in its frame buffer. C114_partial: true of all histories without a study, offline and in real time. C114_studied_partial: true of all histories with studies too, unless the input is ended by an empty block with nothing given to process since the engine was made, reset or configured anew (rates 8000 to 192000; that a reset forgets what a study did to the spectral state is granted). Missing: channels together (mid/side), which the statement excludes. |
| C115 | Faster engine in real time: the samples asked for are enough | partial | `C115_violated` (R2RequiredProps, pcq); `C115_partial` (R2RequiredProps, pcq); `C115_nominal_partial` (R2RequiredProps, pcq); `C115_asks` (R2RequiredProps, pcq) | Refuted in full: told a duration of 4 samples and at half the duration, the engine in real time asks for 1024 samples and makes nothing of them (increment 1, of which each chunk makes round(1/2) = 0 samples). Proved in real time for every history before the end without a pitch shift, if no duration has been told (C115_partial), or whatever has been told if an input increment makes two samples or more (C115_nominal_partial); that something is asked for whenever nothing is available is proved for all histories and pitch scales (C115_asks). Missing: pitch shifts, where how much a resampler gives depends on the resampler, and OptionPitchHighConsistency. |
| C116 | Faster engine in real time: output does not depend on how the input is cut into blocks | partial | `C116_violated` (R2CutProps, pcq); `C116_partial` (R2CutProps, pcq) | Refuted in full: the output length is capped at (input so far) x (ratio now) only if it has not been exceeded when the end becomes known, so after a change of ratio in real time the total depends on how the last input is cut. Partial: any history and any two ways of cutting and retrieving before the end of the input; missing: the end, and resampling before stretching; more than two channels only if not processed together. |
| C117 | Finer engine: formants are kept or moved as asked | partial | `C117_partial` (FormantProps, pcq); `C117_smooth` (FormantProps, pcq); `C117_unity` (FormantProps, pcq); `C117_violated` (FormantProps, pcq) | The full claim, with what the documentation says of the formant scale without OptionFormantPreserved, is refuted (C117_violated). With the option: no access outside an array and each magnitude multiplied by the ratio of the envelopes within 1/60..60 (C117_partial); for smooth spectra this is the magnitude itself where it is moved from (C117_smooth); nothing is changed without a shift (C117_unity). |
| C118 | Faster engine: formants are preserved | partial | `C118_partial` (FormantFasterProps, pcq); `C118_unity` (FormantFasterProps, pcq); `C118_violated` (FormantFasterProps, pcq) | The full claim is refuted: the code takes the square root of the envelope for the envelope (C118_violated). Proved: no access outside an array, and each magnitude multiplied by the square root of the ratio of the smoothed spectra where it will be heard and where it is (C118_partial); nothing is done without the option or the shift (C118_unity). |
| C119 | Live shifter: every call ends and every block is a whole one | proved | `C119` (LiveAudioProps, pcq) | Over the reals; pitch scales within PitchOk; formant scales and options set at any time. |
| C120 | Live shifter: silence in, silence out | proved | `C120` (LiveAudioProps, pcq) | Over the reals; pitch scales within PitchOk; formant scales and options set at any time. |
| C121 | Live shifter: channels given the same audio come out the same | proved | `C121` (LiveAudioSame, pcq) | Over the reals; pitch scales within PitchOk; formant scales and options set at any time. |
| C122 | Live shifter: a reset forgets what was played | partial | `C122_partial` (LiveAudioSame, pcq) | Proved if before the reset the pitch scale was changed only before the first block after creation or an earlier reset. Missing: changes of the pitch scale between blocks, after which the built-in resampler by itself keeps old audio over a reset (C23_violated). |
| C123 | Vamp plugin: the outputs show the stretch profile | proved | `C123` (VampProps, pcq) | For audio of a single step the peak finder may read outside its array (C18), so that case is excluded. |
| C124 | Vamp plugin: the same again after reset() | partial | `C124_partial` (VampProps, pcq); `C124_violated` (VampProps, pcq) | Refuted as stated (C124_violated): reset() clears neither m_counter nor m_accumulatedIncrement, and offline the stretcher keeps its increments and curve. Proved: exactly what is left behind in real time. |
| C125 | Vamp plugin: the analysis covers the audio | partial | `C125_partial` (VampProps, pcq); `C125_violated` (VampProps, pcq) | Refuted as stated (C125_violated): the end of the input is told in a call of study() without samples, so the last half window is never analysed. Proved: exactly how far the analysis gets, and the accumulated time there. |
| C126 | Vamp plugin: salient points are on time | proved | `C126` (VampProps, pcq) |  |
| C127 | Vamp plugin in real time: all chunks are shown, in order | partial | `C127_partial` (VampProps, pcq); `C127_violated` (VampProps, pcq) | Refuted as stated (C127_violated): of the chunks of one call the stretcher keeps only 16. Proved for calls with at most 16 chunks. |
| C128 | Command-line utility: map files are read as written | proved | `C128` (CliMapsProps, pcq); `C128_time` (CliMapsProps, pcq); `C128_freq` (CliMapsProps, pcq) | The files' characters are modelled; the second column of frequency and pitch maps is what a parameter (atof) makes of it. A carriage return before an end of line is let pass. |
| C129 | Command-line utility: malformed maps are refused | partial | `C129_violated` (CliMapsProps, pcq); `C129_partial` (CliMapsProps, pcq); `C129_violated_negative` (CliMapsProps, pcq) | Refuted: columns that are not numbers are taken for 0. Proved for lines without a second column, wherever they are; the line told of is counted from 0. C129_violated_negative: no negative frame is refused. |
| C130 | Command-line utility: the stretcher is made with what is asked for | proved | `C130` (CliOptionsProps, pcq) | Of what getopt_long makes of the arguments; the options of the stretcher are the bits of RubberBandStretcher.h. |
| C131 | Command-line utility: the ratios mean what the help says | proved | `C131` (CliOptionsProps, pcq) | Exact arithmetic; pow(2.0, x / 12.0) is a parameter that is 1 at 0. |
| C132 | Command-line utility: ratios that are not positive are refused | partial | `C132_violated` (CliOptionsProps, pcq); `C132_violated_frequency` (CliOptionsProps, pcq); `C132_partial` (CliOptionsProps, pcq) | Refuted: a negative --duration gives a negative time ratio, and --frequency 0 a pitch scale of 0. Proved if no duration given is negative and no frequency 0 or negative, whatever the numbers for --time, --tempo and --pitch. |
| C133 | Command-line utility: a crispness level is the options it stands for | proved | `C133` (CliOptionsProps, pcq) |  |
| C134 | Command-line utility: crispness has no effect on the finer engine | partial | `C134_violated` (CliOptionsProps, pcq); `C134_partial` (CliOptionsProps, pcq) | Refuted: level 6 makes the finer engine single-windowed. Proved for the other levels if --window-short is not given. |
| C135 | Command-line utility: the order of options makes no difference | proved | `C135` (CliOptionsProps, pcq) |  |
| C136 | The stretcher is given the samples in the Java arrays | proved | `C136` (JniProps, pq) | Calls that pass arrays; the stretcher is a parameter; other threads write between any two steps, elsewhere. |
| C137 | Giving samples to the stretcher does not change the Java arrays | partial | `C137_violated` (JniProps, p); `C137_partial` (JniProps, pq); `C137_alone_partial` (JniProps, pq) | Refuted: ReleaseFloatArrayElements with mode 0 writes the whole copy back and loses what other threads wrote meanwhile to other parts. Proved for arrays that are not copied or not written meanwhile. |
| C138 | What is retrieved is in the Java arrays from the offset on | proved | `C138` (JniProps, pcq) |  |
| C139 | The output of the live shifter is in the Java arrays for output | proved | `C139` (JniProps, pq); `C139_needs_separate` (JniProps, –) | Without other threads. Also shown: in place per channel works; that separate arrays are needed. |
| C140 | The key-frame map given in Java is the one the stretcher gets | proved | `C140` (JniProps, pcq) |  |
| C141 | The scavenger deletes each claimed object once, with its two threads at work | proved | `C141` (ScavengerConcProps, pcq); `C141_delay` (ScavengerConcProps, pcq) | One thread that claims and one that scavenges, a step per access to a shared variable; sequential consistency is assumed. |
| C142 | Output buffers replaced by the threads of several channels are not lost | partial | `C142_violated` (ScavengerConcProps, pq); `C142_partial` (ScavengerConcProps, pcq); `C142_safe_partial` (ScavengerConcProps, pcq) | Refuted: two threads find the same slot free and one object is never deleted. Kept with any number of threads: none is deleted more often than it was claimed. With one thread that claims all are deleted. |
| C143 | Reallocation keeps what there was | proved | `C143` (AllocProps, pcq); `C143_reallocate` (AllocProps, pcq); `C143_zero` (AllocProps, pcq); `C143_channels` (AllocProps, pcq); `C143_extended` (AllocProps, pcq) | For blocks and for channels; with exceptions at any request. The memory of the heap is modelled as blocks of cells, and requests that the system refuses are arbitrary. Sizes in bytes are supposed to fit into size_t (see C145). |
| C144 | An allocation that fails leaves nothing behind | partial | `C144_violated` (AllocProps, pcq); `C144_partial` (AllocProps, pcq) | Refuted: allocate_channels and those built on it leak the channels that they have when a further one fails (C144_violated). Proved: nothing that there was is lost with any call, and with calls for one block nothing stays behind. |
| C145 | An allocation has room for what was asked for | partial | `C145_violated` (AllocProps, pcq); `C145_partial` (AllocProps, pq); `C145_stl` (AllocProps, pq); `C145_own` (AllocProps, pcq) | Refuted: the number of bytes wraps around (C145_violated). Proved if it fits into size_t, for the allocator for containers with any number of elements, and for the aligned allocation of its own. |
| C146 | A wait with a limit ends when the limit is over | partial | `C146_violated` (ThreadsProps, pcq); `C146_partial` (ThreadsProps, pq) | Refuted: with the end on a whole second the time given is not valid and the wait ends at once (C146_violated). Proved for all other times; and that it does not wait at all then. |
| C147 | The mutex excludes, and its complaints are right | proved | `C147` (ThreadsProps, pcq) | With the thread checks (NO_THREAD_CHECKS not defined), on POSIX, with sequentially consistent memory. |
| C148 | No signal is lost | proved | `C148` (ThreadsProps, pq); `C148_exclusive` (ThreadsProps, p) | On POSIX, with sequentially consistent memory. One thread waits; the others provide and signal. |
| C149 | The resampler treats what comes before and after a moment alike | proved | `C149` (BQFilterProps, pcq); `makeFilter_even` (BQFilterProps, pcq) | Over the reals, with the filter as make_filter makes it. Each output sample may leave out the outermost input sample under the filter on one side (C47), which the statement allows for. |
| C150 | Faster engine in real time: what is given is resampled once | partial | `C150_partial` (R2GivenProps, pcq); `C150_violated` (R2GivenProps, pcq) | Refuted in full: what the resampler gives for the last block may not fit and is dropped, and the block is given to it again (C150_violated). C150_partial: as long as no block was the last; for every resampler that is Modest, of which the built-in one is one if the ratio is a fraction that it can use (builtinModest). |
| C151 | Faster engine: audio turned over comes out turned over | partial | `C151_partial` (R2Polarity, pcq); `C151_violated` (R2Polarity, pcq); `C151_violated_start` (R2Polarity, pcq) | Refuted in full. With the default laminar phases a bin inherits from the bin above a fraction of a difference of phases, which changes by whole turns when the audio is inverted (C151_violated, with a reset at the first chunk as offline); with independent phases and no reset at first, as in real time, the first phases are taken as an advance from 0 and stretched (C151_violated_start). Proved for any angle: with independent phases, from the first chunk in which the bin is reset on, whatever came before, until the sizes change. The witnesses are sequences of spectra as the function takes them; audio whose overlapping frames have these spectra is not derived. |
| C152 | Finer engine: audio turned over comes out turned over | partial | `C152_partial` (PhasePolarity, pcq); `C152_violated` (PhasePolarity, pcq); `C152_violated_start` (PhasePolarity, pcq) | Refuted in full. A bin locked to a peak takes beta times the difference of their phases, which changes by a whole turn when the audio is inverted (C152_violated, after a frame in which all phases are reset); and without a reset at first the first phase is taken as an advance from 0 and stretched (C152_violated_start). Proved for any angle, any number of channels, hops and guidance: from a frame in which the bin is reset, whatever came before, as long as it is reset again, or hops are equal, or its frequency is not locked, or it is a peak that stays in its bin. The witnesses are sequences of spectra as the function takes them; audio whose overlapping frames have these spectra is not derived. |
| C153 | Finer engine: phase relations between channels do not drift | proved | `C153_tied` (PhaseTied, pcq); `C153_range` (PhaseTied, pcq) | From any state with arrays of the right size. The channels are those analysed: left and right, or middle and side with OptionChannelsTogether and two channels. |
| C154 | The C interface does what the C++ interface does, with the engine chosen by the options | proved | `C154` (CApiProps, pcq); `C154_options` (CApiProps, pq) | C154: whole programs that use the C interface, with the engines as parameters; replies of 2^32 and more are given modulo 2^32. C154_options: the two tables of constants, any list of names. Not modelled: loggers, default debug level, C functions of the live shifter. |
| C155 | Faster engine with threads: reset() and destruction return, and not before the threads have ended | proved | `C155` (R2ThreadsCloseProps, pcq); `C155_waits` (R2ThreadsCloseProps, pcq) | Rounds in which every thread has so many turns (bounded by the input buffer and the window) and the caller one, in any order; three rounds for each channel. Every turn can be taken, and when the caller has nobody left to wait for all threads have ended (C155_waits, without fairness). The plain bool m_abandoning is taken to be seen by later loads; the bounded wait of 50 ms is turns not given. What reset does after the threads have ended is modelled elsewhere (C39). |
| C156 | The plugins are what they announce: ports, ranges, pitch and instances | proved | `C156_ports` (PluginPortsProps, pcq); `C156_announced` (PluginPortsProps, pcq); `C156_pitch` (PluginPortsProps, pcq); `C156_plugins` (PluginPortsProps, pcq) | Numbers are exact reals, so values that are not numbers and rounding are left out; defaults of the ranges are not modelled. What the plugins do with the controls and the audio is in C91, C92 and the others about plugins. |
| C157 | Vamp plugin: parameters and outputs are what they are called | proved | `C157_parameters` (VampParamsProps, pcq); `C157_stretcher` (VampParamsProps, pcq); `C157_outputs` (VampParamsProps, pcq) | Floats are exact rationals. Before getOutputDescriptors() is called all features are given for output 0; the SDK's adapter calls it first. What the plugin shows is in C123 to C127. |
| C158 | Java objects do what the C++ objects do | proved | `C158` (JavaApiProps, pcq); `C158_options` (JavaApiProps, pq) | The engines and the live shifter are parameters. Arrays are values here (what becomes of them is in C136 to C140); one thread; no call after dispose() (that is a null pointer); the finer points of failing allocations are left out. |
| C159 | Live shifters behind the C interface do what the C++ live shifters do | proved | `C159` (CApiLiveProps, pq) | Whole programs with any number of live shifters; the shifter itself is a parameter (modelled elsewhere). |
| C160 | The debug level decides what is reported | partial | `C160_partial` (DebugLevelProps, pcq); `C160_unset_partial` (DebugLevelProps, pcq); `C160_offline_partial` (DebugLevelProps, pcq); `C160_violated` (DebugLevelProps, p); `C160_violated_silent` (DebugLevelProps, p) | False of the code (C160_violated: made when the default is 2 and set to 0, a stretcher still reports what the calculator tells at level 2; C160_violated_silent: the other way). Proved for the engine, guide and guided phase advances after any history (C160_partial), for all parts where setDebugLevel is not called (C160_unset_partial), and for the calculator of an offline stretcher of the faster engine after it is reconfigured (C160_offline_partial). Missing: calculator and resamplers otherwise, of which it is false. |
| C161 | Windows in real time are made on construction | partial | `C161_used` (R2WindowsProps, pcq); `C161_partial` (R2WindowsProps, pcq); `C161_violated` (R2WindowsProps, pcq); `C161_violated_fft` (R2WindowsProps, pcq) | C161_used: the window, filter and FFT in use are always there and of the sizes in use (any ratios). C161_partial: none is made after construction for moderate ratios. In full it is false (C161_violated, C161_violated_fft: time ratio 1/20 at 44100 needs a window of 8192). |

## Where the code falls short of its properties

Each of these is a theorem `CNN_violated` with a concrete witness; the notes in
the table say what it is.  The ones a caller is most likely to meet:

* a key-frame map whose first key is 0 resets both ratios (C31);
* reset() leaves band limits of the previous stream (R3, C59) and the state of
  a fade in the resampler (C23);
* `getMode` of the histogram filter returns a stale mode (C10);
* the faster engine gives more than the expected number of samples for inputs
  shorter than an increment (C38), gives output that depends on blocks if the
  input was not studied (C74), and in real time never reports the end of a very short
  input (C73);
* reset() of the faster engine keeps the stretch profile of the previous audio (C39);
  a final partial frame is analysed together with what was left of the frame before (C40);
  the expected duration changes the sizes in real time (C45);
* an empty last block, or a very long one, changes what study() finds (C77);
* with laminar phases (the default) or after reset(), the faster engine goes on from other phases than
  it put out (C82), and at ratio 1 it never puts the bins above 16 kHz right again (C83);
* with nothing changed, the faster engine puts out the first samples 8% too loud (C85);
* with nothing changed, the finer engine takes away the two highest bins of each frame (C104; C107 in real time with the short window): a tone at half
  the sample rate comes out as silence; and offline the first samples come out too quiet (`C104_formula`:
  there are no frames before the first, which is centred on the first sample);
* a key-frame map that gives a chunk exactly a window of output makes the faster engine divide 0 by 0
  (C100): one sample of the output is not a number;
* a reset does not make onset detection start afresh (C87), and very quiet audio is detected
  differently (C88);
* the pitch shifter plugins lose samples of the dry signal for good once a host
  runs them with a block over 9216 samples (C90); the live plugin delays the dry
  signal a block too little for the latency it reports (C93);
* the command-line utility reads a file only as far as its header says (C96);
* the live shifter drops its first block at pitch scales above about 3.75
  (C70) and gives short blocks at very low ones (C42);
* with threads, `available()` of the faster engine can say -1 though output is left, when threads come to
  their end in the middle of it (C110); `retrieve()` of more than is available loses samples of the channels
  that are ahead (C111); and what is read from an output buffer just while a thread replaces it by a longer one
  is delivered twice (C109);
* if a stretcher of the faster engine has studied something and the input is then ended with an empty block, the
  first channel plays a magnitude that the study left in a buffer, and the others do not (C114);
* in real time, if a very short duration has been told and the audio is to be shortened, the faster engine can ask
  for samples and make no output of them, for ever (C115);
* in real time, after a change of ratio, how much output there is at the end depends on whether the last block of
  input is itself the final one or an empty final block comes after it: the output can be cut short (C116);
* a formant scale does nothing in the finer engine unless `OptionFormantPreserved` is given too, though the
  documentation says that it does (C117);
* the faster engine moves formants only half as far (in decibels) as it should to preserve them: it takes the square
  root of the envelope for the envelope (C118);
* the Vamp plugin goes on counting after a reset, and offline shows the steps of the first run again (C124); it never
  analyses the last half window of the audio (C125); and in real time it loses all but 16 of the chunks of a call, with
  the time stamps of all later ones too early (C127);
* the command-line utility takes text that is not a number for 0 in a map file, without saying so (C129); it does not
  refuse a negative duration or a frequency multiple of 0 (C132); and crispness 6 changes the sound of the finer engine,
  though the help says that crispness has no effect there (C134);
* giving audio to the stretcher from Java writes the whole arrays back where the virtual machine copies them, and loses
  what other threads have written meanwhile to other parts of them (C137);
* two channel threads of the faster engine that replace their output buffers at the same time can both take the same free
  slot of the scavenger, and one of the old buffers is never deleted (C142; the class says that only one thread should claim);
* `allocate_channels` and its like leak the channels that they have, if there is no memory for a further one (C144), and
  `allocate` gives too small a block if the number of bytes wraps around (C145);
* a wait with a limit that ends on a whole second does not wait at all (C146);
* in real time with three channels or more together and a raised pitch, the last block can leave the third channel out of step with
  the others: what its resampler gives at the end does not fit and is dropped (C72);
* in real time with a raised pitch, what the resampler gives for the last block may not fit into the input buffer; it is dropped, and
  the block is given to the resampler a second time (C150);
* in the faster engine audio of inverted polarity does not come out inverted: with laminar phases (the default) a bin inherits a
  fraction of a difference of two phases, which a whole turn more or less changes; and in real time the phases of the first chunk are
  taken as an advance from 0 and stretched (C151);
* the same in the finer engine, where a bin is locked to a peak by a factor near 1 of the difference of their phases, and where the
  phases of the first frame are an advance from 0 unless they are reset (C152);
* `setDebugLevel` has no effect on what the stretch calculator and the resamplers report: the calculator keeps the level that was
  in force when it was made, in a copy of the log that is never changed (C160);
* the faster engine in real time makes new windows and FFTs (with a warning at level 0, and in the thread that sets the ratio) when the ratio
  falls below about 0.094 at 44100, or 0.19 with smoothing: the size of four times the base is commented out in `configure` (C161).

Known gaps found by the trials in seeded/LOG.jsonl: no theorem uses `AudioCurve.silent`, so the silent curve is modelled but not verified by itself; and the
count `scavenged` of the sequential scavenger is not tied to what was deleted by a theorem (that of the concurrent model is).
