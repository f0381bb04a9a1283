{
 "claims": [
  {
   "property": "C01",
   "status": "proved",
   "theorems": [
    "Verif.RingBuffer.C01_fifo",
    "Verif.RingBuffer.C01_stream"
   ],
   "note": "RingBuffer refines a bounded FIFO queue"
  },
  {
   "property": "C02",
   "status": "proved",
   "theorems": [
    "Verif.RingBuffer.Conc.C02_safe",
    "Verif.RingBuffer.Conc.C02_nothing_lost",
    "Verif.RingBuffer.Conc.C02_race_free",
    "Verif.RingBuffer.Conc.C02_no_waiting"
   ],
   "note": "all interleavings of one writer and one reader, sequentially consistent atomics"
  },
  {
   "property": "C03",
   "status": "proved",
   "theorems": [
    "Verif.RingBuffer.Conc.C03_read_space",
    "Verif.RingBuffer.Conc.C03_write_space"
   ],
   "note": ""
  },
  {
   "property": "C04",
   "status": "proved",
   "theorems": [
    "Verif.RingBuffer.C04_resized"
   ],
   "note": ""
  },
  {
   "property": "C05",
   "status": "partial",
   "theorems": [
    "Verif.RingBuffer.C05_violated",
    "Verif.RingBuffer.C05_partial"
   ],
   "note": "The claim (short reads zero-fill the destination) is false of the code: C05_violated proves its negation. C05_partial proves what does hold: the rest of the destination keeps the caller's previous contents."
  },
  {
   "property": "C06",
   "status": "proved",
   "theorems": [
    "Verif.STRB.C06_fifo",
    "Verif.STRB.C06_default"
   ],
   "note": ""
  },
  {
   "property": "C07",
   "status": "proved",
   "theorems": [
    "Verif.MovingMedian.C07_get",
    "Verif.MovingMedian.C07_no_fault",
    "Verif.MovingMedian.C07_rank_unique"
   ],
   "note": ""
  },
  {
   "property": "C08",
   "status": "proved",
   "theorems": [
    "Verif.MovingMedian.C08_filter"
   ],
   "note": ""
  },
  {
   "property": "C09",
   "status": "proved",
   "theorems": [
    "Verif.HistogramFilter.C09_median",
    "Verif.HistogramFilter.C09_medianFilter"
   ],
   "note": ""
  },
  {
   "property": "C10",
   "status": "partial",
   "theorems": [
    "Verif.HistogramFilter.C10_violated",
    "Verif.HistogramFilter.C10_violated_modalFilter",
    "Verif.HistogramFilter.C10_partial",
    "Verif.HistogramFilter.C10_range_partial",
    "Verif.HistogramFilter.C10_modalFilter_partial"
   ],
   "note": "The claim is false of the code: C10_violated proves its negation. The partial theorems cover histories where no full-window push displaces the mode."
  },
  {
   "property": "C11",
   "status": "proved",
   "theorems": [
    "Verif.MathMisc.C11_roundUp",
    "Verif.MathMisc.C11_roundUpDiv"
   ],
   "note": ""
  },
  {
   "property": "C12",
   "status": "partial",
   "theorems": [
    "Verif.MathMisc.C12_violated",
    "Verif.MathMisc.C12_partial",
    "Verif.MathMisc.C12_admissible_partial",
    "Verif.MathMisc.C12_simple_partial"
   ],
   "note": "Nearest-ness is false of the code: C12_violated. Proved: termination, admissible denominator, error below 1/max + 1e-9, admissible ratios reproduced; no fraction of denominator at most half the maximum lies between the ratio and the result."
  },
  {
   "property": "C13",
   "status": "partial",
   "theorems": [
    "Verif.StretchCalc.C13_partial",
    "Verif.StretchCalc.C13_violated",
    "Verif.StretchCalc.C13_violated_map"
   ],
   "note": "Proved for detection functions of length other than one and maps that rise and start at the beginning (or no map); the full statement is false (C13_violated, C13_violated_map)."
  },
  {
   "property": "C14",
   "status": "partial",
   "theorems": [
    "Verif.StretchCalc.C14_partial",
    "Verif.StretchCalc.C14_partial_map",
    "Verif.StretchCalc.C14_violated"
   ],
   "note": "Proved without a map for ratios of at least 1/2 + 3/(2 increment), and with a map that leaves room between key frames; false for smaller ratios (C14_violated)."
  },
  {
   "property": "C15",
   "status": "proved",
   "theorems": [
    "Verif.StretchCalc.C15_clamp"
   ],
   "note": "Any state, any detection value."
  },
  {
   "property": "C16",
   "status": "partial",
   "theorems": [
    "Verif.StretchCalc.C16_partial",
    "Verif.StretchCalc.C16_violated",
    "Verif.StretchCalc.C16_violated_small"
   ],
   "note": "False when the increment is left to the default (input counter stands still) or less than a quarter frame is due per call; otherwise an explicit bound holds for ever."
  },
  {
   "property": "C17",
   "status": "proved",
   "theorems": [
    "Verif.StretchCalc.C17_spacing"
   ],
   "note": "Spacing in calls times increment is at least a twentieth of a second."
  },
  {
   "property": "C18",
   "status": "partial",
   "theorems": [
    "Verif.StretchCalc.C18_partial",
    "Verif.StretchCalc.C18_violated"
   ],
   "note": "False for functions of one value (window read out of range); proved for all others."
  },
  {
   "property": "C19",
   "status": "proved",
   "theorems": [
    "Verif.BQ.C19_length",
    "Verif.BQ.C19_effective"
   ],
   "note": "Exact rational arithmetic for the ratio; 'sufficient space' means each call returned fewer frames than it had space for (C24_partial gives a sufficient size). Ratios of at least 1/40000."
  },
  {
   "property": "C20",
   "status": "proved",
   "theorems": [
    "Verif.BQ.C20_partition"
   ],
   "note": "Output space as in C19."
  },
  {
   "property": "C21",
   "status": "proved",
   "theorems": [
    "Verif.BQ.C21_bounds",
    "Verif.BQ.C22_planar"
   ],
   "note": "Interleaved calls, any history with changing ratios and resets (C21_bounds); planar calls in C22_planar."
  },
  {
   "property": "C22",
   "status": "proved",
   "theorems": [
    "Verif.BQ.C22_channels",
    "Verif.BQ.C22_same_sum",
    "Verif.BQ.C22_no_leak",
    "Verif.BQ.C22_planar"
   ],
   "note": "Equality with a mono resampler holds when the mono sum (v_multiply_and_sum) is computed as the multi-channel sum is (C22_same_sum): in C++ the former is in single and the latter in double precision."
  },
  {
   "property": "C23",
   "status": "partial",
   "theorems": [
    "Verif.BQ.C23_violated",
    "Verif.BQ.C23_partial"
   ],
   "note": "False: after a change of ratio, reset keeps the buffer of the state faded from (C23_violated). True for histories in which the ratio changed only at resets."
  },
  {
   "property": "C24",
   "status": "partial",
   "theorems": [
    "Verif.BQ.C24_violated",
    "Verif.BQ.C24_partial"
   ],
   "note": "False: ceil(incount*ratio) can be one frame too few (C24_violated). One frame more is always enough at a fixed ratio."
  },
  {
   "property": "C25",
   "status": "partial",
   "theorems": [
    "Verif.Scavenger.C25_once",
    "Verif.Scavenger.C25_not_early_violated",
    "Verif.Scavenger.C25_not_early_partial",
    "Verif.Scavenger.C25_timely"
   ],
   "note": "Each claimed object is deleted exactly once, and timely. 'Not before the delay' is false for objects that arrive when every slot is taken: C25_not_early_violated exhibits one deleted at once; C25_not_early_partial covers the others."
  },
  {
   "property": "C26",
   "status": "proved",
   "theorems": [
    "Verif.R3.C26_refused",
    "Verif.R3.C26_accepted",
    "Verif.R3.C26_end",
    "Verif.R3.C26_forever"
   ],
   "note": "For the R3 engine, over all call histories (phase is a function of the calls alone)."
  },
  {
   "property": "C27",
   "status": "proved",
   "theorems": [
    "Verif.R3.C27_count",
    "Verif.R3.C27_order"
   ],
   "note": "whole R3 control flow over any history of calls; spectral processing and resampler as parameters"
  },
  {
   "property": "C28",
   "status": "partial",
   "theorems": [
    "Verif.R3.C28_stream",
    "Verif.R3.forget_run",
    "Verif.R3.observed",
    "Verif.R3.C28_returns",
    "Verif.R3.C28_returns_violated"
   ],
   "note": "C28_stream with observed/forget_run: every frame reaches the analysis exactly once and in order, for all histories without pre-resampling. C28_returns: the calls return for bounded ratios and no key-frame map; for effective ratios beyond about 4096 the hop exceeds the FFT size and the code reads outside its buffers (C28_returns_violated)."
  },
  {
   "property": "C29",
   "status": "partial",
   "theorems": [
    "Verif.R3.C29_partial",
    "Verif.R3.C29_violated"
   ],
   "note": "Proved: the total written never passes the target when the target is positive (C29_partial). The full claim is false (C29_violated): a target that rounds to 0 is treated as no target, and everything is written."
  },
  {
   "property": "C30",
   "status": "proved",
   "theorems": [
    "Verif.R3.C30_hops",
    "Verif.R3.C30_preferred",
    "Verif.R3.C30_valid"
   ],
   "note": "exact rationals in place of doubles; NaN and infinities as arguments included"
  },
  {
   "property": "C31",
   "status": "partial",
   "theorems": [
    "Verif.R3.C31_violated",
    "Verif.R3.C31_partial"
   ],
   "note": "False for a map whose first key is 0 (both ratios are reset to 1); true for maps with positive keys."
  },
  {
   "property": "C32",
   "status": "proved",
   "theorems": [
    "Verif.R3.C32_transparent",
    "Verif.R3.C32_others"
   ],
   "note": "in any arithmetic where halving is exact"
  },
  {
   "property": "C33",
   "status": "proved",
   "theorems": [
    "Verif.R3.C33_once",
    "Verif.R3.C33_side",
    "Verif.R3.C33_needs"
   ],
   "note": "decision function for every configuration, and over histories"
  },
  {
   "property": "C34",
   "status": "proved",
   "theorems": [
    "Verif.R3.C34_enough",
    "Verif.R3.C34_needed"
   ],
   "note": "Enough: after as many frames as getSamplesRequired asks for, output is available. Needed: with fewer, process makes no output. Real time, without resampling of the output."
  },
  {
   "property": "C35",
   "status": "partial",
   "theorems": [
    "Verif.Guide.C35_partial",
    "Verif.Guide.C35_violated"
   ],
   "note": "False below 9600 Hz in multi-window mode: the third band runs backwards (C35_violated, 8000 Hz). Proved for single-window mode and for rates of at least 9600 Hz, over all frame histories."
  },
  {
   "property": "C36",
   "status": "proved",
   "theorems": [
    "Verif.Peak.C36_nearest_next",
    "Verif.Peak.C36_peak_exists"
   ],
   "note": ""
  },
  {
   "property": "C37",
   "status": "partial",
   "theorems": [
    "Verif.R2.C37_violated",
    "Verif.R2.C37_partial"
   ],
   "note": "The full statement is false of the code (division by zero for short windows at low rates when the pitch is raised in real time, C37_violated). C37_partial covers every other case, within an effective ratio of 2^20 either way; exact rationals."
  },
  {
   "property": "C38",
   "status": "partial",
   "theorems": [
    "Verif.R2.C38_partial",
    "Verif.R2.C38_exact",
    "Verif.R2.C38_unity",
    "Verif.R2.C38_violated"
   ],
   "note": "False of the code in general (C38_violated: studied input of 60 samples at ratio 1/2 gives 128). Proved after any history for ordinary offline configurations (pitch scale 1, rate 8000..192000, increments shorter than the window) and increments not longer than the target; C38_exact gives the exact length."
  },
  {
   "property": "C39",
   "status": "partial",
   "theorems": [
    "Verif.R2.C39_partial",
    "Verif.R2.past_forgotten",
    "Verif.R2.C39_violated"
   ],
   "note": "False of the code (C39_violated: after study, processing and reset, the stretch profile is still there: 450 samples against 408). Proved offline for ordinary configurations and histories of any calls but study: the totals are those of a new stretcher, and the samples too (channels apart) if the spectral state is the same and there is enough input for a frame. past_forgotten: two stretchers with any histories that agree in sizes and profile give the same. Missing: call-by-call amounts, real time."
  },
  {
   "property": "C40",
   "status": "partial",
   "theorems": [
    "Verif.R2.C40_partial",
    "Verif.R2.C40_violated"
   ],
   "note": "False of the code (C40_violated: the frame buffer keeps the end of the frame before). Proved offline for ordinary configurations with channels apart, after any history: what is heard of all frames that are full is what would be heard if the input were followed by zeros."
  },
  {
   "property": "C41",
   "status": "proved",
   "theorems": [
    "Verif.R2.C41_channels_in_step"
   ],
   "note": "Offline, every history of calls since construction; the resampler's counts are assumed to depend on counts alone (Counted). Calls that do not end or are undefined (none) are outside."
  },
  {
   "property": "C42",
   "status": "partial",
   "theorems": [
    "Verif.Live.C42_violated",
    "Verif.Live.C42_partial",
    "Verif.Live.resampler_counts"
   ],
   "note": "False of the code at very low pitch scales: C42_violated (1/20: second block is 417 frames). Proved for pitch scales from 1/15 to 7/2, any rate, any number of blocks; the resampler counts used are proved of the resampler model in resampler_counts."
  },
  {
   "property": "C43",
   "status": "proved",
   "theorems": [
    "Verif.R3.C43_cuts"
   ],
   "note": "all rates and inhops in range"
  },
  {
   "property": "C44",
   "status": "proved",
   "theorems": [
    "Verif.VectorOps.C44_interleave",
    "Verif.VectorOps.C44_round_trip",
    "Verif.VectorOps.C44_fftshift",
    "Verif.VectorOps.C44_fold"
   ],
   "note": "Fold: windowSize >= 2; when the window size equals the target size the size must be even, as every FFT size is."
  },
  {
   "property": "C45",
   "status": "partial",
   "theorems": [
    "Verif.R2.C45_partial",
    "Verif.R2.C45_later_partial",
    "Verif.R2.C45_violated"
   ],
   "note": "False of the code (C45_violated: a duration of 64 gives 16 samples instead of 128). Proved in real time, after any history since the last reset of which no duration was told: C45_partial, a duration of at least four increments changes nothing in what any later processing calls give; C45_later_partial, nor in what any later calls of every kind give (changes of the ratios, setMaxProcessSize, reset, setExpectedInputDuration itself), so long as at no time four increments are more than the duration. Missing: shorter durations, of which it is false."
  },
  {
   "property": "C46",
   "status": "partial",
   "theorems": [
    "Verif.BQ.C46_violated",
    "Verif.BQ.C46_partial"
   ],
   "note": "False: a fade in progress meeting a call with space for (or expecting) fewer than two frames divides by zero (C46_violated)."
  },
  {
   "property": "C47",
   "status": "partial",
   "theorems": [
    "Verif.BQ.C47_violated",
    "Verif.BQ.C47_partial"
   ],
   "note": "False only in the last filter tap, which the buffer may be too short for (C47_violated); the position is exact (C47_partial)."
  },
  {
   "property": "C48",
   "status": "partial",
   "theorems": [
    "Verif.BQ.C48_violated",
    "Verif.BQ.C48_partial"
   ],
   "note": "False for ratios below 1/384000 (C48_violated); true from 1/40000."
  },
  {
   "property": "C49",
   "status": "partial",
   "theorems": [
    "Verif.StretchCalc.C49_partial",
    "Verif.StretchCalc.C49_partial_map",
    "Verif.StretchCalc.C49_partial_le",
    "Verif.StretchCalc.C49_violated"
   ],
   "note": "As C14; never more increments than chunks for any ratio (C49_partial_le); false at ratio 1/2 (C49_violated)."
  },
  {
   "property": "C50",
   "status": "partial",
   "theorems": [
    "Verif.StretchCalc.C50_partial",
    "Verif.StretchCalc.C50_violated",
    "Verif.StretchCalc.C50_violated_short"
   ],
   "note": "False for windows of odd size early on and for functions shorter than half the window."
  },
  {
   "property": "C51",
   "status": "partial",
   "theorems": [
    "Verif.StretchCalc.C51_partial",
    "Verif.StretchCalc.C51_violated"
   ],
   "note": "False when time ratio and effective pitch ratio change by the same factor; true otherwise."
  },
  {
   "property": "C52",
   "status": "partial",
   "theorems": [
    "Verif.StretchCalc.C52_partial",
    "Verif.StretchCalc.C52_violated"
   ],
   "note": "Proved without a map; false with a key frame at a soft peak (C52_violated)."
  },
  {
   "property": "C53",
   "status": "partial",
   "theorems": [
    "Verif.StretchCalc.C53_partial",
    "Verif.StretchCalc.C53_violated"
   ],
   "note": "Proved for ratios of at least 1/2 + 3/(2 increment); false at ratio 1/2 (C53_violated)."
  },
  {
   "property": "C54",
   "status": "proved",
   "theorems": [
    "Verif.StretchCalc.C54_tight"
   ],
   "note": "Exact rationals in place of double; varying input increments allowed."
  },
  {
   "property": "C55",
   "status": "proved",
   "theorems": [
    "Verif.R3.C55"
   ],
   "note": "Whole histories, every signal processing; output not resampled."
  },
  {
   "property": "C56",
   "status": "partial",
   "theorems": [
    "Verif.R3.C56_partial",
    "Verif.R3.C56_violated"
   ],
   "note": "Proved for target 0 or at least the longest FFT size (C56_partial); false for shorter targets (C56_violated), because the clamp to the target counts the frames that are then skipped."
  },
  {
   "property": "C58",
   "status": "partial",
   "theorems": [
    "Verif.R3.C58_partial",
    "Verif.R3.C58_violated"
   ],
   "note": "Proved for resamplers that never return more than they are given (C58_partial). The full claim is false (C58_violated): room is made for the hop before resampling only, so with a lowered pitch the surplus is dropped."
  },
  {
   "property": "C59",
   "status": "partial",
   "theorems": [
    "Verif.Guide.C59_partial",
    "Verif.Guide.C59_violated"
   ],
   "note": "False: ChannelData::reset leaves the guidance, so the first frames after a reset use band limits of the old stream (C59_violated). Proved for single-window mode away from real-time unity."
  },
  {
   "property": "C60",
   "status": "proved",
   "theorems": [
    "Verif.Guide.C60_unity"
   ],
   "note": "Over the model of Guide.h; frames are those of any history whose segmentations lie within the spectrum."
  },
  {
   "property": "C61",
   "status": "partial",
   "theorems": [
    "Verif.Guide.C61_partial",
    "Verif.Guide.C61_violated"
   ],
   "note": "False: the comparison with the next frame uses unscaled magnitudes, so a frame is treated as pre-kick without a kick following (C61_violated). Proved: every kick was preceded by a pre-kick."
  },
  {
   "property": "C62",
   "status": "partial",
   "theorems": [
    "Verif.Segmenter.C62_partial",
    "Verif.Segmenter.C62_violated"
   ],
   "note": "Refuted as stated: an all-residual frame gets residualAbove = half the rate, with nothing above it (C62_violated). Proved over all sequences of frames: array safety, order, and every boundary's meaning; missing only outermostness of the first and third boundary for frames all percussive or all residual."
  },
  {
   "property": "C63",
   "status": "proved",
   "theorems": [
    "Verif.Classifier.C63_classify",
    "Verif.Classifier.C63_reset",
    "Verif.Classifier.C63_thresholds"
   ],
   "note": "Magnitudes are exact rationals."
  },
  {
   "property": "C64",
   "status": "proved",
   "theorems": [
    "Verif.PhaseAdvance.C64_unity",
    "Verif.PhaseAdvance.C64_after_reset",
    "Verif.PhaseAdvance.C64_unity_whole"
   ],
   "note": "Phases are exact elements of any ordered field with floor; pi any positive element. The theorems take calls that stay within the arrays (advance = some); C65 shows they do."
  },
  {
   "property": "C65",
   "status": "proved",
   "theorems": [
    "Verif.PhaseAdvance.C65_safe",
    "Verif.PhaseAdvance.C65_principal"
   ],
   "note": "All event sequences on all channels; phases are elements of an ordered field with a floor"
  },
  {
   "property": "C66",
   "status": "proved",
   "theorems": [
    "Verif.PhaseAdvance.C66_locked",
    "Verif.PhaseAdvance.C66_peak"
   ],
   "note": "For bins that follow a peak of their own channel; magnitudes and phases exact"
  },
  {
   "property": "C67",
   "status": "proved",
   "theorems": [
    "Verif.Synth.C67_analysed",
    "Verif.Synth.C67_preKick"
   ],
   "note": "All reachable guidance; transforms themselves not modelled"
  },
  {
   "property": "C68",
   "status": "partial",
   "theorems": [
    "Verif.Synth.C68_violated",
    "Verif.Synth.C68_partial"
   ],
   "note": "False as claimed: the fixed limits (500, 700, 4000, 4800 Hz) do not fall on bins and the scales overlap (C68_violated); exact join proved for every other limit the guide gives"
  },
  {
   "property": "C69",
   "status": "partial",
   "theorems": [
    "Verif.Synth.C69_violated",
    "Verif.Synth.C69_partial",
    "Verif.Synth.C69_partial_fresh",
    "Verif.R3.C69_frame"
   ],
   "note": "False as claimed: what is held back is forgotten when the expected kick does not come (C69_violated, cf. C61); conservation proved when each frame before a kick is followed by one. C69_frame: the same for a frame of the model of the spectra over the reals."
  },
  {
   "property": "C70",
   "status": "partial",
   "theorems": [
    "Verif.Live.C70_violated",
    "Verif.Live.C70_partial"
   ],
   "note": "False of the code at high pitch scales: C70_violated (5: first block refused). Proved for pitch scales from 1/15 to 7/2."
  },
  {
   "property": "C71",
   "status": "partial",
   "theorems": [
    "Verif.Live.C71_violated",
    "Verif.Live.C71_partial"
   ],
   "note": "False of the code at 8000 Hz and pitch scale 1/100: C71_violated. Proved for pitch scales from 1/15 to 7/2, with explicit bounds."
  },
  {
   "property": "C72",
   "status": "partial",
   "theorems": [
    "Verif.R2.C72_partial",
    "Verif.R2.C72_violated",
    "Verif.R2.thirds_is_builtin"
   ],
   "note": "Refuted in full: with three channels together, resampled before stretching, the last block can leave the third channel short (C72_violated; the resampler counts as the built-in one, thirds_is_builtin). C72_partial: at most two channels, or channels not processed together, or OptionPitchHighConsistency; for every resampler whose counts depend on counts alone, of which the built-in one is one (builtinCounted)."
  },
  {
   "property": "C73",
   "status": "partial",
   "theorems": [
    "Verif.R2.C73_partial",
    "Verif.R2.C73_violated"
   ],
   "note": "False of the code in real time with short input (C73_violated). Proved offline for ordinary configurations."
  },
  {
   "property": "C74",
   "status": "partial",
   "theorems": [
    "Verif.R2.C74_partial",
    "Verif.R2.C74_together_partial",
    "Verif.R2.C74_violated"
   ],
   "note": "False of the code for unstudied input (C74_violated: 95 against 448 samples). Proved for ordinary offline configurations, for every division and interleaving, for channels apart (C74_partial) and together (C74_together_partial)."
  },
  {
   "property": "C75",
   "status": "proved",
   "theorems": [
    "Verif.StretchCalc.C75_increments_bounded"
   ],
   "note": "Bounds on every increment of a profile without key frames, for every detection function; the bound of twice the share comes from a phase reset followed by a short region."
  },
  {
   "property": "C76",
   "status": "partial",
   "theorems": [
    "Verif.R2.C76_partial",
    "Verif.R2.C76_violated"
   ],
   "note": "False of the code for audio shorter than a window (C76_violated: 60 samples at 1/2 give 128). Proved at pitch scale 1, for at least a window of audio with a last block that is not empty, and ratios above 1/2 + 3/(2*increment); any history without study or key-frame maps before."
  },
  {
   "property": "C77",
   "status": "partial",
   "theorems": [
    "Verif.R2.C77_partial",
    "Verif.R2.C77_violated",
    "Verif.R2.C77_violated_long"
   ],
   "note": "False of the code for an empty last block (C77_violated) and for a long one (C77_violated_long). Proved for last blocks that are not empty and not longer than a window, after any history: the states after the two studies are equal."
  },
  {
   "property": "C78",
   "status": "proved",
   "theorems": [
    "Verif.R2.C78_mid_side"
   ],
   "note": "By simulation: a run with channels together is the run with channels apart on mid and side, with the output turned back (run_apart); the channels being in step (C41), the whole of every output is turned back. Where the input is resampled before being stretched (real time without high consistency) is not covered."
  },
  {
   "property": "C79",
   "status": "proved",
   "theorems": [
    "Verif.FFT.C79_builtin",
    "Verif.FFT.C79_dft_forward",
    "Verif.FFT.C79_dft_inverse",
    "Verif.FFT.C79_picked"
   ],
   "note": "Exact over the reals; rounding not modelled. The built-in transform for every power of two up to 2^31 and any history, the slow transform for any size, and the choice between them. A size of 0 is excluded (an FFT of size 0 set to the built-in transform would not end)."
  },
  {
   "property": "C80",
   "status": "proved",
   "theorems": [
    "Verif.FFT.C80_round_trip",
    "Verif.FFT.C80_polar",
    "Verif.FFT.C80_dft"
   ],
   "note": "Exact over the reals, both transforms, cartesian and (built-in) polar."
  },
  {
   "property": "C81",
   "status": "proved",
   "theorems": [
    "Verif.R2Modify.C81_steady"
   ],
   "note": "modifyChunk is modelled over an ordered field with a floor; phases, errors and unwrapped phases as the code keeps them."
  },
  {
   "property": "C82",
   "status": "partial",
   "theorems": [
    "Verif.R2Modify.C82_partial",
    "Verif.R2Modify.C82_violated",
    "Verif.R2Modify.C82_violated_reset"
   ],
   "note": "False in general: with laminar phases, inherited phases at a distance of two bins or more mix in the advance, so what is remembered differs from the unchanged frame put out (C82_violated); reset() sets the flag but keeps old phases (C82_violated_reset). Proved for independent phases without reset."
  },
  {
   "property": "C83",
   "status": "partial",
   "theorems": [
    "Verif.R2Modify.C83_partial",
    "Verif.R2Modify.C83_violated"
   ],
   "note": "False in general: bins between 16 kHz and the topmost are never reset at ratio 1 (C83_violated). Proved for independent phases and bins up to 16 kHz."
  },
  {
   "property": "C84",
   "status": "proved",
   "theorems": [
    "Verif.R2.C84_unity",
    "Verif.R2.C84_together"
   ],
   "note": "With nothing changed, offline, all audio comes out with a fixed gain per position: channels apart (C84_unity) and together (C84_together)."
  },
  {
   "property": "C85",
   "status": "partial",
   "theorems": [
    "Verif.R2.C85_partial",
    "Verif.R2.C85_violated",
    "Verif.R2.unity_sizes"
   ],
   "note": "False as stated: for 44.1 kHz the first sample is more than 8% too loud (C85_violated). Proved from half a window after the beginning to half a window before the end: within 4*(window mod increment)/window, which by unity_sizes is at most 1/16, and 1/256 for windows of 2048 and more, without an expected duration."
  },
  {
   "property": "C86",
   "status": "proved",
   "theorems": [
    "Verif.AudioCurve.C86_range"
   ],
   "note": "Never a fault, one value per frame, in [0,1]; the values of compound and soft."
  },
  {
   "property": "C87",
   "status": "partial",
   "theorems": [
    "Verif.AudioCurve.C87_violated",
    "Verif.AudioCurve.C87_partial"
   ],
   "note": "Refuted in full (the rising count survives a reset); proved from the fifth frame on, and for the percussive detector from the first on."
  },
  {
   "property": "C88",
   "status": "partial",
   "theorems": [
    "Verif.AudioCurve.C88_violated",
    "Verif.AudioCurve.C88_partial",
    "Verif.AudioCurve.C88_soft_partial"
   ],
   "note": "Refuted in full (magnitudes are compared to 10^-8); proved where no magnitude changes sides of 10^-8, and for the soft detector without any condition."
  },
  {
   "property": "C89",
   "status": "proved",
   "theorems": [
    "Verif.AudioCurve.C89_steady"
   ],
   "note": "All detectors, after any history, from the twentieth equal frame on."
  },
  {
   "property": "C90",
   "status": "partial",
   "theorems": [
    "Verif.Plugin.C90_violated",
    "Verif.Plugin.C90_partial",
    "Verif.Plugin.C90_mix_partial"
   ],
   "note": "False in full: after a block of more than 9216 samples the dry signal has lost samples for good (C90_violated). Proved for blocks up to that size, all dry and for any mix above 0."
  },
  {
   "property": "C91",
   "status": "proved",
   "theorems": [
    "Verif.Plugin.C91_wet"
   ],
   "note": "The stretcher is a parameter with a contract on its history."
  },
  {
   "property": "C92",
   "status": "proved",
   "theorems": [
    "Verif.Plugin.Live.C92_live"
   ],
   "note": "The shifter is a parameter with a contract: a block for a block."
  },
  {
   "property": "C93",
   "status": "partial",
   "theorems": [
    "Verif.Plugin.Live.C93_violated",
    "Verif.Plugin.Live.C93_partial"
   ],
   "note": "False in full: the block gathered before shifting is in the reported latency but not in the delay of the dry signal (C93_violated). Proved: the delay is exactly the start delay the shifter had when the plugin was made."
  },
  {
   "property": "C94",
   "status": "proved",
   "theorems": [
    "Verif.Cli.C94_output",
    "Verif.Cli.C94_quiet"
   ],
   "note": "The stretcher is a parameter with a history; exact arithmetic."
  },
  {
   "property": "C95",
   "status": "proved",
   "theorems": [
    "Verif.Cli.C95_ends"
   ],
   "note": "The stretcher is a parameter; exact arithmetic."
  },
  {
   "property": "C96",
   "status": "partial",
   "theorems": [
    "Verif.Cli.C96_partial",
    "Verif.Cli.C96_violated"
   ],
   "note": "Refuted in full: a header that gives fewer frames than there are cuts the file short; proved otherwise."
  },
  {
   "property": "C97",
   "status": "proved",
   "theorems": [
    "Verif.Cli.C97_map"
   ],
   "note": "The stretcher is a parameter; entries of the map in order."
  },
  {
   "property": "C98",
   "status": "proved",
   "theorems": [
    "Verif.R2.C98_level",
    "Verif.R2.C98_builtin"
   ],
   "note": "Over the exact reals, with the transform of C44; formant preservation excluded; the detection functions are parameters that have to follow the level, and so is the resampler in C98_level; C98_builtin is with the built-in resampler, of which nothing is assumed"
  },
  {
   "property": "C99",
   "status": "proved",
   "theorems": [
    "Verif.R2.C99_silence",
    "Verif.R2.C99_builtin"
   ],
   "note": "Over the exact reals, with the transform of C44; 0/0 counts as 0 here, where the divisor is 0 see C100; the resampler is a parameter that gives silence for silence in C99_silence, the built-in one in C99_builtin, which also has the engine's own preservation of formants, at a pitch scale that is left alone"
  },
  {
   "property": "C100",
   "status": "partial",
   "theorems": [
    "Verif.R2.C100_partial",
    "Verif.R2.C100_violated"
   ],
   "note": "Violated: a key-frame map for which a chunk is given exactly as much output as the window is long (8000 Hz: 170 to 1024) makes one sample not a number. Proved offline, without pitch shift, if each chunk is given less than a window of output"
  },
  {
   "property": "C101",
   "status": "proved",
   "theorems": [
    "Verif.Plugin.C101_again",
    "Verif.Plugin.Live.C101_live"
   ],
   "note": "All three plugins; for the live plugin the shifter is assumed to fill its blocks (else what is left in the output block would be heard, see C42)"
  },
  {
   "property": "C102",
   "status": "proved",
   "theorems": [
    "Verif.Plugin.C102_controls",
    "Verif.Plugin.Live.C102_live"
   ],
   "note": "All three plugins; the stretcher is a parameter that keeps its settings until told otherwise (its pitch scale may be lost in a reset)"
  },
  {
   "property": "C103",
   "status": "proved",
   "theorems": [
    "Verif.BQ.C103_linear"
   ],
   "note": "Over the exact reals with a value that is not a number (which a cross-fade of length 0 makes, C46); filter values arbitrary; interleaved calls (C22 relates planar calls to them)"
  },
  {
   "property": "C104",
   "status": "partial",
   "theorems": [
    "Verif.R3.C104_formula",
    "Verif.R3.C104_partial",
    "Verif.R3.C104_whole",
    "Verif.R3.C104_nyquist",
    "Verif.R3.C104_violated"
   ],
   "note": "C104_formula gives every output sample: a gain that depends on the position only, times the input, less what was in the two highest bins of the frames there. C104_partial: the gain is 1 at the rates at which hops fit windows (up to 65536 with several windows, above 32768 with one), from half a transform after the beginning; the audio comes back wherever frames have nothing in their two highest bins. C104_whole: as many samples as went in can be had. The full claim is refuted: a tone at half the sample rate comes out as silence. With OptionFormantPreserved the formant scale has to stay 0 or 1."
  },
  {
   "property": "C105",
   "status": "proved",
   "theorems": [
    "Verif.R3.C105",
    "Verif.R3.C105_polar"
   ],
   "note": "An access outside an array is none in the spectral model; no history gives it. C105_polar: the bins converted to polar form are within the arrays. The kicks' bins are C67."
  },
  {
   "property": "C106",
   "status": "partial",
   "theorems": [
    "Verif.R3.C106_builtin",
    "Verif.R3.C106_partial",
    "Verif.R3.C106_steady_partial",
    "Verif.R3.C106_constant_partial",
    "Verif.R3.C106_forgotten",
    "Verif.R3.C106_new"
   ],
   "note": "Over the reals, with the built-in resampler. C106_builtin: from creation on, with any changes and resets. C106_partial: after a reset if no resampler was ever made. C106_steady_partial: after a reset, whatever was played before it, if before it the pitch scale was only changed up to the first process after creation or an earlier reset; C106_constant_partial: in particular if it was given at creation and left. C106_forgotten: with any resampler that forgets on that reset. Missing: changes of the pitch scale while running; the built-in resampler by itself then keeps old audio (C23_violated)."
  },
  {
   "property": "C107",
   "status": "partial",
   "theorems": [
    "Verif.R3.C107_partial",
    "Verif.R3.C107_formula",
    "Verif.R3.C107_violated"
   ],
   "note": "refuted as claimed (C107_violated: a tone at half the sample rate is taken away); proved at rates above 32768 from half a transform after the silence on, where the frames have nothing in their two highest bins; C107_formula gives all of the output; over the reals. With OptionFormantPreserved the formant scale has to stay 0 or 1."
  },
  {
   "property": "C108",
   "status": "proved",
   "theorems": [
    "Verif.R3.C108",
    "Verif.R3.C108_same"
   ],
   "note": "any history, any pair of channels, mid/side included; C108_same for any resampler that treats equal channels equally, C108 with the built-in one. Over the reals, with or without OptionFormantPreserved, pitch scales up to 40000"
  },
  {
   "property": "C109",
   "status": "partial",
   "theorems": [
    "Verif.R2.Threads.C109_violated",
    "Verif.R2.Threads.C109_partial",
    "Verif.R2.Threads.C109_small",
    "Verif.R2.Threads.C109_safe",
    "Verif.R2.Threads.C109_always"
   ],
   "note": "Refuted in full (C109_violated): what is retrieved while a thread has copied its output buffer into a longer one, and not yet put this in its place, is retrieved twice; shown by turns of two channels at 8000 Hz with 8300 samples, put together by induction. Otherwise any interleaving of the threads and the user, a step for each access to shared state; the invariant Phase says for each point of a thread what its channel holds. Holds if nothing is read just then, which is shown never to happen if all the output and a window fit into the buffers (C109_small). C109_safe and C109_always: every turn can be taken, the latter whatever the user asks for. Missing: pitch shifting, channels turned into mid and side."
  },
  {
   "property": "C110",
   "status": "partial",
   "theorems": [
    "Verif.R2.Threads.C110_violated",
    "Verif.R2.Threads.C110_partial"
   ],
   "note": "Refuted in full: the threads can come to their end between the two loads in available(). Holds when -1 was given twice running."
  },
  {
   "property": "C111",
   "status": "partial",
   "theorems": [
    "Verif.R2.Threads.C111_violated",
    "Verif.R2.Threads.C111_partial"
   ],
   "note": "Refuted in full: samples of a channel that is ahead are read and lost. Holds if no more is asked for than available() said: then each retrieve gives all that was asked for, in each channel."
  },
  {
   "property": "C112",
   "status": "proved",
   "theorems": [
    "Verif.R2.Threads.C112_always",
    "Verif.R2.Threads.C112_end",
    "Verif.R2.Threads.C112_wait"
   ],
   "note": "A measure that becomes less with every turn of a thread (step_less), bounded by the sizes of the buffers; any interleaving with the other threads and with a user who asks for anything at any time (a simulation by a system whose output buffers are never replaced and never read, R2ThreadsGhost). C112_end: what is then in the output buffer, if no more was retrieved than available() said and nothing was read during a replacement. C112_wait: a user who waits gets there. Waits of the code, bounded in time, are turns not given."
  },
  {
   "property": "C113",
   "status": "proved",
   "theorems": [
    "Verif.R2.Threads.C113"
   ],
   "note": "Rounds in which every thread has so many turns and the caller three for each channel and two, in any order; whatever was called before (any amounts retrieved at any time). In two rounds at least one sample is taken or the call returns. Nothing is assumed to go well: that every turn can be taken is part of the conclusion. Waits of the code, bounded in time, are turns not given."
  },
  {
   "property": "C114",
   "status": "partial",
   "theorems": [
    "Verif.R2.C114_violated",
    "Verif.R2.C114_partial",
    "Verif.R2.C114_studied_partial"
   ],
   "note": "False of the code (C114_violated): after a study, an empty final block makes channel 0 play a magnitude the study left in its frame buffer. C114_partial: true of all histories without a study, offline and in real time. C114_studied_partial: true of all histories with studies too, unless the input is ended by an empty block with nothing given to process since the engine was made, reset or configured anew (rates 8000 to 192000; that a reset forgets what a study did to the spectral state is granted). Missing: channels together (mid/side), which the statement excludes."
  },
  {
   "property": "C115",
   "status": "partial",
   "theorems": [
    "Verif.R2.C115_violated",
    "Verif.R2.C115_partial",
    "Verif.R2.C115_nominal_partial",
    "Verif.R2.C115_asks"
   ],
   "note": "Refuted in full: told a duration of 4 samples and at half the duration, the engine in real time asks for 1024 samples and makes nothing of them (increment 1, of which each chunk makes round(1/2) = 0 samples). Proved in real time for every history before the end without a pitch shift, if no duration has been told (C115_partial), or whatever has been told if an input increment makes two samples or more (C115_nominal_partial); that something is asked for whenever nothing is available is proved for all histories and pitch scales (C115_asks). Missing: pitch shifts, where how much a resampler gives depends on the resampler, and OptionPitchHighConsistency."
  },
  {
   "property": "C116",
   "status": "partial",
   "theorems": [
    "Verif.R2.C116_violated",
    "Verif.R2.C116_partial"
   ],
   "note": "Refuted in full: the output length is capped at (input so far) x (ratio now) only if it has not been exceeded when the end becomes known, so after a change of ratio in real time the total depends on how the last input is cut. Partial: any history and any two ways of cutting and retrieving before the end of the input; missing: the end, and resampling before stretching; more than two channels only if not processed together."
  },
  {
   "property": "C117",
   "status": "partial",
   "theorems": [
    "Verif.Formant.C117_partial",
    "Verif.Formant.C117_smooth",
    "Verif.Formant.C117_unity",
    "Verif.Formant.C117_violated"
   ],
   "note": "The full claim, with what the documentation says of the formant scale without OptionFormantPreserved, is refuted (C117_violated). With the option: no access outside an array and each magnitude multiplied by the ratio of the envelopes within 1/60..60 (C117_partial); for smooth spectra this is the magnitude itself where it is moved from (C117_smooth); nothing is changed without a shift (C117_unity)."
  },
  {
   "property": "C118",
   "status": "partial",
   "theorems": [
    "Verif.Formant.C118_partial",
    "Verif.Formant.C118_unity",
    "Verif.Formant.C118_violated"
   ],
   "note": "The full claim is refuted: the code takes the square root of the envelope for the envelope (C118_violated). Proved: no access outside an array, and each magnitude multiplied by the square root of the ratio of the smoothed spectra where it will be heard and where it is (C118_partial); nothing is done without the option or the shift (C118_unity)."
  },
  {
   "property": "C119",
   "status": "proved",
   "theorems": [
    "Verif.LiveAudio.C119"
   ],
   "note": "Over the reals; pitch scales within PitchOk; formant scales and options set at any time."
  },
  {
   "property": "C120",
   "status": "proved",
   "theorems": [
    "Verif.LiveAudio.C120"
   ],
   "note": "Over the reals; pitch scales within PitchOk; formant scales and options set at any time."
  },
  {
   "property": "C121",
   "status": "proved",
   "theorems": [
    "Verif.LiveAudio.C121"
   ],
   "note": "Over the reals; pitch scales within PitchOk; formant scales and options set at any time."
  },
  {
   "property": "C122",
   "status": "partial",
   "theorems": [
    "Verif.LiveAudio.C122_partial"
   ],
   "note": "Proved if before the reset the pitch scale was changed only before the first block after creation or an earlier reset. Missing: changes of the pitch scale between blocks, after which the built-in resampler by itself keeps old audio over a reset (C23_violated)."
  },
  {
   "property": "C123",
   "status": "proved",
   "theorems": [
    "Verif.Vamp.C123"
   ],
   "note": "For audio of a single step the peak finder may read outside its array (C18), so that case is excluded."
  },
  {
   "property": "C124",
   "status": "partial",
   "theorems": [
    "Verif.Vamp.C124_partial",
    "Verif.Vamp.C124_violated"
   ],
   "note": "Refuted as stated (C124_violated): reset() clears neither m_counter nor m_accumulatedIncrement, and offline the stretcher keeps its increments and curve. Proved: exactly what is left behind in real time."
  },
  {
   "property": "C125",
   "status": "partial",
   "theorems": [
    "Verif.Vamp.C125_partial",
    "Verif.Vamp.C125_violated"
   ],
   "note": "Refuted as stated (C125_violated): the end of the input is told in a call of study() without samples, so the last half window is never analysed. Proved: exactly how far the analysis gets, and the accumulated time there."
  },
  {
   "property": "C126",
   "status": "proved",
   "theorems": [
    "Verif.Vamp.C126"
   ],
   "note": ""
  },
  {
   "property": "C127",
   "status": "partial",
   "theorems": [
    "Verif.Vamp.C127_partial",
    "Verif.Vamp.C127_violated"
   ],
   "note": "Refuted as stated (C127_violated): of the chunks of one call the stretcher keeps only 16. Proved for calls with at most 16 chunks."
  },
  {
   "property": "C128",
   "status": "proved",
   "theorems": [
    "Verif.CliMaps.C128",
    "Verif.CliMaps.C128_time",
    "Verif.CliMaps.C128_freq"
   ],
   "note": "The files' characters are modelled; the second column of frequency and pitch maps is what a parameter (atof) makes of it. A carriage return before an end of line is let pass."
  },
  {
   "property": "C129",
   "status": "partial",
   "theorems": [
    "Verif.CliMaps.C129_violated",
    "Verif.CliMaps.C129_partial",
    "Verif.CliMaps.C129_violated_negative"
   ],
   "note": "Refuted: columns that are not numbers are taken for 0. Proved for lines without a second column, wherever they are; the line told of is counted from 0. C129_violated_negative: no negative frame is refused."
  },
  {
   "property": "C130",
   "status": "proved",
   "theorems": [
    "Verif.CliOptions.C130"
   ],
   "note": "Of what getopt_long makes of the arguments; the options of the stretcher are the bits of RubberBandStretcher.h."
  },
  {
   "property": "C131",
   "status": "proved",
   "theorems": [
    "Verif.CliOptions.C131"
   ],
   "note": "Exact arithmetic; pow(2.0, x / 12.0) is a parameter that is 1 at 0."
  },
  {
   "property": "C132",
   "status": "partial",
   "theorems": [
    "Verif.CliOptions.C132_violated",
    "Verif.CliOptions.C132_violated_frequency",
    "Verif.CliOptions.C132_partial"
   ],
   "note": "Refuted: a negative --duration gives a negative time ratio, and --frequency 0 a pitch scale of 0. Proved if no duration given is negative and no frequency 0 or negative, whatever the numbers for --time, --tempo and --pitch."
  },
  {
   "property": "C133",
   "status": "proved",
   "theorems": [
    "Verif.CliOptions.C133"
   ],
   "note": ""
  },
  {
   "property": "C134",
   "status": "partial",
   "theorems": [
    "Verif.CliOptions.C134_violated",
    "Verif.CliOptions.C134_partial"
   ],
   "note": "Refuted: level 6 makes the finer engine single-windowed. Proved for the other levels if --window-short is not given."
  },
  {
   "property": "C135",
   "status": "proved",
   "theorems": [
    "Verif.CliOptions.C135"
   ],
   "note": ""
  },
  {
   "property": "C136",
   "status": "proved",
   "theorems": [
    "Verif.Jni.C136"
   ],
   "note": "Calls that pass arrays; the stretcher is a parameter; other threads write between any two steps, elsewhere."
  },
  {
   "property": "C137",
   "status": "partial",
   "theorems": [
    "Verif.Jni.C137_violated",
    "Verif.Jni.C137_partial",
    "Verif.Jni.C137_alone_partial"
   ],
   "note": "Refuted: ReleaseFloatArrayElements with mode 0 writes the whole copy back and loses what other threads wrote meanwhile to other parts. Proved for arrays that are not copied or not written meanwhile."
  },
  {
   "property": "C138",
   "status": "proved",
   "theorems": [
    "Verif.Jni.C138"
   ],
   "note": ""
  },
  {
   "property": "C139",
   "status": "proved",
   "theorems": [
    "Verif.Jni.C139",
    "Verif.Jni.C139_needs_separate"
   ],
   "note": "Without other threads. Also shown: in place per channel works; that separate arrays are needed."
  },
  {
   "property": "C140",
   "status": "proved",
   "theorems": [
    "Verif.Jni.C140"
   ],
   "note": ""
  },
  {
   "property": "C141",
   "status": "proved",
   "theorems": [
    "Verif.ScavengerConc.C141",
    "Verif.ScavengerConc.C141_delay"
   ],
   "note": "One thread that claims and one that scavenges, a step per access to a shared variable; sequential consistency is assumed."
  },
  {
   "property": "C142",
   "status": "partial",
   "theorems": [
    "Verif.ScavengerConc.C142_violated",
    "Verif.ScavengerConc.C142_partial",
    "Verif.ScavengerConc.C142_safe_partial"
   ],
   "note": "Refuted: two threads find the same slot free and one object is never deleted. Kept with any number of threads: none is deleted more often than it was claimed. With one thread that claims all are deleted."
  },
  {
   "property": "C143",
   "status": "proved",
   "theorems": [
    "Verif.Alloc.C143",
    "Verif.Alloc.C143_reallocate",
    "Verif.Alloc.C143_zero",
    "Verif.Alloc.C143_channels",
    "Verif.Alloc.C143_extended"
   ],
   "note": "For blocks and for channels; with exceptions at any request. The memory of the heap is modelled as blocks of cells, and requests that the system refuses are arbitrary. Sizes in bytes are supposed to fit into size_t (see C145)."
  },
  {
   "property": "C144",
   "status": "partial",
   "theorems": [
    "Verif.Alloc.C144_violated",
    "Verif.Alloc.C144_partial"
   ],
   "note": "Refuted: allocate_channels and those built on it leak the channels that they have when a further one fails (C144_violated). Proved: nothing that there was is lost with any call, and with calls for one block nothing stays behind."
  },
  {
   "property": "C145",
   "status": "partial",
   "theorems": [
    "Verif.Alloc.C145_violated",
    "Verif.Alloc.C145_partial",
    "Verif.Alloc.C145_stl",
    "Verif.Alloc.C145_own"
   ],
   "note": "Refuted: the number of bytes wraps around (C145_violated). Proved if it fits into size_t, for the allocator for containers with any number of elements, and for the aligned allocation of its own."
  },
  {
   "property": "C146",
   "status": "partial",
   "theorems": [
    "Verif.Threads.C146_violated",
    "Verif.Threads.C146_partial"
   ],
   "note": "Refuted: with the end on a whole second the time given is not valid and the wait ends at once (C146_violated). Proved for all other times; and that it does not wait at all then."
  },
  {
   "property": "C147",
   "status": "proved",
   "theorems": [
    "Verif.Threads.C147"
   ],
   "note": "With the thread checks (NO_THREAD_CHECKS not defined), on POSIX, with sequentially consistent memory."
  },
  {
   "property": "C148",
   "status": "proved",
   "theorems": [
    "Verif.Threads.C148",
    "Verif.Threads.C148_exclusive"
   ],
   "note": "On POSIX, with sequentially consistent memory. One thread waits; the others provide and signal."
  },
  {
   "property": "C149",
   "status": "proved",
   "theorems": [
    "Verif.BQ.C149",
    "Verif.BQ.makeFilter_even"
   ],
   "note": "Over the reals, with the filter as make_filter makes it. Each output sample may leave out the outermost input sample under the filter on one side (C47), which the statement allows for."
  },
  {
   "property": "C150",
   "status": "partial",
   "theorems": [
    "Verif.R2.C150_partial",
    "Verif.R2.C150_violated"
   ],
   "note": "Refuted in full: what the resampler gives for the last block may not fit and is dropped, and the block is given to it again (C150_violated). C150_partial: as long as no block was the last; for every resampler that is Modest, of which the built-in one is one if the ratio is a fraction that it can use (builtinModest)."
  },
  {
   "property": "C151",
   "status": "partial",
   "theorems": [
    "Verif.R2Modify.C151_partial",
    "Verif.R2Modify.C151_violated",
    "Verif.R2Modify.C151_violated_start"
   ],
   "note": "Refuted in full. With the default laminar phases a bin inherits from the bin above a fraction of a difference of phases, which changes by whole turns when the audio is inverted (C151_violated, with a reset at the first chunk as offline); with independent phases and no reset at first, as in real time, the first phases are taken as an advance from 0 and stretched (C151_violated_start). Proved for any angle: with independent phases, from the first chunk in which the bin is reset on, whatever came before, until the sizes change. The witnesses are sequences of spectra as the function takes them; audio whose overlapping frames have these spectra is not derived."
  },
  {
   "property": "C152",
   "status": "partial",
   "theorems": [
    "Verif.PhaseAdvance.C152_partial",
    "Verif.PhaseAdvance.C152_violated",
    "Verif.PhaseAdvance.C152_violated_start"
   ],
   "note": "Refuted in full. A bin locked to a peak takes beta times the difference of their phases, which changes by a whole turn when the audio is inverted (C152_violated, after a frame in which all phases are reset); and without a reset at first the first phase is taken as an advance from 0 and stretched (C152_violated_start). Proved for any angle, any number of channels, hops and guidance: from a frame in which the bin is reset, whatever came before, as long as it is reset again, or hops are equal, or its frequency is not locked, or it is a peak that stays in its bin. The witnesses are sequences of spectra as the function takes them; audio whose overlapping frames have these spectra is not derived."
  },
  {
   "property": "C153",
   "status": "proved",
   "theorems": [
    "Verif.PhaseAdvance.C153_tied",
    "Verif.PhaseAdvance.C153_range"
   ],
   "note": "From any state with arrays of the right size. The channels are those analysed: left and right, or middle and side with OptionChannelsTogether and two channels."
  },
  {
   "property": "C154",
   "status": "proved",
   "theorems": [
    "Verif.CApi.C154",
    "Verif.CApi.C154_options"
   ],
   "note": "C154: whole programs that use the C interface, with the engines as parameters; replies of 2^32 and more are given modulo 2^32. C154_options: the two tables of constants, any list of names. Not modelled: loggers, default debug level, C functions of the live shifter."
  },
  {
   "property": "C155",
   "status": "proved",
   "theorems": [
    "Verif.R2.Threads.C155",
    "Verif.R2.Threads.C155_waits"
   ],
   "note": "Rounds in which every thread has so many turns (bounded by the input buffer and the window) and the caller one, in any order; three rounds for each channel. Every turn can be taken, and when the caller has nobody left to wait for all threads have ended (C155_waits, without fairness). The plain bool m_abandoning is taken to be seen by later loads; the bounded wait of 50 ms is turns not given. What reset does after the threads have ended is modelled elsewhere (C39)."
  },
  {
   "property": "C156",
   "status": "proved",
   "theorems": [
    "Verif.PluginPorts.C156_ports",
    "Verif.PluginPorts.C156_announced",
    "Verif.PluginPorts.C156_pitch",
    "Verif.PluginPorts.C156_plugins"
   ],
   "note": "Numbers are exact reals, so values that are not numbers and rounding are left out; defaults of the ranges are not modelled. What the plugins do with the controls and the audio is in C91, C92 and the others about plugins."
  },
  {
   "property": "C157",
   "status": "proved",
   "theorems": [
    "Verif.VampParams.C157_parameters",
    "Verif.VampParams.C157_stretcher",
    "Verif.VampParams.C157_outputs"
   ],
   "note": "Floats are exact rationals. Before getOutputDescriptors() is called all features are given for output 0; the SDK's adapter calls it first. What the plugin shows is in C123 to C127."
  },
  {
   "property": "C158",
   "status": "proved",
   "theorems": [
    "Verif.JavaApi.C158",
    "Verif.JavaApi.C158_options"
   ],
   "note": "The engines and the live shifter are parameters. Arrays are values here (what becomes of them is in C136 to C140); one thread; no call after dispose() (that is a null pointer); the finer points of failing allocations are left out."
  },
  {
   "property": "C159",
   "status": "proved",
   "theorems": [
    "Verif.CApiLive.C159"
   ],
   "note": "Whole programs with any number of live shifters; the shifter itself is a parameter (modelled elsewhere)."
  },
  {
   "property": "C160",
   "status": "partial",
   "theorems": [
    "Verif.DebugLevel.C160_partial",
    "Verif.DebugLevel.C160_unset_partial",
    "Verif.DebugLevel.C160_offline_partial",
    "Verif.DebugLevel.C160_violated",
    "Verif.DebugLevel.C160_violated_silent"
   ],
   "note": "False of the code (C160_violated: made when the default is 2 and set to 0, a stretcher still reports what the calculator tells at level 2; C160_violated_silent: the other way). Proved for the engine, guide and guided phase advances after any history (C160_partial), for all parts where setDebugLevel is not called (C160_unset_partial), and for the calculator of an offline stretcher of the faster engine after it is reconfigured (C160_offline_partial). Missing: calculator and resamplers otherwise, of which it is false."
  },
  {
   "property": "C161",
   "status": "partial",
   "theorems": [
    "Verif.R2.Windows.C161_used",
    "Verif.R2.Windows.C161_partial",
    "Verif.R2.Windows.C161_violated",
    "Verif.R2.Windows.C161_violated_fft"
   ],
   "note": "C161_used: the window, filter and FFT in use are always there and of the sizes in use (any ratios). C161_partial: none is made after construction for moderate ratios. In full it is false (C161_violated, C161_violated_fft: time ratio 1/20 at 44100 needs a window of 8192)."
  }
 ]
}
