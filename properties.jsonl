{"id": "C01", "title": "Ring buffer is a bounded FIFO", "statement": "Starting from a freshly constructed ring buffer of capacity n, after any sequence of write, zero, read, readAdding, readOne, peek, peekOne, skip and reset calls, the samples handed out by the reading calls are exactly the samples that were accepted by the writing calls, in order, each once; every call transfers min(requested, possible) samples and returns that number; read space plus write space is always n.", "quantifier": "all capacities n, all element types, all finite sequences of calls with any non-negative counts and any sample values", "why_tests_cant": "the wrap-around arithmetic depends on the full history of the two indices; only a proof over all histories covers every index pair and count", "anchors": ["src/common/RingBuffer.h: RingBuffer::write, zero, read, readAdding, readOne, peek, peekOne, skip, reset, getReadSpace, getWriteSpace"]}
{"id": "C02", "title": "Ring buffer is safe with one writer and one reader thread", "statement": "With one thread only writing and another only reading, under every interleaving of their individual loads, stores and per-element copies, the reader obtains exactly a prefix of the stream of samples accepted by the writer: nothing is lost, duplicated, reordered, or seen before it was completely written, and the writer never overwrites a sample not yet read.", "quantifier": "all capacities, all pairs of programs (lists of read/skip/peek and write/zero calls) and all interleavings of their atomic steps", "why_tests_cant": "races appear only under particular schedules; a test executes a handful of them", "anchors": ["src/common/RingBuffer.h: RingBuffer::write, read, skip, peek, m_writer, m_reader"]}
{"id": "C03", "title": "Ring buffer space reports are safe under concurrency", "statement": "If the reader thread observes getReadSpace() = k then, however the writer runs meanwhile, a following read of at most k samples returns all of them; symmetrically if the writer thread observes getWriteSpace() = k then a following write of at most k samples is accepted in full.", "quantifier": "all reachable concurrent states and all interleavings between the query and the call", "why_tests_cant": "needs all schedules between a check and its use", "anchors": ["src/common/RingBuffer.h: getReadSpace, getWriteSpace, read, write"]}
{"id": "C04", "title": "Resizing a ring buffer keeps its unread contents", "statement": "resized(m) returns a buffer of capacity m containing exactly the unread samples of the original in the same order (the oldest m of them if they do not all fit) and leaves the original unchanged.", "quantifier": "all reachable buffer states and all new capacities", "why_tests_cant": "depends on the wrap position of the unread region in every state", "anchors": ["src/common/RingBuffer.h: RingBuffer::resized"]}
{"id": "C05", "title": "Short reads zero-fill the remainder", "statement": "When fewer than n samples are available, read/peek of n samples leaves the remaining destination samples zero (as the class documentation says and as the R2 engine's comments rely on).", "quantifier": "all states, counts and prior destination contents", "why_tests_cant": "the destination's previous contents decide whether a violation is visible", "anchors": ["src/common/RingBuffer.h: documentation of read and peek, RingBuffer::read, peek", "src/faster/StretcherProcess.cpp: processChunks, processChunkForChannel"]}
{"id": "C06", "title": "Single-threaded ring buffer is a bounded FIFO", "statement": "After any sequence of writeOne, readOne, skipOne and reset calls the values read are the values accepted, in order, each once; writes to a full buffer and reads from an empty one have no effect on the contents.", "quantifier": "all capacities and all finite call sequences", "why_tests_cant": "same as C01", "anchors": ["src/common/SingleThreadRingBuffer.h: SingleThreadRingBuffer"]}
{"id": "C07", "title": "Moving median returns the true order statistic of its window", "statement": "After any sequence of push, drop and reset calls on a moving filter of length L, get() returns the element of rank floor((m-1)*p/100) (m/2 rounded down-style median for p=50) of the sorted multiset of the values currently held, which are exactly the most recent pushed values not dropped, at most L of them.", "quantifier": "all lengths L>0, percentiles 0..100, all call histories with at least one value held, all values of a linear order", "why_tests_cant": "the incremental sorted-array update is order dependent; correctness is an invariant over all histories including ties", "anchors": ["src/common/MovingMedian.h: MovingMedian::push, drop, get, reset, dropAndPut, put"]}
{"id": "C08", "title": "Median filtering a signal in place uses the original centred window", "statement": "MovingMedian::filter replaces element i of a vector by the median of the original elements i+h-L+1 .. i+h clipped to the vector, where L is the filter length and h=floor(L/2); no element is skipped and no already filtered value is reused.", "quantifier": "all vectors of any length, all filter lengths L>=1", "why_tests_cant": "lag alignment and edge handling must be right for every length/size combination", "anchors": ["src/common/MovingMedian.h: MovingMedian::filter"]}
{"id": "C09", "title": "Histogram filter median is the median of its window", "statement": "After any history of push, drop and reset, getMedian() is the value of rank floor((m+1)/2) (1-based) among the m values currently in the window (most recent ones, at most the filter length).", "quantifier": "all numbers of values, filter lengths and call histories within range", "why_tests_cant": "invariant over all histories", "anchors": ["src/common/HistogramFilter.h: push, drop, getMedian"]}
{"id": "C10", "title": "Histogram filter mode is the smallest most frequent value of its window", "statement": "After any history of push, drop, getMode and reset, getMode() returns the most frequent value in the window, the smallest such value in case of ties.", "quantifier": "all call histories with a non-empty window", "why_tests_cant": "the result is cached between calls, so it depends on the order of queries and pushes", "anchors": ["src/common/HistogramFilter.h: push, getMode, m_mode", "src/finer/BinSegmenter.h: BinSegmenter::segment"]}
{"id": "C11", "title": "roundUp gives the least power of two", "statement": "roundUp(n) is the least power of two not below n for every n from 1 to 2^63, and roundUpDiv(rate, d) the least power of two not below rate/d.", "quantifier": "all n in the stated range", "why_tests_cant": "the input range cannot be enumerated", "anchors": ["src/common/mathmisc.cpp: roundUp, roundUpDiv"]}
{"id": "C12", "title": "Rational approximation of a ratio", "statement": "pickNearestRational(r, maxDenom) returns num/denom with 1 <= denom <= maxDenom, and no fraction with an admissible denominator is closer to r.", "quantifier": "all r >= 0 and all maxDenom >= 1", "why_tests_cant": "the search path depends on the continued-fraction structure of r", "anchors": ["src/common/mathmisc.cpp: pickNearestRational"]}
{"id": "C13", "title": "Offline stretch profile has exactly the requested duration", "statement": "The absolute values of the output increments calculated offline add up to the rounded product of input duration and ratio, whatever the onset detection function contains.", "quantifier": "all detection functions of any length, all ratios and increments", "why_tests_cant": "error feedback and rounding must cancel for every curve", "anchors": ["src/common/StretchCalculator.cpp: StretchCalculator::calculate, mapPeaks"]}
{"id": "C14", "title": "Stretch profile hits every fixed point exactly", "statement": "At every mapped fixed point (transient peak or key frame) the cumulative output length of the calculated profile equals the target position of that point.", "quantifier": "all detection functions and all key-frame maps", "why_tests_cant": "as C13, for every prefix", "anchors": ["src/common/StretchCalculator.cpp: StretchCalculator::calculate, mapPeaks"]}
{"id": "C15", "title": "Real-time increments stay within the clamp", "statement": "Every increment returned by the real-time calculation is non-negative and between rounded 0.3 and 2 times the nominal output increment, except hard-transient responses, which are exactly minus the input increment.", "quantifier": "all states of the calculator, ratios and detection values", "why_tests_cant": "depends on accumulated history", "anchors": ["src/common/StretchCalculator.cpp: StretchCalculator::calculateSingle"]}
{"id": "C16", "title": "Real-time output does not drift", "statement": "While the ratio is constant, the accumulated output length never differs from input length times ratio by more than a fixed bound, whatever the detection function does.", "quantifier": "all detection-function sequences of any length", "why_tests_cant": "drift accumulates over arbitrarily long runs", "anchors": ["src/common/StretchCalculator.cpp: StretchCalculator::calculateSingle"]}
{"id": "C17", "title": "Hard transients are spaced apart", "statement": "In the real-time calculation two hard phase resets caused by transients are separated by at least the amnesty period (about 1/20 s of input).", "quantifier": "all detection-function sequences", "why_tests_cant": "requires all histories", "anchors": ["src/common/StretchCalculator.cpp: StretchCalculator::calculateSingle, m_transientAmnesty"]}
{"id": "C18", "title": "Detected peaks are ordered and in range", "statement": "The peaks found in the onset detection function are reported in increasing chunk order and lie within the function.", "quantifier": "all detection functions", "why_tests_cant": "the adaptive threshold logic has many branches", "anchors": ["src/common/StretchCalculator.cpp: StretchCalculator::findPeaks"]}
{"id": "C19", "title": "Resampler output length", "statement": "Feeding N frames at a fixed ratio num/den in any blocks (with sufficient output space) and finishing with the final flag yields a total number of output frames between N*num/den and N*num/den + (num/den) + 1.", "quantifier": "all ratios, filter lengths, input lengths, block partitions", "why_tests_cant": "off-by-one drift depends on phase after arbitrarily many blocks", "anchors": ["src/common/BQResampler.cpp: BQResampler::resampleInterleaved, reconstruct_one, phase_data_for"]}
{"id": "C20", "title": "Resampling is independent of block boundaries", "statement": "With a fixed ratio and sufficient output space, the concatenated output does not depend on how the input was divided into blocks.", "quantifier": "all inputs and all partitions into blocks, including empty ones", "why_tests_cant": "partitions are unbounded", "anchors": ["src/common/BQResampler.cpp: BQResampler::resampleInterleaved"]}
{"id": "C21", "title": "Resampler never exceeds the caller's buffers and emits whole frames", "statement": "A call reads at most the given input frames, writes at most the given output frames, and always produces complete frames: the k-th sample of each frame belongs to channel k.", "quantifier": "all states, channel counts, block sizes and output spaces", "why_tests_cant": "depends on internal channel position carried across calls", "anchors": ["src/common/BQResampler.cpp: BQResampler::resampleInterleaved, reconstruct_one"]}
{"id": "C22", "title": "Channels are resampled independently", "statement": "Each channel of the output depends only on the same channel of the input and equals what a mono resampler would produce from it.", "quantifier": "all channel counts and inputs", "why_tests_cant": "needs all inputs", "anchors": ["src/common/BQResampler.cpp: reconstruct_one"]}
{"id": "C23", "title": "Resampler reset forgets the past", "statement": "After reset() a resampler behaves as one just constructed: its output does not depend on anything supplied before the reset.", "quantifier": "all histories before the reset", "why_tests_cant": "stale state is only visible after particular histories", "anchors": ["src/common/BQResampler.cpp: BQResampler::reset, state_for_ratio"]}
{"id": "C24", "title": "Resampler does not lose input when given the documented output space", "statement": "If the output space is at least ceil(incount*ratio) (the documented amount) all input frames of the call are taken in.", "quantifier": "all states and block sizes", "why_tests_cant": "depends on phase at block start", "anchors": ["src/common/BQResampler.cpp: BQResampler::resampleInterleaved", "src/common/Resampler.h: resample documentation"]}
{"id": "C25", "title": "Deferred deletion happens exactly once and not early", "statement": "Every object handed to the scavenger is deleted exactly once (at the latest when the scavenger is destroyed), and never sooner than the configured number of seconds after it was handed over.", "quantifier": "all sequences of claim and scavenge calls at any times", "why_tests_cant": "depends on interleavings of claims, clock and scans", "anchors": ["src/common/Scavenger.h: Scavenger::claim, scavenge, pushExcess, clearExcess, ~Scavenger"]}
{"id": "C26", "title": "Call protocol of the finer engine", "statement": "Offline: ratio, pitch and formant setters have no effect from the first study() or process() until the final block (after which they are accepted again, for the next use after reset()); study() and key-frame maps have no effect once processing began; process() has no effect after the final block. Real time: study() and key-frame maps never have an effect, ratio setters always do. available() returns -1 exactly when the final block has been given and all output was read, and then for ever until reset().", "quantifier": "all call histories", "why_tests_cant": "requires all histories", "anchors": ["src/finer/R3Stretcher.cpp: setTimeRatio, setPitchScale, setKeyFrameMap, study, process, available, retrieve, reset"]}
{"id": "C27", "title": "retrieve delivers what available promises, channels in step", "statement": "retrieve(n) returns min(n, available()) frames (0 when available() is -1), every channel delivers the same count, and successive retrieves deliver the processed stream in order.", "quantifier": "all call histories and requested sizes", "why_tests_cant": "requires all histories", "anchors": ["src/finer/R3Stretcher.cpp: available, retrieve, consume", "src/faster/StretcherProcess.cpp: available, retrieve"]}
{"id": "C28", "title": "process takes in every input frame once", "statement": "For every sequence of process() calls of any block sizes, the frames presented to the analysis are exactly the supplied frames in order, none dropped or repeated, and each call returns (the internal loop terminates).", "quantifier": "all block sizes and histories, without pre-resampling", "why_tests_cant": "block-size/buffer-fill interaction is unbounded", "anchors": ["src/finer/R3Stretcher.cpp: process, ensureInbuf, prepareInput, consume"]}
{"id": "C29", "title": "Offline output never exceeds the requested duration", "statement": "In offline mode with known input duration the total number of output frames never exceeds the rounded product of duration and ratio.", "quantifier": "all histories and ratios", "why_tests_cant": "requires all histories", "anchors": ["src/finer/R3Stretcher.cpp: process, consume"]}
{"id": "C30", "title": "Hop calculation is always valid", "statement": "For every pair of ratios (including non-positive, NaN and infinite ones) the hop calculation leaves finite positive ratios and an input hop between 1 and the maximum.", "quantifier": "all floating-point ratio pairs", "why_tests_cant": "the input space is too large", "anchors": ["src/finer/R3Stretcher.cpp: calculateHop"]}
{"id": "C31", "title": "Key-frame maps do not change the pitch", "statement": "Setting a key-frame map never changes the pitch scale, whatever the map contains.", "quantifier": "all key-frame maps", "why_tests_cant": "only degenerate maps show the problem", "anchors": ["src/finer/R3Stretcher.cpp: updateRatioFromMap, calculateHop"]}
{"id": "C32", "title": "Mid/side coding is transparent", "statement": "Decoding the mid/side representation of any stereo input gives back the input (in exact arithmetic) and other channels are untouched.", "quantifier": "all sample values and lengths", "why_tests_cant": "all inputs", "anchors": ["src/finer/R3Stretcher.cpp: prepareInput, retrieve", "src/faster/StretcherProcess.cpp: prepareChannelMS, retrieve"]}
{"id": "C33", "title": "Resampling happens at most once", "statement": "For every combination of mode, options and pitch scale, the engine never resamples both before and after stretching, and always resamples on one side when the pitch scale is not 1.", "quantifier": "all option words, pitch scales and modes", "why_tests_cant": "decision table over real-valued scales", "anchors": ["src/finer/R3Stretcher.h: areWeResampling", "src/faster/StretcherProcess.cpp: resampleBeforeStretching"]}
{"id": "C34", "title": "Samples required are sufficient", "statement": "In real-time mode when nothing is available, supplying the number of frames reported by getSamplesRequired() makes output available (no pitch resampling).", "quantifier": "all reachable states", "why_tests_cant": "requires all histories", "anchors": ["src/finer/R3Stretcher.cpp: getSamplesRequired, process, consume"]}
{"id": "C35", "title": "Frequency bands tile the spectrum", "statement": "The analysis bands produced by the guide are contiguous, ordered and cover 0 to the Nyquist frequency for every supported sample rate and signal.", "quantifier": "all sample rates 8000..192000 and all spectra", "why_tests_cant": "spectra are unbounded", "anchors": ["src/finer/Guide.h: Guide, updateGuidance"]}
{"id": "C36", "title": "Nearest-peak maps are right", "statement": "For every spectrum, every bin in the range is mapped to a bin that is a local peak and no other peak is nearer; the next-peak map gives the first peak at or above the bin.", "quantifier": "all spectra, ranges and peak radii", "why_tests_cant": "all inputs", "anchors": ["src/finer/Peak.h: Peak::findNearestAndNextPeaks"]}
{"id": "C37", "title": "Faster engine sizes are always usable", "statement": "For every rate, mode and positive ratios the computed increments are at least 1 and the window at least as long as needed, and the calculation terminates.", "quantifier": "all ratios, rates, options", "why_tests_cant": "loops over real-valued conditions", "anchors": ["src/faster/R2Stretcher.cpp: calculateSizes"]}
{"id": "C38", "title": "Faster engine offline output length", "statement": "In offline mode the total output is never more than the rounded product of input duration and time ratio.", "quantifier": "all inputs lengths, ratios and increments", "why_tests_cant": "only short inputs show the violation", "anchors": ["src/faster/StretcherProcess.cpp: writeOutput, writeChunk"]}
{"id": "C39", "title": "Faster engine reset forgets the past", "statement": "After reset() the faster engine behaves as if just constructed apart from the ratios.", "quantifier": "all histories before reset", "why_tests_cant": "stale state is only visible with a second study pass", "anchors": ["src/faster/R2Stretcher.cpp: reset, calculateStretch"]}
{"id": "C40", "title": "Faster engine pads the final partial frame with silence", "statement": "When the input has ended and less than a full analysis window remains, the missing samples of the frame are treated as zero.", "quantifier": "all input lengths", "why_tests_cant": "visible only as spurious content at the tail", "anchors": ["src/faster/StretcherProcess.cpp: processChunks"]}
{"id": "C41", "title": "Faster engine offline channels stay in step", "statement": "In offline mode all channels produce the same number of output frames for every block pattern.", "quantifier": "all block patterns and increments", "why_tests_cant": "unbounded histories", "anchors": ["src/faster/StretcherProcess.cpp: process, processChunks, writeChunk"]}
{"id": "C42", "title": "Live shifter returns a full block", "statement": "Every shift() call fills exactly getBlockSize() frames from generated data, for every supported pitch scale held constant.", "quantifier": "all block sequences and pitch scales", "why_tests_cant": "accumulated hop rounding over arbitrarily many blocks", "anchors": ["src/finer/R3LiveShifter.cpp: shift, readIn, generate, readOut"]}
{"id": "C43", "title": "Frame extraction stays in bounds", "statement": "Every analysis frame cut lies inside the source window for every rate and hop.", "quantifier": "all supported sample rates and hops", "why_tests_cant": "real-valued rate", "anchors": ["src/finer/R3Stretcher.cpp: analyseChannel", "src/finer/R3Stretcher.h: getWindowSourceSize, Limits"]}
{"id": "C44", "title": "Vector reordering helpers", "statement": "Deinterleaving an interleaved set of channels gives back the channels; the FFT shift applied twice is the identity for even lengths; folding preserves the sum.", "quantifier": "all channel counts, lengths and values", "why_tests_cant": "all inputs", "anchors": ["src/common/VectorOps.h: v_interleave, v_deinterleave, v_fftshift", "src/faster/R2Stretcher.h: cutShiftAndFold"]}
{"id": "C45", "title": "Expected input duration is ignored in real time", "statement": "In real-time mode setExpectedInputDuration has no effect on subsequent behaviour.", "quantifier": "all durations and states", "why_tests_cant": "decision logic over all sizes", "anchors": ["src/faster/R2Stretcher.cpp: setExpectedInputDuration, calculateSizes"]}
{"id": "C46", "title": "Cross-fades never divide by zero", "statement": "However the ratio changes, whatever the block sizes and output spaces, no output sample is computed by dividing by a cross-fade length of zero.", "quantifier": "all histories of calls with changing ratios and any block sizes", "why_tests_cant": "needs a fade in progress to meet a very short later call", "anchors": ["src/common/BQResampler.cpp: BQResampler::resampleInterleaved"]}
{"id": "C47", "title": "Resampled output is time-aligned", "statement": "At a fixed ratio, output frame k is the filter-weighted sum of the input frames around time k*den/num, with the centre of the filter exactly at that time and every input frame under the filter included: there is no delay and no drift.", "quantifier": "all ratios, inputs, block partitions and k", "why_tests_cant": "drift may show only after arbitrarily long; edge taps only at some phases", "anchors": ["src/common/BQResampler.cpp: phase_data_for, state_for_ratio, reconstruct_one"]}
{"id": "C48", "title": "Any positive ratio can be used for resampling", "statement": "Resampling with any positive ratio has defined behaviour.", "quantifier": "all positive ratios", "why_tests_cant": "the ratio approximation gives a zero numerator only for extreme ratios", "anchors": ["src/common/BQResampler.cpp: pick_params, state_for_ratio", "src/common/mathmisc.cpp: pickNearestRational"]}
{"id": "C49", "title": "Offline profile has one increment per chunk", "statement": "The list of output increments calculated offline has exactly one entry for each chunk of the detection function.", "quantifier": "all detection functions, ratios and key-frame maps", "why_tests_cant": "entries are lost only for particular combinations of region length and rounding", "anchors": ["src/common/StretchCalculator.cpp: StretchCalculator::calculate", "src/faster/StretcherProcess.cpp: R2Stretcher::getIncrements"]}
{"id": "C50", "title": "Soft peaks are local maxima of the smoothed detection function", "statement": "Every soft peak reported for the offline profile is at a chunk where the smoothed detection function is above both its neighbours.", "quantifier": "all detection functions, sample rates and increments", "why_tests_cant": "the moving window is misaligned only for some window sizes", "anchors": ["src/common/StretchCalculator.cpp: StretchCalculator::findPeaks"]}
{"id": "C51", "title": "A change of ratio in real time does not disturb the output position", "statement": "If the output so far is exactly as long as it should be, then after a change of time ratio or pitch scale the next increment (without a transient) is the nominal one for the new ratios.", "quantifier": "all histories at a constant ratio and all changes of ratio", "why_tests_cant": "only some combinations of old and new ratios miss the checkpoint", "anchors": ["src/common/StretchCalculator.cpp: StretchCalculator::calculateSingle"]}
{"id": "C52", "title": "No phase resets in an offline profile when transients are not to be kept", "statement": "A stretch calculator created without hard peaks (options transients-smooth or mixed) calculates an offline profile with no negative increment, i.e. it never asks for a phase reset.", "quantifier": "all detection functions, ratios, increments and key-frame maps", "why_tests_cant": "a reset appears only for particular coincidences of peaks and key frames", "anchors": ["src/common/StretchCalculator.cpp: StretchCalculator::calculate, mapPeaks, findPeaks"]}
{"id": "C53", "title": "Phase resets of an offline profile are at exactly the hard onsets", "statement": "Without a key-frame map, the increment of a chunk in the offline profile is negative (a phase reset) if and only if findPeaks reports a hard peak in that chunk.", "quantifier": "all detection functions, ratios and increments", "why_tests_cant": "depends on how regions of all lengths round", "anchors": ["src/common/StretchCalculator.cpp: StretchCalculator::calculate, findPeaks"]}
{"id": "C54", "title": "Without transients the output keeps within five frames of the target", "statement": "As the finer engine uses it (no hard peaks, aligned frame starts, constant time and pitch ratio, pitch ratio at most four, at least five frames of output due per call), after any number of calls of calculateSingle on a fresh calculator the output produced so far, counted after resampling, differs from input times time ratio by at most five frames.", "quantifier": "all numbers of calls, ratios and varying input increments", "why_tests_cant": "rounding errors accumulate over an unbounded number of calls", "anchors": ["src/common/StretchCalculator.cpp: StretchCalculator::calculateSingle"]}
{"id": "C55", "title": "R3 real time: no synthesised frame is lost or reordered", "statement": "In real-time mode without output resampling, for every history of calls since creation or reset, the frames retrieved on a channel followed by those still available are exactly the frames the engine has synthesised on that channel, in order, each once.", "quantifier": "every sample rate, channel count, option set, pitch 1 (or resampling done before stretching), every sequence of process/retrieve/setter calls with any block sizes, every signal processing", "why_tests_cant": "Ring-buffer sizes, resizing thresholds and block sizes interact over unbounded histories; a test sees a handful of block patterns.", "anchors": ["src/finer/R3Stretcher.cpp:consume", "src/finer/R3Stretcher.cpp:ensureOutbuf", "src/finer/R3Stretcher.cpp:retrieve", "src/finer/R3Stretcher.cpp:available"]}
{"id": "C56", "title": "R3 offline: output is what was synthesised, less the start padding, cut at the target", "statement": "In offline mode the frames retrieved and available are the frames synthesised with the start delay removed from the front and cut at the target duration (study duration times ratio, rounded), nothing else missing.", "quantifier": "every history of study/process/retrieve calls without key-frame map, every block sizes and ratio", "why_tests_cant": "The skipping of the start and the cut at the target are interleaved with arbitrary block boundaries and hops; tests take long targets, where it holds.", "anchors": ["src/finer/R3Stretcher.cpp:consume", "src/finer/R3Stretcher.cpp:process", "src/finer/R3Stretcher.h:m_startSkip"]}
{"id": "C58", "title": "R3 real time: no resampled output is dropped", "statement": "In real-time mode with the high-consistency pitch option, where all output passes through the resampler, the number of frames retrieved plus those available equals the number the resampler has returned.", "quantifier": "every resampler, time ratio, pitch scale and history of calls without reset", "why_tests_cant": "The loss needs the output ring to have free space between the hop and its resampled length, which depends on the accumulated count over the whole history.", "anchors": ["src/finer/R3Stretcher.cpp:consume (1028, 1068-1140)", "src/finer/R3Stretcher.cpp:ensureOutbuf"]}
{"id": "C59", "title": "R3: reset forgets the band decisions of the old stream", "statement": "After RubberBandStretcher::reset() the window bands, phase-lock bands and kick/reset/lock ranges chosen for a given sequence of analysis frames are those a newly constructed stretcher would choose for the same frames.", "quantifier": "every supported sample rate, every sequence of frames before the reset and every sequence after", "why_tests_cant": "The band boundaries are hysteretic: they depend on the last frames of the old stream, so the difference appears only for particular pairs of streams.", "anchors": ["src/finer/R3Stretcher.h:ChannelData::reset", "src/finer/R3Stretcher.cpp:reset", "src/finer/Guide.h:updateGuidance"]}
{"id": "C60", "title": "R3 real time: at unity ratio the whole spectrum comes to be phase-reset", "statement": "In real-time mode, whatever was played before, once the effective ratio has been 1 for at most 67 analysis frames the phase reset range holds every frequency from 0 up to (not including) half the sample rate, and keeps doing so while the ratio stays 1.", "quantifier": "every supported sample rate 8000..192000, every past and every signal at unity", "why_tests_cant": "The range grows from wherever the past signal had left it by factors 0.9 and 1.1; the number of frames until it covers everything must be bounded over all pasts and signals.", "anchors": ["src/finer/Guide.h:updateForUnity", "src/finer/Guide.h:updateGuidance", "src/finer/PhaseAdvance.h:inRange"]}
{"id": "C61", "title": "R3: a frame is handled as pre-kick exactly when the next one is a kick", "statement": "In multi-window mode away from unity and silence, the low-frequency rise of a frame is held back (preKick) if and only if the following frame is recognised as a kick, at which the held-back energy is released.", "quantifier": "every supported rate, spectra and segmentations of three successive frames, and every state before", "why_tests_cant": "It relates decisions about successive frames made from different buffers; a test with one drum hit sees only the forward half.", "anchors": ["src/finer/Guide.h:checkPotentialKick", "src/finer/Guide.h:updateGuidance (310-328)", "src/finer/R3Stretcher.cpp:analyseChannel (1227-1285, 1411-1424)"]}
{"id": "C62", "title": "R3: segmentation boundaries are ordered and describe the filtered classes", "statement": "For every frame, the segmentation handed to the guide has its boundaries within the spectrum and in order (percussiveAbove <= residualAbove), the bins below percussiveBelow are exactly the run of percussive bins from bin 1 up, those above residualAbove are exactly the run of residual bins down from the top, and those between percussiveAbove and residualAbove the run of percussive bins under that.", "quantifier": "every supported sample rate, every sequence of classified frames", "why_tests_cant": "The boundaries come from two scans over a median-filtered array of about a thousand classes; only some class sequences (for instance an all-residual frame) reach the default values of the scans.", "anchors": ["src/finer/BinSegmenter.h:segment", "src/common/HistogramFilter.h:modalFilter"]}
{"id": "C63", "title": "R3: bin classification is the median comparison it is documented as, and reset restores it", "statement": "Whatever was classified before, each bin of a frame is classified by comparing two numbers: the lower median of its magnitudes over the latest frames since the last reset (at most the horizontal length) and the lower median of the bins around it, as far as they exist, in the frame `lag` frames earlier (0 if there was none). With magnitudes not below 0 and thresholds 2 and 2 it is harmonic if the first is more than twice the second, percussive if the second is more than twice the first, residual or silent otherwise. After a reset the past has no effect.", "quantifier": "every sequence of calls and resets, every magnitude array, every filter length and lag", "why_tests_cant": "The filters are incremental: the value for a bin depends on all frames so far through sorted arrays and a delay queue; a test sees only a few histories.", "anchors": ["src/finer/BinClassifier.h:classify", "src/finer/BinClassifier.h:reset", "src/common/MovingMedian.h"]}
{"id": "C64", "title": "R3: at unity ratio phases come out as they went in", "statement": "From creation or reset on, as long as input and output hop are the same in each frame (or the bin's phase is reset), the phase put out for every bin in use is the phase taken in (up to whole turns, exactly for phases in the principal range). After any past the same holds from the first frame on in which the bin is in a phase-reset range, so in real time within 67 frames of the ratio becoming 1 for the whole spectrum.", "quantifier": "every number of channels, sequence of frames, hops, guidance, magnitudes and phases", "why_tests_cant": "Phases accumulate over all frames; drift from a wrong advance appears only in long runs and for specific phase errors near half a turn.", "anchors": ["src/finer/PhaseAdvance.h:advance", "src/common/mathmisc.h:princarg", "src/finer/Guide.h:updateForUnity"]}
{"id": "C65", "title": "Phase advance never leaves its arrays", "statement": "For every supported sample rate, window mode, FFT size in use, channel count and every sequence of frames and resets, the R3 phase advance reads and writes only inside its per-bin and per-channel arrays, whatever magnitudes, phases, hops and guidance history it is given; and every phase it writes is a principal value in (-pi, pi].", "quantifier": "all rates 8000-192000, both window modes, all FFT sizes, any number of channels, all event sequences, all guidance the guide can produce", "why_tests_cant": "The indices depend on peaks found in arbitrary spectra, carried over from earlier frames and through resets; tests sample few spectra and out-of-bounds reads inside a heap block are silent.", "anchors": ["src/finer/PhaseAdvance.h: GuidedPhaseAdvance::advance, reset", "src/finer/Guide.h: updateGuidance, fftBandLimits", "src/finer/Peak.h: findNearestAndNextPeaks"]}
{"id": "C66", "title": "Phase-locked bins keep their phase relative to the peak", "statement": "In every R3 frame away from phase resets, unlocked and channel-locked ranges, the output phase of a bin minus that of the nearest spectral peak of its lock band equals, modulo 2 pi, the band's beta times the same difference in the input; and the peak itself continues from the output phase of the previous-frame peak it descends from, advanced by its instantaneous frequency times outhop/inhop.", "quantifier": "all frames, all histories, all channels, all bins in a band, all hops", "why_tests_cant": "Vertical phase coherence is heard, not asserted; a test would need the identity for every bin of every spectrum and every history of output phases.", "anchors": ["src/finer/PhaseAdvance.h: GuidedPhaseAdvance::advance", "src/finer/Guide.h: PhaseLockBand"]}
{"id": "C67", "title": "R3: every synthesised bin was analysed in the same frame, inside the arrays", "statement": "In every R3 frame, whatever frames came before, each bin that is resynthesised from a window size was analysed and phase-advanced for that size in the same frame, the bin limits used for scaling, conversion and zeroing are ordered and inside the arrays, and the magnitude adjustment around kick drums stays inside the arrays.", "quantifier": "all rates 8000-192000, both window modes, all frame sequences the guide can be given, all bands and bins", "why_tests_cant": "The band limits move with the spectrum and with the history of silence, unity and long hops; a stale bin is not a crash but old audio at a wrong phase in one frame.", "anchors": ["src/finer/R3Stretcher.cpp: synthesiseChannel, analyseChannel, adjustPreKick", "src/finer/Guide.h: updateGuidance", "src/finer/PhaseAdvance.h: advance"]}
{"id": "C68", "title": "R3: the window sizes join without overlap", "statement": "In multi-window mode what is resynthesised from each window size joins on to what is resynthesised from the next shorter one: the lowest bin of the latter lies one of its bin distances above the highest bin of the former, so no frequency is put out twice or left out.", "quantifier": "all rates 8000-192000, all frame sequences, both borders", "why_tests_cant": "Depends on how two independently rounded bin numbers of different FFT sizes relate at every limit the guide may choose; an overlap is a slight level error in a single bin.", "anchors": ["src/finer/R3Stretcher.cpp: synthesiseChannel", "src/finer/Guide.h: updateGuidance, descendToValley, updateForUnity"]}
{"id": "C69", "title": "R3: energy held back before a kick is put out with it", "statement": "The magnitude that is held back of low bins in a frame before a kick drum is put out again with the kick: at any time, for each bin, what has been put out plus what is still held back equals what was taken in.", "quantifier": "all rates, all sequences of spectra and segmentations, all bins", "why_tests_cant": "Needs the joint history of guide decisions and magnitudes over arbitrarily many frames; a loss is a quieter bass in rare frames.", "anchors": ["src/finer/R3Stretcher.cpp: adjustPreKick, synthesiseChannel", "src/finer/Guide.h: updateGuidance, checkPotentialKick"]}
{"id": "C70", "title": "Live shifter uses all its input", "statement": "At a constant pitch scale the live shifter takes in every block of input it is given: no block is refused for want of space and no frame is lost between its resamplers and buffers, however many blocks are processed.", "quantifier": "all sample rates, pitch scales and numbers of blocks", "why_tests_cant": "Depends on buffer levels after arbitrarily many blocks at every pitch scale; a refused block or a lost frame is only a short gap in the sound.", "anchors": ["src/finer/R3LiveShifter.cpp: shift, readIn, generate, readOut"]}
{"id": "C71", "title": "Live shifter: the backlog does not drift", "statement": "At a constant pitch scale the number of sample frames held inside the live shifter after each block stays within 64 frames of a constant, however many blocks are processed, so the delay reported by getStartDelay stays right.", "quantifier": "all sample rates, pitch scales and numbers of blocks", "why_tests_cant": "Roundings of hop sizes and resampler outputs accumulate over arbitrarily many blocks at every pitch scale.", "anchors": ["src/finer/R3LiveShifter.cpp: shift, readIn, generate, readOut"]}
{"id": "C72", "title": "Faster engine real-time channels stay in step", "statement": "In real-time mode every retrieve() delivers, and the output buffers hold, the same number of samples of every channel, whatever settings were changed and whatever blocks were given.", "quantifier": "all histories of calls, ratios, numbers of channels and resamplers whose output counts depend only on input counts", "why_tests_cant": "unbounded histories of interleaved settings, blocks and retrievals", "anchors": ["src/faster/StretcherProcess.cpp: consumeChannel, processOneChunk, writeChunk, retrieve", "src/faster/R2Stretcher.cpp: process, reconfigure"]}
{"id": "C73", "title": "Faster engine never stalls after the end", "statement": "Once the final block has been given to process(), available() gives either -1 (all done) or a positive number that can be retrieved from every channel; it never gives 0, so a caller waiting for the end always makes progress.", "quantifier": "all histories of calls, block sizes, input lengths and configurations", "why_tests_cant": "depends on how the input length falls relative to windows and increments over unbounded histories; only very short inputs show the violation", "anchors": ["src/faster/StretcherProcess.cpp: available, testInbufReadSpace, processChunkForChannel", "src/faster/R2Stretcher.cpp: process"]}
{"id": "C74", "title": "Faster engine offline output independent of blocks", "statement": "In offline mode what is heard of a channel is determined by the input and does not depend on how it was divided into blocks given to process(), nor on when available() or retrieve() were called and how much was retrieved each time.", "quantifier": "all divisions of all inputs into blocks, all interleaved calls of available and retrieve", "why_tests_cant": "infinitely many divisions; the violation needs an unstudied input and a particular relation of ratio and increments", "anchors": ["src/faster/StretcherProcess.cpp: consumeChannel, processChunks, writeOutput, retrieve", "src/faster/R2Stretcher.cpp: process"]}
{"id": "C75", "title": "No offline increment is much longer than its share", "statement": "When a stretch profile is calculated offline without a key-frame map, no increment in it (getOutputIncrements) is longer than twice the product of the input increment and the ratio, plus 3 samples, or than the input increment if that is more; and the first is no longer than that product plus 5/2 (or the input increment), whatever the detection function.", "quantifier": "all increments, all ratios, all detection functions", "why_tests_cant": "the distribution of what is left after a phase reset depends on all the peaks found; a test sees few of the infinitely many profiles", "anchors": ["src/common/StretchCalculator.cpp: StretchCalculator::calculate, mapPeaks", "src/faster/R2Stretcher.cpp: R2Stretcher::calculateStretch"]}
{"id": "C76", "title": "Studied audio gives exactly the rounded length offline", "statement": "With the faster engine offline, if some audio is given to study() in any blocks and then to process() in any blocks, as much is heard of each channel in all as the rounded product of the duration and the time ratio, exactly, whatever was done with the stretcher before.", "quantifier": "all audio, all divisions into blocks for study and for processing, all ratios, rates and options, all earlier histories", "why_tests_cant": "the length results from the profile, its use chunk by chunk, the trimming at the start and the limit at the end, for unboundedly many inputs and divisions; the violations need short inputs", "anchors": ["src/faster/R2Stretcher.cpp: R2Stretcher::study, calculateStretch, process", "src/faster/StretcherProcess.cpp: getIncrements, writeChunk, writeOutput", "src/common/StretchCalculator.cpp: StretchCalculator::calculate"]}
{"id": "C77", "title": "What study finds does not depend on the blocks", "statement": "With the faster engine offline, the stretch profile, and so what is heard later, depends on the audio given to study() and not on how it was divided into blocks.", "quantifier": "all audio, all divisions into blocks, all later calls", "why_tests_cant": "infinitely many divisions; the violations need an empty or a very long last block and audio whose profile is affected", "anchors": ["src/faster/R2Stretcher.cpp: R2Stretcher::study", "rubberband/RubberBandStretcher.h: study"]}
{"id": "C78", "title": "Channels together are mid and side apart", "statement": "With the faster engine and OptionChannelsTogether, offline or in real time with OptionPitchHighConsistency, the output is what one gets by giving half the sum and half the difference of the first two channels to a stretcher without the option and taking the sum and the difference of what it gives; further channels are as without the option.", "quantifier": "all histories of calls since construction, all inputs, any number of channels from two", "why_tests_cant": "an equality of two stretchers over unboundedly many call sequences; a test compares a few outputs to a tolerance", "anchors": ["src/faster/StretcherProcess.cpp: R2Stretcher::prepareChannelMS, consumeChannel, retrieve"]}
{"id": "C79", "title": "The FFT computes the discrete Fourier transform", "statement": "Whatever sequence of transforms an FFT object of a power-of-two size is used for, with whatever in its arrays, each forward call gives the discrete Fourier transform of its input (real and imaginary parts, magnitude and argument, or magnitude), each inverse call the sum over the mirrored spectrum (from real and imaginary parts, from magnitude and phase, or from the logarithm of the magnitude); the slow transform used for other sizes gives the same, and the built-in transform is only picked for sizes it can do.", "quantifier": "all sizes (powers of two up to 2^31 for the built-in transform, any size for the slow one), all inputs over the reals, all sequences of calls, all prior contents of the arrays", "why_tests_cant": "a test compares a few sizes and inputs to a tolerance; bit-reversal tables, twiddle tables, and scratch arrays kept between calls depend on the size and the history", "anchors": ["src/common/FFT.cpp: D_Builtin, D_DFT, pickImplementation", "src/common/VectorOpsComplex.h: c_phasor, c_magphase"]}
{"id": "C80", "title": "There and back gives the input times the size", "statement": "Transforming a frame forward and back, in real and imaginary parts or in magnitude and phase, gives the frame times the size of the transform, whatever the FFT object did before or in between; dividing by the size therefore resynthesises an unmodified frame exactly.", "quantifier": "all sizes, all real frames, all histories of calls before and between", "why_tests_cant": "universal over frames, sizes and histories; a test shows it for a few within a tolerance that would hide a small systematic error", "anchors": ["src/common/FFT.cpp: D_Builtin::forward, inverse, forwardPolar, inversePolar, D_DFT::forward, inverse"]}
{"id": "C81", "title": "The faster engine keeps the frequency of a steady tone", "statement": "If the phase of a bin advances by the same amount from each analysed frame to the next (a steady tone), then from the second frame of the tone on, the phase put out advances by exactly that frequency times the distance of the frames in the output, whatever the stretch ratio does meanwhile (as long as it is not 1 and no transient is found), for all phase options, and whatever came before.", "quantifier": "all frequencies within half a turn per increment of the bin, all sizes and increments, all sequences of output increments, all states before, laminar or independent phases", "why_tests_cant": "universal over frequencies, sizes and sequences of increments; a listening or spectral test only sees a deviation large enough to hear", "anchors": ["src/faster/StretcherProcess.cpp: R2Stretcher::modifyChunk"]}
{"id": "C82", "title": "The faster engine remembers the phases it put out", "statement": "After each frame the output phases that the engine goes on from are those of the frame it has put out (up to full turns), also while frames are put out unchanged because no stretching has happened yet; so leaving a ratio of 1 makes no jump.", "quantifier": "all sequences of frames, resets and size changes from a new channel, all bins", "why_tests_cant": "the property relates hidden accumulated phases after arbitrary histories; a jump in single bins is inaudible in most material", "anchors": ["src/faster/StretcherProcess.cpp: R2Stretcher::modifyChunk, synthesiseChunk", "src/faster/StretcherChannelData.cpp: ChannelData::reset, setSizes"]}
{"id": "C83", "title": "Back at ratio 1 the faster engine gives back the phases of the input", "statement": "When the time ratio returns to 1 and stays there, then after some time the frames put out have the phases of the input in all bins.", "quantifier": "all histories before, all infinite sequences of frames at ratio 1, all bins", "why_tests_cant": "an eventually-always property over infinite sequences; no finite test decides that a bin is never put right", "anchors": ["src/faster/StretcherProcess.cpp: R2Stretcher::modifyChunk", "src/faster/StretcherChannelData.cpp: unityResetLow"]}
{"id": "C84", "title": "With nothing changed the faster engine gives back the input, each sample with a gain that does not depend on the audio", "statement": "Offline, with time ratio 1, pitch scale 1, no formant shift and neither smoothing nor high-consistency pitch shifting, and audio that was not studied, exactly as many samples come out as went in (if at least an increment went in), and sample k of each channel is sample k of the input multiplied by a gain that depends only on k, the length and the window sizes, not on the audio, the blocks or what was done before; the gain is above 0 and at most 4/3.", "quantifier": "all real-valued inputs, all ways to cut them into blocks and to fetch output, all histories before processing begins, all transforms", "why_tests_cant": "holds for every signal and every block split; tests compare a few signals with tolerances that hide position-dependent gains", "anchors": ["src/faster/StretcherProcess.cpp: R2Stretcher::analyseChunk, modifyChunk, synthesiseChunk, writeChunk", "src/common/Window.h: Window::encache, cut, add, getArea", "src/faster/R2Stretcher.h: cutShiftAndFold"]}
{"id": "C85", "title": "With nothing changed the faster engine keeps the level of each sample", "statement": "Offline, with time ratio 1, pitch scale 1, no formant shift and neither smoothing nor high-consistency pitch shifting, and audio that was not studied, each sample that comes out is within 5% of the sample that went in, also at the beginning and the end.", "quantifier": "all real-valued inputs of at least a window, all positions, all block splits", "why_tests_cant": "concerns every position of every input; the deviation is confined to the edges and depends on window and increment", "anchors": ["src/faster/StretcherProcess.cpp: R2Stretcher::synthesiseChunk, writeChunk", "src/common/Window.h: Window::getArea", "src/faster/R2Stretcher.cpp: R2Stretcher::calculateSizes"]}
{"id": "C86", "title": "Onset detection values of the faster engine are always between 0 and 1", "statement": "Whatever calls are made (frames of any magnitudes, resets, changes of the FFT size and of the detector), the onset detector reads nothing outside its filters, gives one value per frame, and the value lies between 0 and 1; while only the compound and soft detectors are chosen it is 0, 1/2 or above 0.35, so that the reset threshold of 0.35 tells silence of the detector from a detection.", "quantifier": "all call histories, sample rates, FFT sizes and magnitudes", "why_tests_cant": "concerns every history of frames and settings; a test sees the values of some audio", "anchors": ["src/faster/CompoundAudioCurve.cpp: CompoundAudioCurve::processDouble, processFiltering", "src/faster/PercussiveAudioCurve.cpp: PercussiveAudioCurve::processDouble"]}
{"id": "C87", "title": "Resetting the faster engine makes onset detection start afresh", "statement": "After a reset, the onset detector gives the values it would give if it had never heard any audio, only the settings made before being kept.", "quantifier": "all call histories before the reset, all frames after it, all detectors", "why_tests_cant": "relates two runs after an arbitrary history; the leftover state shows for some histories and frames only", "anchors": ["src/faster/CompoundAudioCurve.cpp: CompoundAudioCurve::reset, processFiltering"]}
{"id": "C88", "title": "Onset detection does not depend on the level of the audio", "statement": "Multiplying all audio by the same positive number does not change any value of the onset detector.", "quantifier": "all positive factors, call histories and frames", "why_tests_cant": "relates two runs for every factor; fails for very quiet audio only", "anchors": ["src/faster/PercussiveAudioCurve.cpp: PercussiveAudioCurve::processDouble", "src/faster/CompoundAudioCurve.cpp: CompoundAudioCurve::processFiltering"]}
{"id": "C89", "title": "Steady sound is not detected as an onset", "statement": "After any history, once the same spectrum has come in nineteen frames, the onset detector gives 0 for every further frame with it.", "quantifier": "all call histories, spectra, numbers of frames and detectors", "why_tests_cant": "holds after every history, for every spectrum and without end", "anchors": ["src/faster/CompoundAudioCurve.cpp: CompoundAudioCurve::processDouble, processFiltering", "src/faster/PercussiveAudioCurve.cpp: PercussiveAudioCurve::processDouble", "src/common/MovingMedian.h: MovingMedian::push"]}
{"id": "C90", "title": "The dry signal of the pitch shifter plugins is delayed by the latency they report", "statement": "With the wet/dry mix all dry, the output of the LADSPA and LV2 pitch shifter plugins (both engines) is the input, delayed by exactly the latency that the plugin reports, over all calls together; with any mix above 0 it is the weighted sum of that and what it would be all wet.", "quantifier": "all stretcher behaviours, block sizes, inputs, port settings in each call, in place or not, any number of channels and calls", "why_tests_cant": "for every sequence of block sizes; fails only for blocks over 9216 samples", "anchors": ["ladspa-lv2/RubberBandPitchShifter.cpp: RubberBandPitchShifter::runImpl, activateImpl, getLatency", "ladspa-lv2/RubberBandR3PitchShifter.cpp: RubberBandR3PitchShifter::runImpl"]}
{"id": "C91", "title": "The pitch shifter plugins give the stretcher all audio in order and pass on all it gives", "statement": "However the host splits the audio into blocks, the stretcher in the LADSPA and LV2 pitch shifter plugins is given silence of the length of the latency and then all input in order; as long as no underrun is reported, all-wet output is what the stretcher gives, in order from its first sample, also when input and output are the same memory.", "quantifier": "all stretcher behaviours meeting the contract, block sizes, inputs, changes of settings, numbers of channels and calls", "why_tests_cant": "for every split into blocks and every stretcher behaviour", "anchors": ["ladspa-lv2/RubberBandPitchShifter.cpp: RubberBandPitchShifter::runImpl", "ladspa-lv2/RubberBandR3PitchShifter.cpp: RubberBandR3PitchShifter::runImpl"]}
{"id": "C92", "title": "The live plugin never runs short and gives the shifted audio in order", "statement": "For blocks of any sizes that fit the buffers (65536 samples less a block of the shifter), the live pitch shifter plugin never hangs; the shifter is given a block of silence and then all input in order, in whole blocks; all-wet output has as many samples as the input in every call and is what the shifter gives, in order from its first sample.", "quantifier": "all shifter behaviours meeting the contract, all block sizes up to the limit, inputs, changes of settings, numbers of channels and calls", "why_tests_cant": "for every sequence of block sizes, whether or not they are multiples of the shifter's", "anchors": ["ladspa-lv2/RubberBandLivePitchShifter.cpp: RubberBandLivePitchShifter::runImpl, activateImpl"]}
{"id": "C93", "title": "The dry signal of the live plugin is delayed by the latency it reports", "statement": "With the wet/dry mix all dry, the output of the live pitch shifter plugin is the input, delayed by exactly the latency that the plugin reports.", "quantifier": "all shifters, block sizes up to the limit, inputs, port settings and numbers of calls", "why_tests_cant": "for all shifters and call sequences; needs both delays compared", "anchors": ["ladspa-lv2/RubberBandLivePitchShifter.cpp: RubberBandLivePitchShifter::getLatency, runImpl, activateImpl"]}
{"id": "C94", "title": "The utility writes what the stretcher gives, all with one gain, and nothing twice", "statement": "However often the command-line utility starts over because of clipping, the file it leaves holds what the last stretcher gave, from its start delay on, all multiplied by one gain from 0.75 to 1 and clamped to -1 to 1, with nothing left over from passes begun before; offline all of it, in real time cut at the length aimed at (or where it stood before the last block, if later). Unless clipping is ignored or the gain is at 0.75 nothing needed clamping; if no sample is out of range the gain is 1.", "quantifier": "all stretcher behaviours, input files, maps, numbers of channels and of passes", "why_tests_cant": "depends on where samples clip in every pass; all stretchers and files", "anchors": ["main/main.cpp: main"]}
{"id": "C95", "title": "The utility comes to an end", "statement": "The command-line utility ends, after at most 289 passes, whatever the samples: provided that retrieving makes less available, and that offline with threads allowed something other than 0 is available after the last block.", "quantifier": "all stretcher behaviours with these two traits, input files, maps and samples", "why_tests_cant": "termination for all inputs; the number of passes depends on the samples", "anchors": ["main/main.cpp: main"]}
{"id": "C96", "title": "The utility gives the stretcher the whole file", "statement": "The stretcher is given the whole input file in order, after its preferred start padding in real time, and only with the last block is told that it is the last; offline it was given all of it for studying before, likewise.", "quantifier": "all stretcher behaviours, input files, headers, maps and numbers of passes", "why_tests_cant": "for all file lengths and positions of map entries, which cut blocks short", "anchors": ["main/main.cpp: main"]}
{"id": "C97", "title": "Changes of pitch come at their frames", "statement": "In real time, every frame of the input file is processed with the pitch scale that the frequency map asks for at that frame: that of the last entry at or before it, times the overall shift.", "quantifier": "all stretcher behaviours, input files and frequency maps in order", "why_tests_cant": "for all positions of the entries relative to the blocks", "anchors": ["main/main.cpp: main"]}
{"id": "C98", "title": "Level does not change the result", "statement": "The faster engine given the same calls since construction with all audio multiplied by a positive factor (formants not preserved) gives the same output multiplied by that factor, in the same amounts: in real time provided that onset detection finds the same in the louder audio (C88), offline also if the audio was not studied.", "quantifier": "all histories of calls, settings, audio, factors and resamplers that follow the level", "why_tests_cant": "for all audio and call histories at once; tests compare sample values with tolerances on a few signals", "anchors": ["src/faster/R2Stretcher.cpp: process", "src/faster/StretcherProcess.cpp: analyseChunk, modifyChunk, synthesiseChunk, writeChunk"]}
{"id": "C99", "title": "Silence in, silence out", "statement": "If all audio given to the faster engine since construction was silent, all output is silent, whatever the calls and settings.", "quantifier": "all histories of calls with silent audio, all settings, all resamplers giving silence for silence", "why_tests_cant": "for all call histories, ratios and key-frame maps", "anchors": ["src/faster/R2Stretcher.cpp: process, study", "src/faster/StretcherProcess.cpp: analyseChunk, modifyChunk, formantShiftChunk, synthesiseChunk, writeChunk"]}
{"id": "C100", "title": "Output is made of numbers", "statement": "If the audio given to the faster engine offline is made of numbers, so is all of the output: it never divides by an empty window accumulator.", "quantifier": "all histories of calls, settings, key-frame maps and audio", "why_tests_cant": "the accumulator is empty at single samples only for particular ratios of increments to window sizes", "anchors": ["src/faster/StretcherProcess.cpp: writeChunk, synthesiseChunk", "src/faster/R2Stretcher.h: cutShiftAndFold"]}
{"id": "C101", "title": "Activating a plugin again forgets earlier audio", "statement": "When a host activates a pitch shifter plugin again, what it does from then on depends on nothing that it did before, except for the crispness and formant settings and what a reset leaves in the stretcher (for the live plugin: if the shifter always fills a block).", "quantifier": "all histories of runs and activations, all stretchers, all later calls", "why_tests_cant": "for all histories of two instances", "anchors": ["ladspa-lv2/RubberBandPitchShifter.cpp: activateImpl", "ladspa-lv2/RubberBandR3PitchShifter.cpp: activateImpl", "ladspa-lv2/RubberBandLivePitchShifter.cpp: activateImpl"]}
{"id": "C102", "title": "Plugins process audio with the settings asked for", "statement": "All audio of a run of a pitch shifter plugin is processed with the pitch scale and formant option that the host asks for in that run, and with the crispness if it is one of 0 to 3.", "quantifier": "all histories of runs and activations, all port values, all stretchers that keep their settings", "why_tests_cant": "the plugins skip calls if they believe that the setting is in force already; whether that is right depends on the whole history", "anchors": ["ladspa-lv2/RubberBandPitchShifter.cpp: updateRatio, updateCrispness, updateFormant, runImpl, activateImpl", "ladspa-lv2/RubberBandR3PitchShifter.cpp: updateFormant, runImpl", "ladspa-lv2/RubberBandLivePitchShifter.cpp: updateFormant, runImpl"]}
{"id": "C103", "title": "Resampling is linear", "statement": "The built-in resampler given a combination (a times one audio plus b times another) in any history of calls, changes of ratio, cross-fades and resets gives the same combination of what it gives for each, and as many frames; so it keeps mixes, levels, polarity and silence.", "quantifier": "all histories of calls with any block sizes, ratios and resets, all numbers of channels and qualities, all audio, all factors", "why_tests_cant": "for all audio and histories at once", "anchors": ["src/common/BQResampler.cpp: resampleInterleaved, reconstruct_one, state_for_ratio"]}
{"id": "C104", "title": "With nothing changed the finer engine gives back what it gets", "statement": "Offline, at time ratio 1 and pitch scale 1, every sample that the finer engine puts out is the sample that was put in at the same place (and zero after the end), whatever the audio, the block sizes and the other settings.", "quantifier": "all audio over the reals, all rates and numbers of channels, all histories of calls that change neither ratio nor key-frame map (with OptionFormantPreserved, that leave the formant scale at 0 or 1), all classifiers", "why_tests_cant": "for all audio and all positions at once; tests with typical audio do not contain the frequencies that are lost and allow for tolerance", "anchors": ["src/finer/R3Stretcher.cpp: analyseChannel, synthesiseChannel, consume, analysisWindowShape, synthesisWindowShape", "src/finer/R3Stretcher.h: windowScaleFactor", "src/finer/Guide.h: updateForUnity", "src/common/Window.h: makeWindow"]}
{"id": "C105", "title": "The spectral part of the finer engine stays inside its arrays", "statement": "In every history of calls, whatever the audio, ratios, scales and settings, reading and writing of spectra, the guide's ranges, the peaks and the phases of the finer engine stay within their arrays, and the arrays keep the sizes that they were made with (a set for each channel; n/2+1 bins for a transform of size n).", "quantifier": "all histories of calls, all audio over the reals, all rates, numbers of channels, window and channel options, all classifiers and segmenters", "why_tests_cant": "the ranges depend on rate, ratio, options, the classification of the audio and on the whole history; sanitizers only see what is run", "anchors": ["src/finer/R3Stretcher.cpp: consume, analyseChannel, adjustPreKick, synthesiseChannel", "src/finer/R3Stretcher.h: ChannelScaleData, ChannelData, ScaleData", "src/finer/Guide.h: updateGuidance, getBandLimits", "src/finer/PhaseAdvance.h: advance"]}
{"id": "C106", "title": "Silence in, silence out for the finer engine", "statement": "After its creation, and after a reset whatever was played before it, the finer engine gives nothing but zeros as long as it is given nothing but zeros, at all ratios and pitch scales and in all histories of calls.", "quantifier": "all histories before the reset, all histories of calls with silent audio after it, all ratios, pitch scales, rates, numbers of channels and options, all classifiers and segmenters; built-in resampler", "why_tests_cant": "for all histories and ratios at once; a stale buffer shows only after particular histories", "anchors": ["src/finer/R3Stretcher.cpp: reset, consume, analyseChannel, adjustPreKick, synthesiseChannel", "src/finer/R3Stretcher.h: ChannelData::reset, ChannelScaleData::reset", "src/common/BQResampler.cpp: reset, state_for_ratio, resampleInterleaved"]}
{"id": "C107", "title": "In real time with the short window the finer engine gives back what it gets, where it says", "statement": "In real time with OptionWindowShort, at time ratio 1 and pitch scale 1 and without OptionPitchHighConsistency, a caller who first supplies getPreferredStartPad() samples of silence and drops getStartDelay() samples of the output gets, from there on, each sample that was supplied after the silence, at its place.", "quantifier": "all audio over the reals, all rates and numbers of channels, all histories of calls that do not change the ratios (with OptionFormantPreserved, that leave the formant scale at 0 or 1), all classifiers", "why_tests_cant": "for all audio, all block sizes and all positions at once; the audio that is lost is not in typical tests", "anchors": ["src/finer/R3Stretcher.cpp: getPreferredStartPad, getStartDelay, analyseChannel, synthesiseChannel, consume", "src/finer/R3Stretcher.h: areWeResampling, windowScaleFactor", "src/finer/Guide.h: updateForUnity", "src/finer/PhaseAdvance.h: advance", "src/common/BQResampler.cpp: getEffectiveRatio"]}
{"id": "C108", "title": "Finer engine: channels given the same audio come out the same", "statement": "In any history of calls and resets of the finer engine in which two channels are always supplied with the same audio, everything retrieved is the same in these two channels, sample by sample, whatever the other channels carry, at all time ratios and pitch scales, with and without OptionChannelsTogether.", "quantifier": "all histories of calls, all audio over the reals, all pairs of channels, all rates, all time ratios, all pitch scales up to 40000, all options, all classifiers; built-in resampler", "why_tests_cant": "for all histories and all audio in the other channels at once; a channel that locks to the wrong neighbour shows only for particular spectra", "anchors": ["src/finer/R3Stretcher.cpp: process, consume, analyseChannel, synthesiseChannel, retrieve, prepareInput", "src/finer/PhaseAdvance.h: advance", "src/finer/Guide.h: updateGuidance", "src/common/BQResampler.cpp: resampleInterleaved"]}
{"id": "C109", "title": "Faster engine with threads: the output is what it is without threads", "statement": "Offline with more than one channel the faster engine runs a thread for each channel. Whatever the order in which these threads and the calls of process(), available() and retrieve() take turns, what is retrieved of each channel is, sample for sample, what the engine gives of the same input without threads, provided never more is retrieved than available() said; and nothing goes wrong on the way.", "quantifier": "all interleavings of all threads and the caller at the granularity of accesses to shared state, all inputs and block sizes, all amounts retrieved, all ordinary configurations without pitch shift, all processing of the audio", "why_tests_cant": "a race shows only in particular interleavings, which tests do not choose; this is about all of them", "anchors": ["src/faster/StretcherProcess.cpp: ProcessThread::run, processChunks, testInbufReadSpace, processChunkForChannel, writeChunk, writeOutput, consumeChannel, available, retrieve", "src/faster/R2Stretcher.cpp: process"]}
{"id": "C110", "title": "Faster engine with threads: available() says -1 only when everything was retrieved", "statement": "With threads, when available() has returned -1, all of the output has been retrieved, of every channel.", "quantifier": "all interleavings of all threads and the caller, all inputs and block sizes, all ordinary configurations without pitch shift", "why_tests_cant": "the interleaving in which the threads finish in the middle of available() is rare", "anchors": ["src/faster/StretcherProcess.cpp: available, writeChunk", "rubberband/RubberBandStretcher.h: available"]}
{"id": "C111", "title": "Faster engine with threads: asking for more than there is loses nothing", "statement": "With threads, retrieve() of more samples than are available gives as many as there are in all channels, leaves the rest for later, and keeps the channels in step.", "quantifier": "all interleavings of all threads and the caller, all inputs and block sizes, all amounts asked for", "why_tests_cant": "that one thread is ahead of another at the time of the call depends on the scheduler", "anchors": ["src/faster/StretcherProcess.cpp: retrieve", "rubberband/RubberBandStretcher.h: retrieve"]}
{"id": "C112", "title": "Faster engine with threads: every thread comes to its end", "statement": "Once process() with a final block has returned, every thread ends after a number of its own turns that depends only on the sizes of its buffers, whatever the other threads and the caller do, even if the caller asks for more than there is; the channel is then marked as complete.", "quantifier": "all interleavings, all inputs and block sizes, all calls of available() and retrieve() with any amounts, all ordinary configurations without pitch shift", "why_tests_cant": "that no interleaving makes a thread wait for ever (lost wake-ups apart) or give up early is about all schedules", "anchors": ["src/faster/StretcherProcess.cpp: ProcessThread::run, processChunks, testInbufReadSpace, processChunkForChannel, writeChunk"]}
{"id": "C113", "title": "Faster engine with threads: process() returns", "statement": "With threads process() waits for room in the input buffers. Whatever the caller did before, a call of process() with a block of any length returns: if the caller and all the threads get turns again and again, then after at most twice as many rounds of turns as there are samples in the block (all channels counted, plus one), in whatever order the turns are taken in each round. No turn on the way is undefined.", "quantifier": "all interleavings in rounds in which each thread and the caller get enough turns, all states reached by any calls, all blocks of any length, all ordinary configurations without pitch shift", "why_tests_cant": "a deadlock shows only in particular interleavings and with particular fills of the buffers; the claim is about all of them", "anchors": ["src/faster/R2Stretcher.cpp: process", "src/faster/StretcherProcess.cpp: consumeChannel, ProcessThread::run, processChunks, testInbufReadSpace, processChunkForChannel"]}
{"id": "C114", "title": "Faster engine: channels given the same audio come out the same", "statement": "If every block given to study() and process() holds the same samples in all channels, then each call of retrieve() delivers the same samples for all channels, when the channels are processed apart: nothing in one channel's processing depends on which channel it is.", "quantifier": "all histories of calls (setters, study, process, available, retrieve, reset), offline and in real time, all ratios, any number of channels processed apart, all inputs equal in all channels, any resampler and spectral processing", "why_tests_cant": "the first channel's buffers double as work space when studying and its increments are kept apart; that none of this is heard in any history is about all states", "anchors": ["src/faster/R2Stretcher.cpp: study, process, configure, reset", "src/faster/StretcherProcess.cpp: consumeChannel, processChunks, processOneChunk, calculateIncrements, retrieve", "src/faster/StretcherChannelData.cpp: reset"]}
{"id": "C115", "title": "Faster engine in real time: the samples asked for are enough", "statement": "In real time, before the end of the input, at least as many samples as getSamplesRequired() says, given to process() in one block, make available() strictly greater; and whenever available() is 0, getSamplesRequired() is at least 1, so that a caller that keeps giving what is asked for always gets on.", "quantifier": "for all sample rates from 8 to 192 kHz, numbers of channels, options, ratios, histories of calls, contents of the audio, and blocks at least as long as asked for", "why_tests_cant": "How much is asked for and how much a chunk makes depend on the sizes, which every change of ratio, duration or block size changes, and on the fill of each buffer after an arbitrary history; a test sees a few of them.", "anchors": ["rubberband/RubberBandStretcher.h:getSamplesRequired", "src/faster/R2Stretcher.cpp:R2Stretcher::getSamplesRequired", "src/faster/R2Stretcher.cpp:R2Stretcher::process", "src/faster/StretcherProcess.cpp:R2Stretcher::processOneChunk", "src/faster/StretcherProcess.cpp:R2Stretcher::available"]}
{"id": "C116", "title": "Faster engine in real time: output does not depend on how the input is cut into blocks", "statement": "In real time, after any history of calls, the same further audio gives the same output however it is cut into blocks for process() and whenever and in whatever amounts output is retrieved: of two such sequences of calls, what one has delivered is a beginning of what the other has, and once all input has been given and all output delivered, both are the same.", "quantifier": "for all sample rates from 8 to 192 kHz, numbers of channels, options, ratios, histories of calls, contents of the audio, and ways to cut it into blocks (including empty ones) and to retrieve output", "why_tests_cant": "The ways to cut a stream into blocks and to interleave retrieval are exponentially many, buffers are enlarged at moments that depend on them, and an increment, a sample lost in a full buffer or a frame taken too early shows for some cuts only.", "anchors": ["rubberband/RubberBandStretcher.h:process", "src/faster/R2Stretcher.cpp:R2Stretcher::process", "src/faster/StretcherProcess.cpp:R2Stretcher::consumeChannel", "src/faster/StretcherProcess.cpp:R2Stretcher::processOneChunk", "src/faster/StretcherProcess.cpp:R2Stretcher::testInbufReadSpace", "src/faster/StretcherProcess.cpp:R2Stretcher::writeOutput", "src/faster/StretcherProcess.cpp:R2Stretcher::retrieve"]}
{"id": "C117", "title": "Finer engine: formants are kept or moved as asked", "statement": "With OptionFormantPreserved the spectral envelope of the output is that of the input, or that of the input moved by the formant scale if one has been set; if a formant scale other than 0 has been set the envelope is moved by it whether or not OptionFormantPreserved is given; without a pitch shift and with no formant scale, or with one of 1, nothing is changed. Nothing is accessed outside its array, whatever the spectrum and the scales.", "quantifier": "for all supported sample rates, window options, pitch scales, formant scales, magnitudes of all scales of the analysis, and histories of the FFT object", "why_tests_cant": "The envelope depends on all bins of a frame through two transforms, a logarithm and a cut-off that depends on the rate, and it is read between bins at positions that depend on both scales; an off-by-one in the cepstrum or a factor of two in the exponent changes every spectrum a little, and no sample of spectra rules it out.", "anchors": ["rubberband/RubberBandStretcher.h:setFormantScale", "src/finer/R3Stretcher.cpp:R3Stretcher::analyseFormant", "src/finer/R3Stretcher.cpp:R3Stretcher::adjustFormant", "src/finer/R3Stretcher.h:FormantData", "src/finer/R3LiveShifter.cpp:R3LiveShifter::adjustFormant"]}
{"id": "C118", "title": "Faster engine: formants are preserved", "statement": "With OptionFormantPreserved and a pitch shift, a bin of the spectrum is given the envelope there is where it will be heard after the shift, so that a spectrum that is its own envelope is heard as it was; without the option, or without a pitch shift, nothing is changed. Nothing is accessed outside its array, whatever the spectrum and the pitch scale.", "quantifier": "for all sample rates from 8 to 192 kHz, sizes of the transform, pitch scales, magnitudes, and histories of the FFT object", "why_tests_cant": "The envelope is moved in place in an array, in an order that depends on the direction of the shift, with rounded positions that depend on the pitch scale; a loop in the wrong order or a missing factor in the exponent shows only in how loud each bin is, for spectra a test would have to guess.", "anchors": ["rubberband/RubberBandStretcher.h:OptionFormantPreserved", "src/faster/StretcherProcess.cpp:R2Stretcher::formantShiftChunk", "src/faster/StretcherProcess.cpp:R2Stretcher::synthesiseChunk", "src/common/FFT.cpp:FFT::inverseCepstral"]}
{"id": "C119", "title": "Live shifter: every call ends and every block is a whole one", "statement": "In any history of calls from creation on, with any audio, any changes of the pitch scale between blocks and any resets, no call of the live shifter reads or writes outside its arrays, every call ends, and each shift() gives exactly getBlockSize() sample frames.", "quantifier": "for all histories of calls, audio over the reals, pitch scales, sample rates, numbers of channels and options, and all classifiers and segmenters; built-in resampler", "why_tests_cant": "How much the two resamplers take and give depends on the ratios and on what they hold from before; changes of the pitch scale between blocks reach states no list of tests covers, and the loop that empties the output ends only if each round makes progress.", "anchors": ["rubberband/RubberBandLiveShifter.h:shift", "src/finer/R3LiveShifter.cpp:R3LiveShifter::shift", "src/finer/R3LiveShifter.cpp:R3LiveShifter::readIn", "src/finer/R3LiveShifter.cpp:R3LiveShifter::generate", "src/finer/R3LiveShifter.cpp:R3LiveShifter::readOut", "src/finer/R3LiveShifter.cpp:R3LiveShifter::setPitchScale", "src/common/BQResampler.cpp:BQResampler::resampleInterleaved", "src/finer/R3LiveShifter.cpp:R3LiveShifter::reset", "rubberband/RubberBandLiveShifter.h:reset"]}
{"id": "C120", "title": "Live shifter: silence in, silence out", "statement": "From creation on, a live shifter that is given nothing but silence gives nothing but silence, with any changes of the pitch scale between blocks and any resets.", "quantifier": "for all histories of calls, pitch scales, sample rates, numbers of channels and options, and all classifiers and segmenters; built-in resampler", "why_tests_cant": "A sample that was never set, or a division by something that is zero in silence, shows only at particular pitch scales and moments; for all histories at once no test settles it.", "anchors": ["rubberband/RubberBandLiveShifter.h:shift", "src/finer/R3LiveShifter.cpp:R3LiveShifter::shift", "src/finer/R3LiveShifter.cpp:R3LiveShifter::readIn", "src/finer/R3LiveShifter.cpp:R3LiveShifter::generate", "src/finer/R3LiveShifter.cpp:R3LiveShifter::readOut", "src/finer/R3LiveShifter.cpp:R3LiveShifter::setPitchScale", "src/common/BQResampler.cpp:BQResampler::resampleInterleaved", "src/finer/R3LiveShifter.cpp:R3LiveShifter::reset", "rubberband/RubberBandLiveShifter.h:reset"]}
{"id": "C121", "title": "Live shifter: channels given the same audio come out the same", "statement": "Two channels of a live shifter that are given the same audio come out the same, sample by sample, with any changes of the pitch scale and any resets, whatever the other channels hold, and whether or not channels are to be kept together.", "quantifier": "for all histories of calls, audio over the reals, pitch scales, sample rates, numbers of channels and pairs of them, both settings of OptionChannelsTogether, all classifiers and segmenters; built-in resampler", "why_tests_cant": "Channels share one guide, one resampler with interleaved buffers, and, kept together, a middle and a side; a mix-up shows only if the other channels hold other audio and at particular ratios.", "anchors": ["rubberband/RubberBandLiveShifter.h:shift", "src/finer/R3LiveShifter.cpp:R3LiveShifter::shift", "src/finer/R3LiveShifter.cpp:R3LiveShifter::readIn", "src/finer/R3LiveShifter.cpp:R3LiveShifter::generate", "src/finer/R3LiveShifter.cpp:R3LiveShifter::readOut", "src/finer/R3LiveShifter.cpp:R3LiveShifter::setPitchScale", "src/common/BQResampler.cpp:BQResampler::resampleInterleaved", "src/finer/R3LiveShifter.cpp:R3LiveShifter::reset", "rubberband/RubberBandLiveShifter.h:reset", "src/finer/PhaseAdvance.h:GuidedPhaseAdvance::advance"]}
{"id": "C122", "title": "Live shifter: a reset forgets what was played", "statement": "After reset() silence in gives silence out, whatever was played before and with whatever pitch scales.", "quantifier": "for all histories before the reset and all histories with silent audio after it, all pitch scales, sample rates, numbers of channels and options, and all classifiers and segmenters; built-in resampler", "why_tests_cant": "A buffer that is not cleared is heard only after particular histories; a test tries a few.", "anchors": ["rubberband/RubberBandLiveShifter.h:shift", "src/finer/R3LiveShifter.cpp:R3LiveShifter::shift", "src/finer/R3LiveShifter.cpp:R3LiveShifter::readIn", "src/finer/R3LiveShifter.cpp:R3LiveShifter::generate", "src/finer/R3LiveShifter.cpp:R3LiveShifter::readOut", "src/finer/R3LiveShifter.cpp:R3LiveShifter::setPitchScale", "src/common/BQResampler.cpp:BQResampler::resampleInterleaved", "src/finer/R3LiveShifter.cpp:R3LiveShifter::reset", "rubberband/RubberBandLiveShifter.h:reset", "src/common/BQResampler.cpp:BQResampler::reset", "src/finer/R3LiveShifter.h:ChannelData::reset"]}
{"id": "C123", "title": "Vamp plugin: the outputs show the stretch profile", "statement": "Offline, the features of a new plugin are, for each step of the input in order and with the time stamp of that step: the output time increment; the output time accumulated before it (and once more at the end); the difference between that and a linear stretch; a phase reset exactly where the stretcher makes one; a salient point exactly where there is a phase reset or the detector found one; and the values of the two curves.", "quantifier": "for all audio other than of a single step, block sizes, sample rates, options, time and pitch ratios, and all transforms and detectors", "why_tests_cant": "Peaks are matched to steps by a running index that goes wrong for good once it is missed; which steps are peaks or resets depends on the audio.", "anchors": ["vamp/RubberBandVampPlugin.cpp:RubberBandVampPlugin::Impl::createFeatures", "vamp/RubberBandVampPlugin.cpp:RubberBandVampPlugin::Impl::getRemainingFeaturesOffline", "vamp/RubberBandVampPlugin.cpp:RubberBandVampPlugin::Impl::processOffline", "vamp/RubberBandVampPlugin.cpp:RubberBandVampPlugin::initialise", "src/common/StretchCalculator.h:StretchCalculator::getLastCalculatedPeaks"]}
{"id": "C124", "title": "Vamp plugin: the same again after reset()", "statement": "After reset(), the plugin shows the same features for the same audio as it did the first time.", "quantifier": "for all audio, block sizes, sample rates, options and ratios, offline and in real time", "why_tests_cant": "What a reset leaves behind is seen only in a second run, and how much depends on the first.", "anchors": ["vamp/RubberBandVampPlugin.cpp:RubberBandVampPlugin::reset", "vamp/RubberBandVampPlugin.cpp:RubberBandVampPlugin::Impl::createFeatures", "vamp/RubberBandVampPlugin.cpp:RubberBandVampPlugin::Impl::getRemainingFeaturesOffline", "vamp/RubberBandVampPlugin.cpp:RubberBandVampPlugin::Impl::processOffline", "vamp/RubberBandVampPlugin.cpp:RubberBandVampPlugin::initialise", "vamp/RubberBandVampPlugin.cpp:RubberBandVampPlugin::Impl::createFeatures", "vamp/RubberBandVampPlugin.cpp:RubberBandVampPlugin::Impl::processRealTime", "src/faster/R2Stretcher.cpp:R2Stretcher::reset"]}
{"id": "C125", "title": "Vamp plugin: the analysis covers the audio", "statement": "Offline, the last time stamp shown is at or after the end of the audio, and the time accumulated there is that of the linear stretch, rounded.", "quantifier": "for all audio of at least one window, block sizes, sample rates from 8 to 192 kHz, options and ratios at which no increment is forced to its minimum", "why_tests_cant": "How many steps there are depends on the length of the audio, the window and the increment; a few lengths tried do not settle all.", "anchors": ["vamp/RubberBandVampPlugin.cpp:RubberBandVampPlugin::Impl::createFeatures", "vamp/RubberBandVampPlugin.cpp:RubberBandVampPlugin::Impl::getRemainingFeaturesOffline", "vamp/RubberBandVampPlugin.cpp:RubberBandVampPlugin::Impl::processOffline", "vamp/RubberBandVampPlugin.cpp:RubberBandVampPlugin::initialise", "src/faster/R2Stretcher.cpp:R2Stretcher::study", "src/common/StretchCalculator.cpp:StretchCalculator::calculate"]}
{"id": "C126", "title": "Vamp plugin: salient points are on time", "statement": "Offline, every salient point that the detector finds is shown as one, and the divergence from a linear stretch shown at that time stamp is at most one sample.", "quantifier": "for all audio of at least one window, block sizes, sample rates from 8 to 192 kHz, options, detectors, and ratios at which no increment is forced to its minimum", "why_tests_cant": "Increments are distributed between peaks with rounding at every step; an error shows only with particular distances between peaks.", "anchors": ["vamp/RubberBandVampPlugin.cpp:RubberBandVampPlugin::Impl::createFeatures", "vamp/RubberBandVampPlugin.cpp:RubberBandVampPlugin::Impl::getRemainingFeaturesOffline", "vamp/RubberBandVampPlugin.cpp:RubberBandVampPlugin::Impl::processOffline", "vamp/RubberBandVampPlugin.cpp:RubberBandVampPlugin::initialise", "src/common/StretchCalculator.cpp:StretchCalculator::calculate", "src/common/StretchCalculator.cpp:StretchCalculator::mapPeaks"]}
{"id": "C127", "title": "Vamp plugin in real time: all chunks are shown, in order", "statement": "In real time, the features shown over all calls of process() are those of all the chunks the stretcher has processed, in order: the time stamp of the k-th is k increments, the time accumulated is that of all before it.", "quantifier": "for all sequences of calls, any number of chunks with any increments and curve values in each", "why_tests_cant": "The time stamps depend on a counter carried from call to call and on how many chunks each call processes.", "anchors": ["vamp/RubberBandVampPlugin.cpp:RubberBandVampPlugin::Impl::createFeatures", "vamp/RubberBandVampPlugin.cpp:RubberBandVampPlugin::Impl::processRealTime", "src/faster/StretcherProcess.cpp:R2Stretcher::calculateIncrements", "src/faster/R2Stretcher.cpp:R2Stretcher::getOutputIncrements"]}
{"id": "C128", "title": "Command-line utility: map files are read as written", "statement": "A time, frequency or pitch map file gives exactly the map it spells out: each frame is mapped to what the last line for it says and no other frame is mapped, whatever the order of the lines, the spaces before and between the columns, the empty lines and the end of the last line.", "quantifier": "for all files of lines of two columns with frame numbers below 2^31, and empty lines", "why_tests_cant": "Files have any number of lines in any order and spacing; a sample of files does not show that every line is taken and none changes another.", "anchors": ["main/main.cpp:main"]}
{"id": "C129", "title": "Command-line utility: malformed maps are refused", "statement": "A line of a time map that is not empty and is not two frame numbers separated by spaces makes the utility end with an error that tells of the line.", "quantifier": "for all files", "why_tests_cant": "There are endlessly many ways for a line to be malformed.", "anchors": ["main/main.cpp:main"]}
{"id": "C130", "title": "Command-line utility: the stretcher is made with what is asked for", "statement": "The engine is the one asked for with --fast or --fine, or that of the name of the utility if neither or both are given; --realtime, --formant, --centre-focus, --smoothing, --pitch-hq, --ignore-clipping, --no-lamination, --window-long and --window-short have effect exactly if given; of --no-threads and --threads, --no-transients and --bl-transients, --detector-perc and --detector-soft the last given has; a frequency or pitch map implies real time and consistent pitch and overrides --pitch-hq.", "quantifier": "for all lists of options in any order and number, all names of the utility (without a crispness level for the options it overrides)", "why_tests_cant": "There are over thirty options in any combination and order.", "anchors": ["main/main.cpp:main", "rubberband/RubberBandStretcher.h:RubberBandStretcher::Options"]}
{"id": "C131", "title": "Command-line utility: the ratios mean what the help says", "statement": "With one of --time X, --tempo X, --tempo X:Y and --duration X, the time ratio is X, 1/X, X/Y, or X over the duration in the header of the input file, and 1 with none; with one of --pitch X and --frequency X, the pitch scale is that of X semitones or X, and 1 with none.", "quantifier": "for all numbers (not 0 for tempo and duration), input files with a sample rate, and other options in any order", "why_tests_cant": "The numbers range over all reals and are combined with any other options.", "anchors": ["main/main.cpp:main", "main/main.cpp:tempo_convert"]}
{"id": "C132", "title": "Command-line utility: ratios that are not positive are refused", "statement": "The stretcher is never made with a time ratio or a pitch scale that is 0 or negative.", "quantifier": "for all lists of options with any numbers and all input files", "why_tests_cant": "Which numbers get past the check depends on the order in which the ratio is worked out.", "anchors": ["main/main.cpp:main", "main/main.cpp:tempo_convert"]}
{"id": "C133", "title": "Command-line utility: a crispness level is the options it stands for", "statement": "The last crispness level given, from 0 to 6, does the same as the options listed for it in the help, whatever options for transients, lamination, window and detector, and other levels, are given besides.", "quantifier": "for all lists of options with a level from 0 to 6, names and input files", "why_tests_cant": "The level must override all combinations of options in any order.", "anchors": ["main/main.cpp:main"]}
{"id": "C134", "title": "Command-line utility: crispness has no effect on the finer engine", "statement": "With the finer engine, the crispness level makes no difference to any option that the engine looks at.", "quantifier": "for all lists of options, names and input files", "why_tests_cant": "It takes every level with every combination of other options.", "anchors": ["main/main.cpp:main", "src/finer/R3Stretcher.h:R3Stretcher::isSingleWindowed", "src/finer/R3Stretcher.h:R3Stretcher::areWeResampling", "src/finer/R3Stretcher.h:R3Stretcher::useMidSide"]}
{"id": "C135", "title": "Command-line utility: the order of options makes no difference", "statement": "Options given in another order do the same, unless two different ones set the same thing.", "quantifier": "for all lists of options and all their permutations", "why_tests_cant": "There are factorially many orders.", "anchors": ["main/main.cpp:main"]}
{"id": "C136", "title": "The stretcher is given the samples in the Java arrays", "statement": "study and process of the Java interface give the stretcher, for each of its channels, the n samples that are in the Java array of that channel from the offset on, in order.", "quantifier": "For all arrays, offsets and counts that fit in them, all numbers of channels, whichever arrays the virtual machine copies and whatever other threads write to other parts of the arrays at any time during the call.", "why_tests_cant": "The virtual machine chooses whether arrays are copied, and a test sees only what its own virtual machine, collector and array sizes make it choose. Writes of other threads come at any time.", "anchors": ["src/jni/RubberBandStretcherJNI.cpp:Java_com_breakfastquay_rubberband_RubberBandStretcher_study", "src/jni/RubberBandStretcherJNI.cpp:Java_com_breakfastquay_rubberband_RubberBandStretcher_process"]}
{"id": "C137", "title": "Giving samples to the stretcher does not change the Java arrays", "statement": "After study or process of the Java interface, all Java arrays are as the other threads of the program have left them: the call itself changes none, as the samples given are input only.", "quantifier": "For all arrays, offsets, counts, channels, all choices of the virtual machine and all writes of other threads to parts of the arrays that are not being given.", "why_tests_cant": "The virtual machine chooses whether arrays are copied, and a test sees only what its own virtual machine, collector and array sizes make it choose. A lost write of another thread needs a write between two steps of the call.", "anchors": ["src/jni/RubberBandStretcherJNI.cpp:Java_com_breakfastquay_rubberband_RubberBandStretcher_study", "src/jni/RubberBandStretcherJNI.cpp:Java_com_breakfastquay_rubberband_RubberBandStretcher_process"]}
{"id": "C138", "title": "What is retrieved is in the Java arrays from the offset on", "statement": "retrieve of the Java interface puts the samples that the stretcher gives for each channel into the array of that channel from the offset on, returns how many there are, and changes nothing else in any array.", "quantifier": "For all arrays that are distinct and large enough, all offsets, counts and channels, all results of the stretcher and all writes of other threads elsewhere.", "why_tests_cant": "All offsets, counts and array sizes, and all times at which other threads can write.", "anchors": ["src/jni/RubberBandStretcherJNI.cpp:Java_com_breakfastquay_rubberband_RubberBandStretcher_retrieve"]}
{"id": "C139", "title": "The output of the live shifter is in the Java arrays for output", "statement": "After shift of the Java interface, with separate arrays for input and output, the output of the shifter for each channel is in its array from the output offset on, the shifter has been given the input from the input offset on, and nothing else in any array is changed.", "quantifier": "For all arrays, offsets and numbers of channels, all block sizes and whichever arrays the virtual machine copies.", "why_tests_cant": "The virtual machine chooses whether arrays are copied, and a test sees only what its own virtual machine, collector and array sizes make it choose.", "anchors": ["src/jni/RubberBandStretcherJNI.cpp:Java_com_breakfastquay_rubberband_RubberBandLiveShifter_shift", "rubberband/RubberBandLiveShifter.h:RubberBandLiveShifter::shift"]}
{"id": "C140", "title": "The key-frame map given in Java is the one the stretcher gets", "statement": "setKeyFrameMap of the Java interface gives the stretcher a map that has at each key of the Java map just what the Java map has there, and no other keys.", "quantifier": "For all Java maps with keys and values that are not negative, in whatever order the Java map lists its keys.", "why_tests_cant": "The order in which a Java map lists its keys is not specified; all maps of any size.", "anchors": ["src/jni/RubberBandStretcherJNI.cpp:Java_com_breakfastquay_rubberband_RubberBandStretcher_setKeyFrameMap", "com/breakfastquay/rubberband/RubberBandStretcher.java:RubberBandStretcher.setKeyFrameMap"]}
{"id": "C141", "title": "The scavenger deletes each claimed object once, with its two threads at work", "statement": "With one thread that claims and one that scavenges, however their steps interleave, the scavenger never deletes an object more often than it was claimed; once it is destroyed, after both have returned, it has deleted each object just as often as it was claimed. An object that found a free slot is not deleted because of its age until the delay has passed since it was claimed.", "quantifier": "For all sequences of claims and scavenges, all interleavings of the accesses to shared variables, all times read, all delays and numbers of slots.", "why_tests_cant": "The orders in which the two threads can come are unbounded, and a test sees only a few of them.", "anchors": ["src/common/Scavenger.h:Scavenger::claim", "src/common/Scavenger.h:Scavenger::scavenge", "src/common/Scavenger.h:Scavenger::~Scavenger"]}
{"id": "C142", "title": "Output buffers replaced by the threads of several channels are not lost", "statement": "When several threads hand objects to the scavenger, as the threads of the faster engine do with output buffers that were too small, all of the objects have been deleted once the scavenger is destroyed, and none is deleted twice.", "quantifier": "For all numbers of threads, all claims, and all interleavings of the accesses to shared variables.", "why_tests_cant": "It depends on two threads reaching the same few instructions at the same time, which a test cannot bring about at will.", "anchors": ["src/common/Scavenger.h:Scavenger::claim", "src/faster/StretcherProcess.cpp:R2Stretcher::processChunkForChannel", "src/faster/R2Stretcher.cpp:R2Stretcher::reset"]}
{"id": "C143", "title": "Reallocation keeps what there was", "statement": "Reallocating a buffer, or a set of channels, gives a buffer of the new size in which the elements that fit are as they were and, if it was asked for, the others are zero; the old memory is freed once and everything else is left alone. If there is no memory for it, an exception is thrown and the old memory is untouched.", "quantifier": "For all contents, old and new numbers of elements and channels (whose sizes in bytes fit into size_t), all states of the heap and all requests that the system refuses.", "why_tests_cant": "Refusals can come at any of the requests that a call makes, and tests use a few sizes.", "anchors": ["src/common/Allocators.h:reallocate", "src/common/Allocators.h:reallocate_and_zero", "src/common/Allocators.h:reallocate_and_zero_extension", "src/common/Allocators.h:reallocate_channels", "src/common/Allocators.h:reallocate_and_zero_extend_channels"]}
{"id": "C144", "title": "An allocation that fails leaves nothing behind", "statement": "A call that allocates or reallocates and ends with an exception because there is no memory leaves all memory as it was before: nothing is lost, and nothing stays allocated that nobody can free.", "quantifier": "For all calls, sizes, states of the heap and requests that the system refuses.", "why_tests_cant": "Memory does not run out at a chosen request in a test.", "anchors": ["src/common/Allocators.h:allocate", "src/common/Allocators.h:allocate_channels", "src/common/Allocators.h:allocate_and_zero_channels", "src/common/Allocators.h:reallocate_channels"]}
{"id": "C145", "title": "An allocation has room for what was asked for", "statement": "An allocation either throws an exception or gives a block in which there is room for all the elements asked for, however many they are; with the aligned allocation of the library's own, the address is a multiple of 64 and what is kept to free it is within the block too.", "quantifier": "For all numbers and sizes of elements and all addresses that malloc may return.", "why_tests_cant": "It matters for numbers of elements too large to allocate in a test, and for all addresses.", "anchors": ["src/common/Allocators.h:allocate", "src/common/Allocators.h:deallocate", "src/common/Allocators.h:StlAllocator::allocate"]}
{"id": "C146", "title": "A wait with a limit ends when the limit is over", "statement": "Waiting for a condition with a limit, if nobody signals, ends that many microseconds after the call.", "quantifier": "For all times of the call and all limits.", "why_tests_cant": "It goes wrong at one microsecond in a million.", "anchors": ["src/common/Thread.cpp:Condition::wait"]}
{"id": "C147", "title": "The mutex excludes, and its complaints are right", "statement": "Whatever calls threads make: two threads never hold the mutex at the same time; an unlock by a thread that does not hold it is refused with a message and one by the thread that does releases it; trylock fails only if the mutex is held or another thread is in a call; and a deadlock is reported exactly if a thread locks the mutex that it holds.", "quantifier": "For any number of threads, all sequences of calls, right or wrong, and all interleavings of the accesses to shared variables.", "why_tests_cant": "The checks read variables without the lock; whether they can be wrong depends on all interleavings.", "anchors": ["src/common/Thread.cpp:Mutex::lock", "src/common/Thread.cpp:Mutex::unlock", "src/common/Thread.cpp:Mutex::trylock"]}
{"id": "C148", "title": "No signal is lost", "statement": "Threads that use a condition as its comment says are never at the same time between lock (or a wait that has returned) and unlock (or the next wait), and no unlock is ignored. If one looks, with the condition locked, whether there is something to do and waits otherwise, while others first provide something and then lock, signal and unlock, it never goes on waiting after the signal.", "quantifier": "For any number of threads and all interleavings, with waits that end for no reason or because the time is over.", "why_tests_cant": "A lost signal needs a certain interleaving of a few instructions, and the limits on the waits hide it.", "anchors": ["src/common/Thread.cpp:Condition::lock", "src/common/Thread.cpp:Condition::unlock", "src/common/Thread.cpp:Condition::wait", "src/common/Thread.cpp:Condition::signal", "src/faster/StretcherProcess.cpp:R2Stretcher::ProcessThread::run", "src/faster/StretcherProcess.cpp:R2Stretcher::ProcessThread::signalDataAvailable"]}
{"id": "C149", "title": "The resampler treats what comes before and after a moment alike", "statement": "At a fixed ratio, each output sample is the sum of the input samples around its time with weights that depend only on how far away in time the input sample is, not on whether it is before or after, and that are largest at the distance 0: an impulse comes out symmetric around its time, so there is no distortion of phases. The filter is defined for every ratio: nothing is read outside arrays and nothing divided by zero in making it.", "quantifier": "For all qualities, ratios from 1/40000 on, both ways of making the filter, numbers of channels, audio and divisions into blocks.", "why_tests_cant": "It has to hold for each ratio, for which the filter is drawn out to another length, and for each phase of the filter.", "anchors": ["src/common/BQResampler.cpp:BQResampler::make_filter", "src/common/BQResampler.cpp:BQResampler::kaiser_for", "src/common/BQResampler.cpp:BQResampler::kaiser", "src/common/BQResampler.cpp:BQResampler::sinc_multiply", "src/common/BQResampler.cpp:BQResampler::bessel0", "src/common/BQResampler.cpp:BQResampler::reconstruct_one"]}
{"id": "C150", "title": "Faster engine in real time: what is given is resampled once", "statement": "In real-time mode, if the input is resampled before it is stretched (a raised pitch with the default pitch option) and the pitch scale is left alone: after any sequence of process(), available(), retrieve(), reset() and other setters, the resampler of every channel has been given exactly what was given to the engine since construction or the last reset, each sample once and in order, it is told of the end at most with its last call, and what waits to be stretched is the last of what it gave: none of its output is dropped.", "quantifier": "all sequences of blocks of all sizes, all buffer sizes and fills, pitch scales, channel numbers and all resamplers that before the end give at most the number asked for, rounded up", "why_tests_cant": "how much is resampled at a time depends on the fill of the input buffer, which depends on all blocks and sizes before; the loss needs a particular fill at the last block", "anchors": ["src/faster/StretcherProcess.cpp: consumeChannel", "src/faster/R2Stretcher.cpp: process, reconfigure, reset", "src/common/BQResampler.cpp: resample"]}
{"id": "C151", "title": "Faster engine: audio turned over comes out turned over", "statement": "If the same calls are made with audio of inverted polarity (every sample negated), the audio put out is that of the original calls, negated: the phases put out for every bin of every chunk are half a turn on from the original's, as the phases taken in are.", "quantifier": "all sequences of chunks, resets and size changes, all phases, ratios, increments, window sizes and phase options, and any angle in place of the half turn", "why_tests_cant": "the engine compares, wraps and scales phases, so whether the result depends on where they wrap is a matter of all phases of all bins in all chunks since the start; the magnitudes are the same, so the difference shows only when the outputs are mixed or compared", "anchors": ["src/faster/StretcherProcess.cpp: modifyChunk", "src/common/mathmisc.h: princarg"]}
{"id": "C152", "title": "Finer engine: audio turned over comes out turned over", "statement": "If the same calls are made with audio of inverted polarity (every sample negated), the audio put out is that of the original calls, negated: the phases put out for every bin in every frame are half a turn on from the original's, as the phases taken in are.", "quantifier": "all sequences of frames, numbers of channels, magnitudes, phases, hops, guidance that the guide gives, FFT sizes and supported rates, and any angle in place of the half turn", "why_tests_cant": "phases are wrapped, compared with those of a peak and multiplied by a factor near 1; whether the result depends on where they wrap is a matter of all phases since the start, and the magnitudes put out are the same either way", "anchors": ["src/finer/PhaseAdvance.h: advance", "src/common/mathmisc.h: princarg"]}
{"id": "C153", "title": "Finer engine: phase relations between channels do not drift", "statement": "Wherever channels are locked together (below 600 Hz, or below half the rate with OptionChannelsTogether, at up to twice the length, in frames neither silent nor at unity) and have the same partial (its peak in the same bin now and in the same bin in the frame before, the loudest channel included), the difference between the phases put out for any two channels is beta times the difference between the phases taken in: in every frame, whatever happened before.", "quantifier": "all numbers of channels, states, magnitudes, phases, hops, guidance that the guide gives, FFT sizes and supported rates; all bins and all pairs of channels", "why_tests_cant": "each channel has its own accumulated phases; a drift would need particular histories of peaks and loudness in several channels, and a small one shows only after long material", "anchors": ["src/finer/PhaseAdvance.h: advance", "src/finer/Guide.h: updateGuidance"]}
{"id": "C154", "title": "The C interface does what the C++ interface does, with the engine chosen by the options", "statement": "A program that makes, uses and deletes any number of stretchers with the functions of rubberband-c.h, in any order and interleaved, never has a null pointer dereferenced or an array read beyond its end; each stretcher replies as the engine chosen by its options (the finer one exactly if OptionEngineFiner is set) replies by itself to the C++ calls of the same names with the same numbers: sizes are widened without change, 'final' is any number but 0, a key frame that comes several times in the arrays counts as it comes last, returned sizes are the same below 2^32. Calls meant for the other engine are without effect and give 0 or nothing. Options named in C and combined with | are those of the same names in C++, and each can be told from the others.", "quantifier": "for all engines, all programs of C calls on any number of stretchers, all option words and lists of option names", "why_tests_cant": "The engine, the number of stretchers, the interleaving and the arguments are unbounded; tests use single stretchers with the C++ interface.", "anchors": ["src/rubberband-c.cpp: rubberband_new, rubberband_set_key_frame_map, rubberband_process, rubberband_retrieve", "rubberband/rubberband-c.h: RubberBandOption", "src/RubberBandStretcher.cpp: RubberBandStretcher::Impl", "rubberband/RubberBandStretcher.h: Option"]}
{"id": "C155", "title": "Faster engine with threads: reset() and destruction return, and not before the threads have ended", "statement": "With the faster engine in offline mode and a thread per channel, reset() and the destructor return whatever has been processed and retrieved before and however far the threads have come (also in the middle of the input, where no thread would ever end by itself), provided that every thread and the caller keep getting turns. The channels are not touched before every thread has ended.", "quantifier": "for all settings in the ordinary range, all inputs, all calls made before, all interleavings of the threads and the caller before and during the call, and any order of the threads in the set", "why_tests_cant": "The interleavings cannot be enumerated by tests; a hang in the destructor shows only under particular schedules.", "anchors": ["src/faster/R2Stretcher.cpp: R2Stretcher::reset, R2Stretcher::~R2Stretcher", "src/faster/StretcherProcess.cpp: ProcessThread::run, ProcessThread::abandon", "src/common/Thread.cpp: Thread::wait"]}
{"id": "C156", "title": "The plugins are what they announce: ports, ranges, pitch and instances", "statement": "Each of the six plugins, in LADSPA and in LV2: whatever ports a host connects, in any order and any number of times, also ports that do not exist, nothing is written beyond an array, every control and buffer is taken from the place last connected to the port announced under its name or symbol (0 or the setting kept if never connected), and only the latency is written. Names, LADSPA tables and the LV2 description agree about indices, directions, sorts and ranges. The pitch scale is 2 to the octaves, semitones/12 and cents/1200 of those ports: all plugins agree on whole numbers in range; LV2 and the live plugins take the nearest whole number in range whatever is set, so the scale never leaves 2^(-37/12)..2^(37/12). Each descriptor instantiates its own plugin with the channels it announces, and stands for the LADSPA plugin it names.", "quantifier": "for all plugins, formats, sequences of connections and control values (finite reals)", "why_tests_cant": "The sequences of connections and the values of the controls are unbounded; indices are repeated in four places (enumeration, tables of names and hints, table of pointers, description file) that nothing ties together.", "anchors": ["ladspa-lv2/RubberBandPitchShifter.cpp: connectPort, updateRatio, instantiate, getDescriptor, portNamesMono, hintsStereo", "ladspa-lv2/RubberBandR3PitchShifter.cpp: connectPort, updateRatio", "ladspa-lv2/RubberBandLivePitchShifter.cpp: connectPort, updateRatio", "ladspa-lv2/libmain-lv2.cpp: lv2_descriptor", "ladspa-lv2/rubberband.lv2/lv2-rubberband.ttl"]}
{"id": "C157", "title": "Vamp plugin: parameters and outputs are what they are called", "statement": "Whatever parameters a host sets, in whatever order and however often: a parameter is read as it was last set if the value is one of those announced (the default announced if never set), and otherwise, if in the range, as the announced value nearest to it; unknown identifiers have no effect on it. The stretcher that initialise() makes has the time ratio and pitch scale set in percent and the options that go by the names announced for the values that are read. Once getOutputDescriptors() was called, every feature is given for the output that has the identifier for it.", "quantifier": "for all sequences of calls and all parameter values that an int can hold (ranges as announced)", "why_tests_cant": "Sequences of calls and values are unbounded; the names of values, the comparisons that read them and the options they select are in three functions that nothing ties together.", "anchors": ["vamp/RubberBandVampPlugin.cpp: getParameterDescriptors, getParameter, setParameter, initialise, getOutputDescriptors, createFeatures"]}
{"id": "C158", "title": "Java objects do what the C++ objects do", "statement": "A Java program with any number of RubberBandStretcher and RubberBandLiveShifter objects, made, used and disposed of in any order, dispose() also more than once: each object gives what a C++ object made with the same numbers and options gives when used alone, to the calls of the same names with the same numbers (counts returned are the same below 2^31); no null pointer is dereferenced and nothing deleted is used, also when native memory is used again; and when all objects were disposed of, no native object is left. The option constants of Java are those of C++ of the same names.", "quantifier": "for all programs, numbers of objects, arguments, engines and allocators", "why_tests_cant": "Programs and interleavings of objects are unbounded; use of deleted memory and leaks show only with some allocators and some orders of calls.", "anchors": ["src/jni/RubberBandStretcherJNI.cpp: getStretcher, setStretcher, initialise, dispose and all methods", "com/breakfastquay/rubberband/RubberBandStretcher.java", "com/breakfastquay/rubberband/RubberBandLiveShifter.java", "rubberband/RubberBandLiveShifter.h: Option", "rubberband/rubberband-c.h: RubberBandLiveOption"]}
{"id": "C159", "title": "Live shifters behind the C interface do what the C++ live shifters do", "statement": "A C program with any number of live shifters, made, used and deleted in any order by way of the rubberband_live_ functions, each used only after it is made and before it is deleted: the program runs without use of what was deleted; each shifter gives what a live shifter made in C++ with the same numbers and options gives when used alone, to the calls of the same names with the same arguments (sizes returned are the same below 2^32); and in the end those shifters are left that were made and not deleted, and no others.", "quantifier": "for all programs, numbers of shifters, arguments and shifters", "why_tests_cant": "Programs and interleavings of objects are unbounded; a call passed to the wrong method or the wrong object can go unnoticed for most arguments.", "anchors": ["src/rubberband-c.cpp: rubberband_live_new, rubberband_live_delete and all rubberband_live_ functions", "src/RubberBandLiveShifter.cpp: RubberBandLiveShifter, Impl", "rubberband/rubberband-c.h"]}
{"id": "C160", "title": "The debug level decides what is reported", "statement": "A message from a stretcher or live shifter is reported if, and only if, its level is no more than the level last set for that object with setDebugLevel, or if none was set for it, than the default level (0 unless set with setDefaultDebugLevel) at the time when it was made; whatever is done with other objects and whatever the default is later.", "quantifier": "for all programs with any number of objects of both engines and live shifters, all parts of them, all levels", "why_tests_cant": "Each part keeps a copy of the level of its own; which copies are out of date depends on the order of construction, settings and later reconstruction of parts, over unbounded histories.", "anchors": ["src/common/Log.h: Log", "src/common/Log.cpp", "src/faster/R2Stretcher.cpp: setDebugLevel, configure, reconfigure", "src/finer/R3Stretcher.h: setDebugLevel", "src/finer/R3LiveShifter.h: setDebugLevel", "src/common/StretchCalculator.h: setDebugLevel, m_log", "src/finer/Guide.h: setDebugLevel", "src/finer/PhaseAdvance.h: setDebugLevel", "src/common/Resampler.cpp: m_debugLevel"]}
{"id": "C161", "title": "Windows in real time are made on construction", "statement": "With the faster engine in real time, whatever time ratios and pitch scales are set one after the other, the analysis and synthesis windows, the filter and the FFTs that are used are there and are of the sizes in use; and none of them has to be made after construction (which would allocate memory in the thread that sets the ratio, in real time, and report a warning at level 0).", "quantifier": "for all rates from 8000 to 192000, all options, all sequences of ratios and expected durations of any length", "why_tests_cant": "Which window is needed follows from roundings of the ratios, the rate and the options, with loops; a test sees a few ratios, and allocation in the audio thread leaves no trace in the output.", "anchors": ["src/faster/R2Stretcher.cpp: configure, reconfigure, calculateSizes", "src/faster/StretcherChannelData.cpp: construct, setSizes"]}
