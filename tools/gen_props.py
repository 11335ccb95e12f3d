# Generates /verif/properties.jsonl (kept as a script so that the list stays consistent).
import json, pathlib
P = []
def prop(title, statement, quantifier, why, *anchors):
    P.append(dict(id=f"C{len(P)+1:02d}", title=title, statement=statement, quantifier=quantifier,
                  why_tests_cant=why, anchors=list(anchors)))
TS="src/fpfind/lib/parse_timestamps.py"; EP="src/fpfind/lib/parse_epochs.py"; UT="src/fpfind/lib/utils.py"
FP="src/fpfind/fpfind.py"; FC="src/fpfind/freqcd.c"; GO="src/fpfind/lib/getopt.c"; TG="src/fpfind/lib/generate_freqcd_testcase.py"
LG="src/fpfind/lib/logging.py"; G2="src/fpfind/lib/g2_two_timestamps.py"; DT="src/fpfind/lib/generate_freqdetuneg2.py"; CO="src/fpfind/lib/constants.py"

# ---------------- raw timestamp files ----------------
prop("a1 write/read round trip",
 "Reading with read_a1 a file produced by write_a1 returns exactly the timestamps and detector patterns that were written, in order, in both the legacy and the normal word order, at every resolution.",
 "all event lists of any length with 54-bit timestamps and 4-bit patterns, both word orders, all three resolutions",
 "2^58 possible events and unbounded lists; word-order and shift mistakes only show on particular bit patterns",
 f"{TS}:read_a1", f"{TS}:write_a1", f"{TS}:_consolidate_events", f"{TS}:_format_timestamps")
prop("a1 read/write canonicalisation",
 "Re-writing with write_a1 what read_a1 returned (in 4ps integers) reproduces the input file byte for byte except that bits 4..9 of every event are cleared; doing it twice changes nothing more; converting legacy to normal and back is the same as not converting.",
 "all byte strings whose length is a multiple of 8, both word orders",
 "all byte strings are inputs", f"{TS}:read_a1", f"{TS}:write_a1")
prop("Resolution and fractional modes of the readers",
 "For every 54-bit timestamp the fractional mode returns exactly raw*res/256 (80-bit floats lose nothing) and the integer mode returns its floor; both are monotone in the raw timestamp; with 64-bit floats the fractional mode is exact only below 2^53.",
 "all 54-bit raw timestamps, all resolutions, both modes, both float widths",
 "2^54 timestamps; float rounding errors appear only above 2^53", f"{TS}:_format_timestamps", f"{CO}:TSRES")
prop("Streaming a1 reader equals the one-shot reader",
 "Concatenating the batches of sread_a1 gives exactly what read_a1 returns, the number of batches actually yielded is the announced num_batches, and every batch except possibly the last holds exactly buffer_size events.",
 "all files, all positive buffer sizes",
 "off-by-one errors depend on the relation between file size and buffer size", f"{TS}:sread_a1", f"{TS}:read_a1")
prop("a0 text write/read round trip",
 "Reading with read_a0 a file produced by write_a0 returns exactly the timestamps and patterns written.",
 "all non-empty event lists with 54-bit timestamps and 4-bit patterns",
 "the failing inputs are the odd timestamps above 2^53, half of the range in principle but never in a small test file", f"{TS}:read_a0", f"{TS}:write_a0")
prop("a2 text write/read round trip",
 "Reading with read_a2 a file produced by write_a2 returns exactly the timestamps and patterns written.",
 "all non-empty event lists with 54-bit timestamps and 4-bit patterns",
 "depends on the length of the list and on all values at once (numpy dtype discovery)", f"{TS}:read_a2", f"{TS}:write_a2")
prop("Streaming writers equal the one-shot writers",
 "swrite_a0/a1/a2 given a stream of batches writes exactly the bytes write_a0/a1/a2 writes for the concatenation of the batches.",
 "all partitions of all event lists into batches (including empty ones), all resolutions, both word orders",
 "unbounded number of batch partitions", f"{TS}:swrite_a0", f"{TS}:swrite_a1", f"{TS}:swrite_a2")
prop("Streaming text readers are independent of the buffer size",
 "On a file written by write_a0 (write_a2) the batches of sread_a0 (sread_a2) concatenate to the same events for every buffer size, and the number of batches is the announced num_batches.",
 "all event lists, all positive buffer sizes", "line boundaries versus buffer boundaries", f"{TS}:sread_a0", f"{TS}:sread_a2")
prop("Pattern filter",
 "get_pattern_mask selects exactly the documented events and returns the documented patterns in its four modes: equal to the pattern; different from it; sharing a bit with it (pattern reduced to the shared bits); having a bit outside of it or being an empty event (pattern reduced to the remaining bits).",
 "all pattern lists, all patterns 0..15, all four mask/invert combinations",
 "needs all (event, pattern, mode) combinations at once and arbitrary list positions", f"{TS}:get_pattern_mask")
prop("Timing filter",
 "On a chronologically sorted array get_timing_mask marks exactly the events with start <= t <= end (missing bounds meaning unbounded), whatever the position of the bounds relative to the data.",
 "all sorted arrays including empty ones, all bounds including start > end",
 "binary search boundary conditions", f"{TS}:get_timing_mask")
prop("Conversion command is independent of batching",
 "parse_timestamps -A1 -a1 with any filters writes, for a sorted input file, the same output for every streaming buffer size, equal to filtering all events at once; and the --inmemory path writes the same output.",
 "all sorted files of whole events, all filters, all buffer sizes", "interaction of batching and filtering", f"{TS}:main", f"{TS}:sread_a1", f"{TS}:swrite_a1")
prop("Event statistics",
 "The counts reported by print_statistics_stream do not depend on how events are batched and equal those of print_statistics; the total equals empty events plus single-channel events plus multi-channel events; the reported start/end are the first and last event.",
 "all event lists with 4-bit patterns, all partitions into batches", "unbounded partitions", f"{TS}:print_statistics_stream", f"{TS}:print_statistics")
prop("Statistics report is total",
 "The statistics report is produced without an exception for every file with at least one event.",
 "all non-empty event lists", "fails on the measure-zero set of zero-duration files", f"{TS}:print_statistics_report")

# ---------------- epoch files ----------------
prop("T1 epoch write/read round trip",
 "read_T1 on a file produced by write_T1 returns exactly the timestamps (with the 17-bit epoch prefix) and detectors that were written; a single detector stands for all events, and a list of detectors of another length raises ValueError before a file is created.",
 "all epochs, all event lists with 37-bit timestamps and 4-bit detectors",
 "the terminator is in-band: one specific event value ends the file early", f"{EP}:write_T1", f"{EP}:read_T1")
prop("T1 full-epoch timestamps",
 "With full_epoch the integer modes of read_T1 return floor((epoch*2^37 + t)*res/256) with no 64-bit wrap-around, and the 80-bit fractional mode deviates from the exact value by at most 2^-64 of its magnitude and never by more than 16 units of 4ps.",
 "all 32-bit epochs, all 37-bit timestamps, all resolutions",
 "overflow only for the largest epochs", f"{EP}:read_T1")
prop("Interrupted T1 write is detected",
 "If writing a T1 file is interrupted at any byte, read_T1 on the remaining prefix either raises or returns the complete list of events; it never returns altered or missing events.",
 "all written files, every crash point", "crash points inside an event", f"{EP}:read_T1", f"{EP}:write_T1")
prop("Bit extraction reads the word stream as one bit stream",
 "Successive extract_bits calls return consecutive bit fields of the concatenation of the 32-bit little-endian words of the file, independent of how fields straddle words, and consume a word only when needed.",
 "all files, all sequences of field widths 0..32", "field/word alignments are unbounded", f"{EP}:extract_bits")
prop("T2 epoch decoding",
 "read_T2 decodes every stream encoded according to the T2 file specification: timestamps are the running sums of the encoded differences starting from the 17-bit epoch prefix, with the detector bits in order.",
 "all event lists, all timing widths 1..32, all detector widths 0..32, any trailing bytes after the terminator; times within the 49-bit format",
 "every alignment of fields and words", f"{EP}:read_T2", f"{EP}:extract_bits")
prop("T4 epoch decoding",
 "read_T4 decodes every stream encoded according to the T4 file specification (index differences biased by 2).",
 "all index lists, all widths", "as for T2", f"{EP}:read_T4")
prop("Epoch readers terminate on every file",
 "read_T1, read_T2 and read_T4 return or raise on every file, in particular on files truncated by an interrupted transfer.",
 "all byte strings", "non-termination cannot be observed by a test", f"{EP}:read_T1", f"{EP}:read_T2", f"{EP}:read_T4")
prop("T2 integer outputs",
 "read_T2 with fractional=False returns floor(t*res/8) as integers for every resolution, including 4ps.",
 "all decodable files, all resolutions", "type promotion depends on the combination of options", f"{EP}:read_T2")
prop("T3 tallies",
 "read_T3 accounts for every entry exactly once: okcount equals the sum of the coincidence matrix; entries = okcount + entries with an invalid side; the result does not depend on the order of the entries; the QBER lies in [0,1].",
 "all files with a consistent header", "sums over arbitrary data", f"{EP}:read_T3")
prop("Epoch names",
 "epoch2int and int2epoch are mutually inverse on canonical lower-case names, and consecutive epochs have consecutive names; names with upper-case letters or leading zeros are not preserved. epoch2int accepts exactly hexadecimal numbers of either case (with sign, 0x, single underscores between digits and surrounding white space allowed) and returns their value.",
 "all non-negative integers, all strings", "all names", f"{EP}:epoch2int", f"{EP}:int2epoch")
prop("First overlapping epoch",
 "get_first_overlapping_epoch returns the smallest epoch >= first_epoch present in both directories, together with the exact length of the contiguous run of common epochs starting there; None/0 exactly if there is none.",
 "all pairs of directory listings, all start epochs", "all subsets", f"{UT}:get_first_overlapping_epoch")
prop("Timestamps loaded over several epochs",
 "get_timestamp returns the concatenation, in epoch order, of the selected epochs first+skip, ..., and for sorted epoch files the result is sorted as long as the epoch number does not cross a multiple of 2^17.",
 "all directories, all first/skip/count", "wrap-around once per 19.5 hours", f"{UT}:get_timestamp")

# ---------------- fpfind numerics ----------------
prop("Slicing and normalisation of timestamps",
 "slice_timestamps returns exactly the timestamps of [start, start+duration) shifted to zero, in order; normalize_timestamps shifts all arrays by one common amount, so relative delays are preserved and all results are non-negative.",
 "all timestamp arrays, all start/duration/skip", "all arrays", f"{UT}:slice_timestamps", f"{UT}:normalize_timestamps")
prop("Binning conserves events",
 "The histogram fed into the FFT has exactly num_bins bins, the sum of its entries is the number of timestamps, and bin k counts exactly the timestamps with floor(t/res) congruent to k.",
 "all non-empty arrays, all positive bin counts and all non-zero resolutions", "all arrays", f"{UT}:generate_fft")
prop("FFT product is the circular cross-correlation",
 "get_xcorr(generate_fft(a), generate_fft(b))[k] equals, in exact arithmetic, the number of pairs (x in a, y in b) whose bin difference is k modulo num_bins.",
 "all arrays, all even bin counts", "identity over all inputs", f"{UT}:get_xcorr", f"{UT}:generate_fft")
prop("Delay candidates",
 "get_timing_delay_fft returns two delays that are congruent to the peak position modulo the correlation period, one non-negative and one non-positive, the first one being the smaller in magnitude and at most half the period.",
 "all histograms and uniform time axes", "boundary cases peak=0 and peak=N/2", f"{UT}:get_timing_delay_fft", f"{UT}:get_delay_at_index_fft")
prop("A pure delay is found",
 "If the second array is the first one delayed by a whole number of bins (and shifted copies of the binned data are not identical), the correlation peak is at exactly that delay and time estimate is exact modulo the period.",
 "all arrays, all delays", "all arrays", f"{UT}:get_xcorr", f"{UT}:get_timing_delay_fft")
prop("Peak statistics windows",
 "get_statistics returns a signal window containing the peak and a background that never overlaps the signal window; the significance is never negative when the centre is the maximum.",
 "all histograms, resolutions and windows", "index arithmetic at both ends of the array", f"{UT}:get_statistics", f"{UT}:PeakStatistics")
prop("Accumulated compensation equals the composed corrections",
 "The (dt, df) returned by time_freq (and fpfind with a precompensation) is such that (T - dt)/(1 + df) equals the composition of all corrections applied to the target timestamps during the refinement iterations.",
 "all numbers of iterations, all intermediate estimates", "recursion over an unbounded number of iterations", f"{FP}:time_freq", f"{FP}:fpfind")
prop("Returned frequency compensation is bounded",
 "time_freq never returns a frequency compensation of magnitude 2^-13 or larger, and the initial delay estimate never exceeds 100 ms.",
 "all inputs and all cross-correlation outcomes", "all outcomes", f"{FP}:time_freq", f"{CO}:MAX_FCORR")
prop("Refinement terminates",
 "time_freq terminates for every input if the separation is more than sqrt(2) times the acquisition duration (by a relative 2^-50, i.e. beyond rounding): the resolution reaches the target after finitely many (logarithmically bounded) refinements; the initial resolution search doubles at most until 10^4 ns.",
 "all inputs and all cross-correlation outcomes", "termination", f"{FP}:time_freq")
prop("Precompensation scan",
 "fpfind returns the result for the first precompensation for which peak finding succeeds, and raises only if all of them fail; with fullscan all precompensations are tested and a result is still returned if any succeeded.",
 "all precompensation lists, all success patterns", "all patterns", f"{FP}:fpfind")
prop("Precompensation list",
 "generate_precompensations yields start, then start+k*step, start-k*step alternating for k = 1, 2, ... up to stop, each exactly once (ordered: the increasing arithmetic progression from start up to stop).",
 "all starts, stops, steps", "all ranges", f"{FP}:generate_precompensations")
prop("Inverted output",
 "With output bit 0 the printed pair describes the inverse correction: applying the inverted compensation to the reference undoes the original one, and inverting twice gives the original values.",
 "all dt and df > -1", "algebraic identity", f"{FP}:main")
prop("fpfind output is accepted by freqcd",
 "The frequency compensation printed by fpfind in units of 2^-34 (output bit 1) is always within the range accepted by freqcd.",
 "all results, all output flags, all precompensations", "boundary values", f"{FP}:main", f"{FP}:fpfind", f"{FC}:main")

# ---------------- freqcd ----------------
prop("freqcd preserves events",
 "freqcd outputs exactly one event per complete input event, in the same order, with the 10 least significant (detector/flag) bits unchanged.",
 "all input streams, all ways the stream is split into reads, all frequency updates, both word orders",
 "unbounded schedules of partial reads", f"{FC}:main")
prop("freqcd with zero correction is the identity",
 "With zero frequency correction the output is byte-identical to the complete events of the input, for every schedule of reads, until a non-zero update arrives.",
 "all inputs, all read schedules, both word orders", "unbounded schedules", f"{FC}:main")
prop("64-bit arithmetic suffices",
 "For events not earlier than the reference and any correction |f| < 2^21 the 64-bit computation never overflows and equals floor(floor((t-tref)/2^12)*f/2^22). Every correction accepted on the frequency channel is in this range except -2^31 (see C46), for which the computation does overflow.",
 "all pairs of 54-bit timestamps, all |f| < 2^21", "2^54 * 2^54 * 2^22 combinations", f"{FC}:main")
prop("Corrected timestamps approximate the ideal correction",
 "For a constant correction f each output timestamp differs from t + (t - t0)*f/2^34 by less than 3/2 unit of 4ps per read of the input stream.",
 "all ordered inputs, all chunkings into reads, all f", "rounding errors accumulate over unbounded streams", f"{FC}:main")
prop("Order preservation",
 "For chronologically ordered inputs the corrected timestamps are ordered too, across read boundaries and across any sequence of accepted frequency updates.",
 "all ordered inputs, all chunkings, all updates at any point", "unbounded schedules", f"{FC}:main")
prop("Buffers are never overrun",
 "No read, copy or write of freqcd's main loop touches memory outside of its input, output and frequency buffers.",
 "all schedules of reads of any size", "memory safety under all schedules", f"{FC}:main")
prop("Frequency updates are parsed independently of pipe chunking",
 "The sequence of frequency values applied is that of the newline-terminated lines of the update stream, irrespective of how the stream is split into reads.",
 "all update streams with lines of at most 98 characters, all splits into reads", "all splits", f"{FC}:main", f"{FC}:readint")
prop("Applied corrections are always in range",
 "The frequency correction in force always satisfies |f| < 2^21, whatever is given on the command line or sent on the update channel; out-of-range or malformed updates leave the correction unchanged.",
 "all option values, all update streams", "integer conversion corner cases", f"{FC}:readint", f"{FC}:main")
prop("Legacy mode",
 "Running freqcd -x on word-swapped data gives the word-swapped output of running it without -x, for all schedules.",
 "all inputs and schedules", "all schedules", f"{FC}:main")
prop("Output at any stop is a prefix",
 "If freqcd stops at any moment (end of input, error, signal) what it has written is a prefix of what it would have written had it continued, and consists of whole events unless a write was short.",
 "all schedules, all stop points", "all crash points", f"{FC}:main")
prop("Splitting reads does not duplicate or distort corrections",
 "The correction applied to an event does not depend on reads that deliver only part of an event.",
 "all splits of the input into reads", "needs a read of fewer than 8 bytes", f"{FC}:main")
prop("Timestamp roll-over",
 "When the 54-bit timestamp counter rolls over, the correction continues smoothly.",
 "all streams crossing the roll-over", "once per 19.5 hours", f"{FC}:main")
prop("Events read are written even if the update channel fails",
 "Every complete event read from the input is written to the output even if reading the frequency channel fails.",
 "all schedules", "needs a failing descriptor at the right moment", f"{FC}:main")
prop("Decimal mode",
 "freqcd -d -f n applies trunc(n*2^34/10^10) and accepts exactly the documented range |n| <= 1220703.",
 "all 32-bit n for which the conversion is defined", "float rounding near integers", f"{FC}:main")
prop("Option parsing",
 "The options of freqcd have the same meaning in every order and grouping (-d -f n, -f n -d, -df n), and later -f/-i/-o/-F override earlier ones. The first option that cannot be processed (-h, -f without a number, a blank file name) ends the program with its own error, whatever comes after it.",
 "all argument vectors", "all argument orders", f"{GO}:getopt", f"{FC}:main")
prop("File name options",
 "A file name given with -i/-o/-F is used verbatim and never overruns its 200-byte buffer.",
 "all strings", "boundary length, white space", f"{FC}:main")
prop("Causality of frequency updates",
 "A frequency update only affects events read after it; events already output are never changed, and the offset accumulated so far is kept (no jump at the moment of the update).",
 "all schedules", "all schedules", f"{FC}:main")

# ---------------- helpers ----------------
prop("Test-event encoding",
 "The event written by generate_freqcd_testcase for timestamp t is read back by read_a1 as t mod 2^54 with pattern 1, and -x produces the legacy word order.",
 "all non-negative timestamps", "overflowing timestamps", f"{TG}:get_event", f"{TG}:main")
prop("Reading a test file leaves it unchanged",
 "generate_freqcd_testcase FILE prints the timestamps stored in FILE and does not modify it.",
 "all files and stdin contents", "destructive side effect", f"{TG}:main")
prop("Common-length truncation",
 "get_overlap returns the minimum length and the prefixes of that length of all arrays.",
 "all non-empty collections of arrays", "all lengths", f"{UT}:get_overlap")
prop("Centred histogram",
 "convert_histogram_fft pairs every histogram value with a delay congruent to its original delay modulo the period, in increasing order of delay.",
 "all even-length histograms", "all lengths", f"{UT}:convert_histogram_fft")
prop("Pairwise bin merging",
 "Merging neighbouring correlation bins conserves the total number of coincidences and corresponds to integer division of the delay index by two; after j merges bin i holds the sum over original bins i*2^j .. (i+1)*2^j - 1.",
 "all histograms, all numbers of merges", "iterated", f"{FP}:time_freq")
prop("Events out of order",
 "An event earlier than the reference time gets the (negative) correction floor(floor((t-tref)/2^12)*f/2^22).",
 "all times, all corrections", "sign extension of a wrapped difference", f"{FC}:main")
prop("Dates and epochs",
 "date2epoch returns the epoch that contains the given date, epoch2date the date at which an epoch starts (to the microsecond), and date2epoch(epoch2date(e)) == e.",
 "all dates from 1970 to 2038 and all 32-bit epochs",
 "2^32 epochs; 125e-12 is not a double, so errors appear only at particular boundaries", f"{EP}:date2epoch", f"{EP}:epoch2date")
prop("Accuracy of the compensation",
 "If in the last iteration of time_freq the early and the late delay differ by at most eps from the true delays of the corrected timestamps, then the returned pair (dt, df) aligns the target clock with the reference clock to within (eps + 2*eps*a/separation)*(1+2^-10) at every time a >= 0.",
 "all clocks (any offset and any relative frequency), all event lists, all numbers of iterations, all eps",
 "the claim is about every later time, with a bound that grows at a known rate", f"{FP}:time_freq")
prop("A pure delay is returned exactly",
 "If the target timestamps are the reference timestamps delayed by k bins, |k| < N/2, and the histogram of delays has its peak at k in both windows, then time_freq returns dt = k*resolution and df = 0; it does return when the windows contain events and the separation is long enough.",
 "all event lists, delays, numbers of bins, resolutions, durations", "needs the whole search, including the refinement loop and the Fourier transforms", f"{FP}:time_freq", f"{UT}:get_xcorr", f"{UT}:get_timing_delay_fft")
prop("fpfind and freqcd together",
 "Correcting the events of the target with freqcd and the number printed by fpfind --output 2 makes them run at the rate of the reference clock (up to 3/2 units per read and 2^-35 of the elapsed time); with the inverted output (--output 3) the same holds for correcting the reference.",
 "all clocks within 2^-12, all event streams and read schedules", "two programs in two languages with separate sign conventions", f"{FP}:main", f"{FC}:main")
prop("Direct correlation",
 "Bin k of g2(arr1, arr2, start, width) is the number of pairs of events after start, by at most 2^27 ns, whose delay is below 10^7 ns and falls into bin k modulo 2^18.",
 "all sorted arrays, all starts and widths", "sliding window whose last element is treated specially", f"{G2}:g2")
prop("Aligned multi-line logging",
 "In the human-readable format a record with details has one line per detail (and one for the message unless it is blank), in order, all with the delimiter in the same column, white space before it, and the details indented by two more blanks than the message; nothing of message or details is lost.",
 "all messages, delimiters with a visible character, all details", "all strings", f"{LG}:LoggingOverrideFormatter.format")
prop("Log levels and handlers",
 "verbosity2level gives warning, info, debug for 0, 1, 2 and more, and more verbosity never hides messages. After any sequence of get_logger and set_logfile calls a logger first obtained with get_logger has exactly one stderr handler, each log file once, no propagation, and the level of the last get_logger call; calls for other loggers have no effect on it.",
 "all verbosities, all sequences of calls", "all sequences of calls", f"{LG}:verbosity2level", f"{LG}:label2level", f"{LG}:get_logger", f"{LG}:set_logfile")
prop("Profiling is well nested",
 "The START and END lines of profiled functions are properly nested, each pair indented by two blanks per nesting level, and the level is restored after every call, whether it returns or raises and whether the exception is caught.",
 "all call trees, all patterns of exceptions", "all combinations of exceptions", f"{FP}:profile")
prop("Values in the statistics report",
 "The reported duration is the time between the first and the last event in seconds to a relative error of 2^-51, and the reported rate is the number of events divided by it, rounded down.",
 "all streams with different first and last time", "three roundings and a unit conversion", f"{TS}:print_statistics_report", f"{TS}:print_statistics_stream")
prop("Largest peaks",
 "get_top_k_delays_fft returns k triples: the heights of the k largest bins, largest first, each with the two possible delays of its bin, the one nearer to zero first; k = 0 and k larger than the number of bins are refused.",
 "all histograms, all k, any order numpy may choose among equal values", "argpartition and argsort leave the order of equal values open", f"{UT}:get_top_k_delays_fft")
prop("Peak statistics do not depend on scale and background",
 "Multiplying a histogram by a positive constant and adding a constant background leaves the windows, significance and significance2 unchanged and multiplies total by the constant; scaling leaves g2 unchanged. The significance is the height of the peak above the mean of the background in units of its standard deviation, rounded to three decimals; total is the sum of the signal above that mean, and g2 the ratio of the peak and the mean; significance2 is the total in units of the standard deviation of sums of as many successive background bins as the signal has. Around the maximum, with any background bin, total, significance2, significance_raw and g2 are computed without error.",
 "all real histograms, resolutions, windows", "relation between two runs on arbitrary data", f"{UT}:PeakStatistics", f"{UT}:get_statistics")
prop("histogram_fft",
 "histogram_fft returns the correlation histogram of the two arrays and leaves the arrays of the caller unchanged.",
 "all arrays, all options", "the existing tests never call it", f"{UT}:histogram_fft")
prop("Input of fpfind",
 "fpfind reads epoch directories if both are given, otherwise raw files if both are given, otherwise exits. From directories it reads, on both sides, the same consecutive epochs after the skipped ones, as many as cover the minimum duration and one more; if they are not available it fails with a missing file. If they are, and none is empty, the normalised timestamps start at zero and span at least the minimum duration.",
 "all directories of readable epoch files, all options", "all directory contents; needs epoch readers, overlap search and normalisation together", f"{FP}:main", f"{UT}:get_first_overlapping_epoch", f"{UT}:get_timestamp", f"{UT}:normalize_timestamps")
prop("Floating-point rounding does not change slices and histograms",
     "With the float128 arithmetic that is used, slice_timestamps and normalize_timestamps return exactly the shifted timestamps for inputs on the 1/256 ns grid, arr // time_res is exactly the integer part of the exact quotient, and hence the histogram fed into the FFT puts every timestamp in its exact bin; for other inputs a slice can only lose timestamps within a rounding error of its end.",
     "All timestamp arrays, starts, durations, resolutions and bin counts (quotients below 2^(p-5) for p significant bits)",
     "Whether a rounded quotient lands on the wrong side of an integer depends on rare combinations of timestamp and resolution",
     f"{UT}:slice_timestamps", f"{UT}:normalize_timestamps", f"{UT}:generate_fft")
prop("Double precision is enough for the accumulated compensation",
     "The accumulated time and frequency corrections that time_freq returns describe the successive corrections applied to the target timestamps up to n (|t| + n 101 ms) 2^-49 for n iterations, that is 0.04 ns for 20 iterations and 1000 s, when every scalar and array operation is rounded.",
     "All inputs and all runs of time_freq with rounding errors of at most 2^-53",
     "Accumulated rounding over an unknown number of iterations; a test sees a single run and cannot separate rounding from estimation errors",
     f"{FP}:time_freq")
prop("Detuned test files hold the times of a detuned clock",
     "detune keeps exactly the events of the selected channel, in order, and gives each of them the time t0 + (t - t0)(1 + ratio) + offset up to 2^-53 of the scaled interval and 2^-62 of the time; generate_freqdetuneg2 writes the channel 1 events of its input file unchanged, and for each detuning of 1e-10 to 1e-3 a readable file with the channel 4 events of the clock detuned by that amount, up to the 1/256 ns resolution of the format.",
     "All event lists starting with their earliest event, all ratios of at least -1 and all offsets; for the files all inputs of up to 2^40 ns length and times below 2^45 ns",
     "Rounding in extended precision of arbitrary times, and a truncation to the format's grid; sample inputs cover a few values of them",
     f"{DT}:detune")
prop("Writing arbitrary times rounds them down to the resolution of the file",
     "write_a1 of any non-negative floats (not necessarily on the 4 ps grid), in any unit, stores every time rounded down to a multiple of 4 ps with its pattern unchanged, so that read_a1 returns times that are early by less than 4 ps, never late.",
     "All lists of representable times below 2^54 units of 4 ps, all patterns, units and both word orders",
     "The inputs are arbitrary floats; round-trip tests use times on the grid",
     f"{TS}:write_a1", f"{TS}:read_a1")
prop("fpplot aligns the timestamps with the result of fpfind",
     "With the same files and options and at most as many epochs as fpfind reads, fpplot works on the beginning of the timestamps that fpfind used, with the same time reference; given the frequency (in ppm) and the time printed by fpfind it applies the same correction up to half a nanosecond and rounding errors, so both events of a pair end up within the accuracy of the search of each other.",
     "All files, options, numbers of epochs, durations and results; rounded arithmetic",
     "Two programs have to agree on the epochs, on the reference time and on the meaning of the result; the plot is judged by eye",
     "src/fpfind/fpplot.py:plotter", "src/fpfind/fpplot.py:main", f"{FP}:main")
prop("Rounding to significant figures",
     "utils.round with sf returns the number correctly rounded (half to even) to sf significant decimal digits: an int for an int, for a float a text that denotes that value; without sf it rounds to dp digits after the point, or to ndigits if dp is not given.",
     "All ints, all floats, all numbers of digits",
     "The result goes through a binary double and, for floats, through a second rounding; whether this shows depends on rare numbers",
     f"{UT}:round")
prop("Description for the command line help",
     "parse_docstring_description drops everything from the first 'Changelog:', turns the first run of newlines into an empty line and every other run of newlines into one space, and changes nothing else.",
     "All docstrings",
     "The intermediate placeholder makes the result depend on the text itself",
     f"{UT}:parse_docstring_description")
prop("Messages of failed searches",
     "The text of PeakFindingFailed is the message alone if no values were given, otherwise the message and in parentheses exactly the given values, in a fixed order, separated by commas, each correct to the decimals shown, the frequency in ppm.",
     "All messages and all combinations of values",
     "64 combinations of values and all numbers cannot be listed",
     "src/fpfind/lib/constants.py:PeakFindingFailed.__str__")
prop("Layout of the command line help",
     "Help texts that start with 'rawtext|' are shown with exactly the lines they contain, all others as argparse wraps them; an option is shown with all its names, its arguments once, at the end.",
     "All texts without carriage returns, all lists of option names",
     "Infinitely many texts; line ends have ten representations",
     f"{UT}:ArgparseCustomFormatter._split_lines", f"{UT}:ArgparseCustomFormatter._format_action_invocation")
prop("Conversion between all formats",
     "parse_timestamps converts a file of any format (a0, a1, a2, normal or legacy) to a file of any format that holds exactly the events that pass the filters; no other file changes; streaming and --inmemory give the same file; converting through an intermediate format gives the same as converting directly; without a destination or source ValueError is raised and nothing changes.",
     "All nine pairs of formats, all lists of events, all filters, all files",
     "The readers and writers differ per format in dtype, words and text; the combinations with filters and file contents are unlimited",
     f"{TS}:main", f"{TS}:sread_a0", f"{TS}:sread_a2", f"{TS}:swrite_a0", f"{TS}:swrite_a2")
prop("Statistics of any file",
     "parse_timestamps -p changes no file and reports, for a file of any format, the number of the events that pass the filters, the counts per detector, of several and no detectors, the first and the last time, and the patterns; streaming and --inmemory report the same. It ends with OverflowError exactly if some event passes and the first and last of them have the same time.",
     "All formats, all lists of events with times below 2^53 (or a filter), all filters",
     "Batches, resolutions and number types differ between the paths",
     f"{TS}:main", f"{TS}:print_statistics", f"{TS}:print_statistics_stream")
prop("The printed result can be read back exactly",
     "The line fpfind prints is the frequency (a decimal text of the double, or an integer number of units 2^-34), then, unless removed by -V, one tab and the time as an integer, and a newline, with no other blanks; frequency, its unit and time can be recovered from the line without loss, and Python's float() of the text is the same double.",
     "All frequencies (doubles or integers), all times, all values of -V",
     "A double needs up to 17 digits; whether every double is recovered, and whether two results can print the same line, are questions about all 2^64 of them",
     f"{FP}:main")
prop("fpfind's output as input of freqcd",
     "Lines printed by fpfind and sent to the frequency channel of freqcd set its correction to the last printed integer frequency below 2^21 units; the same text given to the option -f gives the same correction, and text that is not an integer is refused.",
     "All sequences of printed results, all splittings of the channel into reads with a line end each",
     "Two programs in two languages; sequences of lines and splits into reads are unlimited",
     f"{FP}:main", f"{FC}:main")
prop("A whole run of fpfind",
     "fpfind prints one line: the result of the first precompensation for which the search succeeds, combined with that precompensation; without precompensation exactly the result of the search, with a frequency below 2^-13; if the delays of the last iteration are right up to eps, the printed numbers correct the target clock up to eps, rounding and 1/2 ns. If no search succeeds ValueError is raised; the exit status is 1 exactly if inputs are missing; every run with a separation of at least 1.5 ends. --precomp-fullscan prints the result too.",
     "All files, options, precompensations, clocks and correlation results",
     "Whole runs depend on files, options and numerics at once; termination and first success quantify over all iterations",
     f"{FP}:main", f"{FP}:fpfind", f"{FP}:time_freq")
prop("A pure delay is found exactly in floating point",
     "If the target timestamps are the reference timestamps plus a whole number of bins (at most 100 ms), all multiples of 1/256 ns, and the correlations have a clear peak, time_freq returns exactly this delay and the frequency 0, although every operation is rounded and the FFT correlation may be off by almost half an event pair in every bin.",
     "All timestamps, delays, resolutions, durations and all numerical correlations with such an error",
     "Rounding errors could move events to other bins, break ties or add up over the iterations; tests see a few runs only",
     f"{FP}:time_freq", f"{UT}:generate_fft", f"{UT}:get_timing_delay_fft")
prop("The output formats of fpfind",
     "The four bits of -V act independently: bit 0 exchanges the roles of reference and target, frequency 1/(1+df)-1 and time -dt(1+df), which is an involution; bit 1 prints the frequency as the nearest integer in units of 2^-34; bit 2 removes the time; bit 3 prints it as the nearest integer in units of 1/8 ns instead of 1 ns. Rounding of doubles adds nothing without bit 0 and a relative error of at most 2^-50 with it.",
     "All sixteen values of -V, all times, all frequencies up to 2^-10",
     "Sixteen formats times all pairs of doubles; rounding errors of the inversion",
     f"{FP}:main")
prop("T1 epoch files and a1 files hold events alike",
     "A T1 epoch file whose body is whole non-zero 8-byte events, ended by a zero event or the end of the file, and a legacy a1 timestamp file with the same body are read as the same events, in every resolution and in integer or fractional mode; with full_epoch (integer modes) the times of the T1 file are later exactly by the part of the epoch above its lowest 17 bits.",
     "All bodies, headers, resolutions and modes",
     "Two readers, one loop over bytes and one vectorised, over all bytes and modes",
     f"{EP}:read_T1", f"{TS}:read_a1")
prop("Headers of epoch files are read and checked",
     "The header readers return the stored fields (32-bit, little-endian, signed except epoch, length and all of T4) and raise struct.error for shorter files. They warn exactly if the tag is neither n nor 0x10n, naming the type n expected, and if the file name is not the epoch in lower-case hexadecimal without leading zeros; files from write_T1 never give a warning.",
     "All field values, all file contents, all paths",
     "2^32 values per field; names and epochs agree or not in too many ways to list",
     f"{EP}:read_T1_header", f"{EP}:read_T2_header", f"{EP}:read_T3_header", f"{EP}:read_T4_header", f"{EP}:write_T1")
prop("The threshold for the first peak",
     "A result of time_freq starts from the finest acceptable peak: the first delay is that of the highest bin of the early correlation, with neighbouring bins added up j times, for the smallest j whose significance is at least the threshold (and nonzero), at a resolution of at most 10^4 ns unless j = 0. If there is no such j the search raises ValueError (PeakFindingFailed), so that the next precompensation is tried. The threshold has no influence on later iterations.",
     "All timestamps, correlation results, significances and thresholds",
     "The number of mergings and the significances are data; equality with the threshold and the limits need all cases",
     f"{FP}:time_freq")
prop("freqcd as a program: input, output, exit status",
     "freqcd corrects the events of the file given with -i (or of the standard input) into the file given with -o (or the standard output) and touches no other file. On a regular file of whole events in order of time, without frequency channel, it ends with status 0 and the output has the same number of events, the same detector bits, and each time t moved by (t-t0)*n/2^34 up to 1.5 units per block of 1024 events, n being the argument of -f. A run that cannot start (wrong options, missing files) has a status other than 0 and leaves all files as they were; a status of 0 means that everything was processed.",
     "All command lines, all contents of files and uninitialised memory, all answers of the kernel",
     "Order of opening files, failures of each of them and of the system calls, all file sizes",
     f"{FC}:main", f"{GO}:getopt")
prop("The exact output of freqcd, and the test pipeline",
     "On a file of events in order of time freqcd with correction n writes, for blocks of 1024 events, each event with its detector bits and the time t + x + floor(floor((t-r)/2^12)*n/2^22) modulo 2^54, where r is the last time of the block before, x the move of that event (r the first time and x = 0 at the start). So generate_freqcd_testcase.py -t ... | freqcd -f n | generate_freqcd_testcase.py - prints for up to 1024 times t + floor(floor((t-t0)/2^12)*n/2^22), among them the numbers of the test in the repository. The output does not depend on how the input arrives or on uninitialised memory.",
     "All files of events, all corrections in range, all contents of memory",
     "The blocks and roundings add up over arbitrarily long files; the timing of a pipe is not under the control of a test",
     f"{FC}:main", f"{TG}:main")
prop("Exchanging reference and target changes the sign of the delay",
     "get_xcorr with the arrays exchanged is the same correlation read backwards, and get_timing_delay_fft then returns both delays with the opposite sign. For a target that is the reference delayed by a whole number of bins, time_freq returns this delay, with reference and target exchanged its negative, and in both cases no frequency offset.",
     "All timestamp arrays, even numbers of bins, resolutions and positions of the peak",
     "A relation between two runs, for all positions of the peak and all ties",
     f"{UT}:get_xcorr", f"{UT}:get_timing_delay_fft", f"{FP}:time_freq")
prop("What the result of fpfind does not depend on",
     "For timestamp files, what fpfind prints (or the error it ends with) depends on the times of the events only, and only up to a shift common to both files: the same line is printed if the clocks were started at another time, whatever the detector patterns are and in whichever word order (-X) the files are stored. Events of one file before the first event of the other are ignored as long as the file has started by then.",
     "All contents of files, shifts, detector patterns, options and numerical environments",
     "A relation between two runs over all files; the shift goes through floating point subtractions of absolute times",
     f"{FP}:main", f"{FP}:fpfind", f"{UT}:normalize_timestamps", f"{TS}:read_a1")
prop("Runs in both directions give inverse corrections",
     "time_freq with reference and target exchanged returns the inverse correction, up to the accuracy of both runs: if the last delays of both runs are those of the clocks up to eps and eps', then (1+df)*(1+df') is 1 up to about 4(eps/sep + eps'/sep') and dt'*(1+df)+dt is 0 up to about eps + eps' + 4|dt|eps/sep.",
     "All timestamps, pairs of clocks with a relative frequency and an offset, parameters of both runs, rounded arithmetic",
     "The tests of the repository check this relation on recorded data only, and in a form that holds only for small offsets",
     f"{FP}:time_freq")
prop("Order and resolution of full epoch times",
     "read_T1 with full_epoch never reverses the order of events, within a file and between files of different epochs, in any output mode: what it returns is a non-decreasing function of the full time (epoch and time in the epoch). Times that differ by one unit of the resolution (integer modes) or by 125 ps (extended precision floats) are returned as different numbers.",
     "All epochs, times, resolutions and modes",
     "69-bit times; the test checks one epoch and 20 times",
     f"{EP}:read_T1")
prop("Epoch files and timestamp files give fpfind the same events",
     "A stream of events in order of time, cut into epochs and written with write_T1 (or encoded as T2 files, for times at multiples of 125 ps), is loaded by get_timestamp with exactly the times that read_a1 gives for a timestamp file of the events of these epochs. So fpfind -D ... -d ... prints the same as fpfind with two timestamp files of the events of the epochs it uses.",
     "All streams of events with a detector pattern other than 0, all epochs, numbers of epochs to skip and to read, field widths of T2 files, options and numerical environments",
     "A relation between two runs on different file formats, over all streams and ways to cut them",
     f"{UT}:get_timestamp", f"{EP}:write_T1", f"{EP}:read_T1", f"{EP}:read_T2", f"{TS}:read_a1", f"{FP}:main")
prop("Updates written to the frequency channel before they are read are all applied",
     "If reads of the frequency channel return as much as freqcd asks for (a regular file, or a FIFO whose writer is ahead), a text of lines of at most 98 characters is read to its end, and then every complete line has been applied in order, wherever the 99-byte reads cut the lines (the test in tests/freqcd/test_freqcd_update.py ends with 34000). Whatever has been lost before, the last complete update counts as soon as no read without line end follows the line end before it.",
     "All texts of such lines, all numbers of passes, everything that happens on the input meanwhile; for the second part all histories of reads",
     "Depends on how the bytes fall into reads of a buffer with a moving partial line; the test is a shell transcript that is never run",
     f"{FC}:main")
prop("Corrections compose and can be undone",
     "The output of freqcd with the correction n1, given to freqcd with the correction n2, is the input corrected by (1+n1/2^34)(1+n2/2^34) relative to the first event, up to 3/2 units of 4 ps per read. With n2 the whole number nearest to the inverse of n1, every time comes back up to that and 2^-35 of the time elapsed.",
     "All streams in order of time up to 2^54-2^41, all pairs of corrections in range, all schedules of reads that complete an event, for both runs",
     "A relation between two runs over all streams; the error bound must hold for every schedule",
     f"{FC}:main")
prop("The delay is found among noise, with jitter and drift",
     "Let pairs of events of both arrays be D apart up to delta (jitter, drift within the window), among any other events. If each bin of the correlation that is not near D counts fewer pairs than a w-th of their number, where they can spread over w bins, then the delay of get_timing_delay_fft after generate_fft and get_xcorr is less than one bin and delta away from D, provided D is within half a correlation period.",
     "All arrays, numbers of bins, resolutions, delays, jitters; exact and rounded arithmetic with any correlation that is off by less than half a pair per bin",
     "Tests use single recorded or generated data sets; the condition covers every pattern of noise and jitter",
     f"{UT}:generate_fft", f"{UT}:get_xcorr", f"{UT}:get_timing_delay_fft", f"{FP}:time_freq")
prop("Accuracy of a run with noise, jitter and drift",
     "If a run of time_freq with at least one refinement returns (dt, df), and in both windows of its last iteration, at the resolution r used there, the true coincidences of clocks with the relative frequency offset phi and the offset tau stand out of the noise up to delta, then (dt, df) maps every time of the target clock to within about r+delta of the reference time, plus 2(r+delta) for each separation of the windows.",
     "All timestamps, clocks, numbers of bins, separations, durations and resolutions; double and extended precision",
     "The accuracy depends on data, noise and the whole history of refinements; tests compare single data sets with loose bounds",
     f"{FP}:time_freq")
prop("The refinements of fpfind get to the requested resolution if the coincidences stand out",
     "If the true coincidences stand out in the early and late windows of every iteration (in the first one after any number of mergings of neighbouring bins, as the search for the first peak makes them), time_freq does not stop before the requested resolution: it returns a result, its last iteration is one at the target resolution, and the result maps every target time to within about that resolution plus the jitter (and twice this per separation of the windows) of the reference time.  This needs the delay and frequency found first to be more than their errors, or these errors to be below 9 ns and 10^-8: otherwise the guard rails can reject a right correction, and the coarse result of the first iteration is returned as if it were final.",
     "All timestamps, clocks, noise, histories of refinements, numbers of bins, separations, durations, resolutions; double and extended precision",
     "Whether a run gets to the end depends on all iterations, the accumulated rounding and the guard rails; tests follow single data sets",
     f"{FP}:time_freq")
prop("The line fpfind prints is a right correction if the coincidences stand out",
     "If the coincidences stand out in every iteration of the search for some precompensation (under the conditions of C105, for the clock after that precompensation), and the searches for the precompensations tried before it fail, then fpfind ends and prints a line with a frequency and a time; correcting target times by these two numbers gives reference times, up to about the final resolution, the jitter, accumulated rounding and half a nanosecond, plus twice resolution and jitter per separation of the windows.  (Output of frequency and time without further options.)",
     "All input files, options, precompensations, clocks, noise, histories of refinements; double and extended precision",
     "Input, scan, refinements, rounding and output have to work together for all data; tests compare single data sets with loose bounds",
     f"{FP}:main", f"{FP}:fpfind", f"{FP}:time_freq")
prop("A failed write_T1 leaves no readable file",
     "If write_T1 raises after it has opened the file, it does so with struct.error or TypeError, and read_T1 raises on the file left behind, in every mode. For integers, write_T1 raises struct.error at the first event whose word (17 bits of the epoch, then the time, then the detectors) does not fit into 64 bits, after storing the words of the events before it; if all fit, the file holds the words of all events in order.",
     "All epochs, all lists of integers, numpy integers or floats as timestamps, all integers as detectors, all modes of reading",
     "Events of any value at any position",
     f"{EP}:write_T1", f"{EP}:read_T1")
prop("write_T1 refuses events it cannot represent",
     "If write_T1 succeeds, every time fits into the 37 bits of an epoch and every detector pattern into 4 bits, so that no event is stored altered.",
     "All epochs, all lists of integer timestamps and detectors",
     "The interesting events are those outside of the documented ranges, of which there are infinitely many",
     f"{EP}:write_T1", f"{EP}:read_T1")
prop("Events from the readers can be written as T1 files",
     "The timestamps returned by read_a1 and read_T1 (arrays of numpy integers or floats), and numpy integer arrays made from them, can be given to write_T1, with the result for the same Python integers.",
     "All non-empty lists of events, all modes of reading, all epochs",
     "The tests write a list of Python integers only; the result depends on the element type and on the epoch",
     f"{EP}:write_T1", f"{TS}:read_a1", f"{EP}:read_T1")
prop("The text of the statistics report",
     "The lines printed by print_statistics_report show name and size of the file; the number of events, of events per channel, with several and with no channel, right-aligned in a column as wide as the total; duration, start and end in seconds with nine decimals, correct to half a nanosecond and a relative 2^-50; the rate rounded down; and the patterns in increasing order. Without events there is only the total. An exception ends the text exactly when a duration of zero or missing times do not allow a rate.",
     "All event streams and batches, all file names and sizes below 2^53 bytes, times below 2^53 units of 4 ps",
     "Formatting, alignment and two float types have to be right for all counts and times; the repository has no test of the report",
     f"{TS}:print_statistics_report", f"{TS}:print_statistics_stream")
prop("fpfind uses only the beginning of the recordings",
     "Once both timestamp files reach beyond the separation plus twice the duration of the correlations (the target by a relative 2^-11 and 100.1 ms per iteration more, and scaled by the precompensations), any later events appended to the files change neither the line fpfind prints nor the error it ends with.",
     "All files, later events appended, options (skipped durations of whole nanoseconds), precompensations below 1, numbers of iterations up to 1000, numerical correlations; double and extended precision",
     "All continuations of all recordings; the windows move with the corrections of each iteration",
     f"{FP}:main", f"{FP}:time_freq", f"{UT}:slice_timestamps")
prop("The stand-in script compiles freqcd and runs it in its place",
     "In an installed library, the first call of freqcd by a full path compiles freqcd.c into the file that was called and then runs it with exactly the arguments of the call; file names among them mean what they mean for every later call. If the compiler fails or cannot be run, nothing is run and the status is 1.",
     "All paths of the script and of the library, arguments, working directories, and outcomes of rm, cd and the compiler",
     "The outcome depends on the path the library is installed in and the directory of the call; the script replaces itself, so that each installation runs it once",
     "src/fpfind/freqcd:1-29", "src/fpfind/_postinstall:1-5")
prop("A result of fpfind rests on events and peaks in both windows",
     "If time_freq returns a result, then in every iteration it comes from both recordings have events in the early and in the late window, which are at most twice as long as asked for; so fpfind prints nothing for recordings that end or pause before the late window. The late peak, from which the frequency is computed, is as significant as demanded of the first peak.",
     "All timestamps, separations, durations, roundings and correlation results",
     "Which windows contain events depends on the data, on the corrections found before, and on the resolution reached",
     f"{FP}:time_freq", f"{UT}:generate_fft", f"{UT}:slice_timestamps")
prop("Filters of parse_timestamps add up",
     "Filtering the output of parse_timestamps once more gives the same file as one call with both filters: time windows intersect, a pattern filter and a time window may be applied together or in either order, the same pattern filter a second time changes nothing, two masks keep the channels common to both, and two inverted masks drop the channels of both. Only pattern filters of different kinds depend on their order.",
     "All recordings (sorted and below 2^53 units of 4 ps if times are filtered), formats, patterns, windows; conversions that do not load the whole file at once",
     "All pairs of filters, patterns and recordings; the tests apply no filter twice",
     f"{TS}:main", f"{TS}:get_pattern_mask", f"{TS}:get_timing_mask")
prop("Numerical Fourier transforms count coincidences accurately",
     "If the Fourier transforms used by generate_fft and get_xcorr have the relative error eta (in the root mean square) and products of coefficients at most as much, then every bin of the correlation is off by less than half a pair of events as long as 18 eta times the number of all pairs of events is below 1 (about two million events on each side for eta = 1e-14); so the delay found is that of the exact counts. Products of doubles have a relative error of at most 2^-50.",
     "All event arrays, even numbers of bins up to eta^-2, resolutions, and transforms of that accuracy",
     "The error depends on all bins at once and on the number of events; a test sees single arrays of small size",
     f"{UT}:generate_fft", f"{UT}:get_xcorr", f"{FP}:time_freq")
prop("Damaged text files are refused",
     "A text file in the a0 or a2 format that contains a character which is no part of a hexadecimal number, within the 8 or 16 columns of a line that are read (streamed files: anywhere), is not read without an exception (except # in files read at once, which begins a comment). A byte that is no ASCII character ends parse_timestamps with ValueError. A file that was cut short returns no event that was not written: if only the last newline is missing, all events are read, otherwise an exception is raised.",
     "All files and events, all places of the damage, all sizes of the buffer",
     "The damage may be anywhere; what the remaining digits mean depends on the number of lines and on the buffer",
     f"{TS}:read_a0", f"{TS}:read_a2", f"{TS}:sread_a0", f"{TS}:sread_a2")
prop("A failed conversion leaves a beginning of the result",
     "If parse_timestamps ends with an exception while converting a file in batches, then the output file is exactly what the conversion of a beginning of the input, some number of whole batches of 100000 events, gives without an exception, and no other file is changed. If the input consists of events followed by something that is no event, these are the events of all whole batches before it; with -p no report is printed.",
     "All input files (text files: plain ASCII without carriage returns), formats, filters and places of the damage",
     "The damage may be anywhere in files of any length; the tests convert intact files only",
     f"{TS}:main", f"{TS}:sread_a0", f"{TS}:sread_a1", f"{TS}:sread_a2", f"{TS}:swrite_a1")
prop("Joined files are joined recordings",
     "Reading or converting a file that was joined from two files of events gives the events of the first file followed by those of the second one, and the counts in the report of parse_timestamps are the sums of those of the parts.",
     "All files of whole events, formats, filters (if times are filtered: recordings that are sorted after joining)",
     "The place where the files meet may be anywhere relative to the batches and buffers",
     f"{TS}:read_a1", f"{TS}:read_a2", f"{TS}:main", f"{TS}:print_statistics")
prop("fpfind does not depend on the order of events",
     "Putting the events of the timestamp files given to fpfind in another order changes neither the line printed nor the exception, as long as the first and the last event of each file keep their places and the last one is the latest. So events that the timestamp card delivers slightly out of order do no harm.",
     "All timestamp files, orders, options, correlation results and roundings that keep the sign",
     "All permutations of all recordings; the tests use sorted events only",
     f"{FP}:main", f"{FP}:time_freq", f"{UT}:slice_timestamps", f"{UT}:generate_fft")
prop("Recordings with enough coincidences give the right correction",
     "If in the windows used by fpfind the true coincidences outnumber the accidental pairs around every other delay by the factor over which they may be spread, the first peak is accepted, the clock offsets are in the searched ranges and the guard rails are respected, then fpfind prints the right correction, up to the final resolution and the jitter, whatever values the refinements find on the way. These are conditions on the recordings and the two clocks only: events near the edges of the windows, that may enter or leave them during the refinements, count for no coincidence but for every accidental pair. Correlations computed with Fourier transforms of relative error eta are accurate enough, also after j mergings of bins, if 18 2^j eta times the number of all pairs of events is below 1.",
     "All recordings, clocks, numbers of bins, resolutions, numbers of mergings and refinements meeting the conditions",
     "What an iteration sees depends on the rounded corrections of all iterations before; the tests try single recordings",
     f"{FP}:main", f"{FP}:time_freq", f"{UT}:slice_timestamps", f"{UT}:get_xcorr")
prop("The frequency correction is applied at every event rate",
     "With a constant correction n, freqcd changes the distances of events by the fraction n/2^34, up to a few units of 4 ps, however fast the events follow each other and in however many reads they arrive.",
     "All recordings in order of time, all corrections in range, all ways in which whole events arrive",
     "The error is below the resolution for each read and adds up only over many of them; the test in the repository has three events and one read",
     f"{FC}:main")
prop("A recording corrected in pieces",
     "Correcting a recording with freqcd in two pieces, in two runs with the same constant correction, gives the same events as correcting it in one run.",
     "All recordings, all places to cut them, all corrections in range, all schedules in which every read completes an event",
     "Needs two runs of the program; the tests run it once",
     f"{FC}:main")
prop("Corrections that change add up over time",
     "When the correction of freqcd is updated during a run, every event is moved by the corrections in force added up over time: the sum over the passes of the correction in force times the time that passed between the last events written. In particular, as long as the corrections stay between two values, every event is moved by at least what the smaller and at most what the larger one would have moved it, up to 3/2 units of 4 ps per read.",
     "All ordered inputs, all chunkings into reads, all texts on the frequency channel and times at which they arrive",
     "The offset depends on the whole history of updates and reads; the tests of updates in the repository are shell transcripts that are never run",
     f"{FC}:main")
prop("From two recordings to a recording at the rate of the reference clock",
     "For recordings of clocks that differ by a constant offset and frequency and share clear coincidences, fpfind -V 7 prints one number, and for a frequency difference below 6*10^-5 freqcd accepts it. freqcd -i in -o out -f with this number, on any recording with the clock of the target, ends with status 0, keeps number, order and flags of the events, and the time of every event, counted from the first, is that of the reference clock up to the errors fpfind leaves, the errors of the recording, 3/2 units of 4 ps per 1024 events and half a unit of the frequency.",
     "All recordings that meet the conditions, all precompensations tried, all files of events in both formats, all events",
     "Joins a python program and a C program through a text; the tests in the repository never run one on the output of the other",
     f"{FP}:main", f"{FP}:time_freq", f"{FC}:main")
prop("Exchanging the two recordings gives the inverse correction",
     "If the coincidences of two timestamp files stand out both for fpfind with the files in the given order and with the files exchanged, both calls print a line, and the two results undo each other: (1+f)(1+f') = 1 and t/(1+f) + t' = 0, up to the errors of the two results at the beginning and at a later time, divided by that time for the frequency. The check t(1+f) + t' = 0 given in docs/explain.md has the factor on the wrong side; it fails by about 2tf.",
     "All pairs of recordings that meet the conditions in both orders, all precompensations tried, all later times in the range of the recordings",
     "A relation between two runs of the program, with errors that depend on recordings and parameters; the documentation suggests it as a check by hand",
     f"{FP}:main", f"{FP}:time_freq", f"{UT}:normalize_timestamps")
prop("A clear peak is significant, whatever the background looks like",
     "If the highest bin of a correlation has the height x, all others have heights from 0 to M < x, and S^2 M^2 <= 4x(x-M) (for the default threshold S = 6: x is at least 3.55 M), then the significance computed by get_statistics is at least S, up to the rounding to three decimals, whatever the shape of the background is, and fpfind accepts the peak. In pairs of events: N pairs in one bin and at most K in any other are accepted if 5N >= 18K + 15. The factor cannot be lowered to 3.5. The exception is a background without any variation: there the significance is 0 and no peak is accepted, however high. The converse does not hold: two equal peaks over a background of 37 empty bins have significance 6.",
     "All histograms, peak positions, numbers of mergings, thresholds and numerical errors of the significance below a given bound",
     "A bound over all shapes of the background; the worst case is not a typical recording",
     f"{UT}:PeakStatistics", f"{UT}:get_statistics", f"{FP}:time_freq")
prop("Recordings with enough coincidences give the right correction, with no assumption about significance",
     "If at most s+1 bins of a correlation have more than K pairs of events and one of them has N, and N is large enough compared to K (for the default threshold 6, at least 8192 bins and s = 2: N >= 5K + 4, so jitter may spread the coincidences over three bins), then the significance that the code computes reaches the threshold, provided that the background is not the same number everywhere. So if this holds in the first early correlation of fpfind, the first peak is accepted without merging bins, the significance is defined in all later correlations, and under the conditions of C120 on the recordings fpfind prints the right correction: the conditions on the significance there follow.",
     "All recordings with these numbers of pairs, positions of the peak, shapes of the background, thresholds, and numerical errors of significance and correlation within given bounds",
     "The hypothesis is about the numbers of pairs in all bins of recordings, not about values that the program computes on the way; all such recordings cannot be enumerated",
     f"{UT}:PeakStatistics", f"{UT}:get_statistics", f"{FP}:time_freq", f"{FP}:main")
prop("Recordings can be split with parse_timestamps",
     "For recordings in any format: a recording split at a time T with --tfilter-end T and --tfilter-start T is the same file again when both parts are joined, if no event is at exactly that time; an event at exactly T is in both parts, so that the lengths add up to the number of events and the number of those at T. A recording split by detectors, into those of a mask and the others (inverted mask), has exactly the detections of every detector in both parts together, and each part only detectors of its own.",
     "All recordings (sorted, times below 2^53 units of 4 ps), formats, word orders, times, filters with 4-bit patterns, file names; conversions that do not load the whole file at once",
     "Relations between several runs of the program for all files, times and masks",
     f"{TS}:main", f"{TS}:get_pattern_mask", f"{TS}:get_timing_mask")
prop("Recordings without a remarkable peak give no result",
     "If in the early windows, at every resolution up to 10^4 ns that is tried, the fullest bin has fewer pairs of events than the mean of the background plus the threshold times its standard deviation (with a margin of about one pair and half a pair for numerical errors), the search fails; if this holds for all precompensations, fpfind ends without a result, and if it holds for those tried before the right one, for which the recordings have enough coincidences (C127), fpfind prints the right correction. All these are conditions on the recordings. On the other hand the threshold does not protect against correlations of few pairs: two pairs with different delays give a significance of at least 39.",
     "All recordings with these numbers of pairs, numbers of bins, resolutions, thresholds, lists of precompensations; numerical errors of significance and correlation within given bounds",
     "The numbers of pairs in all bins of all recordings; tests use recordings with a peak",
     f"{UT}:PeakStatistics", f"{UT}:get_statistics", f"{FP}:time_freq", f"{FP}:fpfind", f"{FP}:main")
prop("Log messages are written where and when asked for",
     "A message of a logger got with get_logger is written once to standard error and once to each file given to set_logfile for this logger, if its level is at least the level last set for the logger, and to nothing else, whatever is done to other loggers and to the root logger. For fpfind: warnings, with -v also infos, with -vv also debug messages go to standard error and the file of --logging. The log file holds all messages of the run, and reading epochs leaves the logging of the application alone.",
     "All sequences of calls of get_logger, set_logfile, setLevel, basicConfig and reads of T2 and T4 epochs; all logger names, levels, numbers of -v and log files",
     "All orders of calls by the package and the application around it; tests configure logging once",
     f"{LG}:get_logger", f"{LG}:set_logfile", f"{LG}:verbosity2level", f"{FP}:main", f"{EP}:read_T2", f"{EP}:read_T4")
prop("The scan of precompensations covers the range asked for",
     "Every frequency offset within --precomp-stop of --precomp-start is less than one step away from a value that is tried, and at most half a step unless it is in the last half step, up to rounding; for an offset of n steps at most 2n+1 other values are tried before. With the defaults every offset up to 10.05 ppm is within 0.05 ppm of one of 201 values. The ordered scan covers all offsets from start to stop in the same way. After the precompensation the clock of the target is off by no more than that, so C129 gives the result. The end of the range is tried only if the quotient of stop and step, as doubles, reaches a whole number: with --precomp-stop 13e-6 and the default step 13 ppm is not tried.",
     "All starts, stops, steps and frequency offsets; values rounded to doubles",
     "All frequency offsets; tests scan a few fixed lists",
     f"{FP}:generate_precompensations", f"{FP}:main", f"{FP}:fpfind")
prop("Command lines are read as written",
     "parse_timestamps, fpfind and generate_freqcd_testcase -t accept their options in any order and in all usual forms (name and value in two words, joined with =, letters in one word, the beginning of one long name), and run with exactly what was asked for: the last of several values counts, options not given have their defaults, numerals mean the nearest double. A missing -A, an unknown or ambiguous option, an unknown letter after other option letters, or a value of the wrong type runs nothing. The names of the options, what they set and the types of their values are those of the help texts. Violated by: the usage of fpfind in the README, which has an option -n that does not exist; negative numbers with an exponent as a word of their own (--precomp-start -1e-5), which all programs refuse; options between the names of the input and the output file of parse_timestamps; and a file after the times of generate_freqcd_testcase -t.",
     "All command lines made of settings in any number, order and form; all words before and after an unknown option; all files",
     "Unbounded sets of command lines; tests call functions, not command lines",
     f"{TS}:main", f"{FP}:main", f"{TG}:main")
prop("Programs do from the shell what they do with arguments",
     "A command line leaves nothing open: if numbers are written as numerals, parse_timestamps and fpfind run with exactly the arguments that the options mean. So parse_timestamps -A i [-X] -a j [-x] [filters] IN OUT, in any order and form, writes exactly the events of IN that pass to OUT and changes nothing else; with -p it reports the statistics of the events that pass; and the number printed by fpfind -V 7 called on two recordings, given to freqcd -f, brings the target to the reference clock. Violated by: parse_timestamps IN IN, which empties the file.",
     "All command lines made of settings in any number, order and form; all recordings, formats, filters; all executions of the three programs",
     "Unbounded sets of command lines and recordings, three programs; tests call functions, not programs",
     f"{TS}:main", f"{FP}:main", f"{FC}:main")
prop("Corrections in decimal units change the clock by that rate",
     "freqcd -d -f n with |n| up to 1220703, with options in any form and order, keeps all events of a recording in order of time with their detector bits, and moves an event at t by (t - t0) * n * 1e-10, up to 1.5 units for every 1024 events and one part in 2^34 of t - t0 (the correction is cut to a multiple of 2^-34). The README's freqcd -x -df 568 < TIMESTAMPS so makes the clock faster by 56.8 ppb. Larger corrections are refused before anything is written. Violated by: corrections of 1.25e9 and more, which are accepted (C52).",
     "All recordings of whole events in order of time, in both word orders; all decimal corrections in range; all command lines with -d and -f; all contents of memory at the start",
     "Unbounded recordings and command lines; the bound has to hold for rounding and truncation together",
     f"{FC}:main", "README.md:23")
prop("fpfind called on epochs and on timestamp files",
     "For two streams of events in order of time stored as directories of T2 and T1 epochs, fpfind -d S -D T, with any other options in any form, prints the same, or fails in the same way, as fpfind -t A -T B with the same options and two timestamp files that hold the events of the epochs it uses: as many as the required duration needs and one more, after the skipped ones, from the first common epoch (or the one given with -e) on. If there are fewer in a row, it prints nothing and ends with a missing file, and without a common epoch with a TypeError.",
     "All streams of up to 2^32 events, all sets of epochs present on either side, all command lines made of settings of fpfind with numerals",
     "Unbounded streams, directories and command lines; the equality is between two whole runs through different readers",
     f"{FP}:main", f"{UT}:get_timestamp", f"{UT}:get_first_overlapping_epoch")
prop("Every separation leads to the requested resolution",
     "fpfind ends for every separation between the two correlations (-s), and refines the result down to the final resolution given with -r before it prints it; in particular it finds the delay of a recording that is an exact delayed copy of the other one.",
     "All recordings, all resolutions, all buffer sizes, separations below and above √2, all roundings with relative error 2^-53",
     "The number of iterations and the resolutions of the search depend on the data and the options without bound; the failing range of separations is not one a test would try",
     f"{FP}:time_freq", f"{FP}:main")
prop("Options of fpfind that do not apply have no effect",
     "What fpfind prints, and how it ends, is determined by the events, the search and the form of the output that are asked for. If directories of epochs are given, the timestamp files, -X and -Z (skipped duration) have no effect; otherwise options about epochs have none; options of the precompensations have none without --precomp-enable. -V only changes the form: runs that differ in it print lines for the same time and frequency, or fail alike. Violated by: --precomp-fullscan, which turns every result into an error, also without --precomp-enable.",
     "All pairs of command lines that agree in what applies, all contents of files and directories, all numerical libraries (roundings, transforms, significances are parameters)",
     "A statement about all pairs of runs (non-interference); each test compares one pair",
     f"{FP}:main", f"{FP}:fpfind")
prop("fpplot called with what fpfind printed aligns the recordings",
     "fpplot runs with exactly what its options mean, in any order and form. It refuses unknown options and values of a wrong type. Called with the same files or directories as fpfind and at most as many epochs, it makes the histogram of the events that fpfind works on, up to --duration. After fpfind has printed a frequency and a time for two timestamp files with coincidences, fpplot --freq=F --time=T, with F the frequency in ppm up to an error r and T as printed, moves the event of the target that belongs to the time s of the reference clock to within the accuracy of fpfind of s, plus r * 1e-6 of the time.",
     "All command lines in all forms, all contents of files and directories, all recordings whose coincidences stand out (C106, C120), all numerals F",
     "Tests would need a display and a recording; the claim is about all recordings and all ways to write the command lines of two programs",
     "src/fpfind/fpplot.py:main", "src/fpfind/fpplot.py:plotter", f"{FP}:main")
prop("A recording compared with itself shows no difference",
     "fpfind called with the same file as reference and as target (without -P) prints a frequency and a time of exactly 0, in the output format asked for, or fails.",
     "All files, all separations, resolutions, thresholds and output formats, all numerical correlations whose value for a histogram with itself is highest at delay zero (exact ones are, and so are those off by less than half a pair unless the histogram is periodic)",
     "A test can compare some recordings with themselves; that no recording and no choice of bins gives a spurious difference is a statement about all of them",
     f"{FP}:time_freq", f"{FP}:fpfind", f"{FP}:main", f"{UT}:get_timing_delay_fft")
prop("Converted recordings work in fpfind and freqcd like any others",
     "fpfind prints the same for timestamp files with the same times, whatever their names, word order (told with -X), detectors, and order of options. So recordings of any formats, converted with parse_timestamps (with any filters), give what any timestamp files of the events that pass give. A recording of any format, converted with parse_timestamps, corrected with freqcd -f n and converted to any format has the events that pass the filters in the same order with the same detectors, moved by n/2^34 of the time since the first of them, up to 3/2 units of 4 ps for every 1024 events.",
     "All formats of input and output, all filters, all forms of the command lines, all recordings of events in order of time, all n below 2^21 in magnitude",
     "Tests convert, search and correct single recordings; that no format, filter, detector or word order matters is a statement about all of them",
     f"{TS}:main", f"{FP}:main", f"{FC}:main")
prop("Text files edited by hand",
     "The layout of a text timestamp file (a0 or a2) does not matter: empty lines, blanks around the numbers, comments after # and a missing last line end change neither the events that are read nor what parse_timestamps writes and reports. The line ends of Windows never matter.",
     "All text files (any lists of entries, any layouts, any comments), all options of parse_timestamps, outputs other than the input file",
     "There are infinitely many layouts, and the two ways of reading split the file differently",
     f"{TS}:read_a0", f"{TS}:read_a2", f"{TS}:sread_a0", f"{TS}:sread_a2", f"{TS}:main")
prop("Detectors selected before or after a correction",
     "It does not matter whether detectors are selected (pattern filter of parse_timestamps) before or after freqcd: the resulting files hold the same events in the same order with the same detectors, and all times differ by the same amount, the correction between the first event and the first selected one, up to 3/2 units of 4 ps for every block of 1024 events.",
     "All recordings of any formats in order of time, all pattern filters (mask and inversion included), all corrections in range, all contents of the memory of freqcd, all option orders",
     "The blocks freqcd reads, and so its roundings, differ between both orders for every recording",
     f"{TS}:main", f"{TS}:get_pattern_mask", f"{FC}:main")
prop("What the picture of fpplot does not depend on",
     "fpplot called on two timestamp files gives the same arrays to the histogram, or fails with the same exception, if the files hold the same times: names, word order (with -X), detectors, the order of options and the formats the files were converted from do not matter. Nor does it matter when the recordings were made: all times of both may be later by the same amount, and events of one recording before the other one begins may be left out.",
     "All recordings, all command lines of fpplot on timestamp files; for the last sentence, skipped durations of whole nanoseconds (0 by default)",
     "Recordings, command lines and time offsets are unbounded; the rounding to 64 bits could make the result depend on the absolute time",
     "src/fpfind/fpplot.py:main", "src/fpfind/fpplot.py:plotter", f"{UT}:normalize_timestamps", f"{TS}:read_a1")
prop("Skipping epochs is beginning at a later epoch",
     "fpfind on two epoch directories with -z k behaves as without -z but with -e naming the epoch k later than the first one in both directories (not before the one that -e asked for), if that epoch is in both directories: the same output or the same exception. The same holds for the arrays that fpplot plots. If the file of that epoch is missing in the first directory, fpfind -z k fails with FileNotFoundError; it does not go on to a later epoch, as -e would.",
     "All directories, all contents of the files, all command lines with the two directories, all k",
     "Directories, files and numbers of epochs are unbounded; tests use one short run of epochs without skipping",
     f"{FP}:main", "src/fpfind/fpplot.py:main", f"{UT}:get_first_overlapping_epoch", f"{UT}:get_timestamp")
prop("fpplot called on epochs and on timestamp files",
     "fpplot on two epoch directories (T2 files of the sender, T1 files of the receiver) gives the same arrays to the histogram as on two timestamp files with the times of the epochs that -e, -z and -n select. The times in the timestamp files may all be later or earlier by the same amount, so they can count from the first epoch instead of in absolute time, and they need not be in order. With such files fpfind, too, prints what it prints for the directories.",
     "All directories, all well-formed T1 and T2 files of the epochs read, all events, all other options, all shifts that 54-bit times allow",
     "The two inputs go through different readers with different resolutions and bit layouts; files, events, options and shifts are unbounded",
     "src/fpfind/fpplot.py:main", f"{FP}:main", f"{UT}:get_timestamp", f"{UT}:normalize_timestamps", f"{EP}:read_T1", f"{EP}:read_T2", f"{TS}:read_a1")
pathlib.Path("/verif/properties.jsonl").write_text("".join(json.dumps(p)+"\n" for p in P))
print(len(P))
