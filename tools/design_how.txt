C01: `readA1`, `writeA1` on byte lists, words as naturals modulo 2^64, `_format_timestamps` with rounding to `fw` bits; induction over events.
C02: the same functions; every file of whole events is the image of a list of 64-bit lines.
C03: `formatTimestamp`; exactness of `fl` below 2^fw, evaluation of a rounding at 2^53 + 1.
C04: `sreadA1` as a loop over chunks with errors as values; induction over batches, length of the file modulo 8.
C05: text files as character lists, `genfromtxt`, `int(s, 16)`, type of the array; digit lemmas, induction.
C06: the same for 16-digit lines, with the type of the array of Python integers.
C07: writers over a list of batches; induction.
C08: `sreadA0`, `sreadA2` as loops over lines; induction.
C09: boolean masks over lists; case analysis of the four modes, bit lemmas.
C10: `bisect` as a recursive function over sorted lists with numpy comparison; invariant of the bisection.
C11: `convertStream`, `convertInMemory`; composition of C01, C04, C09 and C10.
C12: reports as records, streaming update step; induction over batches.
C13: `printReport` with division by a rounded duration; exact condition for zero.
C14: `writeT1`, `readT1` on bytes; induction over events.
C15: `t1Convert` with rounding; exactness.
C16: prefixes of the written file; case analysis of the cut. C16_written_partial is about the file that `writeT1` returns.
C17: `extractBits` on a word stream; refinement to a list of bits.
C18: `readT2` loop with fuel; induction over entries on top of C17.
C19: `readT4`; as C18.
C20: loops with fuel; a step that reproduces its state.  For arbitrary bytes: at every bit position there is either the timing value 1 or an entry (zeros after the end of the file are entries), so the loop follows the stream.
C21: `t2Convert`; type promotion.
C22: `readT3` tallies as a fold; permutation lemmas.
C23: names as character lists; digits.
C24: directory listings as lists of names; sets of numbers.
C25: `getTimestamp` over a directory map; induction over epochs.
C26: `sliceTimestamps`, `normalizeTimestamps` on rationals.
C27: `generateBins`; counting.
C28: exact discrete Fourier transform; orthogonality of characters.
C29: `getTimingDelayFft` on lists.
C30: C28 and an explicit delayed copy.
C31: `getStatistics`; list slices as in Python.
C32: `time_freq` as a state machine with arbitrary correlation and significance; invariant over iterations.
C33: the same, any rounding function.
C34: the same; decreasing resolution with relative rounding errors.
C35: `fpfindScan`; list recursion.
C36: `generatePrecompensations`; list lemmas, degenerate arguments.
C37: `invertComp` in exact arithmetic; field identities.
C38: conversion between `fpfind` output and `freqcd` input; inequalities.
C39: main loop of `freqcd` as a state machine over arbitrary answers of the environment, heap buffers as byte lists; refinement to a stream of events.
C40: the same; 64-bit arithmetic with zero correction.
C41: 64-bit vectors; ranges of the products. C41_accepted takes the range from the test in `fcorrUpdate`.
C42: the stream refinement and the arithmetic of C41.
C43: as C42; monotonicity of the corrected time.
C44: every buffer access is checked in the model; invariant of the main loop.
C45: the frequency channel as a list of reads; `strtol` on bytes.
C46: `readint`, `scanInt`, the range checks; 32-bit vectors.
C47: relation between two runs, on a file and on its swapped copy.
C48: prefixes of the output.
C49: two schedules of reads for the same input.
C50: 64-bit arithmetic at the end of the range.
C51: the order of reading, correcting and writing in one pass of the loop.
C52: `fl 53` product and truncation; error bound against multiples of 1/9765625.
C53: `getopt.c` with its static pointer, options as a list; induction over the written form.
C54: `sscanf` into a buffer of 200 bytes; list lemmas.
C55: two runs that agree up to a pass of the loop.
C56: `getEvent` and the file system as a map from names to contents.
C57: the same.
C58: slices of several arrays.
C59: list index arithmetic.
C60: `mergePairs`.
C61: two events in the wrong order in the arithmetic of C41.
C62: dates as microseconds since 1970 in UTC (the local time zone cancels); error bounds for the double products.
C63: the corrections of all iterations form one affine map; the last step leaves a residual that is bounded by the two measured delays.
C64: invariant over the phases of the search; the correlation counts pairs of events (C28), and its maximum after the first correction is at delay zero.
C65: `fpOutput` in doubles, then C42; the sign conventions of both programs meet in one inequality.
C66: the sliding window over sorted times keeps the recent events and the last one; the histogram is followed as counts modulo 2^32.
C67: `str.partition` and its first-occurrence property; white space cannot contain the delimiter.
C68: fold over the sequence of calls, separately for each name.
C69: call trees with exceptions; an inductive grammar of nested lines.
C70: the error bounds of three roundings, for the streamed report and for the one in memory.
C71: `argpartition` and `argsort` are arbitrary functions with the documented result; permutation arguments on index lists.
C72: affine behaviour of sums, means, deviations, maxima and the argument of the maximum; values from means and deviations given by their equations.
C73: direct evaluation of the model.
C74: the theorems of C23, C24, C25 and C26 put together; the witness is a pair of directories with T1 and T2 files.
C75: Model/Rounded has slice_timestamps, normalize_timestamps and generate_fft with every float operation rounded, including numpy's floor division and remainder as implemented in npymath (fmod, two rounded operations, correction by one).  The rounded quotient is shown to be within 1/4 of the right integer, so the final correction finds it; differences of grid values have at most 62 bits and are exact.
C76: Invariant of the loop of time_freq: factor times corrected timestamp plus delay equals the original timestamp up to an error that grows by six roundings per iteration; the limits enforced by the code (100 ms, 2^-13) bound the magnitudes.  C63_rounded combines it with the residual bound of C63.
C77: Model/Detune mirrors generate_freqdetuneg2.py: the event filter, the five rounded operations and the nine files written.  The spec is the time shown by a faster clock.  The script theorem combines it with reading (C03), text output (C06) and the truncation on writing (C78).
C78: The product with 256/resolution is an exact scaling by a power of two, so the conversion to an integer truncates the exact value; the result is then read back by C03.
C79: Model/Plot mirrors main of fpplot.py up to the arrays given to the (external) histogram function.  The epochs read are a prefix, so the first timestamps and therefore the time reference agree; the correction is compared with that of fpfind rounding by rounding, and C79_aligned adds the accuracy of C63_rounded.
C80: Model/Decimal is CPython's formatting with g and f and float(text); Spec/Decimal defines numerals and rounding to significant digits independently (nearest multiple of a power of ten).  The digits produced are shown to be a numeral for the rounded value, reading it back gives the nearest double, and for at most 15 digits rounding that double again gives the same value (error 2^-53 relative against half a unit of the last digit, with the case of powers of ten separate).
C81: Model/UtilsText follows the four substitutions.  Spec/Text describes the text by its runs of newlines.
C82: The six optional values are shown one by one; each numeral is compared with the value (Shown.As).
C83: Induction over the text for splitlines; the option names by cases.
C84: Model/RawMain follows `main` on a map from names to contents; the writer empties the destination before the reader opens the source.  Spec/RawMain: `fileOf` (file of given events), `filtered`.  Reading any format gives the raw times (from C03-C08), filtering batch by batch is filtering the list, writing gives `fileOf` (C01, C05, C06, C07).
C85: The report is compared with `Describes`, which counts on the raw events; at most one report describes a list of events.
C86: `reprFloat` tries 1 to 17 significant digits.  Seventeen are enough (`fl_sig17`); the layout is proved to denote the value (from C80's `layoutG_spec`).  `Printed` in Spec/FpText is a relation between result and line; `C86_unique` shows it determines the result.  C86_program is about every line that `main` prints.
C87: The digits are translated to bytes; the line is then a `Numeral` of Spec/Freqcd, and C45 and C53 give the correction.
C88: `fpMain` composes the models of input (C74), precompensations (C36), search (C32-C34), scan (C35) and output (C86), with one fuel for all loops.  Spec/FpRun: `Search` (the search with the parameters the command line means), `precompensated`, `Input`.  `C88_plain` needs that 1 + (f - 1) gives back the double f near 1.  `C88_accuracy` uses C63 in rounded arithmetic.
C89: the loop argument of C64 is a lemma about any arithmetic in which the correlations find the delay (`delay_core`, `delay_no_error`); in floating point they do: slices of grid values are exact, bins are exact (C75), whole counts with an error below 1/2 keep a strict maximum, and the time axis is only used at the delay itself and at zero.
C90: `ShownAs` in Spec/FpOutput says for each bit what is shown, with an error bound; multiplications by powers of two are exact, the two roundings of the exchange are bounded with the relative error of doubles.
C91: the body is split into 64-bit lines; both readers are known on such lists (C14, C02), so the conversions of one line are compared, mode by mode.
C92: the readers with their warnings as a list in Model/EpochHead; names are compared with the canonical names of C23; `headField` in Spec/EpochHead gives the bytes of a field without the byte functions of the model.
C93: invariant of the loop saying which merging the search is at and that all finer ones were rejected; `merged` (Spec/FpThreshold) gives the merged histogram by block sums, equal to repeated merging by C60.  For failure, the search is run up to the first merging that is not followed by another.
C94: `freqcdMain` (Model/FreqcdProgram) is options (C53), opening of the files in the order of the program, main loop and exit status; `FullRound` is the answer of the kernel for regular files, for which no read completes no event, so that C39 and C42 apply.
C95: induction over blocks of 1024 events on the machine without buffers (`exact_run`); `moveOf` and `correctedBlocks` (Spec/FreqcdExact) are floor formulas over the rationals; the pipeline is composed of C56, C94 and C57.
C96: the double sum of pairs is exchanged (`pairsAt_swap`), so a peak at k becomes one at -k (`peak_swap`); C28 gives the correlation and C64 both runs of time_freq.
C97: the readers return the exact times (C03_modes_exact), for which the normalisation does not round (C75_normalize) and commutes with a shift (`fromStart_shift`); the rest of the run is a function of its result.
C98: the accuracy of each run (C63_rounded at the times 0 and sep) bounds the relative error of its frequency and the error of its time (`found_numbers`); the rest is algebra of the two affine maps.
C99: the value is one rounding of the full time (`t1Convert_full`), rounding is monotone and its error at most 16 units below 2^69.
C100: the filters of consecutive epochs of a sorted list concatenate to the filter of the range (`flatMap_eventsOf`); each file is read as in C14 and C18, and the input of fpfind is determined by C74_epochs.
C101: invariant of the channel during full reads (`ChannelInv`): the partial line and what is left in the channel are the lines still to be applied; a full buffer of 99 bytes contains the end of the next line.
C102: C42 and the bounds of C43 in one invariant give the exact integer times of the first run (`run_no_wrap`), which are the input of C42 for the second run.
C103: a pair at distance D up to delta has one of w consecutive bin differences (`near_bin`), so one bin near D has a w-th of all such pairs (`near_share`) and the maximum cannot be elsewhere.
C104: invariant of the run that names the correlations each entry of the history comes from (`run_correlations`), C103 for both windows of the last iteration, and C63_rounded.
C105: termination by C34; the search for the first peak by `reach_search` (C93), where the position of the merged peak is found from the pairs in blocks of bins (`merged_argmax`); invariant of the run (`ConvInv`): what is left of both delays is at most 1.02 times the first error, the history is one of correlations at the resolutions of the iterations, rounding as in C76; `iteration_accepted` excludes every other way to stop; then C63_rounded for the last iteration. Conditions in `Spec.ClearRun`, met by a concrete run with a refinement.
C106: C105 for the precompensated times, C88_first for the scan and the line, `combine_error` for the rounding errors of combining precompensation and result, C86 for the text.  The instance is a run on two files of 11 events, from bytes to the printed line.
C107: the loop writes 8 bytes per event before the exception, fewer than the header announces (`t1EventsNp_shape`), so the count is wrong wherever a zero word stops the reader (`readT1_short`).
C108: C107 and the reader on arbitrary words (`readT1_words`).
C109: `write_first_type_error` for the types whose sum with a Python integer is a float; for int64 the wrapped word is the word minus 2^64 in the upper half (`t1EventNp_i64`).
C110: `formatF_spec` and `natDigits_spec` for the numerals, `scaled_err` (C70) for the times, C12 for the counts of a stream.
C111: both searches run in lockstep (`runLoop_rel`); `FarAt` keeps the appended target times beyond the windows through all corrections, `duration_long` bounds the windows.
C112: `words_plain` and `words_first` for the splitting, `root_installed` for the directory; relative names by C94 in two directories (`inDirectory`).
C113: invariant `WindowsInv` over the steps of the search; `duration_le` bounds the windows for all roundings.
C114: `filtered_twice`, from `patterns_fold` (all patterns by evaluation) and `window_inter`; C84 for the three runs.
C115: Model/FftNumeric has the transforms as a parameter; Parseval (`parseval`, from C28), Cauchy-Schwarz for the products of the spectra (`product_error`), and the norm of the exact inverse transform of the computed spectrum (`numeric_error`).
C116: `pyInt16_foreign` through the grammar of `int(s, 16)`; `pyInt16_take` for digits cut off; `streamLoop_last` is the loop over buffers with a last unit that is shorter.
C117: `streamLoop_error` splits the loop over buffers at the failing one; `sreadFmt_damaged` finds this buffer for a file of events with something else behind.
C118: `reshape2` of joined words; conversion and report through C84 and C85 on both parts, since `filtered` distributes over joining.
C119: lock-step of two searches (`step_perm`): slices of permuted arrays are permuted, histograms of them are equal.
C120: `prominent_stands` compares the windows of corrected times with the recorded ones, since the corrections are affine up to rounding (`affine_corrections`); induction over the history (`input_near`) with the checks of C105 (`iteration_accepted`).
C121: as C95 for reads of any number of whole events (`Arrives`): induction over the reads gives `correctedBlocks`; its moves are 0 or -1 if the distances are small (`moveOf_zero`, `moveOf_minus_one`), and add up to the right value within 3/2 units for every read.
C122: C42 for both runs; the ideal corrections differ by a constant.
C123: induction over the passes with the offset of the last event written (`Drift`); the step function of the corrections is integrated pass by pass (`accumulated_new`), bounds by telescoping.
C124: the core of C106 for any output format (`printed_core`), the text of C86, the options of C53 and the run of C94; the range of freqcd from the error at the ends of the separation (`inverse_range`), back from the range to the frequency (`inverse_small`), and one sum of errors (`pipeline_arith`).
C125: exchanging the files exchanges the normalised times (`input_exchange`); the error of a printed result at two times bounds its frequency (`slope_error`); the rest is arithmetic (`exchange_arith`).
C126: heights between 0 and M with mean m have a variance of at most m(M-m) (`variance_le`), and (x-m)^2 M^2 - 4x(x-M)m(M-m) is a square (`worst_mean`).
C127: heights up to x of which a fraction of r^2 is above M have mean at most M + r^2 x and standard deviation at most M/2 + r x (`mostly_le`); counts that differ by one differ in the numerical correlation.
C128: every run is C84; what is left is a statement about lists (`sorted_split`, `fileOf_append`) and finite checks of 4-bit patterns (`bits_split`).
C129: the standard deviation of numbers off by 1/2 is less by at most 1/2 (`spread_near`, from (y-m)^2 >= (1-t)(c-m)^2 - (1/t-1)e^2 with t = 1/(2S)); then C72 for the value, C93 for the mergings, C88 and C127 for the program.
C130: the dispatch of records by Python's logging module is modelled (`logEmit`); a logger that has handlers and does not propagate depends on no other logger (`logEmit_own`), and calls about it only add files and set the level (`runWorld_own`).
C131: the nearest multiple of the step among those of C36 (`nearest_tried`), the two roundings of each value (`tried_error`), and its place in the list (`alternating_split`). C131_tried is about the list that `main` passes to the search.
C132: a setting becomes one or two classified words (`classify_setting`) and one step of the loop (`loop_setting`), so settings can be split off (`parse_tail`, `ts_loop`); options never become values, so an unknown one, or an unknown letter, is left over (`loop_unknown`, `loop_extra`); the tables of Spec/ArgNames fix names, destinations and types (`C132_names`, `C138_names`). The model of `argparse` gave the same results as the module of Python 3.11 on 1500 random command lines for the three parsers.
C133: what options mean determines the arguments (`floatSet_unique`, `natSet_unique`), so C132 gives the run, and C84, C85 and C124 its effect.
C134: C53 and C52 give the correction, `regular_file` (the part of C94 that does not depend on how the correction was given) the run; truncation costs at most one unit of 2^-34 in the rate.
C135: C133 gives both runs, C100 their equality; the hypotheses of C100 on the directories follow from `StreamDir` by reading back the files (C14, C18).
C136: the quotient of two resolutions is at least 1 + 2^-52 (error bounds of the three roundings); once the correlation period is three times the acquisition the window is empty, which is an error. Independence of the final resolution is a simulation of the two runs with the invariant that the resolution is above both.
C137: `main` is the printing of a pair computed before (`beforePrint`), which reads only the arguments compared by `SameEvents` and `SameSearch`; more fuel does not change a result that is there.
C138: Model/PlotCli is the parser of fpplot in the model of argparse; the options are read as in C132, the events are those of C79 (whose theorem now says when the IndexError can occur), and the correction is compared with that of C106 rounding by rounding.
C139: the sum of squares of differences between a histogram and its rotation bounds the numbers of pairs; an invariant of the search says that the target stays equal to the reference and that all delays are 0. The counterexample was found by a random search over histograms; its significances are bounded with rational bounds for the standard deviation.
C140: the conversion is C133, fpfind sees the files only through the list of times (`load_raw`), and freqcd writes exactly `correctedBlocks` (C95), whose distance from the ideal correction grows by at most 3/2 in every block (`corrected_near`).
C141: `LaidOut` builds the text line by line; after universal newlines, comments and blanks are removed, exactly the entries remain (`laidOut_lines`), and the command sees the file only through its reader (`main_reads`).
C142: both orders are instances of `three_steps` (C140); a pattern filter looks at the detectors only, which freqcd keeps (`filtered_corrected`), and two lists near the ideal corrections of the same events are near each other (`corrected_twice`).
C143: `plot_on` reduces a call to the normalised lists of times; these are compared with the lemmas of C97.
C144: C24 gives the first epoch of both runs; `getTimestamp_skip` shows that the same files are read, and the number of epochs to read does not depend on the skipped ones.
C145: C14, C18 and C25 give the times read from the epochs as multiples of 1/256 ns, which are the times of timestamp files; the shift is C97.
