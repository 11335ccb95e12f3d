# Formal model of franciumxzf/fpfind in Lean 4

## Layout

* `lean/Verif/Model/*.lean`: the model, function by function. Every definition cites the file and lines it models and says
  where it simplifies.
* `lean/Verif/Spec/*.lean`: small independent specifications the theorems are stated against.
* `lean/Verif/Lemmas/*.lean`: helper lemmas (not part of any claim).
* `lean/Verif/Props/*.lean`: the property theorems, with examples that meet their hypotheses beside them.
* `properties.jsonl`: the English properties. `MANIFEST.json`: which theorems prove which property.
* `seeded/LOG.jsonl`: bugs put into a copy of the model, and the theorems they break.
  `breaks` names the claims that the bug makes false. Where this label was changed after the run, `breaks_first` and `survived_first`
  keep the label made before and the claims of it that still proved, and `note` says why it was changed. The changed labels were
  found by comparing the log with the raw output of the runs, which is kept for most of the entries but not for about 130 early ones;
  those may hold changed labels that are not marked. An empty `survived` is therefore weaker evidence than it seems.
* `tools/`: scripts that write `properties.jsonl`, `MANIFEST.json` and this file, and that run the seeded bugs.

A claim is `partial` when the code does not have the property or when only part of it is proved. Theorems about the part
that holds end in `_partial`; theorems named `_violated` or `_negation` prove that the code breaks the property.

## Trusted base

* Lean 4.33.0's kernel. Theorems depend at most on `propext`, `Classical.choice`, `Quot.sound` (list at the end).
* The reading of the code into the model: nothing is extracted from or checked against a running program.
* The semantics of the runtime as written in the model files:
  - CPython: integers are `Int`/`Nat`; `int.from_bytes`, `struct.pack`/`unpack`, `hex`, `int(s, 16)` as in `Model/Py.lean`.
    Exceptions are values of `Except PyErr`; their messages are not modelled.
  - numpy 1.24 to 1.26 (pyproject asks for `^1.24.1`) on little-endian x86-64 Linux. `uint64` with `int64` gives `float64`,
    also for scalars. `np.array` of Python integers is `int64`, `uint64`, or `float64` when mixed. `fromfile` drops an
    incomplete trailing item, `frombuffer` refuses it. `reshape(-1, 2)` refuses odd sizes. `genfromtxt` gives a
    0-dimensional array for one line, skips empty lines and comments, and cuts words at the given width.
  - A comparison of a `uint64` element with a Python float rounds the element to `float64` first (`Num.cmp`).
  - Floats are rationals with an explicit rounding to 53 or 64 significant bits, ties to even, after each operation
    (`Model/Float.lean`). The exponent is unbounded; there is no NaN, infinity or signed zero.
  - `repr` of a float gives the fewest digits whose correctly rounded value is that float (`Model/FpText.lean`).
  - Fourier transforms are computed in exact complex arithmetic, square roots in exact real arithmetic; C115 bounds the effect of
    the errors of numerical transforms.
  - C: gcc without optimisation on x86-64 Linux. `int` has 32 bits, `long` and `long long` have 64; overflow wraps around;
    `abs(INT_MIN)` is `INT_MIN`; a double too large for an `int` becomes `INT_MIN`. `strtol` and `sscanf` as in glibc.
  - `read`, `write` and `select` return whatever the environment likes, within what POSIX allows.
* A `while True` loop is a step function with fuel. Results are stated as "for all large enough fuel"; "never returns" means
  that no amount of fuel suffices.

## Parts of the repository that are not modelled

* Progress bars, plotting itself (`histogram` of S15lib and matplotlib in `fpplot`), configuration files of `configargparse`, the package `boiler` used by `fpplot` (the command lines are modelled after `argparse` of Python 3.11, C132 and C138), the texts of messages, and the setup files (other than the stand-in script for freqcd and `_postinstall`, C112).
* Rounding errors in the numerical part of `utils.py` (C26 to C32) unless a theorem says otherwise (C63, C75, C76 and C89 do; `time_freq` itself is modelled with all roundings).
* Operating system errors when files are opened; file permissions.
* Divisions by zero in `fpfind`: a resolution of zero (`-R 0`, `ZeroDivisionError` in line 157), a separation of zero (`-s 0`, NaN in
  line 242; both end as `.outside` in `fpCli`) and a precompensation of -1 (infinite times in line 360). Likewise `--freq -1000000` in `fpplot`.

## What the proofs found out about the code

* `freqcd.c`: a read that completes no event adds the previous correction once more (C42, C43, C49). The first read may use
  an uninitialised variable (C40). The roll-over of the time is corrected wrongly (C50). Events out of order get
  corrections that differ by 2^30 units or more (C61). The value -2^31 passes all range checks, values beyond 32 bits wrap (C46).
  A read from the frequency channel that contains no line end is dropped (C45). An error on that channel loses events that
  have been read (C51). A file name of 200 characters or more writes beyond its buffer (C54). The option `-f` uses the integer a
  text begins with, so fpfind's output 3.3e-06 is taken as 3 units (C87). The first call after the installation runs in the
  directory of the library, so relative file names mean other files (C112). Corrections are rounded down in every read, so small
  reads lose positive corrections and exaggerate negative ones (C121). A second run does not continue the correction (C122).
* `parse_timestamps.py`: odd times from 2^53 on do not survive the a0 format (C05). a2 files with one event, or with events
  on both sides of 2^53, cannot be read (C06). Incomplete files stop `sread_a1` but not `read_a1` (C04). Text
  files cut inside a line give an event that is too early (C116). The report of a file
  with one event raises `OverflowError` (C13). Timing filters compare rounded times (C10, C11). Converting a
  file onto itself while streaming empties it without an error (C84). A conversion that fails loses up to 99999 intact events
  before the damage (C117). Two readable a2 files may give an unreadable one when joined (C118).
* `parse_epochs.py`: an event whose encoding is all zero ends reading (C14). A crash inside the last event gives a wrong
  event (C16). Truncated T2 and T4 files are never finished (C20). Integers in units of 4 ps raise `TypeError` (C21).
  `date2epoch` drops fractions of a second, so it does not invert `epoch2date`, and is one epoch early at some boundaries (C62).
  Its warnings do not reach the log file of fpfind, and reading T2 and T4 epochs configures the root logger (C130).
* `fpfind.py` and `utils.py`: a full scan of precompensations always raises (C35, C88). Two of the documented examples of
  `generate_precompensations` are wrong (C36), and the end of a scan may be missed by rounding (C131). The usage in the README is refused, and so are negative numbers with exponents (C132). The inverted time correction is wrong unless `dt = 0` or `df = 0` (C37).
  Frequency corrections accepted by `fpfind` may be refused by `freqcd` (C38). `freqcd` multiplies times by `1+f`, `fpfind`
  divides by `1+df`: the value meant for the target doubles its offset, the inverted value has to be used (C65). A float centre, as
  documented, raises `TypeError` (C31). `get_top_k_delays_fft` omits the height for one peak (C71). `significance_raw` and
  `histogram_fft` always raise `TypeError`, the latter after shifting the arrays of the caller (C72, C73). The extra epoch that is
  read does not guarantee the minimum duration (C74). `round` to significant figures goes through a double: large ints change
  their digits, 16 digits are rounded twice (C80). Skipped durations that are not whole nanoseconds make the result depend on the
  absolute time (C97). The relation between the times of both directions that the tests assert is wrong (C98). The
  frequency is computed from the highest bin of the late correlation even if that is noise (C113). With a separation
  below √2 the resolution gets coarser instead of finer, `-r` has no effect, and exact copies are not recognised (C136).
* `generate_freqcd_testcase.py`: `-x` has no effect (C56). A file given for reading is overwritten (C57).
* `g2_two_timestamps.py`: the last event of the first array is never dropped, whatever the delay (C66).

## Properties

### C01 a1 write/read round trip

Reading with read_a1 a file produced by write_a1 returns exactly the timestamps and detector patterns that were written, in order, in both the legacy and the normal word order, at every resolution.

* Model and proof: `readA1`, `writeA1` on byte lists, words as naturals modulo 2^64, `_format_timestamps` with rounding to `fw` bits; induction over events.
* Status: proved. All event lists, both word orders, every write and read resolution, every float width >= 54 bits.
* Theorems: `C01_a1_file`, `C01_a1_roundtrip`, `C01_a1_roundtrip_raw`

### C02 a1 read/write canonicalisation

Re-writing with write_a1 what read_a1 returned (in 4ps integers) reproduces the input file byte for byte except that bits 4..9 of every event are cleared; doing it twice changes nothing more; converting legacy to normal and back is the same as not converting.

* Model and proof: the same functions; every file of whole events is the image of a list of 64-bit lines.
* Status: proved. All byte strings of whole events.
* Theorems: `C02_a1_canonical`, `C02_a1_idempotent`, `C02_a1_convert`

### C03 Resolution and fractional modes of the readers

For every 54-bit timestamp the fractional mode returns exactly raw*res/256 (80-bit floats lose nothing) and the integer mode returns its floor; both are monotone in the raw timestamp; with 64-bit floats the fractional mode is exact only below 2^53.

* Model and proof: `formatTimestamp`; exactness of `fl` below 2^fw, evaluation of a rounding at 2^53 + 1.
* Status: proved.
* Theorems: `C03_modes_exact`, `C03_modes_monotone`, `C03_float64_exact_below`, `C03_float64_inexact`

### C04 Streaming a1 reader equals the one-shot reader

Concatenating the batches of sread_a1 gives exactly what read_a1 returns, the number of batches actually yielded is the announced num_batches, and every batch except possibly the last holds exactly buffer_size events.

* Model and proof: `sreadA1` as a loop over chunks with errors as values; induction over batches, length of the file modulo 8.
* Status: partial. Proved for files of whole events. Files that end inside an event are described completely: sread_a1 yields the full batches and raises ValueError, losing the complete events after them; read_a1 ignores 1 to 3 bytes and raises for 4 to 7.
* Theorems: `C04_stream_partial`, `C04_stream_incomplete`, `C04_stream_negation`, `C04_read_incomplete`

### C05 a0 text write/read round trip

Reading with read_a0 a file produced by write_a0 returns exactly the timestamps and patterns written.

* Model and proof: text files as character lists, `genfromtxt`, `int(s, 16)`, type of the array; digit lemmas, induction.
* Status: partial. Round trip proved for all times a float64 can represent (below 2^53, and even times above); every odd time from 2^53 on comes back wrong.
* Theorems: `C05_a0_file`, `C05_a0_roundtrip_partial`, `C05_a0_negation`, `C05_a0_to_a1_wraps`, `C05_a0_empty`

### C06 a2 text write/read round trip

Reading with read_a2 a file produced by write_a2 returns exactly the timestamps and patterns written.

* Model and proof: the same for 16-digit lines, with the type of the array of Python integers.
* Status: partial. Proved for at least two events with homogeneous dtypes; single-event files and files mixing events below and above 2^53 raise TypeError (both proved for every such file).
* Theorems: `C06_a2_file`, `C06_a2_roundtrip_partial`, `C06_a2_negation_single`, `C06_a2_negation_mixed`

### C07 Streaming writers equal the one-shot writers

swrite_a0/a1/a2 given a stream of batches writes exactly the bytes write_a0/a1/a2 writes for the concatenation of the batches.

* Model and proof: writers over a list of batches; induction.
* Status: proved.
* Theorems: `C07_swrite_a0`, `C07_swrite_a1`, `C07_swrite_a2`

### C08 Streaming text readers are independent of the buffer size

On a file written by write_a0 (write_a2) the batches of sread_a0 (sread_a2) concatenate to the same events for every buffer size, and the number of batches is the announced num_batches.

* Model and proof: `sreadA0`, `sreadA2` as loops over lines; induction.
* Status: partial. Proved for homogeneous files; for a2 files mixing int64 and uint64 values the outcome depends on the buffer size (witness).
* Theorems: `C08_sread_a0_partial`, `C08_sread_a2_partial`, `C08_sread_a2_negation`

### C09 Pattern filter

get_pattern_mask selects exactly the documented events and returns the documented patterns in its four modes: equal to the pattern; different from it; sharing a bit with it (pattern reduced to the shared bits); having a bit outside of it or being an empty event (pattern reduced to the remaining bits).

* Model and proof: boolean masks over lists; case analysis of the four modes, bit lemmas.
* Status: proved. All lists, all 4-bit patterns, all four modes. A pattern with the fifth bit removes empty events in the last mode (C09_fifth_bit).
* Theorems: `C09_pattern_filter`, `C09_fifth_bit`

### C10 Timing filter

On a chronologically sorted array get_timing_mask marks exactly the events with start <= t <= end (missing bounds meaning unbounded), whatever the position of the bounds relative to the data.

* Model and proof: `bisect` as a recursive function over sorted lists with numpy comparison; invariant of the bisection.
* Status: partial. Proved for float arrays and integer times below 2^53; above, numpy compares the rounded time (complete description and witness).
* Theorems: `C10_timing_filter_partial`, `C10_timing_filter_rounded`, `C10_timing_negation`

### C11 Conversion command is independent of batching

parse_timestamps -A1 -a1 with any filters writes, for a sorted input file, the same output for every streaming buffer size, equal to filtering all events at once; and the --inmemory path writes the same output.

* Model and proof: `convertStream`, `convertInMemory`; composition of C01, C04, C09 and C10.
* Status: partial. Streaming part proved in full; --inmemory equality proved without timing filter or below 2^53, witness otherwise.
* Theorems: `C11_convert_stream`, `C11_filter_meaning`, `C11_convert_inmemory_partial`, `C11_convert_inmemory_negation`

### C12 Event statistics

The counts reported by print_statistics_stream do not depend on how events are batched and equal those of print_statistics; the total equals empty events plus single-channel events plus multi-channel events; the reported start/end are the first and last event.

* Model and proof: reports as records, streaming update step; induction over batches.
* Status: proved.
* Theorems: `C12_statistics`, `C12_batching`, `C12_oneshot`, `C12_total`

### C13 Statistics report is total

The statistics report is produced without an exception for every file with at least one event.

* Model and proof: `printReport` with division by a rounded duration; exact condition for zero.
* Status: partial. Exact condition proved (first and last time differ); single-event files raise OverflowError.
* Theorems: `C13_report_partial`, `C13_report_raw`, `C13_report_negation`

### C14 T1 epoch write/read round trip

read_T1 on a file produced by write_T1 returns exactly the timestamps (with the 17-bit epoch prefix) and detectors that were written; a single detector stands for all events, and a list of detectors of another length raises ValueError before a file is created.

* Model and proof: `writeT1`, `readT1` on bytes; induction over events.
* Status: partial. Round trip proved for every list of events whose encoding is not the all-zero word pair; an all-zero event ends reading (proved for every file with one).
* Theorems: `C14_t1_file`, `C14_t1_broadcast`, `C14_t1_mismatch`, `C14_t1_roundtrip_partial`, `C14_t1_zero_event`

### C15 T1 full-epoch timestamps

With full_epoch the integer modes of read_T1 return floor((epoch*2^37 + t)*res/256) with no 64-bit wrap-around, and the 80-bit fractional mode deviates from the exact value by at most 2^-64 of its magnitude and never by more than 16 units of 4ps.

* Model and proof: `t1Convert` with rounding; exactness.
* Status: proved. The conversion for all epochs and times; read_T1 for files without the event that ends reading (C14).
* Theorems: `C15_read_T1`, `C15_full_epoch_int`, `C15_full_epoch_frac`

### C16 Interrupted T1 write is detected

If writing a T1 file is interrupted at any byte, read_T1 on the remaining prefix either raises or returns the complete list of events; it never returns altered or missing events.

* Model and proof: prefixes of the written file; case analysis of the cut. C16_written_partial is about the file that `writeT1` returns.
* Status: partial. Proved for every crash point outside the last event; a crash inside the last event is read as a wrong event (witness); all other events are always right.
* Theorems: `C16_interrupted_partial`, `C16_written_partial`, `C16_negation`

### C17 Bit extraction reads the word stream as one bit stream

Successive extract_bits calls return consecutive bit fields of the concatenation of the 32-bit little-endian words of the file, independent of how fields straddle words, and consume a word only when needed.

* Model and proof: `extractBits` on a word stream; refinement to a list of bits.
* Status: proved. All files, all sequences of widths up to 32.
* Theorems: `C17_bit_stream`

### C18 T2 epoch decoding

read_T2 decodes every stream encoded according to the T2 file specification: timestamps are the running sums of the encoded differences starting from the 17-bit epoch prefix, with the detector bits in order.

* Model and proof: `readT2` loop with fuel; induction over entries on top of C17.
* Status: proved. All entry lists, widths, trailing bytes and units; with and without full epoch.
* Theorems: `C18_t2_decode`

### C19 T4 epoch decoding

read_T4 decodes every stream encoded according to the T4 file specification (index differences biased by 2).

* Model and proof: `readT4`; as C18.
* Status: proved.
* Theorems: `C19_t4_decode`, `C19_t4_length_checked`

### C20 Epoch readers terminate on every file

read_T1, read_T2 and read_T4 return or raise on every file, in particular on files truncated by an interrupted transfer.

* Model and proof: loops with fuel; a step that reproduces its state.  For arbitrary bytes: at every bit position there is either the timing value 1 or an entry (zeros after the end of the file are entries), so the loop follows the stream.
* Status: partial. T1 always terminates; T2/T4 files of any content are read to an end exactly if the timing value 1 follows the entries, otherwise never (both proved); in particular never for files cut after whole entries.
* Theorems: `C20_t1_terminates`, `C18_t2_decode`, `C19_t4_decode`, `C20_t2_exact`, `C20_t4_exact`, `C20_t2_negation`, `C20_t4_negation`

### C21 T2 integer outputs

read_T2 with fractional=False returns floor(t*res/8) as integers for every resolution, including 4ps.

* Model and proof: `t2Convert`; type promotion.
* Status: partial. Proved for 1 ns and 125 ps; 4 ps raises TypeError for every non-empty file.
* Theorems: `C21_t2_integer_partial`, `C21_t2_integer_negation`

### C22 T3 tallies

read_T3 accounts for every entry exactly once: okcount equals the sum of the coincidence matrix; entries = okcount + entries with an invalid side; the result does not depend on the order of the entries; the QBER lies in [0,1].

* Model and proof: `readT3` tallies as a fold; permutation lemmas.
* Status: proved.
* Theorems: `C22_t3_tallies`, `C22_t3_order`, `C22_t3_inconsistent`

### C23 Epoch names

epoch2int and int2epoch are mutually inverse on canonical lower-case names, and consecutive epochs have consecutive names; names with upper-case letters or leading zeros are not preserved. epoch2int accepts exactly hexadecimal numbers of either case (with sign, 0x, single underscores between digits and surrounding white space allowed) and returns their value.

* Model and proof: names as character lists; digits.
* Status: proved.
* Theorems: `C23_number_name_number`, `C23_name_number_name`, `C23_names_canonical`, `C23_not_preserved`, `C23_names_distinct`, `C23_accepts`, `C23_negative`, `C23_padding`

### C24 First overlapping epoch

get_first_overlapping_epoch returns the smallest epoch >= first_epoch present in both directories, together with the exact length of the contiguous run of common epochs starting there; None/0 exactly if there is none.

* Model and proof: directory listings as lists of names; sets of numbers.
* Status: proved.
* Theorems: `C24_no_overlap`, `C24_first_overlap`, `C24_exhaustive`, `C24_foreign_file`

### C25 Timestamps loaded over several epochs

get_timestamp returns the concatenation, in epoch order, of the selected epochs first+skip, ..., and for sorted epoch files the result is sorted as long as the epoch number does not cross a multiple of 2^17.

* Model and proof: `getTimestamp` over a directory map; induction over epochs.
* Status: proved. Also proved: not sorted across a multiple of 2^17 epochs.
* Theorems: `C25_concatenation`, `C25_missing`, `C25_sorted`, `C25_wrap`, `C25_t1_files`

### C26 Slicing and normalisation of timestamps

slice_timestamps returns exactly the timestamps of [start, start+duration) shifted to zero, in order; normalize_timestamps shifts all arrays by one common amount, so relative delays are preserved and all results are non-negative.

* Model and proof: `sliceTimestamps`, `normalizeTimestamps` on rationals.
* Status: proved. Exact arithmetic (C75 for the rounded one); the IndexError cases are part of the statement.
* Theorems: `C26_slice_start`, `C26_slice_window`, `C26_slice_relative`, `C26_normalize`, `C26_normalize_independent`

### C27 Binning conserves events

The histogram fed into the FFT has exactly num_bins bins, the sum of its entries is the number of timestamps, and bin k counts exactly the timestamps with floor(t/res) congruent to k.

* Model and proof: `generateBins`; counting.
* Status: proved.
* Theorems: `C27_binning`, `C27_empty`

### C28 FFT product is the circular cross-correlation

get_xcorr(generate_fft(a), generate_fft(b))[k] equals, in exact arithmetic, the number of pairs (x in a, y in b) whose bin difference is k modulo num_bins.

* Model and proof: exact discrete Fourier transform; orthogonality of characters.
* Status: proved. Exact complex arithmetic. Also proved: an odd number of bins gives one bin less.
* Theorems: `C28_correlation`, `C28_odd_length`

### C29 Delay candidates

get_timing_delay_fft returns two delays that are congruent to the peak position modulo the correlation period, one non-negative and one non-positive, the first one being the smaller in magnitude and at most half the period.

* Model and proof: `getTimingDelayFft` on lists.
* Status: proved.
* Theorems: `C29_delay_candidates`, `C29_delay_at_index`

### C30 A pure delay is found

If the second array is the first one delayed by a whole number of bins (and shifted copies of the binned data are not identical), the correlation peak is at exactly that delay and time estimate is exact modulo the period.

* Model and proof: C28 and an explicit delayed copy.
* Status: proved. Through C28, i.e. the Fourier transforms in exact arithmetic.
* Theorems: `C30_pure_delay`

### C31 Peak statistics windows

get_statistics returns a signal window containing the peak and a background that never overlaps the signal window; the significance is never negative when the centre is the maximum.

* Model and proof: `getStatistics`; list slices as in Python.
* Status: partial. Proved without centre and for integer centres inside the histogram; a float centre (as documented) raises TypeError, and without any background bin the significance raises TypeError (both proved).
* Theorems: `C31_windows_partial`, `C31_int_center_partial`, `C31_signal_has_max`, `C31_significance`, `C31_float_center_fails`

### C32 Accumulated compensation equals the composed corrections

The (dt, df) returned by time_freq (and fpfind with a precompensation) is such that (T - dt)/(1 + df) equals the composition of all corrections applied to the target timestamps during the refinement iterations.

* Model and proof: `time_freq` as a state machine with arbitrary correlation and significance; invariant over iterations.
* Status: proved. Exact arithmetic; every correlation and significance function, every number of iterations.
* Theorems: `C32_time_freq`, `C32_fpfind`, `C32_example`

### C33 Returned frequency compensation is bounded

time_freq never returns a frequency compensation of magnitude 2^-13 or larger, and the initial delay estimate never exceeds 100 ms.

* Model and proof: the same, any rounding function.
* Status: proved. For every rounding function; all delay estimates of the trace are bounded, not only the initial one.
* Theorems: `C33_bounded`

### C34 Refinement terminates

time_freq terminates for every input if the separation is more than sqrt(2) times the acquisition duration (by a relative 2^-50, i.e. beyond rounding): the resolution reaches the target after finitely many (logarithmically bounded) refinements; the initial resolution search doubles at most until 10^4 ns.

* Model and proof: the same; decreasing resolution with relative rounding errors.
* Status: proved. For every rounding with relative error up to 2^-53. Also proved: with a separation of exactly the double sqrt(2) durations the loop may run forever.
* Theorems: `C34_terminates`, `C34_iterations`, `C34_relErr`, `C34_stuck`

### C35 Precompensation scan

fpfind returns the result for the first precompensation for which peak finding succeeds, and raises only if all of them fail; with fullscan all precompensations are tested and a result is still returned if any succeeded.

* Model and proof: `fpfindScan`; list recursion.
* Status: partial. Proved without fullscan for failures that are ValueErrors; with fullscan the code always raises, and an IndexError aborts the scan (both proved for all inputs).
* Theorems: `C35_first_success_partial`, `C35_all_fail`, `C35_fullscan_negation`, `C35_other_error`

### C36 Precompensation list

generate_precompensations yields start, then start+k*step, start-k*step alternating for k = 1, 2, ... up to stop, each exactly once (ordered: the increasing arithmetic progression from start up to stop).

* Model and proof: `generatePrecompensations`; list lemmas, degenerate arguments.
* Status: proved. Also proved: two of the four documented examples are not what the code returns.
* Theorems: `C36_alternating`, `C36_ordered`, `C36_each_once`, `C36_degenerate`, `C36_doc_examples`

### C37 Inverted output

With output bit 0 the printed pair describes the inverse correction: applying the inverted compensation to the reference undoes the original one, and inverting twice gives the original values.

* Model and proof: `invertComp` in exact arithmetic; field identities.
* Status: partial. Frequency inverse and involution proved; the inverted time undoes the correction if and only if dt = 0 or df = 0 (error dt*df*(2+df)).
* Theorems: `C37_frequency_partial`, `C37_time_error`, `C37_negation`, `C37_printed`

### C38 fpfind output is accepted by freqcd

The frequency compensation printed by fpfind in units of 2^-34 (output bit 1) is always within the range accepted by freqcd.

* Model and proof: conversion between `fpfind` output and `freqcd` input; inequalities.
* Status: partial. Accepted exactly below 2^-13 - 2^-35; witnesses for values within the bound of time_freq, for inversion and for precompensation.
* Theorems: `C38_exact_partial`, `C38_double_partial`, `C38_negation`, `C38_inverted_negation`, `C38_precompensation_negation`

### C39 freqcd preserves events

freqcd outputs exactly one event per complete input event, in the same order, with the 10 least significant (detector/flag) bits unchanged.

* Model and proof: main loop of `freqcd` as a state machine over arbitrary answers of the environment, heap buffers as byte lists; refinement to a stream of events.
* Status: proved. Also proved for runs that end in an error: the flag bits written are always the first of the input.
* Theorems: `C39_events`, `C39_prefix`

### C40 freqcd with zero correction is the identity

With zero frequency correction the output is byte-identical to the complete events of the input, for every schedule of reads, until a non-zero update arrives.

* Model and proof: the same; 64-bit arithmetic with zero correction.
* Status: partial. Proved unless the first read delivers less than one event; then an uninitialised variable is added to all times (witness).
* Theorems: `C40_identity_partial`, `C40_violated`

### C41 64-bit arithmetic suffices

For events not earlier than the reference and any correction |f| < 2^21 the 64-bit computation never overflows and equals floor(floor((t-tref)/2^12)*f/2^22). Every correction accepted on the frequency channel is in this range except -2^31 (see C46), for which the computation does overflow.

* Model and proof: 64-bit vectors; ranges of the products. C41_accepted takes the range from the test in `fcorrUpdate`.
* Status: proved. C41_smallest_violated proves the last sentence, which was added after it was found that the former wording (any accepted correction) is false for -2^31.
* Theorems: `C41_no_overflow`, `C41_corrected_time`, `C41_accepted`, `C41_smallest_violated`

### C42 Corrected timestamps approximate the ideal correction

For a constant correction f each output timestamp differs from t + (t - t0)*f/2^34 by less than 3/2 unit of 4ps per read of the input stream.

* Model and proof: the stream refinement and the arithmetic of C41.
* Status: partial. Proved for schedules in which every read completes an event; witness of an error of 2^26 units in three reads otherwise.
* Theorems: `C42_approximation_partial`, `C42_violated`

### C43 Order preservation

For chronologically ordered inputs the corrected timestamps are ordered too, across read boundaries and across any sequence of accepted frequency updates.

* Model and proof: as C42; monotonicity of the corrected time.
* Status: partial. Proved for schedules in which every read completes an event, corrections in range and times up to 2^54-2^41; witnesses for partial reads and for the end of the range.
* Theorems: `C43_order_partial`, `C43_violated`, `C43_violated_at_end`

### C44 Buffers are never overrun

No read, copy or write of freqcd's main loop touches memory outside of its input, output and frequency buffers.

* Model and proof: every buffer access is checked in the model; invariant of the main loop.
* Status: proved. Main loop; the file name buffers are C54.
* Theorems: `C44_no_fault`

### C45 Frequency updates are parsed independently of pipe chunking

The sequence of frequency values applied is that of the newline-terminated lines of the update stream, irrespective of how the stream is split into reads.

* Model and proof: the frequency channel as a list of reads; `strtol` on bytes.
* Status: partial. Proved when every read that delivers data contains a line end; a read without a line end is dropped (exact rule proved, witness).
* Theorems: `C45_exact`, `C45_lines_partial`, `C45_violated`

### C46 Applied corrections are always in range

The frequency correction in force always satisfies |f| < 2^21, whatever is given on the command line or sent on the update channel; out-of-range or malformed updates leave the correction unchanged.

* Model and proof: `readint`, `scanInt`, the range checks; 32-bit vectors.
* Status: partial. For all inputs the correction is in range or exactly -2^31; -2^31 is accepted from both sources (witnesses), other out-of-range values wrap; numbers beyond 64 bits are applied as -1 or 0 (proved).
* Theorems: `C46_range`, `C46_update_partial`, `C46_malformed`, `C46_in_range_partial`, `C46_violated`, `C46_wraps`, `C46_huge`, `C46_violated_by_zero_byte`, `C46_command_line_partial`, `C46_command_line_violated`

### C47 Legacy mode

Running freqcd -x on word-swapped data gives the word-swapped output of running it without -x, for all schedules.

* Model and proof: relation between two runs, on a file and on its swapped copy.
* Status: proved. Including the way the program stops and short writes.
* Theorems: `C47_legacy`

### C48 Output at any stop is a prefix

If freqcd stops at any moment (end of input, error, signal) what it has written is a prefix of what it would have written had it continued, and consists of whole events unless a write was short.

* Model and proof: prefixes of the output.
* Status: proved.
* Theorems: `C48_killed`, `C48_stopped`, `C48_write_error`

### C49 Splitting reads does not duplicate or distort corrections

The correction applied to an event does not depend on reads that deliver only part of an event.

* Model and proof: two schedules of reads for the same input.
* Status: partial. Proved for reads that complete an event; any other read adds the previous correction once more (proved in general and by a witness).
* Theorems: `C49_split_partial`, `C49_stale`, `C49_violated`

### C50 Timestamp roll-over

When the 54-bit timestamp counter rolls over, the correction continues smoothly.

* Model and proof: 64-bit arithmetic at the end of the range.
* Status: partial. For every non-zero correction and all times the correction of the first events after the roll-over is wrong by at least 2^20 units; holds only for a zero correction.
* Theorems: `C50_stream`, `C50_violated`, `C50_smooth_partial`

### C51 Events read are written even if the update channel fails

Every complete event read from the input is written to the output even if reading the frequency channel fails.

* Model and proof: the order of reading, correcting and writing in one pass of the loop.
* Status: partial. Proved unless reading the frequency channel fails (or a write is incomplete, see C48); witness of a lost event otherwise.
* Theorems: `C51_all_written_partial`, `C51_violated`

### C52 Decimal mode

freqcd -d -f n applies trunc(n*2^34/10^10) and accepts exactly the documented range |n| <= 1220703.

* Model and proof: `fl 53` product and truncation; error bound against multiples of 1/9765625.
* Status: partial. Value proved on the documented range, acceptance for |n| < 1250000000; every other n gives -2^31, which is accepted (for n = -1250000000 the conversion itself is defined).
* Theorems: `C52_value`, `C52_range_partial`, `C52_command_line_partial`, `C52_violated`

### C53 Option parsing

The options of freqcd have the same meaning in every order and grouping (-d -f n, -f n -d, -df n), and later -f/-i/-o/-F override earlier ones. The first option that cannot be processed (-h, -f without a number, a blank file name) ends the program with its own error, whatever comes after it.

* Model and proof: `getopt.c` with its static pointer, options as a list; induction over the written form.
* Status: proved. For option words made of the known letters; a missing last argument is ignored.
* Theorems: `C53_grouping`, `C53_meaning`, `C53_order`, `C53_first_error`, `C53_terminates`, `C53_missing_argument`

### C54 File name options

A file name given with -i/-o/-F is used verbatim and never overruns its 200-byte buffer.

* Model and proof: `sscanf` into a buffer of 200 bytes; list lemmas.
* Status: partial. Proved for names of 1 to 199 characters without white space; a longer name is written beyond the buffer, a name with white space is cut (both proved).
* Theorems: `C54_verbatim_partial`, `C54_overrun`, `C54_blank`

### C55 Causality of frequency updates

A frequency update only affects events read after it; events already output are never changed, and the offset accumulated so far is kept (no jump at the moment of the update).

* Model and proof: two runs that agree up to a pass of the loop.
* Status: proved. The second theorem for schedules in which every read completes an event (for others see C49).
* Theorems: `C55_causality`, `C55_no_jump`

### C56 Test-event encoding

The event written by generate_freqcd_testcase for timestamp t is read back by read_a1 as t mod 2^54 with pattern 1, and -x produces the legacy word order.

* Model and proof: `getEvent` and the file system as a map from names to contents.
* Status: partial. Proved for the normal word order; -x has no effect because it sets a variable of main only (proved for all inputs, witness).
* Theorems: `C56_event`, `C56_file_partial`, `C56_stdout_partial`, `C56_readback_partial`, `C56_negative`, `C56_interactive`, `C56_empty`, `C56_violated`

### C57 Reading a test file leaves it unchanged

generate_freqcd_testcase FILE prints the timestamps stored in FILE and does not modify it.

* Model and proof: the same.
* Status: partial. Fails for every file name: the file is overwritten with the standard input. Proved for '-', which leaves all files unchanged.
* Theorems: `C57_violated`, `C57_stdin_partial`, `C57_cleanup`, `C57_pipe`

### C58 Common-length truncation

get_overlap returns the minimum length and the prefixes of that length of all arrays.

* Model and proof: slices of several arrays.
* Status: proved.
* Theorems: `C58_overlap`, `C58_empty`

### C59 Centred histogram

convert_histogram_fft pairs every histogram value with a delay congruent to its original delay modulo the period, in increasing order of delay.

* Model and proof: list index arithmetic.
* Status: proved.
* Theorems: `C59_centred`

### C60 Pairwise bin merging

Merging neighbouring correlation bins conserves the total number of coincidences and corresponds to integer division of the delay index by two; after j merges bin i holds the sum over original bins i*2^j .. (i+1)*2^j - 1.

* Model and proof: `mergePairs`.
* Status: proved. Also proved: an odd number of bins is refused.
* Theorems: `C60_merging`, `C60_odd`

### C61 Events out of order

An event earlier than the reference time gets the (negative) correction floor(floor((t-tref)/2^12)*f/2^22).

* Model and proof: two events in the wrong order in the arithmetic of C41.
* Status: partial. Holds exactly for corrections that are multiples of 2^12; for all others the error is at least 2^30 units (both directions proved).
* Theorems: `C61_stream`, `C61_out_of_order`

### C62 Dates and epochs

date2epoch returns the epoch that contains the given date, epoch2date the date at which an epoch starts (to the microsecond), and date2epoch(epoch2date(e)) == e.

* Model and proof: dates as microseconds since 1970 in UTC (the local time zone cancels); error bounds for the double products.
* Status: partial. Date of an epoch proved for all epochs. date2epoch proved for whole seconds that are not multiples of 2^20; it can be one epoch early at such multiples (witness 2^20), drops fractions of a second, and so does not invert epoch2date (proved for every epoch that does not start on a whole second).
* Theorems: `C62_whole_seconds_partial`, `C62_bound`, `C62_boundary_violated`, `C62_date`, `C62_roundtrip_violated`

### C63 Accuracy of the compensation

If in the last iteration of time_freq the early and the late delay differ by at most eps from the true delays of the corrected timestamps, then the returned pair (dt, df) aligns the target clock with the reference clock to within (eps + 2*eps*a/separation)*(1+2^-10) at every time a >= 0.

* Model and proof: the corrections of all iterations form one affine map; the last step leaves a residual that is bounded by the two measured delays.
* Status: proved. C63_accuracy with exact arithmetic, C63_rounded with every operation rounded.
* Theorems: `C63_accuracy`, `C63_rounded`

### C64 A pure delay is returned exactly

If the target timestamps are the reference timestamps delayed by k bins, |k| < N/2, and the histogram of delays has its peak at k in both windows, then time_freq returns dt = k*resolution and df = 0; it does return when the windows contain events and the separation is long enough.

* Model and proof: invariant over the phases of the search; the correlation counts pairs of events (C28), and its maximum after the first correction is at delay zero.
* Status: proved. Exact arithmetic, exact Fourier transforms; the significance of the peak is a parameter that must pass the threshold.
* Theorems: `C64_pure_delay`, `C64_returns`

### C65 fpfind and freqcd together

Correcting the events of the target with freqcd and the number printed by fpfind --output 2 makes them run at the rate of the reference clock (up to 3/2 units per read and 2^-35 of the elapsed time); with the inverted output (--output 3) the same holds for correcting the reference.

* Model and proof: `fpOutput` in doubles, then C42; the sign conventions of both programs meet in one inequality.
* Status: partial. The roles are exchanged: proved for the target with the inverted output and for the reference with the plain output (doubles, all schedules in which every read completes an event); the plain output doubles the offset of the target (proved for all runs, witness).
* Theorems: `C65_target_partial`, `C65_reference_partial`, `C65_doubled`, `C65_violated`

### C66 Direct correlation

Bin k of g2(arr1, arr2, start, width) is the number of pairs of events after start, by at most 2^27 ns, whose delay is below 10^7 ns and falls into bin k modulo 2^18.

* Model and proof: the sliding window over sorted times keeps the recent events and the last one; the histogram is followed as counts modulo 2^32.
* Status: partial. Exact result proved for all sorted arrays; the last event of the first array is never dropped, so longer delays are counted for it (witness).
* Theorems: `C66_exact`, `C66_counts_partial`, `C66_violated`

### C67 Aligned multi-line logging

In the human-readable format a record with details has one line per detail (and one for the message unless it is blank), in order, all with the delimiter in the same column, white space before it, and the details indented by two more blanks than the message; nothing of message or details is lost.

* Model and proof: `str.partition` and its first-occurrence property; white space cannot contain the delimiter.
* Status: proved. str.isspace and str(details) are parameters.
* Theorems: `C67_lines`, `C67_message_kept`

### C68 Log levels and handlers

verbosity2level gives warning, info, debug for 0, 1, 2 and more, and more verbosity never hides messages. After any sequence of get_logger and set_logfile calls a logger first obtained with get_logger has exactly one stderr handler, each log file once, no propagation, and the level of the last get_logger call; calls for other loggers have no effect on it.

* Model and proof: fold over the sequence of calls, separately for each name.
* Status: proved.
* Theorems: `C68_verbosity`, `C68_negative`, `C68_labels`, `C68_handlers`

### C69 Profiling is well nested

The START and END lines of profiled functions are properly nested, each pair indented by two blanks per nesting level, and the level is restored after every call, whether it returns or raises and whether the exception is caught.

* Model and proof: call trees with exceptions; an inductive grammar of nested lines.
* Status: proved.
* Theorems: `C69_profile`

### C70 Values in the statistics report

The reported duration is the time between the first and the last event in seconds to a relative error of 2^-51, and the reported rate is the number of events divided by it, rounded down.

* Model and proof: the error bounds of three roundings, for the streamed report and for the one in memory.
* Status: proved.
* Theorems: `C70_duration`, `C70_duration_raw`, `C70_inmemory`

### C71 Largest peaks

get_top_k_delays_fft returns k triples: the heights of the k largest bins, largest first, each with the two possible delays of its bin, the one nearer to zero first; k = 0 and k larger than the number of bins are refused.

* Model and proof: `argpartition` and `argsort` are arbitrary functions with the documented result; permutation arguments on index lists.
* Status: partial. Proved for k >= 2; for k = 1 the height is missing from the answer (proved for all histograms).
* Theorems: `C71_topk_partial`, `C71_one_partial`, `C71_violated`, `C71_refused`, `C71_satisfiable`

### C72 Peak statistics do not depend on scale and background

Multiplying a histogram by a positive constant and adding a constant background leaves the windows, significance and significance2 unchanged and multiplies total by the constant; scaling leaves g2 unchanged. The significance is the height of the peak above the mean of the background in units of its standard deviation, rounded to three decimals; total is the sum of the signal above that mean, and g2 the ratio of the peak and the mean; significance2 is the total in units of the standard deviation of sums of as many successive background bins as the signal has. Around the maximum, with any background bin, total, significance2, significance_raw and g2 are computed without error.

* Model and proof: affine behaviour of sums, means, deviations, maxima and the argument of the maximum; values from means and deviations given by their equations.
* Status: partial. Exact real arithmetic. significance_raw never returns a number (proved for all inputs).
* Theorems: `C72_significance_rescaled`, `C72_g2_rescaled`, `C72_values`, `C72_grouped`, `C72_defined`, `C72_single_bin`, `C72_raw_violated`

### C73 histogram_fft

histogram_fft returns the correlation histogram of the two arrays and leaves the arrays of the caller unchanged.

* Model and proof: direct evaluation of the model.
* Status: partial. No call returns (the inner call has too many arguments) and the arrays are shifted in place, both proved for all inputs; the shift is the same for both arrays.
* Theorems: `C73_violated`, `C73_inputs_violated`, `C73_shift_partial`

### C74 Input of fpfind

fpfind reads epoch directories if both are given, otherwise raw files if both are given, otherwise exits. From directories it reads, on both sides, the same consecutive epochs after the skipped ones, as many as cover the minimum duration and one more; if they are not available it fails with a missing file. If they are, and none is empty, the normalised timestamps start at zero and span at least the minimum duration.

* Model and proof: the theorems of C23, C24, C25 and C26 put together; the witness is a pair of directories with T1 and T2 files.
* Status: partial. The span is proved if both sides have events in the first half of the first and the second half of the last epoch; witness without. Durations of 36 years and more overflow a 32-bit number of epochs: then no epoch is read and an IndexError ends the program.
* Theorems: `C74_choice`, `C74_required`, `C74_epochs`, `C74_insufficient`, `C74_no_overlap`, `C74_span_partial`, `C74_violated`, `C74_overflow_violated`

### C75 Floating-point rounding does not change slices and histograms

With the float128 arithmetic that is used, slice_timestamps and normalize_timestamps return exactly the shifted timestamps for inputs on the 1/256 ns grid, arr // time_res is exactly the integer part of the exact quotient, and hence the histogram fed into the FFT puts every timestamp in its exact bin; for other inputs a slice can only lose timestamps within a rounding error of its end.

* Model and proof: Model/Rounded has slice_timestamps, normalize_timestamps and generate_fft with every float operation rounded, including numpy's floor division and remainder as implemented in npymath (fmod, two rounded operations, correction by one).  The rounded quotient is shown to be within 1/4 of the right integer, so the final correction finds it; differences of grid values have at most 62 bits and are exact.
* Status: proved. The exact results of C26 and C27, for the rounded operations of numpy.  The duration of C75_slice_error has to be representable (any float is).
* Theorems: `C75_floor_divide`, `C75_binning`, `C75_slice`, `C75_slice_error`, `C75_normalize`

### C76 Double precision is enough for the accumulated compensation

The accumulated time and frequency corrections that time_freq returns describe the successive corrections applied to the target timestamps up to n (|t| + n 101 ms) 2^-49 for n iterations, that is 0.04 ns for 20 iterations and 1000 s, when every scalar and array operation is rounded.

* Model and proof: Invariant of the loop of time_freq: factor times corrected timestamp plus delay equals the original timestamp up to an error that grows by six roundings per iteration; the limits enforced by the code (100 ms, 2^-13) bound the magnitudes.  C63_rounded combines it with the residual bound of C63.
* Status: proved. C76_arithmetic shows that doubles and extended precision satisfy the hypothesis; C63_rounded is the end-to-end accuracy of C63 with these errors.
* Theorems: `C76_rounded`, `C76_fpfind`, `C76_arithmetic`, `C76_example`, `C63_rounded`

### C77 Detuned test files hold the times of a detuned clock

detune keeps exactly the events of the selected channel, in order, and gives each of them the time t0 + (t - t0)(1 + ratio) + offset up to 2^-53 of the scaled interval and 2^-62 of the time; generate_freqdetuneg2 writes the channel 1 events of its input file unchanged, and for each detuning of 1e-10 to 1e-3 a readable file with the channel 4 events of the clock detuned by that amount, up to the 1/256 ns resolution of the format.

* Model and proof: Model/Detune mirrors generate_freqdetuneg2.py: the event filter, the five rounded operations and the nine files written.  The spec is the time shown by a faster clock.  The script theorem combines it with reading (C03), text output (C06) and the truncation on writing (C78).
* Status: proved. The factor 1 + ratio is a double, which limits the accuracy to 2^-53 of the interval (0.1 ps for 18 minutes).
* Theorems: `C77_detune`, `C77_identity`, `C77_script`

### C78 Writing arbitrary times rounds them down to the resolution of the file

write_a1 of any non-negative floats (not necessarily on the 4 ps grid), in any unit, stores every time rounded down to a multiple of 4 ps with its pattern unchanged, so that read_a1 returns times that are early by less than 4 ps, never late.

* Model and proof: The product with 256/resolution is an exact scaling by a power of two, so the conversion to an integer truncates the exact value; the result is then read back by C03.
* Status: proved. Complements C03, which covers times on the grid.
* Theorems: `C78_write_floor`

### C79 fpplot aligns the timestamps with the result of fpfind

With the same files and options and at most as many epochs as fpfind reads, fpplot works on the beginning of the timestamps that fpfind used, with the same time reference; given the frequency (in ppm) and the time printed by fpfind it applies the same correction up to half a nanosecond and rounding errors, so both events of a pair end up within the accuracy of the search of each other.

* Model and proof: Model/Plot mirrors main of fpplot.py up to the arrays given to the (external) histogram function.  The epochs read are a prefix, so the first timestamps and therefore the time reference agree; the correction is compared with that of fpfind rounding by rounding, and C79_aligned adds the accuracy of C63_rounded.
* Status: proved. fpplot takes ppm while fpfind prints the plain ratio; the theorem multiplies by 10^6.  Without any events for fpplot the program ends with an IndexError.
* Theorems: `C79_input`, `C79_correction`, `C79_arrays`, `C79_aligned`

### C80 Rounding to significant figures

utils.round with sf returns the number correctly rounded (half to even) to sf significant decimal digits: an int for an int, for a float a text that denotes that value; without sf it rounds to dp digits after the point, or to ndigits if dp is not given.

* Model and proof: Model/Decimal is CPython's formatting with g and f and float(text); Spec/Decimal defines numerals and rounding to significant digits independently (nearest multiple of a power of ten).  The digits produced are shown to be a numeral for the rounded value, reading it back gives the nearest double, and for at most 15 digits rounding that double again gives the same value (error 2^-53 relative against half a unit of the last digit, with the case of powers of ten separate).
* Status: partial. Proved for ints below 2^53 and any number of digits, for floats up to 2^1023 with at most 15 digits.  Beyond, witnesses: round(10**23, sf=1) is 99999999999999991611392, 16 digits are rounded twice, and near the largest double the result is 'inf' or an OverflowError.
* Theorems: `C80_int_partial`, `C80_float_partial`, `C80_digits`, `C80_whole`, `C80_int_violated`, `C80_float_violated`, `C80_overflow_violated`

### C81 Description for the command line help

parse_docstring_description drops everything from the first 'Changelog:', turns the first run of newlines into an empty line and every other run of newlines into one space, and changes nothing else.

* Model and proof: Model/UtilsText follows the four substitutions.  Spec/Text describes the text by its runs of newlines.
* Status: partial. Proved for descriptions without '~'; the placeholder text itself is replaced by newlines (witness).
* Theorems: `C81_description_partial`, `C81_placeholder_violated`

### C82 Messages of failed searches

The text of PeakFindingFailed is the message alone if no values were given, otherwise the message and in parentheses exactly the given values, in a fixed order, separated by commas, each correct to the decimals shown, the frequency in ppm.

* Model and proof: The six optional values are shown one by one; each numeral is compared with the value (Shown.As).
* Status: proved. Formatting of floats is correctly rounded as in CPython.
* Theorems: `C82_text`

### C83 Layout of the command line help

Help texts that start with 'rawtext|' are shown with exactly the lines they contain, all others as argparse wraps them; an option is shown with all its names, its arguments once, at the end.

* Model and proof: Induction over the text for splitlines; the option names by cases.
* Status: proved. Wrapping by the base class is a parameter.  Actions without option strings are not modelled (the code prints them to the terminal while formatting).
* Theorems: `C83_raw_lines`, `C83_wrapped`, `C83_invocation`

### C84 Conversion between all formats

parse_timestamps converts a file of any format (a0, a1, a2, normal or legacy) to a file of any format that holds exactly the events that pass the filters; no other file changes; streaming and --inmemory give the same file; converting through an intermediate format gives the same as converting directly; without a destination or source ValueError is raised and nothing changes.

* Model and proof: Model/RawMain follows `main` on a map from names to contents; the writer empties the destination before the reader opens the source.  Spec/RawMain: `fileOf` (file of given events), `filtered`.  Reading any format gives the raw times (from C03-C08), filtering batch by batch is filtering the list, writing gives `fileOf` (C01, C05, C06, C07).
* Status: partial. Missing: times the a0 and a2 readers cannot represent (C05, C06), timing filters on times from 2^53 on (C10), files of fewer than two lines with --inmemory, and a file converted onto itself while streaming, which is emptied without an error (proved for every file).
* Theorems: `C84_convert_stream_partial`, `C84_convert_inmemory_partial`, `C84_inplace_violated`, `C84_chain`, `C84_checks`, `C84_inmemory_atomic`

### C85 Statistics of any file

parse_timestamps -p changes no file and reports, for a file of any format, the number of the events that pass the filters, the counts per detector, of several and no detectors, the first and the last time, and the patterns; streaming and --inmemory report the same. It ends with OverflowError exactly if some event passes and the first and last of them have the same time.

* Model and proof: The report is compared with `Describes`, which counts on the raw events; at most one report describes a list of events.
* Status: partial. With --inmemory and no event left after filtering, IndexError (proved for every such case).
* Theorems: `C85_stream`, `C85_exit`, `C85_inmemory_partial`, `C85_readonly`, `C85_unique`

### C86 The printed result can be read back exactly

The line fpfind prints is the frequency (a decimal text of the double, or an integer number of units 2^-34), then, unless removed by -V, one tab and the time as an integer, and a newline, with no other blanks; frequency, its unit and time can be recovered from the line without loss, and Python's float() of the text is the same double.

* Model and proof: `reprFloat` tries 1 to 17 significant digits.  Seventeen are enough (`fl_sig17`); the layout is proved to denote the value (from C80's `layoutG_spec`).  `Printed` in Spec/FpText is a relation between result and line; `C86_unique` shows it determines the result.  C86_program is about every line that `main` prints.
* Status: proved.
* Theorems: `C86_line`, `C86_unique`, `C86_float`, `C86_output`, `C86_program`

### C87 fpfind's output as input of freqcd

Lines printed by fpfind and sent to the frequency channel of freqcd set its correction to the last printed integer frequency below 2^21 units; the same text given to the option -f gives the same correction, and text that is not an integer is refused.

* Model and proof: The digits are translated to bytes; the line is then a `Numeral` of Spec/Freqcd, and C45 and C53 give the correction.
* Status: partial. Missing: reads without a line end, which freqcd drops (C45). -f takes the beginning of a text: 3.33e-06 as 3 units (proved). On the channel, lines with a time or a fraction are ignored, as the theorems say.
* Theorems: `C87_line`, `C87_channel_partial`, `C87_option_partial`, `C87_option_violated`

### C88 A whole run of fpfind

fpfind prints one line: the result of the first precompensation for which the search succeeds, combined with that precompensation; without precompensation exactly the result of the search, with a frequency below 2^-13; if the delays of the last iteration are right up to eps, the printed numbers correct the target clock up to eps, rounding and 1/2 ns. If no search succeeds ValueError is raised; the exit status is 1 exactly if inputs are missing; every run with a separation of at least 1.5 ends. --precomp-fullscan prints the result too.

* Model and proof: `fpMain` composes the models of input (C74), precompensations (C36), search (C32-C34), scan (C35) and output (C86), with one fuel for all loops.  Spec/FpRun: `Search` (the search with the parameters the command line means), `precompensated`, `Input`.  `C88_plain` needs that 1 + (f - 1) gives back the double f near 1.  `C88_accuracy` uses C63 in rounded arithmetic.
* Status: partial. With --precomp-fullscan nothing is ever printed (proved). Termination assumes that reading the input ends: always for timestamp files, for epoch files see C20 and C74.
* Theorems: `C88_first`, `C88_printed`, `C88_plain`, `C88_accuracy`, `C88_no_peak`, `C88_status`, `C88_terminates`, `C88_fullscan_negation`

### C89 A pure delay is found exactly in floating point

If the target timestamps are the reference timestamps plus a whole number of bins (at most 100 ms), all multiples of 1/256 ns, and the correlations have a clear peak, time_freq returns exactly this delay and the frequency 0, although every operation is rounded and the FFT correlation may be off by almost half an event pair in every bin.

* Model and proof: the loop argument of C64 is a lemma about any arithmetic in which the correlations find the delay (`delay_core`, `delay_no_error`); in floating point they do: slices of grid values are exact, bins are exact (C75), whole counts with an error below 1/2 keep a strict maximum, and the time axis is only used at the delay itself and at zero.
* Status: proved. The significance of the peak is a parameter that must pass the threshold. Peaks are required to be strict, also in the correlations of the corrected data with the reference.
* Theorems: `C89_pure_delay`

### C90 The output formats of fpfind

The four bits of -V act independently: bit 0 exchanges the roles of reference and target, frequency 1/(1+df)-1 and time -dt(1+df), which is an involution; bit 1 prints the frequency as the nearest integer in units of 2^-34; bit 2 removes the time; bit 3 prints it as the nearest integer in units of 1/8 ns instead of 1 ns. Rounding of doubles adds nothing without bit 0 and a relative error of at most 2^-50 with it.

* Model and proof: `ShownAs` in Spec/FpOutput says for each bit what is shown, with an error bound; multiplications by powers of two are exact, the two roundings of the exchange are bounded with the relative error of doubles.
* Status: proved.
* Theorems: `C90_exact`, `C90_double`, `C90_exchange`

### C91 T1 epoch files and a1 files hold events alike

A T1 epoch file whose body is whole non-zero 8-byte events, ended by a zero event or the end of the file, and a legacy a1 timestamp file with the same body are read as the same events, in every resolution and in integer or fractional mode; with full_epoch (integer modes) the times of the T1 file are later exactly by the part of the epoch above its lowest 17 bits.

* Model and proof: the body is split into 64-bit lines; both readers are known on such lists (C14, C02), so the conversions of one line are compared, mode by mode.
* Status: proved. full_epoch in fractional mode is C15.
* Theorems: `C91_same_events`

### C92 Headers of epoch files are read and checked

The header readers return the stored fields (32-bit, little-endian, signed except epoch, length and all of T4) and raise struct.error for shorter files. They warn exactly if the tag is neither n nor 0x10n, naming the type n expected, and if the file name is not the epoch in lower-case hexadecimal without leading zeros; files from write_T1 never give a warning.

* Model and proof: the readers with their warnings as a list in Model/EpochHead; names are compared with the canonical names of C23; `headField` in Spec/EpochHead gives the bytes of a field without the byte functions of the model.
* Status: partial. read_T1_header says "not a Type2 header file" for every file that is not of type 1 (proved). Names padded by date2epoch warn for every epoch below 2^28 (proved).
* Theorems: `C92_fields`, `C92_warnings_partial`, `C92_type1_violated`, `C92_written`, `C92_padded`

### C93 The threshold for the first peak

A result of time_freq starts from the finest acceptable peak: the first delay is that of the highest bin of the early correlation, with neighbouring bins added up j times, for the smallest j whose significance is at least the threshold (and nonzero), at a resolution of at most 10^4 ns unless j = 0. If there is no such j the search raises ValueError (PeakFindingFailed), so that the next precompensation is tried. The threshold has no influence on later iterations.

* Model and proof: invariant of the loop saying which merging the search is at and that all finer ones were rejected; `merged` (Spec/FpThreshold) gives the merged histogram by block sums, equal to repeated merging by C60.  For failure, the search is run up to the first merging that is not followed by another.
* Status: proved. The significance function is a parameter that returns a number (a NaN would be treated as rejected).
* Theorems: `C93_result`, `C93_fail`, `C93_only_first`, `C93_doubles`

### C94 freqcd as a program: input, output, exit status

freqcd corrects the events of the file given with -i (or of the standard input) into the file given with -o (or the standard output) and touches no other file. On a regular file of whole events in order of time, without frequency channel, it ends with status 0 and the output has the same number of events, the same detector bits, and each time t moved by (t-t0)*n/2^34 up to 1.5 units per block of 1024 events, n being the argument of -f. A run that cannot start (wrong options, missing files) has a status other than 0 and leaves all files as they were; a status of 0 means that everything was processed.

* Model and proof: `freqcdMain` (Model/FreqcdProgram) is options (C53), opening of the files in the order of the program, main loop and exit status; `FullRound` is the answer of the kernel for regular files, for which no read completes no event, so that C39 and C42 apply.
* Status: partial. If the frequency channel cannot be opened the output file is emptied nevertheless; with the input file as output file its contents are lost with status 0; errors of reading and writing end with status 0 (all proved). File names that overrun their buffer are C54.
* Theorems: `C94_started`, `C94_regular_file`, `C94_not_started_partial`, `C94_channel_violated`, `C94_same_file_violated`, `C94_status_violated`

### C95 The exact output of freqcd, and the test pipeline

On a file of events in order of time freqcd with correction n writes, for blocks of 1024 events, each event with its detector bits and the time t + x + floor(floor((t-r)/2^12)*n/2^22) modulo 2^54, where r is the last time of the block before, x the move of that event (r the first time and x = 0 at the start). So generate_freqcd_testcase.py -t ... | freqcd -f n | generate_freqcd_testcase.py - prints for up to 1024 times t + floor(floor((t-t0)/2^12)*n/2^22), among them the numbers of the test in the repository. The output does not depend on how the input arrives or on uninitialised memory.

* Model and proof: induction over blocks of 1024 events on the machine without buffers (`exact_run`); `moveOf` and `correctedBlocks` (Spec/FreqcdExact) are floor formulas over the rationals; the pipeline is composed of C56, C94 and C57.
* Status: partial. For reads of a regular file. From a pipe the result depends on the reads: with one event per read the numbers of the test in the repository come out differently (proved).
* Theorems: `C95_exact`, `C95_one_block`, `C95_pipeline`, `C95_end_of_range`, `C95_reads_violated`

### C96 Exchanging reference and target changes the sign of the delay

get_xcorr with the arrays exchanged is the same correlation read backwards, and get_timing_delay_fft then returns both delays with the opposite sign. For a target that is the reference delayed by a whole number of bins, time_freq returns this delay, with reference and target exchanged its negative, and in both cases no frequency offset.

* Model and proof: the double sum of pairs is exchanged (`pairsAt_swap`), so a peak at k becomes one at -k (`peak_swap`); C28 gives the correlation and C64 both runs of time_freq.
* Status: partial. With the exact Fourier transform.  For a delay of half of the bins, and for two equally frequent delays, both orders give the same sign (proved).
* Theorems: `C96_mirrored`, `C96_exchange_partial`, `C96_time_freq`, `C96_half_violated`, `C96_tie_violated`

### C97 What the result of fpfind does not depend on

For timestamp files, what fpfind prints (or the error it ends with) depends on the times of the events only, and only up to a shift common to both files: the same line is printed if the clocks were started at another time, whatever the detector patterns are and in whichever word order (-X) the files are stored. Events of one file before the first event of the other are ignored as long as the file has started by then.

* Model and proof: the readers return the exact times (C03_modes_exact), for which the normalisation does not round (C75_normalize) and commutes with a shift (`fromStart_shift`); the rest of the run is a function of its result.
* Status: partial. For skipped durations (-t) of a whole number of nanoseconds below 2^52, the default 0 among them.  For others the start is rounded by an amount that depends on the absolute time, and events are kept or lost (witness).
* Theorems: `C97_invariant_partial`, `C97_early_reference`, `C97_early_target`, `C97_skip_violated`, `C97_shell`, `C97_shell_instance`

### C98 Runs in both directions give inverse corrections

time_freq with reference and target exchanged returns the inverse correction, up to the accuracy of both runs: if the last delays of both runs are those of the clocks up to eps and eps', then (1+df)*(1+df') is 1 up to about 4(eps/sep + eps'/sep') and dt'*(1+df)+dt is 0 up to about eps + eps' + 4|dt|eps/sep.

* Model and proof: the accuracy of each run (C63_rounded at the times 0 and sep) bounds the relative error of its frequency and the error of its time (`found_numbers`); the rest is algebra of the two affine maps.
* Status: proved. The time relation in the tests of the repository, dt'*(1+df')+dt, is not 0 but dt*(1-(1+df')^2) up to the same accuracy (proved): 4 ns for clocks 20 us and 100 ppm apart, while the tests allow 1 ns.
* Theorems: `C98_inverse`, `C98_test_formula`, `C98_test_violated`

### C99 Order and resolution of full epoch times

read_T1 with full_epoch never reverses the order of events, within a file and between files of different epochs, in any output mode: what it returns is a non-decreasing function of the full time (epoch and time in the epoch). Times that differ by one unit of the resolution (integer modes) or by 125 ps (extended precision floats) are returned as different numbers.

* Model and proof: the value is one rounding of the full time (`t1Convert_full`), rounding is monotone and its error at most 16 units below 2^69.
* Status: partial. In fractional mode proved for differences of 33 units of 4 ps; two times 32 units (125 ps) apart can be rounded to the same number (witness).
* Theorems: `C99_order_partial`, `C99_125ps_violated`

### C100 Epoch files and timestamp files give fpfind the same events

A stream of events in order of time, cut into epochs and written with write_T1 (or encoded as T2 files, for times at multiples of 125 ps), is loaded by get_timestamp with exactly the times that read_a1 gives for a timestamp file of the events of these epochs. So fpfind -D ... -d ... prints the same as fpfind with two timestamp files of the events of the epochs it uses.

* Model and proof: the filters of consecutive epochs of a sorted list concatenate to the filter of the range (`flatMap_eventsOf`); each file is read as in C14 and C18, and the input of fpfind is determined by C74_epochs.
* Status: proved. An event without detector bits at a time divisible by 2^54 looks like the terminator of a T1 file (C14) and is excluded.
* Theorems: `C100_t1`, `C100_t2`, `C100_fpfind`

### C101 Updates written to the frequency channel before they are read are all applied

If reads of the frequency channel return as much as freqcd asks for (a regular file, or a FIFO whose writer is ahead), a text of lines of at most 98 characters is read to its end, and then every complete line has been applied in order, wherever the 99-byte reads cut the lines (the test in tests/freqcd/test_freqcd_update.py ends with 34000). Whatever has been lost before, the last complete update counts as soon as no read without line end follows the line end before it.

* Model and proof: invariant of the channel during full reads (`ChannelInv`): the partial line and what is left in the channel are the lines still to be applied; a full buffer of 99 bytes contains the end of the next line.
* Status: proved. A line of 99 characters or more does not fit in the buffer: its beginning is dropped and its end taken for a line (witness).
* Theorems: `C101_all_applied`, `C101_last_counts`, `C101_test`, `C101_long_violated`

### C102 Corrections compose and can be undone

The output of freqcd with the correction n1, given to freqcd with the correction n2, is the input corrected by (1+n1/2^34)(1+n2/2^34) relative to the first event, up to 3/2 units of 4 ps per read. With n2 the whole number nearest to the inverse of n1, every time comes back up to that and 2^-35 of the time elapsed.

* Model and proof: C42 and the bounds of C43 in one invariant give the exact integer times of the first run (`run_no_wrap`), which are the input of C42 for the second run.
* Status: proved. For runs with reads that do not complete an event see C42.
* Theorems: `C102_composed`, `C102_undo`

### C103 The delay is found among noise, with jitter and drift

Let pairs of events of both arrays be D apart up to delta (jitter, drift within the window), among any other events. If each bin of the correlation that is not near D counts fewer pairs than a w-th of their number, where they can spread over w bins, then the delay of get_timing_delay_fft after generate_fft and get_xcorr is less than one bin and delta away from D, provided D is within half a correlation period.

* Model and proof: a pair at distance D up to delta has one of w consecutive bin differences (`near_bin`), so one bin near D has a w-th of all such pairs (`near_share`) and the maximum cannot be elsewhere.
* Status: proved.
* Theorems: `C103_found`, `C103_rounded`, `C103_count`

### C104 Accuracy of a run with noise, jitter and drift

If a run of time_freq with at least one refinement returns (dt, df), and in both windows of its last iteration, at the resolution r used there, the true coincidences of clocks with the relative frequency offset phi and the offset tau stand out of the noise up to delta, then (dt, df) maps every time of the target clock to within about r+delta of the reference time, plus 2(r+delta) for each separation of the windows.

* Model and proof: invariant of the run that names the correlations each entry of the history comes from (`run_correlations`), C103 for both windows of the last iteration, and C63_rounded.
* Status: proved. The condition refers to the target times as corrected before the last iteration. When runs get to the final resolution is C105.
* Theorems: `C104_accuracy`

### C105 The refinements of fpfind get to the requested resolution if the coincidences stand out

If the true coincidences stand out in the early and late windows of every iteration (in the first one after any number of mergings of neighbouring bins, as the search for the first peak makes them), time_freq does not stop before the requested resolution: it returns a result, its last iteration is one at the target resolution, and the result maps every target time to within about that resolution plus the jitter (and twice this per separation of the windows) of the reference time.  This needs the delay and frequency found first to be more than their errors, or these errors to be below 9 ns and 10^-8: otherwise the guard rails can reject a right correction, and the coarse result of the first iteration is returned as if it were final.

* Model and proof: termination by C34; the search for the first peak by `reach_search` (C93), where the position of the merged peak is found from the pairs in blocks of bins (`merged_argmax`); invariant of the run (`ConvInv`): what is left of both delays is at most 1.02 times the first error, the history is one of correlations at the resolutions of the iterations, rounding as in C76; `iteration_accepted` excludes every other way to stop; then C63_rounded for the last iteration. Conditions in `Spec.ClearRun`, met by a concrete run with a refinement.
* Status: partial. Proved under the conditions of ClearRun (coincidences stand out in every iteration, in the first one after any number of mergings of bins, offsets in the searched ranges with a margin, guard rails respected). The claim without the condition on the guard rails is false: C105_violated is a run in which both iterations see the right delay of 12 ns, but the second one is rejected and 0 is returned.
* Theorems: `C105_converges_partial`, `C105_violated`

### C106 The line fpfind prints is a right correction if the coincidences stand out

If the coincidences stand out in every iteration of the search for some precompensation (under the conditions of C105, for the clock after that precompensation), and the searches for the precompensations tried before it fail, then fpfind ends and prints a line with a frequency and a time; correcting target times by these two numbers gives reference times, up to about the final resolution, the jitter, accumulated rounding and half a nanosecond, plus twice resolution and jitter per separation of the windows.  (Output of frequency and time without further options.)

* Model and proof: C105 for the precompensated times, C88_first for the scan and the line, `combine_error` for the rounding errors of combining precompensation and result, C86 for the text.  The instance is a run on two files of 11 events, from bytes to the printed line.
* Status: proved. The conditions are those of C105 (ClearRun), which exclude runs stopped by the guard rails.
* Theorems: `C106_printed`

### C107 A failed write_T1 leaves no readable file

If write_T1 raises after it has opened the file, it does so with struct.error or TypeError, and read_T1 raises on the file left behind, in every mode. For integers, write_T1 raises struct.error at the first event whose word (17 bits of the epoch, then the time, then the detectors) does not fit into 64 bits, after storing the words of the events before it; if all fit, the file holds the words of all events in order.

* Model and proof: the loop writes 8 bytes per event before the exception, fewer than the header announces (`t1EventsNp_shape`), so the count is wrong wherever a zero word stops the reader (`readT1_short`).
* Status: proved. With numpy 1 (pyproject.toml) for numpy elements.
* Theorems: `C107_failed_write`, `C107_stored`, `C107_refused`

### C108 write_T1 refuses events it cannot represent

If write_T1 succeeds, every time fits into the 37 bits of an epoch and every detector pattern into 4 bits, so that no event is stored altered.

* Model and proof: C107 and the reader on arbitrary words (`readT1_words`).
* Status: partial. Violated: the words are sums, so values out of range spill into the neighbouring bits. Proved instead: exactly when write_T1 succeeds and what is read back. Detectors 16 to 1023 lose their upper bits; detectors above that change the time; times of another epoch are stored with that epoch as prefix.
* Theorems: `C108_success_iff_partial`, `C108_read_back_partial`, `C108_altered`, `C108_violated`

### C109 Events from the readers can be written as T1 files

The timestamps returned by read_a1 and read_T1 (arrays of numpy integers or floats), and numpy integer arrays made from them, can be given to write_T1, with the result for the same Python integers.

* Model and proof: `write_first_type_error` for the types whose sum with a Python integer is a float; for int64 the wrapped word is the word minus 2^64 in the upper half (`t1EventNp_i64`).
* Status: partial. Violated: every non-empty list from read_a1, and from read_T1 except in its mode with Python integers, raises TypeError after the header was written. int64 arrays work in every first half of 2^17 epochs, are refused in every second half, and wrap around silently for times of 54 bits or more.
* Theorems: `C109_a1_violated`, `C109_t1_violated`, `C109_object_partial`, `C109_int64_partial`, `C109_int64_violated`, `C109_int64_wraps_violated`

### C110 The text of the statistics report

The lines printed by print_statistics_report show name and size of the file; the number of events, of events per channel, with several and with no channel, right-aligned in a column as wide as the total; duration, start and end in seconds with nine decimals, correct to half a nanosecond and a relative 2^-50; the rate rounded down; and the patterns in increasing order. Without events there is only the total. An exception ends the text exactly when a duration of zero or missing times do not allow a rate.

* Model and proof: `formatF_spec` and `natDigits_spec` for the numerals, `scaled_err` (C70) for the times, C12 for the counts of a stream.
* Status: proved. Lists of numpy integers are printed as by numpy 1.
* Theorems: `C110_lines`, `C110_stream`, `C110_empty`, `C110_failures`

### C111 fpfind uses only the beginning of the recordings

Once both timestamp files reach beyond the separation plus twice the duration of the correlations (the target by a relative 2^-11 and 100.1 ms per iteration more, and scaled by the precompensations), any later events appended to the files change neither the line fpfind prints nor the error it ends with.

* Model and proof: both searches run in lockstep (`runLoop_rel`); `FarAt` keeps the appended target times beyond the windows through all corrections, `duration_long` bounds the windows.
* Status: proved. For skipped durations (-t) of a whole number of nanoseconds below 2^52, as in C97.
* Theorems: `C111_time_freq`, `C111_fpfind`

### C112 The stand-in script compiles freqcd and runs it in its place

In an installed library, the first call of freqcd by a full path compiles freqcd.c into the file that was called and then runs it with exactly the arguments of the call; file names among them mean what they mean for every later call. If the compiler fails or cannot be run, nothing is run and the status is 1.

* Model and proof: `words_plain` and `words_first` for the splitting, `root_installed` for the directory; relative names by C94 in two directories (`inDirectory`).
* Status: partial. Proved for paths without blanks. Violated: the first run has the library as its working directory, so relative file names mean other files than in later calls; a path with a blank is cut there; a call by a relative path does not replace the called file.
* Theorems: `C112_runs_partial`, `C112_only_compiled`, `C112_replaces_partial`, `C112_relative_violated`, `C112_blank_violated`

### C113 A result of fpfind rests on events and peaks in both windows

If time_freq returns a result, then in every iteration it comes from both recordings have events in the early and in the late window, which are at most twice as long as asked for; so fpfind prints nothing for recordings that end or pause before the late window. The late peak, from which the frequency is computed, is as significant as demanded of the first peak.

* Model and proof: invariant `WindowsInv` over the steps of the search; `duration_le` bounds the windows for all roundings.
* Status: partial. The part about events is proved. Violated: the significance of the late peak is never looked at; a run whose late correlation is flat (significance 0) returns a frequency that is wrong by 3e-6.
* Theorems: `C113_events`, `C113_printed`, `C113_unchecked`, `C113_late_violated`

### C114 Filters of parse_timestamps add up

Filtering the output of parse_timestamps once more gives the same file as one call with both filters: time windows intersect, a pattern filter and a time window may be applied together or in either order, the same pattern filter a second time changes nothing, two masks keep the channels common to both, and two inverted masks drop the channels of both. Only pattern filters of different kinds depend on their order.

* Model and proof: `filtered_twice`, from `patterns_fold` (all patterns by evaluation) and `window_inter`; C84 for the three runs.
* Status: proved. For conversions without -p and without loading the whole file, as in C84.
* Theorems: `C114_two_runs`, `C114_exchange`, `C114_order_matters`

### C115 Numerical Fourier transforms count coincidences accurately

If the Fourier transforms used by generate_fft and get_xcorr have the relative error eta (in the root mean square) and products of coefficients at most as much, then every bin of the correlation is off by less than half a pair of events as long as 18 eta times the number of all pairs of events is below 1 (about two million events on each side for eta = 1e-14); so the delay found is that of the exact counts. Products of doubles have a relative error of at most 2^-50.

* Model and proof: Model/FftNumeric has the transforms as a parameter; Parseval (`parseval`, from C28), Cauchy-Schwarz for the products of the spectra (`product_error`), and the norm of the exact inverse transform of the computed spectrum (`numeric_error`).
* Status: proved. The error of the transforms themselves (scipy.fft) is a parameter.
* Theorems: `C115_accurate`, `C115_product`, `C115_found`

### C116 Damaged text files are refused

A text file in the a0 or a2 format that contains a character which is no part of a hexadecimal number, within the 8 or 16 columns of a line that are read (streamed files: anywhere), is not read without an exception (except # in files read at once, which begins a comment). A byte that is no ASCII character ends parse_timestamps with ValueError. A file that was cut short returns no event that was not written: if only the last newline is missing, all events are read, otherwise an exception is raised.

* Model and proof: `pyInt16_foreign` through the grammar of `int(s, 16)`; `pyInt16_take` for digits cut off; `streamLoop_last` is the loop over buffers with a last unit that is shorter.
* Status: partial. Foreign characters, missing last newlines, and a0 files cut in the first line of an event are proved. Violated: a cut inside the only line (a2) or the second line (a0) of an event is not noticed, and an event with a time that is too early is returned. Stated for times below 2^53 units of 4 ps, see C05 and C06.
* Theorems: `C116_characters`, `C116_characters_stream`, `C116_bytes`, `C116_cut_a0_partial`, `C116_newline_a0`, `C116_newline_a2`, `C116_cut_a2_violated`, `C116_cut_a0_violated`

### C117 A failed conversion leaves a beginning of the result

If parse_timestamps ends with an exception while converting a file in batches, then the output file is exactly what the conversion of a beginning of the input, some number of whole batches of 100000 events, gives without an exception, and no other file is changed. If the input consists of events followed by something that is no event, these are the events of all whole batches before it; with -p no report is printed.

* Model and proof: `streamLoop_error` splits the loop over buffers at the failing one; `sreadFmt_damaged` finds this buffer for a file of events with something else behind.
* Status: proved. Conversions in batches; with --inmemory nothing is written (C84_inmemory_atomic). Up to 99999 intact events before the damage are not written.
* Theorems: `C117_beginning`, `C117_damaged`, `C117_no_report`

### C118 Joined files are joined recordings

Reading or converting a file that was joined from two files of events gives the events of the first file followed by those of the second one, and the counts in the report of parse_timestamps are the sums of those of the parts.

* Model and proof: `reshape2` of joined words; conversion and report through C84 and C85 on both parts, since `filtered` distributes over joining.
* Status: partial. Proved for a1 files read at once and for all formats read in batches (conversion and report; files of a2 events on one side of 2^53 units). Violated for a2 files read at once: two readable files on different sides of 2^53 units of 4 ps give a joined file that raises TypeError.
* Theorems: `C118_read_a1`, `C118_convert_partial`, `C118_report`, `C118_a2_violated`

### C119 fpfind does not depend on the order of events

Putting the events of the timestamp files given to fpfind in another order changes neither the line printed nor the exception, as long as the first and the last event of each file keep their places and the last one is the latest. So events that the timestamp card delivers slightly out of order do no harm.

* Model and proof: lock-step of two searches (`step_perm`): slices of permuted arrays are permuted, histograms of them are equal.
* Status: proved.
* Theorems: `C119_fpfind`, `C119_time_freq`, `C119_first_matters`

### C120 Recordings with enough coincidences give the right correction

If in the windows used by fpfind the true coincidences outnumber the accidental pairs around every other delay by the factor over which they may be spread, the first peak is accepted, the clock offsets are in the searched ranges and the guard rails are respected, then fpfind prints the right correction, up to the final resolution and the jitter, whatever values the refinements find on the way. These are conditions on the recordings and the two clocks only: events near the edges of the windows, that may enter or leave them during the refinements, count for no coincidence but for every accidental pair. Correlations computed with Fourier transforms of relative error eta are accurate enough, also after j mergings of bins, if 18 2^j eta times the number of all pairs of events is below 1.

* Model and proof: `prominent_stands` compares the windows of corrected times with the recorded ones, since the corrections are affine up to rounding (`affine_corrections`); induction over the history (`input_near`) with the checks of C105 (`iteration_accepted`).
* Status: proved. The conditions are ClearInput: those of C105, with the condition on the iterations after the first one replaced by one on the recorded events (Prominent). That the first peak is accepted is a condition on the significance.
* Theorems: `C120_clear`, `C120_converges`, `C120_printed`, `C120_numerics`

### C121 The frequency correction is applied at every event rate

With a constant correction n, freqcd changes the distances of events by the fraction n/2^34, up to a few units of 4 ps, however fast the events follow each other and in however many reads they arrive.

* Model and proof: as C95 for reads of any number of whole events (`Arrives`): induction over the reads gives `correctedBlocks`; its moves are 0 or -1 if the distances are small (`moveOf_zero`, `moveOf_minus_one`), and add up to the right value within 3/2 units for every read.
* Status: partial. The exact output is proved. Violated: the correction since the read before is rounded down in every read. If every event comes less than 2^34/n units after the last event of the read before, a positive correction is lost completely (also for regular files, read in blocks of 1024 events) and a negative one becomes one unit per read, whatever its size. If the reads are at least D units apart the error of the frequency is at most 3/(2D).
* Theorems: `C121_exact`, `C121_lost`, `C121_file_lost`, `C121_excess`, `C121_violated`, `C121_rate_partial`

### C122 A recording corrected in pieces

Correcting a recording with freqcd in two pieces, in two runs with the same constant correction, gives the same events as correcting it in one run.

* Model and proof: C42 for both runs; the ideal corrections differ by a constant.
* Status: partial. Violated: the second run starts again without correction, so all its events differ by the correction between the beginnings of the pieces. Distances inside a piece are the same up to 3/2 units for every read.
* Theorems: `C122_pieces_partial`, `C122_violated`

### C123 Corrections that change add up over time

When the correction of freqcd is updated during a run, every event is moved by the corrections in force added up over time: the sum over the passes of the correction in force times the time that passed between the last events written. In particular, as long as the corrections stay between two values, every event is moved by at least what the smaller and at most what the larger one would have moved it, up to 3/2 units of 4 ps per read.

* Model and proof: induction over the passes with the offset of the last event written (`Drift`); the step function of the corrections is integrated pass by pass (`accumulated_new`), bounds by telescoping.
* Status: partial. Proved for runs in which every read that delivers data completes an event; otherwise violated already for a constant correction (C42_violated).
* Theorems: `C123_changing_partial`, `C123_between_partial`

### C124 From two recordings to a recording at the rate of the reference clock

For recordings of clocks that differ by a constant offset and frequency and share clear coincidences, fpfind -V 7 prints one number, and for a frequency difference below 6*10^-5 freqcd accepts it. freqcd -i in -o out -f with this number, on any recording with the clock of the target, ends with status 0, keeps number, order and flags of the events, and the time of every event, counted from the first, is that of the reference clock up to the errors fpfind leaves, the errors of the recording, 3/2 units of 4 ps per 1024 events and half a unit of the frequency.

* Model and proof: the core of C106 for any output format (`printed_core`), the text of C86, the options of C53 and the run of C94; the range of freqcd from the error at the ends of the separation (`inverse_range`), back from the range to the frequency (`inverse_small`), and one sum of errors (`pipeline_arith`).
* Status: proved. The conditions are those of C106 and C120; regular files, read and written in blocks of 8 KiB, as in C94.
* Theorems: `C124_pipeline`, `C124_recordings`

### C125 Exchanging the two recordings gives the inverse correction

If the coincidences of two timestamp files stand out both for fpfind with the files in the given order and with the files exchanged, both calls print a line, and the two results undo each other: (1+f)(1+f') = 1 and t/(1+f) + t' = 0, up to the errors of the two results at the beginning and at a later time, divided by that time for the frequency. The check t(1+f) + t' = 0 given in docs/explain.md has the factor on the wrong side; it fails by about 2tf.

* Model and proof: exchanging the files exchanges the normalised times (`input_exchange`); the error of a printed result at two times bounds its frequency (`slope_error`); the rest is arithmetic (`exchange_arith`).
* Status: proved. Under the conditions of C106 for both orders. Timestamp files only: epoch files of the two sides have different types and cannot be exchanged.
* Theorems: `C125_exchange`, `C125_documented`

### C126 A clear peak is significant, whatever the background looks like

If the highest bin of a correlation has the height x, all others have heights from 0 to M < x, and S^2 M^2 <= 4x(x-M) (for the default threshold S = 6: x is at least 3.55 M), then the significance computed by get_statistics is at least S, up to the rounding to three decimals, whatever the shape of the background is, and fpfind accepts the peak. In pairs of events: N pairs in one bin and at most K in any other are accepted if 5N >= 18K + 15. The factor cannot be lowered to 3.5. The exception is a background without any variation: there the significance is 0 and no peak is accepted, however high. The converse does not hold: two equal peaks over a background of 37 empty bins have significance 6.

* Model and proof: heights between 0 and M with mean m have a variance of at most m(M-m) (`variance_le`), and (x-m)^2 M^2 - 4x(x-M)m(M-m) is a square (`worst_mean`).
* Status: proved. Statistics in real arithmetic; the numerical significance used by time_freq is within a given tolerance of it.
* Theorems: `C126_clear`, `C126_histogram`, `C126_accepted`, `C126_pairs`, `C126_pairs_six`, `C126_sharp`, `C126_flat`, `C126_flat_refused`, `C126_second_peak`

### C127 Recordings with enough coincidences give the right correction, with no assumption about significance

If at most s+1 bins of a correlation have more than K pairs of events and one of them has N, and N is large enough compared to K (for the default threshold 6, at least 8192 bins and s = 2: N >= 5K + 4, so jitter may spread the coincidences over three bins), then the significance that the code computes reaches the threshold, provided that the background is not the same number everywhere. So if this holds in the first early correlation of fpfind, the first peak is accepted without merging bins, the significance is defined in all later correlations, and under the conditions of C120 on the recordings fpfind prints the right correction: the conditions on the significance there follow.

* Model and proof: heights up to x of which a fraction of r^2 is above M have mean at most M + r^2 x and standard deviation at most M/2 + r x (`mostly_le`); counts that differ by one differ in the numerical correlation.
* Status: proved. Statistics in real arithmetic; the numerical significance used by time_freq is within a given tolerance of it, numerical correlations are accurate and not negative. Without merging of bins in the first iteration.
* Theorems: `C127_few_high`, `C127_histogram`, `C127_pairs`, `C127_defined`, `C127_accepted`, `C127_printed`, `C127_enough`

### C128 Recordings can be split with parse_timestamps

For recordings in any format: a recording split at a time T with --tfilter-end T and --tfilter-start T is the same file again when both parts are joined, if no event is at exactly that time; an event at exactly T is in both parts, so that the lengths add up to the number of events and the number of those at T. A recording split by detectors, into those of a mask and the others (inverted mask), has exactly the detections of every detector in both parts together, and each part only detectors of its own.

* Model and proof: every run is C84; what is left is a statement about lists (`sorted_split`, `fileOf_append`) and finite checks of 4-bit patterns (`bits_split`).
* Status: proved. Conversions in batches to another file (see C118 for joining, C114 for several filters).
* Theorems: `C128_split`, `C128_detectors`

### C129 Recordings without a remarkable peak give no result

If in the early windows, at every resolution up to 10^4 ns that is tried, the fullest bin has fewer pairs of events than the mean of the background plus the threshold times its standard deviation (with a margin of about one pair and half a pair for numerical errors), the search fails; if this holds for all precompensations, fpfind ends without a result, and if it holds for those tried before the right one, for which the recordings have enough coincidences (C127), fpfind prints the right correction. All these are conditions on the recordings. On the other hand the threshold does not protect against correlations of few pairs: two pairs with different delays give a significance of at least 39.

* Model and proof: the standard deviation of numbers off by 1/2 is less by at most 1/2 (`spread_near`, from (y-m)^2 >= (1-t)(c-m)^2 - (1/t-1)e^2 with t = 1/(2S)); then C72 for the value, C93 for the mergings, C88 and C127 for the program.
* Status: proved. Under the conditions stated; the significance and the correlation are numerical ones off by at most a tolerance and half a pair.
* Theorems: `C129_bound`, `C129_refused`, `C129_fails`, `C129_nothing`, `C129_scan`, `C129_few_pairs`

### C130 Log messages are written where and when asked for

A message of a logger got with get_logger is written once to standard error and once to each file given to set_logfile for this logger, if its level is at least the level last set for the logger, and to nothing else, whatever is done to other loggers and to the root logger. For fpfind: warnings, with -v also infos, with -vv also debug messages go to standard error and the file of --logging. The log file holds all messages of the run, and reading epochs leaves the logging of the application alone.

* Model and proof: the dispatch of records by Python's logging module is modelled (`logEmit`); a logger that has handlers and does not propagate depends on no other logger (`logEmit_own`), and calls about it only add files and set the level (`runWorld_own`).
* Status: partial. The part about the messages of loggers and of fpfind holds. The log file does not get the warnings of the reader of epochs (C130_logfile_violated). Reading a T2 or T4 epoch configures the root logger if it has no handlers, so that a later basicConfig of the application has no effect (C130_root_violated); C130_reading_partial says exactly what reading changes.
* Theorems: `C130_messages`, `C130_program`, `C130_reading_partial`, `C130_logfile_violated`, `C130_root_violated`

### C131 The scan of precompensations covers the range asked for

Every frequency offset within --precomp-stop of --precomp-start is less than one step away from a value that is tried, and at most half a step unless it is in the last half step, up to rounding; for an offset of n steps at most 2n+1 other values are tried before. With the defaults every offset up to 10.05 ppm is within 0.05 ppm of one of 201 values. The ordered scan covers all offsets from start to stop in the same way. After the precompensation the clock of the target is off by no more than that, so C129 gives the result. The end of the range is tried only if the quotient of stop and step, as doubles, reaches a whole number: with --precomp-stop 13e-6 and the default step 13 ppm is not tried.

* Model and proof: the nearest multiple of the step among those of C36 (`nearest_tried`), the two roundings of each value (`tried_error`), and its place in the list (`alternating_split`). C131_tried is about the list that `main` passes to the search.
* Status: proved. C131_end_violated proves the last sentence. An instance of C129_scan with two files and the default scan is beside the theorems.
* Theorems: `C131_covered`, `C131_ordered`, `C131_default`, `C131_end_violated`, `C131_residual`, `C131_program`, `C131_tried`, `C131_tried_ordered`, `C131_disabled`

### C132 Command lines are read as written

parse_timestamps, fpfind and generate_freqcd_testcase -t accept their options in any order and in all usual forms (name and value in two words, joined with =, letters in one word, the beginning of one long name), and run with exactly what was asked for: the last of several values counts, options not given have their defaults, numerals mean the nearest double. A missing -A, an unknown or ambiguous option, an unknown letter after other option letters, or a value of the wrong type runs nothing. The names of the options, what they set and the types of their values are those of the help texts. Violated by: the usage of fpfind in the README, which has an option -n that does not exist; negative numbers with an exponent as a word of their own (--precomp-start -1e-5), which all programs refuse; options between the names of the input and the output file of parse_timestamps; and a file after the times of generate_freqcd_testcase -t.

* Model and proof: a setting becomes one or two classified words (`classify_setting`) and one step of the loop (`loop_setting`), so settings can be split off (`parse_tail`, `ts_loop`); options never become values, so an unknown one, or an unknown letter, is left over (`loop_unknown`, `loop_extra`); the tables of Spec/ArgNames fix names, destinations and types (`C132_names`, `C138_names`). The model of `argparse` gave the same results as the module of Python 3.11 on 1500 random command lines for the three parsers.
* Status: partial. Everything but the violations is proved; these are proved to be refused. Configuration files of fpfind, integers with white space or underscores, and a resolution or separation of zero are not modelled.
* Theorems: `C132_timestamps`, `C132_fpfind`, `C132_testcase`, `C132_required`, `C132_unknown`, `C132_unknown_programs`, `C132_names`, `C132_letters`, `C132_letters_programs`, `C132_type`, `C132_letters_instance`, `C132_abbreviation`, `C132_ambiguous`, `C132_readme_timestamps`, `C132_fpfind_instance`, `C132_testcase_instance`, `C132_readme_violated`, `C132_exponent_violated`, `C132_exponent_fpfind`, `C132_between_violated`, `C132_swallowed_violated`

### C133 Programs do from the shell what they do with arguments

A command line leaves nothing open: if numbers are written as numerals, parse_timestamps and fpfind run with exactly the arguments that the options mean. So parse_timestamps -A i [-X] -a j [-x] [filters] IN OUT, in any order and form, writes exactly the events of IN that pass to OUT and changes nothing else; with -p it reports the statistics of the events that pass; and the number printed by fpfind -V 7 called on two recordings, given to freqcd -f, brings the target to the reference clock. Violated by: parse_timestamps IN IN, which empties the file.

* Model and proof: what options mean determines the arguments (`floatSet_unique`, `natSet_unique`), so C132 gives the run, and C84, C85 and C124 its effect.
* Status: partial. Everything but the conversion of a file onto itself is proved, within the limits of C84, C85, C124 and C132.
* Theorems: `C133_timestamps`, `C133_convert`, `C133_statistics`, `C133_fpfind`, `C133_prints`, `C133_pipeline`, `C133_convert_instance`, `C133_pipeline_instance`, `C133_inplace_violated`

### C134 Corrections in decimal units change the clock by that rate

freqcd -d -f n with |n| up to 1220703, with options in any form and order, keeps all events of a recording in order of time with their detector bits, and moves an event at t by (t - t0) * n * 1e-10, up to 1.5 units for every 1024 events and one part in 2^34 of t - t0 (the correction is cut to a multiple of 2^-34). The README's freqcd -x -df 568 < TIMESTAMPS so makes the clock faster by 56.8 ppb. Larger corrections are refused before anything is written. Violated by: corrections of 1.25e9 and more, which are accepted (C52).

* Model and proof: C53 and C52 give the correction, `regular_file` (the part of C94 that does not depend on how the correction was given) the run; truncation costs at most one unit of 2^-34 in the rate.
* Status: partial. Within range everything is proved, within the limits of C42 and C94; refusal holds below 1.25e9 only, because the code accepts larger numbers (C52_violated).
* Theorems: `C134_decimal`, `C134_refused_partial`, `C134_readme`

### C135 fpfind called on epochs and on timestamp files

For two streams of events in order of time stored as directories of T2 and T1 epochs, fpfind -d S -D T, with any other options in any form, prints the same, or fails in the same way, as fpfind -t A -T B with the same options and two timestamp files that hold the events of the epochs it uses: as many as the required duration needs and one more, after the skipped ones, from the first common epoch (or the one given with -e) on. If there are fewer in a row, it prints nothing and ends with a missing file, and without a common epoch with a TypeError.

* Model and proof: C133 gives both runs, C100 their equality; the hypotheses of C100 on the directories follow from `StreamDir` by reading back the files (C14, C18).
* Status: proved. For target streams without an event at time 0 of an epoch block without detector (C14), and T2 files of times at multiples of 125 ps.
* Theorems: `C135_epochs`, `C135_too_few`, `C135_instance`

### C136 Every separation leads to the requested resolution

fpfind ends for every separation between the two correlations (-s), and refines the result down to the final resolution given with -r before it prints it; in particular it finds the delay of a recording that is an exact delayed copy of the other one.

* Model and proof: the quotient of two resolutions is at least 1 + 2^-52 (error bounds of the three roundings); once the correlation period is three times the acquisition the window is empty, which is an error. Independence of the final resolution is a simulation of the two runs with the invariant that the resolution is above both.
* Status: partial. Termination is proved for separations below √2 (C34 and C88 have those above; next to √2 the search may run for ever, C34_stuck). The rest is false below √2: the resolution is made coarser in every iteration instead of finer, so -r has no effect on what is printed, and exact delayed copies end with an error.
* Theorems: `C136_ends`, `C136_fpfind_ends`, `C136_resolution_violated`, `C136_delay_violated`, `C136_delay_instance`, `C136_fpfind_violated`, `C136_shell_violated`, `C136_shell_instance`

### C137 Options of fpfind that do not apply have no effect

What fpfind prints, and how it ends, is determined by the events, the search and the form of the output that are asked for. If directories of epochs are given, the timestamp files, -X and -Z (skipped duration) have no effect; otherwise options about epochs have none; options of the precompensations have none without --precomp-enable. -V only changes the form: runs that differ in it print lines for the same time and frequency, or fail alike. Violated by: --precomp-fullscan, which turns every result into an error, also without --precomp-enable.

* Model and proof: `main` is the printing of a pair computed before (`beforePrint`), which reads only the arguments compared by `SameEvents` and `SameSearch`; more fuel does not change a result that is there.
* Status: partial. Everything but --precomp-fullscan is proved.
* Theorems: `C137_irrelevant`, `C137_output`, `C137_final`, `C137_shell`, `C137_fullscan_violated`, `C137_instance`

### C138 fpplot called with what fpfind printed aligns the recordings

fpplot runs with exactly what its options mean, in any order and form. It refuses unknown options and values of a wrong type. Called with the same files or directories as fpfind and at most as many epochs, it makes the histogram of the events that fpfind works on, up to --duration. After fpfind has printed a frequency and a time for two timestamp files with coincidences, fpplot --freq=F --time=T, with F the frequency in ppm up to an error r and T as printed, moves the event of the target that belongs to the time s of the reference clock to within the accuracy of fpfind of s, plus r * 1e-6 of the time.

* Model and proof: Model/PlotCli is the parser of fpplot in the model of argparse; the options are read as in C132, the events are those of C79 (whose theorem now says when the IndexError can occur), and the correction is compared with that of C106 rounding by rounding.
* Status: proved. For frequencies up to 7000 ppm. Calls without words, with -h, --config, --save or --experiment are outside the model (package boiler).
* Theorems: `C138_options`, `C138_names`, `C138_refused`, `C138_events`, `C138_chain`, `C138_instance`

### C139 A recording compared with itself shows no difference

fpfind called with the same file as reference and as target (without -P) prints a frequency and a time of exactly 0, in the output format asked for, or fails.

* Model and proof: the sum of squares of differences between a histogram and its rotation bounds the numbers of pairs; an invariant of the search says that the target stays equal to the reference and that all delays are 0. The counterexample was found by a random search over histograms; its significances are bounded with rational bounds for the standard deviation.
* Status: partial. Proved if the first peak is accepted without merging bins, or the bin of delay zero remains the highest one when bins are merged. Otherwise the claim is false: for a recording of ten events, -q 4 -R 1 -s 4096 -r 2 and the default threshold, the merged correlation of the recording with itself is highest at -6 ns, and fpfind prints a frequency of 9.2e-5.
* Theorems: `C139_pairs`, `C139_accurate`, `C139_exact`, `C139_exact_search`, `C139_search`, `C139_program`, `C139_call`, `C139_call_instance`, `C139_merge_violated`, `C139_call_violated`

### C140 Converted recordings work in fpfind and freqcd like any others

fpfind prints the same for timestamp files with the same times, whatever their names, word order (told with -X), detectors, and order of options. So recordings of any formats, converted with parse_timestamps (with any filters), give what any timestamp files of the events that pass give. A recording of any format, converted with parse_timestamps, corrected with freqcd -f n and converted to any format has the events that pass the filters in the same order with the same detectors, moved by n/2^34 of the time since the first of them, up to 3/2 units of 4 ps for every 1024 events.

* Model and proof: the conversion is C133, fpfind sees the files only through the list of times (`load_raw`), and freqcd writes exactly `correctedBlocks` (C95), whose distance from the ideal correction grows by at most 3/2 in every block (`corrected_near`).
* Status: proved. Streaming conversions (no --inmemory), for events each format can represent (C84); time filters in the first conversion need events in order below 2^53 units.
* Theorems: `C140_times`, `C140_converted`, `C140_corrected`, `C140_instance`, `C140_fpfind_instance`

### C141 Text files edited by hand

The layout of a text timestamp file (a0 or a2) does not matter: empty lines, blanks around the numbers, comments after # and a missing last line end change neither the events that are read nor what parse_timestamps writes and reports. The line ends of Windows never matter.

* Model and proof: `LaidOut` builds the text line by line; after universal newlines, comments and blanks are removed, exactly the entries remain (`laidOut_lines`), and the command sees the file only through its reader (`main_reads`).
* Status: partial. Proved for files read at once (--inmemory) and, for the line ends of Windows, in every mode. Violated when streaming: one empty line between two events ends the command with ValueError, proved for every a2 file of fewer than 100000 events.
* Theorems: `C141_layout`, `C141_written`, `C141_main`, `C141_windows`, `C141_stream_violated`

### C142 Detectors selected before or after a correction

It does not matter whether detectors are selected (pattern filter of parse_timestamps) before or after freqcd: the resulting files hold the same events in the same order with the same detectors, and all times differ by the same amount, the correction between the first event and the first selected one, up to 3/2 units of 4 ps for every block of 1024 events.

* Model and proof: both orders are instances of `three_steps` (C140); a pattern filter looks at the detectors only, which freqcd keeps (`filtered_corrected`), and two lists near the ideal corrections of the same events are near each other (`corrected_twice`).
* Status: proved. For regular files, as in C140; filters for times are excluded, since they compare corrected with uncorrected times.
* Theorems: `C142_select`, `C142_instance`

### C143 What the picture of fpplot does not depend on

fpplot called on two timestamp files gives the same arrays to the histogram, or fails with the same exception, if the files hold the same times: names, word order (with -X), detectors, the order of options and the formats the files were converted from do not matter. Nor does it matter when the recordings were made: all times of both may be later by the same amount, and events of one recording before the other one begins may be left out.

* Model and proof: `plot_on` reduces a call to the normalised lists of times; these are compared with the lemmas of C97.
* Status: proved. The arrays given to the histogram of S15lib; plotting itself is not modelled. For other skipped durations the start is rounded (C97_skip_violated).
* Theorems: `C143_times`, `C143_shift`, `C143_early`, `C143_converted`, `C143_instance`

### C144 Skipping epochs is beginning at a later epoch

fpfind on two epoch directories with -z k behaves as without -z but with -e naming the epoch k later than the first one in both directories (not before the one that -e asked for), if that epoch is in both directories: the same output or the same exception. The same holds for the arrays that fpplot plots. If the file of that epoch is missing in the first directory, fpfind -z k fails with FileNotFoundError; it does not go on to a later epoch, as -e would.

* Model and proof: C24 gives the first epoch of both runs; `getTimestamp_skip` shows that the same files are read, and the number of epochs to read does not depend on the skipped ones.
* Status: proved. Both runs are compared with enough fuel, so a reader that does not return is the same in both. Negative -z is outside of the model.
* Theorems: `C144_skip`, `C144_plot`, `C144_shell`, `C144_plot_shell`, `C144_missing`, `C144_missing_instance`, `C144_instance`

### C145 fpplot called on epochs and on timestamp files

fpplot on two epoch directories (T2 files of the sender, T1 files of the receiver) gives the same arrays to the histogram as on two timestamp files with the times of the epochs that -e, -z and -n select. The times in the timestamp files may all be later or earlier by the same amount, so they can count from the first epoch instead of in absolute time, and they need not be in order. With such files fpfind, too, prints what it prints for the directories.

* Model and proof: C14, C18 and C25 give the times read from the epochs as multiples of 1/256 ns, which are the times of timestamp files; the shift is C97.
* Status: proved. T1 files without the event that looks like the terminator (C14), T2 files as C18 describes; the number of epochs fpfind reads is the one of C74. Skipped durations (-Z) are not used with directories, so the call on timestamp files has none.
* Theorems: `C145_fpplot`, `C145_main`, `C145_fpfind`, `C145_instance`, `C145_plot_instance`

## Axioms

As printed by `#print axioms` for every claimed theorem.

* Classical.choice, Quot.sound, propext: C01_a1_file, C01_a1_roundtrip, C01_a1_roundtrip_raw, C02_a1_canonical, C02_a1_convert, C03_float64_exact_below, C03_float64_inexact, C03_modes_exact, C03_modes_monotone, C04_read_incomplete, C04_stream_incomplete, C04_stream_negation, C04_stream_partial, C05_a0_empty, C05_a0_file, C05_a0_negation, C05_a0_roundtrip_partial, C05_a0_to_a1_wraps, C06_a2_file, C06_a2_negation_mixed, C06_a2_negation_single, C06_a2_roundtrip_partial, C07_swrite_a0, C07_swrite_a1, C07_swrite_a2, C08_sread_a0_partial, C08_sread_a2_negation, C08_sread_a2_partial, C100_fpfind, C100_t1, C100_t2, C101_all_applied, C101_last_counts, C101_long_violated, C101_test, C102_composed, C102_undo, C103_count, C103_found, C103_rounded, C104_accuracy, C105_converges_partial, C105_violated, C106_printed, C107_failed_write, C107_refused, C107_stored, C108_read_back_partial, C108_success_iff_partial, C108_violated, C109_a1_violated, C109_int64_partial, C109_int64_violated, C109_t1_violated, C10_timing_filter_partial, C10_timing_filter_rounded, C10_timing_negation, C110_empty, C110_failures, C110_lines, C110_stream, C111_fpfind, C111_time_freq, C112_blank_violated, C112_only_compiled, C112_relative_violated, C112_replaces_partial, C112_runs_partial, C113_events, C113_late_violated, C113_printed, C113_unchecked, C114_exchange, C114_order_matters, C114_two_runs, C115_accurate, C115_found, C115_product, C116_bytes, C116_characters, C116_characters_stream, C116_cut_a0_partial, C116_cut_a0_violated, C116_cut_a2_violated, C116_newline_a0, C116_newline_a2, C117_beginning, C117_damaged, C117_no_report, C118_a2_violated, C118_convert_partial, C118_read_a1, C118_report, C119_first_matters, C119_fpfind, C119_time_freq, C11_convert_inmemory_negation, C11_convert_inmemory_partial, C11_convert_stream, C11_filter_meaning, C120_clear, C120_converges, C120_numerics, C120_printed, C121_exact, C121_excess, C121_file_lost, C121_lost, C121_rate_partial, C121_violated, C122_pieces_partial, C122_violated, C123_between_partial, C123_changing_partial, C124_pipeline, C124_recordings, C125_documented, C125_exchange, C126_accepted, C126_clear, C126_flat, C126_flat_refused, C126_histogram, C126_pairs, C126_pairs_six, C126_second_peak, C126_sharp, C127_accepted, C127_defined, C127_enough, C127_few_high, C127_histogram, C127_pairs, C127_printed, C128_detectors, C128_split, C129_bound, C129_fails, C129_few_pairs, C129_nothing, C129_refused, C129_scan, C12_batching, C12_oneshot, C12_statistics, C12_total, C130_logfile_violated, C130_messages, C130_program, C130_reading_partial, C130_root_violated, C131_covered, C131_default, C131_disabled, C131_end_violated, C131_ordered, C131_program, C131_residual, C131_tried, C131_tried_ordered, C132_abbreviation, C132_ambiguous, C132_between_violated, C132_exponent_fpfind, C132_exponent_violated, C132_fpfind, C132_fpfind_instance, C132_letters, C132_letters_instance, C132_letters_programs, C132_names, C132_readme_timestamps, C132_readme_violated, C132_required, C132_swallowed_violated, C132_testcase, C132_testcase_instance, C132_timestamps, C132_type, C132_unknown, C132_unknown_programs, C133_convert, C133_convert_instance, C133_fpfind, C133_inplace_violated, C133_pipeline, C133_pipeline_instance, C133_prints, C133_statistics, C133_timestamps, C134_decimal, C134_readme, C134_refused_partial, C135_epochs, C135_instance, C135_too_few, C136_delay_instance, C136_delay_violated, C136_ends, C136_fpfind_ends, C136_fpfind_violated, C136_resolution_violated, C136_shell_instance, C136_shell_violated, C137_final, C137_fullscan_violated, C137_instance, C137_irrelevant, C137_output, C137_shell, C138_chain, C138_events, C138_instance, C138_names, C138_options, C138_refused, C139_accurate, C139_call, C139_call_instance, C139_call_violated, C139_exact, C139_exact_search, C139_merge_violated, C139_pairs, C139_program, C139_search, C13_report_negation, C13_report_partial, C13_report_raw, C140_converted, C140_corrected, C140_fpfind_instance, C140_instance, C140_times, C141_layout, C141_main, C141_stream_violated, C141_windows, C142_instance, C142_select, C143_converted, C143_early, C143_instance, C143_shift, C143_times, C144_instance, C144_missing, C144_missing_instance, C144_plot, C144_plot_shell, C144_shell, C144_skip, C145_fpfind, C145_fpplot, C145_instance, C145_main, C145_plot_instance, C14_t1_broadcast, C14_t1_file, C14_t1_roundtrip_partial, C14_t1_zero_event, C15_full_epoch_frac, C15_full_epoch_int, C15_read_T1, C16_interrupted_partial, C16_negation, C16_written_partial, C17_bit_stream, C18_t2_decode, C19_t4_decode, C19_t4_length_checked, C20_t1_terminates, C20_t2_exact, C20_t2_negation, C20_t4_exact, C20_t4_negation, C21_t2_integer_negation, C21_t2_integer_partial, C22_t3_inconsistent, C22_t3_order, C22_t3_tallies, C23_accepts, C23_name_number_name, C23_names_canonical, C23_names_distinct, C23_not_preserved, C23_number_name_number, C23_padding, C24_exhaustive, C24_no_overlap, C25_concatenation, C25_missing, C25_sorted, C25_t1_files, C25_wrap, C26_normalize, C26_normalize_independent, C26_slice_relative, C26_slice_start, C26_slice_window, C27_binning, C27_empty, C28_correlation, C28_odd_length, C29_delay_at_index, C29_delay_candidates, C30_pure_delay, C31_float_center_fails, C31_int_center_partial, C31_signal_has_max, C31_significance, C31_windows_partial, C32_example, C32_fpfind, C32_time_freq, C33_bounded, C34_iterations, C34_relErr, C34_stuck, C34_terminates, C35_all_fail, C35_first_success_partial, C35_fullscan_negation, C35_other_error, C36_alternating, C36_degenerate, C36_doc_examples, C36_each_once, C36_ordered, C37_frequency_partial, C37_negation, C37_printed, C37_time_error, C38_double_partial, C38_exact_partial, C38_inverted_negation, C38_negation, C38_precompensation_negation, C39_events, C39_prefix, C40_identity_partial, C40_violated, C41_accepted, C41_corrected_time, C41_no_overflow, C41_smallest_violated, C42_approximation_partial, C42_violated, C43_order_partial, C43_violated, C43_violated_at_end, C44_no_fault, C45_exact, C45_lines_partial, C45_violated, C46_command_line_partial, C46_command_line_violated, C46_huge, C46_in_range_partial, C46_range, C46_update_partial, C46_violated, C46_violated_by_zero_byte, C46_wraps, C47_legacy, C48_killed, C48_stopped, C48_write_error, C49_split_partial, C49_stale, C49_violated, C50_smooth_partial, C50_stream, C50_violated, C51_all_written_partial, C51_violated, C52_command_line_partial, C52_range_partial, C52_value, C52_violated, C53_first_error, C53_grouping, C53_meaning, C53_missing_argument, C53_order, C53_terminates, C54_blank, C54_overrun, C54_verbatim_partial, C55_causality, C55_no_jump, C56_empty, C56_event, C56_file_partial, C56_interactive, C56_negative, C56_readback_partial, C56_stdout_partial, C56_violated, C57_cleanup, C57_pipe, C57_stdin_partial, C57_violated, C59_centred, C60_merging, C60_odd, C61_out_of_order, C61_stream, C62_bound, C62_boundary_violated, C62_date, C62_roundtrip_violated, C62_whole_seconds_partial, C63_accuracy, C63_rounded, C64_pure_delay, C64_returns, C65_doubled, C65_reference_partial, C65_target_partial, C65_violated, C66_counts_partial, C66_exact, C66_violated, C67_lines, C67_message_kept, C70_duration, C70_duration_raw, C70_inmemory, C71_one_partial, C71_topk_partial, C72_defined, C72_g2_rescaled, C72_grouped, C72_raw_violated, C72_significance_rescaled, C72_single_bin, C72_values, C73_inputs_violated, C73_shift_partial, C73_violated, C74_choice, C74_epochs, C74_insufficient, C74_no_overlap, C74_overflow_violated, C74_required, C74_span_partial, C74_violated, C75_binning, C75_floor_divide, C75_normalize, C75_slice, C75_slice_error, C76_arithmetic, C76_example, C76_fpfind, C76_rounded, C77_detune, C77_identity, C77_script, C78_write_floor, C79_aligned, C79_arrays, C79_correction, C79_input, C80_digits, C80_float_partial, C80_float_violated, C80_int_partial, C80_int_violated, C80_overflow_violated, C80_whole, C81_description_partial, C81_placeholder_violated, C82_text, C83_invocation, C83_raw_lines, C83_wrapped, C84_chain, C84_checks, C84_convert_inmemory_partial, C84_convert_stream_partial, C84_inmemory_atomic, C84_inplace_violated, C85_exit, C85_inmemory_partial, C85_readonly, C85_stream, C85_unique, C86_float, C86_line, C86_output, C86_program, C86_unique, C87_channel_partial, C87_line, C87_option_partial, C87_option_violated, C88_accuracy, C88_first, C88_fullscan_negation, C88_no_peak, C88_plain, C88_printed, C88_status, C88_terminates, C89_pure_delay, C90_double, C90_exact, C90_exchange, C91_same_events, C92_fields, C92_padded, C92_type1_violated, C92_warnings_partial, C92_written, C93_doubles, C93_fail, C93_only_first, C93_result, C94_channel_violated, C94_not_started_partial, C94_regular_file, C94_same_file_violated, C94_started, C94_status_violated, C95_end_of_range, C95_exact, C95_one_block, C95_pipeline, C95_reads_violated, C96_exchange_partial, C96_half_violated, C96_mirrored, C96_tie_violated, C96_time_freq, C97_early_reference, C97_early_target, C97_invariant_partial, C97_shell, C97_shell_instance, C97_skip_violated, C98_inverse, C98_test_formula, C98_test_violated, C99_125ps_violated, C99_order_partial

* Quot.sound, propext: C02_a1_idempotent, C09_fifth_bit, C09_pattern_filter, C108_altered, C109_int64_wraps_violated, C109_object_partial, C141_written, C14_t1_mismatch, C23_negative, C24_first_overlap, C24_foreign_file, C46_malformed, C58_overlap, C68_handlers, C68_negative, C68_verbosity, C69_profile, C71_refused, C71_satisfiable, C71_violated

* none: C58_empty

* propext: C68_labels
