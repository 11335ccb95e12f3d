{
 "claims": [
  {
   "property": "C01",
   "status": "proved",
   "theorems": [
    "Fp.C01_a1_file",
    "Fp.C01_a1_roundtrip",
    "Fp.C01_a1_roundtrip_raw"
   ],
   "note": "All event lists, both word orders, every write and read resolution, every float width >= 54 bits."
  },
  {
   "property": "C02",
   "status": "proved",
   "theorems": [
    "Fp.C02_a1_canonical",
    "Fp.C02_a1_idempotent",
    "Fp.C02_a1_convert"
   ],
   "note": "All byte strings of whole events."
  },
  {
   "property": "C03",
   "status": "proved",
   "theorems": [
    "Fp.C03_modes_exact",
    "Fp.C03_modes_monotone",
    "Fp.C03_float64_exact_below",
    "Fp.C03_float64_inexact"
   ],
   "note": ""
  },
  {
   "property": "C04",
   "status": "partial",
   "theorems": [
    "Fp.C04_stream_partial",
    "Fp.C04_stream_incomplete",
    "Fp.C04_stream_negation",
    "Fp.C04_read_incomplete"
   ],
   "note": "Proved for files of whole events. Files that end inside an event are described completely: sread_a1 yields the full batches and raises ValueError, losing the complete events after them; read_a1 ignores 1 to 3 bytes and raises for 4 to 7."
  },
  {
   "property": "C05",
   "status": "partial",
   "theorems": [
    "Fp.C05_a0_file",
    "Fp.C05_a0_roundtrip_partial",
    "Fp.C05_a0_negation",
    "Fp.C05_a0_to_a1_wraps",
    "Fp.C05_a0_empty"
   ],
   "note": "Round trip proved for all times a float64 can represent (below 2^53, and even times above); every odd time from 2^53 on comes back wrong."
  },
  {
   "property": "C06",
   "status": "partial",
   "theorems": [
    "Fp.C06_a2_file",
    "Fp.C06_a2_roundtrip_partial",
    "Fp.C06_a2_negation_single",
    "Fp.C06_a2_negation_mixed"
   ],
   "note": "Proved for at least two events with homogeneous dtypes; single-event files and files mixing events below and above 2^53 raise TypeError (both proved for every such file)."
  },
  {
   "property": "C07",
   "status": "proved",
   "theorems": [
    "Fp.C07_swrite_a0",
    "Fp.C07_swrite_a1",
    "Fp.C07_swrite_a2"
   ],
   "note": ""
  },
  {
   "property": "C08",
   "status": "partial",
   "theorems": [
    "Fp.C08_sread_a0_partial",
    "Fp.C08_sread_a2_partial",
    "Fp.C08_sread_a2_negation"
   ],
   "note": "Proved for homogeneous files; for a2 files mixing int64 and uint64 values the outcome depends on the buffer size (witness)."
  },
  {
   "property": "C09",
   "status": "proved",
   "theorems": [
    "Fp.C09_pattern_filter",
    "Fp.C09_fifth_bit"
   ],
   "note": "All lists, all 4-bit patterns, all four modes. A pattern with the fifth bit removes empty events in the last mode (C09_fifth_bit)."
  },
  {
   "property": "C10",
   "status": "partial",
   "theorems": [
    "Fp.C10_timing_filter_partial",
    "Fp.C10_timing_filter_rounded",
    "Fp.C10_timing_negation"
   ],
   "note": "Proved for float arrays and integer times below 2^53; above, numpy compares the rounded time (complete description and witness)."
  },
  {
   "property": "C11",
   "status": "partial",
   "theorems": [
    "Fp.C11_convert_stream",
    "Fp.C11_filter_meaning",
    "Fp.C11_convert_inmemory_partial",
    "Fp.C11_convert_inmemory_negation"
   ],
   "note": "Streaming part proved in full; --inmemory equality proved without timing filter or below 2^53, witness otherwise."
  },
  {
   "property": "C12",
   "status": "proved",
   "theorems": [
    "Fp.C12_statistics",
    "Fp.C12_batching",
    "Fp.C12_oneshot",
    "Fp.C12_total"
   ],
   "note": ""
  },
  {
   "property": "C13",
   "status": "partial",
   "theorems": [
    "Fp.C13_report_partial",
    "Fp.C13_report_raw",
    "Fp.C13_report_negation"
   ],
   "note": "Exact condition proved (first and last time differ); single-event files raise OverflowError."
  },
  {
   "property": "C14",
   "status": "partial",
   "theorems": [
    "Fp.C14_t1_file",
    "Fp.C14_t1_broadcast",
    "Fp.C14_t1_mismatch",
    "Fp.C14_t1_roundtrip_partial",
    "Fp.C14_t1_zero_event"
   ],
   "note": "Round trip proved for every list of events whose encoding is not the all-zero word pair; an all-zero event ends reading (proved for every file with one)."
  },
  {
   "property": "C15",
   "status": "proved",
   "theorems": [
    "Fp.C15_read_T1",
    "Fp.C15_full_epoch_int",
    "Fp.C15_full_epoch_frac"
   ],
   "note": "The conversion for all epochs and times; read_T1 for files without the event that ends reading (C14)."
  },
  {
   "property": "C16",
   "status": "partial",
   "theorems": [
    "Fp.C16_interrupted_partial",
    "Fp.C16_written_partial",
    "Fp.C16_negation"
   ],
   "note": "Proved for every crash point outside the last event; a crash inside the last event is read as a wrong event (witness); all other events are always right."
  },
  {
   "property": "C17",
   "status": "proved",
   "theorems": [
    "Fp.C17_bit_stream"
   ],
   "note": "All files, all sequences of widths up to 32."
  },
  {
   "property": "C18",
   "status": "proved",
   "theorems": [
    "Fp.C18_t2_decode"
   ],
   "note": "All entry lists, widths, trailing bytes and units; with and without full epoch."
  },
  {
   "property": "C19",
   "status": "proved",
   "theorems": [
    "Fp.C19_t4_decode",
    "Fp.C19_t4_length_checked"
   ],
   "note": ""
  },
  {
   "property": "C20",
   "status": "partial",
   "theorems": [
    "Fp.C20_t1_terminates",
    "Fp.C18_t2_decode",
    "Fp.C19_t4_decode",
    "Fp.C20_t2_exact",
    "Fp.C20_t4_exact",
    "Fp.C20_t2_negation",
    "Fp.C20_t4_negation"
   ],
   "note": "T1 always terminates; T2/T4 files of any content are read to an end exactly if the timing value 1 follows the entries, otherwise never (both proved); in particular never for files cut after whole entries."
  },
  {
   "property": "C21",
   "status": "partial",
   "theorems": [
    "Fp.C21_t2_integer_partial",
    "Fp.C21_t2_integer_negation"
   ],
   "note": "Proved for 1 ns and 125 ps; 4 ps raises TypeError for every non-empty file."
  },
  {
   "property": "C22",
   "status": "proved",
   "theorems": [
    "Fp.C22_t3_tallies",
    "Fp.C22_t3_order",
    "Fp.C22_t3_inconsistent"
   ],
   "note": ""
  },
  {
   "property": "C23",
   "status": "proved",
   "theorems": [
    "Fp.C23_number_name_number",
    "Fp.C23_name_number_name",
    "Fp.C23_names_canonical",
    "Fp.C23_not_preserved",
    "Fp.C23_names_distinct",
    "Fp.C23_accepts",
    "Fp.C23_negative",
    "Fp.C23_padding"
   ],
   "note": ""
  },
  {
   "property": "C24",
   "status": "proved",
   "theorems": [
    "Fp.C24_no_overlap",
    "Fp.C24_first_overlap",
    "Fp.C24_exhaustive",
    "Fp.C24_foreign_file"
   ],
   "note": ""
  },
  {
   "property": "C25",
   "status": "proved",
   "theorems": [
    "Fp.C25_concatenation",
    "Fp.C25_missing",
    "Fp.C25_sorted",
    "Fp.C25_wrap",
    "Fp.C25_t1_files"
   ],
   "note": "Also proved: not sorted across a multiple of 2^17 epochs."
  },
  {
   "property": "C26",
   "status": "proved",
   "theorems": [
    "Fp.C26_slice_start",
    "Fp.C26_slice_window",
    "Fp.C26_slice_relative",
    "Fp.C26_normalize",
    "Fp.C26_normalize_independent"
   ],
   "note": "Exact arithmetic (C75 for the rounded one); the IndexError cases are part of the statement."
  },
  {
   "property": "C27",
   "status": "proved",
   "theorems": [
    "Fp.C27_binning",
    "Fp.C27_empty"
   ],
   "note": ""
  },
  {
   "property": "C28",
   "status": "proved",
   "theorems": [
    "Fp.C28_correlation",
    "Fp.C28_odd_length"
   ],
   "note": "Exact complex arithmetic. Also proved: an odd number of bins gives one bin less."
  },
  {
   "property": "C29",
   "status": "proved",
   "theorems": [
    "Fp.C29_delay_candidates",
    "Fp.C29_delay_at_index"
   ],
   "note": ""
  },
  {
   "property": "C30",
   "status": "proved",
   "theorems": [
    "Fp.C30_pure_delay"
   ],
   "note": "Through C28, i.e. the Fourier transforms in exact arithmetic."
  },
  {
   "property": "C31",
   "status": "partial",
   "theorems": [
    "Fp.C31_windows_partial",
    "Fp.C31_int_center_partial",
    "Fp.C31_signal_has_max",
    "Fp.C31_significance",
    "Fp.C31_float_center_fails"
   ],
   "note": "Proved without centre and for integer centres inside the histogram; a float centre (as documented) raises TypeError, and without any background bin the significance raises TypeError (both proved)."
  },
  {
   "property": "C32",
   "status": "proved",
   "theorems": [
    "Fp.C32_time_freq",
    "Fp.C32_fpfind",
    "Fp.C32_example"
   ],
   "note": "Exact arithmetic; every correlation and significance function, every number of iterations."
  },
  {
   "property": "C33",
   "status": "proved",
   "theorems": [
    "Fp.C33_bounded"
   ],
   "note": "For every rounding function; all delay estimates of the trace are bounded, not only the initial one."
  },
  {
   "property": "C34",
   "status": "proved",
   "theorems": [
    "Fp.C34_terminates",
    "Fp.C34_iterations",
    "Fp.C34_relErr",
    "Fp.C34_stuck"
   ],
   "note": "For every rounding with relative error up to 2^-53. Also proved: with a separation of exactly the double sqrt(2) durations the loop may run forever."
  },
  {
   "property": "C35",
   "status": "partial",
   "theorems": [
    "Fp.C35_first_success_partial",
    "Fp.C35_all_fail",
    "Fp.C35_fullscan_negation",
    "Fp.C35_other_error"
   ],
   "note": "Proved without fullscan for failures that are ValueErrors; with fullscan the code always raises, and an IndexError aborts the scan (both proved for all inputs)."
  },
  {
   "property": "C36",
   "status": "proved",
   "theorems": [
    "Fp.C36_alternating",
    "Fp.C36_ordered",
    "Fp.C36_each_once",
    "Fp.C36_degenerate",
    "Fp.C36_doc_examples"
   ],
   "note": "Also proved: two of the four documented examples are not what the code returns."
  },
  {
   "property": "C37",
   "status": "partial",
   "theorems": [
    "Fp.C37_frequency_partial",
    "Fp.C37_time_error",
    "Fp.C37_negation",
    "Fp.C37_printed"
   ],
   "note": "Frequency inverse and involution proved; the inverted time undoes the correction if and only if dt = 0 or df = 0 (error dt*df*(2+df))."
  },
  {
   "property": "C38",
   "status": "partial",
   "theorems": [
    "Fp.C38_exact_partial",
    "Fp.C38_double_partial",
    "Fp.C38_negation",
    "Fp.C38_inverted_negation",
    "Fp.C38_precompensation_negation"
   ],
   "note": "Accepted exactly below 2^-13 - 2^-35; witnesses for values within the bound of time_freq, for inversion and for precompensation."
  },
  {
   "property": "C39",
   "status": "proved",
   "theorems": [
    "Fp.C39_events",
    "Fp.C39_prefix"
   ],
   "note": "Also proved for runs that end in an error: the flag bits written are always the first of the input."
  },
  {
   "property": "C40",
   "status": "partial",
   "theorems": [
    "Fp.C40_identity_partial",
    "Fp.C40_violated"
   ],
   "note": "Proved unless the first read delivers less than one event; then an uninitialised variable is added to all times (witness)."
  },
  {
   "property": "C41",
   "status": "proved",
   "theorems": [
    "Fp.C41_no_overflow",
    "Fp.C41_corrected_time",
    "Fp.C41_accepted",
    "Fp.C41_smallest_violated"
   ],
   "note": "C41_smallest_violated proves the last sentence, which was added after it was found that the former wording (any accepted correction) is false for -2^31."
  },
  {
   "property": "C42",
   "status": "partial",
   "theorems": [
    "Fp.C42_approximation_partial",
    "Fp.C42_violated"
   ],
   "note": "Proved for schedules in which every read completes an event; witness of an error of 2^26 units in three reads otherwise."
  },
  {
   "property": "C43",
   "status": "partial",
   "theorems": [
    "Fp.C43_order_partial",
    "Fp.C43_violated",
    "Fp.C43_violated_at_end"
   ],
   "note": "Proved for schedules in which every read completes an event, corrections in range and times up to 2^54-2^41; witnesses for partial reads and for the end of the range."
  },
  {
   "property": "C44",
   "status": "proved",
   "theorems": [
    "Fp.C44_no_fault"
   ],
   "note": "Main loop; the file name buffers are C54."
  },
  {
   "property": "C45",
   "status": "partial",
   "theorems": [
    "Fp.C45_exact",
    "Fp.C45_lines_partial",
    "Fp.C45_violated"
   ],
   "note": "Proved when every read that delivers data contains a line end; a read without a line end is dropped (exact rule proved, witness)."
  },
  {
   "property": "C46",
   "status": "partial",
   "theorems": [
    "Fp.C46_range",
    "Fp.C46_update_partial",
    "Fp.C46_malformed",
    "Fp.C46_in_range_partial",
    "Fp.C46_violated",
    "Fp.C46_wraps",
    "Fp.C46_huge",
    "Fp.C46_violated_by_zero_byte",
    "Fp.C46_command_line_partial",
    "Fp.C46_command_line_violated"
   ],
   "note": "For all inputs the correction is in range or exactly -2^31; -2^31 is accepted from both sources (witnesses), other out-of-range values wrap; numbers beyond 64 bits are applied as -1 or 0 (proved)."
  },
  {
   "property": "C47",
   "status": "proved",
   "theorems": [
    "Fp.C47_legacy"
   ],
   "note": "Including the way the program stops and short writes."
  },
  {
   "property": "C48",
   "status": "proved",
   "theorems": [
    "Fp.C48_killed",
    "Fp.C48_stopped",
    "Fp.C48_write_error"
   ],
   "note": ""
  },
  {
   "property": "C49",
   "status": "partial",
   "theorems": [
    "Fp.C49_split_partial",
    "Fp.C49_stale",
    "Fp.C49_violated"
   ],
   "note": "Proved for reads that complete an event; any other read adds the previous correction once more (proved in general and by a witness)."
  },
  {
   "property": "C50",
   "status": "partial",
   "theorems": [
    "Fp.C50_stream",
    "Fp.C50_violated",
    "Fp.C50_smooth_partial"
   ],
   "note": "For every non-zero correction and all times the correction of the first events after the roll-over is wrong by at least 2^20 units; holds only for a zero correction."
  },
  {
   "property": "C51",
   "status": "partial",
   "theorems": [
    "Fp.C51_all_written_partial",
    "Fp.C51_violated"
   ],
   "note": "Proved unless reading the frequency channel fails (or a write is incomplete, see C48); witness of a lost event otherwise."
  },
  {
   "property": "C52",
   "status": "partial",
   "theorems": [
    "Fp.C52_value",
    "Fp.C52_range_partial",
    "Fp.C52_command_line_partial",
    "Fp.C52_violated"
   ],
   "note": "Value proved on the documented range, acceptance for |n| < 1250000000; every other n gives -2^31, which is accepted (for n = -1250000000 the conversion itself is defined)."
  },
  {
   "property": "C53",
   "status": "proved",
   "theorems": [
    "Fp.C53_grouping",
    "Fp.C53_meaning",
    "Fp.C53_order",
    "Fp.C53_first_error",
    "Fp.C53_terminates",
    "Fp.C53_missing_argument"
   ],
   "note": "For option words made of the known letters; a missing last argument is ignored."
  },
  {
   "property": "C54",
   "status": "partial",
   "theorems": [
    "Fp.C54_verbatim_partial",
    "Fp.C54_overrun",
    "Fp.C54_blank"
   ],
   "note": "Proved for names of 1 to 199 characters without white space; a longer name is written beyond the buffer, a name with white space is cut (both proved)."
  },
  {
   "property": "C55",
   "status": "proved",
   "theorems": [
    "Fp.C55_causality",
    "Fp.C55_no_jump"
   ],
   "note": "The second theorem for schedules in which every read completes an event (for others see C49)."
  },
  {
   "property": "C56",
   "status": "partial",
   "theorems": [
    "Fp.C56_event",
    "Fp.C56_file_partial",
    "Fp.C56_stdout_partial",
    "Fp.C56_readback_partial",
    "Fp.C56_negative",
    "Fp.C56_interactive",
    "Fp.C56_empty",
    "Fp.C56_violated"
   ],
   "note": "Proved for the normal word order; -x has no effect because it sets a variable of main only (proved for all inputs, witness)."
  },
  {
   "property": "C57",
   "status": "partial",
   "theorems": [
    "Fp.C57_violated",
    "Fp.C57_stdin_partial",
    "Fp.C57_cleanup",
    "Fp.C57_pipe"
   ],
   "note": "Fails for every file name: the file is overwritten with the standard input. Proved for '-', which leaves all files unchanged."
  },
  {
   "property": "C58",
   "status": "proved",
   "theorems": [
    "Fp.C58_overlap",
    "Fp.C58_empty"
   ],
   "note": ""
  },
  {
   "property": "C59",
   "status": "proved",
   "theorems": [
    "Fp.C59_centred"
   ],
   "note": ""
  },
  {
   "property": "C60",
   "status": "proved",
   "theorems": [
    "Fp.C60_merging",
    "Fp.C60_odd"
   ],
   "note": "Also proved: an odd number of bins is refused."
  },
  {
   "property": "C61",
   "status": "partial",
   "theorems": [
    "Fp.C61_stream",
    "Fp.C61_out_of_order"
   ],
   "note": "Holds exactly for corrections that are multiples of 2^12; for all others the error is at least 2^30 units (both directions proved)."
  },
  {
   "property": "C62",
   "status": "partial",
   "theorems": [
    "Fp.C62_whole_seconds_partial",
    "Fp.C62_bound",
    "Fp.C62_boundary_violated",
    "Fp.C62_date",
    "Fp.C62_roundtrip_violated"
   ],
   "note": "Date of an epoch proved for all epochs. date2epoch proved for whole seconds that are not multiples of 2^20; it can be one epoch early at such multiples (witness 2^20), drops fractions of a second, and so does not invert epoch2date (proved for every epoch that does not start on a whole second)."
  },
  {
   "property": "C63",
   "status": "proved",
   "theorems": [
    "Fp.C63_accuracy",
    "Fp.C63_rounded"
   ],
   "note": "C63_accuracy with exact arithmetic, C63_rounded with every operation rounded."
  },
  {
   "property": "C64",
   "status": "proved",
   "theorems": [
    "Fp.C64_pure_delay",
    "Fp.C64_returns"
   ],
   "note": "Exact arithmetic, exact Fourier transforms; the significance of the peak is a parameter that must pass the threshold."
  },
  {
   "property": "C65",
   "status": "partial",
   "theorems": [
    "Fp.C65_target_partial",
    "Fp.C65_reference_partial",
    "Fp.C65_doubled",
    "Fp.C65_violated"
   ],
   "note": "The roles are exchanged: proved for the target with the inverted output and for the reference with the plain output (doubles, all schedules in which every read completes an event); the plain output doubles the offset of the target (proved for all runs, witness)."
  },
  {
   "property": "C66",
   "status": "partial",
   "theorems": [
    "Fp.C66_exact",
    "Fp.C66_counts_partial",
    "Fp.C66_violated"
   ],
   "note": "Exact result proved for all sorted arrays; the last event of the first array is never dropped, so longer delays are counted for it (witness)."
  },
  {
   "property": "C67",
   "status": "proved",
   "theorems": [
    "Fp.C67_lines",
    "Fp.C67_message_kept"
   ],
   "note": "str.isspace and str(details) are parameters."
  },
  {
   "property": "C68",
   "status": "proved",
   "theorems": [
    "Fp.C68_verbosity",
    "Fp.C68_negative",
    "Fp.C68_labels",
    "Fp.C68_handlers"
   ],
   "note": ""
  },
  {
   "property": "C69",
   "status": "proved",
   "theorems": [
    "Fp.C69_profile"
   ],
   "note": ""
  },
  {
   "property": "C70",
   "status": "proved",
   "theorems": [
    "Fp.C70_duration",
    "Fp.C70_duration_raw",
    "Fp.C70_inmemory"
   ],
   "note": ""
  },
  {
   "property": "C71",
   "status": "partial",
   "theorems": [
    "Fp.C71_topk_partial",
    "Fp.C71_one_partial",
    "Fp.C71_violated",
    "Fp.C71_refused",
    "Fp.C71_satisfiable"
   ],
   "note": "Proved for k >= 2; for k = 1 the height is missing from the answer (proved for all histograms)."
  },
  {
   "property": "C72",
   "status": "partial",
   "theorems": [
    "Fp.C72_significance_rescaled",
    "Fp.C72_g2_rescaled",
    "Fp.C72_values",
    "Fp.C72_grouped",
    "Fp.C72_defined",
    "Fp.C72_single_bin",
    "Fp.C72_raw_violated"
   ],
   "note": "Exact real arithmetic. significance_raw never returns a number (proved for all inputs)."
  },
  {
   "property": "C73",
   "status": "partial",
   "theorems": [
    "Fp.C73_violated",
    "Fp.C73_inputs_violated",
    "Fp.C73_shift_partial"
   ],
   "note": "No call returns (the inner call has too many arguments) and the arrays are shifted in place, both proved for all inputs; the shift is the same for both arrays."
  },
  {
   "property": "C74",
   "status": "partial",
   "theorems": [
    "Fp.C74_choice",
    "Fp.C74_required",
    "Fp.C74_epochs",
    "Fp.C74_insufficient",
    "Fp.C74_no_overlap",
    "Fp.C74_span_partial",
    "Fp.C74_violated",
    "Fp.C74_overflow_violated"
   ],
   "note": "The span is proved if both sides have events in the first half of the first and the second half of the last epoch; witness without. Durations of 36 years and more overflow a 32-bit number of epochs: then no epoch is read and an IndexError ends the program."
  },
  {
   "property": "C75",
   "status": "proved",
   "theorems": [
    "Fp.C75_floor_divide",
    "Fp.C75_binning",
    "Fp.C75_slice",
    "Fp.C75_slice_error",
    "Fp.C75_normalize"
   ],
   "note": "The exact results of C26 and C27, for the rounded operations of numpy.  The duration of C75_slice_error has to be representable (any float is)."
  },
  {
   "property": "C76",
   "status": "proved",
   "theorems": [
    "Fp.C76_rounded",
    "Fp.C76_fpfind",
    "Fp.C76_arithmetic",
    "Fp.C76_example",
    "Fp.C63_rounded"
   ],
   "note": "C76_arithmetic shows that doubles and extended precision satisfy the hypothesis; C63_rounded is the end-to-end accuracy of C63 with these errors."
  },
  {
   "property": "C77",
   "status": "proved",
   "theorems": [
    "Fp.C77_detune",
    "Fp.C77_identity",
    "Fp.C77_script"
   ],
   "note": "The factor 1 + ratio is a double, which limits the accuracy to 2^-53 of the interval (0.1 ps for 18 minutes)."
  },
  {
   "property": "C78",
   "status": "proved",
   "theorems": [
    "Fp.C78_write_floor"
   ],
   "note": "Complements C03, which covers times on the grid."
  },
  {
   "property": "C79",
   "status": "proved",
   "theorems": [
    "Fp.C79_input",
    "Fp.C79_correction",
    "Fp.C79_arrays",
    "Fp.C79_aligned"
   ],
   "note": "fpplot takes ppm while fpfind prints the plain ratio; the theorem multiplies by 10^6.  Without any events for fpplot the program ends with an IndexError."
  },
  {
   "property": "C80",
   "status": "partial",
   "theorems": [
    "Fp.C80_int_partial",
    "Fp.C80_float_partial",
    "Fp.C80_digits",
    "Fp.C80_whole",
    "Fp.C80_int_violated",
    "Fp.C80_float_violated",
    "Fp.C80_overflow_violated"
   ],
   "note": "Proved for ints below 2^53 and any number of digits, for floats up to 2^1023 with at most 15 digits.  Beyond, witnesses: round(10**23, sf=1) is 99999999999999991611392, 16 digits are rounded twice, and near the largest double the result is 'inf' or an OverflowError."
  },
  {
   "property": "C81",
   "status": "partial",
   "theorems": [
    "Fp.C81_description_partial",
    "Fp.C81_placeholder_violated"
   ],
   "note": "Proved for descriptions without '~'; the placeholder text itself is replaced by newlines (witness)."
  },
  {
   "property": "C82",
   "status": "proved",
   "theorems": [
    "Fp.C82_text"
   ],
   "note": "Formatting of floats is correctly rounded as in CPython."
  },
  {
   "property": "C83",
   "status": "proved",
   "theorems": [
    "Fp.C83_raw_lines",
    "Fp.C83_wrapped",
    "Fp.C83_invocation"
   ],
   "note": "Wrapping by the base class is a parameter.  Actions without option strings are not modelled (the code prints them to the terminal while formatting)."
  },
  {
   "property": "C84",
   "status": "partial",
   "theorems": [
    "Fp.C84_convert_stream_partial",
    "Fp.C84_convert_inmemory_partial",
    "Fp.C84_inplace_violated",
    "Fp.C84_chain",
    "Fp.C84_checks",
    "Fp.C84_inmemory_atomic"
   ],
   "note": "Missing: times the a0 and a2 readers cannot represent (C05, C06), timing filters on times from 2^53 on (C10), files of fewer than two lines with --inmemory, and a file converted onto itself while streaming, which is emptied without an error (proved for every file)."
  },
  {
   "property": "C85",
   "status": "partial",
   "theorems": [
    "Fp.C85_stream",
    "Fp.C85_exit",
    "Fp.C85_inmemory_partial",
    "Fp.C85_readonly",
    "Fp.C85_unique"
   ],
   "note": "With --inmemory and no event left after filtering, IndexError (proved for every such case)."
  },
  {
   "property": "C86",
   "status": "proved",
   "theorems": [
    "Fp.C86_line",
    "Fp.C86_unique",
    "Fp.C86_float",
    "Fp.C86_output",
    "Fp.C86_program"
   ],
   "note": ""
  },
  {
   "property": "C87",
   "status": "partial",
   "theorems": [
    "Fp.C87_line",
    "Fp.C87_channel_partial",
    "Fp.C87_option_partial",
    "Fp.C87_option_violated"
   ],
   "note": "Missing: reads without a line end, which freqcd drops (C45). -f takes the beginning of a text: 3.33e-06 as 3 units (proved). On the channel, lines with a time or a fraction are ignored, as the theorems say."
  },
  {
   "property": "C88",
   "status": "partial",
   "theorems": [
    "Fp.C88_first",
    "Fp.C88_printed",
    "Fp.C88_plain",
    "Fp.C88_accuracy",
    "Fp.C88_no_peak",
    "Fp.C88_status",
    "Fp.C88_terminates",
    "Fp.C88_fullscan_negation"
   ],
   "note": "With --precomp-fullscan nothing is ever printed (proved). Termination assumes that reading the input ends: always for timestamp files, for epoch files see C20 and C74."
  },
  {
   "property": "C89",
   "status": "proved",
   "theorems": [
    "Fp.C89_pure_delay"
   ],
   "note": "The significance of the peak is a parameter that must pass the threshold. Peaks are required to be strict, also in the correlations of the corrected data with the reference."
  },
  {
   "property": "C90",
   "status": "proved",
   "theorems": [
    "Fp.C90_exact",
    "Fp.C90_double",
    "Fp.C90_exchange"
   ],
   "note": ""
  },
  {
   "property": "C91",
   "status": "proved",
   "theorems": [
    "Fp.C91_same_events"
   ],
   "note": "full_epoch in fractional mode is C15."
  },
  {
   "property": "C92",
   "status": "partial",
   "theorems": [
    "Fp.C92_fields",
    "Fp.C92_warnings_partial",
    "Fp.C92_type1_violated",
    "Fp.C92_written",
    "Fp.C92_padded"
   ],
   "note": "read_T1_header says \"not a Type2 header file\" for every file that is not of type 1 (proved). Names padded by date2epoch warn for every epoch below 2^28 (proved)."
  },
  {
   "property": "C93",
   "status": "proved",
   "theorems": [
    "Fp.C93_result",
    "Fp.C93_fail",
    "Fp.C93_only_first",
    "Fp.C93_doubles"
   ],
   "note": "The significance function is a parameter that returns a number (a NaN would be treated as rejected)."
  },
  {
   "property": "C94",
   "status": "partial",
   "theorems": [
    "Fp.C94_started",
    "Fp.C94_regular_file",
    "Fp.C94_not_started_partial",
    "Fp.C94_channel_violated",
    "Fp.C94_same_file_violated",
    "Fp.C94_status_violated"
   ],
   "note": "If the frequency channel cannot be opened the output file is emptied nevertheless; with the input file as output file its contents are lost with status 0; errors of reading and writing end with status 0 (all proved). File names that overrun their buffer are C54."
  },
  {
   "property": "C95",
   "status": "partial",
   "theorems": [
    "Fp.C95_exact",
    "Fp.C95_one_block",
    "Fp.C95_pipeline",
    "Fp.C95_end_of_range",
    "Fp.C95_reads_violated"
   ],
   "note": "For reads of a regular file. From a pipe the result depends on the reads: with one event per read the numbers of the test in the repository come out differently (proved)."
  },
  {
   "property": "C96",
   "status": "partial",
   "theorems": [
    "Fp.C96_mirrored",
    "Fp.C96_exchange_partial",
    "Fp.C96_time_freq",
    "Fp.C96_half_violated",
    "Fp.C96_tie_violated"
   ],
   "note": "With the exact Fourier transform.  For a delay of half of the bins, and for two equally frequent delays, both orders give the same sign (proved)."
  },
  {
   "property": "C97",
   "status": "partial",
   "theorems": [
    "Fp.C97_invariant_partial",
    "Fp.C97_early_reference",
    "Fp.C97_early_target",
    "Fp.C97_skip_violated",
    "Fp.C97_shell",
    "Fp.C97_shell_instance"
   ],
   "note": "For skipped durations (-t) of a whole number of nanoseconds below 2^52, the default 0 among them.  For others the start is rounded by an amount that depends on the absolute time, and events are kept or lost (witness)."
  },
  {
   "property": "C98",
   "status": "proved",
   "theorems": [
    "Fp.C98_inverse",
    "Fp.C98_test_formula",
    "Fp.C98_test_violated"
   ],
   "note": "The time relation in the tests of the repository, dt'*(1+df')+dt, is not 0 but dt*(1-(1+df')^2) up to the same accuracy (proved): 4 ns for clocks 20 us and 100 ppm apart, while the tests allow 1 ns."
  },
  {
   "property": "C99",
   "status": "partial",
   "theorems": [
    "Fp.C99_order_partial",
    "Fp.C99_125ps_violated"
   ],
   "note": "In fractional mode proved for differences of 33 units of 4 ps; two times 32 units (125 ps) apart can be rounded to the same number (witness)."
  },
  {
   "property": "C100",
   "status": "proved",
   "theorems": [
    "Fp.C100_t1",
    "Fp.C100_t2",
    "Fp.C100_fpfind"
   ],
   "note": "An event without detector bits at a time divisible by 2^54 looks like the terminator of a T1 file (C14) and is excluded."
  },
  {
   "property": "C101",
   "status": "proved",
   "theorems": [
    "Fp.C101_all_applied",
    "Fp.C101_last_counts",
    "Fp.C101_test",
    "Fp.C101_long_violated"
   ],
   "note": "A line of 99 characters or more does not fit in the buffer: its beginning is dropped and its end taken for a line (witness)."
  },
  {
   "property": "C102",
   "status": "proved",
   "theorems": [
    "Fp.C102_composed",
    "Fp.C102_undo"
   ],
   "note": "For runs with reads that do not complete an event see C42."
  },
  {
   "property": "C103",
   "status": "proved",
   "theorems": [
    "Fp.C103_found",
    "Fp.C103_rounded",
    "Fp.C103_count"
   ],
   "note": ""
  },
  {
   "property": "C104",
   "status": "proved",
   "theorems": [
    "Fp.C104_accuracy"
   ],
   "note": "The condition refers to the target times as corrected before the last iteration. When runs get to the final resolution is C105."
  },
  {
   "property": "C105",
   "status": "partial",
   "theorems": [
    "Fp.C105_converges_partial",
    "Fp.C105_violated"
   ],
   "note": "Proved under the conditions of ClearRun (coincidences stand out in every iteration, in the first one after any number of mergings of bins, offsets in the searched ranges with a margin, guard rails respected). The claim without the condition on the guard rails is false: C105_violated is a run in which both iterations see the right delay of 12 ns, but the second one is rejected and 0 is returned."
  },
  {
   "property": "C106",
   "status": "proved",
   "theorems": [
    "Fp.C106_printed"
   ],
   "note": "The conditions are those of C105 (ClearRun), which exclude runs stopped by the guard rails."
  },
  {
   "property": "C107",
   "status": "proved",
   "theorems": [
    "Fp.C107_failed_write",
    "Fp.C107_stored",
    "Fp.C107_refused"
   ],
   "note": "With numpy 1 (pyproject.toml) for numpy elements."
  },
  {
   "property": "C108",
   "status": "partial",
   "theorems": [
    "Fp.C108_success_iff_partial",
    "Fp.C108_read_back_partial",
    "Fp.C108_altered",
    "Fp.C108_violated"
   ],
   "note": "Violated: the words are sums, so values out of range spill into the neighbouring bits. Proved instead: exactly when write_T1 succeeds and what is read back. Detectors 16 to 1023 lose their upper bits; detectors above that change the time; times of another epoch are stored with that epoch as prefix."
  },
  {
   "property": "C109",
   "status": "partial",
   "theorems": [
    "Fp.C109_a1_violated",
    "Fp.C109_t1_violated",
    "Fp.C109_object_partial",
    "Fp.C109_int64_partial",
    "Fp.C109_int64_violated",
    "Fp.C109_int64_wraps_violated"
   ],
   "note": "Violated: every non-empty list from read_a1, and from read_T1 except in its mode with Python integers, raises TypeError after the header was written. int64 arrays work in every first half of 2^17 epochs, are refused in every second half, and wrap around silently for times of 54 bits or more."
  },
  {
   "property": "C110",
   "status": "proved",
   "theorems": [
    "Fp.C110_lines",
    "Fp.C110_stream",
    "Fp.C110_empty",
    "Fp.C110_failures"
   ],
   "note": "Lists of numpy integers are printed as by numpy 1."
  },
  {
   "property": "C111",
   "status": "proved",
   "theorems": [
    "Fp.C111_time_freq",
    "Fp.C111_fpfind"
   ],
   "note": "For skipped durations (-t) of a whole number of nanoseconds below 2^52, as in C97."
  },
  {
   "property": "C112",
   "status": "partial",
   "theorems": [
    "Fp.C112_runs_partial",
    "Fp.C112_only_compiled",
    "Fp.C112_replaces_partial",
    "Fp.C112_relative_violated",
    "Fp.C112_blank_violated"
   ],
   "note": "Proved for paths without blanks. Violated: the first run has the library as its working directory, so relative file names mean other files than in later calls; a path with a blank is cut there; a call by a relative path does not replace the called file."
  },
  {
   "property": "C113",
   "status": "partial",
   "theorems": [
    "Fp.C113_events",
    "Fp.C113_printed",
    "Fp.C113_unchecked",
    "Fp.C113_late_violated"
   ],
   "note": "The part about events is proved. Violated: the significance of the late peak is never looked at; a run whose late correlation is flat (significance 0) returns a frequency that is wrong by 3e-6."
  },
  {
   "property": "C114",
   "status": "proved",
   "theorems": [
    "Fp.C114_two_runs",
    "Fp.C114_exchange",
    "Fp.C114_order_matters"
   ],
   "note": "For conversions without -p and without loading the whole file, as in C84."
  },
  {
   "property": "C115",
   "status": "proved",
   "theorems": [
    "Fp.C115_accurate",
    "Fp.C115_product",
    "Fp.C115_found"
   ],
   "note": "The error of the transforms themselves (scipy.fft) is a parameter."
  },
  {
   "property": "C116",
   "status": "partial",
   "theorems": [
    "Fp.C116_characters",
    "Fp.C116_characters_stream",
    "Fp.C116_bytes",
    "Fp.C116_cut_a0_partial",
    "Fp.C116_newline_a0",
    "Fp.C116_newline_a2",
    "Fp.C116_cut_a2_violated",
    "Fp.C116_cut_a0_violated"
   ],
   "note": "Foreign characters, missing last newlines, and a0 files cut in the first line of an event are proved. Violated: a cut inside the only line (a2) or the second line (a0) of an event is not noticed, and an event with a time that is too early is returned. Stated for times below 2^53 units of 4 ps, see C05 and C06."
  },
  {
   "property": "C117",
   "status": "proved",
   "theorems": [
    "Fp.C117_beginning",
    "Fp.C117_damaged",
    "Fp.C117_no_report"
   ],
   "note": "Conversions in batches; with --inmemory nothing is written (C84_inmemory_atomic). Up to 99999 intact events before the damage are not written."
  },
  {
   "property": "C118",
   "status": "partial",
   "theorems": [
    "Fp.C118_read_a1",
    "Fp.C118_convert_partial",
    "Fp.C118_report",
    "Fp.C118_a2_violated"
   ],
   "note": "Proved for a1 files read at once and for all formats read in batches (conversion and report; files of a2 events on one side of 2^53 units). Violated for a2 files read at once: two readable files on different sides of 2^53 units of 4 ps give a joined file that raises TypeError."
  },
  {
   "property": "C119",
   "status": "proved",
   "theorems": [
    "Fp.C119_fpfind",
    "Fp.C119_time_freq",
    "Fp.C119_first_matters"
   ],
   "note": ""
  },
  {
   "property": "C120",
   "status": "proved",
   "theorems": [
    "Fp.C120_clear",
    "Fp.C120_converges",
    "Fp.C120_printed",
    "Fp.C120_numerics"
   ],
   "note": "The conditions are ClearInput: those of C105, with the condition on the iterations after the first one replaced by one on the recorded events (Prominent). That the first peak is accepted is a condition on the significance."
  },
  {
   "property": "C121",
   "status": "partial",
   "theorems": [
    "Fp.C121_exact",
    "Fp.C121_lost",
    "Fp.C121_file_lost",
    "Fp.C121_excess",
    "Fp.C121_violated",
    "Fp.C121_rate_partial"
   ],
   "note": "The exact output is proved. Violated: the correction since the read before is rounded down in every read. If every event comes less than 2^34/n units after the last event of the read before, a positive correction is lost completely (also for regular files, read in blocks of 1024 events) and a negative one becomes one unit per read, whatever its size. If the reads are at least D units apart the error of the frequency is at most 3/(2D)."
  },
  {
   "property": "C122",
   "status": "partial",
   "theorems": [
    "Fp.C122_pieces_partial",
    "Fp.C122_violated"
   ],
   "note": "Violated: the second run starts again without correction, so all its events differ by the correction between the beginnings of the pieces. Distances inside a piece are the same up to 3/2 units for every read."
  },
  {
   "property": "C123",
   "status": "partial",
   "theorems": [
    "Fp.C123_changing_partial",
    "Fp.C123_between_partial"
   ],
   "note": "Proved for runs in which every read that delivers data completes an event; otherwise violated already for a constant correction (C42_violated)."
  },
  {
   "property": "C124",
   "status": "proved",
   "theorems": [
    "Fp.C124_pipeline",
    "Fp.C124_recordings"
   ],
   "note": "The conditions are those of C106 and C120; regular files, read and written in blocks of 8 KiB, as in C94."
  },
  {
   "property": "C125",
   "status": "proved",
   "theorems": [
    "Fp.C125_exchange",
    "Fp.C125_documented"
   ],
   "note": "Under the conditions of C106 for both orders. Timestamp files only: epoch files of the two sides have different types and cannot be exchanged."
  },
  {
   "property": "C126",
   "status": "proved",
   "theorems": [
    "Fp.C126_clear",
    "Fp.C126_histogram",
    "Fp.C126_accepted",
    "Fp.C126_pairs",
    "Fp.C126_pairs_six",
    "Fp.C126_sharp",
    "Fp.C126_flat",
    "Fp.C126_flat_refused",
    "Fp.C126_second_peak"
   ],
   "note": "Statistics in real arithmetic; the numerical significance used by time_freq is within a given tolerance of it."
  },
  {
   "property": "C127",
   "status": "proved",
   "theorems": [
    "Fp.C127_few_high",
    "Fp.C127_histogram",
    "Fp.C127_pairs",
    "Fp.C127_defined",
    "Fp.C127_accepted",
    "Fp.C127_printed",
    "Fp.C127_enough"
   ],
   "note": "Statistics in real arithmetic; the numerical significance used by time_freq is within a given tolerance of it, numerical correlations are accurate and not negative. Without merging of bins in the first iteration."
  },
  {
   "property": "C128",
   "status": "proved",
   "theorems": [
    "Fp.C128_split",
    "Fp.C128_detectors"
   ],
   "note": "Conversions in batches to another file (see C118 for joining, C114 for several filters)."
  },
  {
   "property": "C129",
   "status": "proved",
   "theorems": [
    "Fp.C129_bound",
    "Fp.C129_refused",
    "Fp.C129_fails",
    "Fp.C129_nothing",
    "Fp.C129_scan",
    "Fp.C129_few_pairs"
   ],
   "note": "Under the conditions stated; the significance and the correlation are numerical ones off by at most a tolerance and half a pair."
  },
  {
   "property": "C130",
   "status": "partial",
   "theorems": [
    "Fp.C130_messages",
    "Fp.C130_program",
    "Fp.C130_reading_partial",
    "Fp.C130_logfile_violated",
    "Fp.C130_root_violated"
   ],
   "note": "The part about the messages of loggers and of fpfind holds. The log file does not get the warnings of the reader of epochs (C130_logfile_violated). Reading a T2 or T4 epoch configures the root logger if it has no handlers, so that a later basicConfig of the application has no effect (C130_root_violated); C130_reading_partial says exactly what reading changes."
  },
  {
   "property": "C131",
   "status": "proved",
   "theorems": [
    "Fp.C131_covered",
    "Fp.C131_ordered",
    "Fp.C131_default",
    "Fp.C131_end_violated",
    "Fp.C131_residual",
    "Fp.C131_program",
    "Fp.C131_tried",
    "Fp.C131_tried_ordered",
    "Fp.C131_disabled"
   ],
   "note": "C131_end_violated proves the last sentence. An instance of C129_scan with two files and the default scan is beside the theorems."
  },
  {
   "property": "C132",
   "status": "partial",
   "theorems": [
    "Fp.C132_timestamps",
    "Fp.C132_fpfind",
    "Fp.C132_testcase",
    "Fp.C132_required",
    "Fp.C132_unknown",
    "Fp.C132_unknown_programs",
    "Fp.C132_names",
    "Fp.C132_letters",
    "Fp.C132_letters_programs",
    "Fp.C132_type",
    "Fp.C132_letters_instance",
    "Fp.C132_abbreviation",
    "Fp.C132_ambiguous",
    "Fp.C132_readme_timestamps",
    "Fp.C132_fpfind_instance",
    "Fp.C132_testcase_instance",
    "Fp.C132_readme_violated",
    "Fp.C132_exponent_violated",
    "Fp.C132_exponent_fpfind",
    "Fp.C132_between_violated",
    "Fp.C132_swallowed_violated"
   ],
   "note": "Everything but the violations is proved; these are proved to be refused. Configuration files of fpfind, integers with white space or underscores, and a resolution or separation of zero are not modelled."
  },
  {
   "property": "C133",
   "status": "partial",
   "theorems": [
    "Fp.C133_timestamps",
    "Fp.C133_convert",
    "Fp.C133_statistics",
    "Fp.C133_fpfind",
    "Fp.C133_prints",
    "Fp.C133_pipeline",
    "Fp.C133_convert_instance",
    "Fp.C133_pipeline_instance",
    "Fp.C133_inplace_violated"
   ],
   "note": "Everything but the conversion of a file onto itself is proved, within the limits of C84, C85, C124 and C132."
  },
  {
   "property": "C134",
   "status": "partial",
   "theorems": [
    "Fp.C134_decimal",
    "Fp.C134_refused_partial",
    "Fp.C134_readme"
   ],
   "note": "Within range everything is proved, within the limits of C42 and C94; refusal holds below 1.25e9 only, because the code accepts larger numbers (C52_violated)."
  },
  {
   "property": "C135",
   "status": "proved",
   "theorems": [
    "Fp.C135_epochs",
    "Fp.C135_too_few",
    "Fp.C135_instance"
   ],
   "note": "For target streams without an event at time 0 of an epoch block without detector (C14), and T2 files of times at multiples of 125 ps."
  },
  {
   "property": "C136",
   "status": "partial",
   "theorems": [
    "Fp.C136_ends",
    "Fp.C136_fpfind_ends",
    "Fp.C136_resolution_violated",
    "Fp.C136_delay_violated",
    "Fp.C136_delay_instance",
    "Fp.C136_fpfind_violated",
    "Fp.C136_shell_violated",
    "Fp.C136_shell_instance"
   ],
   "note": "Termination is proved for separations below \u221a2 (C34 and C88 have those above; next to \u221a2 the search may run for ever, C34_stuck). The rest is false below \u221a2: the resolution is made coarser in every iteration instead of finer, so -r has no effect on what is printed, and exact delayed copies end with an error."
  },
  {
   "property": "C137",
   "status": "partial",
   "theorems": [
    "Fp.C137_irrelevant",
    "Fp.C137_output",
    "Fp.C137_final",
    "Fp.C137_shell",
    "Fp.C137_fullscan_violated",
    "Fp.C137_instance"
   ],
   "note": "Everything but --precomp-fullscan is proved."
  },
  {
   "property": "C138",
   "status": "proved",
   "theorems": [
    "Fp.C138_options",
    "Fp.C138_names",
    "Fp.C138_refused",
    "Fp.C138_events",
    "Fp.C138_chain",
    "Fp.C138_instance"
   ],
   "note": "For frequencies up to 7000 ppm. Calls without words, with -h, --config, --save or --experiment are outside the model (package boiler)."
  },
  {
   "property": "C139",
   "status": "partial",
   "theorems": [
    "Fp.C139_pairs",
    "Fp.C139_accurate",
    "Fp.C139_exact",
    "Fp.C139_exact_search",
    "Fp.C139_search",
    "Fp.C139_program",
    "Fp.C139_call",
    "Fp.C139_call_instance",
    "Fp.C139_merge_violated",
    "Fp.C139_call_violated"
   ],
   "note": "Proved if the first peak is accepted without merging bins, or the bin of delay zero remains the highest one when bins are merged. Otherwise the claim is false: for a recording of ten events, -q 4 -R 1 -s 4096 -r 2 and the default threshold, the merged correlation of the recording with itself is highest at -6 ns, and fpfind prints a frequency of 9.2e-5."
  },
  {
   "property": "C140",
   "status": "proved",
   "theorems": [
    "Fp.C140_times",
    "Fp.C140_converted",
    "Fp.C140_corrected",
    "Fp.C140_instance",
    "Fp.C140_fpfind_instance"
   ],
   "note": "Streaming conversions (no --inmemory), for events each format can represent (C84); time filters in the first conversion need events in order below 2^53 units."
  },
  {
   "property": "C141",
   "status": "partial",
   "theorems": [
    "Fp.C141_layout",
    "Fp.C141_written",
    "Fp.C141_main",
    "Fp.C141_windows",
    "Fp.C141_stream_violated"
   ],
   "note": "Proved for files read at once (--inmemory) and, for the line ends of Windows, in every mode. Violated when streaming: one empty line between two events ends the command with ValueError, proved for every a2 file of fewer than 100000 events."
  },
  {
   "property": "C142",
   "status": "proved",
   "theorems": [
    "Fp.C142_select",
    "Fp.C142_instance"
   ],
   "note": "For regular files, as in C140; filters for times are excluded, since they compare corrected with uncorrected times."
  },
  {
   "property": "C143",
   "status": "proved",
   "theorems": [
    "Fp.C143_times",
    "Fp.C143_shift",
    "Fp.C143_early",
    "Fp.C143_converted",
    "Fp.C143_instance"
   ],
   "note": "The arrays given to the histogram of S15lib; plotting itself is not modelled. For other skipped durations the start is rounded (C97_skip_violated)."
  },
  {
   "property": "C144",
   "status": "proved",
   "theorems": [
    "Fp.C144_skip",
    "Fp.C144_plot",
    "Fp.C144_shell",
    "Fp.C144_plot_shell",
    "Fp.C144_missing",
    "Fp.C144_missing_instance",
    "Fp.C144_instance"
   ],
   "note": "Both runs are compared with enough fuel, so a reader that does not return is the same in both. Negative -z is outside of the model."
  },
  {
   "property": "C145",
   "status": "proved",
   "theorems": [
    "Fp.C145_fpplot",
    "Fp.C145_main",
    "Fp.C145_fpfind",
    "Fp.C145_instance",
    "Fp.C145_plot_instance"
   ],
   "note": "T1 files without the event that looks like the terminator (C14), T2 files as C18 describes; the number of epochs fpfind reads is the one of C74. Skipped durations (-Z) are not used with directories, so the call on timestamp files has none."
  }
 ]
}
