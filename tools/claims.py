claim("C01","proved","C01_a1_file C01_a1_roundtrip C01_a1_roundtrip_raw","All event lists, both word orders, every write and read resolution, every float width >= 54 bits.")
claim("C02","proved","C02_a1_canonical C02_a1_idempotent C02_a1_convert","All byte strings of whole events.")
claim("C03","proved","C03_modes_exact C03_modes_monotone C03_float64_exact_below C03_float64_inexact","")
claim("C04","partial","C04_stream_partial C04_stream_incomplete C04_stream_negation C04_read_incomplete","Proved for files of whole events. Files that end inside an event are described completely: sread_a1 yields the full batches and raises ValueError, losing the complete events after them; read_a1 ignores 1 to 3 bytes and raises for 4 to 7.")
claim("C07","proved","C07_swrite_a0 C07_swrite_a1 C07_swrite_a2","")
claim("C05","partial","C05_a0_file C05_a0_roundtrip_partial C05_a0_negation C05_a0_to_a1_wraps C05_a0_empty","Round trip proved for all times a float64 can represent (below 2^53, and even times above); every odd time from 2^53 on comes back wrong.")
claim("C06","partial","C06_a2_file C06_a2_roundtrip_partial C06_a2_negation_single C06_a2_negation_mixed","Proved for at least two events with homogeneous dtypes; single-event files and files mixing events below and above 2^53 raise TypeError (both proved for every such file).")
claim("C08","partial","C08_sread_a0_partial C08_sread_a2_partial C08_sread_a2_negation","Proved for homogeneous files; for a2 files mixing int64 and uint64 values the outcome depends on the buffer size (witness).")
claim("C09","proved","C09_pattern_filter C09_fifth_bit","All lists, all 4-bit patterns, all four modes. A pattern with the fifth bit removes empty events in the last mode (C09_fifth_bit).")
claim("C10","partial","C10_timing_filter_partial C10_timing_filter_rounded C10_timing_negation","Proved for float arrays and integer times below 2^53; above, numpy compares the rounded time (complete description and witness).")
claim("C11","partial","C11_convert_stream C11_filter_meaning C11_convert_inmemory_partial C11_convert_inmemory_negation","Streaming part proved in full; --inmemory equality proved without timing filter or below 2^53, witness otherwise.")
claim("C12","proved","C12_statistics C12_batching C12_oneshot C12_total","")
claim("C13","partial","C13_report_partial C13_report_raw C13_report_negation","Exact condition proved (first and last time differ); single-event files raise OverflowError.")
claim("C14","partial","C14_t1_file C14_t1_broadcast C14_t1_mismatch C14_t1_roundtrip_partial C14_t1_zero_event","Round trip proved for every list of events whose encoding is not the all-zero word pair; an all-zero event ends reading (proved for every file with one).")
claim("C15","proved","C15_read_T1 C15_full_epoch_int C15_full_epoch_frac","The conversion for all epochs and times; read_T1 for files without the event that ends reading (C14).")
claim("C16","partial","C16_interrupted_partial C16_written_partial C16_negation","Proved for every crash point outside the last event; a crash inside the last event is read as a wrong event (witness); all other events are always right.")
claim("C17","proved","C17_bit_stream","All files, all sequences of widths up to 32.")
claim("C18","proved","C18_t2_decode","All entry lists, widths, trailing bytes and units; with and without full epoch.")
claim("C19","proved","C19_t4_decode C19_t4_length_checked","")
claim("C20","partial","C20_t1_terminates C18_t2_decode C19_t4_decode C20_t2_exact C20_t4_exact C20_t2_negation C20_t4_negation","T1 always terminates; T2/T4 files of any content are read to an end exactly if the timing value 1 follows the entries, otherwise never (both proved); in particular never for files cut after whole entries.")
claim("C21","partial","C21_t2_integer_partial C21_t2_integer_negation","Proved for 1 ns and 125 ps; 4 ps raises TypeError for every non-empty file.")
claim("C22","proved","C22_t3_tallies C22_t3_order C22_t3_inconsistent","")
claim("C23","proved","C23_number_name_number C23_name_number_name C23_names_canonical C23_not_preserved C23_names_distinct C23_accepts C23_negative C23_padding","")
claim("C24","proved","C24_no_overlap C24_first_overlap C24_exhaustive C24_foreign_file","")
claim("C25","proved","C25_concatenation C25_missing C25_sorted C25_wrap C25_t1_files","Also proved: not sorted across a multiple of 2^17 epochs.")
claim("C26","proved","C26_slice_start C26_slice_window C26_slice_relative C26_normalize C26_normalize_independent","Exact arithmetic (C75 for the rounded one); the IndexError cases are part of the statement.")
claim("C27","proved","C27_binning C27_empty","")
claim("C28","proved","C28_correlation C28_odd_length","Exact complex arithmetic. Also proved: an odd number of bins gives one bin less.")
claim("C29","proved","C29_delay_candidates C29_delay_at_index","")
claim("C30","proved","C30_pure_delay","Through C28, i.e. the Fourier transforms in exact arithmetic.")
claim("C31","partial","C31_windows_partial C31_int_center_partial C31_signal_has_max C31_significance C31_float_center_fails","Proved without centre and for integer centres inside the histogram; a float centre (as documented) raises TypeError, and without any background bin the significance raises TypeError (both proved).")
claim("C58","proved","C58_overlap C58_empty","")
claim("C59","proved","C59_centred","")
claim("C60","proved","C60_merging C60_odd","Also proved: an odd number of bins is refused.")
claim("C32","proved","C32_time_freq C32_fpfind C32_example","Exact arithmetic; every correlation and significance function, every number of iterations.")
claim("C33","proved","C33_bounded","For every rounding function; all delay estimates of the trace are bounded, not only the initial one.")
claim("C34","proved","C34_terminates C34_iterations C34_relErr C34_stuck","For every rounding with relative error up to 2^-53. Also proved: with a separation of exactly the double sqrt(2) durations the loop may run forever.")
claim("C35","partial","C35_first_success_partial C35_all_fail C35_fullscan_negation C35_other_error","Proved without fullscan for failures that are ValueErrors; with fullscan the code always raises, and an IndexError aborts the scan (both proved for all inputs).")
claim("C36","proved","C36_alternating C36_ordered C36_each_once C36_degenerate C36_doc_examples","Also proved: two of the four documented examples are not what the code returns.")
claim("C37","partial","C37_frequency_partial C37_time_error C37_negation C37_printed","Frequency inverse and involution proved; the inverted time undoes the correction if and only if dt = 0 or df = 0 (error dt*df*(2+df)).")
claim("C38","partial","C38_exact_partial C38_double_partial C38_negation C38_inverted_negation C38_precompensation_negation","Accepted exactly below 2^-13 - 2^-35; witnesses for values within the bound of time_freq, for inversion and for precompensation.")
claim("C39","proved","C39_events C39_prefix","Also proved for runs that end in an error: the flag bits written are always the first of the input.")
claim("C40","partial","C40_identity_partial C40_violated","Proved unless the first read delivers less than one event; then an uninitialised variable is added to all times (witness).")
claim("C41","proved","C41_no_overflow C41_corrected_time C41_accepted C41_smallest_violated","C41_smallest_violated proves the last sentence, which was added after it was found that the former wording (any accepted correction) is false for -2^31.")
claim("C42","partial","C42_approximation_partial C42_violated","Proved for schedules in which every read completes an event; witness of an error of 2^26 units in three reads otherwise.")
claim("C43","partial","C43_order_partial C43_violated C43_violated_at_end","Proved for schedules in which every read completes an event, corrections in range and times up to 2^54-2^41; witnesses for partial reads and for the end of the range.")
claim("C44","proved","C44_no_fault","Main loop; the file name buffers are C54.")
claim("C47","proved","C47_legacy","Including the way the program stops and short writes.")
claim("C48","proved","C48_killed C48_stopped C48_write_error","")
claim("C49","partial","C49_split_partial C49_stale C49_violated","Proved for reads that complete an event; any other read adds the previous correction once more (proved in general and by a witness).")
claim("C50","partial","C50_stream C50_violated C50_smooth_partial","For every non-zero correction and all times the correction of the first events after the roll-over is wrong by at least 2^20 units; holds only for a zero correction.")
claim("C51","partial","C51_all_written_partial C51_violated","Proved unless reading the frequency channel fails (or a write is incomplete, see C48); witness of a lost event otherwise.")
claim("C55","proved","C55_causality C55_no_jump","The second theorem for schedules in which every read completes an event (for others see C49).")
claim("C61","partial","C61_stream C61_out_of_order","Holds exactly for corrections that are multiples of 2^12; for all others the error is at least 2^30 units (both directions proved).")
claim("C45","partial","C45_exact C45_lines_partial C45_violated","Proved when every read that delivers data contains a line end; a read without a line end is dropped (exact rule proved, witness).")
claim("C46","partial","C46_range C46_update_partial C46_malformed C46_in_range_partial C46_violated C46_wraps C46_huge C46_violated_by_zero_byte C46_command_line_partial C46_command_line_violated","For all inputs the correction is in range or exactly -2^31; -2^31 is accepted from both sources (witnesses), other out-of-range values wrap; numbers beyond 64 bits are applied as -1 or 0 (proved).")
claim("C52","partial","C52_value C52_range_partial C52_command_line_partial C52_violated","Value proved on the documented range, acceptance for |n| < 1250000000; every other n gives -2^31, which is accepted (for n = -1250000000 the conversion itself is defined).")
claim("C53","proved","C53_grouping C53_meaning C53_order C53_first_error C53_terminates C53_missing_argument","For option words made of the known letters; a missing last argument is ignored.")
claim("C54","partial","C54_verbatim_partial C54_overrun C54_blank","Proved for names of 1 to 199 characters without white space; a longer name is written beyond the buffer, a name with white space is cut (both proved).")
claim("C56","partial","C56_event C56_file_partial C56_stdout_partial C56_readback_partial C56_negative C56_interactive C56_empty C56_violated","Proved for the normal word order; -x has no effect because it sets a variable of main only (proved for all inputs, witness).")
claim("C57","partial","C57_violated C57_stdin_partial C57_cleanup C57_pipe","Fails for every file name: the file is overwritten with the standard input. Proved for '-', which leaves all files unchanged.")
claim("C62","partial","C62_whole_seconds_partial C62_bound C62_boundary_violated C62_date C62_roundtrip_violated","Date of an epoch proved for all epochs. date2epoch proved for whole seconds that are not multiples of 2^20; it can be one epoch early at such multiples (witness 2^20), drops fractions of a second, and so does not invert epoch2date (proved for every epoch that does not start on a whole second).")
claim("C63","proved","C63_accuracy C63_rounded","C63_accuracy with exact arithmetic, C63_rounded with every operation rounded.")
claim("C64","proved","C64_pure_delay C64_returns","Exact arithmetic, exact Fourier transforms; the significance of the peak is a parameter that must pass the threshold.")
claim("C65","partial","C65_target_partial C65_reference_partial C65_doubled C65_violated","The roles are exchanged: proved for the target with the inverted output and for the reference with the plain output (doubles, all schedules in which every read completes an event); the plain output doubles the offset of the target (proved for all runs, witness).")
claim("C66","partial","C66_exact C66_counts_partial C66_violated","Exact result proved for all sorted arrays; the last event of the first array is never dropped, so longer delays are counted for it (witness).")
claim("C67","proved","C67_lines C67_message_kept","str.isspace and str(details) are parameters.")
claim("C68","proved","C68_verbosity C68_negative C68_labels C68_handlers","")
claim("C69","proved","C69_profile","")
claim("C70","proved","C70_duration C70_duration_raw C70_inmemory","")
claim("C71","partial","C71_topk_partial C71_one_partial C71_violated C71_refused C71_satisfiable","Proved for k >= 2; for k = 1 the height is missing from the answer (proved for all histograms).")
claim("C72","partial","C72_significance_rescaled C72_g2_rescaled C72_values C72_grouped C72_defined C72_single_bin C72_raw_violated","Exact real arithmetic. significance_raw never returns a number (proved for all inputs).")
claim("C73","partial","C73_violated C73_inputs_violated C73_shift_partial","No call returns (the inner call has too many arguments) and the arrays are shifted in place, both proved for all inputs; the shift is the same for both arrays.")
claim("C74","partial","C74_choice C74_required C74_epochs C74_insufficient C74_no_overlap C74_span_partial C74_violated C74_overflow_violated","The span is proved if both sides have events in the first half of the first and the second half of the last epoch; witness without. Durations of 36 years and more overflow a 32-bit number of epochs: then no epoch is read and an IndexError ends the program.")
claim("C75","proved","C75_floor_divide C75_binning C75_slice C75_slice_error C75_normalize","The exact results of C26 and C27, for the rounded operations of numpy.  The duration of C75_slice_error has to be representable (any float is).")
claim("C76","proved","C76_rounded C76_fpfind C76_arithmetic C76_example C63_rounded","C76_arithmetic shows that doubles and extended precision satisfy the hypothesis; C63_rounded is the end-to-end accuracy of C63 with these errors.")
claim("C77","proved","C77_detune C77_identity C77_script","The factor 1 + ratio is a double, which limits the accuracy to 2^-53 of the interval (0.1 ps for 18 minutes).")
claim("C78","proved","C78_write_floor","Complements C03, which covers times on the grid.")
claim("C79","proved","C79_input C79_correction C79_arrays C79_aligned","fpplot takes ppm while fpfind prints the plain ratio; the theorem multiplies by 10^6.  Without any events for fpplot the program ends with an IndexError.")
claim("C80","partial","C80_int_partial C80_float_partial C80_digits C80_whole C80_int_violated C80_float_violated C80_overflow_violated","Proved for ints below 2^53 and any number of digits, for floats up to 2^1023 with at most 15 digits.  Beyond, witnesses: round(10**23, sf=1) is 99999999999999991611392, 16 digits are rounded twice, and near the largest double the result is 'inf' or an OverflowError.")
claim("C81","partial","C81_description_partial C81_placeholder_violated","Proved for descriptions without '~'; the placeholder text itself is replaced by newlines (witness).")
claim("C82","proved","C82_text","Formatting of floats is correctly rounded as in CPython.")
claim("C83","proved","C83_raw_lines C83_wrapped C83_invocation","Wrapping by the base class is a parameter.  Actions without option strings are not modelled (the code prints them to the terminal while formatting).")
claim("C84","partial","C84_convert_stream_partial C84_convert_inmemory_partial C84_inplace_violated C84_chain C84_checks C84_inmemory_atomic","Missing: times the a0 and a2 readers cannot represent (C05, C06), timing filters on times from 2^53 on (C10), files of fewer than two lines with --inmemory, and a file converted onto itself while streaming, which is emptied without an error (proved for every file).")
claim("C85","partial","C85_stream C85_exit C85_inmemory_partial C85_readonly C85_unique","With --inmemory and no event left after filtering, IndexError (proved for every such case).")
claim("C86","proved","C86_line C86_unique C86_float C86_output C86_program","")
claim("C87","partial","C87_line C87_channel_partial C87_option_partial C87_option_violated","Missing: reads without a line end, which freqcd drops (C45). -f takes the beginning of a text: 3.33e-06 as 3 units (proved). On the channel, lines with a time or a fraction are ignored, as the theorems say.")
claim("C88","partial","C88_first C88_printed C88_plain C88_accuracy C88_no_peak C88_status C88_terminates C88_fullscan_negation","With --precomp-fullscan nothing is ever printed (proved). Termination assumes that reading the input ends: always for timestamp files, for epoch files see C20 and C74.")
claim("C89","proved","C89_pure_delay","The significance of the peak is a parameter that must pass the threshold. Peaks are required to be strict, also in the correlations of the corrected data with the reference.")
claim("C90","proved","C90_exact C90_double C90_exchange","")
claim("C91","proved","C91_same_events","full_epoch in fractional mode is C15.")
claim("C92","partial","C92_fields C92_warnings_partial C92_type1_violated C92_written C92_padded","read_T1_header says \"not a Type2 header file\" for every file that is not of type 1 (proved). Names padded by date2epoch warn for every epoch below 2^28 (proved).")
claim("C93","proved","C93_result C93_fail C93_only_first C93_doubles","The significance function is a parameter that returns a number (a NaN would be treated as rejected).")
claim("C94","partial","C94_started C94_regular_file C94_not_started_partial C94_channel_violated C94_same_file_violated C94_status_violated","If the frequency channel cannot be opened the output file is emptied nevertheless; with the input file as output file its contents are lost with status 0; errors of reading and writing end with status 0 (all proved). File names that overrun their buffer are C54.")
claim("C95","partial","C95_exact C95_one_block C95_pipeline C95_end_of_range C95_reads_violated","For reads of a regular file. From a pipe the result depends on the reads: with one event per read the numbers of the test in the repository come out differently (proved).")
claim("C96","partial","C96_mirrored C96_exchange_partial C96_time_freq C96_half_violated C96_tie_violated","With the exact Fourier transform.  For a delay of half of the bins, and for two equally frequent delays, both orders give the same sign (proved).")
claim("C97","partial","C97_invariant_partial C97_early_reference C97_early_target C97_skip_violated C97_shell C97_shell_instance","For skipped durations (-t) of a whole number of nanoseconds below 2^52, the default 0 among them.  For others the start is rounded by an amount that depends on the absolute time, and events are kept or lost (witness).")
claim("C98","proved","C98_inverse C98_test_formula C98_test_violated","The time relation in the tests of the repository, dt'*(1+df')+dt, is not 0 but dt*(1-(1+df')^2) up to the same accuracy (proved): 4 ns for clocks 20 us and 100 ppm apart, while the tests allow 1 ns.")
claim("C99","partial","C99_order_partial C99_125ps_violated","In fractional mode proved for differences of 33 units of 4 ps; two times 32 units (125 ps) apart can be rounded to the same number (witness).")
claim("C100","proved","C100_t1 C100_t2 C100_fpfind","An event without detector bits at a time divisible by 2^54 looks like the terminator of a T1 file (C14) and is excluded.")
claim("C101","proved","C101_all_applied C101_last_counts C101_test C101_long_violated","A line of 99 characters or more does not fit in the buffer: its beginning is dropped and its end taken for a line (witness).")
claim("C102","proved","C102_composed C102_undo","For runs with reads that do not complete an event see C42.")
claim("C103","proved","C103_found C103_rounded C103_count","")
claim("C104","proved","C104_accuracy","The condition refers to the target times as corrected before the last iteration. When runs get to the final resolution is C105.")
claim("C105","partial","C105_converges_partial C105_violated","Proved under the conditions of ClearRun (coincidences stand out in every iteration, in the first one after any number of mergings of bins, offsets in the searched ranges with a margin, guard rails respected). The claim without the condition on the guard rails is false: C105_violated is a run in which both iterations see the right delay of 12 ns, but the second one is rejected and 0 is returned.")
claim("C106","proved","C106_printed","The conditions are those of C105 (ClearRun), which exclude runs stopped by the guard rails.")
claim("C107","proved","C107_failed_write C107_stored C107_refused","With numpy 1 (pyproject.toml) for numpy elements.")
claim("C108","partial","C108_success_iff_partial C108_read_back_partial C108_altered C108_violated","Violated: the words are sums, so values out of range spill into the neighbouring bits. Proved instead: exactly when write_T1 succeeds and what is read back. Detectors 16 to 1023 lose their upper bits; detectors above that change the time; times of another epoch are stored with that epoch as prefix.")
claim("C109","partial","C109_a1_violated C109_t1_violated C109_object_partial C109_int64_partial C109_int64_violated C109_int64_wraps_violated","Violated: every non-empty list from read_a1, and from read_T1 except in its mode with Python integers, raises TypeError after the header was written. int64 arrays work in every first half of 2^17 epochs, are refused in every second half, and wrap around silently for times of 54 bits or more.")
claim("C110","proved","C110_lines C110_stream C110_empty C110_failures","Lists of numpy integers are printed as by numpy 1.")
claim("C111","proved","C111_time_freq C111_fpfind","For skipped durations (-t) of a whole number of nanoseconds below 2^52, as in C97.")
claim("C112","partial","C112_runs_partial C112_only_compiled C112_replaces_partial C112_relative_violated C112_blank_violated","Proved for paths without blanks. Violated: the first run has the library as its working directory, so relative file names mean other files than in later calls; a path with a blank is cut there; a call by a relative path does not replace the called file.")
claim("C113","partial","C113_events C113_printed C113_unchecked C113_late_violated","The part about events is proved. Violated: the significance of the late peak is never looked at; a run whose late correlation is flat (significance 0) returns a frequency that is wrong by 3e-6.")
claim("C114","proved","C114_two_runs C114_exchange C114_order_matters","For conversions without -p and without loading the whole file, as in C84.")
claim("C115","proved","C115_accurate C115_product C115_found","The error of the transforms themselves (scipy.fft) is a parameter.")
claim("C116","partial","C116_characters C116_characters_stream C116_bytes C116_cut_a0_partial C116_newline_a0 C116_newline_a2 C116_cut_a2_violated C116_cut_a0_violated","Foreign characters, missing last newlines, and a0 files cut in the first line of an event are proved. Violated: a cut inside the only line (a2) or the second line (a0) of an event is not noticed, and an event with a time that is too early is returned. Stated for times below 2^53 units of 4 ps, see C05 and C06.")
claim("C117","proved","C117_beginning C117_damaged C117_no_report","Conversions in batches; with --inmemory nothing is written (C84_inmemory_atomic). Up to 99999 intact events before the damage are not written.")
claim("C118","partial","C118_read_a1 C118_convert_partial C118_report C118_a2_violated","Proved for a1 files read at once and for all formats read in batches (conversion and report; files of a2 events on one side of 2^53 units). Violated for a2 files read at once: two readable files on different sides of 2^53 units of 4 ps give a joined file that raises TypeError.")
claim("C119","proved","C119_fpfind C119_time_freq C119_first_matters","")
claim("C120","proved","C120_clear C120_converges C120_printed C120_numerics","The conditions are ClearInput: those of C105, with the condition on the iterations after the first one replaced by one on the recorded events (Prominent). That the first peak is accepted is a condition on the significance.")
claim("C121","partial","C121_exact C121_lost C121_file_lost C121_excess C121_violated C121_rate_partial","The exact output is proved. Violated: the correction since the read before is rounded down in every read. If every event comes less than 2^34/n units after the last event of the read before, a positive correction is lost completely (also for regular files, read in blocks of 1024 events) and a negative one becomes one unit per read, whatever its size. If the reads are at least D units apart the error of the frequency is at most 3/(2D).")
claim("C122","partial","C122_pieces_partial C122_violated","Violated: the second run starts again without correction, so all its events differ by the correction between the beginnings of the pieces. Distances inside a piece are the same up to 3/2 units for every read.")
claim("C123","partial","C123_changing_partial C123_between_partial","Proved for runs in which every read that delivers data completes an event; otherwise violated already for a constant correction (C42_violated).")
claim("C124","proved","C124_pipeline C124_recordings","The conditions are those of C106 and C120; regular files, read and written in blocks of 8 KiB, as in C94.")
claim("C125","proved","C125_exchange C125_documented","Under the conditions of C106 for both orders. Timestamp files only: epoch files of the two sides have different types and cannot be exchanged.")
claim("C126","proved","C126_clear C126_histogram C126_accepted C126_pairs C126_pairs_six C126_sharp C126_flat C126_flat_refused C126_second_peak","Statistics in real arithmetic; the numerical significance used by time_freq is within a given tolerance of it.")
claim("C127","proved","C127_few_high C127_histogram C127_pairs C127_defined C127_accepted C127_printed C127_enough","Statistics in real arithmetic; the numerical significance used by time_freq is within a given tolerance of it, numerical correlations are accurate and not negative. Without merging of bins in the first iteration.")
claim("C128","proved","C128_split C128_detectors","Conversions in batches to another file (see C118 for joining, C114 for several filters).")
claim("C129","proved","C129_bound C129_refused C129_fails C129_nothing C129_scan C129_few_pairs","Under the conditions stated; the significance and the correlation are numerical ones off by at most a tolerance and half a pair.")
claim("C130","partial","C130_messages C130_program C130_reading_partial C130_logfile_violated C130_root_violated","The part about the messages of loggers and of fpfind holds. The log file does not get the warnings of the reader of epochs (C130_logfile_violated). Reading a T2 or T4 epoch configures the root logger if it has no handlers, so that a later basicConfig of the application has no effect (C130_root_violated); C130_reading_partial says exactly what reading changes.")
claim("C131","proved","C131_covered C131_ordered C131_default C131_end_violated C131_residual C131_program C131_tried C131_tried_ordered C131_disabled","C131_end_violated proves the last sentence. An instance of C129_scan with two files and the default scan is beside the theorems.")
claim("C132","partial","C132_timestamps C132_fpfind C132_testcase C132_required C132_unknown C132_unknown_programs C132_names C132_letters C132_letters_programs C132_type C132_letters_instance C132_abbreviation C132_ambiguous C132_readme_timestamps C132_fpfind_instance C132_testcase_instance C132_readme_violated C132_exponent_violated C132_exponent_fpfind C132_between_violated C132_swallowed_violated","Everything but the violations is proved; these are proved to be refused. Configuration files of fpfind, integers with white space or underscores, and a resolution or separation of zero are not modelled.")
claim("C133","partial","C133_timestamps C133_convert C133_statistics C133_fpfind C133_prints C133_pipeline C133_convert_instance C133_pipeline_instance C133_inplace_violated","Everything but the conversion of a file onto itself is proved, within the limits of C84, C85, C124 and C132.")
claim("C134","partial","C134_decimal C134_refused_partial C134_readme","Within range everything is proved, within the limits of C42 and C94; refusal holds below 1.25e9 only, because the code accepts larger numbers (C52_violated).")
claim("C135","proved","C135_epochs C135_too_few C135_instance","For target streams without an event at time 0 of an epoch block without detector (C14), and T2 files of times at multiples of 125 ps.")
claim("C136","partial","C136_ends C136_fpfind_ends C136_resolution_violated C136_delay_violated C136_delay_instance C136_fpfind_violated C136_shell_violated C136_shell_instance","Termination is proved for separations below √2 (C34 and C88 have those above; next to √2 the search may run for ever, C34_stuck). The rest is false below √2: the resolution is made coarser in every iteration instead of finer, so -r has no effect on what is printed, and exact delayed copies end with an error.")
claim("C137","partial","C137_irrelevant C137_output C137_final C137_shell C137_fullscan_violated C137_instance","Everything but --precomp-fullscan is proved.")
claim("C138","proved","C138_options C138_names C138_refused C138_events C138_chain C138_instance","For frequencies up to 7000 ppm. Calls without words, with -h, --config, --save or --experiment are outside the model (package boiler).")
claim("C139","partial","C139_pairs C139_accurate C139_exact C139_exact_search C139_search C139_program C139_call C139_call_instance C139_merge_violated C139_call_violated","Proved if the first peak is accepted without merging bins, or the bin of delay zero remains the highest one when bins are merged. Otherwise the claim is false: for a recording of ten events, -q 4 -R 1 -s 4096 -r 2 and the default threshold, the merged correlation of the recording with itself is highest at -6 ns, and fpfind prints a frequency of 9.2e-5.")
claim("C140","proved","C140_times C140_converted C140_corrected C140_instance C140_fpfind_instance","Streaming conversions (no --inmemory), for events each format can represent (C84); time filters in the first conversion need events in order below 2^53 units.")
claim("C141","partial","C141_layout C141_written C141_main C141_windows C141_stream_violated","Proved for files read at once (--inmemory) and, for the line ends of Windows, in every mode. Violated when streaming: one empty line between two events ends the command with ValueError, proved for every a2 file of fewer than 100000 events.")
claim("C142","proved","C142_select C142_instance","For regular files, as in C140; filters for times are excluded, since they compare corrected with uncorrected times.")
claim("C143","proved","C143_times C143_shift C143_early C143_converted C143_instance","The arrays given to the histogram of S15lib; plotting itself is not modelled. For other skipped durations the start is rounded (C97_skip_violated).")
claim("C144","proved","C144_skip C144_plot C144_shell C144_plot_shell C144_missing C144_missing_instance C144_instance","Both runs are compared with enough fuel, so a reader that does not return is the same in both. Negative -z is outside of the model.")
claim("C145","proved","C145_fpplot C145_main C145_fpfind C145_instance C145_plot_instance","T1 files without the event that looks like the terminator (C14), T2 files as C18 describes; the number of epochs fpfind reads is the one of C74. Skipped durations (-Z) are not used with directories, so the call on timestamp files has none.")
