{
 "claims": [
  {
   "property": "C01",
   "status": "proved",
   "theorems": [
    "C01_line_roundtrip",
    "C01_exact"
   ],
   "note": "Under the two explicit hypotheses that the data do not quote a header and do not begin with another event name; for lines without a newline these two are also necessary (C01_exact)."
  },
  {
   "property": "C02",
   "status": "partial",
   "theorems": [
    "C02_data_can_forge_header_refuted",
    "C02_forged_refuted",
    "C02_header_independent_of_data_partial",
    "C02_paren_refuted",
    "C02_exact_partial"
   ],
   "note": "False as stated (a witness, and every line whose data have a dash and then something like a header); the positive theorem needs data that quote no header. For lines with a tgid, data that have a closing parenthesis and the second half of a header are excluded as well: C02_paren_refuted shows that the CPU, the time and the payload recorded for them come from the data after the parenthesis."
  },
  {
   "property": "C03",
   "status": "proved",
   "theorems": [
    "C03_foreign_line"
   ],
   "note": ""
  },
  {
   "property": "C04",
   "status": "proved",
   "theorems": [
    "C04_times_strictly_increase",
    "C04_no_overflow",
    "C04_overflow_refuted"
   ],
   "note": "For traces in which no time reaches +inf; a condition on the texts that guarantees this is proved, and the failure at +inf (400-digit timestamps) is proved as a refutation."
  },
  {
   "property": "C05",
   "status": "proved",
   "theorems": [
    "C05_minimal_adjustment",
    "C05_increasing_kept"
   ],
   "note": ""
  },
  {
   "property": "C06",
   "status": "proved",
   "theorems": [
    "C06_seconds",
    "C06_nanoseconds",
    "C06_nanoseconds_exact"
   ],
   "note": ""
  },
  {
   "property": "C07",
   "status": "proved",
   "theorems": [
    "C07_base_and_end",
    "C07_independent_of_events"
   ],
   "note": ""
  },
  {
   "property": "C08",
   "status": "proved",
   "theorems": [
    "C08_rows_come_from_lines",
    "C08_each_line_once"
   ],
   "note": ""
  },
  {
   "property": "C09",
   "status": "proved",
   "theorems": [
    "C09_dispatch",
    "C09_nonfallback_wins"
   ],
   "note": ""
  },
  {
   "property": "C10",
   "status": "proved",
   "theorems": [
    "C10_same_dispatch_same_table",
    "C10_other_events_irrelevant"
   ],
   "note": ""
  },
  {
   "property": "C11",
   "status": "proved",
   "theorems": [
    "C11_line_order"
   ],
   "note": ""
  },
  {
   "property": "C12",
   "status": "proved",
   "theorems": [
    "C12_payload_roundtrip"
   ],
   "note": ""
  },
  {
   "property": "C13",
   "status": "proved",
   "theorems": [
    "C13_int_literals",
    "C13_cast",
    "C13_decimal_roundtrip",
    "C13_decimal_usual",
    "C13_hex_roundtrip"
   ],
   "note": ""
  },
  {
   "property": "C14",
   "status": "proved",
   "theorems": [
    "C14_error_iff",
    "C14_leading_word"
   ],
   "note": ""
  },
  {
   "property": "C15",
   "status": "proved",
   "theorems": [
    "C15_arrays_exploded",
    "C15_elements"
   ],
   "note": ""
  },
  {
   "property": "C16",
   "status": "proved",
   "theorems": [
    "C16_equal_columns",
    "C16_words"
   ],
   "note": ""
  },
  {
   "property": "C17",
   "status": "partial",
   "theorems": [
    "C17_nontermination_refuted",
    "C17_table_never_built_refuted",
    "C17_terminates_partial",
    "C17_table_terminates_partial"
   ],
   "note": "False as stated: the loop never ends on a payload p{}={c d}, for all words p, c and d. Termination is proved unless names (the text of a word before its first equals sign) have both closing and opening braces."
  },
  {
   "property": "C18",
   "status": "partial",
   "theorems": [
    "C18_exact_partial",
    "C18_later_arrays_refuted",
    "C18_no_array_first",
    "C18_all_exploded_partial",
    "C18_unchanged_exact"
   ],
   "note": "False as stated: nothing is exploded if the first payload has no array. Holds when it has one. C18_unchanged_exact says for all payloads which tables are left as they are."
  },
  {
   "property": "C19",
   "status": "partial",
   "theorems": [
    "C19_trailing_empty_array_refuted",
    "C19_empty_arrays_removed_partial",
    "C19_no_empty_array",
    "C19_end_refuted"
   ],
   "note": "False for an empty array at the end of the payload; holds for those followed by a blank."
  },
  {
   "property": "C20",
   "status": "partial",
   "theorems": [
    "C20_window_exact_partial",
    "C20_relative_window",
    "C20_relative_window_real",
    "C20_absolute_window_partial",
    "C20_zero_end_refuted",
    "C20_zero_end_exact"
   ],
   "note": "Relative windows in full; absolute windows unless their end is 0, which the code takes for no end (refuted): that is right exactly if no event follows the start."
  },
  {
   "property": "C21",
   "status": "partial",
   "theorems": [
    "C21_ends",
    "C21_exact_partial",
    "C21_intersection_refuted",
    "C21_intersection_partial",
    "C21_nothing_lost_partial"
   ],
   "note": "False when both windows have an end: the later end is used. Holds when at most one has an end; no row in both windows is ever lost."
  },
  {
   "property": "C22",
   "status": "proved",
   "theorems": [
    "C22_times_unaffected",
    "C22_same_row_same_time"
   ],
   "note": ""
  },
  {
   "property": "C23",
   "status": "proved",
   "theorems": [
    "C23_normalised"
   ],
   "note": ""
  },
  {
   "property": "C24",
   "status": "partial",
   "theorems": [
    "C24_distinct_refuted",
    "C24_distinct_partial",
    "C24_exact_partial"
   ],
   "note": "False: two events one binary64 step apart can get the same normalised time. Holds for times that are not neighbouring numbers, and (exactly) up to twice the base time."
  },
  {
   "property": "C25",
   "status": "proved",
   "theorems": [
    "C25_duration"
   ],
   "note": ""
  },
  {
   "property": "C26",
   "status": "proved",
   "theorems": [
    "C26_unregister_undoes",
    "C26_unregistered"
   ],
   "note": ""
  },
  {
   "property": "C27",
   "status": "proved",
   "theorems": [
    "C27_scopes",
    "C27_requested"
   ],
   "note": ""
  },
  {
   "property": "C28",
   "status": "proved",
   "theorems": [
    "C28_accepted_iff",
    "C28_word_table",
    "C28_constructor"
   ],
   "note": ""
  },
  {
   "property": "C29",
   "status": "proved",
   "theorems": [
    "C29_name_of_runs",
    "C29_distinct",
    "C29_case_collision"
   ],
   "note": ""
  },
  {
   "property": "C30",
   "status": "proved",
   "theorems": [
    "C30_add_event",
    "C30_never_overwritten"
   ],
   "note": ""
  },
  {
   "property": "C31",
   "status": "proved",
   "theorems": [
    "C31_redirect"
   ],
   "note": ""
  },
  {
   "property": "C32",
   "status": "partial",
   "theorems": [
    "C32_warm_cache_refuted",
    "C32_no_events_refuted",
    "C32_warm_cache_partial"
   ],
   "note": "False as stated: without any event class the cached parse reports times 0, a line with the words of two classes can go to both, and FTrace cannot use a cache written by SysTrace. Holds for all other histories, given a faithful CSV and JSON."
  },
  {
   "property": "C33",
   "status": "proved",
   "theorems": [
    "C33_stale_cache_ignored",
    "C33_changed_trace"
   ],
   "note": "First theorem: any environment, any stale directory. Second: whole histories, for faithful CSV and JSON and unambiguous lines."
  },
  {
   "property": "C34",
   "status": "partial",
   "theorems": [
    "C34_unreadable_refuted",
    "C34_exact",
    "C34_readable_partial",
    "C34_warm_partial"
   ],
   "note": "False: a parse killed right after creating the cache directory makes every later parse fail. Later parses succeed if the directory is missing or the metadata complete, in particular when the killed parse found one of its tables in the cache. Proved exactly which states of the disk can be parsed; all others stay unreadable forever."
  },
  {
   "property": "C35",
   "status": "partial",
   "theorems": [
    "C35_wrong_data_refuted",
    "C35_no_wrong_data_partial"
   ],
   "note": "False: a parse killed between two rows of a table makes later parses return the shorter table. For all crash points, later parses that do not use the one unfinished file fail or are right."
  },
  {
   "property": "C36",
   "status": "proved",
   "theorems": [
    "C36_disabled"
   ],
   "note": ""
  },
  {
   "property": "C37",
   "status": "partial",
   "theorems": [
    "C37_missing_tables_refuted",
    "C37_cache_wiped",
    "C37_missing_tables_partial"
   ],
   "note": "False when none of the requested tables is cached: the whole directory is emptied. Holds when at least one is."
  },
  {
   "property": "C38",
   "status": "partial",
   "theorems": [
    "C38_shared_entry_refuted",
    "C38_own_entry_partial"
   ],
   "note": "False for two classes with the same Python name. Holds for different names."
  },
  {
   "property": "C39",
   "status": "partial",
   "theorems": [
    "C39_text",
    "C39_header",
    "C39_types_partial",
    "C39_types_refuted",
    "C39_missing"
   ],
   "note": "False: a task name that is a number, or null, changes its type or value. Texts of fields always survive; types and values survive exactly for columns of 64-bit integers, of floats, of booleans, of texts not all of another type, and of texts that are integers too large. Assumes that floats are read as written, which pandas promises only with float_precision='round_trip'."
  },
  {
   "property": "C40",
   "status": "proved",
   "theorems": [
    "C40_finalised_once"
   ],
   "note": "Under the hypotheses of C33_changed_trace."
  },
  {
   "property": "C41",
   "status": "proved",
   "theorems": [
    "C41_callbacks",
    "C41_count",
    "C41_dict"
   ],
   "note": ""
  },
  {
   "property": "C42",
   "status": "proved",
   "theorems": [
    "C42_path",
    "C42_read_exists"
   ],
   "note": ""
  },
  {
   "property": "C43",
   "status": "proved",
   "theorems": [
    "C43_header",
    "C43_only_header"
   ],
   "note": ""
  },
  {
   "property": "C44",
   "status": "proved",
   "theorems": [
    "C44_body",
    "C44_nothing"
   ],
   "note": ""
  },
  {
   "property": "C45",
   "status": "proved",
   "theorems": [
    "C45_end_marker",
    "C45_begin_marker",
    "C45_counter_marker",
    "C45_row"
   ],
   "note": ""
  },
  {
   "property": "C46",
   "status": "partial",
   "theorems": [
    "C46_sys_enter_partial",
    "C46_sys_exit",
    "C46_negative_number_refuted",
    "C46_exact"
   ],
   "note": "False for sys_enter with a negative call number, which ends the parse with ValueError. Holds for all other numbers, and for sys_exit with all numbers."
  },
  {
   "property": "C47",
   "status": "proved",
   "theorems": [
    "C47_sched_switch",
    "C47_arrow"
   ],
   "note": ""
  },
  {
   "property": "C48",
   "status": "proved",
   "theorems": [
    "C48_popcount",
    "C48_printed"
   ],
   "note": ""
  },
  {
   "property": "C49",
   "status": "partial",
   "theorems": [
    "C49_pad",
    "C49_mask_partial",
    "C49_binary_mask_refuted",
    "C49_exact"
   ],
   "note": "Padding itself is proved for all cells. From the printed mask to the table it is false for masks that begin with 0b, which are read as binary numbers; proved for all other masks of at most eight digits, and exactly which masks are kept."
  },
  {
   "property": "C50",
   "status": "partial",
   "theorems": [
    "C50_pivot_partial",
    "C50_unlabelled",
    "C50_freqs",
    "C50_shared_label_refuted",
    "C50_duplicate_time_refuted",
    "C50_exact",
    "C50_shared_lost_refuted"
   ],
   "note": "False when two clusters share a label (one of them is lost) and when one of several clusters reports twice at one time (ValueError). Holds for all other tables in time order and all iteration orders of the set of clusters."
  },
  {
   "property": "C51",
   "status": "partial",
   "theorems": [
    "C51_normalised_partial",
    "C51_bound",
    "C51_table_partial",
    "C51_absent_cluster_refuted",
    "C51_absent_refuted",
    "C51_exact"
   ],
   "note": "The formula and the bound hold for all tables in which every labelled cluster occurs; with a labelled cluster that does not occur the call raises ValueError."
  },
  {
   "property": "C52",
   "status": "proved",
   "theorems": [
    "C52_idle",
    "C52_idempotent"
   ],
   "note": ""
  },
  {
   "property": "C53",
   "status": "proved",
   "theorems": [
    "C53_ext4"
   ],
   "note": ""
  },
  {
   "property": "C54",
   "status": "partial",
   "theorems": [
    "C54_f2fs_partial",
    "C54_f2fs_words_partial",
    "C54_sync_exit_partial",
    "C54_comma_refuted",
    "C54_commas_refuted",
    "C54_exact"
   ],
   "note": "False for values with a comma, such as device numbers; proved for values without commas and equals signs, of one word or several, and with 'checkpoint is' for f2fs_sync_file_exit."
  },
  {
   "property": "C55",
   "status": "proved",
   "theorems": [
    "C55_clock",
    "C55_name",
    "C55_no_fields"
   ],
   "note": ""
  },
  {
   "property": "C56",
   "status": "partial",
   "theorems": [
    "C56_unique_partial",
    "C56_four_duplicates_refuted",
    "C56_collision_refuted"
   ],
   "note": "False for four or more equal times followed by a time at most max_delta * 2^(k-2) later. Proved, with exact arithmetic, for groups of at most three and for all groups followed by a wider gap or by nothing."
  },
  {
   "property": "C57",
   "status": "partial",
   "theorems": [
    "C57_rows",
    "C57_rows_partial",
    "C57_identity",
    "C57_frame",
    "C57_first_moved_refuted"
   ],
   "note": "Rows are kept in order for all inputs. First entries keep their times under the condition of C56; otherwise they can be moved."
  },
  {
   "property": "C58",
   "status": "proved",
   "theorems": [
    "C58_levels",
    "C58_clusters"
   ],
   "note": ""
  },
  {
   "property": "C59",
   "status": "proved",
   "theorems": [
    "C59_unified",
    "C59_unified_indexer"
   ],
   "note": ""
  },
  {
   "property": "C60",
   "status": "partial",
   "theorems": [
    "C60_mask",
    "C60_filters_partial",
    "C60_list_refuted",
    "C60_list_exact"
   ],
   "note": "False for lists: all values of a list are required at once, so two different values never match anything and an empty list matches everything. Proved for single values, callables and missing columns; C60_mask says for all inputs what is selected."
  },
  {
   "property": "C61",
   "status": "partial",
   "theorems": [
    "C61_base",
    "C61_repeatable_partial",
    "C61_first_call_partial",
    "C61_single_nodes_partial",
    "C61_repeat_refuted",
    "C61_overlap_refuted",
    "C61_accumulates_refuted"
   ],
   "note": "False without an aggregation function: sums are added in place to the stored series. Proved with a function that returns a new object, for all sequences of calls; without one for the first call with disjoint groups, and for levels of single nodes."
  },
  {
   "property": "C62",
   "status": "partial",
   "theorems": [
    "C62_align_partial",
    "C62_nan_refuted",
    "C62_nan_front_refuted",
    "C62_exact"
   ],
   "note": "False for series with NaN, which counts as activity; proved for all series of equal length without NaN. With NaN, proved exactly when the activities coincide: if they are as far from the first (last) sample that is not zero."
  },
  {
   "property": "C63",
   "status": "proved",
   "theorems": [
    "C63_precedence",
    "C63_text",
    "C63_compact",
    "C63_fuel",
    "C63_unambiguous"
   ],
   "note": "For every expression of the grammar and every interpretation of the operators. pyparsing is modelled by tokens; a signed number is only read in an exponent. Texts may have blanks after any token, and must have them only between two words or two operators."
  },
  {
   "property": "C64",
   "status": "partial",
   "theorems": [
    "C64_events_partial",
    "C64_events_refuted",
    "C64_same_name_refuted"
   ],
   "note": "False if two events have a column of the same name: the second accessor denotes the data of the first, also across expressions. Proved if accesses with the same column are of the same event."
  },
  {
   "property": "C65",
   "status": "proved",
   "theorems": [
    "C65_selection"
   ],
   "note": ""
  },
  {
   "property": "C66",
   "status": "proved",
   "theorems": [
    "C66_series",
    "C66_keys",
    "C66_partition",
    "C66_whole",
    "C66_marker_refuted",
    "C66_exact"
   ],
   "note": "The partition theorem excludes pivot cells equal to the string reserved for plots without a pivot; C66_marker_refuted shows why."
  },
  {
   "property": "C67",
   "status": "proved",
   "theorems": [
    "C67_when",
    "C67_zip",
    "C67_messages"
   ],
   "note": ""
  },
  {
   "property": "C68",
   "status": "proved",
   "theorems": [
    "C68_pivots",
    "C68_fails",
    "C68_pairs"
   ],
   "note": "Pivot values are integers or texts; texts that are all decimal or all hexadecimal are ordered by their number, as the code does."
  },
  {
   "property": "C69",
   "status": "proved",
   "theorems": [
    "C69_when",
    "C69_room",
    "C69_cells",
    "C69_distinct",
    "C69_finish"
   ],
   "note": ""
  },
  {
   "property": "C70",
   "status": "partial",
   "theorems": [
    "C70_exact_partial",
    "C70_axis_partial",
    "C70_crash_refuted",
    "C70_missing_refuted"
   ],
   "note": "False: with two constraints and more pivots than plots per line IndexError is raised, for all such inputs; a missing series shifts the later ones. Proved for one constraint, one row or one column if all series exist."
  },
  {
   "property": "C71",
   "status": "proved",
   "theorems": [
    "C71_table",
    "C71_figures",
    "C71_data"
   ],
   "note": ""
  },
  {
   "property": "C72",
   "status": "partial",
   "theorems": [
    "C72_intervals_partial",
    "C72_exact_partial",
    "C72_order_partial",
    "C72_rename_refuted"
   ],
   "note": "False if a task changed its name and its switch-out was lost: a complete run is deleted and the lost one drawn to the end. Proved for all tables in which a task whose end was lost has the same name when switched to again, in particular for all tables without lost events; C72_exact_partial: for tables in the order of time, these are exactly the ones that are drawn rightly."
  },
  {
   "property": "C73",
   "status": "partial",
   "theorems": [
    "C73_partial",
    "C73_names_partial",
    "C73_rename_refuted",
    "C73_new_name_refuted",
    "C73_first_partial",
    "C73_empty_refuted"
   ],
   "note": "False: IndexError for an empty table, and for all tables in which a task is switched to under a new name after its switch-out was lost. At the first change of a name, proved exactly when the error occurs."
  },
  {
   "property": "C74",
   "status": "proved",
   "theorems": [
    "C74_lanes",
    "C74_unknown",
    "C74_numbered",
    "C74_groups",
    "C74_keys",
    "C74_plot"
   ],
   "note": ""
  },
  {
   "property": "C75",
   "status": "proved",
   "theorems": [
    "C75_decode",
    "C75_invalid",
    "C75_unknown",
    "C75_list"
   ],
   "note": ""
  },
  {
   "property": "C76",
   "status": "proved",
   "theorems": [
    "C76_first",
    "C76_readable"
   ],
   "note": ""
  },
  {
   "property": "C77",
   "status": "proved",
   "theorems": [
    "C77_run_number"
   ],
   "note": ""
  },
  {
   "property": "C78",
   "status": "partial",
   "theorems": [
    "C78_weights_partial",
    "C78_weights_refuted",
    "C78_each_refuted"
   ],
   "note": "False for every number of cooling devices above ten: the files are sorted as text. Proved for up to ten. With more, each of the actors 1 to 9 gets the weight of another device."
  },
  {
   "property": "C79",
   "status": "proved",
   "theorems": [
    "C79_export",
    "C79_once",
    "C79_missing"
   ],
   "note": ""
  },
  {
   "property": "C80",
   "status": "proved",
   "theorems": [
    "C80_forward",
    "C80_args",
    "C80_defaults"
   ],
   "note": ""
  },
  {
   "property": "C81",
   "status": "partial",
   "theorems": [
    "C81_temperature_partial",
    "C81_temperature_refuted"
   ],
   "note": "False if a run without data precedes one with data: KeyError. Proved if the runs without data come last."
  },
  {
   "property": "C82",
   "status": "partial",
   "theorems": [
    "C82_stacked_partial",
    "C82_grouped_partial",
    "C82_lengths_refuted",
    "C82_stacked_one_refuted",
    "C82_grouped_exact",
    "C82_stacked_exact",
    "C82_bottoms_exact"
   ],
   "note": "False for series of different lengths: an exception, or wrong bottoms after a series of one value. Proved for equal lengths, with exact rationals for floats; proved exactly for which series there is an exception, grouped and stacked, and where bottoms are missing."
  },
  {
   "property": "C83",
   "status": "partial",
   "theorems": [
    "C83_concurrent_refuted",
    "C83_wrong_data_refuted",
    "C83_outdated_refuted",
    "C83_disabled_partial",
    "C83_readers_partial",
    "C83_cold_partial",
    "C83_together_partial"
   ],
   "note": "False: there are schedules under which the second process fails or silently loses rows. Also false when both find an outdated cache: removing it can fail. Holds for processes with the cache disabled, for processes that only read a complete cache, for a process that finds no cache when it starts (whatever the others do), and for two processes that start together, which leave the cache one of them would leave alone."
  },
  {
   "property": "C84",
   "status": "partial",
   "theorems": [
    "C84_total",
    "C84_average_partial",
    "C84_undefined_refuted",
    "C84_exact_partial"
   ],
   "note": "The bound holds always. The total is not the average over the defined groups: the weight of undefined groups stays in the denominator, and NaN counts as active."
  },
  {
   "property": "C85",
   "status": "proved",
   "theorems": [
    "C85_uniform",
    "C85_pad",
    "C85_resample"
   ],
   "note": "With exact arithmetic; in floating point arange may yield one value more."
  },
  {
   "property": "C86",
   "status": "partial",
   "theorems": [
    "C86_header_columns_refuted",
    "C86_header_columns_partial",
    "C86_payload_columns",
    "C86_exact"
   ],
   "note": "False for payloads that print keys named like header columns; holds for all others. Exactly when a header value is kept is proved."
  },
  {
   "property": "C87",
   "status": "partial",
   "theorems": [
    "C87_trailing_colon_refuted",
    "C87_trailing_colon_partial",
    "C87_unregistered_refuted"
   ],
   "note": "False for events without a registered class: the unique word gets a second colon. Holds for registered events."
  },
  {
   "property": "C88",
   "status": "partial",
   "theorems": [
    "C88_text_kept_refuted",
    "C88_text_kept_partial",
    "C88_exact"
   ],
   "note": "False in a systrace for texts that start with a capital letter: the row then only holds that letter. Holds for all other texts and always in an FTrace."
  },
  {
   "property": "C89",
   "status": "proved",
   "theorems": [
    "C89_rename",
    "C89_lookup"
   ],
   "note": ""
  },
  {
   "property": "C90",
   "status": "partial",
   "theorems": [
    "C90_span_partial",
    "C90_index",
    "C90_all_refuted",
    "C90_all_exact"
   ],
   "note": "False for the level all: its span is the number of nodes, not of groups, for every topology but those with one node."
  },
  {
   "property": "C91",
   "status": "partial",
   "theorems": [
    "C91_const_partial",
    "C91_column_refuted",
    "C91_last_filter_refuted"
   ],
   "note": "False for columns: the column given is never used; UnboundLocalError without filters. Proved for constants."
  },
  {
   "property": "C92",
   "status": "partial",
   "theorems": [
    "C92_single_trigger_refuted",
    "C92_list_partial"
   ],
   "note": "False: a single trigger raises TypeError. A list with one trigger works."
  },
  {
   "property": "C93",
   "status": "partial",
   "theorems": [
    "C93_trailing_refuted",
    "C93_ignored_refuted",
    "C93_no_operand_partial",
    "C93_exponent"
   ],
   "note": "False: whatever follows the longest expression is ignored. Proved for text without a first operand."
  },
  {
   "property": "C94",
   "status": "proved",
   "theorems": [
    "C94_super_index",
    "C94_loads",
    "C94_class",
    "C94_unknown"
   ],
   "note": "With the defaults (pad, no limit, fill); for tables whose times increase strictly and whose rows have a pivot value; concat is taken to sort the union of indices."
  },
  {
   "property": "C95",
   "status": "partial",
   "theorems": [
    "C95_window_partial",
    "C95_inside_partial",
    "C95_start_refuted",
    "C95_end_refuted",
    "C95_none",
    "C95_window_exact"
   ],
   "note": "False for every window that starts before the first row (nothing is kept, or an exception), and, with releases of pandas that raise for NaN, for every window that ends after the last row; proved in all other cases."
  },
  {
   "property": "C96",
   "status": "partial",
   "theorems": [
    "C96_permute_partial",
    "C96_permute_refuted",
    "C96_templates_refuted",
    "C96_exact",
    "C96_number_refuted"
   ],
   "note": "False: duplicated constraints, templates crossed with columns. Proved exactly what the code does produce, and when there is one constraint for each trace and column."
  },
  {
   "property": "C97",
   "status": "partial",
   "theorems": [
    "C97_concat_partial",
    "C97_concat_refuted",
    "C97_axis_refuted",
    "C97_exact",
    "C97_one_trace_refuted"
   ],
   "note": "False for one trace with several columns. Proved exactly: the series of constraint i are on cell i if and only if the constraints with data have their own number as trace index."
  },
  {
   "property": "C98",
   "status": "partial",
   "theorems": [
    "C98_data_partial",
    "C98_perm_partial",
    "C98_data_refuted",
    "C98_exact",
    "C98_perm_exact"
   ],
   "note": "False for traces of the same name. It holds exactly if the labels of the constraints with data are different."
  },
  {
   "property": "C99",
   "status": "partial",
   "theorems": [
    "C99_titles_partial",
    "C99_titles_refuted",
    "C99_wrong_refuted",
    "C99_exact",
    "C99_several_refuted"
   ],
   "note": "False with two pivot values: IndexError or a wrong title. Proved with one; exactly which titles there are, and when IndexError is raised, is proved."
  },
  {
   "property": "C100",
   "status": "partial",
   "theorems": [
    "C100_colours_partial",
    "C100_none_partial",
    "C100_mixed_refuted",
    "C100_colours_exact"
   ],
   "note": "False if only some signals have a colour: TypeError. Proved if all have one or none has."
  },
  {
   "property": "C101",
   "status": "partial",
   "theorems": [
    "C101_parameters_partial",
    "C101_parameters_refuted",
    "C101_cut",
    "C101_empty",
    "C101_digits_refuted"
   ],
   "note": "False for a file without a newline at its end: the last digit is lost. Proved if each file ends with a newline."
  },
  {
   "property": "C103",
   "status": "partial",
   "theorems": [
    "C103_last",
    "C103_weighted_partial",
    "C103_weighted_refuted"
   ],
   "note": "False for actors of the same name. Proved for different names, with exact rationals for floats."
  },
  {
   "property": "C104",
   "status": "partial",
   "theorems": [
    "C104_size_partial",
    "C104_size_refuted",
    "C104_exact"
   ],
   "note": "False if only the width is given: the height is rounded down. Proved for the other cases, and for this one exactly if the width is a whole multiple of the golden ratio."
  },
  {
   "property": "C105",
   "status": "proved",
   "theorems": [
    "C105_columns"
   ],
   "note": ""
  },
  {
   "property": "C106",
   "status": "partial",
   "theorems": [
    "C106_histograms_partial",
    "C106_histograms_refuted",
    "C106_titles_refuted"
   ],
   "note": "False: every histogram of input frequencies is titled as output. Axes and data are proved."
  },
  {
   "property": "C107",
   "status": "partial",
   "theorems": [
    "C107_combine_partial",
    "C107_combine_refuted",
    "C107_exact"
   ],
   "note": "False: benchmarks that are not in the first result are dropped, whatever is combined. Proved for those of the first result."
  },
  {
   "property": "C102",
   "status": "partial",
   "theorems": [
    "C102_complete_partial",
    "C102_complete_refuted",
    "C102_exact"
   ],
   "note": "False for a script that does not end with a newline. Proved for those that do."
  },
  {
   "property": "C108",
   "status": "partial",
   "theorems": [
    "C108_dots",
    "C108_inspect_partial",
    "C108_empty_refuted",
    "C108_unknown",
    "C108_inspect_exact"
   ],
   "note": "False for an event without rows that has a pivot: KeyError. Proved for all others."
  },
  {
   "property": "C109",
   "status": "partial",
   "theorems": [
    "C109_operators",
    "C109_variables_partial",
    "C109_words_refuted",
    "C109_unknown_partial",
    "C109_unknown_refuted",
    "C109_accessor"
   ],
   "note": "False for variables called nan, inf or infinity, and for unknown names if there is a column named by their second letter."
  },
  {
   "property": "C110",
   "status": "partial",
   "theorems": [
    "C110_functions_partial",
    "C110_callable_refuted",
    "C110_calls"
   ],
   "note": "False for callables that are not Python functions (built-ins, numpy functions): they are ignored."
  },
  {
   "property": "C111",
   "status": "partial",
   "theorems": [
    "C111_samples_partial",
    "C111_distinct",
    "C111_duplicate_refuted",
    "C111_exact"
   ],
   "note": "False for series with many samples at one time: the merge raises. Proved for all series that can be spread apart (C56), and exactly when the merge raises."
  },
  {
   "property": "C112",
   "status": "partial",
   "theorems": [
    "C112_post_partial",
    "C112_pre_partial",
    "C112_times",
    "C112_unsorted_refuted",
    "C112_single"
   ],
   "note": "False for series with the same times, five or more of which coincide: the merged times are not sorted. Proved whenever the merged times are sorted, which they are unless all series have the same times."
  },
  {
   "property": "C113",
   "status": "partial",
   "theorems": [
    "C113_exact_partial",
    "C113_line_partial",
    "C113_between",
    "C113_ends",
    "C113_line_refuted"
   ],
   "note": "False whenever the times are not equally spaced. Proved for equally spaced times; for all times the value is between those of the neighbours."
  },
  {
   "property": "C114",
   "status": "partial",
   "theorems": [
    "C114_names",
    "C114_lines_partial",
    "C114_numbers",
    "C114_labels_refuted",
    "C114_column_refuted",
    "C114_exact"
   ],
   "note": "False for pivots with equal labels. Proved exactly if the pivots with data have distinct labels, which numbers have by default."
  },
  {
   "property": "C115",
   "status": "proved",
   "theorems": [
    "C115_limit"
   ],
   "note": ""
  },
  {
   "property": "C116",
   "status": "partial",
   "theorems": [
    "C116_builtins_accepted_partial",
    "C116_requested_refuted",
    "C116_exact"
   ],
   "note": "False for requested events whose name contains a unique word without colon, such as sys_enter_openat: the constructor raises. Proved for the built-in parsers and requested events apart from them; for a single event this is exact."
  },
  {
   "property": "C117",
   "status": "partial",
   "theorems": [
    "C117_word_in_line",
    "C117_own_lines_partial",
    "C117_foreign_lines_partial",
    "C117_foreign_lines_refuted",
    "C117_exact"
   ],
   "note": "False for events whose name contains a unique word without colon or ends with one, and for lines with a unique word in the task name or payload. Proved without these; which lines are taken by no parser is given exactly."
  },
  {
   "property": "C118",
   "status": "partial",
   "theorems": [
    "C118_command",
    "C118_builtin_raw",
    "C118_raw_names_partial",
    "C118_raw_names_refuted",
    "C118_exact",
    "C118_raw_exact",
    "C118_registered_refuted"
   ],
   "note": "False for dynamic parsers whose class name is not that of the event. Proved for all built-in parsers; the shape of the command for all registries."
  },
  {
   "property": "C119",
   "status": "partial",
   "theorems": [
    "C119_no_leftovers_partial",
    "C119_no_leftovers_refuted",
    "C119_no_leftovers_exact"
   ],
   "note": "False whenever a step raises. Proved if none does, or if everything was cached."
  },
  {
   "property": "C120",
   "status": "partial",
   "theorems": [
    "C120_filters",
    "C120_filters_literal_partial",
    "C120_no_key",
    "C120_filters_refuted",
    "C120_filters_exact"
   ],
   "note": "False for keys with a dot, which stands for any character. Proved for keys of letters, digits and underscores; other characters are not modelled."
  },
  {
   "property": "C121",
   "status": "proved",
   "theorems": [
    "C121_read_back",
    "C121_read_back_arrays",
    "C121_read_back_times",
    "C121_all_or_none"
   ],
   "note": "For lines, payloads and files of the form of the statement (TraceEvent.Head, WF or ArrWF, Readable, TraceFile); before finalize_object, and for classes that do not override generate_data_dict or create_dataframe."
  },
  {
   "property": "C122",
   "status": "partial",
   "theorems": [
    "C122_zone_partial",
    "C122_all_zones",
    "C122_governor",
    "C122_zone0_refuted",
    "C122_other_zone_refuted",
    "C122_governor_off_refuted",
    "C122_exact"
   ],
   "note": "False for zone 0, for zones without data and for runs whose governor was off. Proved for other zones with data in both tables, and for all zones and runs exactly when the plot is right."
  },
  {
   "property": "C123",
   "status": "partial",
   "theorems": [
    "C123_positional",
    "C123_power_partial",
    "C123_exact",
    "C123_order_refuted"
   ],
   "note": "False if the columns of the table are not in the order of their numbers. Proved if they are, and for all tables of different columns only then."
  },
  {
   "property": "C124",
   "status": "partial",
   "theorems": [
    "C124_inout_partial",
    "C124_exact",
    "C124_longer_refuted",
    "C124_prefix_refuted"
   ],
   "note": "False if a column merely begins like an input column. Proved otherwise; for all tables, exactly when the call raises and what is drawn."
  },
  {
   "property": "C125",
   "status": "partial",
   "theorems": [
    "C125_freqs_partial",
    "C125_missing_refuted",
    "C125_absent_refuted"
   ],
   "note": "False (KeyError) for a labelled cluster that is not in both tables. Proved for tables whose clusters are the labelled ones, with distinct labels and at most one row per cluster and time."
  },
  {
   "property": "C126",
   "status": "partial",
   "theorems": [
    "C126_load_partial",
    "C126_no_gpu",
    "C126_normalised_partial",
    "C126_unsorted_refuted",
    "C126_unsorted_exact"
   ],
   "note": "False for releases of pandas whose concat does not sort the times. Proved where it does."
  },
  {
   "property": "C127",
   "status": "partial",
   "theorems": [
    "C127_axes_partial",
    "C127_empty_axis_refuted",
    "C127_exact"
   ],
   "note": "False for a GPU that has only input rows, and for runs without them if others have them. Proved: always enough, and exactly when it is exact."
  },
  {
   "property": "C128",
   "status": "partial",
   "theorems": [
    "C128_drawn_partial",
    "C128_lasting_refuted",
    "C128_overlap_refuted"
   ],
   "note": "False for events that overlap in a lane: for all events followed by two shorter ones, in all later windows. Proved if starts and ends of each lane are in order."
  },
  {
   "property": "C129",
   "status": "partial",
   "theorems": [
    "C129_colour_partial",
    "C129_shift_refuted",
    "C129_exact",
    "C129_none_refuted"
   ],
   "note": "False if an earlier name has no colour: proved if all earlier names have one, and exactly when else it is right. Every name without a colour is drawn in that of another."
  },
  {
   "property": "C130",
   "status": "partial",
   "theorems": [
    "C130_zoom",
    "C130_brush_partial",
    "C130_narrow_refuted",
    "C130_exact",
    "C130_moved_refuted"
   ],
   "note": "False for a brush narrower than a 4096th of the range, and what is shown then is proved. The zoom is proved without restriction."
  },
  {
   "property": "C131",
   "status": "partial",
   "theorems": [
    "C131_markers_partial",
    "C131_difference",
    "C131_margin_refuted",
    "C131_label_refuted",
    "C131_beside_refuted",
    "C131_sign_refuted"
   ],
   "note": "False for clicks beside the plot, and for the label of the difference, whose sign is the other. Proved for clicks within the window."
  },
  {
   "property": "C132",
   "status": "partial",
   "theorems": [
    "C132_info_refuted",
    "C132_sound_partial",
    "C132_flat_partial"
   ],
   "note": "False for all data that are grouped by lanes: nothing is ever found. Proved for data of any shape: what would be found is an event under the mouse; and for lists of events, as the function expects them: an event under the mouse is found."
  },
  {
   "property": "C133",
   "status": "proved",
   "theorems": [
    "C133_ranges",
    "C133_zoom",
    "C133_rows"
   ],
   "note": ""
  },
  {
   "property": "C134",
   "status": "proved",
   "theorems": [
    "C134_object"
   ],
   "note": ""
  },
  {
   "property": "C135",
   "status": "proved",
   "theorems": [
    "C135_no_line_lost"
   ],
   "note": ""
  },
  {
   "property": "C136",
   "status": "partial",
   "theorems": [
    "C136_marker_partial",
    "C136_marker_array_refuted",
    "C136_marker_hangs_refuted",
    "C136_marker_raises_refuted",
    "C136_marker_exact"
   ],
   "note": "False for texts with braces, which are rewritten, make the constructor raise or keep it from ever returning. Proved for texts without braces, and exactly which texts are kept among those without empty arrays (C136_marker_exact)."
  },
  {
   "property": "C137",
   "status": "partial",
   "theorems": [
    "C137_sampled_partial",
    "C137_stride_refuted"
   ],
   "note": "False: the argument is not used, so that any number of lines is drawn. Proved of the function of the browser, if it were given the argument."
  },
  {
   "property": "C138",
   "status": "partial",
   "theorems": [
    "C138_groups_partial",
    "C138_correlator",
    "C138_held",
    "C138_total",
    "C138_first_node_refuted",
    "C138_functions_partial"
   ],
   "note": "False without an aggregation function: the coefficient of the first node is the one of all nodes. Proved for groups without the first node, and with functions for all groups."
  },
  {
   "property": "C139",
   "status": "partial",
   "theorems": [
    "C139_better_partial",
    "C139_undefined_refuted",
    "C139_undefined_exact"
   ],
   "note": "False if one coefficient is undefined: it counts as zero. Proved if both are defined, and exactly what is chosen if not."
  },
  {
   "property": "C140",
   "status": "proved",
   "theorems": [
    "C140_limits"
   ],
   "note": ""
  },
  {
   "property": "C141",
   "status": "partial",
   "theorems": [
    "C141_permute_partial",
    "C141_permute_refuted",
    "C141_columns_refuted",
    "C141_missing_refuted",
    "C141_rows_refuted",
    "C141_grid_refuted",
    "C141_absent_refuted"
   ],
   "note": "False for the usual call with several traces and one column (every plot shows all traces, titled with the last), for more columns than traces (exception), for plots that do not fit in a row (IndexError) and for a pivot value missing in one constraint (KeyError). Proved for as many columns as traces, in one row or one column of plots, with all series there."
  },
  {
   "property": "C142",
   "status": "partial",
   "theorems": [
    "C142_plain_partial",
    "C142_concat_partial",
    "C142_concat_refuted",
    "C142_plain_refuted",
    "C142_concat_columns_refuted",
    "C142_grid_refuted"
   ],
   "note": "False (always IndexError) for several constraints and more pivot values than fit in a row of at least two plots; if a constraint has no series for a pivot value; and for several columns of one trace with concat=True, which always raises. Proved if all series are there."
  },
  {
   "property": "C143",
   "status": "partial",
   "theorems": [
    "C143_published_partial",
    "C143_d3_refuted",
    "C143_urls",
    "C143_suffix_refuted",
    "C143_rest",
    "C143_old_d3"
   ],
   "note": "False for d3, which is looked for under a name it does not have, and for the scripts of others, whose addresses get `.js` twice. Proved for every text: no other local path is left, each is replaced by an address of a file with the name of the script, and texts without such paths are kept. That RequireJS appends `.js` is taken from its documentation."
  },
  {
   "property": "C144",
   "status": "proved",
   "theorems": [
    "C144_target"
   ],
   "note": "For all names of notebooks and output files."
  },
  {
   "property": "C145",
   "status": "partial",
   "theorems": [
    "C145_installed_partial",
    "C145_broken_refuted",
    "C145_pages",
    "C145_kept_exact",
    "C145_part_refuted"
   ],
   "note": "False once a download has broken in the middle: the part that was received is never replaced. Proved for any number of calls without such a download, including calls without a connection."
  },
  {
   "property": "C146",
   "status": "partial",
   "theorems": [
    "C146_seen_partial",
    "C146_script_refuted",
    "C146_proto_refuted",
    "C146_keys_refuted",
    "C146_integers",
    "C146_integers_refuted"
   ],
   "note": "False if a title, a column or a process has `</script>` in its name, which ends the script and leaves an expression that cannot be read; if two keys have the same text; if a key is `__proto__`; and for odd integers above 2^53. Proved for all other data: json.dumps followed by the lexer and the literals of JavaScript gives back the value. The text of a float (repr) is given, and pages with `<!--` in a script are not modelled."
  },
  {
   "property": "C147",
   "status": "partial",
   "theorems": [
    "C147_figures",
    "C147_failing_refuted",
    "C147_limit"
   ],
   "note": "False when there are several lines and the last one is not full: the page has a script for each empty cell, and it fails because there is no figure for it. Proved otherwise for all arguments and data: from the arguments of the constructor over the text of the page to the graphs that the scripts make in the browser."
  },
  {
   "property": "C148",
   "status": "partial",
   "theorems": [
    "C148_colour_partial",
    "C148_colour_refuted",
    "C148_concat_refuted"
   ],
   "note": "False: colours are taken in the order of the columns of a figure, so a signal without data for a pivot moves the colours of the signals after it, and with concat=True all signals have the first colour. Proved exactly when a signal has its colour."
  },
  {
   "property": "C149",
   "status": "partial",
   "theorems": [
    "C149_independent",
    "C149_ranges",
    "C149_zoom",
    "C149_removed",
    "C149_hash_refuted"
   ],
   "note": "False for plots without a group: it is str(hash(self)), and once the Python object is gone another one may have the same hash, so that a later plot changes the ranges of the earlier one. Proved for all sequences of events if the groups differ; Dygraph.synchronize is taken as documented."
  },
  {
   "property": "C150",
   "status": "partial",
   "theorems": [
    "C150_lines",
    "C150_signals",
    "C150_messages",
    "C150_unknown",
    "C150_column_refuted",
    "C150_message_refuted",
    "C150_signal_refuted"
   ],
   "note": "False in three ways: a column that does not exist is accepted and shows nothing; a DataFrame with a template or a trace without one is not refused with a message but fails later; nor is a signal of an unknown event if there is a DataFrame. Proved: exactly which arguments are accepted, what each line holds, when each message is given, and that signals are the same as templates and columns."
  },
  {
   "property": "C151",
   "status": "proved",
   "theorems": [
    "C151_file_to_browser",
    "C151_missing"
   ],
   "note": "For pivots and columns that have an integer in every event, and one column. Times are those of MinimalTimes: equal times are moved apart by the parser (C05)."
  },
  {
   "property": "C152",
   "status": "partial",
   "theorems": [
    "C152_options",
    "C152_scatter",
    "C152_errors",
    "C152_marker_refuted",
    "C152_color_refuted",
    "C152_exact"
   ],
   "note": "False: with scatter the marker and line style that were given are replaced, and a registered option `color` makes every plot fail with TypeError. Proved for all sequences of registrations: exactly which options are passed, and exactly when drawing fails."
  },
  {
   "property": "C153",
   "status": "partial",
   "theorems": [
    "C153_size",
    "C153_scaled",
    "C153_size_refuted",
    "C153_scaled_exact"
   ],
   "note": "False: with one plot in a row the sizes are scaled and then truncated, so that a length of 1.5 becomes 1 and a length of 0.5 becomes 0. Proved for several plots in a row, and for one if the width is at least 2/3 and the length is whole or at least 4; C153_scaled_exact is the exact condition."
  },
  {
   "property": "C154",
   "status": "partial",
   "theorems": [
    "C154_drawn_refuted",
    "C154_failure",
    "C154_layout",
    "C154_default_size"
   ],
   "note": "False for all inputs: PlotLayout reads the title, which the correlator does not give and which has no default; the method always fails. Proved which exception is raised, and that PlotLayout works with any title."
  },
  {
   "property": "C155",
   "status": "partial",
   "theorems": [
    "C155_visible",
    "C155_empty",
    "C155_nan_refuted",
    "C155_other_refuted",
    "C155_exact",
    "C155_outside_refuted"
   ],
   "note": "False if the first value is NaN, since min and max are then NaN and nothing is done, and if another figure is current, whose limits are then read. Proved otherwise."
  },
  {
   "property": "C156",
   "status": "partial",
   "theorems": [
    "C156_plot_trace_partial",
    "C156_cpus_refuted",
    "C156_number_refuted"
   ],
   "note": "False for every trace whose header does not give the number of CPUs before the first event (TypeError) and for every trace with a switch to a task whose name is a number (AttributeError), whatever is asked for. Proved otherwise; a task whose end was lost must have the same name when it is switched to again (see C73)."
  },
  {
   "property": "C157",
   "status": "partial",
   "theorems": [
    "C157_systrace",
    "C157_plot_partial",
    "C157_no_switch_refuted",
    "C157_window_refuted",
    "C157_path"
   ],
   "note": "False for every systrace without a switch (KeyError in the constructor, as the table has no columns) and for every plot of a window without a switch. Proved otherwise, exactly; a task whose end was lost must have the same name when it is switched to again (see C73). The class tracing_mark_write is left out, see C45."
  },
  {
   "property": "C158",
   "status": "partial",
   "theorems": [
    "C158_calls",
    "C158_missing",
    "C158_index_refuted"
   ],
   "note": "False for lines with a field called Index: the callback gets the field, and the time is lost. Proved for all other files as an equality of lists of calls; also that a callback for an event that is not parsed prevents all calls."
  },
  {
   "property": "C159",
   "status": "partial",
   "theorems": [
    "C159_solve_partial",
    "C159_evaluates",
    "C159_pivots",
    "C159_logical_refuted",
    "C159_syscalls_refuted"
   ],
   "note": "False for logical operators on data and for the events of system calls: for all files such expressions have no value. Proved for expressions without functions and names, over columns of integers that belong to one event each (C64 has the refutation for columns of two events): the times, the columns and every cell of the result, and sufficient conditions for a result."
  },
  {
   "property": "C160",
   "status": "partial",
   "theorems": [
    "C160_compare_partial",
    "C160_no_power",
    "C160_refuses",
    "C160_keywords",
    "C160_summary",
    "C160_some_weights_refuted",
    "C160_hist_titles_refuted",
    "C160_temp_hist_refuted",
    "C160_zone_refuted",
    "C160_weights_refuted",
    "C160_temp_hist_exact"
   ],
   "note": "False whenever only some runs have weights (for all runs), for the titles of the histograms of input frequencies and of the GPU, when a run without temperatures comes before one with them (exactly then, for the histograms) and for a zone without governor events. Proved for any number of runs that report the labelled clusters, with a sorting concat: no exception, the order of the figures and everything drawn for each run and axis."
  },
  {
   "property": "C161",
   "status": "partial",
   "theorems": [
    "C161_aggregate_partial",
    "C161_sum_partial",
    "C161_missing",
    "C161_no_lines_refuted"
   ],
   "note": "False when the event of a trigger has no line with the field of the pivot: KeyError for all such files. Proved otherwise for all files, for triggers with numbers as values, filters that are callables, values or lists of one value, and distinct times."
  },
  {
   "property": "C162",
   "status": "partial",
   "theorems": [
    "C162_concat_partial",
    "C162_plain_partial",
    "C162_whole",
    "C162_missing_refuted",
    "C162_title"
   ],
   "note": "False when a file lacks a value of the pivot that another one has: wrong titles and legends. Proved when every file has every value; without concat, for one file, one row of plots or one column of plots. Without a pivot proved when every file has a line that passes the filters."
  },
  {
   "property": "C163",
   "status": "partial",
   "theorems": [
    "C163_cached_partial",
    "C163_replaced_partial",
    "C163_same_iff",
    "C163_names_refuted"
   ],
   "note": "False for texts that pandas reads as something else: with a task named null in a line of the event, or names of digits only, the trace that is opened again differs. Proved for every sequence of openings of files whose columns CSV keeps, also when the file is replaced (by one with another digest) in between; also proved that two openings agree if and only if CSV keeps the columns."
  },
  {
   "property": "C164",
   "status": "partial",
   "theorems": [
    "C164_page",
    "C164_tag_refuted",
    "C164_plot_trace_partial",
    "C164_script_refuted",
    "C164_options"
   ],
   "note": "False if a task that is asked for, or a label, has the end tag of a script in its name: then nothing is drawn, proved for all such files and plots. Proved for all other files and plots, if the end of a run was lost only for tasks that keep their name, and if the times are printed so that the browser reads the same numbers."
  },
  {
   "property": "C165",
   "status": "partial",
   "theorems": [
    "C165_reader",
    "C165_results_partial",
    "C165_blank_refuted",
    "C165_axis_refuted",
    "C165_title_refuted",
    "C165_title_exact"
   ],
   "note": "False for files with an empty line, benchmarks that are not in all files, and results with an axis of their own. Proved for all files whose rows have a metric and whose scores are numbers, with the exact condition under which they can be combined. The order of the bars of a figure within a run is left out."
  },
  {
   "property": "C166",
   "status": "partial",
   "theorems": [
    "C166_versions",
    "C166_releases",
    "C166_prereleases",
    "C166_served_partial",
    "C166_urls",
    "C166_candidate_refuted",
    "C166_session_refuted",
    "C166_installed",
    "C166_slash",
    "C166_page_paths",
    "C166_line_paths",
    "C166_line_files",
    "C166_line_call"
   ],
   "note": "False for release candidates and development versions of IPython: no interactive plot can be made with them (ValueError). Before version 4.0 plots fail outside of a session. Proved for all versions that can be compared, which are characterised exactly, and without broken downloads (C145)."
  },
  {
   "property": "C167",
   "status": "partial",
   "theorems": [
    "C167_rows",
    "C167_warning",
    "C167_meminfo",
    "C167_short_refuted",
    "C167_none_refuted",
    "C167_growing_partial"
   ],
   "note": "The rows never depend on the memory and there is at most one warning. That low memory is always reported is false: an event with at most 10000 lines is checked only at its first line, and a machine with no free memory is not reported. The readings of getrusage are arbitrary; nine tenths are exact."
  },
  {
   "property": "C168",
   "status": "partial",
   "theorems": [
    "C168_view",
    "C168_saved_partial",
    "C168_first",
    "C168_half_refuted",
    "C168_none",
    "C168_test_refuted"
   ],
   "note": "False if the drawing stops with an error: the figure is set before anything is drawn, so savefig then writes half a figure. And view(test=True) of one plot ends the interaction of all later ones. Proved for plots that can be drawn."
  },
  {
   "property": "C169",
   "status": "partial",
   "theorems": [
    "C169_exact_partial",
    "C169_texts",
    "C169_small",
    "C169_missing_refuted",
    "C169_optimize",
    "C169_file_partial"
   ],
   "note": "False if a line of the event lacks the field: the column becomes floats and integers above 2^53 are rounded, also in the other lines. Proved exactly when they are kept, for all tables and from the file; texts and integers up to 2^53 always are. optimize_dataframe changes nothing."
  },
  {
   "property": "C170",
   "status": "partial",
   "theorems": [
    "C170_run",
    "C170_others",
    "C170_notebook",
    "C170_twice",
    "C170_in_place",
    "C170_clash_refuted",
    "C170_elsewhere_refuted",
    "C170_same_exact"
   ],
   "note": "False for notebooks of the same name in different directories: both are published to the same file of the current directory. Proved for all files, arguments and sequences of runs: only the file asked for is written, the notebook is kept unless it is asked for, a missing notebook changes nothing, and publishing again changes nothing. Signing is left out."
  },
  {
   "property": "C171",
   "status": "partial",
   "theorems": [
    "C171_correlation_partial",
    "C171_first_node_refuted",
    "C171_missing"
   ],
   "note": "False without aggregation functions: the groups of the first nodes are compared by the sums of all nodes, for all files. Proved for all files, parsers, windows, triggers, topologies and levels if both aggregators have a function that keeps the times, and without functions for the other groups. The sums over the uniform index are exact, not floats."
  },
  {
   "property": "C172",
   "status": "partial",
   "theorems": [
    "C172_swap_partial",
    "C172_levels_refuted",
    "C172_self",
    "C172_constant_refuted",
    "C172_complete_partial",
    "C172_files_partial"
   ],
   "note": "False if the level has different numbers of groups in the two topologies: an IndexError in one order, a result without the last groups in the other, for all such aggregators. False also that a trace correlates completely with itself: for all traces, a group with a constant value other than zero makes the total less than 1. Proved otherwise for all aggregators, functions, levels and files. The arithmetic is exact, and the coefficient any function that does not depend on the order."
  },
  {
   "property": "C173",
   "status": "partial",
   "theorems": [
    "C173_dynamic",
    "C173_builtins",
    "C173_exact",
    "C173_derived_refuted",
    "C173_attribute_refuted",
    "C173_direct_partial",
    "C173_trace"
   ],
   "note": "False for classes derived from a dynamic one: the constructor raises a TypeError for all of them, and with it that of every trace that has such a class. False also for the attribute parse_raw without a constructor that passes it on. Proved for all classes: exactly which of them can be made into parsers, and with which attributes; each class of TRAPpy can."
  },
  {
   "property": "C174",
   "status": "proved",
   "theorems": [
    "C174_own",
    "C174_files",
    "C174_traces"
   ],
   "note": "There are no links, and the working directory is given by its components."
  },
  {
   "property": "C175",
   "status": "partial",
   "theorems": [
    "C175_widths",
    "C175_brush_exact",
    "C175_brush_history",
    "C175_one_width_partial",
    "C175_brush_one_width_partial",
    "C175_other_width_refuted",
    "C175_resized_brush_refuted",
    "C175_resized_zoom_refuted",
    "C175_resize_last",
    "C175_resize_axis_refuted",
    "C175_no_summary_refuted"
   ],
   "note": "holds if all plots of the page have one width and nothing is resized. A brush in a plot shows a window off by the ratio of its width and that of the plot drawn last, and after a resize by the ratio of new and old width; zooming after a resize leaves the data; after a resize only the last plot's axis has the new width; a plot without summary is not redrawn by a resize. What a brush shows is given exactly for every history"
  },
  {
   "property": "C176",
   "status": "partial",
   "theorems": [
    "C176_lanes_partial",
    "C176_apart_partial",
    "C176_explicit_partial",
    "C176_beyond_refuted",
    "C176_exact",
    "C176_plot_trace_exact",
    "C176_mini_partial",
    "C176_mini_beyond_refuted"
   ],
   "note": "holds for events whose lane is one of the lanes of the plot, and so always with explicit lanes. num_lanes is not compared with the lanes of the events: those in lane num_lanes are drawn below the plot across the axis, those in higher ones below what is visible, and negative ones above the plot; the same for the summary"
  },
  {
   "property": "C177",
   "status": "partial",
   "theorems": [
    "C177_shown",
    "C177_gesture_end",
    "C177_resizes_refuted",
    "C177_lines_partial",
    "C177_slanted_refuted"
   ],
   "note": "what can be seen and what is left after a gesture is proved for all histories. Refuted for resizes: each one leaves all earlier paths on the page, hidden, until the next gesture ends. In a plot without summary a resize makes every marker lead to the right border and every tick as long as the plot; lines are proved with summary"
  },
  {
   "property": "C178",
   "status": "partial",
   "theorems": [
    "C178_exact",
    "C178_plain_partial",
    "C178_limits_refuted"
   ],
   "note": "false if the common range starts after the first row of a figure or ends before its last one, and exactly then: the row that sync adds before the first row gets the start of the range. So for any two figures with xlim and data before or after it, which ILinePlot keeps (C95), and when a figure is added to a group that was zoomed. Proved for all pages without limits and zooms"
  },
  {
   "property": "C179",
   "status": "partial",
   "theorems": [
    "C179_total",
    "C179_shown",
    "C179_events_partial",
    "C179_axis_partial",
    "C179_brush_partial",
    "C179_other_width_refuted"
   ],
   "note": "which paths can be seen is proved for all histories and all data. That they are the events of the scale's window needs the events of a lane in order (C128 refutes it otherwise), and that this window is the one of the axis needs plots of one width and no change of size: refuted for two plots of different widths"
  },
  {
   "property": "C180",
   "status": "partial",
   "theorems": [
    "C180_trace_live_partial",
    "C164_script_refuted",
    "C179_other_width_refuted"
   ],
   "note": "proved for all files and all histories of the page if no task that is asked for has the end tag of a script in its name (otherwise nothing is drawn: C164_script_refuted). That the window is the one of the axis needs plots of one width and no change of size (C179_other_width_refuted)"
  },
  {
   "property": "C181",
   "status": "partial",
   "theorems": [
    "C181_title_partial",
    "C181_title_refuted",
    "C181_legend",
    "C181_hist",
    "C181_seen_exact",
    "C181_below_refuted"
   ],
   "note": "False for temperatures below 0, which are outside the limits whenever there is one above 0, and for an empty title that is a byte string (Python 2), as the title is compared with `is`. Proved: the legend and the texts of mean and deviation for all values, and exactly when all temperatures are seen."
  },
  {
   "property": "C182",
   "status": "partial",
   "theorems": [
    "C182_text",
    "C182_told",
    "C182_break_refuted",
    "C182_all_refuted"
   ],
   "note": "For names without line breaks and levels not called 'all' the text tells the levels and groups exactly. It does not for names with a line break (any two levels have the text of some single level), nor for what was added to a level called 'all'."
  },
  {
   "property": "C183",
   "status": "partial",
   "theorems": [
    "C183_shown",
    "C183_table",
    "C183_devices_refuted"
   ],
   "note": "Proved for all directories whose files end with a line break (otherwise the values are those of C101). The order is the one of the texts: for every number, devices and trip points with one digit more come before it."
  },
  {
   "property": "C184",
   "status": "partial",
   "theorems": [
    "C184_areas",
    "C184_under",
    "C184_exact",
    "C184_single_partial",
    "C184_later_refuted",
    "C184_margin_refuted",
    "C184_ylim_refuted"
   ],
   "note": "False if a later line goes lower, if ylim is lower (it is set after the areas are drawn), and always if the axis has a margin below its values, as in matplotlib 2.0 and later. Proved: an area for each line, never above it, and exactly when it reaches down."
  },
  {
   "property": "C185",
   "status": "partial",
   "theorems": [
    "C185_near",
    "C185_more",
    "C185_powers",
    "C185_few_partial",
    "C185_colours_refuted",
    "C185_backwards_refuted",
    "C185_default_exact"
   ],
   "note": "Proved that every line gets its own colour or the one before it, that it is its own for powers of two and up to 21 colours, that further lines get the last colour, and that default colours differ exactly up to 256 lines. False in general: with 22 colours two lines get the same colour; backwards, the first two lines do."
  }
 ]
}
