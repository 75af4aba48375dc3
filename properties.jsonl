{"id": "C01", "title": "Header fields of a trace line are recovered exactly", "statement": "When a line printed in the trace-cmd/ftrace text format (task-pid [cpu] flags timestamp: event: data) is parsed, the comm, pid, cpu, timestamp text and data stored for the event are exactly the ones that were printed, for every task name (including names with spaces, dashes, digits and parentheses), provided the data text cannot itself be read as a later header.", "quantifier": "every comm, pid, cpu, optional tgid and flags field, timestamp, event name and data text", "why_tests_cant": "The set of task names and data texts is infinite and the header regular expression backtracks; examples only exercise a handful of names.", "anchors": ["trappy/ftrace.py: SPECIAL_FIELDS_RE", "trappy/ftrace.py: GenericFTrace.__populate_data"]}
{"id": "C02", "title": "Event data can not forge the header", "statement": "The comm, pid, cpu and time recorded for a line are those at the beginning of the line, whatever free text follows in the event data.", "quantifier": "every data text", "why_tests_cant": "Needs all strings: the regular expression is greedy and picks the last position in the line that looks like a header.", "anchors": ["trappy/ftrace.py: SPECIAL_FIELDS_RE"]}
{"id": "C03", "title": "Lines that are not events never contribute rows", "statement": "A line of the file that does not have the event format changes no event table, no timestamp, no base/end time; it only counts towards line numbers if it comes after the first event line.", "quantifier": "every file, every position of the foreign line", "why_tests_cant": "Quantifies over all files and interleavings of foreign lines.", "anchors": ["trappy/ftrace.py: GenericFTrace.__populate_data", "trappy/ftrace.py: GenericFTrace.trace_hasnt_started"]}
{"id": "C04", "title": "Timestamps are unique and strictly increasing across all events", "statement": "After parsing, the times given to the events of the trace (over all event tables together) are strictly increasing in file order, even when the file repeats timestamps or goes backwards.", "quantifier": "every sequence of trace lines with finite timestamps", "why_tests_cant": "Ranges over all histories of timestamps, and depends on the successor function on binary64 numbers.", "anchors": ["trappy/ftrace.py: GenericFTrace.__populate_data"]}
{"id": "C05", "title": "Timestamp adjustment is minimal", "statement": "The time recorded for an event is the least binary64 number that is not below the printed timestamp and is above the time of every earlier event; in particular it is exactly the printed time whenever the printed times are increasing.", "quantifier": "every sequence of trace lines", "why_tests_cant": "All histories; minimality is a statement about every other candidate value.", "anchors": ["trappy/ftrace.py: GenericFTrace.__populate_data"]}
{"id": "C06", "title": "Timestamp units are detected from the text", "statement": "A timestamp with a fractional part is read as seconds; one without is read as nanoseconds and divided by 1e9, so the recorded time is the binary64 number nearest to the printed instant (for seconds exactly one rounding, for nanoseconds the division of the rounded integer).", "quantifier": "every timestamp text", "why_tests_cant": "Infinite set of digit strings; rounding corner cases.", "anchors": ["trappy/ftrace.py: GenericFTrace.__populate_data"]}
{"id": "C07", "title": "basetime and endtime delimit the trace", "statement": "basetime is the time of the first event line of the file and is never zero, endtime is the time of the last one, and every row of every event table lies between them, whichever events were requested.", "quantifier": "every file and every set of requested events", "why_tests_cant": "All files and all event sets.", "anchors": ["trappy/ftrace.py: GenericFTrace.__populate_data"]}
{"id": "C08", "title": "Each event line goes to exactly one table", "statement": "Every event line that contains the unique word of a requested event contributes exactly one row to exactly one event table, and every row of every table comes from such a line: no event is lost, invented or duplicated.", "quantifier": "every file and every set of requested events", "why_tests_cant": "All files and registries.", "anchors": ["trappy/ftrace.py: GenericFTrace.__populate_data", "trappy/ftrace.py: GenericFTrace.__get_trace_class"]}
{"id": "C09", "title": "Fallback parsers only get what nobody else wants", "statement": "A line is given to a fallback parser (userspace markers) only if no non-fallback requested event matches it, and if any non-fallback event matches then a non-fallback table receives it.", "quantifier": "every line and every ordered set of parsers", "why_tests_cant": "All registries and lines, including ones with several matching words.", "anchors": ["trappy/ftrace.py: GenericFTrace.__get_trace_class", "trappy/fallback.py: FallbackEvent"]}
{"id": "C10", "title": "Requesting fewer events does not change the events that are kept", "statement": "For an event that no other requested event competes with, the table (times, line numbers, comm, pid, cpu and data) is the same whichever other events are requested in the same parse.", "quantifier": "every file, every pair of requested event sets", "why_tests_cant": "Pairs of sets of events and all files.", "anchors": ["trappy/ftrace.py: GenericFTrace.__populate_data"]}
{"id": "C11", "title": "Line numbers order events as in the file", "statement": "The __line column counts lines from the first event line; within a table and across tables it is strictly increasing in file order and agrees with the time order.", "quantifier": "every file", "why_tests_cant": "All files.", "anchors": ["trappy/ftrace.py: GenericFTrace.__populate_data"]}
{"id": "C12", "title": "key=value payloads round-trip", "statement": "Printing a list of distinct keys with integer or multi-word string values as key=value separated by blanks and parsing it yields exactly that mapping, provided values do not contain '=' signs in words after the first and do not read as integers in their first word.", "quantifier": "every list of fields", "why_tests_cant": "Infinite set of field lists.", "anchors": ["trappy/base.py: Base.generate_data_dict"]}
{"id": "C13", "title": "Integer fields are decoded exactly and only when they are integer literals", "statement": "A field value becomes an integer exactly when it is a Python integer literal (decimal without superfluous leading zeros, or with a 0x/0o/0b prefix, optional sign, single underscores between digits); the decoded number is its value; printing any integer in decimal or hexadecimal and decoding gives it back; other values are left as they are.", "quantifier": "every value text; every integer", "why_tests_cant": "Infinite domain.", "anchors": ["trappy/base.py: Base.string_cast_int"]}
{"id": "C14", "title": "Payload parsing fails only on a leading bare word", "statement": "Parsing a payload raises TrappyParseError exactly when the payload does not contain the text FAILED TO PARSE and some word without '=' sign comes before any word with one (or right after a word whose key is empty, and further such words); otherwise it returns a mapping.", "quantifier": "every payload text", "why_tests_cant": "All strings.", "anchors": ["trappy/base.py: Base.generate_data_dict"]}
{"id": "C15", "title": "Array payloads are exploded element by element", "statement": "name={v0 v1 ... vn} inside a payload is replaced by name0=v0 name1=v1 ... namen=vn followed by zero entries up to the expected length; text outside of arrays is unchanged.", "quantifier": "every payload made of plain fields and arrays, every length table", "why_tests_cant": "Arbitrary numbers, positions and sizes of arrays.", "anchors": ["trappy/base.py: trace_parser_explode_array"]}
{"id": "C16", "title": "All rows that carry an array get the same columns for it", "statement": "After building the table of an event whose first line has an array, every line that carries an array of a given name yields exactly the columns name0 ... name(m-1), where m is the largest number of elements of that array in the table, missing elements being 0.", "quantifier": "every table", "why_tests_cant": "All tables and array shapes.", "anchors": ["trappy/base.py: Base.__get_trace_array_lengths", "trappy/base.py: Base.create_dataframe"]}
{"id": "C17", "title": "Array explosion always terminates", "statement": "Parsing finishes on every input: the loop that explodes arrays ends for every payload text.", "quantifier": "every payload text", "why_tests_cant": "Termination for all strings cannot be tested.", "anchors": ["trappy/base.py: trace_parser_explode_array"]}
{"id": "C18", "title": "Arrays are exploded wherever they appear in the table", "statement": "An array in any line of an event table is exploded into columns, also when the first lines of that event carry no array.", "quantifier": "every table", "why_tests_cant": "All tables.", "anchors": ["trappy/base.py: Base.__get_trace_array_lengths"]}
{"id": "C19", "title": "Empty arrays produce no columns", "statement": "An empty array name={} in the payload does not create a column.", "quantifier": "every payload", "why_tests_cant": "All payloads and positions.", "anchors": ["trappy/ftrace.py: GenericFTrace.__populate_data"]}
{"id": "C20", "title": "A time window keeps exactly the events inside it, bounds included", "statement": "With window=(a,b) relative to the first event (or abs_window=(a,b) in trace time) every event table holds exactly the rows whose time t satisfies a <= t <= b, in time order; with b=None only a <= t is required.", "quantifier": "every table, window and base time", "why_tests_cant": "All tables and real windows.", "anchors": ["trappy/ftrace.py: GenericFTrace._calc_max_window", "trappy/ftrace.py: GenericFTrace._windowify_class"]}
{"id": "C21", "title": "window and abs_window together select the intersection", "statement": "When both a relative and an absolute window are given, exactly the events that lie in both are kept.", "quantifier": "every pair of windows and base time", "why_tests_cant": "All pairs of windows.", "anchors": ["trappy/ftrace.py: GenericFTrace._calc_max_window"]}
{"id": "C22", "title": "Windows change neither the base time nor the times of the rows kept", "statement": "Row times (absolute or normalised) in a windowed trace equal the times the same rows have in the unwindowed trace.", "quantifier": "every file and window", "why_tests_cant": "All files and windows.", "anchors": ["trappy/ftrace.py: GenericFTrace._apply_user_parameters"]}
{"id": "C23", "title": "Normalisation shifts every table by the same base time", "statement": "With normalize_time the time of each row is its trace time minus the time of the first event of the file; the first event of the file is at time 0, order is preserved and no time is negative.", "quantifier": "every file", "why_tests_cant": "All files; binary64 subtraction.", "anchors": ["trappy/base.py: Base.normalize_time", "trappy/bare_trace.py: BareTrace._normalize_time"]}
{"id": "C24", "title": "Normalised timestamps remain distinct", "statement": "After normalisation different events still have different times.", "quantifier": "every file", "why_tests_cant": "binary64 rounding of all pairs.", "anchors": ["trappy/base.py: Base.normalize_time"]}
{"id": "C25", "title": "Trace duration spans all tables", "statement": "get_duration() is the latest last time minus the earliest first time over the non-empty tables and 0 when all are empty; it is an upper bound of the span of each table.", "quantifier": "every set of tables", "why_tests_cant": "All tables.", "anchors": ["trappy/bare_trace.py: BareTrace.get_duration"]}
{"id": "C26", "title": "Unregistering undoes registering", "statement": "After register_parser(cls, scope) followed by unregister_parser(cls), no scope contains cls and all other registrations are as before, except one previously held under the same name.", "quantifier": "every registry state, class and scope", "why_tests_cant": "All histories of registrations.", "anchors": ["trappy/ftrace.py: GenericFTrace.register_parser", "trappy/ftrace.py: GenericFTrace.unregister_parser"]}
{"id": "C27", "title": "Scopes select the documented sets of events", "statement": "scope=thermal, sched, all/other, custom give exactly requested events + (thermal+dynamic), (sched+dynamic), (all three), nothing else.", "quantifier": "every registry and event list", "why_tests_cant": "All registries.", "anchors": ["trappy/ftrace.py: GenericFTrace.__init__", "trappy/ftrace.py: GenericFTrace.__add_events"]}
{"id": "C28", "title": "Accepted event sets have no ambiguous unique words", "statement": "Construction raises RuntimeError exactly if the unique word of some requested event is contained in that of another; hence in an accepted trace no line that ends its event text with one unique word can be claimed through another one's being a part of it.", "quantifier": "every set of event classes", "why_tests_cant": "All sets of classes.", "anchors": ["trappy/ftrace.py: GenericFTrace.__init__"]}
{"id": "C29", "title": "CamelCase class names map to attribute names predictably", "statement": "The attribute name of a dynamically registered class is its name in lower case with an underscore before every later run of capitals; names that differ in more than case stay different as long as they contain no underscores.", "quantifier": "every class name", "why_tests_cant": "All strings.", "anchors": ["trappy/dynamic.py: _get_name"]}
{"id": "C30", "title": "Adding a parsed event never overwrites data", "statement": "add_parsed_event(name, frame) either raises and changes nothing (name already taken) or makes exactly frame available under name while every other event is untouched.", "quantifier": "every trace state and sequence of additions", "why_tests_cant": "All histories of additions.", "anchors": ["trappy/bare_trace.py: BareTrace.add_parsed_event"]}
{"id": "C31", "title": "Access through an event's unique word is redirected", "statement": "Accessing an attribute that is the unique word of an event whose table has another name raises an AttributeError naming the right attribute; other lookups are not affected.", "quantifier": "every set of event classes and attribute", "why_tests_cant": "All registries.", "anchors": ["trappy/ftrace.py: GenericFTrace.__getattr__"]}
{"id": "C32", "title": "A warm cache is transparent", "statement": "For any history of parses of an unchanged trace file with any event sets, scopes, windows and normalisation settings (cache enabled), each parse returns the same tables, base time and end time as a parse with the cache disabled.", "quantifier": "every history of parses", "why_tests_cant": "All histories, event sets and windows.", "anchors": ["trappy/ftrace.py: GenericFTrace._do_parse", "trappy/ftrace.py: GenericFTrace._load_cache", "trappy/ftrace.py: GenericFTrace._update_cache"]}
{"id": "C33", "title": "A changed trace file is never served from an old cache", "statement": "If the trace file's content changed since the cache was written (different digest), a parse for at least one event class gives the result of the new content and the old cache is removed. The same holds if the metadata lack the digest, the base time or the end time.", "quantifier": "every history of edits and parses", "why_tests_cant": "All histories.", "anchors": ["trappy/ftrace.py: GenericFTrace._is_cache_valid", "trappy/ftrace.py: GenericFTrace._load_cache"]}
{"id": "C34", "title": "An interrupted cache write never makes a trace unreadable", "statement": "If a parse is killed at any point while it writes the cache, later parses of the trace still succeed.", "quantifier": "every crash point", "why_tests_cant": "All crash points of all runs.", "anchors": ["trappy/ftrace.py: GenericFTrace._update_cache", "trappy/ftrace.py: GenericFTrace._get_cache_metadata"]}
{"id": "C35", "title": "An interrupted cache write never yields wrong data", "statement": "If a parse is killed at any point while it writes the cache, later parses return the same data as with the cache disabled.", "quantifier": "every crash point", "why_tests_cant": "All crash points.", "anchors": ["trappy/ftrace.py: GenericFTrace._update_cache", "trappy/ftrace.py: GenericFTrace._load_cache"]}
{"id": "C36", "title": "Disabling the cache leaves the file system alone", "statement": "With disable_cache the parse reads only the trace, and creates, changes or deletes nothing in the cache directory.", "quantifier": "every state of the file system", "why_tests_cant": "All states.", "anchors": ["trappy/ftrace.py: GenericFTrace._do_parse"]}
{"id": "C37", "title": "Only missing tables are re-read and written", "statement": "With a valid cache that lacks some tables, exactly these are parsed from the trace and written; all tables already present are kept as they are.", "quantifier": "every cache state", "why_tests_cant": "All cache states.", "anchors": ["trappy/ftrace.py: GenericFTrace._update_cache"]}
{"id": "C38", "title": "Different event classes never share a cache entry", "statement": "The cached table of one event class is never returned for another class.", "quantifier": "every pair of classes", "why_tests_cant": "All pairs.", "anchors": ["trappy/ftrace.py: GenericFTrace._get_csv_path"]}
{"id": "C39", "title": "Cached tables have the same cell values and types as parsed ones", "statement": "Reading back a cached table gives the same values and types as the parsed table.", "quantifier": "every table", "why_tests_cant": "All tables: the CSV reader infers types per column.", "anchors": ["trappy/base.py: Base.write_csv", "trappy/base.py: Base.read_csv"]}
{"id": "C40", "title": "Finalisation runs exactly once per table", "statement": "Column renames, mask padding and idle-state decoding are applied exactly once to a table, both when parsed fresh and when loaded from cache.", "quantifier": "every mix of cached and uncached tables", "why_tests_cant": "All cache states.", "anchors": ["trappy/bare_trace.py: BareTrace.finalize_objects"]}
{"id": "C41", "title": "Callbacks see every selected event once, in file order", "statement": "apply_callbacks calls the function of each selected event exactly once for each row, in the order of the lines in the file across all tables.", "quantifier": "every set of tables sorted by line", "why_tests_cant": "All sets of tables and interleavings.", "anchors": ["trappy/ftrace.py: GenericFTrace.apply_callbacks"]}
{"id": "C42", "title": "Trace path resolution", "statement": "Given a directory or file, the .dat is used if it exists, else the .txt, else an error; a raw-only directory is rejected with RuntimeError.", "quantifier": "every file system state and path", "why_tests_cant": "All states.", "anchors": ["trappy/ftrace.py: FTrace.__process_path"]}
{"id": "C43", "title": "Header metadata is read only from the header", "statement": "version and cpus are taken from the first matching line before or at the first event line; later text in the trace can not change them.", "quantifier": "every file", "why_tests_cant": "All files.", "anchors": ["trappy/ftrace.py: FTrace.__get_trace_metadata"]}
{"id": "C44", "title": "Systrace body extraction", "statement": "From an HTML systrace exactly the lines between the trace-data marker's first event line and the closing script line are parsed.", "quantifier": "every file", "why_tests_cant": "All files.", "anchors": ["trappy/systrace.py: drop_before_trace", "trappy/systrace.py: SysTrace.trace_hasnt_finished"]}
{"id": "C45", "title": "Systrace markers round-trip", "statement": "Userspace marker payloads E, B|pid|func, C|pid|func|data are decoded to the printed event, pid, func and data.", "quantifier": "every pid, function and data text", "why_tests_cant": "All strings.", "anchors": ["trappy/systrace.py: SYSTRACE_EVENT", "trappy/systrace.py: SysTrace.generate_data_dict"]}
{"id": "C46", "title": "System call records round-trip", "statement": "sys_enter and sys_exit payloads are decoded to the printed call number, arguments (hexadecimal, signed) and return value.", "quantifier": "all numbers", "why_tests_cant": "All numbers.", "anchors": ["trappy/raw_syscalls.py: SysEnter.explode", "trappy/raw_syscalls.py: SysExit.explode"]}
{"id": "C47", "title": "sched_switch records round-trip", "statement": "A printed sched_switch payload decodes to its seven fields for all task names made of words without '=' or ' ==> ' that do not look like numbers.", "quantifier": "all task names and numbers", "why_tests_cant": "All strings.", "anchors": ["trappy/sched.py: SchedSwitch.create_dataframe"]}
{"id": "C48", "title": "CPU mask population count", "statement": "num_cpus_in_mask of a printed hexadecimal mask (with optional commas) is the number of set bits.", "quantifier": "all masks", "why_tests_cant": "All numbers.", "anchors": ["trappy/cpu_power.py: num_cpus_in_mask"]}
{"id": "C49", "title": "CPU masks are padded to eight digits", "statement": "The cpus column of the sched_load_avg_sg table has at least eight characters, keeps its significant digits, and padding is idempotent.", "quantifier": "all masks", "why_tests_cant": "All values.", "anchors": ["trappy/sched.py: SchedLoadAvgSchedGroup.finalize_object"]}
{"id": "C50", "title": "Pivoted series carry the last observation", "statement": "In the table returned by get_all_freqs/get_load_data the cell at time t in the column of a cluster is the most recent value reported for that cluster at or before t, and empty if there is none; an unlabelled cluster raises KeyError.", "quantifier": "every table and labelling", "why_tests_cant": "All tables.", "anchors": ["trappy/cpu_power.py: pivot_with_labels"]}
{"id": "C51", "title": "Normalised load is load times relative frequency per cpu", "statement": "Normalised load of a row equals sum of the row's loads times freq divided by (highest frequency of its cluster times number of cpus in the mask) and never exceeds 100 times the number of load entries per cpu when loads are at most 100.", "quantifier": "every table", "why_tests_cant": "All tables.", "anchors": ["trappy/cpu_power.py: CpuInPower.get_normalized_load_data"]}
{"id": "C52", "title": "Idle exit states are decoded as -1", "statement": "In the cpu_idle table every value 4294967295 is replaced by -1 and every other value is unchanged; decoding twice is the same as once.", "quantifier": "every table", "why_tests_cant": "All tables.", "anchors": ["trappy/idle.py: CpuIdle.finalize_object"]}
{"id": "C53", "title": "ext4 payloads are read as name/value pairs", "statement": "A payload of alternating field names and values separated by single blanks is decoded to exactly these pairs; a trailing odd word is dropped.", "quantifier": "every payload", "why_tests_cant": "All payloads.", "anchors": ["trappy/filesystem.py: FilesystemExt4Base.generate_data_dict"]}
{"id": "C54", "title": "f2fs payloads round-trip", "statement": "Payloads printed as 'name = value, name = value' decode to exactly these fields.", "quantifier": "every payload", "why_tests_cant": "All payloads.", "anchors": ["trappy/filesystem.py: FilesystemF2FSBase.generate_data_dict"]}
{"id": "C55", "title": "Clock events keep the clock name", "statement": "clock payloads decode to their fields plus the clock name.", "quantifier": "every payload", "why_tests_cant": "All payloads.", "anchors": ["trappy/common_clk.py: CommonClkBase.generate_data_dict"]}
{"id": "C56", "title": "Duplicate index resolution makes times unique", "statement": "handle_duplicate_index returns a series or frame with strictly increasing times.", "quantifier": "every sorted series", "why_tests_cant": "All series and group sizes.", "anchors": ["trappy/utils.py: handle_duplicate_index"]}
{"id": "C57", "title": "Duplicate index resolution keeps rows and unique times", "statement": "handle_duplicate_index keeps all rows in order, leaves the times of unique entries and the first of each group unchanged, and is the identity when there are no duplicates.", "quantifier": "every sorted series", "why_tests_cant": "All series.", "anchors": ["trappy/utils.py: handle_duplicate_index"]}
{"id": "C58", "title": "Topology bookkeeping", "statement": "After any sequence of add_to_level calls, a level holds exactly the groups added to it in order, the flattened topology is exactly the set of all nodes added, and a cluster topology has a cpu level with one singleton group for each node.", "quantifier": "every sequence of operations", "why_tests_cant": "All histories.", "anchors": ["trappy/stats/Topology.py: Topology"]}
{"id": "C59", "title": "Unified indices are sorted, duplicate-free unions", "statement": "The index of a multi-trigger aggregator is the strictly increasing list of exactly the times that occur in some trigger event table.", "quantifier": "every list of triggers", "why_tests_cant": "All tables.", "anchors": ["trappy/stats/Indexer.py: MultiTriggerIndexer", "trappy/stats/Indexer.py: get_unified_indexer"]}
{"id": "C60", "title": "Trigger filters select by any of the listed values", "statement": "A trigger keeps the rows of its pivot value whose column is one of the filter's values (or satisfies the filter function).", "quantifier": "every table and filter set", "why_tests_cant": "All tables and filters.", "anchors": ["trappy/stats/Trigger.py: Trigger.generate", "trappy/stats/Trigger.py: apply_filter_kv"]}
{"id": "C61", "title": "Aggregation is repeatable", "statement": "aggregate(level) returns for each group the sum of the (processed) series of its nodes; calling it again, at any level, gives the same result.", "quantifier": "every sequence of aggregate calls", "why_tests_cant": "All histories of calls.", "anchors": ["trappy/stats/Aggregator.py: MultiTriggerAggregator.aggregate"]}
{"id": "C62", "title": "Series alignment brings first (last) activity together", "statement": "align() returns series of the same length whose first (front) or last (back) non-zero samples coincide; only leading empty samples are introduced and the shift reported is the difference of positions.", "quantifier": "all pairs of series", "why_tests_cant": "All series.", "anchors": ["trappy/stats/Correlator.py: align", "trappy/stats/Correlator.py: shift_series"]}
{"id": "C63", "title": "Expression grammar evaluates with the documented precedence", "statement": "Evaluating an expression built from the documented operators gives the value of the fully parenthesised expression under the documented precedence and left association.", "quantifier": "every expression", "why_tests_cant": "All expressions.", "anchors": ["trappy/stats/grammar.py: get_parse_expression", "trappy/stats/grammar.py: eval_binary_op"]}
{"id": "C64", "title": "Columns of different events are kept apart in expressions", "statement": "event:column in an expression denotes the column of that event.", "quantifier": "every expression with two accessors", "why_tests_cant": "All pairs of events and columns.", "anchors": ["trappy/stats/grammar.py: Parser._pre_process", "trappy/stats/grammar.py: Parser._parse_var_id"]}
{"id": "C65", "title": "Expression windows and filters", "statement": "The data used in an expression are exactly the rows inside the window whose filtered columns hold one of the wanted values; filters on columns the event lacks are ignored.", "quantifier": "every table, window and filter", "why_tests_cant": "All tables.", "anchors": ["trappy/stats/grammar.py: Parser._get_data_frame"]}
{"id": "C66", "title": "Plot constraints select by filters and pivot", "statement": "The series of a pivot value consists of exactly the rows with that pivot value that satisfy all filters on existing columns, in order; the series over all pivot values partition the filtered rows; empty series are left out. (For pivot values other than the string reserved for plots without pivot.)", "quantifier": "every table, pivot and filters", "why_tests_cant": "All tables.", "anchors": ["trappy/plotter/Constraint.py: Constraint._apply", "trappy/plotter/Constraint.py: Constraint.pivot_vals"]}
{"id": "C67", "title": "Constraint expansion pairs traces, columns and templates", "statement": "Single traces, columns and templates are repeated to the longest list; lists of equal length are zipped; anything else raises RuntimeError. There are as many constraints as the longest list, the i-th one made of the i-th trace, column and template.", "quantifier": "all list lengths", "why_tests_cant": "All triples of lists.", "anchors": ["trappy/plotter/Constraint.py: ConstraintManager"]}
{"id": "C68", "title": "Pivot values are listed once, in order", "statement": "generate_pivots returns each pivot value found in some constraint exactly once, in ascending order, and (permuted) every pair of trace and pivot exactly once; it raises TypeError only for a mix of integers and texts.", "quantifier": "every list of constraints", "why_tests_cant": "All.", "anchors": ["trappy/plotter/Constraint.py: ConstraintManager.generate_pivots"]}
{"id": "C69", "title": "Plot grid has room for every plot", "statement": "The grid has at least as many cells as plots and less than one spare row; distinct plots get distinct cells inside the grid.", "quantifier": "all numbers of plots and columns", "why_tests_cant": "All numbers.", "anchors": ["trappy/plotter/PlotLayout.py: PlotLayout"]}
{"id": "C70", "title": "Each series is drawn on the axis of its pivot", "statement": "In a static plot each series is drawn on the axis that belongs to its pivot value.", "quantifier": "all constraints and pivots", "why_tests_cant": "All combinations.", "anchors": ["trappy/plotter/StaticPlot.py: StaticPlot._resolve"]}
{"id": "C71", "title": "Interactive grid has one figure per plot", "statement": "The HTML table has as many rows and cells as needed, and every plot index has exactly one figure name, all distinct if the generator never repeats.", "quantifier": "all numbers of plots", "why_tests_cant": "All numbers.", "anchors": ["trappy/plotter/ILinePlotGen.py: ILinePlotGen"]}
{"id": "C72", "title": "Residency intervals follow the switches", "statement": "Each interval of a task in the residency data starts at a switch to it on that cpu and ends at its next switch-out or the end of the trace; intervals of a task do not overlap and are in time order.", "quantifier": "every sched_switch table", "why_tests_cant": "All histories of switches.", "anchors": ["trappy/plotter/Utils.py: get_trace_event_data"]}
{"id": "C73", "title": "Residency extraction survives dropped events", "statement": "For any sched_switch table, also with dropped events and renamed tasks, the residency data is produced without error.", "quantifier": "every sched_switch table", "why_tests_cant": "All histories.", "anchors": ["trappy/plotter/Utils.py: get_trace_event_data"]}
{"id": "C74", "title": "Event plot lanes", "statement": "With explicit lanes each event is moved to the index of its lane, labels list the lanes in order, and an unknown lane raises RuntimeError; grouping by lane keeps every interval exactly once and in order; the keys are the names with a non-zero duration, longest average first.", "quantifier": "all data and lane lists", "why_tests_cant": "All.", "anchors": ["trappy/plotter/EventPlot.py: EventPlot"]}
{"id": "C75", "title": "Signal definitions round-trip", "statement": "event:column and event:column:r,g,b strings are decoded to their parts for all event and column names without colons; anything without a colon between non-empty parts is rejected with ValueError.", "quantifier": "every string", "why_tests_cant": "All strings.", "anchors": ["trappy/plotter/AbstractDataPlotter.py: AbstractDataPlotter._parse_value"]}
{"id": "C76", "title": "Benchmark results keep the first value of each run", "statement": "get_results stores for each benchmark, run id and run number the first score found in the file and ignores later ones; order of benchmarks is that of the file.", "quantifier": "every results file", "why_tests_cant": "All files.", "anchors": ["trappy/wa/results.py: get_results"]}
{"id": "C77", "title": "Run numbers", "statement": "Metrics named score, FPS or Overall_Score are recognised, and their trailing number is the run number (minus one for Overall_Score), 0 if there is none.", "quantifier": "every metric name", "why_tests_cant": "All strings.", "anchors": ["trappy/wa/results.py: get_run_number"]}
{"id": "C78", "title": "Actor weights follow the cooling device numbers", "statement": "In the weighted power plot the i-th actor is scaled by the weight of cooling device i.", "quantifier": "all numbers of devices", "why_tests_cant": "All numbers of devices.", "anchors": ["trappy/plot_utils.py: plot_weighted_input_power", "trappy/wa/sysfs_extractor.py: SysfsExtractor.get_parameters"]}
{"id": "C79", "title": "Notebook export removes marked text and inlines each resource once", "statement": "Lines between remove markers and marked lines never appear in the exported output, all other ordinary lines appear unchanged and in order, and over all cells of a notebook each library and each script is emitted at most once.", "quantifier": "every sequence of cells", "why_tests_cant": "All histories of cells.", "anchors": ["trappy/nbexport/exporter.py: TrappyPlotterPreprocessor.filter_output"]}
{"id": "C80", "title": "Forwarded plot arguments", "statement": "After any sequence of register/unregister_forwarding_arg calls an argument is forwarded exactly if its last operation registered it (or it is a default never unregistered); no argument is listed twice.", "quantifier": "every sequence of calls", "why_tests_cant": "All histories.", "anchors": ["trappy/plotter/__init__.py: register_forwarding_arg", "trappy/plotter/__init__.py: unregister_forwarding_arg"]}
{"id": "C81", "title": "Temperature histograms are drawn for the runs that have data", "statement": "plot_temperature_hist draws one histogram for each run with temperature data.", "quantifier": "every list of runs", "why_tests_cant": "All lists.", "anchors": ["trappy/plot_utils.py: plot_temperature_hist"]}
{"id": "C82", "title": "Stacked bars start where the previous ones end", "statement": "In a stacked bar plot the bottom of each bar is the sum of the values below it at that position; in a grouped plot bars of a group do not overlap.", "quantifier": "all series lists", "why_tests_cant": "All series.", "anchors": ["trappy/plotter/BarPlot.py: BarPlot.plot_axis"]}
{"id": "C83", "title": "Concurrent parses of one trace", "statement": "Two processes parsing the same trace file with caching, under any interleaving of their file operations, both obtain the data an uncached parse gives.", "quantifier": "all interleavings", "why_tests_cant": "All schedules.", "anchors": ["trappy/ftrace.py: GenericFTrace._load_cache", "trappy/ftrace.py: GenericFTrace._update_cache"]}
{"id": "C84", "title": "Weighted correlation", "statement": "The total correlation is the average of the group correlations weighted by the number of active samples, ignoring undefined ones, and lies between -1 and 1 when the group values do.", "quantifier": "all groups", "why_tests_cant": "All groups.", "anchors": ["trappy/stats/Correlator.py: Correlator.correlate"]}
{"id": "C85", "title": "Uniform resampling", "statement": "The uniform index starts at the first time, has constant step delta, stays below the last time, and padding gives each sample the last known value at or before it.", "quantifier": "all indices", "why_tests_cant": "All.", "anchors": ["trappy/stats/Indexer.py: Indexer.get_uniform", "trappy/stats/Correlator.py: Correlator._resample"]}
{"id": "C86", "title": "Header columns are not replaced by payload fields", "statement": "The __comm, __pid, __cpu and __line columns of a row hold the values of the line's header, whatever keys the payload has; every other column comes from the payload.", "quantifier": "every payload", "why_tests_cant": "All payload texts, including ones that print keys named like the header columns.", "anchors": ["trappy/base.py: Base.generate_parsed_data"]}
{"id": "C87", "title": "Events can be requested with or without their colon", "statement": "Requesting an event by its name or by its name with the trailing colon the trace prints selects the same lines.", "quantifier": "every registry and event name", "why_tests_cant": "All names.", "anchors": ["trappy/ftrace.py: GenericFTrace.__add_events"]}
{"id": "C88", "title": "Free-form userspace markers keep their text", "statement": "The text of a tracing_mark_write event that is not in one of the systrace marker forms appears unchanged in the string column of its row, in FTrace and SysTrace objects alike.", "quantifier": "every marker text", "why_tests_cant": "All texts.", "anchors": ["trappy/fallback.py: FallbackEvent.generate_data_dict", "trappy/systrace.py: SysTrace.generate_data_dict"]}
{"id": "C89", "title": "Finalising renames columns without touching data", "statement": "After finalising, cpu_frequency/cpu_capacity/clock_set_rate/file system tables have the documented column names; every column keeps its position and data, and other names are unchanged.", "quantifier": "every table", "why_tests_cant": "All column lists.", "anchors": ["trappy/sched.py: SchedCpuFrequency.finalize_object", "trappy/sched.py: SchedCpuCapacity.finalize_object", "trappy/common_clk.py: CommonClkSetRate.finalize_object", "trappy/filesystem.py: FilesystemExt4Base.finalize_object"]}
{"id": "C90", "title": "Levels can be counted and indexed", "statement": "level_span gives the number of groups of a level; get_index gives the position of a group and get_node the group at a position, and they are inverse to each other.", "quantifier": "every topology and level", "why_tests_cant": "All topologies.", "anchors": ["trappy/stats/Topology.py: Topology.level_span", "trappy/stats/Topology.py: Topology.get_index", "trappy/stats/Topology.py: Topology.get_node"]}
{"id": "C91", "title": "A trigger gives the column it was asked for", "statement": "Trigger.generate returns, at the times of the selected rows, the constant value given or the data of the column given as value.", "quantifier": "every trigger", "why_tests_cant": "All tables, filters and values.", "anchors": ["trappy/stats/Trigger.py: Trigger.generate"]}
{"id": "C92", "title": "A single trigger is as good as a list", "statement": "An aggregator can be given a single trigger or a list of triggers.", "quantifier": "every trigger", "why_tests_cant": "All triggers.", "anchors": ["trappy/stats/Aggregator.py: MultiTriggerAggregator._aggregate_base"]}
{"id": "C93", "title": "Malformed expressions are rejected", "statement": "Text that is not an expression of the documented grammar raises an exception.", "quantifier": "every text", "why_tests_cant": "All texts; no part of the input may be ignored silently.", "anchors": ["trappy/stats/grammar.py: Parser.solve", "trappy/stats/grammar.py: get_parse_expression"]}
{"id": "C94", "title": "Super-indexing keeps the last observation", "statement": "After any accesses the aggregated table has exactly the times of the loaded rows, in order, and each sub-column has in each cell the last observation of its column and pivot value at or before that time.", "quantifier": "every sequence of accesses, window and filters", "why_tests_cant": "All tables and all sequences of loads, over several expressions.", "anchors": ["trappy/stats/grammar.py: Parser._pivot", "trappy/stats/grammar.py: Parser._pre_process"]}
{"id": "C95", "title": "The plot window includes the neighbouring rows", "statement": "A plot with a window shows exactly the rows of the series from the last one at or before the start of the window to the first one at or after its end; without a window, all rows.", "quantifier": "every series and window", "why_tests_cant": "All series and windows.", "anchors": ["trappy/plotter/Constraint.py: Constraint._apply"]}
{"id": "C96", "title": "Permuted constraints", "statement": "With permute there is exactly one constraint for each given trace and each given column, and its template is the one given for the column.", "quantifier": "all lists of traces, columns and templates", "why_tests_cant": "All lists.", "anchors": ["trappy/plotter/Constraint.py: ConstraintManager._constraints"]}
{"id": "C97", "title": "Concatenated plots have one axis per constraint", "statement": "With concat all series of a constraint are drawn on one axis of their own.", "quantifier": "all constraints and pivots", "why_tests_cant": "All combinations.", "anchors": ["trappy/plotter/StaticPlot.py: StaticPlot._resolve_concat", "trappy/plotter/PlotLayout.py: PlotLayout"]}
{"id": "C98", "title": "Interactive plots show every series", "statement": "The interactive plot of a pivot shows the series of every constraint with data for the pivot.", "quantifier": "all constraints", "why_tests_cant": "All lists of constraints.", "anchors": ["trappy/plotter/ILinePlot.py: ILinePlot._plot", "trappy/plotter/Constraint.py: Constraint.__str__"]}
{"id": "C99", "title": "Titles of permuted interactive plots", "statement": "With permute each interactive plot has the name of its trace as title.", "quantifier": "all traces and pivots", "why_tests_cant": "All lists.", "anchors": ["trappy/plotter/ILinePlot.py: ILinePlot._plot"]}
{"id": "C100", "title": "Signals with and without colours", "statement": "Signals may be given with or without a colour; each signal with a colour is drawn in it and the others in a default colour.", "quantifier": "every list of signals", "why_tests_cant": "All lists of signals.", "anchors": ["trappy/plotter/AbstractDataPlotter.py: AbstractDataPlotter._describe_signals", "trappy/plotter/ColorMap.py: ColorMap.rgb_cmap", "trappy/plotter/ColorMap.py: to_dygraph_colors"]}
{"id": "C101", "title": "Sysfs parameters are the contents of their files", "statement": "get_parameters returns for each known file of the thermal directory its contents without the newline, as an integer if it is one.", "quantifier": "every directory", "why_tests_cant": "All directories.", "anchors": ["trappy/wa/sysfs_extractor.py: SysfsExtractor.get_parameters", "trappy/wa/sysfs_extractor.py: SysfsExtractor.__init__"]}
{"id": "C103", "title": "Weighted input power", "statement": "The weighted input power of the i-th actor is its requested power times its weight over 1024, for every actor.", "quantifier": "every table and list of weights", "why_tests_cant": "All tables.", "anchors": ["trappy/thermal.py: ThermalGovernor.plot_weighted_input_power"]}
{"id": "C104", "title": "Figure sizes follow the golden ratio", "statement": "If only the width or only the height of a plot is given the other one follows from the golden ratio.", "quantifier": "every width and height", "why_tests_cant": "All numbers.", "anchors": ["trappy/plot_utils.py: pre_plot_setup"]}
{"id": "C105", "title": "Each run has its own column of plots", "statement": "In the plots of several runs plot r of run c is in row r and column c.", "quantifier": "all numbers of runs and plots", "why_tests_cant": "All numbers; matplotlib returns axes of different shapes.", "anchors": ["trappy/plot_utils.py: plot_allfreqs", "trappy/plot_utils.py: plot_load", "trappy/plot_utils.py: plot_controller"]}
{"id": "C106", "title": "Frequency histograms are titled by what they show", "statement": "plot_freq_hists draws the output frequencies on the first half of the axes and the input frequencies on the second half, with titles that say so.", "quantifier": "every table", "why_tests_cant": "All tables.", "anchors": ["trappy/ftrace.py: FTrace.plot_freq_hists"]}
{"id": "C107", "title": "Combined results contain all benchmarks", "statement": "combine_results contains every benchmark of every result, with the columns of all results.", "quantifier": "every list of results", "why_tests_cant": "All lists.", "anchors": ["trappy/wa/results.py: combine_results"]}
{"id": "C102", "title": "Inlined scripts are complete", "statement": "A script that is inlined into an exported notebook appears there with all its text.", "quantifier": "every script", "why_tests_cant": "All files.", "anchors": ["trappy/nbexport/exporter.py: TrappyPlotterPreprocessor.filter_output"]}
{"id": "C108", "title": "Inspecting an accessor describes the event", "statement": "inspect('event:column') returns the number of rows the parser would use, whether the event has the column, its pivot and the sorted distinct pivot values.", "quantifier": "every event, window, filter and accessor text", "why_tests_cant": "Tests inspect one event with data and no filters.", "anchors": ["trappy/stats/grammar.py: Parser.inspect", "trappy/stats/grammar.py: Parser._parse_for_info"]}
{"id": "C109", "title": "Variables in expressions have the values given for them", "statement": "An identifier in an expression denotes the value given for it in pvars; an identifier that is given none is an error.", "quantifier": "every identifier and dictionary of variables", "why_tests_cant": "All identifiers: some are read as numbers, some as columns.", "anchors": ["trappy/stats/grammar.py: Parser._parse_var_id"]}
{"id": "C110", "title": "Functions in expressions are the ones given or imported", "statement": "name(args) applies the function given in pvars under this name, or else the attribute of the module named before the last dot, to the values of the arguments.", "quantifier": "every name, dictionary of variables and list of arguments", "why_tests_cant": "Depends on the kind of callable.", "anchors": ["trappy/stats/grammar.py: Parser._parse_func", "trappy/stats/grammar.py: str_to_attr"]}
{"id": "C111", "title": "Merged lines keep their samples", "statement": "When several series are drawn in one interactive plot, the common time axis has exactly the times of all series in ascending order, each series has one column under its label, and every sample is in its column at its time.", "quantifier": "all numbers of series with any times and drawing styles", "why_tests_cant": "All interleavings of series.", "anchors": ["trappy/plotter/ILinePlot.py: ILinePlot._fix_indexes", "trappy/utils.py: handle_duplicate_index"]}
{"id": "C112", "title": "Step plots hold the sample before or after", "statement": "In a merged step plot the value of a series at a time is that of its last sample at or before it (steps-post, steps-mid), or of its first sample at or after it (steps-pre); there is none if there is no such sample.", "quantifier": "all series and times of the merged axis", "why_tests_cant": "All interleavings of series.", "anchors": ["trappy/plotter/ILinePlot.py: ILinePlot._fix_indexes"]}
{"id": "C113", "title": "Merged lines are straight between samples", "statement": "In a merged line plot the value of a series between two neighbouring samples is on the straight line through them.", "quantifier": "all series and times of the merged axis", "why_tests_cant": "All spacings of times.", "anchors": ["trappy/plotter/ILinePlot.py: ILinePlot._fix_indexes"]}
{"id": "C114", "title": "Concatenated interactive plots have one line per pivot", "statement": "With concat, the plot of a constraint has exactly one line for each pivot the constraint has data for, named by the pivot or by the column.", "quantifier": "every set of pivots, labels and results", "why_tests_cant": "All labellings.", "anchors": ["trappy/plotter/ILinePlot.py: ILinePlot._plot_concat"]}
{"id": "C115", "title": "Oversized interactive plots are refused with a sufficient suggestion", "statement": "A plot is refused exactly if it has more cells than max_datapoints; passing the suggested value makes it accepted.", "quantifier": "every table and limit", "why_tests_cant": "All sizes.", "anchors": ["trappy/plotter/ILinePlotGen.py: ILinePlotGen.add_plot"]}
{"id": "C116", "title": "The parsers of the library can be used together", "statement": "Creating a trace never fails because of the unique words of the parsers that come with TRAPpy, for any scope and any import order, and any further event can be requested by name.", "quantifier": "every scope, order of registration, set of unregistered parsers and list of requested events", "why_tests_cant": "The order of imports depends on the file system.", "anchors": ["trappy/ftrace.py: GenericFTrace.__init__, __add_events", "trappy/__init__.py", "trappy/sched.py", "trappy/thermal.py", "trappy/filesystem.py", "trappy/raw_syscalls.py"]}
{"id": "C117", "title": "Every table gets the lines of its event", "statement": "A trace line is put in the table of a parser iff it is a line of the event of that parser.", "quantifier": "every well-formed line, any order and selection of the built-in parsers", "why_tests_cant": "All task names, payloads and event names.", "anchors": ["trappy/ftrace.py: GenericFTrace.__get_trace_class", "trappy/idle.py", "trappy/raw_syscalls.py", "trappy/function.py"]}
{"id": "C118", "title": "trace-cmd is asked for raw output of the right events", "statement": "The command for converting a .dat file asks for raw output of exactly the events of the parsers that need it, and names the file last.", "quantifier": "every registry", "why_tests_cant": "All registrations.", "anchors": ["trappy/ftrace.py: FTrace.__generate_trace_txt, __get_raw_event_list", "trappy/dynamic.py: register_dynamic_ftrace"]}
{"id": "C119", "title": "Reading a .dat file leaves no temporary file", "statement": "After reading a .dat file, whether or not it failed, the files are those there were before.", "quantifier": "every failing step", "why_tests_cant": "Failures in every step.", "anchors": ["trappy/ftrace.py: FTrace.__generate_trace_txt, _parsing_teardown, GenericFTrace._do_parse"]}
{"id": "C120", "title": "get_filters gives the names that contain the key", "statement": "get_filters(key) gives, in order, exactly the names of the classes that contain the key.", "quantifier": "every key and list of names", "why_tests_cant": "All keys.", "anchors": ["trappy/bare_trace.py: BareTrace.get_filters"]}
{"id": "C121", "title": "A printed trace is read back exactly", "statement": "If a trace file consists of header lines and of well-formed event lines with other lines between them, and no unique word of a parser in use is in a task name, payload or foreign event name, then after parsing the table of every built-in parser in use (that has no parsing of its own) has one row for each line of its event and no others, in the order of the file, with task name, pid, CPU, line number and the values of all fields of the payload; the times are the least increasing ones not before the printed ones. Arrays become columns name0, name1, ... of equal number in all rows if the first line has one.", "quantifier": "every selection and order of the built-in parsers, every file of that form", "why_tests_cant": "Files of any length with any number of events and parsers.", "anchors": ["trappy/ftrace.py: GenericFTrace.__populate_data", "trappy/base.py: Base.create_dataframe, generate_parsed_data, generate_data_dict, trace_parser_explode_array"]}
{"id": "C122", "title": "The temperature plot shows one thermal zone", "statement": "With a thermal zone given, plot_temperature draws for each run the temperatures of that zone in degrees and the control temperature of that zone, and nothing of other zones.", "quantifier": "every list of runs, every zone", "why_tests_cant": "All zones and all tables.", "anchors": ["trappy/plot_utils.py: plot_temperature", "trappy/thermal.py: Thermal.plot_temperature, ThermalGovernor.plot_temperature"]}
{"id": "C123", "title": "Power columns are labelled with their actors", "statement": "In the input (output) power plot the line of the k-th actor is the column req_power<k> (granted_power<k>); with the wrong number of actors the call raises.", "quantifier": "every table, every list of actors", "why_tests_cant": "Any number and order of columns.", "anchors": ["trappy/thermal.py: ThermalGovernor.plot_input_power, plot_output_power"]}
{"id": "C124", "title": "Input against output power for each actor", "statement": "plot_inout_power draws one plot with the input and the output power for each actor that has a column P<actor>_in.", "quantifier": "every table", "why_tests_cant": "All column names.", "anchors": ["trappy/thermal.py: ThermalGovernor.plot_inout_power"]}
{"id": "C125", "title": "Input and output frequencies side by side", "statement": "get_all_freqs_data gives one table for each label, in which at every time the most recent input and output frequency of the cluster is found in MHz, and one for the GPU if it has both.", "quantifier": "all tables of frequencies, every labelling", "why_tests_cant": "All interleavings of the events.", "anchors": ["trappy/ftrace.py: GenericFTrace.get_all_freqs_data", "trappy/devfreq_power.py: get_all_freqs", "trappy/cpu_power.py: get_all_freqs"]}
{"id": "C126", "title": "Load plots include the GPU", "statement": "plot_load and plot_normalized_load draw at every time the most recent (normalised) load of each cluster and of the GPU.", "quantifier": "all tables of loads, every labelling", "why_tests_cant": "All interleavings of the events.", "anchors": ["trappy/ftrace.py: GenericFTrace.plot_load, plot_normalized_load"]}
{"id": "C127", "title": "There is an axis for each frequency plot", "statement": "number_freq_plots is the largest number of frequency plots of a run.", "quantifier": "all runs", "why_tests_cant": "All combinations of runs.", "anchors": ["trappy/plot_utils.py: number_freq_plots, plot_allfreqs", "trappy/ftrace.py: GenericFTrace.plot_allfreqs"]}
{"id": "C128", "title": "The event plot draws the events of its window", "statement": "After every zoom each event that has at least a hundredth of a pixel in the window is drawn in its lane, from its start or the left border to its end or the right border, at least a pixel long; nothing is drawn that is not part of an event in the window.", "quantifier": "all events grouped by lanes, every window, every monotone scale", "why_tests_cant": "Two binary searches over all data; the tests of the project do not run the JavaScript at all.", "anchors": ["trappy/plotter/js/EventPlot.js: search_data, _get_path, _process, _handle_equality, getPaths", "trappy/plotter/EventPlot.py: _group_data_by_lanes"]}
{"id": "C129", "title": "A name is drawn in the colour chosen for it", "statement": "With a colour map, every name that has a colour in it is drawn in that colour.", "quantifier": "all lists of names, every colour map", "why_tests_cant": "All subsets of names with a colour.", "anchors": ["trappy/plotter/js/EventPlot.js: generate (colourAxis)"]}
{"id": "C130", "title": "Zoom and brush show the window that was chosen", "statement": "Zooming and moving never leaves the range of the data, and the window brushed in the summary is exactly the window that is drawn.", "quantifier": "all scales, views and brushes", "why_tests_cant": "Algebra over all positions.", "anchors": ["trappy/plotter/js/EventPlot.js: zoomed, _brushed_event"]}
{"id": "C131", "title": "The markers A and B", "statement": "After any sequence of zooms and clicks the markers are at the times clicked last, each is drawn exactly if it is in the window, and the difference shown is the one of the label.", "quantifier": "all sequences of events", "why_tests_cant": "All histories.", "anchors": ["trappy/plotter/js/EventPlot.js: contextMenuHandler, updateInfo, checkGuiderRange"]}
{"id": "C132", "title": "Information about the event under the mouse", "statement": "A click with ctrl and alt on an event shows its name and times.", "quantifier": "all data, every click", "why_tests_cant": "It is about all data at once.", "anchors": ["trappy/plotter/js/EventPlot.js: getCurrentInfo, rightClickCtrlAltHandler", "trappy/plotter/EventPlot.py: _group_data_by_lanes"]}
{"id": "C133", "title": "Synchronised line plots", "statement": "All plots of a group with at least two show the least ranges that have all their ranges in them, other plots are not touched, and however often plots are synchronised no row of data is lost or changed.", "quantifier": "all sets of plots, all sequences of synchronisation and zoom", "why_tests_cant": "All histories.", "anchors": ["trappy/plotter/js/ILinePlot.js: sync"]}
{"id": "C134", "title": "From the lines to the tables the user sees", "statement": "For every choice of built-in parsers and all windows (other than an absolute window that ends at 0), the constructor gives for a printed trace an object with the times of the first and the last event, and for each parser the table with one row for each line of its event in the window, in the order of the file, with the columns its payload stands for, under the names and with the values shown to the user.", "quantifier": "all traces of all built-in events, every choice of parsers and windows", "why_tests_cant": "The whole of parsing, finalisation and windows at once, for traces of any length.", "anchors": ["trappy/ftrace.py: FTrace.__init__, _do_parse, __populate_data", "trappy/bare_trace.py: finalize_objects", "trappy/base.py: create_dataframe, generate_parsed_data"]}
{"id": "C135", "title": "Every line of an event is a row, or the constructor raises", "statement": "If the constructor succeeds without a window, the table of each parser has exactly one row for each line that goes to the parser, in the order of the file.", "quantifier": "all files, whatever their lines are", "why_tests_cant": "Malformed payloads of all kinds.", "anchors": ["trappy/base.py: generate_parsed_data, create_dataframe", "trappy/bare_trace.py: finalize_objects"]}
{"id": "C136", "title": "Markers are not interpreted", "statement": "A text written to the trace by a program reaches the table as it is, and does not keep the trace from being read.", "quantifier": "all texts", "why_tests_cant": "All texts a program may write.", "anchors": ["trappy/fallback.py: FallbackEvent.generate_data_dict", "trappy/base.py: __get_trace_array_lengths, explode"]}
{"id": "C137", "title": "Sampled rendering", "statement": "With stride=True an event plot draws at most 2000 lines in a lane, each of them a line that is drawn without it.", "quantifier": "all data, windows and lanes", "why_tests_cant": "Traces large enough to need it are not in the tests, and it is only seen in the browser.", "anchors": ["trappy/plotter/EventPlot.py: EventPlot.__init__", "trappy/plotter/js/EventPlot.js: getPaths, _get_path"]}
{"id": "C138", "title": "Groups are correlated by their own series", "statement": "The coefficient that a correlator reports for a group of nodes is the one of the sums of the series of the nodes of the group, on the common uniform index and with the shift of the correlator.", "quantifier": "all aggregators, triggers, levels, correlation functions and steps", "why_tests_cant": "Depends on the history of the aggregators; the tests correlate at the top level.", "anchors": ["trappy/stats/Correlator.py: Correlator.__init__, _resample, correlate, _align_top_level", "trappy/stats/Aggregator.py: MultiTriggerAggregator.aggregate"]}
{"id": "C139", "title": "The better alignment is used", "statement": "A correlator shifts by the alignment, at the front or the back, that has the larger correlation coefficient.", "quantifier": "all series and correlation functions", "why_tests_cant": "Undefined coefficients are rare in small tests.", "anchors": ["trappy/stats/Correlator.py: Correlator._align_top_level, align"]}
{"id": "C140", "title": "Limits of an axis", "statement": "The limits of an axis are the ones given; with \"range\" they are moved outwards by a tenth on both sides, with \"default\" they are kept.", "quantifier": "all limits", "why_tests_cant": "Only shown in figures, which no test looks at.", "anchors": ["trappy/plot_utils.py: set_lim, set_xlim, set_ylim"]}
{"id": "C141", "title": "Permuted static plots", "statement": "With permute=True a static plot has one plot for each trace and pivot value, titled with the name of the trace, which shows the columns of this trace; the legend lists the columns.", "quantifier": "all traces, columns, pivot values, widths of a row", "why_tests_cant": "No test draws permuted plots and looks at them.", "anchors": ["trappy/plotter/StaticPlot.py: StaticPlot._resolve, make_title, add_to_legend", "trappy/plotter/LinePlot.py: LinePlot.plot_axis", "trappy/plotter/Constraint.py: ConstraintManager._populate_constraints, generate_pivots"]}
{"id": "C142", "title": "Lines, colours, titles and legend of static plots", "statement": "Without concat a static plot has one plot for each pivot value, titled by it, with a line for each constraint; with concat one plot for each constraint, titled by it, with a line for each pivot value. On every plot the line with colour number i belongs to entry number i of the legend.", "quantifier": "all constraints, pivot values, labels, widths of a row", "why_tests_cant": "Figures are not looked at by the tests.", "anchors": ["trappy/plotter/StaticPlot.py: StaticPlot._resolve, make_title, add_to_legend", "trappy/plotter/LinePlot.py: LinePlot.plot_axis"]}
{"id": "C143", "title": "Published notebooks do not need the local scripts", "statement": "A published notebook loads each script from its address on the web: none of the paths of local scripts that a plot writes is left, and the rest of the notebook is unchanged.", "quantifier": "all notebooks, IPython before and since 4.0", "why_tests_cant": "The script has no tests.", "anchors": ["scripts/publish_interactive_plots.py: change_resource_paths", "trappy/plotter/IPythonConf.py: add_web_base", "trappy/plotter/EventPlot.py: html", "trappy/plotter/ILinePlotGen.py: html"]}
{"id": "C144", "title": "Publishing does not overwrite the notebook", "statement": "Without -o the notebook that is published is not overwritten; with -o the file that is written has the suffix .ipynb.", "quantifier": "all names", "why_tests_cant": "The script has no tests.", "anchors": ["scripts/publish_interactive_plots.py: main"]}
{"id": "C145", "title": "Scripts of interactive plots are installed completely", "statement": "When iplot_install has returned, every script that a page of the module loads is on the disk with its content.", "quantifier": "all sequences of calls and of states of the network", "why_tests_cant": "Needs a network that fails at the right time.", "anchors": ["trappy/plotter/IPythonConf.py: IPLOT_RESOURCES, install_http_resource, install_resource, iplot_install"]}
{"id": "C146", "title": "The browser reads the data that were printed", "statement": "The script of an interactive plot or an event plot gives the browser the data that Python printed into the page: the same strings, numbers, lists and keys, whatever characters they have.", "quantifier": "all data, nested to any depth, and all pages around them", "why_tests_cant": "Tests do not run a browser, and use plain strings.", "anchors": ["trappy/plotter/ILinePlotGen.py: ILinePlotGen.add_plot", "trappy/plotter/EventPlot.py: EventPlot.__init__, _init_html"]}
{"id": "C147", "title": "Figures of an interactive plot", "statement": "Every figure of an interactive plot is drawn once, in its own cell of the page, with its own data, labels and title and with the options that were asked for; no script of the page fails. A plot with more points than the limit is refused, and the limit that the message names suffices for the figure it is about.", "quantifier": "all arguments, numbers of figures and of plots per line, data, and identifiers", "why_tests_cant": "The tests do not run the scripts of the page.", "anchors": ["trappy/plotter/ILinePlotGen.py: ILinePlotGen._add_graph_cell, _begin_row, _end_row, _generate_fig_name, _init_html, add_plot, finish, display, html", "trappy/plotter/ILinePlot.py: ILinePlot.__init__, _plot", "trappy/plotter/js/ILinePlot.js: create_graph, generate"]}
{"id": "C148", "title": "Colours of interactive plots", "statement": "In an interactive plot with colours given, each signal is drawn in its own colour in every figure.", "quantifier": "all constraints, pivot values, colours", "why_tests_cant": "The tests do not look at the figures.", "anchors": ["trappy/plotter/ILinePlot.py: ILinePlot._plot", "trappy/plotter/ILinePlotGen.py: ILinePlotGen._add_graph_cell", "trappy/plotter/ColorMap.py: ColorMap.rgb_cycle, to_dygraph_colors"]}
{"id": "C149", "title": "Interactive plots on one page do not disturb each other", "statement": "Figures of the same plot or group show the same ranges, the least that have all of them; with sync_zoom zooming one of them zooms all, without it only this one; a figure that was removed no longer counts. Figures of other plots and groups have no influence, whatever is drawn, removed and zoomed, in any order.", "quantifier": "all sequences of figures drawn, removed and zoomed", "why_tests_cant": "Needs a browser and several plots.", "anchors": ["trappy/plotter/js/ILinePlot.js: graphs, syncObjs, purge, sync, generate, create_graph", "trappy/plotter/ILinePlotGen.py: ILinePlotGen.add_plot"]}
{"id": "C150", "title": "A plot is made exactly of arguments that make sense, and shows what they ask for", "statement": "LinePlot, BarPlot and ILinePlot accept traces with templates and columns, traces with signals, or DataFrames with columns, where each list has one element or as many as the longest, and refuse everything else with a message; the i-th line shows the i-th column of the i-th event of the i-th trace. Signals are the same as the templates and columns they stand for.", "quantifier": "all combinations of arguments", "why_tests_cant": "Combinations of lists, signals, tables and traces are endless; the tests try a few.", "anchors": ["trappy/plotter/AbstractDataPlotter.py: AbstractDataPlotter._check_data, _describe_signals", "trappy/plotter/StaticPlot.py: StaticPlot.__init__", "trappy/plotter/ILinePlot.py: ILinePlot.__init__", "trappy/plotter/Constraint.py: Constraint.__init__, populate_data_frame, ConstraintManager.__init__"]}
{"id": "C151", "title": "From the lines of the file to the points in the browser", "statement": "An interactive plot of a column of an event, made of a trace that is read from a file, shows in the browser one figure for each value of the pivot, in ascending order and with the value in the title; the figure has one point for each line of the file with the event, this value and a time the user asked for, in the order of the file, at the time and with the value of the line.", "quantifier": "all files with any number of lines of the built-in events, all parsers, windows, options of the page; columns and pivots with integers; not more points than the limit", "why_tests_cant": "Files are endless, and the way from the file to the browser goes through regular expressions, tables, plots, JSON and JavaScript; no test follows a line from one end to the other.", "anchors": ["trappy/ftrace.py: GenericFTrace.__init__, __populate_data", "trappy/base.py: Base", "trappy/plotter/Constraint.py: Constraint", "trappy/plotter/ILinePlot.py: ILinePlot._plot", "trappy/plotter/ILinePlotGen.py: ILinePlotGen", "trappy/plotter/js/ILinePlot.js: create_graph"]}
{"id": "C152", "title": "Options of matplotlib reach matplotlib", "statement": "A line plot calls matplotlib with exactly those of its arguments whose names are registered for forwarding, by default or by the user, with the values given; with scatter points are drawn instead of lines, of the size asked for.", "quantifier": "all sequences of registrations and all arguments", "why_tests_cant": "Tests only check that plots can be made.", "anchors": ["trappy/plotter/__init__.py: register_forwarding_arg, unregister_forwarding_arg", "trappy/plotter/StaticPlot.py: StaticPlot.__init__", "trappy/plotter/LinePlot.py: LinePlot._check_add_scatter, fill_line, plot_axis"]}
{"id": "C153", "title": "Size of static figures", "statement": "A figure has room for all plots, with at most per_line of them in a row, and every plot is at least as large as asked for.", "quantifier": "all numbers of plots, numbers per line and sizes", "why_tests_cant": "Tests do not look at sizes.", "anchors": ["trappy/plotter/PlotLayout.py: PlotLayout.__init__, _scale_plot, _set_defaults"]}
{"id": "C154", "title": "Plots of the correlator", "statement": "Correlator.plot draws the two series of every group of the level.", "quantifier": "all levels and data", "why_tests_cant": "There is no test of it.", "anchors": ["trappy/stats/Correlator.py: Correlator.plot", "trappy/plotter/PlotLayout.py: PlotLayout.__init__"]}
{"id": "C155", "title": "Limits of the axes of results", "statement": "After enlarge_axis all data are strictly inside the limits; the limits are never narrowed and do not change without need.", "quantifier": "all data and limits", "why_tests_cant": "Tests try two tables.", "anchors": ["trappy/wa/results.py: Result.enlarge_axis"]}
{"id": "C156", "title": "plot_trace draws every run of every task", "statement": "plot_trace of the file of a trace shows one lane for each CPU, and draws under the name and pid of each task that was asked for every run of it that can be seen, from the line of the file that switches to it to the next line that switches from it, in the lane of its CPU, and nothing else.", "quantifier": "all files, parsers, windows, tasks asked for, monotone scales and visible ranges", "why_tests_cant": "Tests of plot_trace only check that no exception is raised for one file.", "anchors": ["trappy/plotter/__init__.py: plot_trace", "trappy/plotter/Utils.py: get_trace_event_data", "trappy/plotter/EventPlot.py: EventPlot", "trappy/plotter/js/EventPlot.js: getPaths", "trappy/ftrace.py: FTrace._parsing_setup"]}
{"id": "C157", "title": "Systraces can be read and plotted", "statement": "Every systrace can be read: the object has the events between the trace marker and the end of the script, and one more CPU than the highest one with a switch. plot_trace of it has a lane for every CPU that runs a task and draws every run, as for other traces.", "quantifier": "all files with the markers of a systrace, parsers, windows, tasks asked for, monotone scales and visible ranges", "why_tests_cant": "The tests read three systraces, all with switches.", "anchors": ["trappy/systrace.py: SysTrace.__init__, trace_hasnt_started, trace_hasnt_finished, drop_before_trace", "trappy/plotter/__init__.py: plot_trace", "trappy/base.py: Base.create_dataframe"]}
{"id": "C158", "title": "From the lines of the file to the calls of the callbacks", "statement": "apply_callbacks of a trace that is read from a file makes one call for each line of the file that is an event with a callback at a time the user asks for, in the order of the file and no others; the callback gets the time of the line as Index and the fields of the line under their names.", "quantifier": "all files of less than 2^32 lines of the built-in events, parsers, windows, sets of callbacks", "why_tests_cant": "Tests use one file with two events.", "anchors": ["trappy/ftrace.py: GenericFTrace.apply_callbacks, __populate_data", "trappy/base.py: Base.create_dataframe"]}
{"id": "C159", "title": "From the lines of the file to the value of an expression", "statement": "Parser(trace).solve(expression), for a trace that is read from a file, gives a table with one row for each time at which a chosen line of one of the events of the expression occurs, in ascending order, and one column for each value of the pivot. Each cell is the value of the expression with the last value of each event:column until this time, for this value of the pivot. A line is chosen if it is in the window and all filters allow it.", "quantifier": "all files of the built-in events, parsers, windows, filters, texts of expressions of the grammar with any blanks, arithmetics of the cells", "why_tests_cant": "Tests solve a few expressions on made-up tables; no test follows a line of a file to a cell of the result.", "anchors": ["trappy/stats/grammar.py: Parser.solve, _parse_var_id, _pre_process, _pivot, _get_data_frame, eval_binary_op, eval_unary_op, iterate_binary_ops", "trappy/ftrace.py: GenericFTrace.__init__"]}
{"id": "C160", "title": "compare_runs draws every figure of every run", "statement": "compare_runs draws, in this order, temperatures, loads, frequencies, the controller, input power, weighted input power if there are weights, output power, histograms of the frequencies and of the temperatures. In each figure each run has a column, with what its own tables have: step functions of the loads and frequencies of each cluster and the GPU, the power of each actor under its name, the weighted power as power times weight over 1024. A run in which the power allocator was not active is reported with the documented ValueError.", "quantifier": "all lists of runs, labels, actors, thermal zones and tables", "why_tests_cant": "The tests compare two runs of one trace and only look whether nothing is raised.", "anchors": ["trappy/compare_runs.py: compare_runs, summary_plots", "trappy/plot_utils.py: plot_temperature, plot_load, plot_allfreqs, plot_controller, plot_weighted_input_power, plot_input_power, plot_output_power, plot_freq_hists, plot_temperature_hist, number_freq_plots", "trappy/ftrace.py: plot_freq_hists, plot_allfreqs, plot_load, plot_normalized_load", "trappy/thermal.py: plot_weighted_input_power, plot_temperature_hist"]}
{"id": "C161", "title": "Aggregated triggers of a trace file count the lines of the file", "statement": "MultiTriggerAggregator with triggers on a trace that is read from a file gives, for each group of the level, the sum of aggfunc of the series of its nodes. The series of a node has one entry for each line of the file that is an event of one of the triggers, at a time the user asks for, in the order of the file. Its value is the one of the last trigger the line is for, else zero. A line is for a trigger and a node if its field of the pivot is the node and all filters allow it. An event that does not happen counts as zero.", "quantifier": "all files of the built-in events, parsers, windows, triggers with numbers, filters, topologies, levels and aggregation functions", "why_tests_cant": "Tests aggregate a few triggers on one trace; no test follows a line of a file to the result.", "anchors": ["trappy/stats/Trigger.py: Trigger.__init__, Trigger.generate", "trappy/stats/Indexer.py: MultiTriggerIndexer", "trappy/stats/Aggregator.py: MultiTriggerAggregator.__init__, aggregate, _aggregate_base", "trappy/ftrace.py: GenericFTrace.__init__"]}
{"id": "C162", "title": "From the lines of the files to the lines of a static plot", "statement": "LinePlot(traces, event, column, pivot=..., filters=..., concat=..., per_line=...).view(), for traces that are read from files, draws one plot for each value of the pivot, ascending, titled by it, with one line for each file; with concat, one plot for each file, titled by it, with one line for each value of the pivot; without a pivot, a single plot with one line for each file. A line has one point for each line of the file with the event, the value of the pivot and a time the user asks for that passes all filters, in the order of the file, at its time and with its value. Lines of the same file, or with concat of the same value, have the same colour, and the legend names them in this order.", "quantifier": "all lists of files of the built-in events, parsers, windows, columns, integer pivots, filters and plots per line", "why_tests_cant": "Tests draw made-up tables and only look whether nothing is raised; no test follows a line of a file to a point of a plot.", "anchors": ["trappy/plotter/StaticPlot.py: StaticPlot.__init__, view, _resolve, make_title, add_to_legend", "trappy/plotter/LinePlot.py: LinePlot.__init__, plot_axis", "trappy/plotter/Constraint.py: Constraint.__init__, _apply, __str__, get_data_name, ConstraintManager.generate_pivots", "trappy/ftrace.py: GenericFTrace.__init__"]}
{"id": "C163", "title": "A trace opened again from its cache is the trace of the file", "statement": "FTrace(path, ...) for one file, opened any number of times, each time with its own parsers, window and normalisation, gives every time the trace of the file: first and last time, header, and for each parser one row for each line of the file with the event in the window, in the order of the file, at its time and with a cell for each field, NaN where the line lacks a field of the table. This does not depend on whether the tables come from the file or from the CSV files that earlier openings left behind, also if the file is replaced by another one between the openings.", "quantifier": "all files of the built-in events, all sequences of openings with any parsers and windows", "why_tests_cant": "Tests open a trace twice and compare a few tables of one file; a table that is read back differently shows only for particular values.", "anchors": ["trappy/ftrace.py: GenericFTrace.__init__, _check_trace_cache, _create_trace_cache, _get_cache_metadata, _trace_cache_path, _do_parse", "trappy/base.py: Base.create_dataframe, write_csv, read_csv, finalize_object"]}
{"id": "C164", "title": "From the lines of a trace over the page of plot_trace to the chart in the browser", "statement": "The HTML that plot_trace(trace).html() gives for a trace read from a file, opened in a browser, draws exactly the runs of the tasks that are asked for: one lane for each CPU of the header, numbered from 0, the domain from the first to the last switch, and in each window each run that is wide enough in the lane of its CPU, under the name and the pid of the task. In general, the browser draws an EventPlot from exactly the labels, domain, names and events that the plot was made from, in their order.", "quantifier": "all files of the built-in events, parsers, windows, tasks, scales of the browser, style sheets and figures; for the second part all plots", "why_tests_cant": "Tests do not look at the page; whether a name of a task breaks it shows only for particular names.", "anchors": ["trappy/plotter/__init__.py: plot_trace", "trappy/plotter/EventPlot.py: EventPlot.__init__, _init_html, _add_css, html, _generate_fig_name", "trappy/plotter/IPythonConf.py: add_web_base", "trappy/plotter/js/EventPlot.js: generate, getPaths"]}
{"id": "C165", "title": "From the results files of several runs to the bars of the plot", "statement": "combine_results([get_results(path, name), ...]).plot_results() draws one figure for each benchmark, titled by its name, with one bar for each run of the benchmark in each of the files, under the name given for the file or the id in it. The height of the bar is the first score of this run in the file. Whatever text is in the fields of the files does not disturb the others.", "quantifier": "all lists of files with any rows and any text in their fields, paths of files and of directories, names", "why_tests_cant": "Tests read one file and only look whether plotting raises nothing.", "anchors": ["trappy/wa/results.py: get_results, combine_results, get_run_number, Result.plot_results, Result.plot_results_benchmark, Result.init_fig"]}
{"id": "C166", "title": "Scripts are installed where the pages look for them", "statement": "With any version of IPython, showing an interactive plot installs each script and picture of the plot as the file that the web server sends for the URL in its page: below nbextensions in the data directory of Jupyter since version 4.0, below static in the directory of the profile before.", "quantifier": "all version texts, directories, profiles, contents of the disk before and network results without broken downloads", "why_tests_cant": "Tests run with one version of IPython.", "anchors": ["trappy/plotter/IPythonConf.py: get_ipython_dir, get_scripts_path, add_web_base, iplot_install, get_profile_name, check_ipython", "trappy/plotter/EventPlot.py: _init_html", "trappy/plotter/ILinePlotGen.py: _add_graph_cell"]}
{"id": "C167", "title": "Low memory is reported once and never changes the rows", "statement": "The rows made from the lines of an event do not depend on the memory of the machine or of the process. If the process comes to use more than nine tenths of the memory that was free at the beginning, there is a warning, and there is never more than one per event.", "quantifier": "all contents of /proc/meminfo, all readings of the memory in use, all events and payloads", "why_tests_cant": "Tests do not run out of memory.", "anchors": ["trappy/base.py: _get_free_memory_kb, generate_parsed_data"]}
{"id": "C168", "title": "What is saved is what was shown", "statement": "In any sequence of calls of view and savefig of any static plots, savefig writes the complete figure of its plot as it was last shown, or else draws it first; it fails if the plot cannot be drawn; and the calls for one plot do not change the figures of another.", "quantifier": "all plots, all sequences of calls", "why_tests_cant": "Tests show or save one plot each.", "anchors": ["trappy/plotter/StaticPlot.py: view, savefig, _resolve, __init__", "trappy/plotter/AttrConf.py: MPL_STYLE", "trappy/plotter/PlotLayout.py: __init__"]}
{"id": "C169", "title": "The numbers of a line are those of the table", "statement": "An integer that a line of the trace gives for a field is the number in the cell of the table for that line and field, and a text is that text; whether a number is kept does not depend on the other lines.", "quantifier": "all tables, all files", "why_tests_cant": "Tests use small numbers, and lines of an event that all have the same fields.", "anchors": ["trappy/base.py: create_dataframe, generate_parsed_data, optimize_dataframe"]}
{"id": "C170", "title": "Publishing notebooks changes no other file", "statement": "In any sequence of runs of the publish script, each run writes the published text to the file asked for and to no other, fails and changes nothing if the notebook is missing, does not overwrite the notebook unless that is asked for, and publishing a published notebook changes nothing. Different notebooks are published to different files.", "quantifier": "all files, all arguments, all sequences of runs", "why_tests_cant": "The script has no tests.", "anchors": ["scripts/publish_interactive_plots.py: publish, main"]}
{"id": "C171", "title": "From the lines of two files to their correlation", "statement": "The coefficient that the correlator of two traces reports for a group is the correlation function of two series: the sums over the nodes of the group of what the aggregation function makes of the values of the lines of each file, held on the uniform index of the times of both files and shifted as chosen for the whole topology.", "quantifier": "all files, parsers, windows, triggers, topologies, levels and functions", "why_tests_cant": "Tests correlate small tables made by hand, never files with several nodes.", "anchors": ["trappy/stats/Correlator.py: __init__, _resample, correlate", "trappy/stats/Aggregator.py: aggregate", "trappy/stats/Trigger.py: generate", "trappy/stats/Indexer.py: get_uniform, get_unified_indexer"]}
{"id": "C172", "title": "The correlation does not depend on the order of the traces", "statement": "The correlator of two aggregators in the other order has the same uniform index and the opposite shift, and reports the same coefficients and the same total at every level. A trace correlated with itself is not shifted, and its total is 1.", "quantifier": "all aggregators, functions, topologies, levels, files and symmetric coefficients", "why_tests_cant": "Tests correlate two fixed tables in one order.", "anchors": ["trappy/stats/Correlator.py: __init__, correlate, _align_top_level, align, shift_series"]}
{"id": "C173", "title": "Registered classes can be made into parsers", "statement": "Every class that is registered can be made into a parser when a trace is opened, which parses raw output exactly if the class says so and is a fallback exactly if the class says so. This holds for classes made by register_dynamic_ftrace, classes derived from them and from other parsers, and all classes of the library.", "quantifier": "all classes with a single base, all attributes and constructors, all lists of classes", "why_tests_cant": "Tests register one dynamic class and never derive from it.", "anchors": ["trappy/dynamic.py: default_init, register_dynamic_ftrace", "trappy/base.py: Base.__init__", "trappy/fallback.py: FallbackEvent.__init__", "trappy/ftrace.py: GenericFTrace.__init__"]}
{"id": "C174", "title": "Each trace has a cache of its own", "statement": "Two paths have the same cache exactly if they name the same file, however they are written and whatever the working directory is. The tables and the metadata of all caches are in different files: two are the same only for the same trace and, for tables, the same name of the class. No directory or file of a cache is itself a trace that FTrace reads.", "quantifier": "all working directories, all paths of files, all names of classes", "why_tests_cant": "Tests use one trace in the working directory.", "anchors": ["trappy/ftrace.py: GenericFTrace._trace_cache_path, _get_csv_path, _get_cache_metadata, _update_cache"]}
{"id": "C175", "title": "Event plots on one page agree with their axes", "statement": "On a page with any number of event plots, whatever is drawn, zoomed, brushed and resized in whatever order, the events of each plot stand where its axis says, a brush shows exactly the window that was brushed, and no time outside the data is shown.", "quantifier": "for all sequences of plots drawn (of any times, widths, with or without summary), zooms, brushes and resizes of the browser window, and every plot of the page", "why_tests_cant": "EventPlot.js keeps the width and the axis scale in variables without var, so a plot works by what the plot drawn last left there, and d3's zoom keeps a copy of the scale from before a resize; one plot in a window that is never resized shows none of it, and there are no tests of the JavaScript.", "anchors": ["trappy/plotter/js/EventPlot.js:86-134", "trappy/plotter/js/EventPlot.js:246-290", "trappy/plotter/js/EventPlot.js:354-447", "trappy/plotter/js/EventPlot.js:455-495"]}
{"id": "C176", "title": "Events are drawn in their lanes", "statement": "In the browser the bar of every event of an event plot is drawn within the plot, between the line of its lane and the next, beside the label of the lane, and apart from the bars of all other lanes; a click on the bar finds its lane, and the rectangle around a clicked event is its lane. The same holds for the bars and labels of the summary.", "quantifier": "for all numbers of lanes, all explicit lists of lanes and all events", "why_tests_cant": "The positions are computed in JavaScript from the number of lanes, which nothing compares with the lanes of the events; a trace whose CPU count is right shows no difference, and there are no tests of the JavaScript.", "anchors": ["trappy/plotter/js/EventPlot.js:99-106", "trappy/plotter/js/EventPlot.js:135-142", "trappy/plotter/js/EventPlot.js:193-204", "trappy/plotter/js/EventPlot.js:293-317", "trappy/plotter/js/EventPlot.js:613-640", "trappy/plotter/js/EventPlot.js:713-790", "trappy/plotter/css/EventPlot.css:73-75", "trappy/plotter/js/EventPlot.js:814-906", "trappy/plotter/EventPlot.py:183-217"]}
{"id": "C177", "title": "An event plot leaves nothing behind on the page", "statement": "Whatever is zoomed, brushed, clicked and resized, in whatever order and also in the middle of a gesture: the events that can be seen are exactly those drawn last, each once; nothing else is left on the page when a gesture is over; markers and ticks stay vertical, the axis keeps its line, the lane lines end at the width of the plot and the summary shows what was drawn into it last.", "quantifier": "for all sequences of zooms, ends of zooms, brushes, markers and resizes, all paths drawn by them, with and without summary", "why_tests_cant": "It is about elements that earlier actions hid, and about all orders of actions; there are no tests of the JavaScript.", "anchors": ["trappy/plotter/js/EventPlot.js:168-220", "trappy/plotter/js/EventPlot.js:251-289", "trappy/plotter/js/EventPlot.js:312-349", "trappy/plotter/js/EventPlot.js:355-441", "trappy/plotter/js/EventPlot.js:455-479", "trappy/plotter/js/EventPlot.js:575-597", "trappy/plotter/js/EventPlot.js:658-711", "trappy/plotter/js/EventPlot.js:795-830"]}
{"id": "C178", "title": "The rows of synchronised line plots stay in order", "statement": "Whatever figures are drawn, removed, zoomed and synchronised, the rows that Dygraph is given for a figure are in the order of time, as it requires.", "quantifier": "for all sequences of figures drawn, removed and zoomed, all data and limits", "why_tests_cant": "The rows that sync adds at both ends get the limits of the common range, which is within the data exactly if limits are given or something was zoomed; needs a browser and several figures.", "anchors": ["trappy/plotter/js/ILinePlot.js:30-99", "trappy/plotter/js/ILinePlot.js:101-106", "trappy/plotter/ILinePlotGen.py:262-263", "trappy/plotter/ILinePlot.py:162"]}
{"id": "C179", "title": "What can be seen on a page of event plots is the events of the window on the axis", "statement": "Whatever plots are drawn on a page, and whatever is then zoomed, brushed, marked and resized in whichever of them and in whatever order, what can be seen of each plot is exactly its events in the window that its axis shows, at the place that the axis says, and its summary shows its events from the first to the last.", "quantifier": "all pages of event plots with any data, all sequences of drawing, zooming, ends of gestures, brushing, marking and resizing", "why_tests_cant": "The picture depends on the whole history of the page, on variables shared between plots and on elements left by earlier gestures; tests would need a browser and can try only some gestures on some data", "anchors": ["trappy/plotter/js/EventPlot.js:86-134", "trappy/plotter/js/EventPlot.js:251-289", "trappy/plotter/js/EventPlot.js:355-395", "trappy/plotter/js/EventPlot.js:409-445", "trappy/plotter/js/EventPlot.js:694-711", "trappy/plotter/js/EventPlot.js:795-924"]}
{"id": "C180", "title": "What can be seen of a trace on the page of plot_trace after any gestures", "statement": "After the page of plot_trace for a trace file has been opened, next to any other event plots, and whatever was zoomed, brushed, marked and resized in whichever of them: what can be seen of the trace is, for each task asked for, its runs in the window shown, in the lane of the CPU and under the name and pid of the task, where the axis says, and nothing else; after a brush it is the runs between the brushed times.", "quantifier": "For all trace files, sets of built-in parsers, windows, tasks asked for, stylesheets, figure names and ways to print times that read back, and all sequences of actions on the page", "why_tests_cant": "Goes through the parser, the data frame, the runs of the tasks, the JSON in the page, the browser and the history of the page; a test fixes one trace and one gesture", "anchors": ["trappy/plotter/__init__.py:55-86", "trappy/plotter/EventPlot.py:87-245", "trappy/plotter/js/EventPlot.js:86-134", "trappy/plotter/js/EventPlot.js:251-289", "trappy/plotter/js/EventPlot.js:355-395", "trappy/plotter/js/EventPlot.js:795-924"]}
{"id": "C181", "title": "Titles, legends and limits of histograms and temperature plots", "statement": "A plot of a run with a name is titled with the name, a dash and what is shown, and without a name with what is shown; the entries of the legend of a temperature plot are different if the runs have different names; the title of a histogram states the mean and the standard deviation of its values to the nearest hundredth; and all values of a temperature histogram are between the limits of its axis.", "quantifier": "For all titles, names, lists of runs, values, units, axes and limits", "why_tests_cant": "The deviation is an irrational number that is rounded to decimals; the legend ranges over lists of runs of any length; a test has a few temperatures, none below 0", "anchors": ["trappy/plot_utils.py:31-41", "trappy/plot_utils.py:105-125", "trappy/plot_utils.py:180-190", "trappy/thermal.py:93-119"]}
{"id": "C182", "title": "The text of a topology tells its levels", "statement": "str() of a topology never fails: it has a line for each level in the order the levels were made, with the name and the groups. Topologies whose names have no line breaks have the same text exactly if they have the same levels and groups; a level called 'all' always shows one group of all nodes, whatever was added to it.", "quantifier": "every topology made by the constructor and add_to_level", "why_tests_cant": "All topologies and names; reading a text back is a parsing argument.", "anchors": ["trappy/stats/Topology.py: Topology.__repr__", "trappy/stats/Topology.py: Topology.get_level"]}
{"id": "C183", "title": "The table of sysfs parameters is complete and sorted", "statement": "pretty_print_in_ipython displays nothing exactly if there is no file of a parameter; otherwise a table with a row for each of these files and no others, with its value, sorted by name. Sorting integers and texts together never fails, as no name is there twice.", "quantifier": "all directories of files", "why_tests_cant": "All listings and contents; the order of the rows is one of texts of any length.", "anchors": ["trappy/wa/sysfs_extractor.py: SysfsExtractor.pretty_print_in_ipython", "trappy/wa/sysfs_extractor.py: SysfsExtractor.get_parameters"]}
{"id": "C184", "title": "Filled areas reach from the line down to the axis", "statement": "With fill, LinePlot draws an area under each line; its upper edge is the line, its lower edge is not above the line and is the lower edge of the axis, so that the area reaches down to the axis.", "quantifier": "all lines of an axis and all ways to choose the limits of an axis", "why_tests_cant": "The lower edge is the limit at the moment of drawing; later lines, margins and ylim move the limit in infinitely many ways.", "anchors": ["trappy/plotter/LinePlot.py: LinePlot.fill_line", "trappy/plotter/LinePlot.py: LinePlot.plot_axis", "trappy/plotter/StaticPlot.py: StaticPlot._resolve"]}
{"id": "C185", "title": "Every line gets a colour of its own", "statement": "With a list of colours, line number i gets colour number i; lines beyond the list get the last colour; the colours that lines get by default are at different places of the table exactly if there are at most 256 lines.", "quantifier": "for all numbers of colours and lines, and all precisions of the arithmetic", "why_tests_cant": "The index goes through a division and a multiplication that round; whether the product falls below the integer depends on the number of colours, and the first case is at 22 colours.", "anchors": ["trappy/plotter/ColorMap.py:ColorMap.__init__", "trappy/plotter/ColorMap.py:ColorMap.cmap", "trappy/plotter/ColorMap.py:ColorMap.cmap_inv", "trappy/plotter/ColorMap.py:ColorMap.rgb_cmap"]}
