# Formal model of TRAPpy in Lean 4 — design

The source under study is `/repo` (ARM-software/trappy, Python). The model lives in `lean/Verif`, Lean
namespace `Trappy`. Four kinds of files per area:

* `Verif/Model/*.lean` — shallow, total, computable Lean functions that mirror Python functions branch by
  branch. Each definition cites the file and lines it models and lists its simplifications.
* `Verif/Spec/*.lean` — specifications that do not use the model's helpers, where they are shared or long.
* `Verif/Lemma/*.lean` — helper lemmas.
* `Verif/Prop/*.lean` — small specifications independent of the model's helpers, the property theorems
  (`Cnn_...`) and examples that show the hypotheses are met by concrete non-trivial values.

## Trusted base

* Lean 4.33.0's kernel. Theorems may depend on `propext`, `Classical.choice`, `Quot.sound` and nothing else;
  no axioms are declared, no `sorry`, no `native_decide`, no `bv_decide`.
* The hand translation from Python to Lean. It is not mechanically linked to the Python text: each definition
  cites the lines it was translated from so that it can be reviewed side by side.
* The models of library behaviour listed below: specifications of what the Python standard library, numpy,
  pandas, matplotlib, dygraphs, D3 and the browser do, written from their documentation. The models of the
  standard library (the 19 regular expressions, `strip`, `split`, `replace`, `int(s, base)`, `splitext`, paths,
  `json.dumps`, CSV texts, binary64 `+ - /1e9 nextafter float(text)`) were compared with
  CPython 3, and the reader of JavaScript literals with node, on about 85000 random inputs outside this tree: no
  difference. The others could not be compared
  (the libraries are not in the sandbox).

### Library behaviour modelled, and how

| Library part | Model |
|---|---|
| `str` | `List Char`; whitespace is Unicode's; digit and word classes are the ASCII ones (Python's `\d \w` also accept other Unicode characters) |
| `re` | regular-expression AST matched by backtracking with a continuation; `match` = first success, `search` = first position with a success, `sub` = repeated search |
| `int(s, 0)` | total function over `List Char` |
| binary64 | non-negative finite numbers and +inf as natural-number bit patterns; `float(text)`, division by 1e9, `nextafter`, comparison, subtraction are defined exactly with round-half-even |
| `dict`/`OrderedDict` | association lists with Python's insertion-order update semantics |
| `pandas.DataFrame` | list of rows with an index value; only the operations the code uses (slicing by label on a sorted index, boolean masks, column maps, forward fill, shift, sorting) |
| `set` | list without duplicates; the order in which it is iterated is a parameter (any permutation) |
| numbers in statistics and tables | exact rationals, NaN as a missing value; rounding is not modelled there (`np.arange`, sums, quotients) |
| in-place `+=` on a pandas object | the stored object itself changes; results are references into the store |
| CSV | cells are texts, column types inferred as pandas documents (all integers / all numbers / text, missing-value words) |
| file system | finite map from path names to contents with create/write/remove steps; crashes cut a run between or inside steps |
| matplotlib | the calls that are made (axes, lines, colours, titles, limits, legends) and the grid returned by `plt.subplots`; no drawing |
| matplotlib colour maps | division and multiplication rounded to p bits, ties to even, then cut; p is a parameter (24 and 53 are used) |
| matplotlib limits of an axis | where the code relies on them (areas under lines), a function of the values drawn so far, which is a parameter |
| CPython strings | `is` on empty strings: all empty unicode strings are one object, an empty byte string of Python 2 is another one |
| pyparsing | ordered choice, repetition and `operatorPrecedence` with its parse actions |
| JavaScript | objects as association lists in the order of insertion, `undefined`/`null` apart, numbers as rationals; string literals read with all escapes (as UTF-16) and `</script>` ends a script |
| dygraphs, D3 | a graph is its rows, options and ranges; scales and brushes are affine maps with clamping; a zoom keeps a copy of its scale from when it was made; listeners run in the order in which they were added; a selection that names no element finds none, removing twice does nothing, and drawing an axis resets its ticks (d3 3.5.6) |
| Jupyter/IPython | the page as a list of events: figures shown, removed, zoomed; widgets as a table of values |
| concurrency | interleavings of the steps of several runs on one file system or one class registry |

### Not modelled

Pixels, fonts and style sheets; the binary format of `trace-cmd`; logging; the numeric values of
`scipy`/`np.corrcoef` beyond their definitions; rounding in statistics; docs and tests. Each entry below says
what is left out in its own part.

## Wrong programs

`seeded/LOG.jsonl` has a line for each edit of a definition that was tried and for which the build gave an answer: edits written by
hand, and edits made by a script (a constant, a comparison or an argument changed). Edits that no theorem noticed are in it too, with an
empty `theorems_failed` and a `note`; where the note says that nothing was looked at further, it is not known whether the edit breaks a
claim. Some of the scripted edits that survived are of literal texts of pages (`reqStart`, `reqRest`): theorems hold for
any such text, so a misspelt literal is not noticed. For a line with the note "no theorem failed at first; tightened" that same edit was tried
again after the theorem was added, and the theorem failed (for `naTexts` and `publishedUrls` only the module of the theorem was built
again). About thirty hand-written edits are not in the log,
because the edited definition did not compile or the script could not go on after a failed proof.

## Properties: what is modelled and how it is proved

Where the code violates a property, the negation is proved on a concrete witness (`Cnn_..._refuted`), and the
positive theorem that does hold is kept with the suffix `_partial`.

### C01 — Header fields of a trace line are recovered exactly

Plan: Backtracking regex engine (ordered list of successes) + the literal SPECIAL_FIELDS_RE term; a printer for lines; round-trip theorem.

Status: proved. Theorems: `C01_line_roundtrip`, `C01_exact`. Under the two explicit hypotheses that the data do not quote a header and do not begin with another event name; for lines without a newline these two are also necessary (C01_exact).

### C02 — Event data can not forge the header

Plan: Refuted by a concrete line (a userspace marker quoting another trace line) and for every line whose data have a dash and then something like a header; partial theorem: holds whenever the data do not quote a header, and for lines without a tgid only then.

Status: partial. Theorems: `C02_data_can_forge_header_refuted`, `C02_forged_refuted`, `C02_header_independent_of_data_partial`, `C02_paren_refuted`, `C02_exact_partial`. False as stated (a witness, and every line whose data have a dash and then something like a header); the positive theorem needs data that quote no header. For lines with a tgid, data that have a closing parenthesis and the second half of a header are excluded as well: C02_paren_refuted shows that the CPU, the time and the payload recorded for them come from the data after the parenthesis.

### C03 — Lines that are not events never contribute rows

Plan: Fold model of __populate_data; theorem: deleting foreign lines from the file leaves all rows the same up to line numbers.

Status: proved. Theorems: `C03_foreign_line`. 

### C04 — Timestamps are unique and strictly increasing across all events

Plan: binary64 non-negative numbers as bit patterns; invariant by induction over the lines. Includes the refutation at +inf (400-digit timestamps).

Status: proved. Theorems: `C04_times_strictly_increase`, `C04_no_overflow`, `C04_overflow_refuted`. For traces in which no time reaches +inf; a condition on the texts that guarantees this is proved, and the failure at +inf (400-digit timestamps) is proved as a refutation.

### C05 — Timestamp adjustment is minimal

Plan: Characterisation of the fold by a least-element specification.

Status: proved. Theorems: `C05_minimal_adjustment`, `C05_increasing_kept`. 

### C06 — Timestamp units are detected from the text

Plan: Exact model of float() on digit strings (round to nearest even) and of the division.

Status: proved. Theorems: `C06_seconds`, `C06_nanoseconds`, `C06_nanoseconds_exact`. 

### C07 — basetime and endtime delimit the trace

Plan: Invariant of the populate fold.

Status: proved. Theorems: `C07_base_and_end`, `C07_independent_of_events`. 

### C08 — Each event line goes to exactly one table

Plan: Fold model; the multiset of rows over tables is in bijection with dispatched lines.

Status: proved. Theorems: `C08_rows_come_from_lines`, `C08_each_line_once`. 

### C09 — Fallback parsers only get what nobody else wants

Plan: Decision logic stated outright.

Status: proved. Theorems: `C09_dispatch`, `C09_nonfallback_wins`. 

### C10 — Requesting fewer events does not change the events that are kept

Plan: Two runs of the fold related by an invariant.

Status: proved. Theorems: `C10_same_dispatch_same_table`, `C10_other_events_irrelevant`. 

### C11 — Line numbers order events as in the file

Plan: Invariant of the populate fold.

Status: proved. Theorems: `C11_line_order`. 

### C12 — key=value payloads round-trip

Plan: Model of str.split/split('=',1)/concatenation; round-trip theorem.

Status: proved. Theorems: `C12_payload_roundtrip`. 

### C13 — Integer fields are decoded exactly and only when they are integer literals

Plan: Total model of int(s, base=0); soundness and completeness against a separate grammar of literals.

Status: proved. Theorems: `C13_int_literals`, `C13_cast`, `C13_decimal_roundtrip`, `C13_decimal_usual`, `C13_hex_roundtrip`. 

### C14 — Payload parsing fails only on a leading bare word

Plan: Exceptions as values; iff theorem.

Status: proved. Theorems: `C14_error_iff`, `C14_leading_word`. 

### C15 — Array payloads are exploded element by element

Plan: Regex model; theorem on printed payloads.

Status: proved. Theorems: `C15_arrays_exploded`, `C15_elements`. 

### C16 — All rows that carry an array get the same columns for it

Plan: Array lengths fold = maximum; combination with C15.

Status: proved. Theorems: `C16_equal_columns`, `C16_words`. 

### C17 — Array explosion always terminates

Plan: Refuted: a payload for which the loop provably never ends; partial: terminates when array names contain no braces.

Status: partial. Theorems: `C17_nontermination_refuted`, `C17_table_never_built_refuted`, `C17_terminates_partial`, `C17_table_terminates_partial`. False as stated: the loop never ends on a payload p{}={c d}, for all words p, c and d. Termination is proved unless names (the text of a word before its first equals sign) have both closing and opening braces.

### C18 — Arrays are exploded wherever they appear in the table

Plan: Refuted by a two-line table; partial: holds if the first line has an array.

Status: partial. Theorems: `C18_exact_partial`, `C18_later_arrays_refuted`, `C18_no_array_first`, `C18_all_exploded_partial`, `C18_unchanged_exact`. False as stated: nothing is exploded if the first payload has no array. Holds when it has one. C18_unchanged_exact says for all payloads which tables are left as they are.

### C19 — Empty arrays produce no columns

Plan: Model of re.sub; refuted for an array at the end of the payload; partial for arrays followed by a blank.

Status: partial. Theorems: `C19_trailing_empty_array_refuted`, `C19_empty_arrays_removed_partial`, `C19_no_empty_array`, `C19_end_refuted`. False for an empty array at the end of the payload; holds for those followed by a blank.

### C20 — A time window keeps exactly the events inside it, bounds included

Plan: Generic ordered additive time; filter specification.

Status: partial. Theorems: `C20_window_exact_partial`, `C20_relative_window`, `C20_relative_window_real`, `C20_absolute_window_partial`, `C20_zero_end_refuted`, `C20_zero_end_exact`. Relative windows in full; absolute windows unless their end is 0, which the code takes for no end (refuted): that is right exactly if no event follows the start.

### C21 — window and abs_window together select the intersection

Plan: Refuted (the later of both ends is used; an absolute end of 0 is ignored); partial: holds when at most one end is given and ends are non-zero.

Status: partial. Theorems: `C21_ends`, `C21_exact_partial`, `C21_intersection_refuted`, `C21_intersection_partial`, `C21_nothing_lost_partial`. False when both windows have an end: the later end is used. Holds when at most one has an end; no row in both windows is ever lost.

### C22 — Windows change neither the base time nor the times of the rows kept

Plan: Windowed table is a sublist of the unwindowed one; base time independent of the window.

Status: proved. Theorems: `C22_times_unaffected`, `C22_same_row_same_time`. 

### C23 — Normalisation shifts every table by the same base time

Plan: binary64 subtraction model: monotone, zero at base.

Status: proved. Theorems: `C23_normalised`. 

### C24 — Normalised timestamps remain distinct

Plan: Refuted by a concrete pair of adjacent binary64 times and base; partial: holds when all times are at most twice the base time (Sterbenz).

Status: partial. Theorems: `C24_distinct_refuted`, `C24_distinct_partial`, `C24_exact_partial`. False: two events one binary64 step apart can get the same normalised time. Holds for times that are not neighbouring numbers, and (exactly) up to twice the base time.

### C25 — Trace duration spans all tables

Plan: Direct.

Status: proved. Theorems: `C25_duration`. 

### C26 — Unregistering undoes registering

Plan: Registry as insertion-ordered dictionaries; invariants over operation sequences.

Status: proved. Theorems: `C26_unregister_undoes`, `C26_unregistered`. 

### C27 — Scopes select the documented sets of events

Plan: Dictionary update model.

Status: proved. Theorems: `C27_scopes`, `C27_requested`. 

### C28 — Accepted event sets have no ambiguous unique words

Plan: itertools.combinations model; iff theorem.

Status: proved. Theorems: `C28_accepted_iff`, `C28_word_table`, `C28_constructor`. 

### C29 — CamelCase class names map to attribute names predictably

Plan: Model of re.sub; specification by runs; injectivity.

Status: proved. Theorems: `C29_name_of_runs`, `C29_distinct`, `C29_case_collision`. 

### C30 — Adding a parsed event never overwrites data

Plan: State machine invariant.

Status: proved. Theorems: `C30_add_event`, `C30_never_overwritten`. 

### C31 — Access through an event's unique word is redirected

Plan: Decision logic.

Status: proved. Theorems: `C31_redirect`. 

### C32 — A warm cache is transparent

Plan: File-system state machine; invariant: every cached table equals the freshly parsed one. Assumes faithful CSV (C39) and distinct class names (C38).

Status: partial. Theorems: `C32_warm_cache_refuted`, `C32_no_events_refuted`, `C32_warm_cache_partial`. False as stated: without any event class the cached parse reports times 0, a line with the words of two classes can go to both, and FTrace cannot use a cache written by SysTrace. Holds for all other histories, given a faithful CSV and JSON.

### C33 — A changed trace file is never served from an old cache

Plan: Same state machine with an injective digest.

Status: proved. Theorems: `C33_stale_cache_ignored`, `C33_changed_trace`. First theorem: any environment, any stale directory. Second: whole histories, for faithful CSV and JSON and unambiguous lines.

### C34 — An interrupted cache write never makes a trace unreadable

Plan: Refuted: a crash between directory creation and the metadata write makes every later parse raise; partial: crashes at any other point are recoverable.

Status: partial. Theorems: `C34_unreadable_refuted`, `C34_exact`, `C34_readable_partial`, `C34_warm_partial`. False: a parse killed right after creating the cache directory makes every later parse fail. Later parses succeed if the directory is missing or the metadata complete, in particular when the killed parse found one of its tables in the cache. Proved exactly which states of the disk can be parsed; all others stay unreadable forever.

### C35 — An interrupted cache write never yields wrong data

Plan: Refuted for a crash inside a table write; partial for crashes between file writes.

Status: partial. Theorems: `C35_wrong_data_refuted`, `C35_no_wrong_data_partial`. False: a parse killed between two rows of a table makes later parses return the shorter table. For all crash points, later parses that do not use the one unfinished file fail or are right.

### C36 — Disabling the cache leaves the file system alone

Plan: State machine.

Status: proved. Theorems: `C36_disabled`. 

### C37 — Only missing tables are re-read and written

Plan: State machine.

Status: partial. Theorems: `C37_missing_tables_refuted`, `C37_cache_wiped`, `C37_missing_tables_partial`. False when none of the requested tables is cached: the whole directory is emptied. Holds when at least one is.

### C38 — Different event classes never share a cache entry

Plan: Refuted: entries are keyed by the Python class name; partial under distinct class names.

Status: partial. Theorems: `C38_shared_entry_refuted`, `C38_own_entry_partial`. False for two classes with the same Python name. Holds for different names.

### C39 — Cached tables have the same cell values and types as parsed ones

Plan: CSV model with type inference; refuted (zero-padded masks come back as integers); partial: integer columns and columns with a non-numeric text.

Status: partial. Theorems: `C39_text`, `C39_header`, `C39_types_partial`, `C39_types_refuted`, `C39_missing`. False: a task name that is a number, or null, changes its type or value. Texts of fields always survive; types and values survive exactly for columns of 64-bit integers, of floats, of booleans, of texts not all of another type, and of texts that are integers too large. Assumes that floats are read as written, which pandas promises only with float_precision='round_trip'.

### C40 — Finalisation runs exactly once per table

Plan: Part of the cache machine.

Status: proved. Theorems: `C40_finalised_once`. Under the hypotheses of C33_changed_trace.

### C41 — Callbacks see every selected event once, in file order

Plan: k-way merge model; output is the sorted permutation.

Status: proved. Theorems: `C41_callbacks`, `C41_count`, `C41_dict`. 

### C42 — Trace path resolution

Plan: Decision logic with a file-existence oracle and splitext.

Status: proved. Theorems: `C42_path`, `C42_read_exists`. 

### C43 — Header metadata is read only from the header

Plan: Fold model.

Status: proved. Theorems: `C43_header`, `C43_only_header`. 

### C44 — Systrace body extraction

Plan: State machine + dropwhile/takewhile.

Status: proved. Theorems: `C44_body`, `C44_nothing`. 

### C45 — Systrace markers round-trip

Plan: Regex model; round trip.

Status: proved. Theorems: `C45_end_marker`, `C45_begin_marker`, `C45_counter_marker`, `C45_row`. 

### C46 — System call records round-trip

Plan: Regex + number printer/reader round trip.

Status: partial. Theorems: `C46_sys_enter_partial`, `C46_sys_exit`, `C46_negative_number_refuted`, `C46_exact`. False for sys_enter with a negative call number, which ends the parse with ValueError. Holds for all other numbers, and for sys_exit with all numbers.

### C47 — sched_switch records round-trip

Plan: str.replace(…,1) model + C12.

Status: proved. Theorems: `C47_sched_switch`, `C47_arrow`. 

### C48 — CPU mask population count

Plan: Round trip with popcount specification.

Status: proved. Theorems: `C48_popcount`, `C48_printed`. 

### C49 — CPU masks are padded to eight digits

Plan: Format model.

Status: partial. Theorems: `C49_pad`, `C49_mask_partial`, `C49_binary_mask_refuted`, `C49_exact`. Padding itself is proved for all cells. From the printed mask to the table it is false for masks that begin with 0b, which are read as binary numbers; proved for all other masks of at most eight digits, and exactly which masks are kept.

### C50 — Pivoted series carry the last observation

Plan: Model with forward fill; last-observation specification.

Status: partial. Theorems: `C50_pivot_partial`, `C50_unlabelled`, `C50_freqs`, `C50_shared_label_refuted`, `C50_duplicate_time_refuted`, `C50_exact`, `C50_shared_lost_refuted`. False when two clusters share a label (one of them is lost) and when one of several clusters reports twice at one time (ValueError). Holds for all other tables in time order and all iteration orders of the set of clusters.

### C51 — Normalised load is load times relative frequency per cpu

Plan: Rational arithmetic.

Status: partial. Theorems: `C51_normalised_partial`, `C51_bound`, `C51_table_partial`, `C51_absent_cluster_refuted`, `C51_absent_refuted`, `C51_exact`. The formula and the bound hold for all tables in which every labelled cluster occurs; with a labelled cluster that does not occur the call raises ValueError.

### C52 — Idle exit states are decoded as -1

Plan: Map over cells.

Status: proved. Theorems: `C52_idle`, `C52_idempotent`. 

### C53 — ext4 payloads are read as name/value pairs

Plan: split/zip model.

Status: proved. Theorems: `C53_ext4`. 

### C54 — f2fs payloads round-trip

Plan: str.replace model + C12.

Status: partial. Theorems: `C54_f2fs_partial`, `C54_f2fs_words_partial`, `C54_sync_exit_partial`, `C54_comma_refuted`, `C54_commas_refuted`, `C54_exact`. False for values with a comma, such as device numbers; proved for values without commas and equals signs, of one word or several, and with 'checkpoint is' for f2fs_sync_file_exit.

### C55 — Clock events keep the clock name

Plan: split(' ',1) + C12.

Status: proved. Theorems: `C55_clock`, `C55_name`, `C55_no_fields`. 

### C56 — Duplicate index resolution makes times unique

Plan: Exact rational model with the in-place updates; refuted for a group of four; partial: groups of at most three.

Status: partial. Theorems: `C56_unique_partial`, `C56_four_duplicates_refuted`, `C56_collision_refuted`. False for four or more equal times followed by a time at most max_delta * 2^(k-2) later. Proved, with exact arithmetic, for groups of at most three and for all groups followed by a wider gap or by nothing.

### C57 — Duplicate index resolution keeps rows and unique times

Plan: Same model.

Status: partial. Theorems: `C57_rows`, `C57_rows_partial`, `C57_identity`, `C57_frame`, `C57_first_moved_refuted`. Rows are kept in order for all inputs. First entries keep their times under the condition of C56; otherwise they can be moved.

### C58 — Topology bookkeeping

Plan: State machine; abstract map refinement.

Status: proved. Theorems: `C58_levels`, `C58_clusters`. 

### C59 — Unified indices are sorted, duplicate-free unions

Plan: Sorted union.

Status: proved. Theorems: `C59_unified`, `C59_unified_indexer`. 

### C60 — Trigger filters select by any of the listed values

Plan: Mask model; refuted for lists of two values; partial for single values and functions.

Status: partial. Theorems: `C60_mask`, `C60_filters_partial`, `C60_list_refuted`, `C60_list_exact`. False for lists: all values of a list are required at once, so two different values never match anything and an empty list matches everything. Proved for single values, callables and missing columns; C60_mask says for all inputs what is selected.

### C61 — Aggregation is repeatable

Plan: State machine with the in-place addition; refuted without aggregation function; partial: holds with a function that returns a new object.

Status: partial. Theorems: `C61_base`, `C61_repeatable_partial`, `C61_first_call_partial`, `C61_single_nodes_partial`, `C61_repeat_refuted`, `C61_overlap_refuted`, `C61_accumulates_refuted`. False without an aggregation function: sums are added in place to the stored series. Proved with a function that returns a new object, for all sequences of calls; without one for the first call with disjoint groups, and for levels of single nodes.

### C62 — Series alignment brings first (last) activity together

Plan: List model with shift.

Status: partial. Theorems: `C62_align_partial`, `C62_nan_refuted`, `C62_nan_front_refuted`, `C62_exact`. False for series with NaN, which counts as activity; proved for all series of equal length without NaN. With NaN, proved exactly when the activities coincide: if they are as far from the first (last) sample that is not zero.

### C63 — Expression grammar evaluates with the documented precedence

Plan: Precedence-climbing model of operatorPrecedence over tokens; theorem against an independent AST printer.

Status: proved. Theorems: `C63_precedence`, `C63_text`, `C63_compact`, `C63_fuel`, `C63_unambiguous`. For every expression of the grammar and every interpretation of the operators. pyparsing is modelled by tokens; a signed number is only read in an exponent. Texts may have blanks after any token, and must have them only between two words or two operators.

### C64 — Columns of different events are kept apart in expressions

Plan: State model of _agg_df; refuted (column name is the only key); partial for distinct column names.

Status: partial. Theorems: `C64_events_partial`, `C64_events_refuted`, `C64_same_name_refuted`. False if two events have a column of the same name: the second accessor denotes the data of the first, also across expressions. Proved if accesses with the same column are of the same event.

### C65 — Expression windows and filters

Plan: Filter specification.

Status: proved. Theorems: `C65_selection`. 

### C66 — Plot constraints select by filters and pivot

Plan: Filter/partition theorems.

Status: proved. Theorems: `C66_series`, `C66_keys`, `C66_partition`, `C66_whole`, `C66_marker_refuted`, `C66_exact`. The partition theorem excludes pivot cells equal to the string reserved for plots without a pivot; C66_marker_refuted shows why.

### C67 — Constraint expansion pairs traces, columns and templates

Plan: Direct.

Status: proved. Theorems: `C67_when`, `C67_zip`, `C67_messages`. 

### C68 — Pivot values are listed once, in order

Plan: Set/sort model.

Status: proved. Theorems: `C68_pivots`, `C68_fails`, `C68_pairs`. Pivot values are integers or texts; texts that are all decimal or all hexadecimal are ordered by their number, as the code does.

### C69 — Plot grid has room for every plot

Plan: Arithmetic.

Status: proved. Theorems: `C69_when`, `C69_room`, `C69_cells`, `C69_distinct`, `C69_finish`. 

### C70 — Each series is drawn on the axis of its pivot

Plan: Refuted (axis index runs over all constraint/pivot pairs); partial for one constraint, and for one-row grids with all pivots present.

Status: partial. Theorems: `C70_exact_partial`, `C70_axis_partial`, `C70_crash_refuted`, `C70_missing_refuted`. False: with two constraints and more pivots than plots per line IndexError is raised, for all such inputs; a missing series shifts the later ones. Proved for one constraint, one row or one column if all series exist.

### C71 — Interactive grid has one figure per plot

Plan: Arithmetic and fold.

Status: proved. Theorems: `C71_table`, `C71_figures`, `C71_data`. 

### C72 — Residency intervals follow the switches

Plan: State machine invariant.

Status: partial. Theorems: `C72_intervals_partial`, `C72_exact_partial`, `C72_order_partial`, `C72_rename_refuted`. False if a task changed its name and its switch-out was lost: a complete run is deleted and the lost one drawn to the end. Proved for all tables in which a task whose end was lost has the same name when switched to again, in particular for all tables without lost events; C72_exact_partial: for tables in the order of time, these are exactly the ones that are drawn rightly.

### C73 — Residency extraction survives dropped events

Plan: Refuted (rename + drop raises IndexError); partial when each pid keeps its name.

Status: partial. Theorems: `C73_partial`, `C73_names_partial`, `C73_rename_refuted`, `C73_new_name_refuted`, `C73_first_partial`, `C73_empty_refuted`. False: IndexError for an empty table, and for all tables in which a task is switched to under a new name after its switch-out was lost. At the first change of a name, proved exactly when the error occurs.

### C74 — Event plot lanes

Plan: Direct.

Status: proved. Theorems: `C74_lanes`, `C74_unknown`, `C74_numbered`, `C74_groups`, `C74_keys`, `C74_plot`. 

### C75 — Signal definitions round-trip

Plan: Regex model.

Status: proved. Theorems: `C75_decode`, `C75_invalid`, `C75_unknown`, `C75_list`. 

### C76 — Benchmark results keep the first value of each run

Plan: Nested dictionary fold.

Status: proved. Theorems: `C76_first`, `C76_readable`. 

### C77 — Run numbers

Plan: Regex model.

Status: proved. Theorems: `C77_run_number`. 

### C78 — Actor weights follow the cooling device numbers

Plan: Refuted for eleven devices (lexicographic order); partial for at most ten.

Status: partial. Theorems: `C78_weights_partial`, `C78_weights_refuted`, `C78_each_refuted`. False for every number of cooling devices above ten: the files are sorted as text. Proved for up to ten. With more, each of the actors 1 to 9 gets the weight of another device.

### C79 — Notebook export removes marked text and inlines each resource once

Plan: State machine.

Status: proved. Theorems: `C79_export`, `C79_once`, `C79_missing`. 

### C80 — Forwarded plot arguments

Plan: List state machine.

Status: proved. Theorems: `C80_forward`, `C80_args`, `C80_defaults`. 

### C81 — Temperature histograms are drawn for the runs that have data

Plan: Refuted (axes counted over non-empty runs are paired with all runs); partial when the runs with data come first.

Status: partial. Theorems: `C81_temperature_partial`, `C81_temperature_refuted`. False if a run without data precedes one with data: KeyError. Proved if the runs without data come last.

### C82 — Stacked bars start where the previous ones end

Plan: Prefix sums; refuted for series of different lengths (exception, or wrong bottoms after a series of one value); partial for equal lengths.

Status: partial. Theorems: `C82_stacked_partial`, `C82_grouped_partial`, `C82_lengths_refuted`, `C82_stacked_one_refuted`, `C82_grouped_exact`, `C82_stacked_exact`, `C82_bottoms_exact`. False for series of different lengths: an exception, or wrong bottoms after a series of one value. Proved for equal lengths, with exact rationals for floats; proved exactly for which series there is an exception, grouped and stacked, and where bottoms are missing.

### C83 — Concurrent parses of one trace

Plan: Interleaving model of the cache operations; refuted schedules and partial theorem.

Status: partial. Theorems: `C83_concurrent_refuted`, `C83_wrong_data_refuted`, `C83_outdated_refuted`, `C83_disabled_partial`, `C83_readers_partial`, `C83_cold_partial`, `C83_together_partial`. False: there are schedules under which the second process fails or silently loses rows. Also false when both find an outdated cache: removing it can fail. Holds for processes with the cache disabled, for processes that only read a complete cache, for a process that finds no cache when it starts (whatever the others do), and for two processes that start together, which leave the cache one of them would leave alone.

### C84 — Weighted correlation

Plan: Rational arithmetic.

Status: partial. Theorems: `C84_total`, `C84_average_partial`, `C84_undefined_refuted`, `C84_exact_partial`. The bound holds always. The total is not the average over the defined groups: the weight of undefined groups stays in the denominator, and NaN counts as active.

### C85 — Uniform resampling

Plan: Rational arithmetic.

Status: proved. Theorems: `C85_uniform`, `C85_pad`, `C85_resample`. With exact arithmetic; in floating point arange may yield one value more.

### C86 — Header columns are not replaced by payload fields

Plan: dict.update model; refuted by a payload that prints __pid=7; partial: payloads without such keys.

Status: partial. Theorems: `C86_header_columns_refuted`, `C86_header_columns_partial`, `C86_payload_columns`, `C86_exact`. False for payloads that print keys named like header columns; holds for all others. Exactly when a header value is kept is proved.

### C87 — Events can be requested with or without their colon

Plan: Refuted for events without a registered class (unique word with two colons); partial: registered events.

Status: partial. Theorems: `C87_trailing_colon_refuted`, `C87_trailing_colon_partial`, `C87_unregistered_refuted`. False for events without a registered class: the unique word gets a second colon. Holds for registered events.

### C88 — Free-form userspace markers keep their text

Plan: Regex model; refuted in a systrace for texts starting with a capital letter (the pattern only anchors one capital); partial otherwise.

Status: partial. Theorems: `C88_text_kept_refuted`, `C88_text_kept_partial`, `C88_exact`. False in a systrace for texts that start with a capital letter: the row then only holds that letter. Holds for all other texts and always in an FTrace.

### C89 — Finalising renames columns without touching data

Plan: Rename on a list of columns; a collision with an existing column gives two columns of one name.

Status: proved. Theorems: `C89_rename`, `C89_lookup`. 

### C90 — Levels can be counted and indexed

Plan: Same state machine; refuted for the level all, whose span is the number of nodes; partial for the others.

Status: partial. Theorems: `C90_span_partial`, `C90_index`, `C90_all_refuted`, `C90_all_exact`. False for the level all: its span is the number of nodes, not of groups, for every topology but those with one node.

### C91 — A trigger gives the column it was asked for

Plan: Refuted for columns (the loop variable is used in place of the value); partial for constants.

Status: partial. Theorems: `C91_const_partial`, `C91_column_refuted`, `C91_last_filter_refuted`. False for columns: the column given is never used; UnboundLocalError without filters. Proved for constants.

### C92 — A single trigger is as good as a list

Plan: Refuted: a single trigger cannot be iterated; partial: lists of one trigger.

Status: partial. Theorems: `C92_single_trigger_refuted`, `C92_list_partial`. False: a single trigger raises TypeError. A list with one trigger works.

### C93 — Malformed expressions are rejected

Plan: Refuted: parseString without parseAll ignores what follows the longest expression; partial: text without a first operand.

Status: partial. Theorems: `C93_trailing_refuted`, `C93_ignored_refuted`, `C93_no_operand_partial`, `C93_exponent`. False: whatever follows the longest expression is ignored. Proved for text without a first operand.

### C94 — Super-indexing keeps the last observation

Plan: State model of _agg_df (reindex with pad, concat, fillna); invariant over loads; last observation specified without the model.

Status: proved. Theorems: `C94_super_index`, `C94_loads`, `C94_class`, `C94_unknown`. With the defaults (pad, no limit, fill); for tables whose times increase strictly and whose rows have a pivot value; concat is taken to sort the union of indices.

### C95 — The plot window includes the neighbouring rows

Plan: Specification by positions. If there is no row before or after, the bound is NaN; the model has a parameter for what pandas does with NaN as the end of a slice (raise, or sort it last). Refuted for windows that start before the first row, with either behaviour; proved for the others.

Status: partial. Theorems: `C95_window_partial`, `C95_inside_partial`, `C95_start_refuted`, `C95_end_refuted`, `C95_none`, `C95_window_exact`. False for every window that starts before the first row (nothing is kept, or an exception), and, with releases of pandas that raise for NaN, for every window that ends after the last row; proved in all other cases.

### C96 — Permuted constraints

Plan: Refuted (duplicate constraints and a cross product with templates); partial for the number and the traces.

Status: partial. Theorems: `C96_permute_partial`, `C96_permute_refuted`, `C96_templates_refuted`, `C96_exact`, `C96_number_refuted`. False: duplicated constraints, templates crossed with columns. Proved exactly what the code does produce, and when there is one constraint for each trace and column.

### C97 — Concatenated plots have one axis per constraint

Plan: Refuted (the axis is that of the trace, not of the constraint; one trace with two columns); partial for one constraint per trace.

Status: partial. Theorems: `C97_concat_partial`, `C97_concat_refuted`, `C97_axis_refuted`, `C97_exact`, `C97_one_trace_refuted`. False for one trace with several columns. Proved exactly: the series of constraint i are on cell i if and only if the constraints with data have their own number as trace index.

### C98 — Interactive plots show every series

Plan: Refuted (two traces of the same name overwrite each other); partial for distinct labels.

Status: partial. Theorems: `C98_data_partial`, `C98_perm_partial`, `C98_data_refuted`, `C98_exact`, `C98_perm_exact`. False for traces of the same name. It holds exactly if the labels of the constraints with data are different.

### C99 — Titles of permuted interactive plots

Plan: Refuted (the names are indexed by plot; IndexError with two pivots); partial for one pivot.

Status: partial. Theorems: `C99_titles_partial`, `C99_titles_refuted`, `C99_wrong_refuted`, `C99_exact`, `C99_several_refuted`. False with two pivot values: IndexError or a wrong title. Proved with one; exactly which titles there are, and when IndexError is raised, is proved.

### C100 — Signals with and without colours

Plan: Refuted (TypeError if only some signals have a colour); partial if all have one or none has.

Status: partial. Theorems: `C100_colours_partial`, `C100_none_partial`, `C100_mixed_refuted`, `C100_colours_exact`. False if only some signals have a colour: TypeError. Proved if all have one or none has.

### C101 — Sysfs parameters are the contents of their files

Plan: Refuted (the last character is cut off whatever it is); partial if each file ends with a newline.

Status: partial. Theorems: `C101_parameters_partial`, `C101_parameters_refuted`, `C101_cut`, `C101_empty`, `C101_digits_refuted`. False for a file without a newline at its end: the last digit is lost. Proved if each file ends with a newline.

### C103 — Weighted input power

Plan: Refuted for actors of the same name; partial for different names, with exact rationals for floats.

Status: partial. Theorems: `C103_last`, `C103_weighted_partial`, `C103_weighted_refuted`. False for actors of the same name. Proved for different names, with exact rationals for floats.

### C104 — Figure sizes follow the golden ratio

Plan: Refuted (the height is rounded down, to zero for a width of 1); partial with bounds.

Status: partial. Theorems: `C104_size_partial`, `C104_size_refuted`, `C104_exact`. False if only the width is given: the height is rounded down. Proved for the other cases, and for this one exactly if the width is a whole multiple of the golden ratio.

### C105 — Each run has its own column of plots

Plan: Model of the shapes returned by plt.subplots and of zip(*axis); by induction on the rows.

Status: proved. Theorems: `C105_columns`. 

### C106 — Frequency histograms are titled by what they show

Plan: Refuted (input frequencies are titled as output); partial for the axes and data.

Status: partial. Theorems: `C106_histograms_partial`, `C106_histograms_refuted`, `C106_titles_refuted`. False: every histogram of input frequencies is titled as output. Axes and data are proved.

### C107 — Combined results contain all benchmarks

Plan: Refuted (benchmarks that are not in the first result are dropped, others raise KeyError); partial for the benchmarks of the first result.

Status: partial. Theorems: `C107_combine_partial`, `C107_combine_refuted`, `C107_exact`. False: benchmarks that are not in the first result are dropped, whatever is combined. Proved for those of the first result.

### C102 — Inlined scripts are complete

Plan: Refuted (the last character of each line is cut off, whatever it is); partial for scripts that end with a newline.

Status: partial. Theorems: `C102_complete_partial`, `C102_complete_refuted`, `C102_exact`. False for a script that does not end with a newline. Proved for those that do.

### C108 — Inspecting an accessor describes the event

Plan: Text of the accessor is tokenised as in C63; refuted for events without rows that have a pivot.

Status: partial. Theorems: `C108_dots`, `C108_inspect_partial`, `C108_empty_refuted`, `C108_unknown`, `C108_inspect_exact`. False for an event without rows that has a pivot: KeyError. Proved for all others.

### C109 — Variables in expressions have the values given for them

Plan: Refuted for nan, inf, infinity in any case, and for unknown names whose second letter is a column.

Status: partial. Theorems: `C109_operators`, `C109_variables_partial`, `C109_words_refuted`, `C109_unknown_partial`, `C109_unknown_refuted`, `C109_accessor`. False for variables called nan, inf or infinity, and for unknown names if there is a column named by their second letter.

### C110 — Functions in expressions are the ones given or imported

Plan: Refuted for callables that are not Python functions.

Status: partial. Theorems: `C110_functions_partial`, `C110_callable_refuted`, `C110_calls`. False for callables that are not Python functions (built-ins, numpy functions): they are ignored.

### C111 — Merged lines keep their samples

Plan: Refuted for series with four or more samples at one time (merge raises); partial otherwise.

Status: partial. Theorems: `C111_samples_partial`, `C111_distinct`, `C111_duplicate_refuted`, `C111_exact`. False for series with many samples at one time: the merge raises. Proved for all series that can be spread apart (C56), and exactly when the merge raises.

### C112 — Step plots hold the sample before or after

Plan: Refuted for series with the same times, five or more of which coincide; partial whenever the merged times are sorted.

Status: partial. Theorems: `C112_post_partial`, `C112_pre_partial`, `C112_times`, `C112_unsorted_refuted`, `C112_single`. False for series with the same times, five or more of which coincide: the merged times are not sorted. Proved whenever the merged times are sorted, which they are unless all series have the same times.

### C113 — Merged lines are straight between samples

Plan: Refuted (interpolation ignores the times) for all triples of unequally spaced times; partial for equally spaced times; always between the two values.

Status: partial. Theorems: `C113_exact_partial`, `C113_line_partial`, `C113_between`, `C113_ends`, `C113_line_refuted`. False whenever the times are not equally spaced. Proved for equally spaced times; for all times the value is between those of the neighbours.

### C114 — Concatenated interactive plots have one line per pivot

Plan: Refuted for pivots with equal labels and for a column given as text; partial for distinct labels.

Status: partial. Theorems: `C114_names`, `C114_lines_partial`, `C114_numbers`, `C114_labels_refuted`, `C114_column_refuted`, `C114_exact`. False for pivots with equal labels. Proved exactly if the pivots with data have distinct labels, which numbers have by default.

### C115 — Oversized interactive plots are refused with a sufficient suggestion

Plan: Sum of row lengths.

Status: proved. Theorems: `C115_limit`. 

### C116 — The parsers of the library can be used together

Plan: Refuted for events such as sys_enter_openat; proved for events whose word is apart from the others.

Status: partial. Theorems: `C116_builtins_accepted_partial`, `C116_requested_refuted`, `C116_exact`. False for requested events whose name contains a unique word without colon, such as sys_enter_openat: the constructor raises. Proved for the built-in parsers and requested events apart from them; for a single event this is exact.

### C117 — Every table gets the lines of its event

Plan: Refuted for cpu_idle_miss, sys_enter_openat, suffixes and task names; exact criterion and partial theorems.

Status: partial. Theorems: `C117_word_in_line`, `C117_own_lines_partial`, `C117_foreign_lines_partial`, `C117_foreign_lines_refuted`, `C117_exact`. False for events whose name contains a unique word without colon or ends with one, and for lines with a unique word in the task name or payload. Proved without these; which lines are taken by no parser is given exactly.

### C118 — trace-cmd is asked for raw output of the right events

Plan: Refuted for dynamic parsers whose class name is not derived from the event; proved for the built-in ones.

Status: partial. Theorems: `C118_command`, `C118_builtin_raw`, `C118_raw_names_partial`, `C118_raw_names_refuted`, `C118_exact`, `C118_raw_exact`, `C118_registered_refuted`. False for dynamic parsers whose class name is not that of the event. Proved for all built-in parsers; the shape of the command for all registries.

### C119 — Reading a .dat file leaves no temporary file

Plan: Refuted for every failing step; proved for success.

Status: partial. Theorems: `C119_no_leftovers_partial`, `C119_no_leftovers_refuted`, `C119_no_leftovers_exact`. False whenever a step raises. Proved if none does, or if everything was cached.

### C120 — get_filters gives the names that contain the key

Plan: Refuted for keys with a dot; proved for literal keys, and in general with the dot as wildcard.

Status: partial. Theorems: `C120_filters`, `C120_filters_literal_partial`, `C120_no_key`, `C120_filters_refuted`, `C120_filters_exact`. False for keys with a dot, which stands for any character. Proved for keys of letters, digits and underscores; other characters are not modelled.

### C121 — A printed trace is read back exactly

Plan: End to end: composes the header, dispatch, time, array and payload models.

Status: proved. Theorems: `C121_read_back`, `C121_read_back_arrays`, `C121_read_back_times`, `C121_all_or_none`. For lines, payloads and files of the form of the statement (TraceEvent.Head, WF or ArrWF, Readable, TraceFile); before finalize_object, and for classes that do not override generate_data_dict or create_dataframe.

### C122 — The temperature plot shows one thermal zone

Plan: Refuted for zone 0 (taken for no zone), for a zone without data (the governor data of all zones is drawn) and for runs whose governor was off (KeyError although there are temperatures); proved for other zones if every run has data of both.

Status: partial. Theorems: `C122_zone_partial`, `C122_all_zones`, `C122_governor`, `C122_zone0_refuted`, `C122_other_zone_refuted`, `C122_governor_off_refuted`, `C122_exact`. False for zone 0, for zones without data and for runs whose governor was off. Proved for other zones with data in both tables, and for all zones and runs exactly when the plot is right.

### C123 — Power columns are labelled with their actors

Plan: Refuted for columns in another order; proved if the columns are in the order of their numbers, and in general by position.

Status: partial. Theorems: `C123_positional`, `C123_power_partial`, `C123_exact`, `C123_order_refuted`. False if the columns of the table are not in the order of their numbers. Proved if they are, and for all tables of different columns only then.

### C124 — Input against output power for each actor

Plan: Refuted when a column merely begins like an input column; proved otherwise.

Status: partial. Theorems: `C124_inout_partial`, `C124_exact`, `C124_longer_refuted`, `C124_prefix_refuted`. False if a column merely begins like an input column. Proved otherwise; for all tables, exactly when the call raises and what is drawn.

### C125 — Input and output frequencies side by side

Plan: Refuted for a labelled cluster without rows in one table (KeyError); proved otherwise.

Status: partial. Theorems: `C125_freqs_partial`, `C125_missing_refuted`, `C125_absent_refuted`. False (KeyError) for a labelled cluster that is not in both tables. Proved for tables whose clusters are the labelled ones, with distinct labels and at most one row per cluster and time.

### C126 — Load plots include the GPU

Plan: Refuted where pd.concat does not sort the joined times; proved where it does.

Status: partial. Theorems: `C126_load_partial`, `C126_no_gpu`, `C126_normalised_partial`, `C126_unsorted_refuted`, `C126_unsorted_exact`. False for releases of pandas whose concat does not sort the times. Proved where it does.

### C127 — There is an axis for each frequency plot

Plan: Refuted for a GPU with input rows only (empty axis); proved that there are always enough, and the exact number otherwise.

Status: partial. Theorems: `C127_axes_partial`, `C127_empty_axis_refuted`, `C127_exact`. False for a GPU that has only input rows, and for runs without them if others have them. Proved: always enough, and exactly when it is exact.

### C128 — The event plot draws the events of its window

Plan: Refuted for events that overlap in a lane (lost); proved if starts and ends of each lane are in order.

Status: partial. Theorems: `C128_drawn_partial`, `C128_lasting_refuted`, `C128_overlap_refuted`. False for events that overlap in a lane: for all events followed by two shorter ones, in all later windows. Proved if starts and ends of each lane are in order.

### C129 — A name is drawn in the colour chosen for it

Plan: Refuted if an earlier name has no colour; proved otherwise.

Status: partial. Theorems: `C129_colour_partial`, `C129_shift_refuted`, `C129_exact`, `C129_none_refuted`. False if an earlier name has no colour: proved if all earlier names have one, and exactly when else it is right. Every name without a colour is drawn in that of another.

### C130 — Zoom and brush show the window that was chosen

Plan: The zoom is proved; the brush is refuted below a 4096th of the range (another part is drawn), proved from there on.

Status: partial. Theorems: `C130_zoom`, `C130_brush_partial`, `C130_narrow_refuted`, `C130_exact`, `C130_moved_refuted`. False for a brush narrower than a 4096th of the range, and what is shown then is proved. The zoom is proved without restriction.

### C131 — The markers A and B

Plan: The positions are proved for clicks within the window and refuted beside it; the label A - B is refuted, the number is B - A.

Status: partial. Theorems: `C131_markers_partial`, `C131_difference`, `C131_margin_refuted`, `C131_label_refuted`, `C131_beside_refuted`, `C131_sign_refuted`. False for clicks beside the plot, and for the label of the difference, whose sign is the other. Proved for clicks within the window.

### C132 — Information about the event under the mouse

Plan: Refuted for all data: the search takes the object of lanes for a list of events.

Status: partial. Theorems: `C132_info_refuted`, `C132_sound_partial`, `C132_flat_partial`. False for all data that are grouped by lanes: nothing is ever found. Proved for data of any shape: what would be found is an event under the mouse; and for lists of events, as the function expects them: an event under the mouse is found.

### C133 — Synchronised line plots

Plan: Proved.

Status: proved. Theorems: `C133_ranges`, `C133_zoom`, `C133_rows`. 

### C134 — From the lines to the tables the user sees

Plan: Proved, for lines the kernel prints with payloads of each kind (fields, arrays, sched_switch, system calls, markers, clocks, ext4, f2fs).

Status: proved. Theorems: `C134_object`. 

### C135 — Every line of an event is a row, or the constructor raises

Plan: Proved for arbitrary lines.

Status: proved. Theorems: `C135_no_line_lost`. 

### C136 — Markers are not interpreted

Plan: Refuted with braces: the text is changed, the constructor raises or never ends; proved for texts without braces.

Status: partial. Theorems: `C136_marker_partial`, `C136_marker_array_refuted`, `C136_marker_hangs_refuted`, `C136_marker_raises_refuted`, `C136_marker_exact`. False for texts with braces, which are rewritten, make the constructor raise or keep it from ever returning. Proved for texts without braces, and exactly which texts are kept among those without empty arrays (C136_marker_exact).

### C137 — Sampled rendering

Plan: Refuted: the argument is not passed on. Proved for the function of the browser that would do it.

Status: partial. Theorems: `C137_sampled_partial`, `C137_stride_refuted`. False: the argument is not used, so that any number of lines is drawn. Proved of the function of the browser, if it were given the argument.

### C138 — Groups are correlated by their own series

Plan: Refuted without an aggregation function: the constructor adds the series of all nodes to the one of the first node. Proved for groups without that node, and for all groups and sequences of calls with functions that return new series.

Status: partial. Theorems: `C138_groups_partial`, `C138_correlator`, `C138_held`, `C138_total`, `C138_first_node_refuted`, `C138_functions_partial`. False without an aggregation function: the coefficient of the first node is the one of all nodes. Proved for groups without the first node, and with functions for all groups.

### C139 — The better alignment is used

Plan: Refuted if a coefficient is undefined, which counts as zero. Proved if both are defined.

Status: partial. Theorems: `C139_better_partial`, `C139_undefined_refuted`, `C139_undefined_exact`. False if one coefficient is undefined: it counts as zero. Proved if both are defined, and exactly what is chosen if not.

### C140 — Limits of an axis

Plan: Proved with exact arithmetic.

Status: proved. Theorems: `C140_limits`. 

### C141 — Permuted static plots

Plan: Refuted in several ways, among them the usual call with several traces and one column. Proved in the remaining case.

Status: partial. Theorems: `C141_permute_partial`, `C141_permute_refuted`, `C141_columns_refuted`, `C141_missing_refuted`, `C141_rows_refuted`, `C141_grid_refuted`, `C141_absent_refuted`. False for the usual call with several traces and one column (every plot shows all traces, titled with the last), for more columns than traces (exception), for plots that do not fit in a row (IndexError) and for a pivot value missing in one constraint (KeyError). Proved for as many columns as traces, in one row or one column of plots, with all series there.

### C142 — Lines, colours, titles and legend of static plots

Plan: Refuted for several rows of plots, if series are missing, and for concatenated plots of several columns of one trace. Proved otherwise.

Status: partial. Theorems: `C142_plain_partial`, `C142_concat_partial`, `C142_concat_refuted`, `C142_plain_refuted`, `C142_concat_columns_refuted`, `C142_grid_refuted`. False (always IndexError) for several constraints and more pivot values than fit in a row of at least two plots; if a constraint has no series for a pivot value; and for several columns of one trace with concat=True, which always raises. Proved if all series are there.

### C143 — Published notebooks do not need the local scripts

Plan: Refuted for d3 and for the scripts of others. Proved for the remaining parts.

Status: partial. Theorems: `C143_published_partial`, `C143_d3_refuted`, `C143_urls`, `C143_suffix_refuted`, `C143_rest`, `C143_old_d3`. False for d3, which is looked for under a name it does not have, and for the scripts of others, whose addresses get `.js` twice. Proved for every text: no other local path is left, each is replaced by an address of a file with the name of the script, and texts without such paths are kept. That RequireJS appends `.js` is taken from its documentation.

### C144 — Publishing does not overwrite the notebook

Plan: Proved.

Status: proved. Theorems: `C144_target`. For all names of notebooks and output files.

### C145 — Scripts of interactive plots are installed completely

Plan: Refuted: a broken download is never repaired. Proved without one.

Status: partial. Theorems: `C145_installed_partial`, `C145_broken_refuted`, `C145_pages`, `C145_kept_exact`, `C145_part_refuted`. False once a download has broken in the middle: the part that was received is never replaced. Proved for any number of calls without such a download, including calls without a connection.

### C146 — The browser reads the data that were printed

Plan: Refuted for strings with the end tag of a script, keys with the same text, the key __proto__, and large integers. Proved otherwise.

Status: partial. Theorems: `C146_seen_partial`, `C146_script_refuted`, `C146_proto_refuted`, `C146_keys_refuted`, `C146_integers`, `C146_integers_refuted`. False if a title, a column or a process has `</script>` in its name, which ends the script and leaves an expression that cannot be read; if two keys have the same text; if a key is `__proto__`; and for odd integers above 2^53. Proved for all other data: json.dumps followed by the lexer and the literals of JavaScript gives back the value. The text of a float (repr) is given, and pages with `<!--` in a script are not modelled.

### C147 — Figures of an interactive plot

Plan: Refuted if the last line is not full: the scripts of its empty cells fail. Proved otherwise, including that these are the only ones that fail.

Status: partial. Theorems: `C147_figures`, `C147_failing_refuted`, `C147_limit`. False when there are several lines and the last one is not full: the page has a script for each empty cell, and it fails because there is no figure for it. Proved otherwise for all arguments and data: from the arguments of the constructor over the text of the page to the graphs that the scripts make in the browser.

### C148 — Colours of interactive plots

Plan: Refuted if a signal has no data for a pivot, and with concat=True. Proved exactly when it holds without concat.

Status: partial. Theorems: `C148_colour_partial`, `C148_colour_refuted`, `C148_concat_refuted`. False: colours are taken in the order of the columns of a figure, so a signal without data for a pivot moves the colours of the signals after it, and with concat=True all signals have the first colour. Proved exactly when a signal has its colour.

### C149 — Interactive plots on one page do not disturb each other

Plan: Refuted for plots without a group, which is then the hash of an object that may be gone. Proved for distinct groups.

Status: partial. Theorems: `C149_independent`, `C149_ranges`, `C149_zoom`, `C149_removed`, `C149_hash_refuted`. False for plots without a group: it is str(hash(self)), and once the Python object is gone another one may have the same hash, so that a later plot changes the ranges of the earlier one. Proved for all sequences of events if the groups differ; Dygraph.synchronize is taken as documented.

### C150 — A plot is made exactly of arguments that make sense, and shows what they ask for

Plan: Exact characterisation of acceptance. Refuted: columns that do not exist are accepted and not shown; tables with templates, and traces without, fail with AttributeError or TypeError.

Status: partial. Theorems: `C150_lines`, `C150_signals`, `C150_messages`, `C150_unknown`, `C150_column_refuted`, `C150_message_refuted`, `C150_signal_refuted`. False in three ways: a column that does not exist is accepted and shows nothing; a DataFrame with a template or a trace without one is not refused with a message but fails later; nor is a signal of an unknown event if there is a DataFrame. Proved: exactly which arguments are accepted, what each line holds, when each message is given, and that signals are the same as templates and columns.

### C151 — From the lines of the file to the points in the browser

Plan: Composition of C134 (file to tables), C150 (tables to lines), C66 and C68 (pivots), C98 (figures) and C147 (page to browser).

Status: proved. Theorems: `C151_file_to_browser`, `C151_missing`. For pivots and columns that have an integer in every event, and one column. Times are those of MinimalTimes: equal times are moved apart by the parser (C05).

### C152 — Options of matplotlib reach matplotlib

Plan: Refuted: scatter replaces the marker that was asked for, and a registered colour makes every plot fail. Proved otherwise, with the exact conditions of the failures.

Status: partial. Theorems: `C152_options`, `C152_scatter`, `C152_errors`, `C152_marker_refuted`, `C152_color_refuted`, `C152_exact`. False: with scatter the marker and line style that were given are replaced, and a registered option `color` makes every plot fail with TypeError. Proved for all sequences of registrations: exactly which options are passed, and exactly when drawing fails.

### C153 — Size of static figures

Plan: Refuted for a single plot, or one per line, with a length that is not whole. Proved otherwise.

Status: partial. Theorems: `C153_size`, `C153_scaled`, `C153_size_refuted`, `C153_scaled_exact`. False: with one plot in a row the sizes are scaled and then truncated, so that a length of 1.5 becomes 1 and a length of 0.5 becomes 0. Proved for several plots in a row, and for one if the width is at least 2/3 and the length is whole or at least 4; C153_scaled_exact is the exact condition.

### C154 — Plots of the correlator

Plan: Refuted for all inputs: the title has no default in PlotLayout.

Status: partial. Theorems: `C154_drawn_refuted`, `C154_failure`, `C154_layout`, `C154_default_size`. False for all inputs: PlotLayout reads the title, which the correlator does not give and which has no default; the method always fails. Proved which exception is raised, and that PlotLayout works with any title.

### C155 — Limits of the axes of results

Plan: Refuted if the first value is missing, or if another figure is the current one. Proved otherwise.

Status: partial. Theorems: `C155_visible`, `C155_empty`, `C155_nan_refuted`, `C155_other_refuted`, `C155_exact`, `C155_outside_refuted`. False if the first value is NaN, since min and max are then NaN and nothing is done, and if another figure is current, whose limits are then read. Proved otherwise.

### C156 — plot_trace draws every run of every task

Plan: Composes C134, C43, C72, C74 and C128. Refuted for traces without the number of CPUs in the header and for traces with a task whose name is a number, for all such traces. Proved otherwise, if a task whose end was lost keeps its name.

Status: partial. Theorems: `C156_plot_trace_partial`, `C156_cpus_refuted`, `C156_number_refuted`. False for every trace whose header does not give the number of CPUs before the first event (TypeError) and for every trace with a switch to a task whose name is a number (AttributeError), whatever is asked for. Proved otherwise; a task whose end was lost must have the same name when it is switched to again (see C73).

### C157 — Systraces can be read and plotted

Plan: Composes C44, C134, C72, C74 and C128. Refuted: with the class sched_switch, every systrace without a switch fails with KeyError; a window without a switch has no plot. Proved otherwise.

Status: partial. Theorems: `C157_systrace`, `C157_plot_partial`, `C157_no_switch_refuted`, `C157_window_refuted`, `C157_path`. False for every systrace without a switch (KeyError in the constructor, as the table has no columns) and for every plot of a window without a switch. Proved otherwise, exactly; a task whose end was lost must have the same name when it is switched to again (see C73). The class tracing_mark_write is left out, see C45.

### C158 — From the lines of the file to the calls of the callbacks

Plan: Composes C134 and C41 into an equality of lists. Refuted for lines with a field called Index, which replaces the time.

Status: partial. Theorems: `C158_calls`, `C158_missing`, `C158_index_refuted`. False for lines with a field called Index: the callback gets the field, and the time is lost. Proved for all other files as an equality of lists of calls; also that a callback for an event that is not parsed prevents all calls.

### C159 — From the lines of the file to the value of an expression

Plan: Composes C134 (file to tables), C63 (text to the tree of the expression), C64 (aggregated table). Without functions and names, for columns of integers with one event each. Also proved: which expressions have a value. Refuted: && and || with an accessor on the left never have a value; accessors of system calls never have one.

Status: partial. Theorems: `C159_solve_partial`, `C159_evaluates`, `C159_pivots`, `C159_logical_refuted`, `C159_syscalls_refuted`. False for logical operators on data and for the events of system calls: for all files such expressions have no value. Proved for expressions without functions and names, over columns of integers that belong to one event each (C64 has the refutation for columns of two events): the times, the columns and every cell of the result, and sufficient conditions for a result.

### C160 — compare_runs draws every figure of every run

Plan: Composes C50, C51, C103, C105, C122, C123, C125, C126 and C127. Refuted: weights in only some runs end with a TypeError; input frequencies are titled out, and those of the GPU freq; runs without temperatures shift the histograms of the temperatures or end with a KeyError; with a zone the documented error is never raised. Proved otherwise, with releases of pandas that sort the index.

Status: partial. Theorems: `C160_compare_partial`, `C160_no_power`, `C160_refuses`, `C160_keywords`, `C160_summary`, `C160_some_weights_refuted`, `C160_hist_titles_refuted`, `C160_temp_hist_refuted`, `C160_zone_refuted`, `C160_weights_refuted`, `C160_temp_hist_exact`. False whenever only some runs have weights (for all runs), for the titles of the histograms of input frequencies and of the GPU, when a run without temperatures comes before one with them (exactly then, for the histograms) and for a zone without governor events. Proved for any number of runs that report the labelled clusters, with a sorting concat: no exception, the order of the figures and everything drawn for each run and axis.

### C161 — Aggregated triggers of a trace file count the lines of the file

Plan: Composes C134 (file to tables), C58 (topology), C59 (index), C60 and C91 (trigger), C61 (aggregation). Refuted: an event that is parsed but has no line in the file or in the window makes the aggregation raise KeyError. Lists with more than one value are excluded by C60, columns as values by C91.

Status: partial. Theorems: `C161_aggregate_partial`, `C161_sum_partial`, `C161_missing`, `C161_no_lines_refuted`. False when the event of a trigger has no line with the field of the pivot: KeyError for all such files. Proved otherwise for all files, for triggers with numbers as values, filters that are callables, values or lists of one value, and distinct times.

### C162 — From the lines of the files to the lines of a static plot

Plan: Composes C134 (file to tables), C150 (arguments to lines), C66 (pivot and filters), C68 (pivot values) and C142 (drawing). Refuted: if a file lacks a value of the pivot that another file has, a plot of the first value is titled with the second one, or the legend names the second one twice. Plots by pivot of several files that need more than one row are excluded by C142.

Status: partial. Theorems: `C162_concat_partial`, `C162_plain_partial`, `C162_whole`, `C162_missing_refuted`, `C162_title`. False when a file lacks a value of the pivot that another one has: wrong titles and legends. Proved when every file has every value; without concat, for one file, one row of plots or one column of plots. Without a pivot proved when every file has a line that passes the filters.

### C163 — A trace opened again from its cache is the trace of the file

Plan: Composes C134 (file to tables), C35 to C38 (cache) and C39 (CSV). Assumed: what json and repr/float write is read back, and the text of floats as in C39; no line has the words of two of the parsers. Refuted: the second opening gives other names for tasks called 007 or null; also the exact condition under which both openings agree.

Status: partial. Theorems: `C163_cached_partial`, `C163_replaced_partial`, `C163_same_iff`, `C163_names_refuted`. False for texts that pandas reads as something else: with a task named null in a line of the event, or names of digits only, the trace that is opened again differs. Proved for every sequence of openings of files whose columns CSV keeps, also when the file is replaced (by one with another digest) in between; also proved that two openings agree if and only if CSV keeps the columns.

### C164 — From the lines of a trace over the page of plot_trace to the chart in the browser

Plan: Composes C156 (file to data, data to paths) and C146 (json.dumps to literals). The text of a float and the number a browser reads are parameters: the texts are assumed to be read back as the same numbers. Refuted: one switch to a task that is asked for with the end tag of a script in its name leaves the whole plot empty.

Status: partial. Theorems: `C164_page`, `C164_tag_refuted`, `C164_plot_trace_partial`, `C164_script_refuted`, `C164_options`. False if a task that is asked for, or a label, has the end tag of a script in its name: then nothing is drawn, proved for all such files and plots. Proved for all other files and plots, if the end of a run was lost only for tasks that keep their name, and if the times are printed so that the browser reads the same numbers.

### C165 — From the results files of several runs to the bars of the plot

Plan: Composes the reader of CSV files with C76, C77 and C107. Refuted: an empty line makes the file unreadable; after init_fig all benchmarks are on one axis with the title of the last; different benchmarks can have the same title; a benchmark that is missing in the first file is left out, one that is missing in a later file is a KeyError.

Status: partial. Theorems: `C165_reader`, `C165_results_partial`, `C165_blank_refuted`, `C165_axis_refuted`, `C165_title_refuted`, `C165_title_exact`. False for files with an empty line, benchmarks that are not in all files, and results with an axis of their own. Proved for all files whose rows have a metric and whose scores are numbers, with the exact condition under which they can be combined. The order of the bars of a figure within a run is left out.

### C166 — Scripts are installed where the pages look for them

Plan: The pattern and the order of distutils.version.StrictVersion are modelled. How the web server maps URLs to files is assumed. Refuted: 8.0.0rc1 or 7.0.0.dev0 are no versions for StrictVersion.

Status: partial. Theorems: `C166_versions`, `C166_releases`, `C166_prereleases`, `C166_served_partial`, `C166_urls`, `C166_candidate_refuted`, `C166_session_refuted`, `C166_installed`, `C166_slash`, `C166_page_paths`, `C166_line_paths`, `C166_line_files`, `C166_line_call`. False for release candidates and development versions of IPython: no interactive plot can be made with them (ValueError). Before version 4.0 plots fail outside of a session. Proved for all versions that can be compared, which are characterised exactly, and without broken downloads (C145).

### C167 — Low memory is reported once and never changes the rows

Plan: The checks are modelled with the counter and the flag of the source; the readings are an arbitrary function of the number of the event. Refuted: the checks are 10000 lines apart, so low memory in between is not seen; and no free memory counts as unknown.

Status: partial. Theorems: `C167_rows`, `C167_warning`, `C167_meminfo`, `C167_short_refuted`, `C167_none_refuted`, `C167_growing_partial`. The rows never depend on the memory and there is at most one warning. That low memory is always reported is false: an event with at most 10000 lines is checked only at its first line, and a machine with no free memory is not reported. The readings of getrusage are arbitrary; nine tenths are exact.

### C168 — What is saved is what was shown

Plan: Uses the model of drawing of C141 and C142. Refuted: after a failing view, savefig writes what was drawn until then; view(test=True) changes the style of all later plots.

Status: partial. Theorems: `C168_view`, `C168_saved_partial`, `C168_first`, `C168_half_refuted`, `C168_none`, `C168_test_refuted`. False if the drawing stops with an error: the figure is set before anything is drawn, so savefig then writes half a figure. And view(test=True) of one plot ends the interaction of all later ones. Proved for plots that can be drawn.

### C169 — The numbers of a line are those of the table

Plan: Model of how pandas makes columns of dictionaries. Refuted: one line without the field makes floats of all numbers of the column, and odd integers above 2^53 become others.

Status: partial. Theorems: `C169_exact_partial`, `C169_texts`, `C169_small`, `C169_missing_refuted`, `C169_optimize`, `C169_file_partial`. False if a line of the event lacks the field: the column becomes floats and integers above 2^53 are rounded, also in the other lines. Proved exactly when they are kept, for all tables and from the file; texts and integers up to 2^53 always are. optimize_dataframe changes nothing.

### C170 — Publishing notebooks changes no other file

Plan: The files are a dictionary from paths to texts; links, dots in paths, permissions and signing are left out. Refuted: notebooks of the same name in different directories are published to the same file, which is in the current directory and not beside the notebook.

Status: partial. Theorems: `C170_run`, `C170_others`, `C170_notebook`, `C170_twice`, `C170_in_place`, `C170_clash_refuted`, `C170_elsewhere_refuted`, `C170_same_exact`. False for notebooks of the same name in different directories: both are published to the same file of the current directory. Proved for all files, arguments and sequences of runs: only the file asked for is written, the notebook is kept unless it is asked for, a missing notebook changes nothing, and publishing again changes nothing. Signing is left out.

### C171 — From the lines of two files to their correlation

Plan: Composes the models of C134, C161, C138, C139 and C85. Refuted without aggregation functions for the groups of the first nodes.

Status: partial. Theorems: `C171_correlation_partial`, `C171_first_node_refuted`, `C171_missing`. False without aggregation functions: the groups of the first nodes are compared by the sums of all nodes, for all files. Proved for all files, parsers, windows, triggers, topologies and levels if both aggregators have a function that keeps the times, and without functions for the other groups. The sums over the uniform index are exact, not floats.

### C172 — The correlation does not depend on the order of the traces

Plan: Refuted for levels with different numbers of groups, and for groups that are constant: their coefficient is not defined, but their weight counts.

Status: partial. Theorems: `C172_swap_partial`, `C172_levels_refuted`, `C172_self`, `C172_constant_refuted`, `C172_complete_partial`, `C172_files_partial`. False if the level has different numbers of groups in the two topologies: an IndexError in one order, a result without the last groups in the other, for all such aggregators. False also that a trace correlates completely with itself: for all traces, a group with a constant value other than zero makes the total less than 1. Proved otherwise for all aggregators, functions, levels and files. The arithmetic is exact, and the coefficient any function that does not depend on the order.

### C173 — Registered classes can be made into parsers

Plan: Refuted: default_init calls super(type(self), self), which is itself for an object of a derived class, and passes an argument that it does not take.

Status: partial. Theorems: `C173_dynamic`, `C173_builtins`, `C173_exact`, `C173_derived_refuted`, `C173_attribute_refuted`, `C173_direct_partial`, `C173_trace`. False for classes derived from a dynamic one: the constructor raises a TypeError for all of them, and with it that of every trace that has such a class. False also for the attribute parse_raw without a constructor that passes it on. Proved for all classes: exactly which of them can be made into parsers, and with which attributes; each class of TRAPpy can.

### C174 — Each trace has a cache of its own

Plan: Without links.

Status: proved. Theorems: `C174_own`, `C174_files`, `C174_traces`. There are no links, and the working directory is given by its components.

### C175 — Event plots on one page agree with their axes

Plan: 

Status: partial. Theorems: `C175_widths`, `C175_brush_exact`, `C175_brush_history`, `C175_one_width_partial`, `C175_brush_one_width_partial`, `C175_other_width_refuted`, `C175_resized_brush_refuted`, `C175_resized_zoom_refuted`, `C175_resize_last`, `C175_resize_axis_refuted`, `C175_no_summary_refuted`. holds if all plots of the page have one width and nothing is resized. A brush in a plot shows a window off by the ratio of its width and that of the plot drawn last, and after a resize by the ratio of new and old width; zooming after a resize leaves the data; after a resize only the last plot's axis has the new width; a plot without summary is not redrawn by a resize. What a brush shows is given exactly for every history

### C176 — Events are drawn in their lanes

Plan: 

Status: partial. Theorems: `C176_lanes_partial`, `C176_apart_partial`, `C176_explicit_partial`, `C176_beyond_refuted`, `C176_exact`, `C176_plot_trace_exact`, `C176_mini_partial`, `C176_mini_beyond_refuted`. holds for events whose lane is one of the lanes of the plot, and so always with explicit lanes. num_lanes is not compared with the lanes of the events: those in lane num_lanes are drawn below the plot across the axis, those in higher ones below what is visible, and negative ones above the plot; the same for the summary

### C177 — An event plot leaves nothing behind on the page

Plan: 

Status: partial. Theorems: `C177_shown`, `C177_gesture_end`, `C177_resizes_refuted`, `C177_lines_partial`, `C177_slanted_refuted`. what can be seen and what is left after a gesture is proved for all histories. Refuted for resizes: each one leaves all earlier paths on the page, hidden, until the next gesture ends. In a plot without summary a resize makes every marker lead to the right border and every tick as long as the plot; lines are proved with summary

### C178 — The rows of synchronised line plots stay in order

Plan: 

Status: partial. Theorems: `C178_exact`, `C178_plain_partial`, `C178_limits_refuted`. false if the common range starts after the first row of a figure or ends before its last one, and exactly then: the row that sync adds before the first row gets the start of the range. So for any two figures with xlim and data before or after it, which ILinePlot keeps (C95), and when a figure is added to a group that was zoomed. Proved for all pages without limits and zooms

### C179 — What can be seen on a page of event plots is the events of the window on the axis

Plan: Joins C128 (paths), C175 (scales) and C177 (elements).

Status: partial. Theorems: `C179_total`, `C179_shown`, `C179_events_partial`, `C179_axis_partial`, `C179_brush_partial`, `C179_other_width_refuted`. which paths can be seen is proved for all histories and all data. That they are the events of the scale's window needs the events of a lane in order (C128 refutes it otherwise), and that this window is the one of the axis needs plots of one width and no change of size: refuted for two plots of different widths

### C180 — What can be seen of a trace on the page of plot_trace after any gestures

Plan: Joins C134, C164 and C179.

Status: partial. Theorems: `C180_trace_live_partial`, `C164_script_refuted`, `C179_other_width_refuted`. proved for all files and all histories of the page if no task that is asked for has the end tag of a script in its name (otherwise nothing is drawn: C164_script_refuted). That the window is the one of the axis needs plots of one width and no change of size (C179_other_width_refuted)

### C181 — Titles, legends and limits of histograms and temperature plots

Plan: 

Status: partial. Theorems: `C181_title_partial`, `C181_title_refuted`, `C181_legend`, `C181_hist`, `C181_seen_exact`, `C181_below_refuted`. False for temperatures below 0, which are outside the limits whenever there is one above 0, and for an empty title that is a byte string (Python 2), as the title is compared with `is`. Proved: the legend and the texts of mean and deviation for all values, and exactly when all temperatures are seen.

### C182 — The text of a topology tells its levels

Plan: The loop over the levels with texts of lists as CPython writes them; texts are read back from the right, where brackets and digits leave one way.

Status: partial. Theorems: `C182_text`, `C182_told`, `C182_break_refuted`, `C182_all_refuted`. For names without line breaks and levels not called 'all' the text tells the levels and groups exactly. It does not for names with a line break (any two levels have the text of some single level), nor for what was added to a level called 'all'.

### C183 — The table of sysfs parameters is complete and sorted

Plan: A sort whose comparison can fail, and the proof that it does not; the rest rests on C101. Devices are in the order of their names as texts, not of their numbers.

Status: partial. Theorems: `C183_shown`, `C183_table`, `C183_devices_refuted`. Proved for all directories whose files end with a line break (otherwise the values are those of C101). The order is the one of the texts: for every number, devices and trip points with one digit more come before it.

### C184 — Filled areas reach from the line down to the axis

Plan: The lower limit is a parameter that is not above any value drawn; the values of the areas count as drawn.

Status: partial. Theorems: `C184_areas`, `C184_under`, `C184_exact`, `C184_single_partial`, `C184_later_refuted`, `C184_margin_refuted`, `C184_ylim_refuted`. False if a later line goes lower, if ylim is lower (it is set after the areas are drawn), and always if the axis has a margin below its values, as in matplotlib 2.0 and later. Proved: an area for each line, never above it, and exactly when it reaches down.

### C185 — Every line gets a colour of its own

Plan: Matplotlib's normalisation and lookup are modelled as a division and a multiplication rounded to p bits (24 or 53), then cut.

Status: partial. Theorems: `C185_near`, `C185_more`, `C185_powers`, `C185_few_partial`, `C185_colours_refuted`, `C185_backwards_refuted`, `C185_default_exact`. Proved that every line gets its own colour or the one before it, that it is its own for powers of two and up to 21 colours, that further lines get the last colour, and that default colours differ exactly up to 256 lines. False in general: with 22 colours two lines get the same colour; backwards, the first two lines do.

