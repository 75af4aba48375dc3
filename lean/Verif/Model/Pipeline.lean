import Verif.Model.Data
import Verif.Model.Builtin
/-!
# From the lines of a trace to the tables

Models `Base.create_dataframe` (`/repo/trappy/base.py` lines 288-319) on top of the arrays filled by `__populate_data`
(`/repo/trappy/ftrace.py` lines 388-446): arrays in the payloads are exploded, then each payload becomes a row.

Simplifications: a row keeps its own columns, in pandas the columns of all rows are merged and missing cells are NaN;
`handle_duplicate_index` (base.py:303) is left out because the times of a parsed trace are different (C04), see `Verif.Model.DupIndex`;
`optimize_dataframe` (base.py:268-287) throws the result of its `apply` calls away, and pandas gives no column the kind `S`, so it
changes nothing.
-/

namespace Trappy

/-- A row of a data frame: the index and the cells of the row. -/
structure TRow where
  time : Nat
  cells : Dict Val
deriving DecidableEq, Repr

/-- Outcome of `create_dataframe`. -/
inductive Frame where
  | rows (rs : List TRow)
  /-- the loop over the arrays of a payload has not ended yet -/
  | unfinished
  /-- `AttributeError` in `trace_parser_explode_array` -/
  | attributeError
  /-- `TrappyParseError` or another exception in `generate_data_dict` -/
  | parseError
  /-- `ValueError` in a `create_dataframe` of a class of its own -/
  | valueError
deriving DecidableEq, Repr

/-- The rows of `generate_parsed_data` (base.py:237-264) with the index `time_array`; `none` is `TrappyParseError`.
`texts` is `data_array`, of the same length as the other arrays. -/
def parsedRows : List Rec → List Str → Option (List TRow)
  | r :: rs, d :: ds =>
    match generateDataDict d with
    | none => none
    | some payload =>
      match parsedRows rs ds with
      | none => none
      | some rows => some ({ time := r.time, cells := parsedRow r.comm r.pid r.cpu r.line payload } :: rows)
  | _, _ => some []

/-- `create_dataframe` (base.py:288-304); at most `fuel` passes over the arrays of a payload. -/
def createFrame (fuel : Nat) (rs : List Rec) : Frame :=
  match explodeTable fuel (rs.map Rec.data) with
  | none => .unfinished
  | some none => .attributeError
  | some (some ds) =>
    match parsedRows rs ds with
    | none => .parseError
    | some rows => .rows rows

/-- The names of the built-in classes that have a `generate_data_dict` or `create_dataframe` of their own (raw_syscalls.py:46, 78,
fallback.py:35, common_clk.py:30, filesystem.py:30, 74, 112, sched.py:115). -/
def ownParsing : List Str :=
  [cs!"sys_enter", cs!"sys_exit", cs!"tracing_mark_write", cs!"clock_enable", cs!"clock_disable", cs!"clock_set_rate",
   cs!"ext4_da_write_begin", cs!"ext4_da_write_end", cs!"ext4_sync_file_enter", cs!"ext4_sync_file_exit",
   cs!"f2fs_write_begin", cs!"f2fs_write_end", cs!"f2fs_sync_file_enter", cs!"f2fs_sync_file_exit", cs!"sched_switch"]

/-- The data frame of the parser at position `i` after `__populate_data` (ftrace.py:388-446) and its `create_dataframe`
(bare_trace.py:145), before its `finalize_object`; `none` if there is no such parser or it has a parsing of its own. -/
def frameOf (fuel : Nat) (ps : List ParserClass) (lines : List Str) (i : Nat) : Option Frame :=
  match ps[i]? with
  | none => none
  | some p =>
    if p.name ∈ ownParsing then none
    else some (createFrame fuel ((populate (ps.map ParserClass.toCls) 0 lines).tables i))

end Trappy
