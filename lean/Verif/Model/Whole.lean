import Verif.Model.Pipeline
import Verif.Model.Events
import Verif.Model.Window
/-!
# The constructor of a trace, from the lines to the tables the user sees

Models `FTrace.__init__` and `_do_parse` without a cache (`/repo/trappy/ftrace.py` lines 82-117, 315-335) for a text file: the check of
the unique words, `__populate_data`, then for each class in turn `create_dataframe` and `finalize_object`
(`/repo/trappy/bare_trace.py` lines 139-146), then windows and normalisation.

Simplifications: the built-in classes only, known by their names; a row keeps its own columns (a cell missing in a row is NaN in
pandas), columns are not converted to another type because of missing cells (for that see `Verif.Model.Columns`); the other simplifications are those of
`Verif.Model.Pipeline`, `Verif.Model.Events` and `Verif.Model.Window`.
-/

namespace Trappy

/-- the classes derived from `CommonClkBase` (common_clk.py:35-61) -/
def clockNames : List Str := [cs!"clock_enable", cs!"clock_disable", cs!"clock_set_rate"]

/-- the classes derived from `FilesystemExt4Base` (filesystem.py:40-71) -/
def ext4Names : List Str :=
  [cs!"ext4_da_write_begin", cs!"ext4_da_write_end", cs!"ext4_sync_file_enter", cs!"ext4_sync_file_exit"]

/-- the classes derived from `FilesystemF2FSBase` that do not override `generate_data_dict` (filesystem.py:82-104) -/
def f2fsNames : List Str := [cs!"f2fs_write_begin", cs!"f2fs_write_end", cs!"f2fs_sync_file_enter"]

/-- What `create_dataframe` of the class makes of a payload before it calls `Base.create_dataframe` (raw_syscalls.py:46-48, 79-81,
sched.py:115-119); `none` is `ValueError`. -/
def ownText (name data : Str) : Option Str :=
  if name = cs!"sys_enter" then sysEnterExplode data
  else if name = cs!"sys_exit" then sysExitExplode data
  else if name = cs!"sched_switch" then some (Py.replace1 cs!" ==> " cs!" " data)
  else some data

/-- `generate_data_dict` of the class (base.py:209-235, fallback.py:35-41 with `BareTrace.generate_data_dict` = `None`,
common_clk.py:30-34, filesystem.py:30-34, 74-77, 112-114); `none` is an exception. -/
def ownDict (name data : Str) : Option (List (Str × Val)) :=
  if name = cs!"tracing_mark_write" then some [(cs!"string", .str data)]
  else if name ∈ clockNames then clkDict data
  else if name ∈ ext4Names then some (ext4Pairs data)
  else if name ∈ f2fsNames then f2fsDict data
  else if name = cs!"f2fs_sync_file_exit" then f2fsSyncExitDict data
  else generateDataDict data

/-- The rows of `generate_parsed_data` (base.py:237-264) with the index `time_array` for a class whose `generate_data_dict` is `dict`. -/
def rowsBy (dict : Str → Option (List (Str × Val))) : List Rec → List Str → Option (List TRow)
  | r :: rs, d :: ds =>
    match dict d with
    | none => none
    | some payload =>
      match rowsBy dict rs ds with
      | none => none
      | some rows => some ({ time := r.time, cells := parsedRow r.comm r.pid r.cpu r.line payload } :: rows)
  | _, _ => some []

/-- the texts after the first step of `create_dataframe`; `none` is `ValueError` for one of them -/
def ownTexts (name : Str) : List Str → Option (List Str)
  | [] => some []
  | d :: ds =>
    match ownText name d, ownTexts name ds with
    | some x, some xs => some (x :: xs)
    | _, _ => none

/-- `create_dataframe` of a built-in class (base.py:289-311 and the overrides); at most `fuel` passes over the arrays of a payload. -/
def classFrame (fuel : Nat) (name : Str) (rs : List Rec) : Frame :=
  match ownTexts name (rs.map Rec.data) with
  | none => .valueError
  | some texts =>
    match explodeTable fuel texts with
    | none => .unfinished
    | some none => .attributeError
    | some (some ds) =>
      match rowsBy (ownDict name) rs ds with
      | none => .parseError
      | some rows => .rows rows

/-- `{:0>8}` on the column `cpus`; a missing cell is NaN and is printed as `nan` -/
def padCpus (cells : Dict Val) : Dict Val :=
  cells.set cs!"cpus" (.str (pad8 ((cells.get cs!"cpus").getD (.str cs!"nan"))))

/-- `finalize_object` of a built-in class (sched.py:36-42, 81-87, 130-136, common_clk.py:58-59, filesystem.py:36-37, 79-80,
idle.py:28-33; the others do nothing, base.py:196-200). -/
def finalizeTable (name : Str) (rows : List TRow) : List TRow :=
  let by' (f : Dict Val → Dict Val) := rows.map fun r => { r with cells := f r.cells }
  if name = cs!"cpu_frequency" then by' finalizeCpuFrequency
  else if name = cs!"cpu_capacity" then by' finalizeCpuCapacity
  else if name = cs!"clock_set_rate" then by' finalizeClkSetRate
  else if name ∈ ext4Names ∨ name ∈ f2fsNames ∨ name = cs!"f2fs_sync_file_exit" then by' finalizeFs
  else if name = cs!"cpu_idle" then
    by' fun cells => cells.map fun x => (x.1, match x.2 with
      | .int i => .int (if i = 4294967295 then -1 else i)
      | v => v)
  else if name = cs!"sched_load_avg_sg" then
    if rows.any fun r => (r.cells.get cs!"cpus").isSome then by' padCpus else rows
  else rows

/-- A trace: `basetime`, `endtime` and the tables of its classes. -/
structure TraceObj where
  basetime : Nat
  endtime : Nat
  tables : List (Table (Dict Val))
deriving DecidableEq, Repr

/-- Outcome of the constructor. -/
inductive Built where
  | object (o : TraceObj)
  /-- a loop over the arrays of a payload has not ended yet -/
  | unfinished
  | raises
deriving DecidableEq, Repr

/-- `finalize_objects` (bare_trace.py:139-146): class after class, the first exception ends it. -/
def finalizeObjects (fuel : Nat) : List (Str × List Rec) → Option (Option (List (List TRow)))
  | [] => some (some [])
  | (name, rs) :: cs =>
    match classFrame fuel name rs with
    | .unfinished => none
    | .rows rows =>
      match finalizeObjects fuel cs with
      | some (some ts) => some (some (finalizeTable name rows :: ts))
      | r => r
    | _ => some none

/-- The sanity check on the unique words (ftrace.py:100-105): `true` if no word is part of another. -/
def wordsOk : List ParserClass → Bool
  | [] => true
  | p :: ps => (ps.all fun q => !(Py.contains p.word q.word || Py.contains q.word p.word)) && wordsOk ps

/-- The constructor (ftrace.py:99-118, 316-340) on the lines of a text file, with the classes `ps` and the parameters `u`. -/
def buildTrace (fuel : Nat) (ps : List ParserClass) (u : UserParams) (lines : List Str) : Built :=
  if wordsOk ps then
    let r := populate (ps.map ParserClass.toCls) 0 lines
    match finalizeObjects fuel (ps.zipIdx.map fun x => (x.1.name, r.tables x.2)) with
    | none => .unfinished
    | some none => .raises
    | some (some ts) =>
      .object { basetime := r.basetime, endtime := r.endtime
                tables := ts.map fun rows => applyUser r.basetime u (rows.map fun r => (r.time, r.cells)) }
  else .raises

end Trappy
