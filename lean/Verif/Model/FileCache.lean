import Verif.Model.Cache
import Verif.Model.Csv
import Verif.Model.EndToEnd
/-!
# A trace with its cache, from the file to the tables

`Verif.Model.Cache` with the parsers of `Verif.Model.Whole` and the CSV files of `Verif.Model.Csv`: what `FTrace(path, …)` gives when
the same file is opened again and again (`/repo/trappy/ftrace.py` lines 82-117, 236-335, `/repo/trappy/base.py` lines 289-334).

Simplifications: those of the three models; a CSV file is named after the event and not after the Python class (the built-in classes
have different names in both ways); `optimize_dataframe` (base.py:268-287), which changes nothing (see `Verif.Model.Pipeline`), is
left out; columns of integers are not converted to floats because of missing cells.
-/

namespace Trappy

/-- the external functions: digest, JSON, the texts of floats, and those of times: `repr` and `float` (base.py:331) -/
structure CacheWorld (F : Type) where
  md5 : List Str → Str
  dumpMeta : Meta → Str
  loadMeta : Str → Option Meta
  floats : FloatText F
  timeText : Nat → Str
  timeOf : Str → Option Nat

/-- a cell of a table as pandas holds it -/
def valCell {F : Type} : Val → CsvCell F
  | .int i => .int i
  | .str s => .str s

/-- the cell as the parsers know it -/
def cellVal {F : Type} : CsvCell F → Option Val
  | .int i => some (.int i)
  | .str s => some (.str s)
  | _ => none

/-- `pd.DataFrame(rows, index=…)` (base.py:301): every row has all columns, a missing cell is NaN -/
def fillTable {F : Type} (t : Table (Dict Val)) : Table (Dict (CsvCell F)) :=
  t.map fun r => (r.1, (rowColumns t).map fun k => (k, ((r.2.get k).map valCell).getD .nan))

/-- `create_dataframe` (base.py:289-311) before the rows are brought together -/
def cacheCreate {F : Type} (fuel : Nat) (name : Str) (rs : List Rec) : Option (Table (Dict (CsvCell F))) :=
  match classFrame fuel name rs with
  | .rows rows => some (rows.map fun r => (r.time, r.cells.map fun x => (x.1, valCell x.2)))
  | _ => none

/-- `finalize_object`, on the cells that are there; then the rows are brought together -/
def cacheFinalize {F : Type} (name : Str) (t : Table (Dict (CsvCell F))) : Table (Dict (CsvCell F)) :=
  fillTable ((finalizeTable name (t.map fun r => ⟨r.1, r.2.filterMap fun x => (cellVal x.2).map fun v => (x.1, v)⟩)).map fun r => (r.time, r.cells))

/-- the names of the columns of a table in which all rows have the same -/
def tableNames {α : Type} : Table (Dict α) → List Str
  | [] => []
  | r :: _ => r.2.map Prod.fst

/-- a table as `to_csv` sees it (base.py:313-319) -/
def csvFrameOf {F : Type} (timeText : Nat → Str) (t : Table (Dict (CsvCell F))) : CsvFrame F :=
  ⟨t.map fun r => timeText r.1, (tableNames t).map fun k => (k, t.map fun r => (r.2.get k).getD .nan)⟩

/-- the rows of a table that was read, from row `i` (base.py:321-334); `none` is a time that is no number -/
def csvRows {F : Type} (timeOf : Str → Option Nat) (cols : List (Str × List (CsvCell F))) : Nat → List Str → Option (Table (Dict (CsvCell F)))
  | _, [] => some []
  | i, s :: ss =>
    match timeOf s, csvRows timeOf cols (i + 1) ss with
    | some t, some rows => some ((t, cols.filterMap fun c => (c.2[i]?).map fun x => (c.1, x)) :: rows)
    | _, _ => none

/-- the cache with these functions and the built-in classes -/
def CacheWorld.env {F : Type} (W : CacheWorld F) (fuel : Nat) : Env (Dict (CsvCell F)) where
  md5 := W.md5
  dumpMeta := W.dumpMeta
  loadMeta := W.loadMeta
  toCsv t := writeFrame W.floats (csvFrameOf W.timeText t)
  readCsv s := (readFrame W.floats s).bind fun f => csvRows W.timeOf f.cols 0 f.times
  create _ c rs := cacheCreate fuel c.pyName rs
  finalize c t := cacheFinalize c.pyName t

/-- a built-in class as the cache knows it -/
def ParserClass.cached (p : ParserClass) : CClass := ⟨p.name, p.toCls⟩

/-- `FTrace(path, …)` with the classes `ps` -/
def fileReq (ps : List ParserClass) (u : UserParams) : Req := ⟨.ftrace, ps.map ParserClass.cached, u⟩

/-- `FTrace(path, …)` time after time, at first without a cache: what each of the calls gives -/
def openings {F : Type} (W : CacheWorld F) (fuel : Nat) (disable : Bool) : List (List ParserClass × UserParams) → FS → List (Outcome (Result (Dict (CsvCell F))))
  | [], _ => []
  | q :: qs, fs =>
    let x := (doParse (W.env fuel) disable (fileReq q.1 q.2)).run fs
    x.1 :: openings W fuel disable qs x.2

/-- the same, when the file is replaced between the calls: before each call it is given the content `lines` -/
def reopenings {F : Type} (W : CacheWorld F) (fuel : Nat) (disable : Bool) : List (List Str × List ParserClass × UserParams) → Option (Dict Str) → List (Outcome (Result (Dict (CsvCell F))))
  | [], _ => []
  | (lines, q) :: steps, cache =>
    let x := (doParse (W.env fuel) disable (fileReq q.1 q.2)).run ⟨lines, cache⟩
    x.1 :: reopenings W fuel disable steps x.2.cache

end Trappy
