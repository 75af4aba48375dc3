import Verif.Model.Wa
import Verif.Model.Csv
import Verif.Model.Header
/-!
# Results of benchmarks: from the files to the bars

`trappy/wa/results.py:64-79, 98-168`: the files are found and read with `csv.reader`, their scores are stored (`resultRows`), the results of several runs are combined (`combineResults`) and drawn.
Simplifications: a file is its text after the translation of the ends of lines, so that there is no carriage return; letters are ASCII letters; the order of the rows of the tables and the places of the
bars are left out.
-/

namespace Trappy
open Py

/-- `csv.reader` (results.py:118) with the default dialect (CPython `Modules/_csv.c`, `parse_process_char` and `Reader_iternext`): state, field and row read so far. Unlike pandas it gives an empty row for an
empty line, and at the end of the file inside quotes it gives what was read. -/
def csvRead : CsvState → Str → List Str → Str → List (List Str)
  | .startRow, _, _, [] => []
  | _, f, r, [] => [r ++ [f]]
  | .startRow, _, _, c :: s =>
    if c = '\n' then [] :: csvRead .startRow [] [] s
    else if c = '"' then csvRead .quoted [] [] s
    else if c = ',' then csvRead .startField [] [[]] s
    else csvRead .plain [c] [] s
  | .startField, _, r, c :: s =>
    if c = '\n' then (r ++ [[]]) :: csvRead .startRow [] [] s
    else if c = '"' then csvRead .quoted [] r s
    else if c = ',' then csvRead .startField [] (r ++ [[]]) s
    else csvRead .plain [c] r s
  | .plain, f, r, c :: s =>
    if c = '\n' then (r ++ [f]) :: csvRead .startRow [] [] s
    else if c = ',' then csvRead .startField [] (r ++ [f]) s
    else csvRead .plain (f ++ [c]) r s
  | .quoted, f, r, c :: s =>
    if c = '"' then csvRead .quoteInQuoted f r s
    else csvRead .quoted (f ++ [c]) r s
  | .quoteInQuoted, f, r, c :: s =>
    if c = '"' then csvRead .quoted (f ++ [c]) r s
    else if c = '\n' then (r ++ [f]) :: csvRead .startRow [] [] s
    else if c = ',' then csvRead .startField [] (r ++ [f]) s
    else csvRead .plain (f ++ [c]) r s

/-- the directories and the texts of the files -/
structure WaFs where
  dirs : List Str
  files : Dict Str

/-- exceptions: a file that is not there, a row that is too short, a value that is no number or a file without scores (`pd.concat` of nothing, results.py:148), a benchmark that is missing -/
inductive ResErr where
  | io
  | index
  | value
  | key
deriving DecidableEq

/-- results.py:114-115 -/
def resultsPath (fs : WaFs) (path : Str) : Str := if path ∈ fs.dirs then pathJoin path cs!"results.csv" else path

/-- `get_results` (results.py:98-149) -/
def getResults {F : Type} (rf : Str → Option F) (fs : WaFs) (path : Str) (name : Option Str) : Except ResErr (BenchDict (Int ⊕ F)) :=
  match fs.files.get (resultsPath fs path) with
  | none => .error .io
  | some text =>
    match resultRows rf name [] (csvRead .startRow [] [] text) with
    | .error .index => .error .index
    | .error .value => .error .value
    | .ok [] => .error .value
    | .ok d => .ok d

/-- the results of several runs, each with its path and perhaps a name -/
def getAllResults {F : Type} (rf : Str → Option F) (fs : WaFs) : List (Str × Option Str) → Except ResErr (List (BenchDict (Int ⊕ F)))
  | [] => .ok []
  | r :: rs =>
    match getResults rf fs r.1 r.2 with
    | .error e => .error e
    | .ok d =>
      match getAllResults rf fs rs with
      | .error e => .error e
      | .ok ds => .ok (d :: ds)

/-- `combine_results([get_results(path, name), ...])` (results.py:151-168): `data[0]` is an `IndexError` without runs -/
def combinedResults {F : Type} (rf : Str → Option F) (fs : WaFs) (runs : List (Str × Option Str)) : Except ResErr (BenchDict (Int ⊕ F)) :=
  match getAllResults rf fs runs with
  | .error e => .error e
  | .ok [] => .error .index
  | .ok ds =>
    match combineResults ds with
    | none => .error .key
    | some t => .ok t

/-- `str.title`: the flag says that a letter precedes -/
def titleCase : Bool → Str → Str
  | _, [] => []
  | p, c :: s => (if p then c.toLower else c.toUpper) :: titleCase (isUpper c || isLower c) s

/-- the title of a benchmark (results.py:70-72) -/
def benchTitle (bench : Str) : Str := titleCase false (replace cs!"_" cs!" " bench)

/-- an axis with its title and its bars: for each run id the values by run number -/
structure ResultChart (ν : Type) where
  title : Str
  bars : List (Str × RunScores ν)
deriving DecidableEq

/-- the axis after another plot (results.py:74): pandas adds the bars and sets the title -/
def drawBench {ν : Type} (c : ResultChart ν) (b : Str × List (Str × RunScores ν)) : ResultChart ν :=
  { title := benchTitle b.1, bars := c.bars ++ b.2 }

/-- `plot_results` (results.py:77-79, 64-75): without an axis of its own (`init_fig`, lines 34-35, was not called, so that `self.ax` is `None`) each benchmark gets a figure, else all are drawn on it -/
def plotResults {ν : Type} (ownAxis : Bool) (t : BenchDict ν) : List (ResultChart ν) :=
  if ownAxis then [t.foldl drawBench ⟨[], []⟩] else t.map (drawBench ⟨[], []⟩)

end Trappy
