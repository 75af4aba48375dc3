import Verif.Model.Whole
import Verif.Model.Construct
import Verif.Model.IPage
import Verif.Model.StaticPlot
/-!
# From the file of a trace to the page of a plot

Puts the models of the steps together: the constructor of a trace (`buildTrace`), the constructor of an interactive plot (`newPlot`), `ILinePlot._plot` (`/repo/trappy/plotter/ILinePlot.py` lines 220-257)
and the page (`iPage`).

Simplifications: the columns of a table are the columns that the rows of the table have; a figure with more than one line is made by a parameter (`_fix_indexes`, see `fixIndexes`); the text that Python
prints for a time is a parameter; a column with missing values is not turned into floats.
-/

namespace Trappy
open Py

/-- the columns of a table: those of its rows, each once -/
def rowColumns (t : Table (Dict Val)) : List Str := (t.flatMap fun r => r.2.map Prod.fst).eraseDups

/-- a table of a trace as a plot sees it -/
def plotTable (t : Table (Dict Val)) : CTable := ⟨rowColumns t, t.map fun r => ⟨r.1, r.2⟩⟩

/-- the attributes of a trace (ftrace.py:107-112): its tables by the names of their classes -/
def plotAttrs : List ParserClass → List (Table (Dict Val)) → Dict CTable
  | p :: ps, t :: ts => (p.name, plotTable t) :: plotAttrs ps ts
  | _, _ => []

/-- a trace as a plot sees it: `class_definitions` (ftrace.py:99-106) and its attributes -/
def plotItem (ps : List ParserClass) (o : TraceObj) : PlotItem := .trace (ps.map fun p => (p.name, ⟨p.name⟩)) (plotAttrs ps o.tables)

/-- a value in a figure: `values.tolist()` (ILinePlotGen.py:51), then `json.dumps` -/
def cellJson : Option Val → PyJson
  | some (.int i) => .int i
  | some (.str s) => .str s
  | none => .float cs!"NaN"

/-- `pd.DataFrame(data_dict)` for one line (ILinePlot.py:252), with its title -/
def lineFrame (timeText : Nat → Str) (title label : Str) (s : PSeries) : IFrame where
  title := title
  columns := [label]
  index := s.map fun x => .float (timeText x.1)
  values := s.map fun x => [cellJson x.2]

/-- the title of a figure without permutation (ILinePlot.py:244-247) -/
def figTitle (a : PlotLabels) (p : Val) : Str := if p ≠ pivotMark then a.pivot ++ cs!": " ++ pivotLabel a p else []

/-- a constraint as `_plot` sees it, `names` are the names of the traces -/
def lineConstraint (name : Str) (l : PlotLine) : IConstraint PSeries where
  label := constraintStr name l.args.traceIdx (match l.args.template with | some k => k.name | none => []) l.args.column
  permLabel := []
  traceIdx := l.args.traceIdx
  result := l.result

/-- the figure of a pivot value (ILinePlot.py:226-254) -/
def pivotFrame (timeText : Nat → Str) (merge : Str → Dict PSeries → Option IFrame) (a : PlotLabels) (cs : List (IConstraint PSeries)) (p : Val) : Option IFrame :=
  match plotData p cs [] with
  | [] => some ⟨figTitle a p, [], [], []⟩
  | [(label, s)] => some (lineFrame timeText (figTitle a p) label s)
  | d => merge (figTitle a p) d

/-- the figures of all pivot values (ILinePlot.py:224-255) -/
def pivotFrames (timeText : Nat → Str) (merge : Str → Dict PSeries → Option IFrame) (a : PlotLabels) (cs : List (IConstraint PSeries)) : List Val → Option (List IFrame)
  | [] => some []
  | p :: ps =>
    match pivotFrame timeText merge a cs p, pivotFrames timeText merge a cs ps with
    | some f, some fs => some (f :: fs)
    | _, _ => none

/-- why a file is not shown -/
inductive ShowErr where
  /-- the trace cannot be read -/
  | trace
  /-- the plot cannot be made -/
  | plot (e : NewErr)
  /-- the pivot values cannot be sorted, or the lines cannot be merged -/
  | figures
  /-- the page cannot be made -/
  | page (e : IPageErr)

/-- arguments of the page -/
structure PageArgs where
  uuid : Nat → Str
  hash : Str
  kw : Dict PyJson
  maxPoints : Nat
  colours : List Str

/-- `view` (ILinePlot.py:174-203) without `concat` and `permute` -/
def viewPlot (enum : List Val → List Val) (timeText : Nat → Str) (merge : Str → Dict PSeries → Option IFrame) (name : Str) (a : PlotLabels) (g : PageArgs) (ls : List PlotLine) :
    Except ShowErr (List PageElem) :=
  match generatePivots enum (ls.map PlotLine.result) with
  | none => .error .figures
  | some (pivots, _) =>
    match pivotFrames timeText merge a (ls.map (lineConstraint name)) pivots with
    | none => .error .figures
    | some frames =>
      match iPage g.uuid g.hash g.kw g.maxPoints g.colours frames with
      | .error e => .error (.page e)
      | .ok page => .ok page

/-- `ILinePlot(FTrace(...), event, column, pivot=pivot).view()`: from the lines of the file to the page -/
def showFile (enum : List Val → List Val) (nan : NanSlice) (timeText : Nat → Str) (merge : Str → Dict PSeries → Option IFrame) (fuel : Nat) (ps : List ParserClass) (u : UserParams) (lines : List Str)
    (name : Str) (event : PlotEvent) (column pivot : Str) (g : PageArgs) : Except ShowErr (List PageElem) :=
  match buildTrace fuel ps u lines with
  | .object o =>
    match newPlot enum nan ⟨.one (plotItem ps o), .one (some event), some (.one column), none, false, pivot, [], none⟩ with
    | .error e => .error (.plot e)
    | .ok ls => viewPlot enum timeText merge name ⟨pivot, [], column⟩ g ls
  | _ => .error .trace

end Trappy
