import Verif.Model.EndToEnd
/-!
# From the files of traces to a static plot

Puts the models of the steps together: the constructor of the traces (`buildTrace`), the constructor of a static plot (`newPlot`), `generate_pivots` and the drawing (`/repo/trappy/plotter/StaticPlot.py` lines 176-290,
`/repo/trappy/plotter/LinePlot.py` lines 159-175).

Simplifications: those of the parts; one event and one column for all traces; without `permute`, which C141 is about.
-/

namespace Trappy
open Py

/-- the traces; `none` if one of them cannot be read -/
def buildAll (fuel : Nat) (ps : List ParserClass) (u : UserParams) : List (List Str) → Option (List TraceObj)
  | [] => some []
  | f :: fs =>
    match buildTrace fuel ps u f, buildAll fuel ps u fs with
    | .object o, some os => some (o :: os)
    | _, _ => none

/-- the name of a trace in titles and legends: `get_data_name` (Constraint.py:200-214) -/
def traceTitle (names : List Str) (i : Nat) : Str :=
  match names[i]? with
  | some n => if n ≠ [] then n else cs!"Trace " ++ natStr i
  | none => cs!"Trace " ++ natStr i

/-- a constraint as the static plot sees it: `str(constraint)` is Constraint.py:189-197 -/
def staticConstraint (names : List Str) (l : PlotLine) : LConstraint where
  keys := l.result.map Prod.fst
  traceIdx := l.args.traceIdx
  text := traceTitle names l.args.traceIdx ++ cs!":" ++ (match l.args.template with | some k => k.name ++ cs!":" | none => []) ++ l.args.column
  dataName := traceTitle names l.args.traceIdx
  signal := (match l.args.template with | some k => k.name | none => []) ++ cs!":" ++ l.args.column

/-- the index and values given to `axis.plot` (LinePlot.py:161-165) -/
def shownLine (names : List Str) (ls : List PlotLine) (s : LSeries) : PSeries :=
  match ls.find? fun l => staticConstraint names l = s.constr with
  | some l =>
    match l.result.lookup s.pivot with
    | some x => x
    | none => []
  | none => []

/-- an axis with its lines: number of the colour, points -/
structure ShownAxis where
  cell : Nat × Nat
  title : Str
  lines : List (Nat × PSeries)
deriving DecidableEq

/-- the lines of an axis (LinePlot.py:161-168) -/
def showAxis (names : List Str) (ls : List PlotLine) (a : DrawnAxis) : ShownAxis := ⟨a.cell, a.title, a.lines.mapIdx fun i s => (i, shownLine names ls s)⟩

/-- why a file is not drawn -/
inductive FilesErr where
  /-- a trace cannot be read -/
  | trace
  /-- the plot cannot be made -/
  | plot (e : NewErr)
  /-- the pivot values cannot be sorted -/
  | pivots
  | draw (e : DErr)
deriving DecidableEq

/-- the arguments of a plot other than the traces -/
structure StaticArgs where
  event : PlotEvent
  column : Str
  pivot : Str
  filters : Dict (List Val)
  concat : Bool
  perLine : Nat

/-- `LinePlot([FTrace(...), ...], event, column, pivot=pivot, filters=filters, concat=concat, per_line=n).view()`: the axes and the legend. `files` has the name and the lines of each file. -/
def drawFiles (enum : List Val → List Val) (nan : NanSlice) (fuel : Nat) (ps : List ParserClass) (u : UserParams) (files : List (Str × List Str)) (a : StaticArgs) :
    Except FilesErr (List ShownAxis × List (Option Str)) :=
  match buildAll fuel ps u (files.map Prod.snd) with
  | none => .error .trace
  | some os =>
    match newPlot enum nan ⟨.many (os.map (plotItem ps)), .one (some a.event), some (.one a.column), none, false, a.pivot, a.filters, none⟩ with
    | .error e => .error (.plot e)
    | .ok ls =>
      match generatePivots enum (ls.map PlotLine.result) with
      | none => .error .pivots
      | some (pivots, _) =>
        match linePlot a.perLine (if a.concat then .concat else .plain) ⟨a.pivot, [], a.column⟩ files.length files.length (ls.map (staticConstraint (files.map Prod.fst))) pivots with
        | .error e => .error (.draw e)
        | .ok (axes, legend) => .ok (axes.map (showAxis (files.map Prod.fst) ls), legend)

end Trappy
