import Verif.Model.Layout
import Verif.Model.Constraint
/-!
# Drawing static line plots

Models `/repo/trappy/plotter/StaticPlot.py` lines 191-290 (`make_title`, `add_to_legend`, `_resolve`) and
`/repo/trappy/plotter/LinePlot.py` lines 157-175 (`plot_axis`).

Simplifications: a line is a series with the number of its colour, which is its position among the lines of its axis; filling, limits and forwarded
arguments are left out (see C80, C140); `column`, which is the legend entry of concatenated plots without pivot, is a text.
-/

namespace Trappy

/-- a constraint as a static plot sees it -/
structure LConstraint where
  /-- the pivot values of `result` -/
  keys : List Val
  /-- `trace_index` -/
  traceIdx : Nat
  /-- `str(constraint)` -/
  text : Str
  /-- `get_data_name()` -/
  dataName : Str
  /-- `_template.name + ":" + column` -/
  signal : Str
deriving DecidableEq

/-- a constraint and a pivot value -/
structure LSeries where
  constr : LConstraint
  pivot : Val
deriving DecidableEq

/-- how `_resolve` is called (StaticPlot.py:184): `permute` is only used without `concat` -/
inductive PlotMode where
  | plain
  | concat
  | permute
deriving DecidableEq

/-- the attributes used for titles and the legend: `pivot`, `map_label`, `column` -/
structure PlotLabels where
  pivot : Str
  mapLabel : List (Val × Str)
  column : Str

/-- exceptions -/
inductive DErr where
  /-- of the layout, and `IndexError` -/
  | layout (e : LErr)
  /-- `KeyError`: `result[pivot]` -/
  | keyError
  /-- `TypeError`: pivot values that cannot be sorted -/
  | typeError
deriving DecidableEq

/-- `map_label.get(pivot, pivot)`, formatted -/
def pivotLabel (a : PlotLabels) (p : Val) : Str :=
  match a.mapLabel.find? fun e => e.1 == p with
  | some e => e.2
  | none => p.text

/-- `make_title` (StaticPlot.py:191-200) -/
def makeTitle (a : PlotLabels) (m : PlotMode) (s : LSeries) : Str :=
  match m with
  | .concat => s.constr.text
  | .permute => s.constr.dataName
  | .plain => if s.pivot ≠ pivotMark then a.pivot ++ cs!": " ++ pivotLabel a s.pivot else []

/-- the text of a legend entry (StaticPlot.py:211-221) -/
def legendText (a : PlotLabels) (m : PlotMode) (s : LSeries) : Str :=
  match m with
  | .concat => if s.pivot = pivotMark then a.column else a.pivot ++ cs!": " ++ pivotLabel a s.pivot
  | .permute => s.constr.signal
  | .plain => s.constr.text

/-- `LinePlot.plot_axis` (LinePlot.py:159-175) from line number `i`: the title and the legend afterwards -/
def drawLines (a : PlotLabels) (m : PlotMode) : Nat → List LSeries → Str → List (Option Str) → Except DErr (Str × List (Option Str))
  | _, [], title, lg => .ok (title, lg)
  | i, s :: ss, _, lg =>
    if s.pivot ∈ s.constr.keys then
      if i < lg.length then drawLines a m (i + 1) ss (makeTitle a m s) (lg.set i (some (legendText a m s)))
      else .error (.layout .indexError)
    else .error .keyError

/-- an axis with its lines; line number `i` has colour number `i` -/
structure DrawnAxis where
  cell : Nat × Nat
  lines : List LSeries
  title : Str
deriving DecidableEq

/-- the loop over `figure_data` (StaticPlot.py:269-276): the axes and the legend -/
def drawAxes (a : PlotLabels) (m : PlotMode) : List ((Nat × Nat) × List LSeries) → List (Option Str) →
    Except DErr (List DrawnAxis × List (Option Str))
  | [], lg => .ok ([], lg)
  | g :: gs, lg =>
    match drawLines a m 0 g.2 [] lg with
    | .error e => .error e
    | .ok (title, lg) =>
      match drawAxes a m gs lg with
      | .error e => .error e
      | .ok (r, lg) => .ok (⟨g.1, g.2, title⟩ :: r, lg)

/-- `figure_data[axis].append(…)` -/
def addCell (cell : Nat × Nat) (s : LSeries) : List ((Nat × Nat) × List LSeries) → List ((Nat × Nat) × List LSeries)
  | [] => [(cell, [s])]
  | (c, l) :: r => if c = cell then (c, l ++ [s]) :: r else (c, l) :: addCell cell s r

/-- the loop over `cp_pairs` (StaticPlot.py:263-266) from number `i` -/
def groupPairs (l : Layout) (m : PlotMode) : Nat → List LSeries → List ((Nat × Nat) × List LSeries) →
    Except DErr (List ((Nat × Nat) × List LSeries))
  | _, [], g => .ok g
  | i, s :: ss, g =>
    match axisOf l (if m = .concat then s.constr.traceIdx else i) with
    | none => .error (.layout .indexError)
    | some c => groupPairs l m (i + 1) ss (addCell c s g)

/-- the part after the last colon, and the part before the first one (StaticPlot.py:245) -/
def sortKey (s : Str) : Str × Str :=
  let parts := Py.splitOn ':' s
  (parts.getLastD [], parts.headD [])

/-- order of the keys -/
def keyLt (a b : Str × Str) : Bool := strLt a.1 b.1 || (a.1 == b.1 && strLt a.2 b.2)

/-- `c_list` (StaticPlot.py:244-246) -/
def sortConstraints (cs : List LConstraint) : List LConstraint :=
  sortBy (fun a b => keyLt (sortKey a.text) (sortKey b.text)) cs

/-- the integers, or `none` if one is a string -/
def allInt : List Val → Option (List Int)
  | [] => some []
  | .str _ :: _ => none
  | .int i :: vs =>
    match allInt vs with
    | some r => some (i :: r)
    | none => none

/-- `sorted(set(pivots))` (StaticPlot.py:247) -/
def plainSort (vs : List Val) : Option (List Val) :=
  match allInt vs with
  | some is => some ((sortBy (fun a b => decide (a < b)) is).map Val.int)
  | none =>
    match allStr vs with
    | some ss => some ((sortBy strLt ss).map Val.str)
    | none => none

/-- `cp_pairs` (StaticPlot.py:240-252) -/
def plotPairs (m : PlotMode) (cs : List LConstraint) (pivots : List Val) : Except DErr (List LSeries) :=
  match m with
  | .permute =>
    match plainSort pivots with
    | none => .error .typeError
    | some ps => .ok ((sortConstraints cs).flatMap fun c => ps.map fun p => ⟨c, p⟩)
  | _ => .ok (cs.flatMap fun c => (pivots.filter fun p => decide (p ∈ c.keys)).map fun p => ⟨c, p⟩)

/-- `_resolve` (StaticPlot.py:223-290). `nTraces` is the number of traces given, `maxLen` the length of the longest of the lists given,
`pivots` what `generate_pivots` gives. -/
def linePlot (perLine : Nat) (m : PlotMode) (a : PlotLabels) (nTraces maxLen : Nat) (cs : List LConstraint) (pivots : List Val) :
    Except DErr (List DrawnAxis × List (Option Str)) :=
  let num := match m with
    | .plain => pivots.length
    | .concat => cs.length
    | .permute => pivots.length * nTraces
  let legendLen := match m with
    | .plain => cs.length
    | .concat => pivots.length
    | .permute => maxLen
  match mkLayout perLine num with
  | .error e => .error (.layout e)
  | .ok l =>
    match plotPairs m cs pivots with
    | .error e => .error e
    | .ok ss =>
      match groupPairs l m 0 ss [] with
      | .error e => .error e
      | .ok g => drawAxes a m g (List.replicate legendLen none)

end Trappy
