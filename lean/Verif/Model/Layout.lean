import Verif.Model.Data
/-!
# Layout of plots

Models `/repo/trappy/plotter/PlotLayout.py` lines 45-152, `/repo/trappy/plotter/StaticPlot.py` lines 202-290 (`add_to_legend`, `_resolve`),
`/repo/trappy/plotter/ILinePlotGen.py` lines 43-61 and 121-201 and `/repo/trappy/plotter/ILinePlot.py` lines 220-257.

Simplifications: sizes, colours, titles of static plots and the script text are left out; the HTML is a list of its elements. An axis is named by its row and
column in the grid; `plt.subplots` returns a single axis, a one-dimensional or a two-dimensional array (matplotlib, `squeeze=True`).
-/

namespace Trappy

/-- Why a plot cannot be drawn. -/
inductive LErr where
  /-- `RuntimeError`: "No plots for the given constraints" (PlotLayout.py:52, ILinePlotGen.py:191) -/
  | noPlots
  /-- division by zero: no plots per line -/
  | zeroDivision
  /-- `IndexError` -/
  | indexError
deriving DecidableEq, Repr

/-- the attributes of a `PlotLayout` that determine the grid -/
structure Layout where
  rows : Nat
  cols : Nat
  single : Bool
  usecol : Bool
  userow : Bool
deriving DecidableEq, Repr

/-- `PlotLayout.__init__` (PlotLayout.py:45-77) -/
def mkLayout (cols num : Nat) : Except LErr Layout :=
  if num = 0 then .error .noPlots
  else
    let cols := if num < cols then num else cols
    if cols = 0 then .error .zeroDivision
    else
      let rows := num / cols
      let rows := if num % cols ≠ 0 then rows + 1 else rows
      .ok { rows := rows, cols := cols, single := num = 1, usecol := num ≠ 1 ∧ rows = 1, userow := num ≠ 1 ∧ rows ≠ 1 ∧ cols = 1 }

/-- `get_axis` (PlotLayout.py:136-150) with `get_2d` (PlotLayout.py:102-119); `none` stands for `IndexError` -/
def axisOf (l : Layout) (i : Nat) : Option (Nat × Nat) :=
  if l.single then some (0, 0)
  else if l.usecol then some (0, i % l.cols)
  else if l.userow then some (i % l.rows, 0)
  else if i / l.cols < l.rows ∧ i % l.cols < l.cols then some (i / l.cols, i % l.cols)
  else none

/-- `finish` (PlotLayout.py:121-134): the axes deleted, starting at index `i`; `fuel` bounds the loop -/
def finishLoop (l : Layout) : Nat → Nat → List (Option (Nat × Nat))
  | 0, _ => []
  | fuel + 1, i => if i < l.rows * l.cols then axisOf l i :: finishLoop l fuel (i + 1) else []

/-- `finish(i)` -/
def finishLayout (l : Layout) (i : Nat) : List (Option (Nat × Nat)) := finishLoop l (l.rows * l.cols) i

/-! ## `StaticPlot._resolve` -/

/-- a constraint of a static plot: the pivot values of its result, and its `trace_index` -/
structure SConstraint where
  keys : List Val
  traceIdx : Nat
deriving DecidableEq

/-- a series: number of its constraint, `trace_index` of the constraint, pivot value -/
structure SSeries where
  constr : Nat
  traceIdx : Nat
  pivot : Val
deriving DecidableEq

/-- `cp_pairs` (StaticPlot.py:251) -/
def cpPairs (pivots : List Val) : Nat → List SConstraint → List SSeries
  | _, [] => []
  | k, c :: cs => (pivots.filter fun p => decide (p ∈ c.keys)).map (fun p => ⟨k, c.traceIdx, p⟩) ++ cpPairs pivots (k + 1) cs

/-- the loop over the pairs (StaticPlot.py:263-266) -/
def placeAll (l : Layout) (concat : Bool) : Nat → List SSeries → Option (List (SSeries × (Nat × Nat)))
  | _, [] => some []
  | i, s :: ss =>
    match axisOf l (if concat then s.traceIdx else i), placeAll l concat (i + 1) ss with
    | some a, some r => some ((s, a) :: r)
    | _, _ => none

/-- the entries of the legend lists (StaticPlot.py:202-221): the series of an axis are numbered and their number must be below `legendLen` -/
def legendFits (legendLen : Nat) (ps : List (SSeries × (Nat × Nat))) : Bool :=
  ps.all fun p => decide ((ps.filter fun q => q.2 == p.2).length ≤ legendLen)

/-- `_resolve` without permutation (StaticPlot.py:223-290): the axis of each series -/
def staticPlot (perLine : Nat) (concat : Bool) (cs : List SConstraint) (pivots : List Val) : Except LErr (List (SSeries × (Nat × Nat))) :=
  match mkLayout perLine (if concat then cs.length else pivots.length) with
  | .error e => .error e
  | .ok l =>
    match placeAll l concat 0 (cpPairs pivots 0 cs) with
    | none => .error .indexError
    | some ps =>
      if legendFits (if concat then pivots.length else cs.length) ps then .ok ps
      else .error .indexError

/-! ## `ILinePlotGen` -/

/-- an element of the HTML table -/
inductive HElem where
  | table
  | row
  | graph (fig : Str)
  | legend (fig : Str)
  | endRow
  | endTable
deriving DecidableEq, Repr

/-- state of `_init_html`: the HTML so far, `_fig_map`, `_fig_index` -/
structure GenState where
  html : List HElem
  figMap : List (Nat × Str)
  figIndex : Nat
deriving DecidableEq

/-- `_generate_fig_name` and `_add_graph_cell` (ILinePlotGen.py:76-119, 164-167); `uuid` gives the k-th name generated -/
def genCell (uuid : Nat → Str) (st : GenState) : GenState × Str :=
  let fig := cs!"fig_" ++ uuid st.figIndex
  ({ html := st.html ++ [.graph fig], figMap := st.figMap ++ [(st.figIndex, fig)], figIndex := st.figIndex + 1 }, fig)

/-- the graph cells of a row (ILinePlotGen.py:164-167), and the names -/
def genCells (uuid : Nat → Str) : Nat → GenState → GenState × List Str
  | 0, st => (st, [])
  | n + 1, st =>
    let (st, fig) := genCell uuid st
    let (st, figs) := genCells uuid n st
    (st, fig :: figs)

/-- one round of the loop over the rows (ILinePlotGen.py:161-175) -/
def genRow (uuid : Nat → Str) (perLine : Nat) (st : GenState) : GenState :=
  let (st, figs) := genCells uuid perLine { st with html := st.html ++ [.row] }
  { st with html := st.html ++ [.endRow, .row] ++ figs.map HElem.legend ++ [.endRow] }

/-- the loop over the rows -/
def genRows (uuid : Nat → Str) (perLine : Nat) : Nat → GenState → GenState
  | 0, st => st
  | n + 1, st => genRows uuid perLine n (genRow uuid perLine st)

/-- `ILinePlotGen.__init__` (ILinePlotGen.py:179-201) without title -/
def mkIPlot (uuid : Nat → Str) (perLine num : Nat) : Except LErr GenState :=
  if num = 0 then .error .noPlots
  else
    let perLine := if num < perLine then num else perLine
    if perLine = 0 then .error .zeroDivision
    else
      let rows := num / perLine
      let rows := if num % perLine ≠ 0 then rows + 1 else rows
      let st := genRows uuid perLine rows { html := [.table], figMap := [], figIndex := 0 }
      .ok { st with html := st.html ++ [.endTable] }

/-- `df_to_dygraph` (ILinePlotGen.py:43-61): labels and rows -/
def dfToDygraph {α : Type} (indexLabel : Str) (columns : List Str) (index : List α) (values : List (List α)) : List Str × List (List α) :=
  (indexLabel :: columns, index.zipWith (fun x vs => x :: vs) values)

/-! ## `ILinePlot._plot` -/

/-- a constraint of an interactive plot: its label `str(constraint)`, its trace and its result -/
structure IConstraint (σ : Type) where
  label : Str
  permLabel : Str
  traceIdx : Nat
  result : List (Val × σ)

/-- the inner loop of `_plot` without permutation (ILinePlot.py:227-240): the data of one plot -/
def plotData {σ : Type} (pivot : Val) (cs : List (IConstraint σ)) (d : Dict σ) : Dict σ :=
  match cs with
  | [] => d
  | c :: cs =>
    match c.result.lookup pivot with
    | some s => plotData pivot cs (d.set c.label s)
    | none => plotData pivot cs d

/-- the inner loop of `_plot` with permutation (ILinePlot.py:227-240) -/
def plotPermData {σ : Type} (trace : Nat) (pivot : Val) (cs : List (IConstraint σ)) (d : Dict σ) : Dict σ :=
  match cs with
  | [] => d
  | c :: cs =>
    if c.traceIdx ≠ trace then plotPermData trace pivot cs d
    else
      match c.result.lookup pivot with
      | some s => plotPermData trace pivot cs (d.set c.permLabel s)
      | none => plotPermData trace pivot cs d

/-- the titles with permutation: `self.traces[plot_index].name` (ILinePlot.py:242-243, 255); `none` stands for `IndexError` -/
def permTitles (names : List Str) : Nat → List (Nat × Val) → Option (List Str)
  | _, [] => some []
  | i, _ :: ps =>
    match names[i]?, permTitles names (i + 1) ps with
    | some t, some r => some (t :: r)
    | _, _ => none

/-- `str(constraint)` and `get_data_name` (Constraint.py:200-214) for constraints on traces -/
def constraintStr (name : Str) (traceIdx : Nat) (template column : Str) : Str :=
  (if name ≠ [] then name else cs!"Trace " ++ Py.natStr traceIdx) ++ ':' :: template ++ ':' :: column

end Trappy
