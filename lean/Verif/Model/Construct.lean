import Verif.Model.Constraint
import Verif.Model.Signals
/-!
# Making a plot

Models the constructors of the plots: `/repo/trappy/plotter/StaticPlot.py` lines 119-145 and `/repo/trappy/plotter/ILinePlot.py` lines 138-168 (`__init__`), `/repo/trappy/plotter/AbstractDataPlotter.py`
lines 36-72 and 111-130 (`__init__`, `_check_data`, `_describe_signals`), `/repo/trappy/plotter/Constraint.py` lines 100-118 and 154-168 (`Constraint.__init__`, `_uses_trappy_trace`, `populate_data_frame`)
and `/repo/trappy/utils.py` lines 21-29 (`listify`). The lists are expanded by `constraintArgs`, signals are read by `describeLoop`, series are made by `plotApply`.

Simplifications: columns are texts, elements of `traces` are tables or traces, elements of `templates` are event classes or `None`; the attributes of a trace are those with a table; a table has no column that
is named like an event. Only `ILinePlot` has a window (`xlim`).
-/

namespace Trappy
open Py

/-- an argument that is a list or a single value (`listify`, utils.py:21-29) -/
inductive OneOrMany (α : Type) where
  | one (a : α)
  | many (l : List α)

/-- `listify` (utils.py:21-29) -/
def OneOrMany.list {α : Type} : OneOrMany α → List α
  | .one a => [a]
  | .many l => l

/-- `val.strip(":")` (Utils.py:37-43) -/
def decolonize (s : Str) : Str := ((s.dropWhile (· == ':')).reverse.dropWhile (· == ':')).reverse

/-- a class of events, of which `name` matters here -/
structure PlotEvent where
  name : Str
deriving DecidableEq

/-- an element of `traces`: a `DataFrame`, or a trace with its `class_definitions` and the tables of its attributes -/
inductive PlotItem where
  | frame (t : CTable)
  | trace (defs : Dict PlotEvent) (attrs : Dict CTable)
deriving DecidableEq

/-- `isinstance(x, DataFrame)` (AbstractDataPlotter.py:62) -/
def PlotItem.isFrame : PlotItem → Bool
  | .frame _ => true
  | .trace _ _ => false

/-- the arguments of a plot; `templates := .one none` is `templates=None` -/
structure PlotArgs where
  traces : OneOrMany PlotItem
  templates : OneOrMany (Option PlotEvent)
  column : Option (OneOrMany Str)
  signals : Option (OneOrMany Str)
  permute : Bool
  pivot : Str
  filters : Dict (List Val)
  window : Option (Nat × Nat)

/-- the exceptions of the constructors -/
inductive NewErr where
  /-- `ValueError`: "column/templates specified with values" (AbstractDataPlotter.py:117) -/
  | withValues
  /-- `ValueError` of `_parse_value` -/
  | signal (e : SigErr)
  /-- `ValueError`: "Cannot understand data" (AbstractDataPlotter.py:67) -/
  | notUnderstood
  /-- `ValueError`: "Column not specified for DataFrame input" (AbstractDataPlotter.py:70) -/
  | frameColumn
  /-- `ValueError`: "Empty Data received" (AbstractDataPlotter.py:72) -/
  | empty
  /-- `RuntimeError`: "Value Column not specified" (StaticPlot.py:137, ILinePlot.py:154) -/
  | noColumn
  /-- `RuntimeError` of `ConstraintManager` -/
  | expand (e : CErr)
  /-- `AttributeError` -/
  | attribute
  /-- `TypeError`: a trace cannot be subscripted -/
  | subscript
  /-- the exception of `.loc` with NaN -/
  | window
deriving DecidableEq

/-- whether `self.templates` is true -/
def templatesTrue : OneOrMany (Option PlotEvent) → Bool
  | .one none => false
  | .one (some _) => true
  | .many l => !l.isEmpty

/-- the `class_definitions` of the traces before the first table (AbstractDataPlotter.py:101): a table does not have them -/
def defsBeforeFrame : List PlotItem → List (Dict PlotEvent)
  | .trace defs _ :: is => defs :: defsBeforeFrame is
  | _ => []

/-- `_describe_signals` (AbstractDataPlotter.py:111-130): templates and columns. An event that no trace before the first table defines is looked for in the table. -/
def describeSignals (items : List PlotItem) (signals : List Str) : Except NewErr (List (PlotEvent × Str × Option (List Int))) :=
  match describeLoop (defsBeforeFrame items) [] signals with
  | .ok rs => .ok rs
  | .error .unknown => if items.any PlotItem.isFrame then .error .attribute else .error (.signal .unknown)
  | .error e => .error (.signal e)

/-- templates and columns after `if "signals" in self._attr` (StaticPlot.py:131-132, ILinePlot.py:149-150) -/
def resolveArgs (a : PlotArgs) : Except NewErr (OneOrMany (Option PlotEvent) × Option (OneOrMany Str)) :=
  match a.signals with
  | none => .ok (a.templates, a.column)
  | some signals =>
    if a.column.isSome = true ∨ templatesTrue a.templates = true then .error .withValues
    else
      match describeSignals a.traces.list signals.list with
      | .error e => .error e
      | .ok rs => .ok (.many (rs.map fun r => some r.1), some (.many (rs.map fun r => r.2.1)))

/-- `_check_data` (AbstractDataPlotter.py:56-72); `none` if the check passes -/
def checkData (items : List PlotItem) (templates : OneOrMany (Option PlotEvent)) (column : Option (OneOrMany Str)) (signals : Bool) : Option NewErr :=
  if items.length ≠ 0 then
    let frames := items.all PlotItem.isFrame
    if !frames && !(templatesTrue templates || signals) then some .notUnderstood
    else if frames && column.isNone then some .frameColumn
    else none
  else some .empty

/-- `populate_data_frame` (Constraint.py:160-168) and the first use of its value (Constraint.py:113, 128) -/
def constraintTable (windowed : Bool) : PlotItem → Option PlotEvent → Except NewErr CTable
  | .frame t, none => .ok t
  | .frame _, some _ => .error .attribute
  | .trace _ _, none => .error (if windowed then .attribute else .subscript)
  | .trace _ attrs, some k =>
    match attrs.get (decolonize k.name) with
    | some t => .ok t
    | none => .error .attribute

/-- a constraint: its arguments and `result` -/
structure PlotLine where
  args : CArgs PlotItem (Option PlotEvent)
  result : List (Val × PSeries)
deriving DecidableEq

/-- `Constraint.__init__` (Constraint.py:100-118) -/
def newConstraint (enum : List Val → List Val) (nan : NanSlice) (a : PlotArgs) (c : CArgs PlotItem (Option PlotEvent)) : Except NewErr PlotLine :=
  match constraintTable a.window.isSome c.trace c.template with
  | .error e => .error e
  | .ok t =>
    match plotWindow nan a.window t with
    | none => .error .window
    | some t => .ok ⟨c, plotApply enum a.pivot a.filters c.column t⟩

/-- the loop that makes the constraints (Constraint.py:324-329, 342-353) -/
def newConstraints (enum : List Val → List Val) (nan : NanSlice) (a : PlotArgs) : List (CArgs PlotItem (Option PlotEvent)) → Except NewErr (List PlotLine)
  | [] => .ok []
  | c :: cs =>
    match newConstraint enum nan a c with
    | .error e => .error e
    | .ok l =>
      match newConstraints enum nan a cs with
      | .error e => .error e
      | .ok ls => .ok (l :: ls)

/-- `ConstraintManager(…)` (Constraint.py:243-263) -/
def makeLines (enum : List Val → List Val) (nan : NanSlice) (a : PlotArgs) (columns : List Str) (templates : List (Option PlotEvent)) : Except NewErr (List PlotLine) :=
  match constraintArgs (!a.permute) a.traces.list columns templates with
  | .error e => .error (.expand e)
  | .ok cs => newConstraints enum nan a cs

/-- what follows `_describe_signals` (StaticPlot.py:134-145, ILinePlot.py:152-168) -/
def checkedPlot (enum : List Val → List Val) (nan : NanSlice) (a : PlotArgs) (templates : OneOrMany (Option PlotEvent)) (column : Option (OneOrMany Str)) : Except NewErr (List PlotLine) :=
  match checkData a.traces.list templates column a.signals.isSome with
  | some e => .error e
  | none =>
    match column with
    | none => .error .noColumn
    | some column => makeLines enum nan a column.list templates.list

/-- the constructor of a plot (StaticPlot.py:119-145, ILinePlot.py:138-168) -/
def newPlot (enum : List Val → List Val) (nan : NanSlice) (a : PlotArgs) : Except NewErr (List PlotLine) :=
  match resolveArgs a with
  | .error e => .error e
  | .ok (templates, column) => checkedPlot enum nan a templates column

end Trappy
