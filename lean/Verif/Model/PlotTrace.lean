import Verif.Model.Whole
import Verif.Model.Residency
import Verif.Model.EventPlotJs
import Verif.Model.Header
import Verif.Spec.Float64
/-!
# `plot_trace`

Models `/repo/trappy/plotter/__init__.py` lines 55-86: from the lines of a file over the constructor of the trace (`buildTrace`), the residency data (`residency`) and the number of CPUs in the header
(`traceMetadata`, `/repo/trappy/ftrace.py` lines 818, 925-955) to the data of the event plot (`eventPlot`).

Simplifications: pids and CPUs are not negative; the times, which are doubles, become the rational numbers they stand for; IPython is there (line 73).
-/

namespace Trappy
open F64 Py

/-- Why there is no plot. -/
inductive PlotTraceErr where
  /-- the trace cannot be read -/
  | trace
  /-- `AttributeError`: no `sched_switch` (Utils.py:62) -/
  | noSwitch
  /-- `KeyError` or `AttributeError`: a cell is missing, or the name of a task is a number and has no `startswith` (Utils.py:68-70, 89) -/
  | cells
  /-- `IndexError` (Utils.py:62-63, 74, 87) -/
  | index
  /-- `TypeError`: `_cpus` is `None` (ftrace.py:931, plotter/__init__.py:85) -/
  | noCpus
  /-- `RuntimeError` of `_get_lanes` (EventPlot.py:205) -/
  | noLanes
deriving DecidableEq, Repr

/-- a cell with a number -/
def natCell : Option Val → Option Nat
  | some (.int (.ofNat n)) => some n
  | _ => none

/-- the name of a task; for pid 0 `startswith` is not called (Utils.py:89) -/
def commCell (pid : Nat) : Option Val → Option Str
  | some (.str s) => some s
  | some (.int i) => if pid = 0 then some (Py.intStr i) else none
  | none => none

/-- `row["prev_pid"]`, `row["next_pid"]`, `row["next_comm"]`, `row["__cpu"]` (Utils.py:68-70, 97) -/
def switchRowOf (r : Nat × Dict Val) : Option SwitchRow :=
  match natCell (r.2.get cs!"prev_pid"), natCell (r.2.get cs!"next_pid"), natCell (r.2.get cs!"__cpu") with
  | some a, some b, some k =>
    match commCell b (r.2.get cs!"next_comm") with
    | some c => some ⟨r.1, a, b, c, k⟩
    | none => none
  | _, _, _ => none

/-- `data_frame.iterrows()` (Utils.py:67) -/
def switchRows : Table (Dict Val) → Option (List SwitchRow)
  | [] => some []
  | r :: t =>
    match switchRowOf r, switchRows t with
    | some s, some ss => some (s :: ss)
    | _, _ => none

/-- the tables of a trace by the names of their classes -/
def namedTables : List ParserClass → List (Table (Dict Val)) → Dict (Table (Dict Val))
  | p :: ps, t :: ts => (p.name, t) :: namedTables ps ts
  | _, _ => []

/-- an interval as an event of a lane -/
def laneEvent (iv : Interval) : LaneEvent := ⟨val iv.start, val iv.stop, .int iv.cpu⟩

/-- the data for `EventPlot` -/
def laneData (d : Dict (List Interval)) : Dict (List LaneEvent) := d.map fun x => (x.1, x.2.map laneEvent)

/-- what is sent to the browser -/
structure TracePlot where
  lanes : List LaneLabel
  keys : List Str
  items : Dict (List (Val × List (Rat × Rat)))
  domain : Rat × Rat
deriving DecidableEq

/-- `plot_trace` (plotter/__init__.py:55-86) -/
def plotTrace (fuel : Nat) (ps : List ParserClass) (u : UserParams) (lines : List Str) (execnames : List Str) (pids : List Nat) : Except PlotTraceErr TracePlot :=
  match buildTrace fuel ps u lines with
  | .object o =>
    match (namedTables ps o.tables).get cs!"sched_switch" with
    | none => .error .noSwitch
    | some t =>
      match switchRows t with
      | none => .error .cells
      | some rows =>
        match residency execnames pids rows with
        | none => .error .index
        | some R =>
          match (traceMetadata lines).get cs!"cpus" with
          | none => .error .noCpus
          | some v =>
            match eventPlot [] cs!"CPU :" (natVal v) (laneData R.data) with
            | none => .error .noLanes
            | some (labels, keys, items) => .ok { lanes := labels, keys := keys, items := items, domain := (val R.first, val R.last) }
  | _ => .error .trace

end Trappy
