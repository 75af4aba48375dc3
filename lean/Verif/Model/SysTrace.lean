import Verif.Model.PlotTrace
/-!
# `SysTrace`, and `plot_trace` of one

Models `SysTrace.__init__` (`/repo/trappy/systrace.py` lines 64-76) on the lines of a file, on top of the constructor `buildTrace` for the lines `sysBody` that are part of the trace, and
`plot_trace` (`/repo/trappy/plotter/__init__.py` lines 55-86) for a path or a `SysTrace`.

Simplifications: the class `tracing_mark_write`, whose payload a `SysTrace` reads itself (C45), is not among the classes; no cache; those of `Verif.Model.PlotTrace`.
-/

namespace Trappy
open F64 Py

/-- Why there is no `SysTrace`. -/
inductive SysErr where
  /-- the trace cannot be read -/
  | trace
  /-- `KeyError`: the table of `sched_switch` has no columns (systrace.py:72) -/
  | noColumn
  /-- `TypeError`: a CPU is not a number -/
  | cells
deriving DecidableEq, Repr

/-- the attribute `_cpus` -/
inductive SysCpus where
  /-- not set (systrace.py:73-74) -/
  | unset
  | nan
  | num (n : Int)
deriving DecidableEq, Repr

/-- the column `__cpu`; `none` if a cell is not a number -/
def cpuCells : Table (Dict Val) → Option (List Int)
  | [] => some []
  | r :: t =>
    match r.2.get cs!"__cpu", cpuCells t with
    | some (.int i), some l => some (i :: l)
    | _, _ => none

/-- `1 + self.sched_switch.data_frame["__cpu"].max()` (systrace.py:72). A table that was created without lines has no columns (base.py:119, 291-292); one that a window made empty keeps its columns, and the
maximum is NaN. -/
def sysCpus (created : List Rec) (t : Table (Dict Val)) : Except SysErr SysCpus :=
  if created.isEmpty then .error .noColumn
  else
    match cpuCells t with
    | none => .error .cells
    | some [] => .ok .nan
    | some (c :: cs) => .ok (.num (1 + cs.foldl max c))

/-- A `SysTrace` -/
structure SysObj where
  trace : TraceObj
  cpus : SysCpus
deriving DecidableEq, Repr

/-- the class with the name `sched_switch` and its position -/
def switchClass (ps : List ParserClass) : Option (ParserClass × Nat) := ps.zipIdx.find? fun x => x.1.name == cs!"sched_switch"

/-- `SysTrace.__init__` (systrace.py:64-76) -/
def sysTrace (fuel : Nat) (ps : List ParserClass) (u : UserParams) (lines : List Str) : Except SysErr SysObj :=
  match buildTrace fuel ps u (sysBody lines) with
  | .object o =>
    match switchClass ps, (namedTables ps o.tables).get cs!"sched_switch" with
    | some x, some t =>
      match sysCpus ((populate (ps.map ParserClass.toCls) 0 (sysBody lines)).tables x.2) t with
      | .ok c => .ok ⟨o, c⟩
      | .error e => .error e
    | _, _ => .ok ⟨o, .unset⟩
  | _ => .error .trace

/-- Why there is no plot of a `SysTrace`. -/
inductive SysPlotErr where
  /-- the constructor fails -/
  | build (e : SysErr)
  | plot (e : PlotTraceErr)
  /-- `ValueError` of `int(nan)` -/
  | nanCpus
deriving DecidableEq, Repr

/-- `plot_trace` (plotter/__init__.py:55-86) of a systrace -/
def plotSys (fuel : Nat) (ps : List ParserClass) (u : UserParams) (lines : List Str) (execnames : List Str) (pids : List Nat) : Except SysPlotErr TracePlot :=
  match sysTrace fuel ps u lines with
  | .error e => .error (.build e)
  | .ok o =>
    match (namedTables ps o.trace.tables).get cs!"sched_switch" with
    | none => .error (.plot .noSwitch)
    | some t =>
      match switchRows t with
      | none => .error (.plot .cells)
      | some rows =>
        match residency execnames pids rows with
        | none => .error (.plot .index)
        | some R =>
          match o.cpus with
          | .unset => .error (.plot .noCpus)
          | .nan => .error .nanCpus
          | .num n =>
            match eventPlot [] cs!"CPU :" n.toNat (laneData R.data) with
            | none => .error (.plot .noLanes)
            | some (labels, keys, items) => .ok { lanes := labels, keys := keys, items := items, domain := (val R.first, val R.last) }

/-- `plot_trace` of a path (plotter/__init__.py:76-80): with the defaults of the constructors, the whole trace with normalised times -/
def plotPath (fuel : Nat) (ps : List ParserClass) (path : Str) (lines : List Str) (execnames : List Str) (pids : List Nat) : Except SysPlotErr TracePlot :=
  if endsWith path cs!"html" then plotSys fuel ps (UserParams.full true) lines execnames pids
  else
    match plotTrace fuel ps (UserParams.full true) lines execnames pids with
    | .ok P => .ok P
    | .error e => .error (.plot e)

end Trappy
