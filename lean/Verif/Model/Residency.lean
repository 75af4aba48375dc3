import Verif.Model.Constraint
/-!
# Task residency and event plots

Models `/repo/trappy/plotter/Utils.py` 45-101 (`get_trace_event_data`) and `/repo/trappy/plotter/EventPlot.py` 113-213 (`__init__`, `_group_data_by_lanes`, `_get_lanes`).

Simplifications: pids are natural numbers; times are natural numbers (only copied here) in the first part and exact numbers in the second; warnings are not modelled;
`pmap`, which is never iterated, is a list of pairs.
-/

namespace Trappy

/-! ## `get_trace_event_data` -/

/-- the cells of a row of `sched_switch` that are read (Utils.py:69-72, 97) -/
structure SwitchRow where
  time : Nat
  prevPid : Nat
  nextPid : Nat
  nextComm : Str
  cpu : Nat
deriving DecidableEq, Repr

/-- `[index, end_idx, row["__cpu"]]` (Utils.py:97) -/
structure Interval where
  start : Nat
  stop : Nat
  cpu : Nat
deriving DecidableEq, Repr

/-- variables of the loop: `data`, `pmap`, `procs` (Utils.py:60-67) -/
structure RState where
  data : Dict (List Interval)
  pmap : List (Nat × Str)
  procs : List Str
deriving DecidableEq, Repr

/-- `"{}-{}".format(next_comm, next_pid)` (Utils.py:79) -/
def procName (comm : Str) (pid : Nat) : Str := comm ++ '-' :: Py.natStr pid

/-- `data[name]` of a `defaultdict(list)`; the empty list that a missing name creates is only ever followed by `IndexError` or an `append` -/
def RState.at (st : RState) (name : Str) : List Interval :=
  match st.data.get name with
  | some l => l
  | none => []

/-- `data[name][-1][1] = index`; `none` is `IndexError` -/
def closeLast (t : Nat) : List Interval → Option (List Interval)
  | [] => none
  | [iv] => some [{ iv with stop := t }]
  | iv :: ivs => (closeLast t ivs).map fun r => iv :: r

/-- lines 74-77 -/
def closePrev (r : SwitchRow) (st : RState) : Option RState :=
  match st.pmap.lookup r.prevPid with
  | none => some st
  | some name =>
    match closeLast r.time (st.at name) with
    | none => none
    | some l => some { st with data := st.data.set name l, pmap := st.pmap.filter fun e => e.1 != r.prevPid }

/-- lines 79-89; `del data[name][-1]` raises `IndexError` for an empty list -/
def dropStale (r : SwitchRow) (st : RState) : Option RState :=
  match st.pmap.lookup r.nextPid with
  | none => some st
  | some _ =>
    match st.at (procName r.nextComm r.nextPid) with
    | [] => none
    | iv :: ivs => some { st with data := st.data.set (procName r.nextComm r.nextPid) (iv :: ivs).dropLast,
                                  pmap := st.pmap.filter fun e => e.1 != r.nextPid }

/-- The conditions of lines 91-96; an empty list stands for no restriction (`None` or `[]`). -/
def tracked (execnames : List Str) (pids : List Nat) (r : SwitchRow) : Bool :=
  r.nextPid != 0 && !Py.startsWith r.nextComm cs!"migration" &&
  (execnames.isEmpty || decide (r.nextComm ∈ execnames)) && (pids.isEmpty || decide (r.nextPid ∈ pids))

/-- lines 91-99 -/
def openNext (execnames : List Str) (pids : List Nat) (endIdx : Nat) (r : SwitchRow) (st : RState) : RState :=
  if tracked execnames pids r then
    let name := procName r.nextComm r.nextPid
    { data := st.data.set name (st.at name ++ [⟨r.time, endIdx, r.cpu⟩]),
      pmap := (r.nextPid, name) :: st.pmap.filter fun e => e.1 != r.nextPid,
      procs := if name ∈ st.procs then st.procs else st.procs ++ [name] }
  else st

/-- one iteration of the loop (Utils.py:69-99) -/
def switchStep (execnames : List Str) (pids : List Nat) (endIdx : Nat) (st : RState) (r : SwitchRow) : Option RState :=
  match closePrev r st with
  | none => none
  | some st1 => match dropStale r st1 with
    | none => none
    | some st2 => some (openNext execnames pids endIdx r st2)

/-- the loop -/
def switchLoop (execnames : List Str) (pids : List Nat) (endIdx : Nat) : RState → List SwitchRow → Option RState
  | st, [] => some st
  | st, r :: rs => match switchStep execnames pids endIdx st r with
    | none => none
    | some st' => switchLoop execnames pids endIdx st' rs

/-- result of `get_trace_event_data` -/
structure Residency where
  data : Dict (List Interval)
  procs : List Str
  first : Nat
  last : Nat
deriving DecidableEq, Repr

/-- `get_trace_event_data` (Utils.py:46-101); `none` is `IndexError` -/
def residency (execnames : List Str) (pids : List Nat) (rows : List SwitchRow) : Option Residency :=
  match rows with
  | [] => none
  | r :: rs =>
    let endIdx := ((r :: rs).getLast (by simp)).time
    match switchLoop execnames pids endIdx ⟨[], [], []⟩ (r :: rs) with
    | none => none
    | some st => some ⟨st.data, st.procs, r.time, endIdx⟩

/-! ## `EventPlot` -/

/-- `[event_start, event_end, lane]` -/
structure LaneEvent where
  start : Rat
  stop : Rat
  lane : Val
deriving DecidableEq

/-- lines 190-192: `lane_map[lane] = idx`, later duplicates win -/
def laneMap : Nat → List Val → Val → Option Nat
  | _, [], _ => none
  | i, l :: ls, v => match laneMap (i + 1) ls v with
    | some j => some j
    | none => if l = v then some i else none

/-- lines 194-201: every event is moved to the index of its lane; `none` is `RuntimeError` -/
def moveEvents (lanes : List Val) : List LaneEvent → Option (List LaneEvent)
  | [] => some []
  | e :: es => match laneMap 0 lanes e.lane with
    | none => none
    | some i => (moveEvents lanes es).map fun r => { e with lane := .int i } :: r

/-- lines 194-201 over all names -/
def moveAll (lanes : List Val) : Dict (List LaneEvent) → Option (Dict (List LaneEvent))
  | [] => some []
  | (name, es) :: d => match moveEvents lanes es with
    | none => none
    | some es' => (moveAll lanes d).map fun r => (name, es') :: r

/-- label of a lane: what was given, or the prefix and the number -/
inductive LaneLabel where
  | given (lane : Val)
  | numbered (pre : Str) (i : Nat)
deriving DecidableEq

/-- `_get_lanes` (EventPlot.py:183-217): the labels in the order of their `id`s, and the data with the lanes replaced; `none` is `RuntimeError`. `lanes = []` stands also for `None`. -/
def getLanes (lanes : List Val) (pre : Str) (num : Nat) (data : Dict (List LaneEvent)) : Option (List LaneLabel × Dict (List LaneEvent)) :=
  match lanes with
  | l :: ls => (moveAll (l :: ls) data).map fun d => ((l :: ls).map .given, d)
  | [] => if num = 0 then none else some ((List.range num).map (.numbered pre), data)

/-- `lane_data[key][tsinfo[2]].append(tsinfo[:2])` -/
def laneAppend (lane : Val) (x : Rat × Rat) : List (Val × List (Rat × Rat)) → List (Val × List (Rat × Rat))
  | [] => [(lane, [x])]
  | (l, xs) :: r => if l = lane then (l, xs ++ [x]) :: r else (l, xs) :: laneAppend lane x r

/-- the loop over the events of a name (EventPlot.py:151-152) -/
def groupLanes : List (Val × List (Rat × Rat)) → List LaneEvent → List (Val × List (Rat × Rat))
  | acc, [] => acc
  | acc, e :: es => groupLanes (laneAppend e.lane (e.start, e.stop) acc) es

/-- `_group_data_by_lanes` (EventPlot.py:150-161) -/
def groupByLanes (data : Dict (List LaneEvent)) : Dict (List (Val × List (Rat × Rat))) := data.map fun (k, es) => (k, groupLanes [] es)

/-- `avgFunc` (EventPlot.py:120) -/
def avgDuration (es : List LaneEvent) : Rat := (es.map fun e => e.stop - e.start).sum / ((es.length : Rat) + 1)

/-- `avg[x]` -/
def avgOf (data : Dict (List LaneEvent)) (k : Str) : Rat :=
  match data.get k with
  | some es => avgDuration es
  | none => 0

/-- lines 121-127: the keys with a non-zero average, longest first; `sorted` is stable, also with `reverse=True` -/
def plotKeys (data : Dict (List LaneEvent)) : List Str :=
  sortBy (fun a b => decide (avgOf data b < avgOf data a)) ((data.map Prod.fst).filter fun k => avgOf data k ≠ 0)

/-- the part of `__init__` (EventPlot.py:116-133) that prepares the graph: labels, keys, data -/
def eventPlot (lanes : List Val) (pre : Str) (num : Nat) (data : Dict (List LaneEvent)) :
    Option (List LaneLabel × List Str × Dict (List (Val × List (Rat × Rat)))) :=
  match getLanes lanes pre num data with
  | none => none
  | some (labels, d) => some (labels, plotKeys data, groupByLanes d)

end Trappy
