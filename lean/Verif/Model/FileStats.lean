import Verif.Model.Stats
import Verif.Model.PlotTrace
/-!
# Aggregated triggers of a trace that is read from a file

Models `/repo/trappy/stats/Trigger.py` lines 77-110, `/repo/trappy/stats/Indexer.py` lines 90-106 and `/repo/trappy/stats/Aggregator.py` lines 92-177 on the tables that the constructor `buildTrace` makes of the lines of a file.

Simplifications: the value of a trigger is a number (for columns see `STrigger.generate`); all triggers are of one trace; the nodes of the topology are natural numbers.
-/

namespace Trappy
open F64 Py

/-- The arguments of `Trigger` other than the trace (Trigger.py:77-83): the name of the event, filters, a number, the column of the pivot. -/
structure UserTrigger where
  event : Str
  filters : Dict SFilter
  value : Rat
  pivot : Str

/-- a cell of a table as the filters see it -/
def statCell : Val → SCell
  | .int i => .num i
  | .str s => .str s

/-- the table of an event (Trigger.py:93-94) -/
def statTable (t : Table (Dict Val)) : STable := ⟨t.flatMap fun r => r.2.map Prod.fst, t.map fun r => (r.1, r.2.map fun c => (c.1, statCell c.2))⟩

/-- the cells of a series; a number is the value of every trigger here -/
def statNumber : Option SCell → Option Rat
  | some (.num q) => some q
  | _ => none

/-- `generate` (Trigger.py:85-110) -/
def userGen (tables : Dict (Table (Dict Val))) (t : UserTrigger) : TrigGen := fun n =>
  match tables.get t.event with
  | none => .error .keyError
  | some tab => (STrigger.generate ⟨statTable tab, t.filters, .const t.value, t.pivot⟩ (.num n)).map fun s => s.map fun x => (x.1, statNumber x.2)

/-- the indices of the events of the triggers (Indexer.py:100-103); `none` is `AttributeError`: the trace has no such event -/
def eventIndices (tables : Dict (Table (Dict Val))) : List UserTrigger → Option (List (List Nat))
  | [] => some []
  | t :: ts =>
    match tables.get t.event, eventIndices tables ts with
    | some tab, some is => some (tab.map Prod.fst :: is)
    | _, _ => none

/-- Why there is no result. -/
inductive StatErr where
  /-- the trace cannot be read -/
  | trace
  /-- `AttributeError` of the constructor -/
  | noEvent
  /-- `KeyError`: the topology has no such level -/
  | noLevel
  | agg (e : SError)
deriving DecidableEq

/-- `MultiTriggerAggregator(triggers, topology, aggfunc).aggregate(level=level)` (Aggregator.py:92-158); `ord` is the order in which sets are iterated -/
def fileAggregate {γ : Type} (fuel : Nat) (ps : List ParserClass) (u : UserParams) (lines : List Str) (trigs : List UserTrigger) (ord : List Nat → List Nat) (topo : Topo) (f : TSeries → γ) (add : γ → γ → γ) (level : Str) :
    Except StatErr (List γ) :=
  match buildTrace fuel ps u lines with
  | .object o =>
    match eventIndices (namedTables ps o.tables) trigs with
    | none => .error .noEvent
    | some is =>
      match topo.getLevel ord level with
      | none => .error .noLevel
      | some groups =>
        match (AggObj.new.callWith (unifyIndex is) (topo.flatten ord) (trigs.map (userGen (namedTables ps o.tables))) f add groups).2 with
        | .error e => .error (.agg e)
        | .ok vs => .ok vs
  | _ => .error .trace

end Trappy
