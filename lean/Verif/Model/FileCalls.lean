import Verif.Model.Callbacks
import Verif.Model.PlotTrace
/-!
# `apply_callbacks` of a trace that is read from a file

Models `/repo/trappy/ftrace.py` lines 571-618 on the tables that the constructor `buildTrace` makes of the lines of a file.

Simplifications: a row has the cells of its line; for a column that only other lines of the event have, the callback gets NaN as well.
-/

namespace Trappy
open F64 Py

/-- Why there are no calls. -/
inductive CallsErr where
  /-- the trace cannot be read -/
  | trace
  /-- `AttributeError`: the trace has no such event (ftrace.py:588) -/
  | noEvent
  /-- `KeyError`: no line number (ftrace.py:603) -/
  | noLine
deriving DecidableEq, Repr

/-- A value that a callback gets: the time of the row, or a cell -/
inductive CallVal where
  | time (t : Nat)
  | cell (v : Val)
deriving DecidableEq, Repr

/-- `itertuples`, with the line number of each row (ftrace.py:590, 602-604) -/
def lineRows : Table (Dict Val) → Option (List (Nat × Nat × Dict Val))
  | [] => some []
  | r :: t =>
    match natCell (r.2.get cs!"__line"), lineRows t with
    | some k, some rs => some ((k, r.1, r.2) :: rs)
    | _, _ => none

/-- `{event: getattr(self, event).data_frame for event in fn_map.keys()}` and the rows of these tables (ftrace.py:588-591) -/
def callTables (tables : Dict (Table (Dict Val))) : List Str → Except CallsErr (List (Str × List (Nat × Nat × Dict Val)))
  | [] => .ok []
  | n :: ns =>
    match tables.get n with
    | none => .error .noEvent
    | some t =>
      match callTables tables ns with
      | .error e => .error e
      | .ok ts =>
        match lineRows t with
        | none => .error .noLine
        | some rs => .ok ((n, rs) :: ts)

/-- the dictionary of a row (ftrace.py:596-600, 610-612): of columns with the same name the last one counts -/
def callDict (t : Nat) (cells : Dict Val) : Dict CallVal :=
  cells.foldl (fun d x => d.set x.1 (.cell x.2)) [(cs!"Index", .time t)]

/-- the calls of `apply_callbacks` (ftrace.py:571-618) for the callbacks with the names `fns`: name and dictionary -/
def fileCallbacks (fuel : Nat) (ps : List ParserClass) (u : UserParams) (lines : List Str) (fns : List Str) : Except CallsErr (List (Str × Dict CallVal)) :=
  match buildTrace fuel ps u lines with
  | .object o =>
    match callTables (namedTables ps o.tables) fns with
    | .ok ts => .ok ((applyCallbacks ts).map fun c => (c.1, callDict c.2.2.1 c.2.2.2))
    | .error e => .error e
  | _ => .error .trace

end Trappy
