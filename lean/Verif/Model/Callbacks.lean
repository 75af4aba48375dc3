import Verif.Model.Data
/-!
# Callbacks in the order of the trace

Models `apply_callbacks` (`/repo/trappy/ftrace.py` lines 571-618).

Simplifications: a row is its line number and the rest of its cells; the dictionary of iterators and the list of events
are one list. A callback is recorded instead of called.
-/

namespace Trappy

/-- An event with rows left: its name, the next row and the rows after it (`next_rows` and `iters`). -/
structure CbIter (β : Type) where
  name : Str
  next : Nat × β
  rest : List (Nat × β)
deriving DecidableEq

/-- `events`, `iters`, `next_rows` (ftrace.py:588-591): the tables that are not empty -/
def cbStart {β : Type} : List (Str × List (Nat × β)) → List (CbIter β)
  | [] => []
  | (_, []) :: ts => cbStart ts
  | (n, r :: rs) :: ts => ⟨n, r, rs⟩ :: cbStart ts

/-- `min(events, key=getLine)` (ftrace.py:607): the first one with the least line -/
def cbMin {β : Type} : CbIter β → List (CbIter β) → CbIter β
  | best, [] => best
  | best, e :: es => if e.next.1 < best.next.1 then cbMin e es else cbMin best es

/-- advancing the iterator of one event, or `events.remove` (ftrace.py:614-618) -/
def cbAdvance {β : Type} (name : Str) : List (CbIter β) → List (CbIter β)
  | [] => []
  | e :: es =>
    if e.name = name then
      match e.rest with
      | [] => es
      | r :: rs => ⟨e.name, r, rs⟩ :: es
    else e :: cbAdvance name es

/-- the loop (ftrace.py:606-618), at most `fuel` turns -/
def cbLoop {β : Type} : Nat → List (CbIter β) → List (Str × Nat × β)
  | 0, _ => []
  | _ + 1, [] => []
  | fuel + 1, e :: es =>
    let b := cbMin e es
    (b.name, b.next) :: cbLoop fuel (cbAdvance b.name (e :: es))

/-- the calls made by `apply_callbacks` for the tables of the selected events -/
def applyCallbacks {β : Type} (tables : List (Str × List (Nat × β))) : List (Str × Nat × β) :=
  cbLoop ((tables.map fun t => t.2.length).sum) (cbStart tables)

/-- `{name: idx for idx, name in enumerate(['Index'] + columns)}` (ftrace.py:596-600) -/
def colIdxs (cols : List Str) : Dict Nat :=
  ((cs!"Index" :: cols).zipIdx).foldl (fun d x => d.set x.1 x.2) []

/-- `{col: event_tuple[idx] for col, idx in col_idxs.items()}` (ftrace.py:610-612) -/
def eventDict {α : Type} (cols : List Str) (tuple : List α) : List (Str × Option α) :=
  (colIdxs cols).map fun x => (x.1, tuple[x.2]?)

end Trappy
