import Verif.Model.Populate
/-!
# Specification of reading a trace body

Declarative description, without state: which lines are events, where they go, and which times they get.
-/

namespace Trappy

/-- An event line: its position in the body, the parser that should get it (if any) and its header fields. -/
structure Ev where
  line : Nat
  dest : Option Nat
  fields : Fields

/-- The event lines of a body whose first line has number `n`. -/
def eventsFrom (dest : Str → Option Nat) : Nat → List Str → List Ev
  | _, [] => []
  | n, l :: ls =>
    match parseLine (Py.rstrip l) with
    | none => eventsFrom dest (n + 1) ls
    | some f => { line := n, dest := dest l, fields := f } :: eventsFrom dest (n + 1) ls

/-- `MinimalTimes prev ts out`: `out` gives every event the least number that is above the previous time and not
below its own timestamp. -/
def MinimalTimes : Nat → List Nat → List Nat → Prop
  | _, [], [] => True
  | prev, t :: ts, o :: out =>
    (prev < o ∧ t ≤ o ∧ ∀ x, prev < x → t ≤ x → o ≤ x) ∧ MinimalTimes o ts out
  | _, _, _ => False

/-- The row an event contributes when it is given time `t`. -/
def Ev.row (e : Ev) (t : Nat) : Rec :=
  { time := t, comm := e.fields.comm, pid := e.fields.pid, cpu := e.fields.cpu, line := e.line,
    data := cleanData e.fields.data }

/-- The rows of the events that go to parser `i`. -/
def rowsFor (i : Nat) : List Ev → List Nat → List Rec
  | e :: es, t :: ts => if e.dest = some i then e.row t :: rowsFor i es ts else rowsFor i es ts
  | _, _ => []

end Trappy
