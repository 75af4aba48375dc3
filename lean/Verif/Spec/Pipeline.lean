import Verif.Spec.Data
import Verif.Spec.Float64
import Verif.Spec.Populate
import Verif.Model.Pipeline
import Verif.Prop.Line
/-!
# Specification of a printed trace and of the tables it stands for
-/

namespace Trappy
open F64

/-- An array in a payload, the text behind it and the fields the text stands for. -/
structure Seg where
  arr : Arr
  text : Str
  fields : List Field

/-- An event together with the numbers and values its printed line stands for. -/
structure TraceEvent where
  line : PrintedLine
  pid : Nat
  cpu : Nat
  /-- the instant, as a binary64 number of seconds -/
  time : Nat
  /-- the fields of the payload, up to the first array -/
  fields : List Field
  /-- the values of the fields and of the elements of the arrays -/
  value : Field → Val
  /-- the text up to the first array, and the arrays -/
  lead : Str := []
  segs : List Seg := []
  /-- the blanks at the end of the line, usually the newline -/
  trail : Str

namespace TraceEvent

/-- the text in the file -/
def text (e : TraceEvent) : Str := e.line.text ++ e.trail

/-- What the printed timestamp stands for: seconds with a fraction, rounded to binary64, or nanoseconds. -/
def Stamp (l : PrintedLine) (t : Nat) : Prop :=
  match l.frac with
  | some F => ∃ s n : Nat, IsDecimal l.secs s ∧ IsDecimal F n ∧ (s : ℚ) + n / 10 ^ F.length ≤ val (inf - 1) ∧
      NearestEven (s + n / 10 ^ F.length) t
  | none => ∃ n x : Nat, IsDecimal l.secs n ∧ (n : ℚ) ≤ val (inf - 1) ∧ NearestEven n x ∧ NearestEven (val x / 10 ^ 9) t

/-- The header of the line is well-formed and stands for the numbers of the event. -/
structure Head (e : TraceEvent) : Prop where
  line : e.line.WF
  pid : IsDecimal e.line.pid e.pid
  cpu : IsDecimal e.line.cpu e.cpu
  time : Stamp e.line e.time
  trail : AllC Py.isSpace e.trail
  /-- the payload does not end in a blank, does not quote a header and does not begin with another `name: ` -/
  last : ∀ c ∈ e.line.data.getLast?, Py.isSpace c = false
  bracket : ¬ e.line.Quotes
  plain : ¬ PrintedLine.LooksLikeEvent e.line.data

/-- The fields `fs` can be printed in one payload: different keys, none of them a column of the header, with the values of the event. -/
structure Cells (e : TraceEvent) (fs : List Field) : Prop where
  fields : ∀ f ∈ fs, f.WF
  keys : (fs.map Field.key).Nodup
  header : ∀ f ∈ fs, f.key ∉ [cs!"__comm", cs!"__pid", cs!"__cpu", cs!"__line"]
  value : ∀ f ∈ fs, f.Means (e.value f)

/-- Payloads without arrays: fields `key=value`. -/
structure WF (e : TraceEvent) : Prop extends e.Cells e.fields where
  data : Spaced (e.fields.flatMap Field.words) e.line.data
  /-- no braces in the payload -/
  brace : ∀ c ∈ e.line.data, c ≠ '{' ∧ c ≠ '}'

/-- The row with the fields `fs` of the event as line `k` with time `t`: the columns of the header, then those of the payload. -/
def rowOf (e : TraceEvent) (fs : List Field) (k t : Nat) : TRow :=
  { time := t
    cells := [(cs!"__comm", .str e.line.comm), (cs!"__pid", .int e.pid), (cs!"__cpu", .int e.cpu), (cs!"__line", .int k)] ++
      fs.map fun f => (f.key, e.value f) }

/-! ### Arrays -/

/-- The elements of an array as fields `name0`, `name1`, …, with zeros up to the length `len`. -/
def elemFields (a : Arr) (len : Nat) : List Field :=
  (a.vals ++ List.replicate (len - a.vals.length) cs!"0").zipIdx.map fun x => ⟨a.name ++ Nat.toDigits 10 x.2, x.1, []⟩

/-- The fields of an event when the arrays called `n` have `M n` elements. -/
def allFields (e : TraceEvent) (M : Str → Nat) : List Field :=
  e.fields ++ e.segs.flatMap fun s => elemFields s.arr (M s.arr.name) ++ s.fields

/-- the payload as text and arrays -/
def payload (e : TraceEvent) : ArrPayload := { lead := e.lead, tail := e.segs.map fun s => (s.arr, s.text) }

/-- Payloads with arrays: fields, then arrays `name={v0 v1 …}` each followed by fields. -/
structure ArrWF (e : TraceEvent) : Prop where
  payload : e.payload.WF
  data : e.payload.textWith Arr.text = e.line.data
  lead : Spaced (e.fields.flatMap Field.words) e.lead
  segs : ∀ s ∈ e.segs, Spaced (s.fields.flatMap Field.words) s.text
  /-- a blank follows each array -/
  blank : ∀ s ∈ e.segs, s.text = [] ∨ s.text.head? = some ' '
  names : ∀ s ∈ e.segs, ∀ c ∈ s.arr.name, Py.isWord c = true
  vals : ∀ s ∈ e.segs, ∀ v ∈ s.arr.vals, ∀ c ∈ v, Py.isSpace c = false
  /-- no empty arrays -/
  full : ¬ cs!"={}" <:+: e.line.data

end TraceEvent

/-- A line of a trace: an event or something else, such as a message about lost events. -/
inductive TraceItem where
  | event (e : TraceEvent)
  | other (l : Str)

namespace TraceItem

/-- the line in the file -/
def text : TraceItem → Str
  | .event e => e.text
  | .other l => l

/-- the times of the events -/
def times : List TraceItem → List Nat
  | [] => []
  | .event e :: is => e.time :: times is
  | .other _ :: is => times is

/-- the lines of an event -/
def eventsOf (event : Str) : List TraceItem → List TraceEvent
  | [] => []
  | .event e :: is => if e.line.event = event then e :: eventsOf event is else eventsOf event is
  | .other _ :: is => eventsOf event is

/-- The table of an event: one row for each of its lines, in the order of the file. `k` is the number of the first line,
`ts` are the times given to the events and `fs` the fields of an event. -/
def table (fs : TraceEvent → List Field) (event : Str) : Nat → List TraceItem → List Nat → List TRow
  | k, .other _ :: is, ts => table fs event (k + 1) is ts
  | k, .event e :: is, t :: ts =>
    if e.line.event = event then e.rowOf (fs e) k t :: table fs event (k + 1) is ts else table fs event (k + 1) is ts
  | _, _, _ => []

end TraceItem
end Trappy
