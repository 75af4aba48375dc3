import Verif.Prop.Pipeline
import Verif.Model.Whole
import Verif.Prop.Events
import Verif.Prop.Window
/-!
# Specification of a whole trace: payloads of all built-in events, columns as shown, windows
-/

namespace Trappy
open F64 Py

/-- `Reads name data cells`: the payload `data` of the event class `name`, as the kernel prints it, stands for the columns `cells`. -/
inductive Reads (name : Str) : Str → List (Str × Val) → Prop where
  /-- fields `key=value` -/
  | fields (fs : List Field) (val : Field → Val) (data : Str) (hname : name ∉ ownParsing) (wf : ∀ f ∈ fs, f.WF)
      (keys : (fs.map Field.key).Nodup) (means : ∀ f ∈ fs, f.Means (val f)) (text : Spaced (fs.flatMap Field.words) data) :
      Reads name data (fs.map fun f => (f.key, val f))
  /-- `sched_switch`: fields, an arrow, fields -/
  | switch (fs gs : List Field) (val : Field → Val) (hname : name = cs!"sched_switch") (hfs : fs ≠ []) (hgs : gs ≠ [])
      (wf : ∀ f ∈ fs ++ gs, f.WF) (hne : ∀ f ∈ fs ++ gs, f.key ≠ []) (keys : ((fs ++ gs).map Field.key).Nodup)
      (means : ∀ f ∈ fs ++ gs, f.Means (val f)) :
      Reads name (joinC ' ' (fs.flatMap Field.words) ++ (cs!" ==> " ++ joinC ' ' (gs.flatMap Field.words)))
        ((fs ++ gs).map fun f => (f.key, val f))
  /-- `sys_enter`: the number of the call and six arguments -/
  | enter (nr : Nat) (a0 a1 a2 a3 a4 a5 : Int) (lead trail : Str) (hname : name = cs!"sys_enter") (hl : 'N' ∉ lead) :
      Reads name (lead ++ (sysEnterText (intDigits 10 nr) a0 a1 a2 a3 a4 a5 ++ trail))
        [(cs!"nr", .int nr), (cs!"arg0", .int a0), (cs!"arg1", .int a1), (cs!"arg2", .int a2), (cs!"arg3", .int a3),
          (cs!"arg4", .int a4), (cs!"arg5", .int a5)]
  /-- `sys_exit`: the number of the call and the result -/
  | exit (nr ret : Int) (lead trail : Str) (hname : name = cs!"sys_exit") (hl : 'N' ∉ lead)
      (ht : ∀ c ∈ trail.head?, isDigit c = false) :
      Reads name (lead ++ (sysExitText nr ret ++ trail)) [(cs!"nr", .int nr), (cs!"ret", .int ret)]
  /-- a marker: any text -/
  | marker (data : Str) (hname : name = cs!"tracing_mark_write") : Reads name data [(cs!"string", .str data)]
  /-- clocks: a name, then fields -/
  | clock (clk : Str) (fs : List Field) (val : Field → Val) (data : Str)
      (hname : name ∈ [cs!"clock_enable", cs!"clock_disable", cs!"clock_set_rate"]) (hclk : ' ' ∉ clk)
      (wf : ∀ f ∈ fs, f.WF) (keys : (fs.map Field.key).Nodup) (means : ∀ f ∈ fs, f.Means (val f))
      (text : Spaced (fs.flatMap Field.words) data) (hnew : cs!"clk_name" ∉ fs.map Field.key) :
      Reads name (clk ++ ' ' :: data) ((fs.map fun f => (f.key, val f)) ++ [(cs!"clk_name", .str clk)])
  /-- ext4: names and values, one blank between them -/
  | ext4 (ps : List (Str × Str)) (odd : List Str)
      (hname : name ∈ [cs!"ext4_da_write_begin", cs!"ext4_da_write_end", cs!"ext4_sync_file_enter", cs!"ext4_sync_file_exit"])
      (ho : odd.length ≤ 1) (h : ∀ p ∈ ps, ' ' ∉ p.1 ∧ ' ' ∉ p.2) (hodd : ∀ w ∈ odd, ' ' ∉ w) :
      Reads name (joinC ' ' ((ps.flatMap fun p => [p.1, p.2]) ++ odd)) (ps.map fun p => (p.1, .str p.2))
  /-- f2fs: `name = value, name = value` -/
  | f2fs (fs : List Field) (val : Field → Val)
      (hname : name ∈ [cs!"f2fs_write_begin", cs!"f2fs_write_end", cs!"f2fs_sync_file_enter"]) (h : ∀ f ∈ fs, F2fsField f)
      (keys : (fs.map Field.key).Nodup) (means : ∀ f ∈ fs, f.Means (val f)) :
      Reads name (f2fsText (f2fsPairs fs)) (fs.map fun f => (f.key, val f))
  /-- `f2fs_sync_file_exit`: the same with `checkpoint is value` -/
  | f2fsExit (pre post : List Field) (f : Field) (val : Field → Val) (hname : name = cs!"f2fs_sync_file_exit")
      (hc : f.key = cs!"checkpoint") (h : ∀ g ∈ pre ++ f :: post, F2fsField g) (keys : ((pre ++ f :: post).map Field.key).Nodup)
      (means : ∀ g ∈ pre ++ f :: post, g.Means (val g)) (h1 : ¬ cs!"checkpoint" <:+: f2fsText (f2fsPairs pre))
      (h2 : ¬ cs!"checkpoint" <:+: f.valueText ++ if post = [] then [] else cs!", " ++ f2fsText (f2fsPairs post)) :
      Reads name (f2fsExitText pre f.valueText post) ((pre ++ f :: post).map fun g => (g.key, val g))

/-- the columns of the header -/
def headerColumns : List Str := [cs!"__comm", cs!"__pid", cs!"__cpu", cs!"__line"]

namespace TraceEvent

/-- The payload is read as `cells`, has no braces, and no column appears twice. -/
structure PlainRead (e : TraceEvent) (name : Str) (cells : List (Str × Val)) : Prop where
  reads : Reads name e.line.data cells
  brace : ∀ c ∈ e.line.data, c ≠ '{' ∧ c ≠ '}'
  keys : (cells.map Prod.fst).Nodup
  header : ∀ x ∈ cells, x.1 ∉ headerColumns

/-- The row with the columns `cells` of the event as line `k` with time `t`. -/
def rowWith (e : TraceEvent) (cells : List (Str × Val)) (k t : Nat) : TRow :=
  { time := t
    cells := [(cs!"__comm", .str e.line.comm), (cs!"__pid", .int e.pid), (cs!"__cpu", .int e.cpu), (cs!"__line", .int k)] ++ cells }

end TraceEvent

/-- How the lines `evs` of a class stand for columns: all payloads without braces, or fields with arrays, where all arrays of one name
get as many columns as the longest one has elements. -/
inductive ClassReads (fuel : Nat) (name : Str) (evs : List TraceEvent) (cells : TraceEvent → List (Str × Val)) : Prop where
  | plain (h : ∀ e ∈ evs, e.PlainRead name (cells e))
  | arrays (hname : name ∉ ownParsing) (M : Str → Nat) (hM : MaxLens (evs.map TraceEvent.payload) M)
      (hfirst : ∀ e ∈ evs.head?, e.segs ≠ [])
      (h : ∀ e ∈ evs, e.ArrWF ∧ e.Cells (e.allFields M) ∧ e.segs.length < fuel ∧
        cells e = (e.allFields M).map fun f => (f.key, e.value f))

namespace TraceItem

/-- One row for each line of an event, in the order of the file, as `TraceItem.table` but for any columns. -/
def tableWith (cells : TraceEvent → List (Str × Val)) (event : Str) : Nat → List TraceItem → List Nat → List TRow
  | k, .other _ :: is, ts => tableWith cells event (k + 1) is ts
  | k, .event e :: is, t :: ts =>
    if e.line.event = event then e.rowWith (cells e) k t :: tableWith cells event (k + 1) is ts
    else tableWith cells event (k + 1) is ts
  | _, _, _ => []

end TraceItem

/-- The name a column is shown under. -/
def shownColumn (name col : Str) : Str :=
  if name = cs!"cpu_frequency" then
    if col = cs!"cpu_id" then cs!"cpu" else if col = cs!"state" then cs!"frequency" else col
  else if name = cs!"cpu_capacity" then
    if col = cs!"cpu_id" then cs!"cpu" else if col = cs!"state" then cs!"capacity" else col
  else if name = cs!"clock_set_rate" then
    if col = cs!"state" then cs!"rate" else col
  else if name ∈ [cs!"ext4_da_write_begin", cs!"ext4_da_write_end", cs!"ext4_sync_file_enter", cs!"ext4_sync_file_exit",
      cs!"f2fs_write_begin", cs!"f2fs_write_end", cs!"f2fs_sync_file_enter", cs!"f2fs_sync_file_exit"] then
    if col = cs!"ino" then cs!"inode" else col
  else col

/-- The value shown for a cell: idle states are signed, masks of CPUs have eight characters or more. -/
def shownValue (name col : Str) (v : Val) : Val :=
  if name = cs!"cpu_idle" ∧ v = .int (2 ^ 32 - 1) then .int (-1)
  else if name = cs!"sched_load_avg_sg" ∧ col = cs!"cpus" then .str (List.replicate (8 - v.text.length) '0' ++ v.text)
  else v

/-- a row as it is shown -/
def shownCells (name : Str) (cells : Dict Val) : Dict Val := cells.map fun x => (shownColumn name x.1, shownValue name x.1 x.2)

/-- For the table with padded masks: all lines have a mask, or none. -/
def EvenMasks (name : Str) (evs : List TraceEvent) (cells : TraceEvent → List (Str × Val)) : Prop :=
  name = cs!"sched_load_avg_sg" →
    (∀ e ∈ evs, cs!"cpus" ∈ (cells e).map Prod.fst) ∨ (∀ e ∈ evs, cs!"cpus" ∉ (cells e).map Prod.fst)

/-- the first of the times, 0 if there are none -/
def firstTime : List Nat → Nat
  | [] => 0
  | t :: _ => t

/-- the last of the times, 0 if there are none -/
def finalTime (ts : List Nat) : Nat := (ts.getLast?).getD 0

/-- The rows the user asks for, `base` is the time of the first event: from the later of the two starts to the later of the two ends,
both included; the bounds of `window` count from `base`. -/
def asked (u : UserParams) (base : Nat) (t : Table (Dict Val)) : Table (Dict Val) :=
  within (max (add u.window.lo base) u.absWindow.lo)
    (match u.window.hi, u.absWindow.hi with
      | none, none => none
      | some a, none => some (add a base)
      | none, some b => some b
      | some a, some b => some (max (add a base) b)) t

end Trappy
