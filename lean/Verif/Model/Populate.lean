import Verif.Model.Line
import Verif.Model.Float64
/-!
# Reading the body of a trace

Models `/repo/trappy/ftrace.py` lines 379-477 (`__get_trace_class`, `__populate_data`, `trace_hasnt_started`,
`trace_hasnt_finished`) and the `append_data` of `/repo/trappy/base.py` lines 166-192.

Simplifications: the parser classes are represented by their position in `cls_for_unique_word` (a dictionary
keyed by unique word, in insertion order); a table is the list of appended tuples; window bookkeeping
(`max_window`, ftrace.py:433) is modelled separately in `Verif.Model.Window`.
-/

namespace Trappy
open Re

/-- A parser class as far as dispatching is concerned (base.py:116-118, ftrace.py:483-496). -/
structure Cls where
  /-- `unique_word` -/
  word : Str
  /-- `fallback` (base.py:117) -/
  fallback : Bool
deriving DecidableEq, Repr

/-- The loop of `__get_trace_class` (ftrace.py:379-386): `acc` is the current `trace_class`. -/
def getTraceClassAux (line : Str) : List Cls → Nat → Option Nat → Option Nat
  | [], _, acc => acc
  | c :: cs, i, acc =>
    if Py.contains c.word line then
      if !c.fallback then some i else getTraceClassAux line cs (i + 1) (some i)
    else getTraceClassAux line cs (i + 1) acc

/-- `__get_trace_class` (ftrace.py:379-386): position of the class that gets the line. -/
def getTraceClass (line : Str) (cls : List Cls) : Option Nat := getTraceClassAux line cls 0 none

/-- One `append_data` call (base.py:187-192). -/
structure Rec where
  time : Nat
  comm : Str
  pid : Nat
  cpu : Nat
  line : Nat
  data : Str
deriving DecidableEq, Repr

/-- `[A-Za-z0-9_]+=\{\} ` (ftrace.py:440). -/
def emptyArrayRe : Re := cat [plus Py.isWord, str cs!"={} "]

/-- `re.sub(emptyArrayRe, "", s)` (ftrace.py:440): leftmost non-overlapping matches are dropped.  The pattern never
matches the empty string.  `fuel` bounds the number of steps by the length of the text. -/
def subEmptyArrays : Nat → Str → Str
  | 0, s => s
  | _, [] => []
  | n + 1, c :: s =>
    match matchPrefix emptyArrayRe (c :: s) with
    | some (_, rest) => subEmptyArrays n rest
    | none => c :: subEmptyArrays n s

/-- ftrace.py:436-440: the data text handed to `append_data`. -/
def cleanData (data : Str) : Str :=
  if Py.contains cs!"={}" data then subEmptyArrays (data.length + 1) data else data

/-- `float(fields_match.group('timestamp'))` for a text `digits[.digits]` (ftrace.py:410). -/
def floatOfText (ts : Str) : Nat :=
  match Py.split1 '.' ts with
  | none => F64.ofRat (Py.natVal ts) 1
  | some (a, b) => F64.ofRat (Py.natVal (a ++ b)) (10 ^ b.length)

/-- ftrace.py:410-412: seconds, or nanoseconds when there is no fractional part. -/
def tsValue (f : Fields) : Nat :=
  let t := floatOfText f.ts
  match f.us with
  | none => F64.divE9 t
  | some _ => t

/-- The variables of `__populate_data` and the tables being filled. -/
structure PState where
  /-- `timestamp`, a local variable starting at 0 (ftrace.py:395) -/
  timestamp : Nat
  /-- `self.basetime` -/
  basetime : Nat
  /-- `self.lines` -/
  lines : Nat
  /-- arrays of each parser class, by position -/
  tables : Nat → List Rec

/-- ftrace.py:417-428: the unique timestamp given to an event. -/
def nextTimestamp (prev t : Nat) : Nat := if prev < t then t else F64.nextafter prev

/-- One iteration of the loop of `__populate_data` (ftrace.py:396-444). -/
def populateStep (cls : List Cls) (s : PState) (line : Str) : PState :=
  let tc := getTraceClass line cls
  match parseLine (Py.rstrip line) with
  | none => { s with lines := s.lines + 1 }
  | some f =>
    let ts := nextTimestamp s.timestamp (tsValue f)
    let base := if s.basetime = 0 then ts else s.basetime
    let tables := match tc with
      | none => s.tables
      | some i => fun j =>
        if j = i then
          s.tables j ++ [{ time := ts, comm := f.comm, pid := f.pid, cpu := f.cpu, line := s.lines, data := cleanData f.data }]
        else s.tables j
    { timestamp := ts, basetime := base, lines := s.lines + 1, tables := tables }

/-- What a parse leaves behind: `basetime`, `endtime` (ftrace.py:446) and the arrays. -/
structure Parsed where
  basetime : Nat
  endtime : Nat
  tables : Nat → List Rec

/-- The loop of `__populate_data` over the lines of the trace body, starting with `self.basetime = base0`
(0, or the value loaded from the cache). -/
def populateBody (cls : List Cls) (base0 : Nat) (body : List Str) : Parsed :=
  let s := body.foldl (populateStep cls) { timestamp := 0, basetime := base0, lines := 0, tables := fun _ => [] }
  { basetime := s.basetime, endtime := s.timestamp, tables := s.tables }

/-- `trace_hasnt_started()` of `GenericFTrace` (ftrace.py:448-460). -/
def hasntStarted (line : Str) : Bool := (matchPrefix specialFieldsRe line).isNone

/-- `itertools.dropwhile`/`takewhile` of ftrace.py:391-393 with the predicates of `GenericFTrace`. -/
def ftraceBody (lines : List Str) : List Str := lines.dropWhile hasntStarted

/-- `__populate_data` of an FTrace (ftrace.py:388-446). -/
def populate (cls : List Cls) (base0 : Nat) (lines : List Str) : Parsed :=
  populateBody cls base0 (ftraceBody lines)

end Trappy
