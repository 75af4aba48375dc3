import Verif.Model.Populate
import Verif.Model.Data
/-!
# Trace path, trace header, systrace body and markers

Models `/repo/trappy/ftrace.py` lines 838-879 (`__process_path`), 930-962 (`__get_trace_metadata`,
`__populate_trace_metadata`), `/repo/trappy/systrace.py` lines 23-102 and `/repo/trappy/fallback.py` lines 28-50.

Simplifications: file names are POSIX paths; a file is the list of its lines as iterating over it yields them
(each but possibly the last ends in a newline).
-/

namespace Trappy
open Re Py

/-- `s.rsplit(c, 1)`: the text before and after the last `c`, if there is one. -/
def Py.rsplit1 (c : Char) (s : Str) : Option (Str × Str) :=
  (Py.split1 c s.reverse).map fun p => (p.2.reverse, p.1.reverse)

/-- `os.path.splitext` (used at ftrace.py:842; CPython `genericpath._splitext`): the extension starts at the last dot
of the last component, unless only dots precede it. -/
def Py.splitext (p : Str) : Str × Str :=
  let dn := match Py.rsplit1 '/' p with
    | none => ([], p)
    | some (a, b) => (a ++ ['/'], b)
  match Py.rsplit1 '.' dn.2 with
  | none => (p, [])
  | some (b, e) => if b.any (· != '.') then (dn.1 ++ b, '.' :: e) else (p, [])

/-- `os.path.join(a, b)` for a relative `b` (used at ftrace.py:844). -/
def Py.pathJoin (a b : Str) : Str :=
  if a.isEmpty || Py.endsWith a ['/'] then a ++ b else a ++ '/' :: b

/-- What `__process_path` does (ftrace.py:839-874). -/
inductive PathResult where
  /-- `trace_path` and `read_from_dat` -/
  | read (path : Str) (fromDat : Bool)
  /-- `RuntimeError` -/
  | rawUnsupported
  /-- `IOError` -/
  | notFound
deriving DecidableEq

/-- `__process_path` (ftrace.py:839-874); `isFile` is `os.path.isfile`. -/
def processPath (isFile : Str → Bool) (basepath : Str) : PathResult :=
  let traceName := if isFile basepath then (Py.splitext basepath).1 else Py.pathJoin basepath cs!"trace"
  if isFile (traceName ++ cs!".dat") then .read (traceName ++ cs!".dat") true
  else if isFile (traceName ++ cs!".txt") then .read (traceName ++ cs!".txt") false
  else if isFile (traceName ++ cs!".raw.txt") then .rawUnsupported
  else .notFound

/-- `"|".join(keys)` as a pattern (ftrace.py:938). -/
def altStr : List Str → Re
  | [] => .eps
  | [k] => str k
  | k :: ks => .alt (str k) (altStr ks)

/-- `^\b(k1|k2)\b\s*=\s*([0-9]+)` (ftrace.py:938-939).  The keys consist of word characters, so the first `\b` always
holds at the start of a line that begins with a key, and the second one asks that no word character follows. -/
def metaRe (keys : List Str) : Re :=
  cat [.group 1 (altStr keys), .notNext isWord, .star isSpace, lit '=', .star isSpace, .group 2 (plus isDigit)]

/-- The loop of `__get_trace_metadata` (ftrace.py:925-949). `^` without flags: only at the start of the line. -/
def metaLoop : List Str → Dict Str → List Str → Dict Str
  | _, res, [] => res
  | keys, res, line :: rest =>
    if keys.isEmpty then res
    else
      let kr := match matchPrefix (metaRe keys) line with
        | some (c, _) =>
          match c.get 1, c.get 2 with
          | some k, some v => (keys.erase k, res.set k v)
          | _, _ => (keys, res)
        | none => (keys, res)
      if (matchPrefix specialFieldsRe line).isSome then kr.2 else metaLoop kr.1 kr.2 rest

/-- `__get_trace_metadata` (ftrace.py:925-949). -/
def traceMetadata (lines : List Str) : Dict Str := metaLoop [cs!"version", cs!"cpus"] [] lines

/-- systrace.py:42-43: does the line announce the trace? -/
def beginsTrace (line : Str) : Bool :=
  Py.startsWith line cs!"<!-- BEGIN TRACE -->" || Py.startsWith line cs!"<title>Android System Trace</title>"

/-- systrace.py:46-47: does the line open the trace data? -/
def opensData (line : Str) : Bool :=
  Py.startsWith line cs!"  <script class=\"trace-data\"" || Py.startsWith line cs!"  var linuxPerfData"

/-- `drop_before_trace` used by `itertools.dropwhile` (systrace.py:26-55, ftrace.py:391): the two flags are
`before_begin_trace` and `before_actual_trace`. -/
def sysDrop : Bool → Bool → List Str → List Str
  | _, _, [] => []
  | beforeBegin, beforeActual, line :: rest =>
    let st : Bool × Bool :=
      if beforeBegin then (!beginsTrace line, beforeActual)
      else if beforeActual then (false, !opensData line)
      else (false, false)
    if !st.2 then
      if hasntStarted line then sysDrop st.1 st.2 rest else line :: rest
    else sysDrop st.1 st.2 rest

/-- `SysTrace.trace_hasnt_finished` (systrace.py:78-87). -/
def sysNotFinished (line : Str) : Bool := !Py.endsWith line cs!"</script>\n"

/-- The lines of a systrace that are parsed (ftrace.py:391-393 with the predicates of `SysTrace`). -/
def sysBody (lines : List Str) : List Str := (sysDrop true true lines).takeWhile sysNotFinished

/-- `SYSTRACE_EVENT` (systrace.py:23-24); groups 1 `event`, 2 `pid`, 3 `func`, 4 `data`. -/
def systraceEventRe : Re :=
  .seq (.group 1 (.chr isUpper))
    (opt (cat [lit '|', .group 2 (plus isDigit), lit '|', .group 3 (.star (· != '|')),
      opt (.seq (lit '|') (.group 4 (.star notNl)))]))

/-- A cell of a marker row: `None`, an `int` or a `str`. -/
inductive MVal where
  | none
  | int (i : Int)
  | str (s : Str)
deriving DecidableEq

/-- a group that may not have taken part -/
def MVal.ofGroup : Option Str → MVal
  | .none => .none
  | .some s => .str s

/-- `SysTrace.generate_data_dict` (systrace.py:89-102). -/
def sysMarker (data : Str) : Option (Dict MVal) :=
  (matchPrefix systraceEventRe data).map fun p =>
    [(cs!"event", MVal.ofGroup (p.1.get 1)),
     (cs!"pid", match p.1.get 2 with | some s => .int (Py.natVal s) | none => .none),
     (cs!"func", MVal.ofGroup (p.1.get 3)),
     (cs!"data", MVal.ofGroup (p.1.get 4))]

/-- `FallbackEvent.generate_data_dict` (fallback.py:35-41); `tracer` is the `generate_data_dict` of the trace
(`sysMarker`, or constantly `None` in an FTrace, bare_trace.py:148-149). -/
def fallbackRow (tracer : Str → Option (Dict MVal)) (data : Str) : Dict MVal :=
  match tracer data with
  | some d => if d.isEmpty then [(cs!"string", .str data)] else d
  | none => [(cs!"string", .str data)]

end Trappy
