import Verif.Model.Data
/-!
# Parser registry, choice of events, attribute lookup

Models `/repo/trappy/ftrace.py` lines 82-156 (`__init__`, `register_parser`, `unregister_parser`), 347-377
(`__add_events`), 479-504 (`__parse_trace_file`, the dictionary of unique words), 506-534 (`__getattr__`),
`/repo/trappy/dynamic.py` lines 65-69 (`_get_name`) and `/repo/trappy/bare_trace.py` lines 90-137
(`add_parsed_event`).

Simplifications: a parser class is an identity (Python's `==` on classes), a name and a unique word; names and words
are not changed after registration; classes created on the fly get the identity `none`.
-/

namespace Trappy

/-- A parser class: `id` is its identity (`none` for the classes `__add_events` creates for one trace), `name` and
`word` its attributes `name` and `unique_word`. -/
structure PClass where
  id : Option Nat
  name : Str
  word : Str
deriving DecidableEq, Repr

/-- `cobject.unique_word.split(":")[0]` (ftrace.py:133). -/
def defaultName : Str → Str
  | [] => []
  | c :: s => if c = ':' then [] else c :: defaultName s

/-- A class to be registered, with its `name` if it has one: the class after the registration (ftrace.py:132-133). -/
def namedClass (id : Nat) (name : Option Str) (word : Str) : PClass :=
  { id := some id, name := match name with | some n => n | none => defaultName word, word := word }

/-- The three dictionaries of `GenericFTrace` (ftrace.py:74-78). -/
structure Registry where
  thermal : Dict PClass
  sched : Dict PClass
  dynamic : Dict PClass

/-- `register_parser` (ftrace.py:120-138); `none` is the `AttributeError` for an unknown scope. -/
def Registry.register (r : Registry) (c : PClass) (scope : Str) : Option Registry :=
  if scope = cs!"all" then some { r with dynamic := r.dynamic.set c.name c }
  else if scope = cs!"thermal" then some { r with thermal := r.thermal.set c.name c }
  else if scope = cs!"sched" then some { r with sched := r.sched.set c.name c }
  else if scope = cs!"dynamic" then some { r with dynamic := r.dynamic.set c.name c }
  else none

/-- deletion of the entries that hold the class (ftrace.py:154-156) -/
def delClass (c : PClass) (d : Dict PClass) : Dict PClass := d.filter fun e => decide (e.2.id ≠ c.id)

/-- `unregister_parser` (ftrace.py:141-156). -/
def Registry.unregister (r : Registry) (c : PClass) : Registry :=
  { thermal := delClass c r.thermal, sched := delClass c r.sched, dynamic := delClass c r.dynamic }

/-- `known_events` (ftrace.py:361): the three dictionaries merged, later ones win. -/
def Registry.known (r : Registry) : Dict PClass :=
  Dict.update (Dict.update (Dict.update [] r.thermal) r.sched) r.dynamic

/-- the test of ftrace.py:365-367 -/
def matchesEvent (e : Str) (c : PClass) : Bool := e == c.word || e ++ [':'] == c.word || e == c.name

/-- The class used for a requested event (ftrace.py:363-377). -/
def eventClass (known : Dict PClass) (e : Str) : PClass :=
  match known.find? fun kc => matchesEvent e kc.2 with
  | some kc => kc.2
  | none => { id := none, name := e, word := e ++ [':'] }

/-- `__add_events` (ftrace.py:347-377), starting from empty `class_definitions`. -/
def addEvents (r : Registry) (events : List Str) : Dict PClass :=
  events.foldl (fun d e => let c := eventClass r.known e; d.set c.name c) []

/-- `class_definitions` after ftrace.py:87-98. -/
def classDefinitions (r : Registry) (scope : Str) (events : List Str) : Dict PClass :=
  let d := addEvents r events
  if scope = cs!"thermal" then Dict.update (Dict.update d r.thermal) r.dynamic
  else if scope = cs!"sched" then Dict.update (Dict.update d r.sched) r.dynamic
  else if scope ≠ cs!"custom" then Dict.update (Dict.update (Dict.update d r.thermal) r.sched) r.dynamic
  else d

/-- `itertools.combinations(xs, 2)`. -/
def combinations2 {α : Type} : List α → List (α × α)
  | [] => []
  | x :: xs => xs.map (fun y => (x, y)) ++ combinations2 xs

/-- The sanity check on the unique words (ftrace.py:100-105): `true` if construction goes on. -/
def wordsAccepted (defs : Dict PClass) : Bool :=
  (combinations2 (defs.map Prod.snd)).all fun p =>
    !(Py.contains p.1.word p.2.word || Py.contains p.2.word p.1.word)

/-- The check for two parsers with one unique word (ftrace.py:482-496); `none` is the `RuntimeError`. -/
def wordTable : List PClass → Dict PClass → Option (Dict PClass)
  | [], d => some d
  | c :: cs, d => if (d.get c.word).isSome then none else wordTable cs (d.set c.word c)

/-- One step of `re.sub('(?!^)([A-Z]+)', r'_\1', name)` on the part of the name after the first character
(dynamic.py:69); `fuel` bounds the number of steps. -/
def subCapitals : Nat → Str → Str
  | 0, s => s
  | _, [] => []
  | n + 1, c :: s =>
    match Re.matchPrefix (Re.group 1 (Re.plus Py.isUpper)) (c :: s) with
    | some (caps, rest) =>
      match caps.get 1 with
      | some g => '_' :: (g ++ subCapitals n rest)
      | none => c :: subCapitals n s
    | none => c :: subCapitals n s

/-- `_get_name` (dynamic.py:65-69); `(?!^)` rules out a match at the first character.  Names are taken to be ASCII
(`lower`). -/
def getName : Str → Str
  | [] => []
  | c :: s => Py.lower (c :: subCapitals (s.length + 1) s)

/-- `str.rstrip(':')`. -/
def rstripColon (s : Str) : Str := (s.reverse.dropWhile (· == ':')).reverse

/-- Outcome of `trace.attr`. -/
inductive Lookup (α : Type) where
  /-- the attribute of the instance (or of its class) -/
  | found (v : α)
  /-- the `AttributeError` that names another attribute -/
  | redirect (name : Str)
  /-- the usual `AttributeError` -/
  | missing
deriving DecidableEq, Repr

/-- the loop of ftrace.py:513-533 -/
def redirectOf (attr : Str) : Dict PClass → Option Str
  | [] => none
  | (name, c) :: d =>
    if attr = rstripColon c.word then (if name = rstripColon c.word then none else some name) else redirectOf attr d

/-- Attribute lookup on a `GenericFTrace`: instance and class attributes first, then `__getattr__`
(ftrace.py:507-535). -/
def getAttr {α : Type} (attrs : Dict α) (defs : Dict PClass) (attr : Str) : Lookup α :=
  match attrs.get attr with
  | some v => .found v
  | none =>
    if Py.startsWith attr cs!"__" && Py.endsWith attr cs!"__" then .missing
    else match redirectOf attr defs with
      | some n => .redirect n
      | none => .missing

/-- State of a trace as far as events are concerned: all attributes that can be found (events, parameters, methods),
the class definitions, and the events in order. -/
structure TraceState (α : Type) where
  attrs : Dict α
  defs : Dict PClass
  events : List (Str × α)

/-- `add_parsed_event` (bare_trace.py:118-137); `none` is the `ValueError`.  `frame` stands for the event object that
holds the data frame. -/
def addParsedEvent {α : Type} (s : TraceState α) (name : Str) (frame : α) : Option (TraceState α) :=
  match getAttr s.attrs s.defs name with
  | .found _ => none
  | _ =>
    some { attrs := s.attrs.set name frame
           defs := s.defs.set name { id := none, name := name, word := name ++ [':'] }
           events := s.events ++ [(name, frame)] }

end Trappy
