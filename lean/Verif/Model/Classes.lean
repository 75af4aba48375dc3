import Verif.Model.Builtin
/-!
# Making the parsers of a trace from their classes

Models `/repo/trappy/dynamic.py` lines 30-62 and 72-124 (`default_init`, `DynamicTypeFactory`, `register_dynamic_ftrace`), the constructors of the parser classes
(`/repo/trappy/base.py` lines 116-127, `/repo/trappy/fallback.py` lines 44-45, `/repo/trappy/function.py` lines 20-26, `/repo/trappy/function_graph.py` lines 20-34, `/repo/trappy/raw_syscalls.py`
lines 29-30 and 62-63, `/repo/trappy/sched.py` lines 112-113) and the loop of the trace over its classes (`/repo/trappy/ftrace.py` lines 106-109).

Simplifications: classes with a single base, so that the method resolution order is a list; only the attributes `parse_raw` and `fallback` of a parser; constructors are of the forms that occur in TRAPpy.
-/

namespace Trappy

/-- the `__init__` of a class -/
inductive Ctor where
  /-- `default_init` (dynamic.py:30-45): `super(type(self), self).__init__(parse_raw=self.parse_raw)` -/
  | dynamic
  /-- `super(C, self).__init__(parse_raw=self.parse_raw)` (sched.py:113) -/
  | passRaw
  /-- `super(C, self).__init__(fallback=True)` (fallback.py:45) -/
  | passFallback
  /-- `super(C, self).__init__()` -/
  | plain
deriving DecidableEq, Repr

/-- what a class defines itself: the class attribute `parse_raw` and `__init__` -/
structure ClassBody where
  raw : Option Bool := none
  init : Option Ctor := none
deriving DecidableEq, Repr

/-- a class: its body and those of the classes it is derived from, without `Base` -/
abbrev ClassChain := List ClassBody

/-- the attributes of a parser (base.py:117, 126) -/
structure ParserObj where
  raw : Bool
  fallback : Bool
deriving DecidableEq, Repr

inductive CtorErr where
  | typeError
  | attributeError
  | recursionError
deriving DecidableEq, Repr

/-- the class attribute `parse_raw`: that of the first class which defines it (`getattr`, ftrace.py:919) -/
def ClassChain.rawAttr : ClassChain → Option Bool
  | [] => none
  | b :: bs =>
    match b.raw with
    | some r => some r
    | none => ClassChain.rawAttr bs

/-- `__init__` is called with an argument for the classes from here on: no constructor takes one, but that of `Base` (base.py:116) -/
def initArg (p : ParserObj) : ClassChain → Except CtorErr ParserObj
  | [] => .ok p
  | b :: bs =>
    match b.init with
    | none => initArg p bs
    | some _ => .error .typeError

/-- `__init__` is called without arguments for the classes from here on; `full` is the class of the object. `default_init` goes on with the class after that of the object, so it calls itself if it is not the one of the
object. -/
def initFrom (full : ClassChain) : ClassChain → Except CtorErr ParserObj
  | [] => .ok ⟨false, false⟩
  | b :: bs =>
    match b.init with
    | none => initFrom full bs
    | some .plain => initFrom full bs
    | some .passFallback => initArg ⟨false, true⟩ bs
    | some .passRaw =>
      match full.rawAttr with
      | some r => initArg ⟨r, false⟩ bs
      | none => .error .attributeError
    | some .dynamic =>
      match full.rawAttr with
      | some r => initArg ⟨r, false⟩ full.tail
      | none => if bs.length + 1 = full.length then initFrom full bs else .error .recursionError

/-- `class_def()` (ftrace.py:107) -/
def construct (c : ClassChain) : Except CtorErr ParserObj := initFrom c c

/-- the class made by `register_dynamic_ftrace` (dynamic.py:112-122) -/
def dynamicChain (raw : Bool) : ClassChain := [⟨some raw, some .dynamic⟩]

/-- the loop over the classes of a trace (ftrace.py:106-109) -/
def constructAll : List ClassChain → Except CtorErr (List ParserObj)
  | [] => .ok []
  | c :: cs =>
    match construct c with
    | .error e => .error e
    | .ok p =>
      match constructAll cs with
      | .error e => .error e
      | .ok ps => .ok (p :: ps)

/-- a class derived from `Base` with neither attribute nor constructor -/
def simpleChain : ClassChain := [{}]

/-- a class with the attribute and the constructor that passes it on -/
def rawChain (raw : Bool) : ClassChain := [⟨some raw, some .passRaw⟩]

/-- the classes of TRAPpy in the order of `builtins`: thermal.py, cpu_power.py, pid_controller.py, devfreq_power.py; sched.py:25-142; raw_syscalls.py, idle.py, fallback.py:28-50, common_clk.py:28-61,
function.py, function_graph.py, filesystem.py:29-116 -/
def builtinChains : List ClassChain :=
  [simpleChain, simpleChain, simpleChain, simpleChain, simpleChain, simpleChain, simpleChain] ++
  [simpleChain, simpleChain, dynamicChain false, dynamicChain false, simpleChain, dynamicChain true, dynamicChain true, rawChain true, simpleChain, dynamicChain false] ++
  [rawChain false, rawChain false, simpleChain, [{}, { init := some .passFallback }], [{}, {}], [{}, {}], [{}, {}], rawChain true, rawChain true, rawChain true,
   [{}, {}], [{}, {}], [{}, {}], [{}, {}], [{}, {}], [{}, {}], [{}, {}], [{}, {}]]

end Trappy
