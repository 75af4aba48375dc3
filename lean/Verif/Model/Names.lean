import Verif.Model.Grammar
import Verif.Model.SuperIndex
/-!
# Names in expressions

Models `/repo/trappy/stats/grammar.py` lines 144-159 (`str_to_attr`), 474-503 (`_parse_for_info`), 505-516 (`_parse_var_id`), 518-529 (`_parse_func`) and 571-582 (`inspect`).

Simplifications: exceptions of unknown names (`KeyError`, `IndexError`, `ImportError`, `AttributeError`) are not told apart; modules are dictionaries.
-/

namespace Trappy
open Py

/-! ## `inspect` -/

/-- the dictionary made by `_parse_for_info` (grammar.py:477-503), without the class -/
structure GInfo where
  pivot : Option Str
  pivotValues : Option (List Int)
  length : Nat
  column : Str
  present : Bool
deriving DecidableEq

/-- why an accessor cannot be inspected -/
inductive IErr where
  /-- `ParseException` -/
  | parse
  /-- the event is not known -/
  | unknown
  /-- `KeyError`: the table has no pivot column -/
  | pivot
deriving DecidableEq

/-- `inspect` (grammar.py:573-582): the event and the dictionary -/
def gInspect (o : GOpts) (env : GEnv) (s : Str) : Except IErr (GEvent × GInfo) :=
  match gLex s with
  | .name e :: .colon :: .name c :: _ =>
    let column := (cutName c).1
    match gClass env e with
    | .error _ => .error .unknown
    | .ok ev =>
      let rows := getDataFrame o ev
      match ev.pivot with
      | none => .ok (ev, ⟨none, none, rows.length, column, decide (column ∈ ev.columns)⟩)
      | some p =>
        if p ∈ ev.columns then
          .ok (ev, ⟨some p, some (gUnique (rows.filterMap fun r => r.cells.get p)), rows.length, column, decide (column ∈ ev.columns)⟩)
        else .error .pivot
  | _ => .error .parse

/-! ## Variables and functions -/

/-- an entry of `pvars`: a value, or something that can be called; `python` says if it is a `types.FunctionType` -/
inductive PVar (V G : Type) where
  | value (v : V)
  | func (g : G) (python : Bool)
deriving DecidableEq

/-- value of a name -/
inductive NVal (V G : Type) where
  | nan
  | inf
  | bound (p : PVar V G)
  | column (v : V)
deriving DecidableEq

/-- where names are looked up: `pvars`, the columns loaded, `globals()` of the module and the importable modules -/
structure NEnv (V G : Type) where
  pvars : Dict (PVar V G)
  columns : Dict V
  globals : Dict G
  modules : Dict (Dict G)

/-- `float(s)` of an identifier -/
def floatName {V G : Type} (s : Str) : Option (NVal V G) :=
  if lower s = cs!"nan" then some .nan
  else if lower s = cs!"inf" ∨ lower s = cs!"infinity" then some .inf
  else none

/-- `_parse_var_id` (grammar.py:505-516) of an identifier; `none` is an exception. `params[1]` of an identifier is its second character. -/
def parseVar {V G : Type} (env : NEnv V G) (s : Str) : Option (NVal V G) :=
  match floatName s with
  | some x => some x
  | none =>
    match env.pvars.get s with
    | some p => some (.bound p)
    | none =>
      match s with
      | _ :: c :: _ => (env.columns.get [c]).map .column
      | _ => none

/-- `rsplit(".", 1)` -/
def rsplitDot : Str → Option (Str × Str)
  | [] => none
  | c :: s =>
    match rsplitDot s with
    | some (a, b) => some (c :: a, b)
    | none => if c = '.' then some ([], s) else none

/-- `str_to_attr` (grammar.py:144-159); `none` is an exception -/
def strToAttr {V G : Type} (env : NEnv V G) (s : Str) : Option G :=
  match rsplitDot s with
  | some (m, a) => (env.modules.get m).bind fun d => d.get a
  | none => env.globals.get s

/-- the function chosen by `_parse_func` (grammar.py:518-528) -/
def resolveFunc {V G : Type} (env : NEnv V G) (s : Str) : Option G :=
  match env.pvars.get s with
  | some (.func g true) => some g
  | _ => strToAttr env s

/-- the value of an argument; a function or a special number as argument is left out of the model -/
def argVal {V G : Type} : Option (NVal V G) → Option V
  | some (.column x) => some x
  | some (.bound (.value x)) => some x
  | _ => none

/-- what the parse actions compute, with the names looked up; the operations are a parameter, `none` is an exception -/
def namesInterp {V G : Type} (env : NEnv V G) (ops : GInterp V) (apply : G → List V → Option V) : GInterp (Option (NVal V G)) where
  num t := some (.column (ops.num t))
  signed b t := some (.column (ops.signed b t))
  var s := parseVar env s
  acc e c := (env.columns.get c).map fun _ => .column (ops.acc e c)
  call s vs :=
    match resolveFunc env s, vs.mapM argVal with
    | some g, some xs => (apply g xs).map .column
    | _, _ => none
  callNone _ := none
  bin o a b :=
    match a, b with
    | some (.column x), some (.column y) => some (.column (ops.bin o x y))
    | some (.bound (.value x)), some (.column y) => some (.column (ops.bin o x y))
    | some (.column x), some (.bound (.value y)) => some (.column (ops.bin o x y))
    | some (.bound (.value x)), some (.bound (.value y)) => some (.column (ops.bin o x y))
    | _, _ => none
  neg a :=
    match a with
    | some (.column x) => some (.column (ops.neg x))
    | some (.bound (.value x)) => some (.column (ops.neg x))
    | _ => none

end Trappy
