import Verif.Model.Regex
/-!
# Parsing event payloads

Models `/repo/trappy/base.py` lines 45-93 (`trace_parser_explode_array`), 132-164
(`__get_trace_array_lengths`), 194-235 (`string_cast_int`, `generate_data_dict`), 237-251 (the row built by
`generate_parsed_data`) and 289-299 (the array part of `create_dataframe`).

Simplifications: ASCII digits only; CPython's limit on the number of digits of `int()` is not modelled; warnings are not modelled, but the
memory checks of `generate_parsed_data` are in `Model/Memory.lean`.
-/

namespace Trappy
open Re

/-- A parsed cell: Python `int` or `str`. -/
inductive Val where
  | int (i : Int)
  | str (s : Str)
deriving DecidableEq, Repr

/-! ## `dict` with insertion order -/

/-- A Python `dict`: entries in insertion order, keys unique. -/
abbrev Dict (α : Type) := List (Str × α)

/-- `d[k] = v`: overwrite in place or append. -/
def Dict.set {α : Type} : Dict α → Str → α → Dict α
  | [], k, v => [(k, v)]
  | (k', v') :: d, k, v => if k' = k then (k, v) :: d else (k', v') :: Dict.set d k v

/-- `d.get(k)`. -/
def Dict.get {α : Type} : Dict α → Str → Option α
  | [], _ => none
  | (k', v') :: d, k => if k' = k then some v' else Dict.get d k

/-- `d.update(e)`. -/
def Dict.update {α : Type} (d e : Dict α) : Dict α := e.foldl (fun d kv => d.set kv.1 kv.2) d

/-! ## `int(s, base=0)` -/

/-- Value of a digit character in any base up to 36. -/
def Py.digitVal (c : Char) : Option Nat :=
  if Py.isDigit c then some (c.toNat - 48)
  else if Py.isLower c then some (c.toNat - 87)
  else if Py.isUpper c then some (c.toNat - 55)
  else none

/-- Digits in base `b` with single underscores between them; `us` tells that an underscore may not come now
(CPython `PyLong_FromString`). -/
def Py.readDigits (b : Nat) : Nat → Bool → Str → Option Nat
  | acc, us, [] => if us then none else some acc
  | acc, us, c :: s =>
    if c = '_' then (if us then none else Py.readDigits b acc true s)
    else match Py.digitVal c with
      | none => none
      | some d => if d < b then Py.readDigits b (acc * b + d) false s else none

/-- `PyLong_FromString` with base 0 after the sign. -/
def Py.readNat0 (s : Str) : Option Nat :=
  match s with
  | '0' :: x :: rest =>
    let body (b : Nat) : Option Nat :=
      match rest with
      | '_' :: r => Py.readDigits b 0 true r
      | r => Py.readDigits b 0 true r
    if x = 'x' ∨ x = 'X' then body 16
    else if x = 'o' ∨ x = 'O' then body 8
    else if x = 'b' ∨ x = 'B' then body 2
    else match Py.readDigits 10 0 true s with
      | some 0 => some 0
      | _ => none
  | _ => Py.readDigits 10 0 true s

/-- `int(s, base=0)`; `none` stands for `ValueError`. -/
def Py.int0 (s : Str) : Option Int :=
  match Py.strip s with
  | '-' :: r => (Py.readNat0 r).map fun (n : Nat) => -(n : Int)
  | '+' :: r => (Py.readNat0 r).map fun (n : Nat) => (n : Int)
  | r => (Py.readNat0 r).map fun (n : Nat) => (n : Int)

/-- `Base.string_cast_int` (base.py:195-207). -/
def stringCastInt (s : Str) : Val :=
  match Py.int0 s with
  | some i => .int i
  | none => .str s

/-! ## `generate_data_dict` -/

/-- Loop state of `generate_data_dict`: the dictionary and `prev_key`. -/
structure DState where
  dict : Dict Val
  prev : Option Str

/-- One iteration of the loop of `generate_data_dict` (base.py:212-234).  `none` is `TrappyParseError`;
`failed` tells whether `'FAILED TO PARSE' in data_str`.  The key of `prev_key` is always present, so
`data_dict[prev_key]` cannot raise. -/
def dataStep (failed : Bool) (s : DState) (field : Str) : Option DState :=
  match Py.split1 '=' field with
  | none =>
    match s.prev with
    | none => if failed then some s else none
    | some [] => if failed then some s else none
    | some (k :: ks) =>
      match s.dict.get (k :: ks) with
      | some (.str v) => some { s with dict := s.dict.set (k :: ks) (.str (v ++ ' ' :: field)) }
      | _ => some s
  | some (key, value) => some { dict := s.dict.set key (stringCastInt value), prev := some key }

/-- The loop over the words. -/
def dataLoop (failed : Bool) : DState → List Str → Option DState
  | s, [] => some s
  | s, w :: ws =>
    match dataStep failed s w with
    | none => none
    | some s' => dataLoop failed s' ws

/-- `Base.generate_data_dict` (base.py:209-235). -/
def generateDataDict (data : Str) : Option (Dict Val) :=
  (dataLoop (Py.contains cs!"FAILED TO PARSE" data) { dict := [], prev := none } (Py.split data)).map (·.dict)

/-- The row of `generate_parsed_data` (base.py:250-251): header columns, then the payload on top. -/
def parsedRow (comm : Str) (pid cpu line : Nat) (payload : Dict Val) : Dict Val :=
  Dict.update [(cs!"__comm", .str comm), (cs!"__pid", .int pid), (cs!"__cpu", .int cpu), (cs!"__line", .int line)]
    payload

/-! ## Arrays -/

/-- `[^ ]+={[^}]+}` (base.py:69). -/
def arrayRe : Re := cat [plus (· != ' '), str cs!"={", plus (· != '}'), lit '}']

/-- `([^=]+)=` (base.py:74), group 1. -/
def baseNameRe : Re := cat [.group 1 (plus (· != '=')), lit '=']

/-- `{(.+)}` (base.py:75), group 1. -/
def valsRe : Re := cat [lit '{', .group 1 (plus Py.notNl), lit '}']

/-- Text of the elements `idx, idx+1, …`: each followed by a blank (base.py:78-80). -/
def explodeVals (name : Str) : Nat → List Str → Str
  | _, [] => []
  | idx, v :: vs => name ++ Py.natStr idx ++ '=' :: (v ++ ' ' :: explodeVals name (idx + 1) vs)

/-- The element values after padding with zeros up to the expected length (base.py:76-85). -/
def padVals (vals : List Str) (len : Nat) : List Str := vals ++ List.replicate (len - vals.length) cs!"0"

/-- Result of one pass of the loop of `trace_parser_explode_array`. -/
inductive Step where
  /-- no array left (`break`) -/
  | done
  /-- the string after replacing one array -/
  | next (s : Str)
  /-- `AttributeError`: `re.match(...)` returned `None` -/
  | error
deriving DecidableEq

/-- One pass of the loop of `trace_parser_explode_array` (base.py:68-91); `lens` is a `defaultdict(int)`. -/
def explodeStep (lens : Str → Nat) (s : Str) : Step :=
  match search arrayRe s with
  | none => .done
  | some (begin, _, rest) =>
    let toExplode := (s.drop begin).take (s.length - begin - rest.length)
    match (matchPrefix baseNameRe toExplode).bind (·.1.get 1), (search valsRe toExplode).bind (·.2.1.get 1) with
    | some name, some valsStr =>
      .next (s.take begin ++
        (explodeVals name 0 (padVals (Py.splitOn ' ' valsStr) (lens name))).dropLast ++ rest)
    | _, _ => .error

/-- The loop, at most `fuel` passes: `none` means it has not ended yet, `some none` an exception. -/
def explode (lens : Str → Nat) : Nat → Str → Option (Option Str)
  | 0, _ => none
  | fuel + 1, s =>
    match explodeStep lens s with
    | .done => some (some s)
    | .error => some none
    | .next s' => explode lens fuel s'

/-- `([A-Za-z0-9_]+)={([^}]+)}` (base.py:141), groups 1 and 2. -/
def patArray : Re := cat [.group 1 (plus Py.isWord), str cs!"={", .group 2 (plus (· != '}')), lit '}']

/-- The inner loop of `__get_trace_array_lengths` (base.py:146-158) on one line.  `fuel` bounds the number of
matches by the length of the line. -/
def lineLengths : Nat → Str → (Str → Option Nat) → (Str → Option Nat)
  | 0, _, ret => ret
  | fuel + 1, line, ret =>
    match search patArray line with
    | none => ret
    | some (_, c, rest) =>
      match c.get 1, c.get 2 with
      | some name, some elems =>
        let n := (Py.splitOn ' ' elems).length
        let old := (ret name).getD 0
        lineLengths fuel rest fun k => if k = name then some (if old < n then n else old) else ret k
      | _, _ => ret

/-- `__get_trace_array_lengths` (base.py:132-164).  The flag tells whether the dictionary is still empty; scanning
stops after a line that leaves it empty. -/
def arrayLengthsFrom : List Str → (Str → Option Nat) → Bool → (Str → Option Nat) × Bool
  | [], ret, e => (ret, e)
  | line :: lines, ret, e =>
    let ret' := lineLengths (line.length + 1) line ret
    let e' := e && (search patArray line).isNone
    if e' then (ret', e') else arrayLengthsFrom lines ret' e'

/-- `__get_trace_array_lengths`: `none` when no array was found (the dictionary is empty). -/
def arrayLengths (data : List Str) : Option (Str → Nat) :=
  match arrayLengthsFrom data (fun _ => none) true with
  | (_, true) => none
  | (ret, false) => some fun k => (ret k).getD 0

/-- The array part of `create_dataframe` (base.py:294-299); at most `fuel` passes per line. -/
def explodeTable (fuel : Nat) (data : List Str) : Option (Option (List Str)) :=
  match arrayLengths data with
  | none => some (some data)
  | some lens =>
    data.foldr (fun l acc =>
      match explode lens fuel l, acc with
      | some (some x), some (some xs) => some (some (x :: xs))
      | none, _ => none
      | _, none => none
      | _, _ => some none) (some (some []))

end Trappy
