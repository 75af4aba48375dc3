import Verif.Model.Data
import Verif.Model.Events
/-!
# Data of interactive plots on their way to the browser

Models `json.dumps` as it is used for the pages of `ILinePlot` (`/repo/trappy/plotter/ILinePlotGen.py` lines 264-268) and `EventPlot`
(`/repo/trappy/plotter/EventPlot.py` lines 144, 224-267), and how a browser reads such a page: where a script ends, and the value of an expression that consists of
literals.

Simplifications: the text of a float (`repr`) is given; strings have no lone surrogates; a script ends at the first `</script` in any case of letters that a blank, a slash or `>` follows, which is
so unless it has `<!--` in it; of JavaScript only literals of strings with double quotes, arrays, objects and words (numbers, `true`, `false`, `null`) are modelled, and
the value of a number is kept as its text.
-/

namespace Trappy

/-- a value given to `json.dumps`; keys of dictionaries are strings or integers -/
inductive PyJson where
  | null
  | bool (b : Bool)
  | int (i : Int)
  | float (text : Str)
  | str (s : Str)
  | arr (l : List PyJson)
  | obj (l : List (Val × PyJson))

/-- a hexadecimal digit as `'{0:04x}'` prints it -/
def hexDigit (n : Nat) : Char := (cs!"0123456789abcdef").getD n '0'

/-- `\uXXXX` -/
def uEscape (n : Nat) : Str :=
  ['\\', 'u', hexDigit (n / 4096 % 16), hexDigit (n / 256 % 16), hexDigit (n / 16 % 16), hexDigit (n % 16)]

/-- one character (`py_encode_basestring_ascii` of the module `json.encoder`) -/
def jsonChar (c : Char) : Str :=
  if c = '"' then ['\\', '"']
  else if c = '\\' then ['\\', '\\']
  else if c = '\n' then ['\\', 'n']
  else if c = '\r' then ['\\', 'r']
  else if c = '\t' then ['\\', 't']
  else if c.toNat = 12 then ['\\', 'f']
  else if c.toNat = 8 then ['\\', 'b']
  else if 32 ≤ c.toNat ∧ c.toNat ≤ 126 then [c]
  else if c.toNat < 65536 then uEscape c.toNat
  else uEscape (0xd800 + (c.toNat - 65536) / 1024) ++ uEscape (0xdc00 + (c.toNat - 65536) % 1024)

/-- a string -/
def jsonStr (s : Str) : Str := '"' :: (s.flatMap jsonChar ++ ['"'])

mutual
/-- `json.dumps` with its default arguments -/
def dumps : PyJson → Str
  | .null => cs!"null"
  | .bool b => if b then cs!"true" else cs!"false"
  | .int i => Py.intStr i
  | .float t => t
  | .str s => jsonStr s
  | .arr l => '[' :: (dumpsList l ++ [']'])
  | .obj l => '{' :: (dumpsPairs l ++ ['}'])
/-- elements -/
def dumpsList : List PyJson → Str
  | [] => []
  | x :: l => dumps x ++ (if l.isEmpty then [] else cs!", " ++ dumpsList l)
/-- members -/
def dumpsPairs : List (Val × PyJson) → Str
  | [] => []
  | (k, v) :: l => jsonStr k.text ++ cs!": " ++ dumps v ++ (if l.isEmpty then [] else cs!", " ++ dumpsPairs l)
end

/-! ## The browser -/

/-- the code units of a character in a string of JavaScript -/
def utf16Char (c : Char) : List Nat :=
  if c.toNat < 65536 then [c.toNat] else [0xd800 + (c.toNat - 65536) / 1024, 0xdc00 + (c.toNat - 65536) % 1024]

/-- the code units of a string -/
def utf16 (s : Str) : List Nat := s.flatMap utf16Char

/-- value of a literal; strings are sequences of code units, numbers the text they were written as -/
inductive JsLit where
  | null
  | bool (b : Bool)
  | num (text : Str)
  | str (units : List Nat)
  | arr (l : List JsLit)
  | obj (l : List (List Nat × JsLit))

/-- value of a hexadecimal digit -/
def hexVal (c : Char) : Option Nat :=
  if '0' ≤ c ∧ c ≤ '9' then some (c.toNat - 48)
  else if 'a' ≤ c ∧ c ≤ 'f' then some (c.toNat - 87)
  else if 'A' ≤ c ∧ c ≤ 'F' then some (c.toNat - 55)
  else none

/-- the code unit of `\uXXXX` -/
def hexUnit (a b c d : Char) : Option Nat :=
  match hexVal a, hexVal b, hexVal c, hexVal d with
  | some a, some b, some c, some d => some (a * 4096 + b * 256 + c * 16 + d)
  | _, _, _, _ => none

/-- what a backslash and a character stand for -/
def simpleEscape (c : Char) : List Nat :=
  if c = 'n' then [10] else if c = 'r' then [13] else if c = 't' then [9] else if c = 'f' then [12] else if c = 'b' then [8] else utf16Char c

/-- a string literal after its opening quote, and what follows it -/
def jsString : Str → Option (List Nat × Str)
  | [] => none
  | '"' :: r => some ([], r)
  | '\\' :: 'u' :: a :: b :: c :: d :: r =>
    match hexUnit a b c d, jsString r with
    | some u, some (us, r) => some (u :: us, r)
    | _, _ => none
  | '\\' :: c :: r =>
    match jsString r with
    | some (us, r) => some (simpleEscape c ++ us, r)
    | none => none
  | c :: r =>
    if c = '\n' ∨ c = '\r' ∨ c = '\\' then none
    else
      match jsString r with
      | some (us, r) => some (utf16Char c ++ us, r)
      | none => none

/-- blanks between tokens -/
def skipWs (s : Str) : Str := s.dropWhile fun c => c == ' ' || c == '\n' || c == '\t'

/-- characters of words and numbers -/
def isTok (c : Char) : Bool := c.isAlphanum || c == '-' || c == '+' || c == '.'

/-- value of a word -/
def wordLit (t : Str) : JsLit :=
  if t = cs!"null" then .null else if t = cs!"true" then .bool true else if t = cs!"false" then .bool false else .num t

/-- defining a property of an object literal: a later one replaces an earlier one, and `__proto__` sets the prototype instead -/
def jsDefine (o : List (List Nat × JsLit)) (k : List Nat) (v : JsLit) : List (List Nat × JsLit) :=
  if k = utf16 cs!"__proto__" then o
  else if k ∈ o.map Prod.fst then o.map fun p => if p.1 = k then (k, v) else p
  else o ++ [(k, v)]

mutual
/-- a literal at the start of a text, and what follows it -/
def jsValue : Nat → Str → Option (JsLit × Str)
  | 0, _ => none
  | n + 1, s =>
    match skipWs s with
    | [] => none
    | '"' :: r =>
      match jsString r with
      | some (us, r) => some (.str us, r)
      | none => none
    | '[' :: r =>
      match skipWs r with
      | ']' :: r => some (.arr [], r)
      | r =>
        match jsElems n r with
        | some (l, r) => some (.arr l, r)
        | none => none
    | '{' :: r =>
      match skipWs r with
      | '}' :: r => some (.obj [], r)
      | r =>
        match jsProps n r with
        | some (l, r) => some (.obj (l.foldl (fun o p => jsDefine o p.1 p.2) []), r)
        | none => none
    | r => if r.takeWhile isTok = [] then none else some (wordLit (r.takeWhile isTok), r.dropWhile isTok)
/-- elements of an array and the closing bracket -/
def jsElems : Nat → Str → Option (List JsLit × Str)
  | 0, _ => none
  | n + 1, s =>
    match jsValue n s with
    | none => none
    | some (v, r) =>
      match skipWs r with
      | ']' :: r => some ([v], r)
      | ',' :: r =>
        match jsElems n (skipWs r) with
        | some (l, r) => some (v :: l, r)
        | none => none
      | _ => none
/-- members of an object and the closing brace -/
def jsProps : Nat → Str → Option (List (List Nat × JsLit) × Str)
  | 0, _ => none
  | n + 1, s =>
    match s with
    | '"' :: r =>
      match jsString r with
      | none => none
      | some (k, r) =>
        match skipWs r with
        | ':' :: r =>
          match jsValue n r with
          | none => none
          | some (v, r) =>
            match skipWs r with
            | '}' :: r => some ([(k, v)], r)
            | ',' :: r =>
              match jsProps n (skipWs r) with
              | some (l, r) => some ((k, v) :: l, r)
              | none => none
            | _ => none
        | _ => none
    | _ => none
end

/-- whether a script ends here: `</script` in any case of letters, and a blank, a slash or `>` -/
def scriptEnd (s : Str) : Bool :=
  [' ', '/', '>', '\t', '\n', Char.ofNat 12].any fun x => decide ((s.take 9).map Char.toLower = cs!"</script" ++ [x])

/-- the text of a script, given what follows `<script>` -/
def scriptBody : Str → Str
  | [] => []
  | c :: r => if scriptEnd (c :: r) then [] else c :: scriptBody r

/-- a page from the text of a script on: the script has a value printed by `json.dumps` in it, and is followed by other text -/
def jsonPage (pre : Str) (v : PyJson) (post rest : Str) : Str := pre ++ (dumps v ++ (post ++ (cs!"</script>" ++ rest)))

/-- the script of a plot before its data (ILinePlotGen.py:264-267) -/
def plotPre (fig : Str) : Str := cs!"\nvar " ++ fig ++ cs!"_data = "

/-- and after it (ILinePlotGen.py:264-268, 279) -/
def plotPost : Str := cs!";\n"

/-- the script of an event plot just before its data (EventPlot.py:260-261) -/
def eventPre (fig base : Str) : Str := cs!"            EventPlot.generate('" ++ fig ++ cs!"', '" ++ base ++ cs!"', "

/-- and after it (EventPlot.py:261-263) -/
def eventPost : Str := cs!");\n        }); /* TRAPPY_PUBLISH_REMOVE_LINE */\n        "

/-- the value a page gives to an expression: the script starts with `pre`, and the expression is followed by `post` -/
def pageValue (pre post page : Str) : Option JsLit :=
  let body := scriptBody page
  if pre <+: body then
    match jsValue page.length (body.drop pre.length) with
    | some (v, r) => if r = post then some v else none
    | none => none
  else none

end Trappy
