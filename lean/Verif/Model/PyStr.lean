/-!
# Python strings

Python `str` values are modelled as `List Char`.  Only the string operations that TRAPpy uses are modelled.
The character classes are those of CPython's `str.isspace`/`re` `\s` (all of Unicode) and the ASCII part of
`\d` and `\w` (CPython also accepts other Unicode digits and letters; TRAPpy traces are ASCII there).
-/

namespace Trappy

/-- A Python `str`. -/
abbrev Str := List Char

/-- `cs!"abc"` is the explicit list of characters `['a', 'b', 'c']` (so that the kernel can compute with it). -/
syntax:max "cs!" str : term
macro_rules
  | `(cs! $s:str) => do
    let cs : Array (Lean.TSyntax `term) := (s.getString.toList.map fun c => ⟨Lean.Syntax.mkCharLit c⟩).toArray
    `(([$cs,*] : Str))

namespace Py

/-- `str.isspace` for one character, which is also `\s` in `re` (CPython `Py_UNICODE_ISSPACE`). -/
def isSpace (c : Char) : Bool :=
  let n := c.toNat
  (9 ≤ n && n ≤ 13) || (28 ≤ n && n ≤ 32) || n == 0x85 || n == 0xA0 || n == 0x1680 ||
  (0x2000 ≤ n && n ≤ 0x200A) || n == 0x2028 || n == 0x2029 || n == 0x202F || n == 0x205F || n == 0x3000

/-- `\d` and `[0-9]` (ASCII digits). -/
def isDigit (c : Char) : Bool := 48 ≤ c.toNat && c.toNat ≤ 57

/-- `[A-Z]`. -/
def isUpper (c : Char) : Bool := 65 ≤ c.toNat && c.toNat ≤ 90

/-- `[a-z]`. -/
def isLower (c : Char) : Bool := 97 ≤ c.toNat && c.toNat ≤ 122

/-- `[A-Za-z0-9_]`, the ASCII part of `\w`. -/
def isWord (c : Char) : Bool := isDigit c || isUpper c || isLower c || c == '_'

/-- `.` in `re` without flags: anything but a newline. -/
def notNl (c : Char) : Bool := c != '\n'

/-- `needle in hay` for strings. -/
def contains (needle : Str) : Str → Bool
  | [] => needle.isEmpty
  | c :: s => needle.isPrefixOf (c :: s) || contains needle s

/-- `s.startswith(p)`. -/
def startsWith (s p : Str) : Bool := p.isPrefixOf s

/-- `s.endswith(p)`. -/
def endsWith (s p : Str) : Bool := p.isSuffixOf s

/-- `s.rstrip()`. -/
def rstrip (s : Str) : Str := (s.reverse.dropWhile isSpace).reverse

/-- `s.lstrip()`. -/
def lstrip (s : Str) : Str := s.dropWhile isSpace

/-- `s.strip()`. -/
def strip (s : Str) : Str := rstrip (lstrip s)

/-- Worker of `split`: `cur` is the word being read, reversed. -/
def splitAux : Str → Str → List Str
  | cur, [] => if cur.isEmpty then [] else [cur.reverse]
  | cur, c :: s =>
    if isSpace c then (if cur.isEmpty then splitAux [] s else cur.reverse :: splitAux [] s)
    else splitAux (c :: cur) s

/-- `s.split()`: the maximal runs of non-whitespace. -/
def split (s : Str) : List Str := splitAux [] s

/-- `s.split(c)` for a one-character separator: always at least one piece. -/
def splitOn (c : Char) : Str → List Str
  | [] => [[]]
  | x :: s =>
    if x == c then [] :: splitOn c s
    else match splitOn c s with
      | [] => [[x]]
      | w :: ws => (x :: w) :: ws

/-- `s.split(c, 1)`: the text before and after the first `c`, if there is one. -/
def split1 (c : Char) : Str → Option (Str × Str)
  | [] => none
  | x :: s =>
    if x == c then some ([], s)
    else match split1 c s with
      | none => none
      | some (a, b) => some (x :: a, b)

/-- Worker for `str.replace` with a non-empty pattern: `fuel` bounds the number of steps, `n = none` means all. -/
def replaceAux (old new : Str) : Nat → Option Nat → Str → Str
  | 0, _, s => s
  | _, _, [] => []
  | _ + 1, some 0, s => s
  | f + 1, n, c :: s =>
    if old.isPrefixOf (c :: s) then new ++ replaceAux old new f (n.map (· - 1)) ((c :: s).drop old.length)
    else c :: replaceAux old new f n s

/-- `s.replace(old, new)` for a non-empty `old`. -/
def replace (old new s : Str) : Str := replaceAux old new (s.length + 1) none s

/-- `s.replace(old, new, 1)` for a non-empty `old`. -/
def replace1 (old new s : Str) : Str := replaceAux old new (s.length + 1) (some 1) s

/-- `c.join(ws)` for a one-character separator. -/
def joinC (c : Char) : List Str → Str
  | [] => []
  | [w] => w
  | w :: ws => w ++ c :: joinC c ws

/-- Lower case of an ASCII letter. -/
def lowerChar (c : Char) : Char := if isUpper c then Char.ofNat (c.toNat + 32) else c

/-- `s.lower()` on ASCII. -/
def lower (s : Str) : Str := s.map lowerChar

/-- `str(n)` for a natural number: the decimal digits, most significant first (core's `Nat.toDigits`). -/
def natStr (n : Nat) : Str := Nat.toDigits 10 n

/-- `str(i)` for an integer. -/
def intStr (i : Int) : Str := if i < 0 then '-' :: natStr i.natAbs else natStr i.natAbs

end Py
end Trappy
