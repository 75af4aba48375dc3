import Verif.Model.PyStr
/-!
# Regular expressions as executed by Python's `re`

`re` is a backtracking matcher.  The matcher below is written in continuation-passing style: `m r s c k` tries
the ways in which `r` can match a prefix of `s` in the engine's order of preference and returns the first
result for which the continuation `k` (the rest of the pattern) succeeds.  `c` holds the captured groups.
Groups are numbered; named groups of the Python patterns get the numbers given at the use sites.
-/

namespace Trappy

/-- Captured groups: association list, latest first. -/
abbrev Caps := List (Nat × Str)

/-- Text captured by group `n` (`match.group(n)`, `None` if it did not take part). -/
def Caps.get (c : Caps) (n : Nat) : Option Str := c.lookup n

/-- The constructs of Python regular expressions that occur in TRAPpy. -/
inductive Re where
  /-- the empty pattern -/
  | eps
  /-- one character of a class -/
  | chr (p : Char → Bool)
  /-- concatenation -/
  | seq (a b : Re)
  /-- `a|b`; `x?` is `alt x eps` -/
  | alt (a b : Re)
  /-- greedy `[class]*` -/
  | star (p : Char → Bool)
  /-- greedy `(?:r)*` for a general `r` -/
  | many (r : Re)
  /-- `(r)`: capture group number `n` -/
  | group (n : Nat) (r : Re)
  /-- zero-width: the next character, if any, is not of the class (`\b` after a word character, `(?!..)`) -/
  | notNext (p : Char → Bool)

namespace Re

/-- Greedy repetition of a character class: longest first. -/
def mStar {α : Type} (p : Char → Bool) : Str → Caps → (Str → Caps → Option α) → Option α
  | [], c, k => k [] c
  | x :: s, c, k =>
    if p x then
      match mStar p s c k with
      | some v => some v
      | none => k (x :: s) c
    else k (x :: s) c

/-- Greedy repetition of a matcher; an iteration that consumes nothing ends the loop. -/
def mMany {α : Type} (f : Str → Caps → (Str → Caps → Option α) → Option α) :
    Nat → Str → Caps → (Str → Caps → Option α) → Option α
  | 0, s, c, k => k s c
  | n + 1, s, c, k =>
    match f s c (fun s' c' => if s'.length < s.length then mMany f n s' c' k else none) with
    | some v => some v
    | none => k s c

/-- The backtracking matcher. -/
def m {α : Type} : Re → Str → Caps → (Str → Caps → Option α) → Option α
  | .eps, s, c, k => k s c
  | .chr _, [], _, _ => none
  | .chr p, x :: s, c, k => if p x then k s c else none
  | .seq a b, s, c, k => m a s c (fun s' c' => m b s' c' k)
  | .alt a b, s, c, k =>
    match m a s c k with
    | some v => some v
    | none => m b s c k
  | .star p, s, c, k => mStar p s c k
  | .many r, s, c, k => mMany (m r) (s.length + 1) s c k
  | .group n r, s, c, k => m r s c (fun s' c' => k s' ((n, s.take (s.length - s'.length)) :: c'))
  | .notNext p, s, c, k =>
    match s with
    | [] => k s c
    | x :: _ => if p x then none else k s c

/-- `re.match(r, s)`: the groups and the unmatched rest. -/
def matchPrefix (r : Re) (s : Str) : Option (Caps × Str) := m r s [] (fun s' c => some (c, s'))

/-- Worker of `re.search`: `i` is the current position. -/
def searchFrom (r : Re) : Nat → Str → Option (Nat × Caps × Str)
  | i, [] => (matchPrefix r []).map fun (c, rest) => (i, c, rest)
  | i, x :: s =>
    match matchPrefix r (x :: s) with
    | some (c, rest) => some (i, c, rest)
    | none => searchFrom r (i + 1) s

/-- `re.search(r, s)`: start offset, groups and the text after the match. -/
def search (r : Re) (s : Str) : Option (Nat × Caps × Str) := searchFrom r 0 s

/-- A literal character. -/
def lit (ch : Char) : Re := .chr (· == ch)

/-- A literal string. -/
def str : Str → Re
  | [] => .eps
  | c :: s => .seq (lit c) (str s)

/-- `[class]+`. -/
def plus (p : Char → Bool) : Re := .seq (.chr p) (.star p)

/-- `r?`. -/
def opt (r : Re) : Re := .alt r .eps

/-- `(?:r)+`. -/
def many1 (r : Re) : Re := .seq r (.many r)

/-- Concatenation of a list of patterns. -/
def cat : List Re → Re
  | [] => .eps
  | [r] => r
  | r :: rs => .seq r (cat rs)

end Re
end Trappy
