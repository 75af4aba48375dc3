import Verif.Model.Data
import Verif.Spec.Line
/-!
# Specification of event payloads

Python integer literals, payload words, and the printed form of payloads with arrays; all written without reference to
the parser.
-/

namespace Trappy

/-! ## Integer literals -/

/-- the digits in lower and upper case -/
def lowerDigits : List Char := cs!"0123456789abcdefghijklmnopqrstuvwxyz"
/-- the digits in lower and upper case -/
def upperDigits : List Char := cs!"0123456789ABCDEFGHIJKLMNOPQRSTUVWXYZ"

/-- `c` is the digit of value `d` in base `b`. -/
def IsDigitOf (b : Nat) (c : Char) (d : Nat) : Prop :=
  d < b ∧ (lowerDigits[d]? = some c ∨ upperDigits[d]? = some c)

/-- Digits of base `b` with optional single underscores between them, and their value. -/
inductive Digits (b : Nat) : Str → Nat → Prop where
  | one {c : Char} {d : Nat} (h : IsDigitOf b c d) : Digits b [c] d
  | snoc {s : Str} {n : Nat} {c : Char} {d : Nat} (hs : Digits b s n) (h : IsDigitOf b c d) :
      Digits b (s ++ [c]) (n * b + d)
  | under {s : Str} {n : Nat} {c : Char} {d : Nat} (hs : Digits b s n) (h : IsDigitOf b c d) :
      Digits b (s ++ ['_', c]) (n * b + d)

/-- The letters that select a base after a leading zero. -/
def IsPrefix (x : Char) (b : Nat) : Prop :=
  ((x = 'x' ∨ x = 'X') ∧ b = 16) ∨ ((x = 'o' ∨ x = 'O') ∧ b = 8) ∨ ((x = 'b' ∨ x = 'B') ∧ b = 2)

/-- An unsigned Python integer literal (as accepted by `int(_, 0)`). -/
inductive NatLit : Str → Nat → Prop where
  /-- decimal: no leading zero unless the number is zero -/
  | dec {s : Str} {n : Nat} (hs : Digits 10 s n) (h : s.head? ≠ some '0' ∨ n = 0) : NatLit s n
  | pre {x : Char} {b : Nat} {s : Str} {n : Nat} (hx : IsPrefix x b) (hs : Digits b s n) : NatLit ('0' :: x :: s) n
  | preUnder {x : Char} {b : Nat} {s : Str} {n : Nat} (hx : IsPrefix x b) (hs : Digits b s n) :
      NatLit ('0' :: x :: '_' :: s) n

/-- A Python integer literal with optional sign. -/
inductive IntLit : Str → Int → Prop where
  | plain {s : Str} {n : Nat} (h : NatLit s n) : IntLit s n
  | plus {s : Str} {n : Nat} (h : NatLit s n) : IntLit ('+' :: s) n
  | minus {s : Str} {n : Nat} (h : NatLit s n) : IntLit ('-' :: s) (-(n : Int))

/-! ## Words -/

/-- `Spaced ws t`: the text `t` is the words `ws` (non-empty, without blanks) with blanks between them and any blanks
around them. -/
inductive Spaced : List Str → Str → Prop where
  | nil {t : Str} (h : AllC Py.isSpace t) : Spaced [] t
  | last {lead w trail : Str} (h1 : AllC Py.isSpace lead) (hw : w ≠ []) (h2 : ∀ c ∈ w, Py.isSpace c = false)
      (h3 : AllC Py.isSpace trail) : Spaced [w] (lead ++ w ++ trail)
  | cons {lead w t : Str} {sp : Char} {ws : List Str} (h1 : AllC Py.isSpace lead) (hw : w ≠ [])
      (h2 : ∀ c ∈ w, Py.isSpace c = false) (h3 : Py.isSpace sp = true) (ht : Spaced ws t) :
      Spaced (w :: ws) (lead ++ w ++ sp :: t)

/-- A payload field as printed: `key=first rest…`. -/
structure Field where
  key : Str
  first : Str
  rest : List Str
deriving DecidableEq

namespace Field

/-- the words of a field -/
def words (f : Field) : List Str := (f.key ++ '=' :: f.first) :: f.rest

/-- A field a parser can be expected to read: words without blanks, no `=` in the key or in later words, a key when
there are later words. -/
structure WF (f : Field) : Prop where
  key : ∀ c ∈ f.key, c ≠ '=' ∧ Py.isSpace c = false
  first : ∀ c ∈ f.first, Py.isSpace c = false
  rest : ∀ w ∈ f.rest, w ≠ [] ∧ ∀ c ∈ w, c ≠ '=' ∧ Py.isSpace c = false
  keyNe : f.rest ≠ [] → f.key ≠ []

/-- The value a field stands for: an integer if its first word is an integer literal (later words are dropped), else
all its words joined by blanks. -/
inductive Means (f : Field) : Val → Prop where
  | int {i : Int} (h : IntLit f.first i) : Means f (.int i)
  | str (h : ∀ i, ¬ IntLit f.first i) : Means f (.str (Py.joinC ' ' (f.first :: f.rest)))

end Field

/-! ## Payloads with arrays -/

/-- An array as printed: `name={v0 v1 …}`. -/
structure Arr where
  name : Str
  vals : List Str
deriving DecidableEq

namespace Arr

/-- `name={v0 v1 …}` -/
def text (a : Arr) : Str := a.name ++ cs!"={" ++ Py.joinC ' ' a.vals ++ cs!"}"

/-- the words `name0=v0`, `name1=v1`, … starting at index `i` -/
def elems (name : Str) : Nat → List Str → List Str
  | _, [] => []
  | i, v :: vs => (name ++ Nat.toDigits 10 i ++ '=' :: v) :: elems name (i + 1) vs

/-- the exploded form: the elements, then zeros up to index `len` -/
def exploded (a : Arr) (len : Nat) : Str :=
  Py.joinC ' ' (elems a.name 0 (a.vals ++ List.replicate (len - a.vals.length) ['0']))

/-- names without `=`, braces and blanks; at least one value, values without braces and blanks, not just one empty
value -/
structure WF (a : Arr) : Prop where
  nameNe : a.name ≠ []
  name : ∀ c ∈ a.name, c ≠ '=' ∧ c ≠ '{' ∧ c ≠ '}' ∧ c ≠ ' '
  valsNe : a.vals ≠ []
  vals : ∀ v ∈ a.vals, ∀ c ∈ v, c ≠ '{' ∧ c ≠ '}' ∧ c ≠ ' ' ∧ c ≠ '\n'
  notEmpty : a.vals ≠ [[]]

end Arr

/-- A payload with arrays: plain text, then arrays each followed by plain text. -/
structure ArrPayload where
  lead : Str
  tail : List (Arr × Str)

namespace ArrPayload

/-- the printed text, each array printed by `f` -/
def textWith (f : Arr → Str) (p : ArrPayload) : Str := p.lead ++ (p.tail.map fun x => f x.1 ++ x.2).flatten

/-- texts without braces that end in a blank if something follows -/
def PlainBefore (t : Str) : Prop := (∀ c ∈ t, c ≠ '{' ∧ c ≠ '}') ∧ (t = [] ∨ t.getLast? = some ' ')

/-- Arrays are preceded by a blank or stand at the beginning, and the plain text has no braces. -/
structure WF (p : ArrPayload) : Prop where
  lead : if p.tail = [] then ∀ c ∈ p.lead, c ≠ '{' ∧ c ≠ '}' else PlainBefore p.lead
  arr : ∀ x ∈ p.tail, x.1.WF
  plain : ∀ x ∈ p.tail, ∀ c ∈ x.2, c ≠ '{' ∧ c ≠ '}'
  blank : ∀ x ∈ p.tail.dropLast, x.2.getLast? = some ' '

end ArrPayload

/-- every `}` is followed by a blank or stands at the end -/
def BraceThenBlank (s : Str) : Prop := ∀ a b, s = a ++ '}' :: b → b = [] ∨ b.head? = some ' '

/-- no word has the character before its first equals sign -/
def NamesWithout (ch : Char) (s : Str) : Prop :=
  ∀ a n b, s = a ++ n ++ '=' :: b → (a = [] ∨ a.getLast? = some ' ') → ' ' ∉ n → '=' ∉ n → ch ∉ n

/-- text that can precede an empty array (or the end): no `={}` inside, not ending in a word character -/
def Before (T : Str) : Prop := ¬ (cs!"={}" <:+: T) ∧ ∀ c ∈ T.getLast?, Py.isWord c = false

end Trappy
