import Verif.Spec.Line
/-!
# Specification: header lines, path stems, systrace files
-/

namespace Trappy

/-- The header line `key = value`: the key at the very start, optional blanks around the equals sign, and the maximal
run of digits as value. -/
def HeaderLine (key v line : Str) : Prop :=
  ∃ w1 w2 rest, line = key ++ (w1 ++ '=' :: (w2 ++ (v ++ rest))) ∧ AllC Py.isSpace w1 ∧ AllC Py.isSpace w2 ∧
    v ≠ [] ∧ AllC Py.isDigit v ∧ ∀ c ∈ rest.head?, Py.isDigit c = false

/-- The path without its extension: `dir/name.ext` loses `.ext` when `name` is not empty and not only dots;
a path with no such decomposition is its own stem. -/
def HasExt (path stem : Str) : Prop :=
  ∃ d n e, path = d ++ (n ++ '.' :: e) ∧ stem = d ++ n ∧ (d = [] ∨ ∃ d', d = d' ++ ['/']) ∧ '/' ∉ n ∧
    (∃ c ∈ n, c ≠ '.') ∧ '/' ∉ e ∧ '.' ∉ e

/-- the stem of a path -/
def Stem (path stem : Str) : Prop := HasExt path stem ∨ (stem = path ∧ ∀ s, ¬ HasExt path s)

end Trappy
