import Mathlib.Data.Nat.Notation
/-!
# Which colour of a colour map a line gets

Models `/repo/trappy/plotter/ColorMap.py` lines 47-84 (`__init__`, `cmap`, `cmap_inv`, `rgb_cmap`) with what matplotlib does in `Normalize.__call__` and
`Colormap.__call__`: the index is divided by the number of colours, multiplied by the size of the table and cut to an integer, at most the last one.

Simplifications: the two operations round to the nearest number of `p` bits, ties to even (`p` is 53 for binary64 and 24 for binary32, which
matplotlib uses for small integers since 1.5); indices are below `2 ^ p` and numbers never too small or too large for the exponent. The colours of a
table are left out. There is at least one colour.
-/

namespace Trappy

/-- `a / b` rounded to the nearest integer, ties to even (IEEE 754) -/
def nearestEven (a b : Nat) : Nat :=
  if 2 * (a % b) < b then a / b
  else if b < 2 * (a % b) then a / b + 1
  else if a / b % 2 = 0 then a / b else a / b + 1

/-- the least `k` with `b * 2 ^ (p - 1) ≤ a * 2 ^ k`: then the integer part of `a * 2 ^ k / b` has `p` bits -/
def scaleUp (p b : Nat) : Nat → Nat → Nat
  | 0, _ => 0
  | fuel + 1, a => if b * 2 ^ (p - 1) ≤ a then 0 else scaleUp p b fuel (a * 2) + 1

/-- `a / b` rounded to `p` bits: the pair `(m, k)` stands for `m / 2 ^ k` (IEEE 754 division of two integers that can be represented) -/
def roundBits (p a b : Nat) : Nat × Nat :=
  let k := scaleUp p b (p + (b.log2 + 1)) a
  (nearestEven (a * 2 ^ k) b, k)

/-- the place in the table of line number `i`, for `n` colours (`Normalize(vmin=0, vmax=n)`) and a table of `size` colours -/
def colourIndex (p size n i : Nat) : Nat :=
  let x := roundBits p i n
  let y := roundBits p (x.1 * size) (2 ^ x.2)
  min (y.1 / 2 ^ y.2) (size - 1)

/-- `ColorMap.rgb_cmap(colors).cmap(i)`: the table has as many colours as are given (ColorMap.py:81-84) -/
def listColour (p n i : Nat) : Nat := colourIndex p n n i

/-- `ColorMap(n).cmap(i)`: the table `hsv` has 256 colours (ColorMap.py:47-59) -/
def hsvColour (p n i : Nat) : Nat := colourIndex p 256 n i

/-- `ColorMap.rgb_cmap(colors).cmap_inv(i)` (ColorMap.py:61-68) -/
def invColour (p n i : Nat) : Nat := listColour p n (n - i)

end Trappy
