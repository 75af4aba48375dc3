import Verif.Model.PyStr
/-!
# Non-negative binary64 numbers

Python's `float` restricted to non-negative values: a number is represented by its IEEE-754 bit pattern, a natural
number from `0` (zero) to `inf = 0x7FF0000000000000`.  On non-negative numbers the order of the bit patterns is the
numeric order, and `np.nextafter(x, inf)` is the next bit pattern.  All finite values are multiples of
`2^-1074`; `uval` is the value in that unit.  NaN and negative numbers do not occur in the modelled code.
-/

namespace Trappy
namespace F64

/-- `2^52`, the number of bit patterns per binade. -/
def M : Nat := 2 ^ 52

/-- `2^1074`, the number of units in `1.0`. -/
def unit : Nat := 2 ^ 1074

/-- Bit pattern of `math.inf`. -/
def inf : Nat := 2047 * 2 ^ 52

/-- Value of a (finite) bit pattern in units of `2^-1074` (IEEE-754: subnormals, then `(2^52+m)·2^(e-1)`). -/
def uval (b : Nat) : Nat :=
  if b < M then b else (M + b % M) * 2 ^ (b / M - 1)

/-- The largest bit pattern whose value is at most `n` units. -/
def floorBits (n : Nat) : Nat :=
  if n < M then n else (n.log2 - 52) * M + n / 2 ^ (n.log2 - 52)

/-- Round `n/d` units to the nearest binary64 number, ties to even; overflow gives `inf`. -/
def round (n d : Nat) : Nat :=
  let lo := floorBits (n / d)
  let r :=
    if 2 * n < d * (uval lo + uval (lo + 1)) then lo
    else if d * (uval lo + uval (lo + 1)) < 2 * n then lo + 1
    else if lo % 2 = 0 then lo else lo + 1
  if inf ≤ r then inf else r

/-- `float(text)` for the exact decimal value `p/q`. -/
def ofRat (p q : Nat) : Nat := round (p * unit) q

/-- `x / 1e9`. -/
def divE9 (b : Nat) : Nat := if inf ≤ b then inf else round (uval b) 1000000000

/-- `np.nextafter(x, math.inf)`. -/
def nextafter (b : Nat) : Nat := if b < inf then b + 1 else inf

/-- `a - b` for finite `b ≤ a`. -/
def sub (a b : Nat) : Nat := round (uval a - uval b) 1

/-- `a + b` for finite `a`, `b`. -/
def add (a b : Nat) : Nat := round (uval a + uval b) 1

end F64
end Trappy
