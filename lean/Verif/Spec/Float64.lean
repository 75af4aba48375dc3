import Verif.Model.Float64
import Mathlib.Algebra.Order.Field.Rat
/-!
# Specification of binary64 numbers

The rational value of a bit pattern and what it means for a pattern to be the correctly rounded result.
-/

namespace Trappy
namespace F64

/-- The rational number a finite pattern stands for. -/
def val (b : Nat) : ℚ := (uval b : ℚ) / 2 ^ 1074

/-- `x` is the finite binary64 number nearest to `q`; on a tie it is the one with an even pattern. -/
def NearestEven (q : ℚ) (x : Nat) : Prop :=
  x < inf ∧ ∀ c, c < inf → |val x - q| ≤ |val c - q| ∧ (c ≠ x → |val x - q| = |val c - q| → x % 2 = 0)

end F64
end Trappy
