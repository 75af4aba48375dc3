import Verif.Spec.Float64
import Verif.Lemma.Float64
import Mathlib.Tactic.FieldSimp
import Mathlib.Tactic.Linarith
import Mathlib.Tactic.Positivity
import Mathlib.Tactic.NormNum
/-! `round` computes the nearest-even binary64 number of a rational. -/

namespace Trappy
namespace F64

theorem dist_cast {n d : Nat} (hd : 0 < d) (b : Nat) :
    (dist n d b : ℚ) / (d * 2 ^ 1074) = |val b - (n : ℚ) / (d * 2 ^ 1074)| := by
  have hd' : (0 : ℚ) < d := by exact_mod_cast hd
  have e : val b - (n : ℚ) / (d * 2 ^ 1074) = ((d * uval b : ℚ) - n) / (d * 2 ^ 1074) := by
    unfold val; field_simp
  have hp : (0 : ℚ) < d * 2 ^ 1074 := by positivity
  rw [e, abs_div, abs_of_pos hp]
  congr 1
  unfold dist
  split
  · rename_i h
    have h' : (d * uval b : ℚ) ≤ n := by exact_mod_cast h
    rw [abs_of_nonpos (by linarith), Nat.cast_sub h]; push_cast; ring
  · rename_i h
    have h' : (n : ℚ) ≤ d * uval b := by exact_mod_cast (by omega : n ≤ d * uval b)
    rw [abs_of_nonneg (by linarith), Nat.cast_sub (by omega)]; push_cast; ring

theorem dist_le_iff {n d : Nat} (hd : 0 < d) (b c : Nat) :
    |val b - (n : ℚ) / (d * 2 ^ 1074)| ≤ |val c - (n : ℚ) / (d * 2 ^ 1074)| ↔ dist n d b ≤ dist n d c := by
  rw [← dist_cast hd, ← dist_cast hd]
  have hd' : (0 : ℚ) < d := by exact_mod_cast hd
  have hp : (0 : ℚ) < d * 2 ^ 1074 := by positivity
  rw [div_le_div_iff_of_pos_right hp]
  exact_mod_cast Iff.rfl

theorem round_nearestEven {n d : Nat} (hd : 0 < d) (h : round n d < inf) :
    NearestEven ((n : ℚ) / (d * 2 ^ 1074)) (round n d) := by
  have e : round n d = round0 n d := by rw [round_eq] at h ⊢; split at h <;> simp_all
  refine ⟨h, fun c _ => ⟨?_, ?_⟩⟩
  · rw [dist_le_iff hd, e]; exact round0_nearest hd c
  · intro hc he
    have h1 := (dist_le_iff hd (round n d) c).mp he.le
    have h2 := (dist_le_iff hd c (round n d)).mp he.ge
    rw [e] at *
    exact round0_tie hd c hc (Nat.le_antisymm h1 h2)

theorem ofRat_nearestEven {p q : Nat} (hq : 0 < q) (h : ofRat p q < inf) :
    NearestEven ((p : ℚ) / q) (ofRat p q) := by
  have := round_nearestEven hq h
  have e : ((p * unit : Nat) : ℚ) / (q * 2 ^ 1074) = (p : ℚ) / q := by
    have hd' : (0 : ℚ) < q := by exact_mod_cast hq
    unfold unit; push_cast; field_simp
  rwa [e] at this

/-- Below the largest finite number the result is finite. -/
theorem ofRat_lt_inf {p q : Nat} (hq : 0 < q) (h : (p : ℚ) / q ≤ val (inf - 1)) : ofRat p q < inf := by
  have h1 : p * unit ≤ uval (inf - 1) * q := by
    have hd' : (0 : ℚ) < q := by exact_mod_cast hq
    unfold val at h
    rw [div_le_div_iff₀ hd' (by positivity)] at h
    unfold unit
    exact_mod_cast h
  have h2 : round (p * unit) q ≤ round (uval (inf - 1) * 1) 1 :=
    round_mono hq (by omega) (by simpa using h1)
  rw [round_exact (by omega) (by omega)] at h2
  have : 0 < inf := by decide
  unfold ofRat; omega

theorem divE9_lt_inf {x : Nat} (h : x < inf) : divE9 x < inf := by
  unfold divE9
  rw [if_neg (by omega)]
  have h2 : round (uval x) 1000000000 ≤ round (uval x * 1) 1 :=
    round_mono (by omega) (by omega) (by omega)
  rw [round_exact (by omega) (by omega)] at h2
  omega

theorem divE9_nearestEven {x : Nat} (h : x < inf) : NearestEven (val x / 10 ^ 9) (divE9 x) := by
  have h1 := divE9_lt_inf h
  have e0 : divE9 x = round (uval x) 1000000000 := by unfold divE9; rw [if_neg (by omega)]
  rw [e0] at h1 ⊢
  have := round_nearestEven (by omega) h1
  have e : ((uval x : ℚ)) / ((1000000000 : Nat) * 2 ^ 1074) = val x / 10 ^ 9 := by
    unfold val; push_cast; field_simp; norm_num
  rwa [e] at this

theorem val_le_iff {a b : Nat} : val a ≤ val b ↔ a ≤ b := by
  unfold val
  rw [div_le_div_iff_of_pos_right (by positivity), ← uval_le_iff (a := a) (b := b)]
  exact_mod_cast Iff.rfl

theorem val_lt_iff {a b : Nat} : val a < val b ↔ a < b := by
  rw [← not_le, val_le_iff]; omega

end F64
end Trappy
