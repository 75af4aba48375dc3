import Mathlib.Tactic.Linarith
import Mathlib.Tactic.Ring
import Mathlib.Tactic.FieldSimp
import Mathlib.Tactic.Positivity
import Mathlib.Data.Rat.Floor
import Mathlib.Data.Fintype.Pigeonhole
import Verif.Model.ColourIndex
/-!
# C185: which colour a line gets
-/

namespace Trappy

theorem nearestEven_err (a b : Nat) (hb : 0 < b) : 2 * (nearestEven a b * b) ≤ 2 * a + b ∧ 2 * a ≤ 2 * (nearestEven a b * b) + b := by
  have h1 := Nat.div_add_mod a b
  have h2 := Nat.mod_lt a hb
  have e : b * (a / b) = a / b * b := Nat.mul_comm ..
  have e2 : (a / b + 1) * b = a / b * b + b := Nat.succ_mul ..
  unfold nearestEven
  split
  · omega
  · split
    · rw [e2]; omega
    · split
      · omega
      · rw [e2]; omega

theorem nearestEven_exact (a b : Nat) (hb : 0 < b) : nearestEven (a * b) b = a := by
  unfold nearestEven
  rw [Nat.mul_mod_left, Nat.mul_div_cancel _ hb, if_pos (by omega)]

theorem scaleUp_ge (p b : Nat) (fuel a : Nat) (h : b * 2 ^ (p - 1) ≤ a * 2 ^ fuel) : b * 2 ^ (p - 1) ≤ a * 2 ^ scaleUp p b fuel a := by
  induction fuel generalizing a with
  | zero => exact h
  | succ f ih =>
    unfold scaleUp
    split
    · simpa using ‹_›
    · have := ih (a * 2) (by rw [Nat.mul_assoc, ← Nat.pow_succ']; exact h)
      rw [Nat.mul_assoc, ← Nat.pow_succ'] at this
      exact this

theorem roundBits_scale (p a b : Nat) (ha : 0 < a) : b * 2 ^ (p - 1) ≤ a * 2 ^ (roundBits p a b).2 := by
  apply scaleUp_ge
  have h1 : b < 2 ^ (b.log2 + 1) := Nat.lt_log2_self
  calc b * 2 ^ (p - 1) ≤ 2 ^ (b.log2 + 1) * 2 ^ p := Nat.mul_le_mul (le_of_lt h1) (Nat.pow_le_pow_right (by omega) (by omega))
    _ = 1 * 2 ^ (p + (b.log2 + 1)) := by rw [Nat.one_mul, Nat.pow_add 2 p, Nat.mul_comm]
    _ ≤ a * 2 ^ (p + (b.log2 + 1)) := Nat.mul_le_mul_right _ ha

/-- the number that is meant by a pair -/
def bitsVal (x : Nat × Nat) : Rat := (x.1 : Rat) / 2 ^ x.2

/-- the relative error of rounding is at most `2 ^ (-p)` -/
theorem roundBits_err (p a b : Nat) (hp : 0 < p) (ha : 0 < a) (hb : 0 < b) :
    |bitsVal (roundBits p a b) - (a : Rat) / b| ≤ (a : Rat) / b / 2 ^ p := by
  have h1 := roundBits_scale p a b ha
  have h2 := nearestEven_err (a * 2 ^ (roundBits p a b).2) b hb
  have h0 : (roundBits p a b).1 = nearestEven (a * 2 ^ (roundBits p a b).2) b := rfl
  rw [← h0] at h2
  unfold bitsVal
  generalize (roundBits p a b).1 = m at h2 ⊢
  generalize (roundBits p a b).2 = k at h1 h2 ⊢
  obtain ⟨q, rfl⟩ : ∃ q, p = q + 1 := ⟨p - 1, by omega⟩
  rw [Nat.add_sub_cancel] at h1
  have hb' : (0 : Rat) < b := by exact_mod_cast hb
  have hk : (0 : Rat) < 2 ^ k := by positivity
  have hq : (0 : Rat) < 2 ^ q := by positivity
  have h1' : (b : Rat) * 2 ^ q ≤ a * 2 ^ k := by exact_mod_cast h1
  have h3 : 2 * ((m : Rat) * b) ≤ 2 * (a * 2 ^ k) + b := by exact_mod_cast h2.1
  have h4 : 2 * ((a : Rat) * 2 ^ k) ≤ 2 * (m * b) + b := by exact_mod_cast h2.2
  have e : (m : Rat) / 2 ^ k - a / b = (m * b - a * 2 ^ k) / (2 ^ k * b) := by field_simp
  have e2 : (a : Rat) / b / 2 ^ (q + 1) = a / (b * 2 ^ (q + 1)) := by rw [div_div]
  have h5 : |(m : Rat) * b - a * 2 ^ k| ≤ b / 2 := by rw [abs_le]; constructor <;> linarith
  rw [e, e2, abs_div, abs_of_pos (show (0 : Rat) < 2 ^ k * b by positivity), div_le_div_iff₀ (by positivity) (by positivity)]
  calc |(m : Rat) * b - a * 2 ^ k| * (b * 2 ^ (q + 1)) ≤ b / 2 * (b * 2 ^ (q + 1)) := by
        apply mul_le_mul_of_nonneg_right h5 (by positivity)
    _ = b * (b * 2 ^ q) := by rw [pow_succ]; ring
    _ ≤ b * (a * 2 ^ k) := mul_le_mul_of_nonneg_left h1' (le_of_lt hb')
    _ = a * (2 ^ k * b) := by ring

theorem roundBits_zero (p b : Nat) : bitsVal (roundBits p 0 b) = 0 := by
  unfold bitsVal roundBits
  simp [nearestEven]

/-- the value before it is cut to an integer has a relative error of at most three roundings -/
theorem colour_err (p size n i : Nat) (hp : 0 < p) (hn : 0 < n) (hs : 0 < size) :
    let x := roundBits p i n;
    |bitsVal (roundBits p (x.1 * size) (2 ^ x.2)) - (i : Rat) * size / n| ≤ (i : Rat) * size / n * (3 / 2 ^ p) := by
  intro x
  rcases Nat.eq_zero_or_pos i with rfl | hi
  · have h0 : x.1 = 0 := by simp [x, roundBits, nearestEven]
    rw [h0, Nat.zero_mul, roundBits_zero]
    simp
  have hn' : (0 : Rat) < n := by exact_mod_cast hn
  have hs' : (0 : Rat) < size := by exact_mod_cast hs
  have hi' : (0 : Rat) < i := by exact_mod_cast hi
  have hu : (2 : Rat) ≤ 2 ^ p := by
    obtain ⟨q, rfl⟩ : ∃ q, p = q + 1 := ⟨p - 1, by omega⟩
    rw [pow_succ]
    have : (1 : Rat) ≤ 2 ^ q := one_le_pow₀ (by norm_num)
    linarith
  have h1 : |bitsVal x - (i : Rat) / n| ≤ (i : Rat) / n / 2 ^ p := roundBits_err p i n hp hi hn
  have ev : bitsVal x * size = ((x.1 * size : Nat) : Rat) / ((2 ^ x.2 : Nat) : Rat) := by
    unfold bitsVal; push_cast; ring
  have hx : 0 < x.1 := by
    rcases Nat.eq_zero_or_pos x.1 with h | h
    · exfalso
      have hz : bitsVal x = 0 := by unfold bitsVal; rw [h]; simp
      rw [hz, zero_sub, abs_neg, abs_of_pos (by positivity), le_div_iff₀ (by positivity)] at h1
      have : (0 : Rat) < i / n := by positivity
      nlinarith
    · exact h
  have h2 := roundBits_err p (x.1 * size) (2 ^ x.2) hp (Nat.mul_pos hx hs) (Nat.pow_pos (by omega))
  rw [← ev] at h2
  generalize bitsVal (roundBits p (x.1 * size) (2 ^ x.2)) = r at h2 ⊢
  generalize bitsVal x = v at h1 h2 ⊢
  have eq : (i : Rat) * size / n = i / n * size := by ring
  rw [eq]
  generalize (i : Rat) / n = q at h1 ⊢
  have hq : 0 ≤ q := by
    have := abs_nonneg (v - q)
    have h3 : 0 ≤ q / 2 ^ p := le_trans this h1
    by_contra hneg
    have : q / 2 ^ p < 0 := div_neg_of_neg_of_pos (not_le.mp hneg) (by positivity)
    linarith
  have hinv : (1 : Rat) / 2 ^ p ≤ 1 / 2 := one_div_le_one_div_of_le (by norm_num) hu
  have hpos : (0 : Rat) < 1 / 2 ^ p := by positivity
  rw [div_eq_mul_one_div q] at h1
  rw [div_eq_mul_one_div (v * (size : Rat))] at h2
  rw [div_eq_mul_one_div (3 : Rat)]
  generalize (1 : Rat) / 2 ^ p = u at h1 h2 hinv hpos ⊢
  rw [abs_le] at h1 h2 ⊢
  have hv : v ≤ q * (1 + u) := by linarith [h1.2]
  have hv' : q * (1 - u) ≤ v := by linarith [h1.1]
  have a1 : v * size ≤ q * (1 + u) * size := mul_le_mul_of_nonneg_right hv (le_of_lt hs')
  have a2 : q * (1 - u) * size ≤ v * size := mul_le_mul_of_nonneg_right hv' (le_of_lt hs')
  have a3 : v * size * u ≤ q * (1 + u) * size * u := mul_le_mul_of_nonneg_right a1 (le_of_lt hpos)
  have hqs : 0 ≤ q * size := mul_nonneg hq (le_of_lt hs')
  have a4 : q * size * (u * u) ≤ q * size * (u * (1 / 2)) := mul_le_mul_of_nonneg_left (mul_le_mul_of_nonneg_left hinv (le_of_lt hpos)) hqs
  have a5 : 0 ≤ q * size * u := mul_nonneg hqs (le_of_lt hpos)
  constructor
  · nlinarith [h2.1]
  · nlinarith [h2.2]

/-- cutting to an integer -/
theorem cut_iff (x : Nat × Nat) (j : Nat) : x.1 / 2 ^ x.2 = j ↔ (j : Rat) ≤ bitsVal x ∧ bitsVal x < j + 1 := by
  have hk : (0 : Rat) < 2 ^ x.2 := by positivity
  unfold bitsVal
  rw [le_div_iff₀ hk, div_lt_iff₀ hk]
  rw [Nat.div_eq_iff (Nat.pow_pos (by omega) : 0 < 2 ^ x.2)]
  have e1 : ((j : Rat) * 2 ^ x.2 ≤ x.1) ↔ j * 2 ^ x.2 ≤ x.1 := by exact_mod_cast Iff.rfl
  have e2 : ((x.1 : Rat) < (j + 1) * 2 ^ x.2) ↔ x.1 < (j + 1) * 2 ^ x.2 := by exact_mod_cast Iff.rfl
  rw [e1, e2]
  have : 0 < 2 ^ x.2 := Nat.pow_pos (by omega)
  rw [Nat.succ_mul]
  omega

/-- the value that is cut to an integer -/
def colourVal (p size n i : Nat) : Nat × Nat := roundBits p ((roundBits p i n).1 * size) (2 ^ (roundBits p i n).2)

theorem colourIndex_eq (p size n i : Nat) : colourIndex p size n i = min ((colourVal p size n i).1 / 2 ^ (colourVal p size n i).2) (size - 1) := rfl

theorem listVal_err (p n i : Nat) (hp : 0 < p) (hn : 0 < n) : |bitsVal (colourVal p n n i) - i| ≤ (i : Rat) * (3 / 2 ^ p) := by
  have h := colour_err p n n i hp hn hn
  have hn' : (n : Rat) ≠ 0 := by exact_mod_cast hn.ne'
  rw [mul_div_assoc, div_self hn', mul_one] at h
  exact h

theorem small_err {p n : Nat} (hn : n * 4 < 2 ^ p) : (n : Rat) * (3 / 2 ^ p) < 1 := by
  have h : (n : Rat) * 4 < 2 ^ p := by exact_mod_cast hn
  have hk : (0 : Rat) < 2 ^ p := by positivity
  rw [← mul_div_assoc, div_lt_one hk]
  have : (0 : Rat) ≤ n := by positivity
  linarith

theorem pos_of_small {p n : Nat} (hn : n * 4 < 2 ^ p) (h0 : 0 < n) : 0 < p := by
  rcases Nat.eq_zero_or_pos p with rfl | h
  · simp at hn; omega
  · exact h

/-- **C185**: with a list of colours, every line gets its own colour or the one before it, for every number of colours below `2 ^ (p - 2)`. -/
theorem C185_near (p n i : Nat) (hn : n * 4 < 2 ^ p) (hi : i < n) : listColour p n i = i ∨ listColour p n i + 1 = i := by
  have h := listVal_err p n i (pos_of_small hn (by omega)) (by omega)
  have h1 := small_err hn
  have hk : (0 : Rat) < 3 / 2 ^ p := by positivity
  have hi' : (i : Rat) < n := by exact_mod_cast hi
  have h2 : (i : Rat) * (3 / 2 ^ p) < 1 := lt_of_le_of_lt (mul_le_mul_of_nonneg_right (le_of_lt hi') (le_of_lt hk)) h1
  rw [abs_le] at h
  unfold listColour
  rw [colourIndex_eq]
  by_cases hge : (i : Rat) ≤ bitsVal (colourVal p n n i)
  · left
    rw [(cut_iff _ i).mpr ⟨hge, by linarith [h.2]⟩]
    omega
  · right
    push Not at hge
    cases i with
    | zero =>
      exfalso
      have : (0 : Rat) ≤ bitsVal (colourVal p n n 0) := by unfold bitsVal; positivity
      simp at hge
      linarith
    | succ i =>
      rw [(cut_iff _ i).mpr ⟨by push_cast at h h2 ⊢; linarith [h.1], by push_cast at hge; linarith⟩]
      omega

/-- **C185**: if there are more lines than colours, the other lines get the last colour. -/
theorem C185_more (p n i : Nat) (hn : n * 4 < 2 ^ p) (h0 : 0 < n) (hi : n ≤ i) : listColour p n i = n - 1 := by
  have hp := pos_of_small hn h0
  have h := listVal_err p n i hp h0
  have h1 := small_err hn
  rw [abs_le] at h
  have hi' : (n : Rat) ≤ i := by exact_mod_cast hi
  have h3 : (3 : Rat) / 2 ^ p ≤ 1 := by
    have : (4 : Rat) ≤ 2 ^ p := by
      have : 4 ≤ 2 ^ p := by omega
      exact_mod_cast this
    rw [div_le_one (by positivity)]
    linarith
  have h2 : (n : Rat) - 1 < bitsVal (colourVal p n n i) := by
    have : (n : Rat) * (1 - 3 / 2 ^ p) ≤ i * (1 - 3 / 2 ^ p) := mul_le_mul_of_nonneg_right hi' (by linarith)
    linarith [h.1]
  unfold listColour
  rw [colourIndex_eq]
  obtain ⟨q, hq⟩ : ∃ q, (colourVal p n n i).1 / 2 ^ (colourVal p n n i).2 = q := ⟨_, rfl⟩
  have h4 := ((cut_iff _ q).mp hq).2
  have h5 : (n : Rat) < q + 2 := by linarith
  have h6 : n < q + 2 := by exact_mod_cast h5
  rw [hq]
  omega

/-- **C185**: if the number of colours is a power of two, every line gets its own colour. -/
theorem C185_powers (p j i : Nat) (hj : j ≤ p) (hi : i < 2 ^ j) : listColour p (2 ^ j) i = i := by
  rcases Nat.eq_zero_or_pos i with rfl | h0
  · have : (roundBits p 0 (2 ^ j)).1 = 0 := by simp [roundBits, nearestEven]
    unfold listColour colourIndex
    simp [roundBits, nearestEven]
  have hk : j ≤ (roundBits p i (2 ^ j)).2 := by
    have h1 := roundBits_scale p i (2 ^ j) h0
    have h2 : 2 ^ j * 2 ^ (p - 1) < 2 ^ j * 2 ^ (roundBits p i (2 ^ j)).2 :=
      lt_of_le_of_lt h1 (Nat.mul_lt_mul_of_pos_right hi (Nat.pow_pos (by omega)))
    have h3 := Nat.lt_of_mul_lt_mul_left h2
    have h4 := (Nat.pow_lt_pow_iff_right (by omega : 1 < 2)).mp h3
    omega
  have hx : (roundBits p i (2 ^ j)).1 * 2 ^ j = i * 2 ^ (roundBits p i (2 ^ j)).2 := by
    have e : (roundBits p i (2 ^ j)).1 = nearestEven (i * 2 ^ (roundBits p i (2 ^ j)).2) (2 ^ j) := rfl
    obtain ⟨d, hd⟩ := Nat.exists_eq_add_of_le hk
    rw [e, hd, Nat.pow_add, Nat.mul_comm (2 ^ j), ← Nat.mul_assoc, nearestEven_exact _ _ (Nat.pow_pos (by omega))]
  have hy : ∀ k, (roundBits p (i * 2 ^ k) (2 ^ k)).1 = i * 2 ^ (roundBits p (i * 2 ^ k) (2 ^ k)).2 := by
    intro k
    have e : (roundBits p (i * 2 ^ k) (2 ^ k)).1 = nearestEven (i * 2 ^ k * 2 ^ (roundBits p (i * 2 ^ k) (2 ^ k)).2) (2 ^ k) := rfl
    rw [e, Nat.mul_right_comm, nearestEven_exact _ _ (Nat.pow_pos (by omega))]
  unfold listColour
  rw [colourIndex_eq]
  unfold colourVal
  rw [hx, hy, Nat.mul_div_cancel _ (Nat.pow_pos (by omega))]
  omega

/-- **C185**: with at most 21 colours, every line gets its own colour, in binary32 and in binary64. -/
theorem C185_few_partial : ∀ n ≤ 21, ∀ i < n, listColour 24 n i = i ∧ listColour 53 n i = i := by decide +kernel

/-- **C185 refuted**: with 22 colours, line 13 (binary32) or line 15 (binary64), counted from 0, gets the colour of the line before it, which two lines
then have. -/
theorem C185_colours_refuted : listColour 24 22 12 = 12 ∧ listColour 24 22 13 = 12 ∧ listColour 53 22 14 = 14 ∧ listColour 53 22 15 = 14 := by
  decide +kernel

/-- **C185 refuted**: backwards (`cmap_inv`), the first two lines both get the last colour, for every number of colours that is a power of two. -/
theorem C185_backwards_refuted (p j : Nat) (hj : j + 2 < p) : invColour p (2 ^ j) 0 = 2 ^ j - 1 ∧ invColour p (2 ^ j) 1 = 2 ^ j - 1 := by
  have hpos : 0 < 2 ^ j := Nat.pow_pos (by omega)
  constructor
  · refine C185_more p (2 ^ j) _ ?_ hpos (by omega)
    have : 2 ^ (j + 2) < 2 ^ p := (Nat.pow_lt_pow_iff_right (by omega)).mpr hj
    rw [Nat.pow_add] at this
    omega
  · exact C185_powers p j _ (by omega) (by omega)

example : (List.range 4).map (invColour 24 4) = [3, 3, 2, 1] := by decide +kernel

/-! ## The colours that are given to lines by default -/

theorem hsv_err (p n i : Nat) (hp : 24 ≤ p) (hi : i < n) : |bitsVal (colourVal p 256 n i) - (i : Rat) * 256 / n| ≤ 1 / 10000 := by
  have hn' : (0 : Rat) < n := by exact_mod_cast (by omega : 0 < n)
  have h := colour_err p 256 n i (by omega) (by omega) (by omega)
  refine le_trans (by simpa [colourVal] using h) ?_
  have h1 : (i : Rat) * 256 / n ≤ 256 := by
    rw [div_le_iff₀ hn']
    have : (i : Rat) ≤ n := by exact_mod_cast hi.le
    linarith
  have h2 : (2 : Rat) ^ 24 ≤ 2 ^ p := pow_le_pow_right₀ (by norm_num) hp
  have h3 : (3 : Rat) / 2 ^ p ≤ 3 / 2 ^ 24 := div_le_div_of_nonneg_left (by norm_num) (by positivity) h2
  calc (i : Rat) * 256 / n * (3 / 2 ^ p) ≤ 256 * (3 / 2 ^ 24) := mul_le_mul h1 h3 (by positivity) (by norm_num)
    _ ≤ 1 / 10000 := by norm_num

theorem hsv_lt (p n i j : Nat) (hp : 24 ≤ p) (hn : n < 256) (hij : i < j) (hj : j < n) : hsvColour p n i < hsvColour p n j := by
  have hn' : (0 : Rat) < n := by exact_mod_cast (by omega : 0 < n)
  have h1 := abs_le.mp (hsv_err p n i hp (by omega))
  have h2 := abs_le.mp (hsv_err p n j hp hj)
  have hg : (256 : Rat) / 255 ≤ 256 / n := by
    apply div_le_div_of_nonneg_left (by norm_num) hn'
    have : n ≤ 255 := by omega
    exact_mod_cast this
  have h3 : (i : Rat) * 256 / n + 256 / n ≤ j * 256 / n := by
    rw [← add_div]
    apply div_le_div_of_nonneg_right _ hn'.le
    have : (i : Rat) + 1 ≤ j := by exact_mod_cast hij
    linarith
  have h4 : (j : Rat) * 256 / n + 256 / n ≤ 256 := by
    rw [← add_div, div_le_iff₀ hn']
    have : (j : Rat) + 1 ≤ n := by exact_mod_cast hj
    linarith
  unfold hsvColour
  rw [colourIndex_eq, colourIndex_eq]
  obtain ⟨a, ha⟩ : ∃ q, (colourVal p 256 n i).1 / 2 ^ (colourVal p 256 n i).2 = q := ⟨_, rfl⟩
  obtain ⟨b, hb⟩ : ∃ q, (colourVal p 256 n j).1 / 2 ^ (colourVal p 256 n j).2 = q := ⟨_, rfl⟩
  have h5 := (cut_iff _ a).mp ha
  have h6 := (cut_iff _ b).mp hb
  norm_num at hg h1 h2
  have h7 : (a : Rat) < b := by linarith [h5.1, h6.2]
  have h8 : (b : Rat) < 256 := by linarith [h6.1]
  have h7' : a < b := by exact_mod_cast h7
  have h8' : b < 256 := by exact_mod_cast h8
  rw [ha, hb]
  omega

/-- **C185**: the colours that lines get by default are at different places of the table exactly if there are at most 256 lines. -/
theorem C185_default_exact (p n : Nat) (hp : 24 ≤ p) : (∀ i < n, ∀ j < n, hsvColour p n i = hsvColour p n j → i = j) ↔ n ≤ 256 := by
  constructor
  · intro h
    by_contra hn
    have hlt : ∀ i : Fin n, hsvColour p n i < 256 := by
      intro i
      unfold hsvColour
      rw [colourIndex_eq]
      omega
    obtain ⟨x, y, hxy, e⟩ := Fintype.exists_ne_map_eq_of_card_lt (fun i : Fin n => (⟨hsvColour p n i, hlt i⟩ : Fin 256)) (by simp; omega)
    simp only [Fin.mk.injEq] at e
    exact hxy (Fin.ext (h x x.isLt y y.isLt e))
  · intro hn i hi j hj e
    rcases Nat.lt_or_ge n 256 with hlt | hge
    · rcases Nat.lt_trichotomy i j with h | h | h
      · have := hsv_lt p n i j hp hlt h hj; omega
      · exact h
      · have := hsv_lt p n j i hp hlt h hi; omega
    · obtain rfl : n = 256 := by omega
      have h1 := C185_powers p 8 i (by omega) hi
      have h2 := C185_powers p 8 j (by omega) hj
      unfold listColour at h1 h2
      unfold hsvColour at e
      norm_num at h1 h2
      rw [h1, h2] at e
      exact e

/-- three lines, and as many as there are colours -/
example : (List.range 3).map (hsvColour 24 3) = [0, 85, 170] ∧ hsvColour 24 300 1 = hsvColour 24 300 0 := by decide +kernel
example : (22 : Nat) * 4 < 2 ^ 24 := by decide
example : (List.range 6).map (listColour 24 4) = [0, 1, 2, 3, 3, 3] := by decide +kernel

end Trappy
