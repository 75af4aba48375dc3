import Verif.Model.Float64
import Mathlib.Tactic.Ring
import Mathlib.Tactic.Linarith
import Mathlib.Tactic.Zify
import Mathlib.Algebra.Order.Ring.Int
import Mathlib.Algebra.Order.Ring.Nat
/-! Facts about the binary64 model: order, Galois connection, rounding. -/

namespace Trappy
namespace F64

theorem M_pos : 0 < M := by decide

theorem uval_lt {b : Nat} (h : b < M) : uval b = b := by simp [uval, h]

theorem uval_form (e m : Nat) (hm : m < M) : uval ((e + 1) * M + m) = (M + m) * 2 ^ e := by
  have h1 : ¬ ((e + 1) * M + m < M) := by
    have : M ≤ (e + 1) * M := Nat.le_mul_of_pos_left _ (by omega)
    omega
  have h2 : ((e + 1) * M + m) % M = m := by
    rw [Nat.mul_add_mod_self_right]; exact Nat.mod_eq_of_lt hm
  have h3 : ((e + 1) * M + m) / M = e + 1 := by
    rw [Nat.mul_comm, Nat.mul_add_div M_pos, Nat.div_eq_of_lt hm]
  simp [uval, h1, h2, h3]

/-- Every bit pattern is subnormal or of the form exponent/mantissa. -/
theorem form (b : Nat) : b < M ∨ ∃ e m, m < M ∧ b = (e + 1) * M + m := by
  by_cases h : b < M
  · exact .inl h
  · right
    refine ⟨b / M - 1, b % M, Nat.mod_lt _ M_pos, ?_⟩
    have h1 : 1 ≤ b / M := (Nat.one_le_div_iff M_pos).mpr (by omega)
    have := Nat.div_add_mod b M
    have h2 : b / M - 1 + 1 = b / M := by omega
    rw [h2, Nat.mul_comm]; omega

theorem uval_succ_lt (b : Nat) : uval b < uval (b + 1) := by
  rcases form b with h | ⟨e, m, hm, rfl⟩
  · by_cases h2 : b + 1 < M
    · rw [uval_lt h, uval_lt h2]; omega
    · have : b + 1 = (0 + 1) * M + 0 := by omega
      rw [this, uval_form 0 0 M_pos, uval_lt h]; simp; omega
  · by_cases h2 : m + 1 < M
    · rw [Nat.add_assoc, uval_form e m hm, uval_form e (m + 1) h2]
      have : 0 < 2 ^ e := Nat.two_pow_pos e
      exact Nat.mul_lt_mul_of_pos_right (by omega) this
    · have : (e + 1) * M + m + 1 = (e + 1 + 1) * M + 0 := by
        have : m + 1 = M := by omega
        rw [Nat.add_assoc, this]; ring
      rw [this, uval_form e m hm, uval_form (e + 1) 0 M_pos]
      have : 0 < 2 ^ e := Nat.two_pow_pos e
      have h3 : (M + 0) * 2 ^ (e + 1) = (M + M) * 2 ^ e := by rw [Nat.pow_succ]; ring
      rw [h3]
      exact Nat.mul_lt_mul_of_pos_right (by omega) this

theorem uval_lt_of_lt {a b : Nat} (h : a < b) : uval a < uval b := by
  induction b with
  | zero => omega
  | succ b ih =>
    rcases Nat.lt_or_ge a b with h' | h'
    · exact (ih h').trans (uval_succ_lt b)
    · have : a = b := by omega
      subst this; exact uval_succ_lt a

theorem uval_le_of_le {a b : Nat} (h : a ≤ b) : uval a ≤ uval b := by
  rcases Nat.lt_or_ge a b with h' | h'
  · exact (uval_lt_of_lt h').le
  · have : a = b := by omega
    rw [this]

theorem uval_lt_iff {a b : Nat} : uval a < uval b ↔ a < b :=
  ⟨fun h => by by_contra hc; have := uval_le_of_le (Nat.not_lt.mp hc); omega, uval_lt_of_lt⟩

theorem uval_le_iff {a b : Nat} : uval a ≤ uval b ↔ a ≤ b :=
  ⟨fun h => by by_contra hc; have := uval_lt_of_lt (Nat.not_le.mp hc); omega, uval_le_of_le⟩

theorem uval_inj {a b : Nat} (h : uval a = uval b) : a = b := by
  have h1 := (uval_le_iff (a := a) (b := b)).mp h.le
  have h2 := (uval_le_iff (a := b) (b := a)).mp h.ge
  omega

theorem uval_zero : uval 0 = 0 := by simp [uval, M_pos]

theorem le_uval (b : Nat) : b ≤ uval b := by
  induction b with
  | zero => omega
  | succ b ih => have := uval_succ_lt b; omega

theorem floorBits_form {n : Nat} (h : M ≤ n) :
    ∃ e m, m < M ∧ floorBits n = (e + 1) * M + m ∧ n / 2 ^ e = M + m := by
  have hn : n ≠ 0 := by have := M_pos; omega
  have h1 : 2 ^ n.log2 ≤ n := Nat.log2_self_le hn
  have h2 : n < 2 ^ (n.log2 + 1) := Nat.lt_log2_self
  have hl : 52 ≤ n.log2 := by
    have : 2 ^ 52 ≤ n := h
    exact (Nat.le_log2 hn).mpr this
  obtain ⟨e, he⟩ : ∃ e, n.log2 = 52 + e := ⟨n.log2 - 52, by omega⟩
  have hk : n.log2 - 52 = e := by omega
  have hp : 0 < 2 ^ e := Nat.two_pow_pos e
  have q1 : M ≤ n / 2 ^ e := by
    rw [Nat.le_div_iff_mul_le hp]
    have : M * 2 ^ e = 2 ^ n.log2 := by rw [he, Nat.pow_add]; rfl
    omega
  have q2 : n / 2 ^ e < M + M := by
    rw [Nat.div_lt_iff_lt_mul hp]
    have : (M + M) * 2 ^ e = 2 ^ (n.log2 + 1) := by
      rw [he, Nat.pow_succ, Nat.pow_add]
      have : M = 2 ^ 52 := rfl
      rw [this]; ring
    omega
  refine ⟨e, n / 2 ^ e - M, by omega, ?_, by omega⟩
  have : ¬ n < M := by omega
  simp only [floorBits, this, if_false, hk]
  have e1 : (e + 1) * M = e * M + M := by ring
  omega

/-- Galois connection: `floorBits n` is the largest pattern of value at most `n`. -/
theorem le_floorBits_iff {b n : Nat} : b ≤ floorBits n ↔ uval b ≤ n := by
  have key : uval (floorBits n) ≤ n ∧ n < uval (floorBits n + 1) := by
    by_cases h : n < M
    · have : floorBits n = n := by simp [floorBits, h]
      rw [this, uval_lt h]
      have := uval_succ_lt n
      rw [uval_lt h] at this
      exact ⟨Nat.le_refl _, this⟩
    · obtain ⟨e, m, hm, hf, hq⟩ := floorBits_form (Nat.not_lt.mp h)
      have hp : 0 < 2 ^ e := Nat.two_pow_pos e
      rw [hf, uval_form e m hm]
      have hd := Nat.div_add_mod n (2 ^ e)
      have hml := Nat.mod_lt n hp
      have e1 : (M + m) * 2 ^ e = 2 ^ e * (n / 2 ^ e) := by rw [hq]; ring
      refine ⟨by omega, ?_⟩
      have e2 : uval ((e + 1) * M + m + 1) = (M + m + 1) * 2 ^ e := by
        by_cases h2 : m + 1 < M
        · rw [Nat.add_assoc, uval_form e (m + 1) h2]; ring
        · have h3 : m + 1 = M := by omega
          have : (e + 1) * M + m + 1 = (e + 1 + 1) * M + 0 := by rw [Nat.add_assoc, h3]; ring
          rw [this, uval_form (e + 1) 0 M_pos, Nat.add_assoc, h3]
          rw [Nat.pow_succ]; ring
      rw [e2]
      have e3 : (M + m + 1) * 2 ^ e = (M + m) * 2 ^ e + 2 ^ e := by ring
      omega
  constructor
  · intro h; exact (uval_le_of_le h).trans key.1
  · intro h
    by_contra hc
    have : uval (floorBits n + 1) ≤ uval b := uval_le_of_le (by omega)
    omega

theorem floorBits_le (n : Nat) : uval (floorBits n) ≤ n := le_floorBits_iff.mp (Nat.le_refl _)

theorem lt_floorBits_succ (n : Nat) : n < uval (floorBits n + 1) := by
  by_contra h
  have := le_floorBits_iff.mpr (Nat.not_lt.mp h)
  omega

theorem floorBits_mono {a b : Nat} (h : a ≤ b) : floorBits a ≤ floorBits b :=
  le_floorBits_iff.mpr ((floorBits_le a).trans h)

theorem floorBits_uval (b : Nat) : floorBits (uval b) = b := by
  have h1 : b ≤ floorBits (uval b) := le_floorBits_iff.mpr (Nat.le_refl _)
  have h2 := (uval_le_iff (a := floorBits (uval b)) (b := b)).mp (floorBits_le _)
  omega

/-- The rounding before clamping at infinity. -/
def round0 (n d : Nat) : Nat :=
  let lo := floorBits (n / d)
  if 2 * n < d * (uval lo + uval (lo + 1)) then lo
  else if d * (uval lo + uval (lo + 1)) < 2 * n then lo + 1
  else if lo % 2 = 0 then lo else lo + 1

theorem round_eq (n d : Nat) : round n d = if inf ≤ round0 n d then inf else round0 n d := rfl

theorem round_le_inf (n d : Nat) : round n d ≤ inf := by
  rw [round_eq]; split <;> omega

theorem round0_cases (n d : Nat) : round0 n d = floorBits (n / d) ∨ round0 n d = floorBits (n / d) + 1 := by
  unfold round0; simp only; split
  · exact .inl rfl
  · split
    · exact .inr rfl
    · split
      · exact .inl rfl
      · exact .inr rfl

theorem lo_le {n d : Nat} : d * uval (floorBits (n / d)) ≤ n := by
  have := floorBits_le (n / d)
  calc d * uval (floorBits (n / d)) ≤ d * (n / d) := Nat.mul_le_mul_left _ this
    _ ≤ n := Nat.mul_div_le n d

theorem lt_hi {n d : Nat} (hd : 0 < d) : n < d * uval (floorBits (n / d) + 1) := by
  have := lt_floorBits_succ (n / d)
  have h1 : n / d + 1 ≤ uval (floorBits (n / d) + 1) := this
  calc n < d * (n / d + 1) := by
        have := Nat.div_add_mod n d; have := Nat.mod_lt n hd; rw [Nat.mul_add]; omega
    _ ≤ _ := Nat.mul_le_mul_left _ h1

theorem round0_exact {b d : Nat} (hd : 0 < d) : round0 (uval b * d) d = b := by
  have h : floorBits (uval b * d / d) = b := by rw [Nat.mul_div_cancel _ hd, floorBits_uval]
  unfold round0
  simp only [h]
  have : 2 * (uval b * d) < d * (uval b + uval (b + 1)) := by
    have := uval_succ_lt b
    have h2 : d * (uval b + uval (b + 1)) = uval b * d + uval (b + 1) * d := by ring
    have h3 : uval b * d < uval (b + 1) * d := Nat.mul_lt_mul_of_pos_right this hd
    omega
  simp [this]

theorem round_exact {b d : Nat} (hd : 0 < d) (hb : b ≤ inf) : round (uval b * d) d = b := by
  rw [round_eq, round0_exact hd]; split <;> omega

/-- Rounding is monotone. -/
theorem round0_mono {n1 d1 n2 d2 : Nat} (h1 : 0 < d1) (h2 : 0 < d2) (h : n1 * d2 ≤ n2 * d1) :
    round0 n1 d1 ≤ round0 n2 d2 := by
  have hq : n1 / d1 ≤ n2 / d2 := by
    rw [Nat.le_div_iff_mul_le h2]
    have : n1 / d1 * d1 ≤ n1 := Nat.div_mul_le_self n1 d1
    have : n1 / d1 * d2 * d1 ≤ n2 * d1 := by
      calc n1 / d1 * d2 * d1 = n1 / d1 * d1 * d2 := by ring
        _ ≤ n1 * d2 := Nat.mul_le_mul_right _ this
        _ ≤ _ := h
    exact Nat.le_of_mul_le_mul_right this h1
  have hf := floorBits_mono hq
  rcases Nat.lt_or_ge (floorBits (n1 / d1)) (floorBits (n2 / d2)) with hl | hl
  · rcases round0_cases n1 d1 with e | e <;> rcases round0_cases n2 d2 with e' | e' <;> omega
  · have he : floorBits (n1 / d1) = floorBits (n2 / d2) := by omega
    unfold round0
    simp only [he]
    generalize floorBits (n2 / d2) = lo
    generalize hs : uval lo + uval (lo + 1) = s
    -- compare 2*n1/d1 with s and 2*n2/d2 with s
    by_cases a1 : 2 * n1 < d1 * s
    · simp only [a1, if_true]; split <;> [omega; (split <;> [omega; (split <;> omega)])]
    · have b1 : ¬ 2 * n2 < d2 * s := by
        intro hc
        apply a1
        have : 2 * n1 * d2 < d1 * s * d2 := by
          calc 2 * n1 * d2 = 2 * (n1 * d2) := by ring
            _ ≤ 2 * (n2 * d1) := by omega
            _ = (2 * n2) * d1 := by ring
            _ < d2 * s * d1 := Nat.mul_lt_mul_of_pos_right hc h1
            _ = d1 * s * d2 := by ring
        exact Nat.lt_of_mul_lt_mul_right this
      simp only [a1, b1, if_false]
      by_cases a2 : d1 * s < 2 * n1
      · have b2 : d2 * s < 2 * n2 := by
          have : d2 * s * d1 < 2 * n2 * d1 := by
            calc d2 * s * d1 = d1 * s * d2 := by ring
              _ < 2 * n1 * d2 := Nat.mul_lt_mul_of_pos_right a2 h2
              _ = 2 * (n1 * d2) := by ring
              _ ≤ 2 * (n2 * d1) := by omega
              _ = _ := by ring
          exact Nat.lt_of_mul_lt_mul_right this
        simp [a2, b2]
      · simp only [a2, if_false]
        split <;> split <;> omega

theorem round_mono {n1 d1 n2 d2 : Nat} (h1 : 0 < d1) (h2 : 0 < d2) (h : n1 * d2 ≤ n2 * d1) :
    round n1 d1 ≤ round n2 d2 := by
  have := round0_mono h1 h2 h
  rw [round_eq, round_eq]; split <;> split <;> omega

/-- Distance of `n/d` units to the value of pattern `b`, scaled by `d`. -/
def dist (n d b : Nat) : Nat := if d * uval b ≤ n then n - d * uval b else d * uval b - n

/-- `round0` picks a nearest pattern. -/
theorem round0_nearest {n d : Nat} (hd : 0 < d) (b : Nat) : dist n d (round0 n d) ≤ dist n d b := by
  have l1 := lo_le (n := n) (d := d)
  have l2 := lt_hi (n := n) hd
  have hb : d * uval b ≤ d * uval (floorBits (n / d)) ∨ d * uval (floorBits (n / d) + 1) ≤ d * uval b := by
    rcases Nat.lt_or_ge (floorBits (n / d)) b with h | h
    · exact .inr (Nat.mul_le_mul_left _ (uval_le_of_le h))
    · exact .inl (Nat.mul_le_mul_left _ (uval_le_of_le h))
  unfold round0 dist
  simp only
  generalize floorBits (n / d) = lo at *
  have hs : d * (uval lo + uval (lo + 1)) = d * uval lo + d * uval (lo + 1) := by ring
  rw [hs]
  generalize hA : d * uval lo = A at *
  generalize hB : d * uval (lo + 1) = B at *
  generalize d * uval b = C at *
  split
  · rw [hA]; split <;> split <;> omega
  · split
    · rw [hB]; split <;> split <;> omega
    · split
      · rw [hA]; split <;> split <;> omega
      · rw [hB]; split <;> split <;> omega

/-- Ties go to the even pattern. -/
theorem round0_tie {n d : Nat} (hd : 0 < d) (b : Nat) (hb : b ≠ round0 n d)
    (h : dist n d (round0 n d) = dist n d b) : round0 n d % 2 = 0 := by
  have l1 := lo_le (n := n) (d := d)
  have l2 := lt_hi (n := n) hd
  have hb' : b = floorBits (n / d) ∨ b = floorBits (n / d) + 1 ∨
      d * uval b < d * uval (floorBits (n / d)) ∨ d * uval (floorBits (n / d) + 1) < d * uval b := by
    rcases Nat.lt_trichotomy b (floorBits (n / d)) with h | h | h
    · exact .inr (.inr (.inl (Nat.mul_lt_mul_of_pos_left (uval_lt_of_lt h) hd)))
    · exact .inl h
    · rcases Nat.lt_or_ge (floorBits (n / d) + 1) b with h' | h'
      · exact .inr (.inr (.inr (Nat.mul_lt_mul_of_pos_left (uval_lt_of_lt h') hd)))
      · exact .inr (.inl (by omega))
  revert hb h
  unfold round0 dist
  simp only
  generalize floorBits (n / d) = lo at *
  have hs : d * (uval lo + uval (lo + 1)) = d * uval lo + d * uval (lo + 1) := by ring
  rw [hs]
  have hAl : ∀ x, x = lo → d * uval x = d * uval lo := by rintro x rfl; rfl
  have hBl : ∀ x, x = lo + 1 → d * uval x = d * uval (lo + 1) := by rintro x rfl; rfl
  have c1 := hAl b
  have c2 := hBl b
  generalize hA : d * uval lo = A at *
  generalize hB : d * uval (lo + 1) = B at *
  generalize d * uval b = C at *
  intro hb h
  split at h
  · rename_i g
    rw [if_pos g] at hb ⊢
    rw [hA] at h
    rcases hb' with rfl | rfl | h3 | h3
    · exact absurd rfl hb
    · have := c2 rfl; split at h <;> split at h <;> omega
    · split at h <;> split at h <;> omega
    · split at h <;> split at h <;> omega
  · rename_i g
    rw [if_neg g] at hb ⊢
    split at h
    · rename_i g2
      rw [if_pos g2] at hb ⊢
      rw [hB] at h
      rcases hb' with rfl | rfl | h3 | h3
      · have := c1 rfl; split at h <;> split at h <;> omega
      · exact absurd rfl hb
      · split at h <;> split at h <;> omega
      · split at h <;> split at h <;> omega
    · rename_i g2
      rw [if_neg g2]
      split <;> omega

end F64
end Trappy
