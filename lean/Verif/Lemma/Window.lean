import Verif.Model.Window
import Verif.Lemma.Float64Q
/-! Lemmas on windows and on binary64 subtraction. -/

namespace Trappy

variable {α : Type}

theorem sliceFrom_eq {lo : Nat} {t : Table α} (h : t.Pairwise (fun a b => a.1 ≤ b.1)) :
    sliceFrom lo t = t.filter fun r => decide (lo ≤ r.1) := by
  unfold sliceFrom
  induction t with
  | nil => rfl
  | cons r t ih =>
    rw [List.pairwise_cons] at h
    by_cases hr : r.1 < lo
    · simp only [List.dropWhile_cons, hr, decide_true, if_true, List.filter_cons]
      rw [ih h.2]
      simp [Nat.not_le.mpr hr]
    · simp only [List.dropWhile_cons, hr, decide_false, Bool.false_eq_true, if_false]
      symm
      rw [List.filter_eq_self]
      intro x hx
      rcases List.mem_cons.mp hx with rfl | hx
      · simpa using hr
      · have := h.1 x hx; simp; omega

theorem sliceTo_eq {hi : Nat} {t : Table α} (h : t.Pairwise (fun a b => a.1 ≤ b.1)) :
    sliceTo hi t = t.filter fun r => decide (r.1 ≤ hi) := by
  unfold sliceTo
  induction t with
  | nil => rfl
  | cons r t ih =>
    rw [List.pairwise_cons] at h
    by_cases hr : r.1 ≤ hi
    · simp only [List.takeWhile_cons, hr, decide_true, if_true, List.filter_cons]
      rw [ih h.2]
    · simp only [List.takeWhile_cons, hr, decide_false, Bool.false_eq_true, if_false]
      symm
      rw [List.filter_eq_nil_iff]
      intro x hx
      rcases List.mem_cons.mp hx with rfl | hx
      · simpa using hr
      · have := h.1 x hx; simp; omega

theorem insertRow_perm (r : Nat × α) (t : Table α) : (insertRow r t).Perm (r :: t) := by
  induction t with
  | nil => exact List.Perm.refl _
  | cons x t ih =>
    unfold insertRow
    split
    · exact List.Perm.refl _
    · exact (ih.cons x).trans (List.Perm.swap r x t)

theorem sortIndex_perm (t : Table α) : (sortIndex t).Perm t := by
  induction t with
  | nil => exact List.Perm.refl _
  | cons r t ih => exact (insertRow_perm r _).trans (ih.cons r)

theorem insertRow_sorted (r : Nat × α) (t : Table α) (h : t.Pairwise (fun a b => a.1 ≤ b.1)) :
    (insertRow r t).Pairwise (fun a b => a.1 ≤ b.1) := by
  induction t with
  | nil => simp [insertRow]
  | cons x t ih =>
    rw [List.pairwise_cons] at h
    unfold insertRow
    split
    · rename_i hr
      refine List.pairwise_cons.mpr ⟨?_, List.pairwise_cons.mpr h⟩
      intro y hy
      rcases List.mem_cons.mp hy with rfl | hy
      · exact hr
      · have := h.1 y hy; omega
    · rename_i hr
      refine List.pairwise_cons.mpr ⟨?_, ih h.2⟩
      intro y hy
      rcases List.mem_cons.mp ((insertRow_perm r t).mem_iff.mp hy) with rfl | hy
      · omega
      · exact h.1 y hy

theorem sortIndex_sorted (t : Table α) : (sortIndex t).Pairwise (fun a b => a.1 ≤ b.1) := by
  induction t with
  | nil => exact List.Pairwise.nil
  | cons r t ih => exact insertRow_sorted r _ ih

theorem sortIndex_of_sorted {t : Table α} (h : t.Pairwise (fun a b => a.1 ≤ b.1)) : sortIndex t = t := by
  induction t with
  | nil => rfl
  | cons r t ih =>
    rw [List.pairwise_cons] at h
    unfold sortIndex
    rw [ih h.2]
    cases t with
    | nil => rfl
    | cons x t => unfold insertRow; rw [if_pos (h.1 x (by simp))]

/-- the window is usable: its end is not zero -/
def Win.EndNonzero (w : Win) : Prop := w.hi ≠ some 0

theorem windowify_eq (w : Win) (hw : w.EndNonzero) (t : Table α) :
    windowify w t = (sortIndex t).filter fun r => decide (w.lo ≤ r.1 ∧ ∀ h ∈ w.hi, r.1 ≤ h) := by
  unfold windowify
  split
  · rename_i he
    have : t = [] := by simpa using he
    subst this; simp [sortIndex]
  · have hs := sortIndex_sorted t
    simp only
    split
    · rename_i h hhi
      rw [sliceFrom_eq hs, sliceTo_eq (hs.filter _), List.filter_filter]
      congr 1
      funext r
      simp [hhi, Bool.and_comm]
    · rename_i hne
      have hnone : w.hi = none := by
        cases hh : w.hi with
        | none => rfl
        | some n =>
          cases n with
          | zero => exact absurd hh hw
          | succ n => exact absurd hh (hne n)
      split
      · rw [sliceFrom_eq hs]; congr 1; funext r; simp [hnone]
      · rename_i h0
        symm
        rw [List.filter_eq_self]
        intro r _
        simp at h0
        simp [hnone, h0]

/-! ## Subtraction -/

namespace F64

/-- distance to the next number -/
def gap (b : Nat) : Nat := uval (b + 1) - uval b

theorem gap_pos (b : Nat) : 0 < gap b := by unfold gap; have := uval_succ_lt b; omega

theorem gap_form (e m : Nat) (hm : m < M) : gap ((e + 1) * M + m) = 2 ^ e := by
  unfold gap
  by_cases h : m + 1 < M
  · rw [show (e + 1) * M + m + 1 = (e + 1) * M + (m + 1) by omega, uval_form e m hm, uval_form e (m + 1) h]
    rw [← Nat.mul_sub_right_distrib]
    have : M + (m + 1) - (M + m) = 1 := by omega
    rw [this, Nat.one_mul]
  · have hm1 : m + 1 = M := by omega
    have hM := M_pos
    rw [show (e + 1) * M + m + 1 = (e + 1 + 1) * M + 0 by rw [Nat.add_mul (e + 1) 1]; omega,
      uval_form e m hm, uval_form (e + 1) 0 hM, Nat.pow_succ, Nat.add_zero, Nat.mul_comm (2 ^ e) 2, ← Nat.mul_assoc,
      ← Nat.mul_sub_right_distrib]
    have : M * 2 - (M + m) = 1 := by omega
    rw [this, Nat.one_mul]

theorem gap_sub {b : Nat} (h : b < M) : gap b = 1 := by
  unfold gap
  by_cases h2 : b + 1 < M
  · rw [uval_lt h, uval_lt h2]; omega
  · have hb : b + 1 = (0 + 1) * M + 0 := by omega
    rw [uval_lt h, hb, uval_form 0 0 M_pos]; omega

theorem gap_mono {a b : Nat} (h : a ≤ b) : gap a ≤ gap b := by
  rcases form a with ha | ⟨e, m, hm, rfl⟩
  · rw [gap_sub ha]; exact gap_pos b
  · rcases form b with hb | ⟨e', m', hm', rfl⟩
    · have : M ≤ (e + 1) * M := Nat.le_mul_of_pos_left _ (by omega)
      omega
    · rw [gap_form e m hm, gap_form e' m' hm']
      apply Nat.pow_le_pow_right (by omega)
      by_contra hc
      have h1 : e' + 1 + 1 ≤ e + 1 := by omega
      have h2 : (e' + 1 + 1) * M ≤ (e + 1) * M := Nat.mul_le_mul_right _ h1
      rw [Nat.add_mul (e' + 1) 1] at h2
      omega

theorem round1_exact {b : Nat} (hb : b ≤ inf) : round (uval b) 1 = b := by
  have := round_exact (b := b) (d := 1) (by omega) hb
  rwa [Nat.mul_one] at this

theorem round1_mono {a b : Nat} (h : a ≤ b) : round a 1 ≤ round b 1 := round_mono (by omega) (by omega) (by omega)

theorem sub_mono {a b c : Nat} (h : a ≤ b) : sub a c ≤ sub b c := by
  unfold sub; exact round1_mono (by have := uval_le_of_le h; omega)

theorem sub_anti {a b c : Nat} (h : b ≤ c) : sub a c ≤ sub a b := by
  unfold sub; exact round1_mono (by have := uval_le_of_le h; omega)

theorem sub_self (a : Nat) : sub a a = 0 := by
  unfold sub
  rw [Nat.sub_self]
  have := round1_exact (b := 0) (by unfold inf; omega)
  rwa [uval_zero] at this

theorem sub_le {a b : Nat} (ha : a ≤ inf) : sub a b ≤ a := by
  have := round1_mono (a := uval a - uval b) (b := uval a) (by omega)
  rw [round1_exact ha] at this
  exact this

theorem round_round0 {n d : Nat} (h : round n d < inf) : round n d = round0 n d := by
  rw [round_eq] at h ⊢; split at h <;> simp_all

/-- bounds on numbers that round to `r` -/
theorem round1_bounds {n : Nat} (h : round n 1 < inf) :
    (∀ p, p + 1 = round n 1 → uval p + uval (round n 1) ≤ 2 * n) ∧ 2 * n ≤ uval (round n 1) + uval (round n 1 + 1) := by
  have e := round_round0 h
  rw [e]
  have n1 : ∀ b, dist n 1 (round0 n 1) ≤ dist n 1 b := fun b => round0_nearest (by omega) b
  have l1 := lo_le (n := n) (d := 1)
  have l2 := lt_hi (n := n) (d := 1) (by omega)
  have hd : n / 1 = n := Nat.div_one n
  rw [hd, Nat.one_mul] at l1 l2
  rcases round0_cases n 1 with hc | hc
  · rw [hd] at hc
    constructor
    · intro p hp
      rw [hc] at hp ⊢
      have := uval_succ_lt p
      rw [hp] at this
      omega
    · have := n1 (floorBits n + 1)
      unfold dist at this
      rw [hc] at this ⊢
      simp only [Nat.one_mul] at this
      split at this <;> split at this <;> omega
  · rw [hd] at hc
    constructor
    · intro p hp
      rw [hc] at hp ⊢
      have hp' : p = floorBits n := by omega
      subst hp'
      have := n1 (floorBits n)
      unfold dist at this
      rw [hc] at this
      simp only [Nat.one_mul] at this
      split at this <;> omega
    · rw [hc]
      have := uval_succ_lt (floorBits n + 1)
      omega

/-- Subtraction of a positive number keeps numbers that are not adjacent apart. -/
theorem sub_strict {t1 t2 base : Nat} (h2 : t2 < inf) (hgap : t1 + 1 < t2) (hb : base ≤ t1) (hb0 : 0 < base) :
    sub t1 base < sub t2 base := by
  have hle := sub_mono (c := base) (show t1 ≤ t2 by omega)
  by_contra hc
  have heq : sub t1 base = sub t2 base := by omega
  have hlt : sub t2 base < inf := lt_of_le_of_lt (sub_le h2.le) h2
  have ha := uval_le_of_le hb
  have hc0 : 0 < uval base := by have := uval_lt_of_lt hb0; rw [uval_zero] at this; exact this
  have b1 := round1_bounds (n := uval t1 - uval base) (by unfold sub at heq hlt; omega)
  have b2 := round1_bounds (n := uval t2 - uval base) (by unfold sub at hlt; exact hlt)
  obtain ⟨k, rfl⟩ : ∃ k, t2 = k + 2 := ⟨t2 - 2, by omega⟩
  have hk : t1 ≤ k := by omega
  have hlek := uval_le_of_le hk
  have g1 := uval_succ_lt k
  have g2 := uval_succ_lt (k + 1)
  have hr1 : sub t1 base ≤ k := le_trans (sub_le (by omega)) hk
  rw [heq] at hr1
  unfold sub at heq hlt hr1
  rw [heq] at b1
  generalize round (uval (k + 2) - uval base) 1 = r at *
  have gm0 : gap r ≤ gap (k + 1) := gap_mono (by omega)
  unfold gap at gm0
  have e2 : k + 1 + 1 = k + 2 := rfl
  rw [e2] at gm0 g2
  cases r with
  | zero =>
    have := uval_zero
    have h3 := b2.2
    rw [this] at h3 gm0
    omega
  | succ p =>
    have b1' := b1.1 p rfl
    have gm1 : gap p ≤ gap k := gap_mono (by omega)
    unfold gap at gm1
    have h3 := b2.2
    have := uval_succ_lt p
    have := uval_succ_lt (p + 1)
    omega

/-- Multiples of a power of two with at most 53 significant bits are binary64 numbers. -/
theorem representable {m e : Nat} (hm : m < 2 * M) : ∃ b, uval b = m * 2 ^ e := by
  by_cases h : m < M
  · -- normalise
    induction e generalizing m with
    | zero => exact ⟨m, by rw [uval_lt h]; omega⟩
    | succ e ih =>
      by_cases h' : 2 * m < M
      · obtain ⟨b, hb⟩ := ih (m := 2 * m) (by omega) h'
        exact ⟨b, by rw [hb, Nat.pow_succ]; simp [Nat.mul_assoc, Nat.mul_comm]⟩
      · refine ⟨(e + 1) * M + (2 * m - M), ?_⟩
        rw [uval_form e _ (by omega), show M + (2 * m - M) = 2 * m by omega, Nat.pow_succ]
        simp [Nat.mul_assoc, Nat.mul_comm]
  · refine ⟨(e + 1) * M + (m - M), ?_⟩
    rw [uval_form e _ (by omega), show M + (m - M) = m by omega]

/-- every number is a multiple of its own gap and of the gaps of smaller numbers -/
theorem uval_mult {b : Nat} : ∃ m e, m < 2 * M ∧ gap b = 2 ^ e ∧ uval b = m * 2 ^ e := by
  rcases form b with h | ⟨e, m, hm, rfl⟩
  · exact ⟨b, 0, by omega, by rw [gap_sub h]; rfl, by rw [uval_lt h]; omega⟩
  · exact ⟨M + m, e, by omega, gap_form e m hm, uval_form e m hm⟩

/-- Sterbenz: the difference of two numbers that differ by at most a factor of two is exact. -/
theorem sub_exact {a b : Nat} (ha : a ≤ inf) (h1 : b ≤ a) (h2 : uval a ≤ 2 * uval b) : uval (sub a b) = uval a - uval b := by
  obtain ⟨ma, ea, hma, hga, hua⟩ := uval_mult (b := a)
  obtain ⟨mb, eb, hmb, hgb, hub⟩ := uval_mult (b := b)
  have hg := gap_mono h1
  rw [hga, hgb] at hg
  have hee : eb ≤ ea := (Nat.pow_le_pow_iff_right (by omega : 1 < 2)).mp hg
  obtain ⟨k, rfl⟩ := Nat.exists_eq_add_of_le hee
  have hle := uval_le_of_le h1
  have e1 : uval a - uval b = (ma * 2 ^ k - mb) * 2 ^ eb := by
    rw [hua, hub, Nat.pow_add, Nat.sub_mul, Nat.mul_assoc, Nat.mul_comm (2 ^ k)]
  have hlt : ma * 2 ^ k - mb < 2 * M := by
    have : (ma * 2 ^ k - mb) * 2 ^ eb ≤ mb * 2 ^ eb := by rw [← e1, ← hub]; omega
    have := Nat.le_of_mul_le_mul_right this (by positivity)
    omega
  obtain ⟨c, hc⟩ := representable (e := eb) hlt
  unfold sub
  rw [e1, ← hc]
  have hca : c ≤ a := uval_le_iff.mp (by rw [hc, ← e1]; omega)
  rw [round1_exact (by omega)]

end F64
end Trappy
