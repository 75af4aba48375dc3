import Verif.Prop.Bars
/-!
# C82: exactly which bar plots raise an exception
-/

namespace Trappy

/-- a series without values comes before one with several -/
def EmptyBefore (series : List (List Rat)) : Prop := ∃ x : List Rat, 1 < x.length ∧ [[], x].Sublist series

/-- a series that is shorter than another one, before any series of one value and not one itself -/
def ShortFirst (m : Nat) (series : List (List Rat)) : Prop :=
  ∃ a x b, series = a ++ x :: b ∧ (∀ u ∈ a, u.length ≠ 1) ∧ x.length ≠ 1 ∧ x.length < m

theorem barLoop_cons (stacked : Bool) (w : Rat) (i : Nat) (ends vs : List Rat) (rest : List (List Rat)) :
    barLoop stacked w i ends (vs :: rest) = none ↔ (ends.length ≠ vs.length ∧ ends.length ≠ 1 ∧ vs.length ≠ 1) ∨
      barLoop stacked w (i + 1) (if stacked then List.zipWith (· + ·) ends vs else ends) rest = none := by
  rw [barLoop.eq_2]
  by_cases h : ends.length ≠ vs.length ∧ ends.length ≠ 1 ∧ vs.length ≠ 1
  · rw [if_pos h]; simp [h]
  · rw [if_neg h, Option.map_eq_none_iff]
    simp only [h, false_or]

theorem barLoop_zero (w : Rat) (series : List (List Rat)) : ∀ (i : Nat) (ends : List Rat), ends.length = 0 →
    (barLoop true w i ends series = none ↔ ∃ x ∈ series, 1 < x.length) := by
  induction series with
  | nil => intro i ends _; simp [barLoop]
  | cons x rest ih =>
    intro i ends he
    rw [barLoop_cons, ih _ _ (by simp [he])]
    simp only [List.mem_cons, exists_eq_or_imp]
    have : (ends.length ≠ x.length ∧ ends.length ≠ 1 ∧ x.length ≠ 1) ↔ 1 < x.length := by omega
    rw [this]

theorem emptyBefore_nil (rest : List (List Rat)) : EmptyBefore ([] :: rest) ↔ ∃ x ∈ rest, 1 < x.length := by
  unfold EmptyBefore
  constructor
  · rintro ⟨x, hx, h⟩
    exact ⟨x, by simpa using h, hx⟩
  · rintro ⟨x, h, hx⟩
    exact ⟨x, hx, by simpa using h⟩

theorem emptyBefore_cons (x : List Rat) (rest : List (List Rat)) (h : x ≠ []) : EmptyBefore (x :: rest) ↔ EmptyBefore rest := by
  unfold EmptyBefore
  constructor
  · rintro ⟨y, hy, hs⟩
    refine ⟨y, hy, ?_⟩
    cases hs with
    | cons _ hs => exact hs
    | cons_cons _ hs => exact absurd rfl h
  · rintro ⟨y, hy, hs⟩
    exact ⟨y, hy, hs.cons _⟩

theorem barLoop_one (w : Rat) (series : List (List Rat)) : ∀ (i : Nat) (ends : List Rat), ends.length = 1 →
    (barLoop true w i ends series = none ↔ EmptyBefore series) := by
  induction series with
  | nil => intro i ends _; simp [barLoop, EmptyBefore]
  | cons x rest ih =>
    intro i ends he
    rw [barLoop_cons]
    have : ¬ (ends.length ≠ x.length ∧ ends.length ≠ 1 ∧ x.length ≠ 1) := by omega
    simp only [this, false_or, if_true]
    cases x with
    | nil => rw [barLoop_zero _ _ _ _ (by simp), emptyBefore_nil]
    | cons c x => rw [ih _ _ (by simp [he]), emptyBefore_cons _ _ (by simp)]

theorem shortFirst_cons (m : Nat) (x : List Rat) (rest : List (List Rat)) :
    ShortFirst m (x :: rest) ↔ x.length ≠ 1 ∧ (x.length < m ∨ ShortFirst m rest) := by
  unfold ShortFirst
  constructor
  · rintro ⟨a, y, b, e, ha, hy, hm⟩
    cases a with
    | nil =>
      cases e
      exact ⟨hy, Or.inl hm⟩
    | cons z a =>
      cases e
      exact ⟨ha _ List.mem_cons_self, Or.inr ⟨a, y, b, rfl, fun u hu => ha u (List.mem_cons_of_mem _ hu), hy, hm⟩⟩
  · rintro ⟨hx, hm | ⟨a, y, b, rfl, ha, hy, hm⟩⟩
    · exact ⟨[], x, rest, rfl, by simp, hx, hm⟩
    · refine ⟨x :: a, y, b, rfl, ?_, hy, hm⟩
      intro u hu
      rcases List.mem_cons.mp hu with rfl | hu
      · exact hx
      · exact ha u hu

theorem barLoop_many (w : Rat) (m : Nat) (hm : 1 < m) (series : List (List Rat)) : ∀ (i : Nat) (ends : List Rat), ends.length = m → (∀ v ∈ series, v.length ≤ m) →
    (barLoop true w i ends series = none ↔ ShortFirst m series ∨ EmptyBefore series) := by
  induction series with
  | nil => intro i ends _ _; simp [barLoop, EmptyBefore, ShortFirst]
  | cons x rest ih =>
    intro i ends he hle
    have hx := hle x List.mem_cons_self
    rw [barLoop_cons, shortFirst_cons]
    simp only [if_true]
    by_cases h1 : x.length = 1
    · rw [barLoop_one _ _ _ _ (by simp [he, h1]; omega), emptyBefore_cons _ _ (by rintro rfl; simp at h1)]
      simp [h1]
    · by_cases h2 : x.length = m
      · rw [ih _ _ (by simp [he, h2]) fun v hv => hle v (List.mem_cons_of_mem _ hv), emptyBefore_cons _ _ (by rintro rfl; simp at h2; omega)]
        simp [h2, he, hm.ne']
      · have h3 : ends.length ≠ x.length ∧ ends.length ≠ 1 ∧ x.length ≠ 1 := by omega
        have h4 : x.length < m := by omega
        simp [h3, h4]

theorem barLoop_grouped_none (w : Rat) (series : List (List Rat)) : ∀ (i : Nat) (ends : List Rat),
    (barLoop false w i ends series = none ↔ ends.length ≠ 1 ∧ ∃ x ∈ series, x.length ≠ 1 ∧ x.length ≠ ends.length) := by
  induction series with
  | nil => intro i ends; simp [barLoop]
  | cons x rest ih =>
    intro i ends
    rw [barLoop_cons]
    simp only [Bool.false_eq_true, if_false, List.mem_cons, exists_eq_or_imp]
    rw [ih]
    constructor
    · rintro (⟨h1, h2, h3⟩ | ⟨h1, h2⟩)
      · exact ⟨h2, Or.inl ⟨h3, fun e => h1 e.symm⟩⟩
      · exact ⟨h1, Or.inr h2⟩
    · rintro ⟨h1, ⟨h2, h3⟩ | h2⟩
      · exact Or.inl ⟨fun e => h3 e.symm, h1, h2⟩
      · exact Or.inr ⟨h1, h2⟩

theorem maxLen_mem {series : List (List Rat)} (h : series ≠ []) : ∃ v ∈ series, v.length = maxLen series := by
  induction series with
  | nil => exact absurd rfl h
  | cons v vs ih =>
    unfold maxLen
    rcases Nat.le_total v.length (maxLen vs) with hle | hle
    · cases vs with
      | nil => exact ⟨v, by simp, by simp [maxLen]⟩
      | cons w vs =>
        obtain ⟨u, hu, e⟩ := ih (by simp)
        exact ⟨u, List.mem_cons_of_mem _ hu, by rw [e]; omega⟩
    · exact ⟨v, List.mem_cons_self, by omega⟩

/-- **C82, exactly (grouped).** A grouped bar plot raises an exception exactly if there are no series or two of different lengths neither of which is 1. -/
theorem C82_grouped_exact (spacing : Rat) (series : List (List Rat)) :
    plotBars false spacing series = none ↔ series = [] ∨ ∃ u ∈ series, ∃ v ∈ series, u.length ≠ v.length ∧ u.length ≠ 1 ∧ v.length ≠ 1 := by
  unfold plotBars
  by_cases hs : series = []
  · simp [hs]
  rw [if_neg hs]
  simp only [Bool.false_eq_true, if_false]
  rw [barLoop_grouped_none]
  simp only [hs, false_or, List.length_replicate]
  constructor
  · rintro ⟨h1, x, hx, h2, h3⟩
    obtain ⟨v, hv, e⟩ := maxLen_mem hs
    exact ⟨x, hx, v, hv, by omega, h2, by omega⟩
  · rintro ⟨u, hu, v, hv, h1, h2, h3⟩
    have := maxLen_ge hu
    have := maxLen_ge hv
    rcases Nat.lt_or_ge u.length v.length with h | h
    · exact ⟨by omega, u, hu, h2, by omega⟩
    · exact ⟨by omega, v, hv, h3, by omega⟩

/-- **C82, exactly (stacked).** A stacked bar plot raises an exception exactly if there are no series, if a series that is shorter than another one and has not one value comes before all series of one value (and the longest has several values), or if a series without values comes before one with several. -/
theorem C82_stacked_exact (spacing : Rat) (series : List (List Rat)) :
    plotBars true spacing series = none ↔ series = [] ∨
      (∃ a x b, series = a ++ x :: b ∧ (∀ u ∈ a, u.length ≠ 1) ∧ x.length ≠ 1 ∧ ∃ v ∈ series, 1 < v.length ∧ x.length < v.length) ∨
      ∃ a b c x, series = a ++ [] :: b ++ x :: c ∧ 1 < x.length := by
  have he : EmptyBefore series ↔ ∃ a b c x, series = a ++ [] :: b ++ x :: c ∧ 1 < x.length := by
    unfold EmptyBefore
    constructor
    · rintro ⟨x, hx, h⟩
      obtain ⟨r1, r2, rfl, h1, h2⟩ := List.cons_sublist_iff.mp h
      obtain ⟨a, b, rfl⟩ := List.append_of_mem h1
      obtain ⟨b', c, rfl⟩ := List.append_of_mem (List.singleton_sublist.mp h2)
      exact ⟨a, b ++ b', c, x, by simp, hx⟩
    · rintro ⟨a, b, c, x, rfl, hx⟩
      refine ⟨x, hx, ?_⟩
      have h1 : [x].Sublist (b ++ x :: c) := List.singleton_sublist.mpr (by simp)
      rw [List.append_assoc]
      exact (h1.cons_cons []).trans (List.sublist_append_right _ _)
  unfold plotBars
  by_cases hs : series = []
  · simp [hs]
  rw [if_neg hs, ← he]
  simp only [if_true, hs, false_or]
  obtain ⟨v, hv, e⟩ := maxLen_mem hs
  have hle : ∀ u ∈ series, u.length ≤ maxLen series := fun u hu => maxLen_ge hu
  have hsf : 1 < maxLen series → (ShortFirst (maxLen series) series ↔
      ∃ a x b, series = a ++ x :: b ∧ (∀ u ∈ a, u.length ≠ 1) ∧ x.length ≠ 1 ∧ ∃ v ∈ series, 1 < v.length ∧ x.length < v.length) := by
    intro hm
    constructor
    · rintro ⟨a, x, b, h1, h2, h3, h4⟩
      exact ⟨a, x, b, h1, h2, h3, v, hv, by omega, by omega⟩
    · rintro ⟨a, x, b, h1, h2, h3, u, hu, h4, h5⟩
      exact ⟨a, x, b, h1, h2, h3, Nat.lt_of_lt_of_le h5 (hle u hu)⟩
  have hno : ¬ 1 < maxLen series → ¬ EmptyBefore series ∧
      ¬ ∃ a x b, series = a ++ x :: b ∧ (∀ u ∈ a, u.length ≠ 1) ∧ x.length ≠ 1 ∧ ∃ v ∈ series, 1 < v.length ∧ x.length < v.length := by
    intro hm
    constructor
    · rintro ⟨x, hx, h⟩
      have := hle x (h.subset (by simp))
      omega
    · rintro ⟨a, x, b, h1, h2, h3, u, hu, h4, h5⟩
      have := hle u hu
      omega
  by_cases hm : 1 < maxLen series
  · rw [barLoop_many _ (maxLen series) hm series _ _ (by simp) hle, hsf hm]
  · obtain ⟨h1, h2⟩ := hno hm
    simp only [h1, h2, or_false, iff_false]
    by_cases h0 : maxLen series = 0
    · rw [barLoop_zero _ _ _ _ (by simp [h0])]
      rintro ⟨x, hx, hx'⟩
      have := hle x hx
      omega
    · rw [barLoop_one _ _ _ _ (by simp; omega)]
      exact h1

/-- series of one value are accepted anywhere; the others must not come before them -/
example : plotBars true 0 [[1, 2, 3], [5], [1, 2], []] ≠ none ∧ plotBars true 0 [[1, 2, 3], [1, 2], [5]] = none ∧ plotBars true 0 [[5], [], [1, 2]] = none ∧
    plotBars false 0 [[1, 2, 3], [5], [1, 2]] = none ∧ plotBars false 0 [[1, 2, 3], [5], [1, 2, 4]] ≠ none := by decide +kernel

theorem barLoop_bottoms (w : Rat) (series : List (List Rat)) : ∀ (i : Nat) (ends : List Rat) (calls : List BarCall), barLoop true w i ends series = some calls →
    calls.map BarCall.values = series ∧ ∀ (k : Nat) (c : BarCall), calls[k]? = some c → ∀ j : Nat,
      (∀ u ∈ series.take k, j < u.length) → c.bottoms[j]? = ends[j]?.map (· + sumBefore series k j) := by
  induction series with
  | nil =>
    intro i ends calls h
    simp only [barLoop, Option.some.injEq] at h
    subst h
    simp
  | cons x rest ih =>
    intro i ends calls h
    rw [barLoop.eq_2] at h
    simp only [if_true] at h
    split at h
    · cases h
    · obtain ⟨r, hr, rfl⟩ := Option.map_eq_some_iff.mp h
      obtain ⟨h1, h2⟩ := ih _ _ _ hr
      refine ⟨by simp [h1], ?_⟩
      intro k c hk j hj
      cases k with
      | zero =>
        cases hk
        simp only [sumBefore, List.take_zero, List.map_nil, List.sum_nil]
        cases ends[j]? with
        | none => rfl
        | some e => simp [Rat.add_zero]
      | succ k =>
        rw [List.getElem?_cons_succ] at hk
        have hjx : j < x.length := hj x (by simp)
        rw [h2 k c hk j fun u hu => hj u (by simp [hu]), List.getElem?_zipWith, List.getElem?_eq_getElem hjx]
        cases ends[j]? with
        | none => rfl
        | some e =>
          simp only [Option.map_some, sumBefore, List.take_succ_cons, List.map_cons, List.sum_cons, List.getElem?_eq_getElem hjx, Option.getD_some]
          rw [Rat.add_assoc]

theorem barLoop_short (w : Rat) (series : List (List Rat)) : ∀ (i : Nat) (ends : List Rat) (calls : List BarCall), barLoop true w i ends series = some calls →
    ∀ (k : Nat) (c : BarCall), calls[k]? = some c → ∀ j : Nat, (∃ u ∈ series.take k, u.length ≤ j) ∨ ends.length ≤ j → c.bottoms[j]? = none := by
  induction series with
  | nil =>
    intro i ends calls h
    simp only [barLoop, Option.some.injEq] at h
    subst h
    simp
  | cons x rest ih =>
    intro i ends calls h
    rw [barLoop.eq_2] at h
    simp only [if_true] at h
    split at h
    · cases h
    · obtain ⟨r, hr, rfl⟩ := Option.map_eq_some_iff.mp h
      intro k c hk j hj
      cases k with
      | zero =>
        cases hk
        rcases hj with ⟨u, hu, _⟩ | hj
        · simp at hu
        · exact List.getElem?_eq_none hj
      | succ k =>
        rw [List.getElem?_cons_succ] at hk
        apply ih _ _ _ hr k c hk j
        rw [List.length_zipWith]
        rcases hj with ⟨u, hu, hj⟩ | hj
        · rw [List.take_succ_cons] at hu
          rcases List.mem_cons.mp hu with rfl | hu
          · right; omega
          · exact Or.inl ⟨u, hu, hj⟩
        · right; omega

/-- **C82, exactly (stacked, bottoms).** Whenever a stacked bar plot is drawn, series `k` has a bottom at position `j` exactly if all series below it have a value there (and some series has one), and it is the sum of these values. If a series below is too short, there is no bottom of its own. -/
theorem C82_bottoms_exact (spacing : Rat) (series : List (List Rat)) (calls : List BarCall) (h : plotBars true spacing series = some calls) :
    calls.map BarCall.values = series ∧ ∀ (k : Nat) (c : BarCall), calls[k]? = some c → ∀ (j : Nat) (b : Rat),
      c.bottoms[j]? = some b ↔ (∀ u ∈ series.take k, j < u.length) ∧ (∃ u ∈ series, j < u.length) ∧ b = sumBefore series k j := by
  unfold plotBars at h
  by_cases hs : series = []
  · simp [hs] at h
  rw [if_neg hs] at h
  simp only [if_true] at h
  obtain ⟨h1, h2⟩ := barLoop_bottoms _ _ _ _ _ h
  have h3 := barLoop_short _ _ _ _ _ h
  refine ⟨h1, ?_⟩
  intro k c hk j b
  obtain ⟨v, hv, e⟩ := maxLen_mem hs
  by_cases ha : ∀ u ∈ series.take k, j < u.length
  · by_cases hm : j < maxLen series
    · rw [h2 k c hk j ha, List.getElem?_replicate, if_pos hm]
      simp only [Option.map_some, Option.some.injEq, Rat.zero_add]
      constructor
      · intro hb
        exact ⟨ha, ⟨v, hv, by omega⟩, hb.symm⟩
      · rintro ⟨_, _, hb⟩
        exact hb.symm
    · rw [h3 k c hk j (Or.inr (by simp; omega))]
      constructor
      · intro hb; cases hb
      · rintro ⟨_, ⟨u, hu, hj⟩, _⟩
        have := maxLen_ge hu
        omega
  · rw [h3 k c hk j (Or.inl (by simpa using ha))]
    constructor
    · intro hb; cases hb
    · rintro ⟨ha', _⟩
      exact absurd ha' ha

/-- series 1 and 2 have no bottom of their own at positions 1 and 2 -/
example : (plotBars true 0 [[5], [1, 2, 3], [7, 8, 9]]).map (fun l => l.map BarCall.bottoms) = some [[0, 0, 0], [5], [6]] := by decide +kernel

end Trappy
