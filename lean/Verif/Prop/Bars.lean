import Verif.Model.Signals
import Mathlib.Algebra.Order.Field.Rat
import Mathlib.Tactic.FieldSimp
import Mathlib.Tactic.Linarith
import Mathlib.Tactic.Positivity
import Mathlib.Tactic.NormNum
/-!
# C82: bar plots
-/

namespace Trappy


/-- **Specification**: the sums of the values at position `j` of the first `i` series -/
def sumBefore (series : List (List Rat)) (i j : Nat) : Rat := ((series.take i).map fun vs => vs[j]?.getD 0).sum

theorem barLoop_grouped (w : Rat) (n : Nat) : ∀ (series : List (List Rat)) (i : Nat), (∀ vs ∈ series, vs.length = n) →
    barLoop false w i (List.replicate n 0) series =
      some (series.mapIdx fun k vs => ⟨(List.range n).map fun (j : Nat) => (j : Rat) + ((i + k : Nat) : Rat) * w, vs, List.replicate n 0, w⟩) := by
  intro series
  induction series with
  | nil => intro i _; rfl
  | cons vs rest ih =>
    intro i h
    have hv := h vs List.mem_cons_self
    unfold barLoop
    simp only [List.length_replicate, hv, ne_eq, not_true_eq_false, false_and, if_false, Bool.false_eq_true]
    rw [ih (i + 1) fun v hv => h v (List.mem_cons_of_mem _ hv)]
    rw [List.mapIdx_cons]
    simp only [Option.map_some, Nat.add_zero, Option.some.injEq, List.cons.injEq, true_and]
    congr 1
    funext k vs
    have : i + 1 + k = i + (k + 1) := by omega
    rw [this]

theorem barLoop_stacked (w : Rat) (n : Nat) : ∀ (series : List (List Rat)) (i : Nat) (ends : List Rat), ends.length = n → (∀ vs ∈ series, vs.length = n) →
    ∃ calls, barLoop true w i ends series = some calls ∧ calls.length = series.length ∧
      ∀ (k : Nat) (c : BarCall), calls[k]? = some c → c.width = w ∧ c.anchors = (List.range n).map (fun (j : Nat) => (j : Rat)) ∧ some c.values = series[k]? ∧
        c.bottoms.length = n ∧ ∀ (j : Nat) (e b : Rat), ends[j]? = some e → c.bottoms[j]? = some b → b = e + sumBefore series k j := by
  intro series
  induction series with
  | nil => intro i ends _ _; exact ⟨[], rfl, rfl, by simp⟩
  | cons vs rest ih =>
    intro i ends he h
    have hv := h vs List.mem_cons_self
    obtain ⟨calls, h1, h2, h3⟩ := ih (i + 1) (List.zipWith (· + ·) ends vs) (by simp [he, hv]) fun v hv => h v (List.mem_cons_of_mem _ hv)
    unfold barLoop
    simp only [he, hv, ne_eq, not_true_eq_false, false_and, if_false, if_true]
    rw [h1]
    refine ⟨_, rfl, by simp [h2], ?_⟩
    intro k c hk
    cases k with
    | zero =>
      simp only [List.getElem?_cons_zero, Option.some.injEq] at hk
      subst hk
      refine ⟨rfl, rfl, rfl, he, ?_⟩
      intro j e b h4 h5
      simp only at h5
      rw [h4] at h5
      cases h5
      simp only [sumBefore, List.take_zero, List.map_nil, List.sum_nil]
      rw [Rat.add_zero]
    | succ k =>
      rw [List.getElem?_cons_succ] at hk
      obtain ⟨g1, g2, g3, g4, g5⟩ := h3 k c hk
      refine ⟨g1, g2, g3, g4, ?_⟩
      intro j e b h4 h5
      obtain ⟨hj, _⟩ := List.getElem?_eq_some_iff.1 h4
      have hjv : j < vs.length := by omega
      have h6 : (List.zipWith (· + ·) ends vs)[j]? = some (e + vs[j]) := by
        rw [List.getElem?_zipWith, h4, List.getElem?_eq_getElem hjv]
      rw [g5 j _ b h6 h5]
      simp only [sumBefore, List.take_succ_cons, List.map_cons, List.sum_cons, List.getElem?_eq_getElem hjv, Option.getD_some]
      rw [Rat.add_assoc]

theorem maxLen_eq {n : Nat} : ∀ {series : List (List Rat)}, series ≠ [] → (∀ vs ∈ series, vs.length = n) → maxLen series = n := by
  intro series
  induction series with
  | nil => intro h; exact absurd rfl h
  | cons v vs ih =>
    intro _ h
    unfold maxLen
    rw [h v List.mem_cons_self]
    cases vs with
    | nil => simp [maxLen]
    | cons w vs =>
      rw [ih (by simp) fun x hx => h x (List.mem_cons_of_mem _ hx)]
      simp

/-- **C82 (stacked), partial.** If all series have the same length, a stacked bar plot draws every series, bar `j` of each at `j`, and each bar begins at the sum of the values below it. For all series. -/
theorem C82_stacked_partial {n : Nat} {series : List (List Rat)} (spacing : Rat) (hne : series ≠ []) (hn : ∀ vs ∈ series, vs.length = n) :
    ∃ calls, plotBars true spacing series = some calls ∧ calls.length = series.length ∧
      ∀ (k : Nat) (c : BarCall), calls[k]? = some c → c.width = 1 - spacing ∧ some c.values = series[k]? ∧ c.bottoms.length = n ∧ c.anchors.length = n ∧
        (∀ (j : Nat) (a : Rat), c.anchors[j]? = some a → a = j) ∧
        (∀ (j : Nat) (b : Rat), c.bottoms[j]? = some b → b = sumBefore series k j) := by
  obtain ⟨calls, h1, h2, h3⟩ := barLoop_stacked ((1 - spacing) / (1 : Nat)) n series 0 (List.replicate n 0) (by simp) hn
  refine ⟨calls, ?_, h2, ?_⟩
  · unfold plotBars
    rw [if_neg hne]
    simp only [if_true]
    rw [maxLen_eq hne hn]
    exact h1
  · intro k c hk
    obtain ⟨g1, g2, g3, g4, g5⟩ := h3 k c hk
    refine ⟨?_, g3, g4, by rw [g2]; simp, ?_, ?_⟩
    · rw [g1]
      simp
    · intro j a ha
      rw [g2, List.getElem?_map] at ha
      obtain ⟨i, h4, rfl⟩ := Option.map_eq_some_iff.1 ha
      obtain ⟨h5, h6⟩ := List.getElem?_eq_some_iff.1 h4
      rw [← h6]
      simp
    · intro j b hb
      obtain ⟨hj, _⟩ := List.getElem?_eq_some_iff.1 hb
      have := g5 j 0 b (by rw [List.getElem?_replicate, if_pos (by omega)]) hb
      rw [this, Rat.zero_add]

/-- **C82 (grouped), partial.** If all series have the same length and the spacing is at least 0 and below 1, a grouped bar plot draws every series from 0 up, and no two bars overlap: each bar ends before
or where the next of its group begins, and each group ends before or where the next begins. For all series. -/
theorem C82_grouped_partial {n : Nat} {series : List (List Rat)} {spacing : Rat} (hne : series ≠ []) (hn : ∀ vs ∈ series, vs.length = n) (h0 : 0 ≤ spacing) (h1 : spacing < 1) :
    ∃ calls, plotBars false spacing series = some calls ∧ calls.length = series.length ∧
      (∀ (k : Nat) (c : BarCall), calls[k]? = some c → some c.values = series[k]? ∧ c.bottoms = List.replicate n 0 ∧ c.anchors.length = n ∧ 0 < c.width) ∧
      (∀ (k k' : Nat) (c c' : BarCall) (j j' : Nat) (a a' : Rat), calls[k]? = some c → calls[k']? = some c' → c.anchors[j]? = some a → c'.anchors[j']? = some a' →
        (j < j' ∨ j = j' ∧ k < k') → a + c.width ≤ a') ∧
      (∀ (k : Nat) (c : BarCall) (j : Nat) (a : Rat), calls[k]? = some c → c.anchors[j]? = some a → (j : Rat) ≤ a ∧ a + c.width ≤ (j : Rat) + 1 - spacing) := by
  have hlen : 0 < series.length := List.length_pos_iff.2 hne
  have hL : (0 : Rat) < (series.length : Rat) := by exact_mod_cast hlen
  obtain ⟨w, hw⟩ : ∃ w, w = (1 - spacing) / (series.length : Rat) := ⟨_, rfl⟩
  have hwL : (series.length : Rat) * w = 1 - spacing := by rw [hw]; field_simp
  have hw0 : 0 < w := by rw [hw]; apply div_pos <;> linarith
  have heq : plotBars false spacing series = some (series.mapIdx fun k vs => ⟨(List.range n).map fun (j : Nat) => (j : Rat) + ((k : Nat) : Rat) * w, vs, List.replicate n 0, w⟩) := by
    unfold plotBars
    rw [if_neg hne]
    simp only [Bool.false_eq_true, if_false]
    rw [maxLen_eq hne hn, ← hw, barLoop_grouped _ _ _ _ hn]
    simp only [Nat.zero_add]
  have hc : ∀ (k : Nat) (c : BarCall), (series.mapIdx fun k vs => (⟨(List.range n).map fun (j : Nat) => (j : Rat) + ((k : Nat) : Rat) * w, vs, List.replicate n 0, w⟩ : BarCall))[k]? = some c →
      k < series.length ∧ some c.values = series[k]? ∧ c.bottoms = List.replicate n 0 ∧ c.anchors = (List.range n).map (fun (j : Nat) => (j : Rat) + (k : Rat) * w) ∧ c.width = w := by
    intro k c h
    rw [List.getElem?_mapIdx] at h
    obtain ⟨vs, h2, rfl⟩ := Option.map_eq_some_iff.1 h
    exact ⟨(List.getElem?_eq_some_iff.1 h2).1, h2.symm, rfl, rfl, rfl⟩
  have ha : ∀ (k j : Nat) (a : Rat), ((List.range n).map (fun (j : Nat) => (j : Rat) + (k : Rat) * w))[j]? = some a → a = (j : Rat) + (k : Rat) * w := by
    intro k j a h
    rw [List.getElem?_map] at h
    obtain ⟨i, h4, rfl⟩ := Option.map_eq_some_iff.1 h
    obtain ⟨h5, h6⟩ := List.getElem?_eq_some_iff.1 h4
    rw [← h6]
    simp
  have hend : ∀ k : Nat, k < series.length → (k : Rat) * w + w ≤ 1 - spacing := by
    intro k hk
    have : ((k + 1 : Nat) : Rat) ≤ (series.length : Rat) := by exact_mod_cast hk
    push_cast at this
    nlinarith
  refine ⟨_, heq, by simp, ?_, ?_, ?_⟩
  · intro k c h
    obtain ⟨_, g2, g3, g4, g5⟩ := hc k c h
    exact ⟨g2, g3, by rw [g4]; simp, by rw [g5]; exact hw0⟩
  · intro k k' c c' j j' a a' h2 h3 h4 h5 h6
    obtain ⟨f1, _, _, f4, f5⟩ := hc k c h2
    obtain ⟨_, _, _, g4, _⟩ := hc k' c' h3
    rw [f4] at h4
    rw [g4] at h5
    rw [ha _ _ _ h4, ha _ _ _ h5, f5]
    have e1 := hend k f1
    have e2 : (0 : Rat) ≤ (k' : Rat) * w := by positivity
    rcases h6 with h6 | ⟨rfl, h6⟩
    · have : ((j + 1 : Nat) : Rat) ≤ (j' : Rat) := by exact_mod_cast h6
      push_cast at this
      linarith
    · have : ((k + 1 : Nat) : Rat) ≤ (k' : Rat) := by exact_mod_cast h6
      push_cast at this
      nlinarith
  · intro k c j a h2 h4
    obtain ⟨f1, _, _, f4, f5⟩ := hc k c h2
    rw [f4] at h4
    rw [ha _ _ _ h4, f5]
    have e1 := hend k f1
    have e2 : (0 : Rat) ≤ (k : Rat) * w := by positivity
    constructor <;> linarith

theorem maxLen_ge {vs : List Rat} : ∀ {series : List (List Rat)}, vs ∈ series → vs.length ≤ maxLen series := by
  intro series
  induction series with
  | nil => intro h; cases h
  | cons v rest ih =>
    intro h
    unfold maxLen
    rcases List.mem_cons.1 h with rfl | h
    · exact Nat.le_max_left _ _
    · exact Nat.le_trans (ih h) (Nat.le_max_right _ _)

/-- **C82, refuted.** If the series have several lengths and none has length 1, the plot raises an exception, grouped or stacked. For all such series. -/
theorem C82_lengths_refuted (stacked : Bool) (spacing : Rat) {series : List (List Rat)} {u v : List Rat} (hu : u ∈ series) (hv : v ∈ series) (hlen : u.length < v.length)
    (h1 : ∀ vs ∈ series, vs.length ≠ 1) : plotBars stacked spacing series = none := by
  have key : ∀ (w : Rat) (m : Nat), u.length ≠ m → m ≠ 1 → ∀ (series : List (List Rat)) (i : Nat) (ends : List Rat), ends.length = m → u ∈ series → (∀ vs ∈ series, vs.length ≠ 1) →
      barLoop stacked w i ends series = none := by
    intro w m h2 h3 series
    induction series with
    | nil => intro i ends _ h; cases h
    | cons x rest ih =>
      intro i ends he h h1
      unfold barLoop
      simp only
      by_cases hx : ends.length ≠ x.length
      · rw [if_pos ⟨hx, by omega, h1 x List.mem_cons_self⟩]
      · have hx' : ends.length = x.length := by simpa using hx
        rw [if_neg (fun h => hx h.1)]
        have hur : u ∈ rest := by
          rcases List.mem_cons.1 h with rfl | h
          · omega
          · exact h
        have hl : (if stacked = true then List.zipWith (· + ·) ends x else ends).length = m := by
          split
          · rw [List.length_zipWith]; omega
          · exact he
        rw [ih (i + 1) (if stacked = true then List.zipWith (· + ·) ends x else ends) hl hur fun vs hvs => h1 vs (List.mem_cons_of_mem _ hvs)]
        rfl
  unfold plotBars
  rw [if_neg (by rintro rfl; cases hu)]
  have := maxLen_ge hv
  have := h1 v hv
  exact key _ (maxLen series) (by omega) (by omega) _ _ _ (by simp) hu h1

/-- **C82, refuted (one value).** After a series of one value a stacked plot forgets the other positions: the bars of the next series at positions 1 and 2 begin at 5, although nothing is below them. -/
theorem C82_stacked_one_refuted : ∃ (series : List (List Rat)) (calls : List BarCall), plotBars true 0 series = some calls ∧ series = [[5], [1, 2, 3]] ∧
    calls[1]?.map (fun c => (c.values, c.bottoms)) = some ([1, 2, 3], [5]) :=
  ⟨[[5], [1, 2, 3]], [⟨[0], [5], [0, 0, 0], 1⟩, ⟨[0, 1, 2], [1, 2, 3], [5], 1⟩], by decide +kernel, rfl, by decide +kernel⟩

/-- `C82_stacked_partial`, `C82_grouped_partial` -/
example : plotBars true (1/5) [[1, 2], [3, 4], [5, 6]] = some [⟨[0, 1], [1, 2], [0, 0], 4/5⟩, ⟨[0, 1], [3, 4], [1, 2], 4/5⟩, ⟨[0, 1], [5, 6], [4, 6], 4/5⟩] ∧
    plotBars false (1/5) [[1, 2], [3, 4]] = some [⟨[0, 1], [1, 2], [0, 0], 2/5⟩, ⟨[2/5, 7/5], [3, 4], [0, 0], 2/5⟩] := by
  refine ⟨?_, ?_⟩ <;> decide +kernel

/-- `C82_lengths_refuted` -/
example : plotBars true 0 [[1, 2], [1, 2, 3]] = none ∧ plotBars false 0 [[1, 2], [1, 2, 3]] = none := by
  refine ⟨?_, ?_⟩ <;> decide +kernel

end Trappy
