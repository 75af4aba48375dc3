import Verif.Prop.EventLanes
/-!
# C176: lanes of the summary
-/

namespace Trappy

theorem yMini_lanes (labels : List LaneLabel) (h : labels ≠ []) :
    yMini (laneIds labels) = some ⟨0, labels.length, miniHeight labels.length⟩ := by
  have h1 := yMain_lanes labels h
  unfold yMain at h1
  unfold yMini
  obtain ⟨e, he, h2⟩ := Option.map_eq_some_iff.1 h1
  rw [he]
  simp only [LinScale.mk.injEq] at h2
  obtain ⟨e1, e2, _⟩ := h2
  have hl : (laneIds labels).length = labels.length := by simp [laneIds]
  simp only [Option.map_some, e1, e2, hl]

/-- **C176 (summary).** For every number of lanes and every event in one of them, the bar in the summary is between the line of its
lane and the next one and within the summary, and the label of the lane is beside it. -/
theorem C176_mini_partial (labels : List LaneLabel) (y : LinScale) (hy : yMini (laneIds labels) = some y) (l : Nat)
    (hl : l < labels.length) :
    0 ≤ y.app l ∧ y.app l < (miniBar y l).1 ∧ (miniBar y l).1 + 8 = (miniBar y l).2 ∧ (miniBar y l).2 < y.app (l + 1) ∧
    y.app (l + 1) ≤ miniHeight labels.length ∧ (miniBar y l).1 ≤ laneLabelAt y l ∧ laneLabelAt y l ≤ (miniBar y l).2 := by
  have hne : labels ≠ [] := by intro h; rw [h] at hl; simp at hl
  rw [yMini_lanes labels hne] at hy
  have hy' := (Option.some.inj hy).symm
  subst hy'
  have hn : 0 < labels.length := by omega
  generalize labels.length = n at *
  have hn' : (0 : Rat) < n := by exact_mod_cast hn
  have hnn : (n : Rat) ≠ 0 := ne_of_gt hn'
  have happ : ∀ x : Rat, LinScale.app ⟨0, n, miniHeight n⟩ x = x * (12 + 50 / n) := by
    intro x
    unfold LinScale.app miniHeight
    simp only [sub_zero]
    field_simp
  have hmini : miniHeight n = n * (12 + 50 / n) := by
    unfold miniHeight; field_simp
  have hpos : (0 : Rat) < 50 / n := div_pos (by norm_num) hn'
  have hl0 : (0 : Rat) ≤ l := by exact_mod_cast Nat.zero_le l
  have hl1 : (l : Rat) + 1 ≤ n := by exact_mod_cast hl
  unfold miniBar laneLabelAt
  simp only [happ]
  rw [hmini]
  have hh : (12 : Rat) < 12 + 50 / n := by linarith
  generalize (12 : Rat) + 50 / n = h at *
  push_cast
  refine ⟨mul_nonneg hl0 (by linarith), ?_, ?_, ?_, ?_, ?_, ?_⟩
  · linarith
  · ring
  · linarith
  · exact mul_le_mul_of_nonneg_right hl1 (by linarith)
  · linarith
  · linarith

/-- **C176 (refuted in the summary).** The bar of an event beyond the lanes is below the summary, across its axis, that of one in a
negative lane above. -/
theorem C176_mini_beyond_refuted (labels : List LaneLabel) (y : LinScale) (hy : yMini (laneIds labels) = some y) (l : Int) :
    ((labels.length : Int) ≤ l → miniHeight labels.length < (miniBar y l).1) ∧ (l < 0 → (miniBar y l).2 < 0) := by
  have hne : labels ≠ [] := by rintro rfl; cases hy
  rw [yMini_lanes labels hne] at hy
  have hy' := (Option.some.inj hy).symm
  subst hy'
  have hn : 0 < labels.length := List.length_pos_of_ne_nil hne
  generalize labels.length = n at *
  have hn' : (0 : Rat) < n := by exact_mod_cast hn
  have hnn : (n : Rat) ≠ 0 := ne_of_gt hn'
  have happ : ∀ x : Rat, LinScale.app ⟨0, n, miniHeight n⟩ x = x * (12 + 50 / n) := by
    intro x
    unfold LinScale.app miniHeight
    simp only [sub_zero]
    field_simp
  have hmini : miniHeight n = n * (12 + 50 / n) := by
    unfold miniHeight; field_simp
  have hpos : (0 : Rat) < 50 / n := div_pos (by norm_num) hn'
  unfold miniBar
  simp only [happ]
  rw [hmini]
  have hh : (12 : Rat) < 12 + 50 / n := by linarith
  generalize (12 : Rat) + 50 / n = h at *
  constructor
  · intro e
    have e : (n : Rat) ≤ l := by exact_mod_cast e
    have := mul_le_mul_of_nonneg_right e (by linarith : (0 : Rat) ≤ h)
    linarith
  · intro e
    have e : (l : Rat) ≤ -1 := by exact_mod_cast (by omega : l ≤ -1)
    have := mul_le_mul_of_nonneg_right e (by linarith : (0 : Rat) ≤ h)
    linarith

/-- eight CPUs: the summary is 146 high, its last bar from about 133 to 141, and that of a ninth one would start at about 152 -/
example : yMini (laneIds ((List.range 8).map (.numbered cs!"CPU :"))) = some ⟨0, 8, 146⟩ ∧
    miniBar ⟨0, 8, 146⟩ 7 = (1063 / 8 + 1 / 2, 1063 / 8 + 17 / 2) ∧ (miniBar ⟨0, 8, 146⟩ 8).1 = 1209 / 8 + 1 / 2 := by
  decide +kernel

end Trappy
