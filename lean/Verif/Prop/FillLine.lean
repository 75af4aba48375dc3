import Mathlib.Tactic.Linarith
import Mathlib.Data.Rat.Floor
import Verif.Model.FillLine
/-!
# C184: areas under lines reach down to the axis
-/

namespace Trappy

/-- the lower limit of an axis is not above any value on it -/
def Below (bottom : List Rat → Rat) : Prop := ∀ vs, ∀ v ∈ vs, bottom vs ≤ v

/-- an empty axis -/
def noLines : FillAxis := ⟨[], []⟩

/-- the area reaches down to the lower edge of the axis -/
def ReachesDown (bottom : List Rat → Rat) (ylim : Option (Rat × Rat)) (ax : FillAxis) (a : FillArea) : Prop := a.base ≤ finalBottom bottom ylim ax

theorem fillAxis_append (bottom : List Rat → Rat) (fill : Bool) (l m : List (List Rat)) (ax : FillAxis) :
    fillAxis bottom fill (l ++ m) ax = fillAxis bottom fill m (fillAxis bottom fill l ax) := by
  induction l generalizing ax with
  | nil => rfl
  | cons ys l ih => exact ih _

/-- what is drawn stays, and so do the areas -/
theorem fillAxis_grows (bottom : List Rat → Rat) (fill : Bool) (l : List (List Rat)) (ax : FillAxis) :
    (∃ ds, (fillAxis bottom fill l ax).drawn = ax.drawn ++ ds ∧ ∀ ys ∈ l, ∀ y ∈ ys, y ∈ ds) ∧
    ∃ as, (fillAxis bottom fill l ax).areas = ax.areas ++ as ∧ as.map FillArea.top = (if fill then l else []) := by
  induction l generalizing ax with
  | nil => exact ⟨⟨[], by simp [fillAxis]⟩, [], by simp [fillAxis]⟩
  | cons ys l ih =>
    unfold fillAxis
    cases fill with
    | false =>
      obtain ⟨⟨ds, h1, h2⟩, as, h3, h4⟩ := ih { ax with drawn := ax.drawn ++ ys }
      refine ⟨⟨ys ++ ds, by simpa using h1, ?_⟩, as, by simpa using h3, by simpa using h4⟩
      intro zs hz y hy
      rcases List.mem_cons.mp hz with rfl | hz
      · exact List.mem_append_left _ hy
      · exact List.mem_append_right _ (h2 zs hz y hy)
    | true =>
      obtain ⟨⟨ds, h1, h2⟩, as, h3, h4⟩ := ih (fillLine bottom { ax with drawn := ax.drawn ++ ys } ys)
      refine ⟨⟨ys ++ bottom (ax.drawn ++ ys) :: ys ++ ds, ?_, ?_⟩, ⟨bottom (ax.drawn ++ ys), ys⟩ :: as, ?_, ?_⟩
      · simpa [fillLine] using h1
      · intro zs hz y hy
        rcases List.mem_cons.mp hz with rfl | hz
        · simp [hy]
        · exact List.mem_append_right _ (h2 zs hz y hy)
      · simpa [fillLine] using h3
      · simpa using h4

/-- the area of a line, in terms of what is drawn before -/
theorem fillAxis_area (bottom : List Rat → Rat) (before after : List (List Rat)) (ys : List Rat) :
    ∃ ds, (fillAxis bottom true (before ++ ys :: after) noLines).areas[before.length]? =
        some ⟨bottom ((fillAxis bottom true before noLines).drawn ++ ys), ys⟩ ∧
      (fillAxis bottom true (before ++ ys :: after) noLines).drawn =
        (fillAxis bottom true before noLines).drawn ++ ys ++ bottom ((fillAxis bottom true before noLines).drawn ++ ys) :: ys ++ ds ∧
      ∀ zs ∈ after, ∀ z ∈ zs, z ∈ ds := by
  rw [fillAxis_append]
  obtain ⟨-, as, h1, h2⟩ := fillAxis_grows bottom true before noLines
  generalize fillAxis bottom true before noLines = ax at h1 ⊢
  have hl : ax.areas.length = before.length := by
    have := congrArg List.length h2
    rw [h1]
    simpa [noLines] using this
  show ∃ ds, (fillAxis bottom true after (fillLine bottom { ax with drawn := ax.drawn ++ ys } ys)).areas[before.length]? = _ ∧ _
  obtain ⟨⟨ds, h3, h4⟩, bs, h5, -⟩ := fillAxis_grows bottom true after (fillLine bottom { ax with drawn := ax.drawn ++ ys } ys)
  refine ⟨ds, ?_, ?_, h4⟩
  · rw [h5, ← hl]
    simp [fillLine]
  · show (fillAxis bottom true after (fillLine bottom { ax with drawn := ax.drawn ++ ys } ys)).drawn = _
    rw [h3]
    simp [fillLine]

/-- **C184**: with `fill` there is an area for each line, in order, whose upper edge is the line; without there is none. -/
theorem C184_areas (bottom : List Rat → Rat) (fill : Bool) (lines : List (List Rat)) :
    (fillAxis bottom fill lines noLines).areas.map FillArea.top = if fill then lines else [] := by
  obtain ⟨-, as, h1, h2⟩ := fillAxis_grows bottom fill lines noLines
  rw [h1]
  simpa [noLines] using h2

/-- **C184**: the lower edge of an area is not above its line, nor above any line drawn before. -/
theorem C184_under {bottom : List Rat → Rat} (hb : Below bottom) (before after : List (List Rat)) (ys : List Rat) (a : FillArea)
    (h : (fillAxis bottom true (before ++ ys :: after) noLines).areas[before.length]? = some a) :
    ∀ zs ∈ before ++ [ys], ∀ z ∈ zs, a.base ≤ z := by
  obtain ⟨ds, h1, -, -⟩ := fillAxis_area bottom before after ys
  rw [h1] at h
  cases h
  intro zs hz z hzz
  refine hb _ _ ?_
  rcases List.mem_append.mp hz with hz | hz
  · obtain ⟨⟨es, h2, h3⟩, -⟩ := fillAxis_grows bottom true before noLines
    rw [h2]
    exact List.mem_append_left _ (List.mem_append_right _ (h3 zs hz z hzz))
  · rw [List.mem_singleton.mp hz] at hzz
    exact List.mem_append_right _ hzz

theorem area_drawn (bottom : List Rat → Rat) (lines : List (List Rat)) (a : FillArea)
    (h : a ∈ (fillAxis bottom true lines noLines).areas) : a.base ∈ (fillAxis bottom true lines noLines).drawn := by
  have key : ∀ (l : List (List Rat)) (ax : FillAxis), (∀ a ∈ ax.areas, a.base ∈ ax.drawn) →
      ∀ a ∈ (fillAxis bottom true l ax).areas, a.base ∈ (fillAxis bottom true l ax).drawn := by
    intro l
    induction l with
    | nil => intro ax h; exact h
    | cons ys l ih =>
      intro ax h
      refine ih _ ?_
      intro a ha
      simp only [if_true, fillLine, List.mem_append, List.mem_singleton] at ha ⊢
      rcases ha with ha | rfl
      · exact Or.inl (Or.inl (h a ha))
      · simp
  exact key lines noLines (by simp [noLines]) a h

/-- **C184**: without `ylim` an area reaches down to the axis exactly if its lower edge is the lower limit of the axis in the end; with `ylim`,
exactly if it is not above the limit that is given. -/
theorem C184_exact {bottom : List Rat → Rat} (hb : Below bottom) (lines : List (List Rat)) (a : FillArea)
    (h : a ∈ (fillAxis bottom true lines noLines).areas) :
    (ReachesDown bottom none (fillAxis bottom true lines noLines) a ↔ a.base = bottom (fillAxis bottom true lines noLines).drawn) ∧
    ∀ lo hi, ReachesDown bottom (some (lo, hi)) (fillAxis bottom true lines noLines) a ↔ a.base ≤ lo := by
  have := hb _ _ (area_drawn bottom lines a h)
  refine ⟨⟨fun h1 => le_antisymm h1 this, fun h1 => le_of_eq h1⟩, fun lo hi => Iff.rfl⟩

/-- **C184**: the area of a single line reaches down if the limits of the axis stay when the values are drawn once more, together with the limit. -/
theorem C184_single_partial {bottom : List Rat → Rat} (ys : List Rat) (hs : bottom (ys ++ bottom ys :: ys) = bottom ys) :
    ∀ a ∈ (fillAxis bottom true [ys] noLines).areas, ReachesDown bottom none (fillAxis bottom true [ys] noLines) a := by
  intro a ha
  simp only [fillAxis, if_true, fillLine, noLines, List.nil_append, List.mem_singleton] at ha
  subst ha
  simp only [ReachesDown, finalBottom, fillAxis, if_true, fillLine, noLines, List.nil_append, hs]
  exact le_refl _

/-- **C184 refuted** for several lines: an area does not reach down if a line that is drawn later has a value below its lower edge. -/
theorem C184_later_refuted {bottom : List Rat → Rat} (hb : Below bottom) (before after : List (List Rat)) (ys : List Rat) (a : FillArea)
    (_h : (fillAxis bottom true (before ++ ys :: after) noLines).areas[before.length]? = some a)
    (zs : List Rat) (hz : zs ∈ after) (z : Rat) (hzz : z ∈ zs) (hlt : z < a.base) :
    ¬ ReachesDown bottom none (fillAxis bottom true (before ++ ys :: after) noLines) a := by
  obtain ⟨ds, -, h2, h3⟩ := fillAxis_area bottom before after ys
  intro h4
  have h5 : z ∈ (fillAxis bottom true (before ++ ys :: after) noLines).drawn := by
    rw [h2]
    exact List.mem_append_right _ (h3 zs hz z hzz)
  have h6 := hb _ _ h5
  simp only [ReachesDown, finalBottom] at h4
  linarith

/-- **C184 refuted** for axes with a margin below the values, as matplotlib 2.0 and later give them: no area reaches down, as its lower edge gets
a margin as well. -/
theorem C184_margin_refuted {bottom : List Rat → Rat} (hm : ∀ vs, ∀ v ∈ vs, bottom vs < v) (lines : List (List Rat)) (a : FillArea)
    (h : a ∈ (fillAxis bottom true lines noLines).areas) : ¬ ReachesDown bottom none (fillAxis bottom true lines noLines) a := by
  have := hm _ _ (area_drawn bottom lines a h)
  simp only [ReachesDown, finalBottom]
  linarith

/-- **C184 refuted** for plots with `ylim`, which is set after the areas are drawn: if the limit is below what the axis had, no area reaches down. -/
theorem C184_ylim_refuted {bottom : List Rat → Rat} (hb : Below bottom) (lines : List (List Rat)) (a : FillArea)
    (h : a ∈ (fillAxis bottom true lines noLines).areas) (lo hi : Rat) (hlt : lo < bottom (fillAxis bottom true lines noLines).drawn) :
    ¬ ReachesDown bottom (some (lo, hi)) (fillAxis bottom true lines noLines) a := by
  have := hb _ _ (area_drawn bottom lines a h)
  simp only [ReachesDown, finalBottom]
  linarith

/-- the least value, or 0 -/
def leastOf : List Rat → Rat
  | [] => 0
  | [v] => v
  | v :: w :: vs => min v (leastOf (w :: vs))

theorem leastOf_le : Below leastOf := by
  intro vs
  induction vs with
  | nil => intro v hv; cases hv
  | cons u vs ih =>
    intro v hv
    cases vs with
    | nil => simp at hv; subst hv; exact le_refl _
    | cons w vs =>
      simp only [leastOf]
      rcases List.mem_cons.mp hv with rfl | hv
      · exact min_le_left _ _
      · exact le_trans (min_le_right _ _) (ih v hv)

/-- limits without and with a margin -/
example : Below leastOf := leastOf_le
example : ∀ vs, ∀ v ∈ vs, (fun vs => leastOf vs - 1) vs < v := fun vs v hv => by have := leastOf_le vs v hv; show leastOf vs - 1 < v; linarith
example : (fillAxis leastOf true [[3, 4], [2, 5]] noLines).areas = [⟨3, [3, 4]⟩, ⟨2, [2, 5]⟩] ∧
    finalBottom leastOf none (fillAxis leastOf true [[3, 4], [2, 5]] noLines) = 2 ∧
    finalBottom leastOf (some (0, 9)) (fillAxis leastOf true [[3, 4], [2, 5]] noLines) = 0 := by decide +kernel
example : leastOf ([3, 4] ++ leastOf [3, 4] :: [3, 4]) = leastOf [3, 4] := by decide +kernel
example : (fillAxis (fun vs => leastOf vs - 1) true [[3, 4]] noLines).areas = [⟨2, [3, 4]⟩] ∧
    finalBottom (fun vs => leastOf vs - 1) none (fillAxis (fun vs => leastOf vs - 1) true [[3, 4]] noLines) = 1 := by decide +kernel

end Trappy
