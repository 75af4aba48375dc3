import Verif.Spec.EventPlotJs
import Verif.Lemma.Data
import Mathlib.Algebra.Order.Ring.Rat
import Mathlib.Algebra.Order.Field.Basic
import Mathlib.Tactic.Linarith
/-!
# Lemmas about the plots in the browser
-/

namespace Trappy

theorem searchLoop_spec {α : Type} (key : α → Rat) (data : List α) (value : Rat)
    (hs : ∀ (i j : Nat) (a b : α), i ≤ j → data[i]? = some a → data[j]? = some b → key a ≤ key b) (fuel left right : Nat)
    (hf : right - left ≤ fuel) (hlr : left ≤ right) (hr : right ≤ data.length) :
    ∃ i, searchLoop key data value fuel left right = some i ∧ left ≤ i ∧ i ≤ right ∧
      (∀ j d, left ≤ j → j < i → data[j]? = some d → key d ≤ value) ∧
      (∀ j d, i ≤ j → j < right → data[j]? = some d → value < key d) := by
  induction fuel generalizing left right with
  | zero =>
    have h : left = right := by omega
    subst h
    refine ⟨left, by simp [searchLoop], by omega, by omega, ?_, ?_⟩
    · intro j d h1 h2; omega
    · intro j d h1 h2; omega
  | succ fuel ih =>
    by_cases hlt : left < right
    · have hm : (left + right) / 2 < data.length := by omega
      have hd : data[(left + right) / 2]? = some (data[(left + right) / 2]) := List.getElem?_eq_getElem hm
      by_cases hv : value < key (data[(left + right) / 2])
      · obtain ⟨i, he, h1, h2, h3, h4⟩ := ih left ((left + right) / 2) (by omega) (by omega) (by omega)
        refine ⟨i, by simp only [searchLoop, if_pos hlt, hd, if_pos hv]; exact he, h1, by omega, h3, ?_⟩
        intro j d hij hjr hjd
        by_cases hjm : j < (left + right) / 2
        · exact h4 j d hij hjm hjd
        · exact lt_of_lt_of_le hv (hs _ _ _ _ (by omega) hd hjd)
      · obtain ⟨i, he, h1, h2, h3, h4⟩ := ih ((left + right) / 2 + 1) right (by omega) (by omega) hr
        refine ⟨i, by simp only [searchLoop, if_pos hlt, hd, if_neg hv]; exact he, by omega, h2, ?_, h4⟩
        intro j d hlj hji hjd
        by_cases hjm : (left + right) / 2 + 1 ≤ j
        · exact h3 j d hjm hji hjd
        · exact le_trans (hs _ _ _ _ (by omega) hjd hd) (not_lt.1 hv)
    · have h : left = right := by omega
      subst h
      refine ⟨left, by simp [searchLoop], by omega, by omega, ?_, ?_⟩
      · intro j d h1 h2; omega
      · intro j d h1 h2; omega

theorem sorted_get_js {α : Type} {key : α → Rat} {data : List α} (h : data.Pairwise fun a b => key a ≤ key b) :
    ∀ (i j : Nat) (a b : α), i ≤ j → data[i]? = some a → data[j]? = some b → key a ≤ key b := by
  intro i j a b hij ha hb
  rw [List.getElem?_eq_some_iff] at ha hb
  obtain ⟨hi, rfl⟩ := ha
  obtain ⟨hj, rfl⟩ := hb
  rcases Nat.lt_or_eq_of_le hij with h1 | h1
  · exact List.pairwise_iff_getElem.1 h i j hi hj h1
  · subst h1; exact le_refl _

theorem everyNth_one {α : Type} (l : List α) : everyNth 1 0 l = l := by
  induction l with
  | nil => rfl
  | cons a l ih => simp [everyNth, ih]

theorem process_clip (d xMin : Rat) : (if d < xMin then xMin else d) = max d xMin := by
  rcases lt_or_ge d xMin with h | h
  · rw [if_pos h, max_eq_right (le_of_lt h)]
  · rw [if_neg (not_lt.2 h), max_eq_left h]

theorem process_clip' (d xMax : Rat) : (if xMax < d then xMax else d) = min d xMax := by
  rcases lt_or_ge xMax d with h | h
  · rw [if_pos h, min_eq_right (le_of_lt h)]
  · rw [if_neg (not_lt.2 h), min_eq_left h]

theorem process_mem (x : Rat → Rat) (xMin xMax : Rat) (lane : Val) (d : Rat × Rat) (s : Segment) :
    s ∈ processEvent x xMin xMax lane d ↔ 1 / 100 ≤ x (min d.2 xMax) - x (max d.1 xMin) ∧ ShownAs x xMin xMax ⟨d.1, d.2, lane⟩ s := by
  unfold processEvent ShownAs
  simp only [process_clip, process_clip']
  obtain ⟨a, l, b⟩ := s
  simp only
  split
  next h => simp only [List.not_mem_nil, false_iff, not_and]; intro h'; exact absurd h (not_lt.2 h')
  next h =>
    have h := not_lt.1 h
    split
    next h2 =>
      simp only [List.mem_singleton, Segment.mk.injEq]
      constructor
      · rintro ⟨rfl, rfl, rfl⟩
        exact ⟨h, rfl, rfl, (max_eq_right (by linarith)).symm⟩
      · rintro ⟨-, rfl, rfl, rfl⟩
        exact ⟨rfl, rfl, max_eq_right (by linarith)⟩
    next h2 =>
      have h2 := not_lt.1 h2
      simp only [List.mem_singleton, Segment.mk.injEq]
      constructor
      · rintro ⟨rfl, rfl, rfl⟩
        exact ⟨h, rfl, rfl, (max_eq_left (by linarith)).symm⟩
      · rintro ⟨-, rfl, rfl, rfl⟩
        exact ⟨rfl, rfl, max_eq_left (by linarith)⟩

theorem handle_mem (x : Rat → Rat) (xMin xMax : Rat) (lane : Val) (d : Rat × Rat) (s : Segment) :
    s ∈ handleEquality x xMin xMax lane d ↔ max d.1 xMin < min d.2 xMax ∧ ShownExactly x xMin xMax ⟨d.1, d.2, lane⟩ s := by
  unfold handleEquality ShownExactly
  obtain ⟨a, l, b⟩ := s
  simp only
  split
  next h =>
    simp only [List.mem_singleton, Segment.mk.injEq]
    constructor
    · rintro ⟨rfl, rfl, rfl⟩; exact ⟨h, rfl, rfl, rfl⟩
    · rintro ⟨-, rfl, rfl, rfl⟩; exact ⟨rfl, rfl, rfl⟩
  next h => simp only [List.not_mem_nil, false_iff, not_and]; intro h'; exact absurd h' h

/-- One lane: the two searches lose nothing. -/
theorem lanePath_spec (x : Rat → Rat) (hx : ∀ u v, u ≤ v → x u ≤ x v) (xMin xMax : Rat) (lane : Val) (data : List (Rat × Rat))
    (hne : data ≠ []) (h1 : data.Pairwise fun a b => a.1 ≤ b.1) (h2 : data.Pairwise fun a b => a.2 ≤ b.2) :
    ∃ p, lanePath x xMin xMax false lane data = some p ∧
      (∀ d ∈ data, 1 / 100 ≤ x (min d.2 xMax) - x (max d.1 xMin) → ∃ s ∈ p, ShownAs x xMin xMax ⟨d.1, d.2, lane⟩ s) ∧
      (∀ s ∈ p, ∃ d ∈ data, (1 / 100 ≤ x (min d.2 xMax) - x (max d.1 xMin) ∧ ShownAs x xMin xMax ⟨d.1, d.2, lane⟩ s) ∨
        (max d.1 xMin < min d.2 xMax ∧ ShownExactly x xMin xMax ⟨d.1, d.2, lane⟩ s)) := by
  have hlen : 0 < data.length := List.length_pos_iff.2 hne
  obtain ⟨right, her, -, hr, hrb, hra⟩ := searchLoop_spec Prod.fst data xMax (sorted_get_js h1) (data.length - 1 - 0) 0 (data.length - 1)
    (le_refl _) (by omega) (by omega)
  obtain ⟨left, hel, -, hl, hlb, hla⟩ := searchLoop_spec Prod.snd data xMin (sorted_get_js h2) (right - 0) 0 right (le_refl _) (by omega) (by omega)
  have hslice : ∀ d ∈ data, 1 / 100 ≤ x (min d.2 xMax) - x (max d.1 xMin) → d ∈ (data.drop left).take (right + 1 - left) := by
    intro d hd hw
    obtain ⟨j, hj, rfl⟩ := List.mem_iff_getElem.1 hd
    have hjd : data[j]? = some data[j] := List.getElem?_eq_getElem hj
    have hlj : left ≤ j := by
      by_contra hc
      have := hlb j _ (by omega) (by omega) hjd
      have h3 := hx (min data[j].2 xMax) (max data[j].1 xMin) (le_trans (min_le_left _ _) (le_trans this (le_max_right _ _)))
      linarith
    have hjr : j ≤ right := by
      by_contra hc
      have h5 : xMax < data[right].1 := hra right _ (le_refl _) (by omega) (List.getElem?_eq_getElem (by omega))
      have h6 : data[right].1 ≤ data[j].1 := sorted_get_js h1 right j _ _ (by omega) (List.getElem?_eq_getElem (by omega)) hjd
      have h3 := hx (min data[j].2 xMax) (max data[j].1 xMin) (le_trans (min_le_right _ _) (le_trans (le_of_lt (lt_of_lt_of_le h5 h6)) (le_max_left _ _)))
      linarith
    rw [List.mem_iff_getElem]
    refine ⟨j - left, by simp; omega, ?_⟩
    simp only [List.getElem_take, List.getElem_drop]
    congr 1; omega
  have hdl : data[left]? = some (data[left]'(by omega)) := List.getElem?_eq_getElem (by omega)
  have hrest : ∀ s ∈ ((data.drop left).take (right + 1 - left)).flatMap (processEvent x xMin xMax lane),
      ∃ d ∈ data, 1 / 100 ≤ x (min d.2 xMax) - x (max d.1 xMin) ∧ ShownAs x xMin xMax ⟨d.1, d.2, lane⟩ s := by
    intro s hs
    obtain ⟨d, hd, hs⟩ := List.mem_flatMap.1 hs
    exact ⟨d, List.mem_of_mem_drop (List.mem_of_mem_take hd), (process_mem ..).1 hs⟩
  have hall : ∀ d ∈ data, 1 / 100 ≤ x (min d.2 xMax) - x (max d.1 xMin) →
      ∃ s ∈ ((data.drop left).take (right + 1 - left)).flatMap (processEvent x xMin xMax lane), ShownAs x xMin xMax ⟨d.1, d.2, lane⟩ s := by
    intro d hd hw
    let s : Segment := ⟨x (max d.1 xMin), lane, max (x (min d.2 xMax)) (x (max d.1 xMin) + 1)⟩
    have hsh : ShownAs x xMin xMax ⟨d.1, d.2, lane⟩ s := ⟨rfl, rfl, rfl⟩
    exact ⟨s, List.mem_flatMap.2 ⟨d, hslice d hd hw, (process_mem ..).2 ⟨hw, hsh⟩⟩, hsh⟩
  unfold lanePath searchData
  simp only [her, hel, hdl, strideLength, everyNth_one, Bool.false_eq_true, if_false]
  split
  next h =>
    refine ⟨_, rfl, ?_, ?_⟩
    · intro d hd hw
      obtain ⟨s, hs, hsh⟩ := hall d hd hw
      exact ⟨s, List.mem_append_right _ hs, hsh⟩
    · intro s hs
      rcases List.mem_append.1 hs with hs | hs
      · exact ⟨data[left]'(by omega), List.getElem_mem _, .inr ((handle_mem ..).1 hs)⟩
      · obtain ⟨d, hd, h⟩ := hrest s hs
        exact ⟨d, hd, .inl h⟩
  next h =>
    refine ⟨_, rfl, hall, ?_⟩
    intro s hs
    obtain ⟨d, hd, h⟩ := hrest s hs
    exact ⟨d, hd, .inl h⟩

theorem getPath_spec (x : Rat → Rat) (hx : ∀ u v, u ≤ v → x u ≤ x v) (xMin xMax : Rat) (lanes : List (Val × List (Rat × Rat)))
    (hl : ∀ l ∈ lanes, l.2 ≠ [] ∧ (l.2.Pairwise fun a b => a.1 ≤ b.1) ∧ l.2.Pairwise fun a b => a.2 ≤ b.2) :
    ∃ p, getPath x xMin xMax false lanes = some p ∧
      (∀ l ∈ lanes, ∀ d ∈ l.2, 1 / 100 ≤ x (min d.2 xMax) - x (max d.1 xMin) → ∃ s ∈ p, ShownAs x xMin xMax ⟨d.1, d.2, l.1⟩ s) ∧
      (∀ s ∈ p, ∃ l ∈ lanes, ∃ d ∈ l.2, (1 / 100 ≤ x (min d.2 xMax) - x (max d.1 xMin) ∧ ShownAs x xMin xMax ⟨d.1, d.2, l.1⟩ s) ∨
        (max d.1 xMin < min d.2 xMax ∧ ShownExactly x xMin xMax ⟨d.1, d.2, l.1⟩ s)) := by
  induction lanes with
  | nil => exact ⟨[], rfl, by simp, by simp⟩
  | cons l lanes ih =>
    obtain ⟨lane, data⟩ := l
    obtain ⟨h0, h1, h2⟩ := hl (lane, data) (by simp)
    obtain ⟨p, hp, ha, hb⟩ := lanePath_spec x hx xMin xMax lane data h0 h1 h2
    obtain ⟨q, hq, hc, hd⟩ := ih fun l h => hl l (List.mem_cons_of_mem _ h)
    refine ⟨p ++ q, by simp [getPath, hp, hq], ?_, ?_⟩
    · intro l hl' d hd' hw
      rcases List.mem_cons.1 hl' with rfl | hl'
      · obtain ⟨s, hs, hsh⟩ := ha d hd' hw
        exact ⟨s, List.mem_append_left _ hs, hsh⟩
      · obtain ⟨s, hs, hsh⟩ := hc l hl' d hd' hw
        exact ⟨s, List.mem_append_right _ hs, hsh⟩
    · intro s hs
      rcases List.mem_append.1 hs with hs | hs
      · obtain ⟨d, hd', h⟩ := hb s hs
        exact ⟨(lane, data), by simp, d, hd', h⟩
      · obtain ⟨l, hl', d, hd', h⟩ := hd s hs
        exact ⟨l, List.mem_cons_of_mem _ hl', d, hd', h⟩

end Trappy
