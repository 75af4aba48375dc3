import Verif.Prop.ResultsFile
import Mathlib.Tactic.Common

/-! Exactly which benchmarks get the same title. -/

namespace Trappy
open Re Py

theorem char_cases {P : Char → Prop} (h1 : ∀ n : Fin 128, P (Char.ofNat n)) (h2 : ∀ c : Char, 128 ≤ c.toNat → P c) (c : Char) : P c := by
  by_cases h : c.toNat < 128
  · have := h1 ⟨c.toNat, h⟩
    simpa using this
  · exact h2 c (by omega)

theorem toLower_big {c : Char} (h : 128 ≤ c.toNat) : c.toLower = c := by
  unfold Char.toLower
  rw [dif_neg]
  rintro ⟨_, h2⟩
  have : c.val.toNat ≤ 90 := UInt32.le_iff_toNat_le.1 h2
  have h : 128 ≤ c.val.toNat := h
  omega

theorem toUpper_big {c : Char} (h : 128 ≤ c.toNat) : c.toUpper = c := by
  unfold Char.toUpper
  rw [dif_neg]
  rintro ⟨_, h2⟩
  have : c.val.toNat ≤ 122 := UInt32.le_iff_toNat_le.1 h2
  have h : 128 ≤ c.val.toNat := h
  omega

theorem lower_upper (c : Char) : c.toUpper.toLower = c.toLower :=
  char_cases (P := fun c => c.toUpper.toLower = c.toLower) (by decide +kernel) (fun c h => by rw [toUpper_big h]) c

theorem lower_lower (c : Char) : c.toLower.toLower = c.toLower :=
  char_cases (P := fun c => c.toLower.toLower = c.toLower) (by decide +kernel) (fun c h => by rw [toLower_big h, toLower_big h]) c

theorem upper_lower (c : Char) : c.toLower.toUpper = c.toUpper :=
  char_cases (P := fun c => c.toLower.toUpper = c.toUpper) (by decide +kernel) (fun c h => by rw [toLower_big h]) c

theorem letter_lower (c : Char) : (isUpper c.toLower || isLower c.toLower) = (isUpper c || isLower c) :=
  char_cases (P := fun c => (isUpper c.toLower || isLower c.toLower) = (isUpper c || isLower c)) (by decide +kernel) (fun c h => by rw [toLower_big h]) c

theorem titleCase_lower (q : Bool) (s : Str) : (titleCase q s).map Char.toLower = s.map Char.toLower := by
  induction s generalizing q with
  | nil => rfl
  | cons c s ih =>
    rw [titleCase, List.map_cons, List.map_cons, ih]
    congr 1
    split
    · exact lower_lower c
    · exact lower_upper c

theorem titleCase_fold (q : Bool) (s : Str) : titleCase q (s.map Char.toLower) = titleCase q s := by
  induction s generalizing q with
  | nil => rfl
  | cons c s ih =>
    rw [List.map_cons, titleCase, titleCase, letter_lower, ih]
    congr 1
    split
    · exact lower_lower c
    · exact upper_lower c

theorem titleCase_eq_iff (s t : Str) : titleCase false s = titleCase false t ↔ s.map Char.toLower = t.map Char.toLower := by
  constructor
  · intro h
    rw [← titleCase_lower false s, h, titleCase_lower]
  · intro h
    rw [← titleCase_fold false s, h, titleCase_fold]

theorem TitleFor.eq {b title : Str} (h : TitleFor b title) : ∃ s : Str, s = (b.map fun c => if c = '_' then ' ' else c) ∧ title = titleCase false s := by
  obtain ⟨s, h1, h2, h3, h4, h5⟩ := h
  refine ⟨s, ?_, ?_⟩
  · apply List.ext_getElem?
    intro i
    rw [List.getElem?_map]
    cases hb : b[i]? with
    | none =>
      rw [List.getElem?_eq_none_iff] at hb
      simp only [Option.map_none, List.getElem?_eq_none_iff]
      omega
    | some c => exact h3 i c hb
  · apply List.ext_getElem?
    intro i
    by_cases hi : i < s.length
    · obtain ⟨c, hc⟩ : ∃ c, s[i]? = some c := ⟨_, List.getElem?_eq_getElem hi⟩
      cases i with
      | zero =>
        rw [h4 c hc]
        cases s with
        | nil => cases hc
        | cons x s =>
          simp only [List.getElem?_cons_zero, Option.some.injEq] at hc
          subst hc
          simp [titleCase]
      | succ i =>
        obtain ⟨p, hp⟩ : ∃ p, s[i]? = some p := ⟨_, List.getElem?_eq_getElem (by omega)⟩
        rw [h5 i c p hc hp, titleCase_next _ _ _ _ _ hc hp]
    · rw [List.getElem?_eq_none (by omega), List.getElem?_eq_none (by rw [titleCase_length]; omega)]

/-- **C165 (titles, exactly).** The figures of two benchmarks have the same title exactly if their names differ only in the case of letters and in blanks for underscores. -/
theorem C165_title_exact (b b' title title' : Str) (h : TitleFor b title) (h' : TitleFor b' title') :
    title = title' ↔ (b.map fun c => if c = '_' then ' ' else c.toLower) = b'.map fun c => if c = '_' then ' ' else c.toLower := by
  obtain ⟨s, hs, rfl⟩ := h.eq
  obtain ⟨t, ht, rfl⟩ := h'.eq
  rw [titleCase_eq_iff, hs, ht, List.map_map, List.map_map]
  have e : (Char.toLower ∘ fun c => if c = '_' then ' ' else c) = fun c => if c = '_' then ' ' else c.toLower := by
    funext c
    simp only [Function.comp]
    split
    · rfl
    · rfl
  rw [e]

/-- C165: different and equal titles -/
example : TitleFor cs!"gl_bench" cs!"Gl Bench" ∧ TitleFor cs!"GL bench" cs!"Gl Bench" ∧ TitleFor cs!"glbench" cs!"Glbench" := by
  refine ⟨?_, ?_, ?_⟩
  · have := benchTitle_spec cs!"gl_bench"; rwa [show benchTitle cs!"gl_bench" = cs!"Gl Bench" by decide +kernel] at this
  · have := benchTitle_spec cs!"GL bench"; rwa [show benchTitle cs!"GL bench" = cs!"Gl Bench" by decide +kernel] at this
  · have := benchTitle_spec cs!"glbench"; rwa [show benchTitle cs!"glbench" = cs!"Glbench" by decide +kernel] at this

end Trappy
