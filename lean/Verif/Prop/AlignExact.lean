import Verif.Prop.Correlator
import Mathlib.Tactic.Linarith
/-!
# C62: exactly which series are aligned, with NaN
-/

namespace Trappy

/-- a sample that is not zero: an active one, or NaN -/
def Nonzero (s : List (Option Rat)) (i : Nat) : Prop := ∃ v, s[i]? = some v ∧ v ≠ some 0

/-- the first or the last sample that is not zero -/
def EndNonzero : AlignMode → List (Option Rat) → Nat → Prop
  | .front, s, i => Nonzero s i ∧ ∀ j, j < i → ¬ Nonzero s j
  | .back, s, i => Nonzero s i ∧ ∀ j, i < j → ¬ Nonzero s j

theorem Active.nonzero {s : List (Option Rat)} {i : Nat} (h : Active s i) : Nonzero s i := by
  obtain ⟨v, e, hv⟩ := h
  exact ⟨some v, e, fun h => hv (Option.some.inj h)⟩

theorem pickPos_nonzero {mode : AlignMode} {s : List (Option Rat)} {p : Nat} (h : EndNonzero mode s p) : pickPos mode (flatNonzero 0 s) = some p := by
  have hm : ∀ k, k ∈ flatNonzero 0 s ↔ Nonzero s k := by
    intro k
    rw [flatNonzero_mem]
    simp [Nonzero]
  have hs := flatNonzero_sorted s 0
  cases mode with
  | front =>
    obtain ⟨h1, h2⟩ := h
    have h1' := (hm p).mpr h1
    simp only [pickPos]
    cases hf : flatNonzero 0 s with
    | nil => rw [hf] at h1'; cases h1'
    | cons k l =>
      rw [hf] at h1' hs hm
      rw [List.pairwise_cons] at hs
      rw [List.head?_cons]
      rcases List.mem_cons.1 h1' with rfl | h
      · rfl
      · exact absurd ((hm k).mp List.mem_cons_self) (h2 k (hs.1 p h))
  | back =>
    obtain ⟨h1, h2⟩ := h
    have h1' := (hm p).mpr h1
    simp only [pickPos]
    rcases List.eq_nil_or_concat (flatNonzero 0 s) with hf | ⟨l, k, hf⟩
    · rw [hf] at h1'; cases h1'
    · rw [List.concat_eq_append] at hf
      rw [hf] at h1' hs hm
      rw [List.pairwise_append] at hs
      rw [hf, List.getLast?_concat]
      rcases List.mem_append.1 h1' with h | h
      · exact absurd ((hm k).mp (by simp)) (h2 k (hs.2.2 p h k (by simp)))
      · rw [List.mem_singleton.mp h]

theorem endActive_unique {mode : AlignMode} {s : List (Option Rat)} {i j : Nat} (hi : EndActive mode s i) (hj : EndActive mode s j) : i = j := by
  rcases Nat.lt_trichotomy i j with h | h | h
  · cases mode with
    | front => exact absurd hi.1 (hj.2 i h)
    | back => exact absurd hj.1 (hi.2 j h)
  · exact h
  · cases mode with
    | front => exact absurd hj.1 (hi.2 j h)
    | back => exact absurd hi.1 (hj.2 i h)

/-- one series stays, the other one is moved -/
theorem aligned_iff {mode : AlignMode} {x y : List (Option Rat)} {px py a b k : Nat} (hlen : x.length = y.length) (hpx : EndNonzero mode x px) (hpy : EndNonzero mode y py)
    (ha : EndActive mode x a) (hb : EndActive mode y b) (hk : px = py + k) :
    (∃ q, EndActive mode x q ∧ EndActive mode (shiftRight k y) q) ↔ px + b = py + a := by
  have hal : a < x.length := by
    cases mode with
    | front => exact active_lt _ _ ha.1
    | back => exact active_lt _ _ ha.1
  have hpl : px < x.length := by
    cases mode with
    | front => obtain ⟨⟨v, e, _⟩, _⟩ := hpx; exact (List.getElem?_eq_some_iff.mp e).1
    | back => obtain ⟨⟨v, e, _⟩, _⟩ := hpx; exact (List.getElem?_eq_some_iff.mp e).1
  constructor
  · rintro ⟨q, h1, h2⟩
    obtain rfl := endActive_unique h1 ha
    cases mode with
    | front =>
      obtain ⟨h3, h4⟩ := (active_shift k y q (by omega)).1 h2.1
      have h5 : EndActive .front y (q - k) := by
        refine ⟨h4, fun j hj h => h2.2 (j + k) (by omega) ?_⟩
        exact (active_shift k y (j + k) (by omega)).2 ⟨by omega, by rw [Nat.add_sub_cancel]; exact h⟩
      have := endActive_unique h5 hb
      omega
    | back =>
      have hbp : b ≤ py := by
        rcases Nat.lt_or_ge py b with h | h
        · exact absurd hb.1.nonzero (hpy.2 b h)
        · exact h
      have := endActive_unique h2 (endActive_shift _ k _ _ hb (by omega))
      omega
  · intro h
    refine ⟨a, ha, ?_⟩
    have := endActive_shift _ k _ _ hb (by omega)
    rw [show b + k = a by omega] at this
    exact this

/-- **C62, exactly.** After aligning two series of the same length, their first (or last) activities coincide exactly if they had the same distance from the first (or last) sample that is not zero, where NaN is not zero. For all series. -/
theorem C62_exact (mode : AlignMode) (x y : List (Option Rat)) (hlen : x.length = y.length) (px py a b : Nat) (hpx : EndNonzero mode x px) (hpy : EndNonzero mode y py)
    (ha : EndActive mode x a) (hb : EndActive mode y b) :
    (∃ q, EndActive mode (alignSeries mode x y).1 q ∧ EndActive mode (alignSeries mode x y).2.1 q) ↔ px + b = py + a := by
  simp only [alignSeries, pickPos_nonzero hpx, pickPos_nonzero hpy, shiftSeries]
  by_cases hlt : (px : Int) - py > 0
  · rw [if_pos hlt]
    simp only
    have hk : ((px : Int) - py).toNat = px - py := by omega
    rw [hk]
    exact aligned_iff hlen hpx hpy ha hb (by omega)
  · rw [if_neg hlt]
    simp only
    have hk : (-1 * ((px : Int) - py)).toNat = py - px := by omega
    rw [hk]
    have := aligned_iff (k := py - px) hlen.symm hpy hpx hb ha (by omega)
    constructor
    · rintro ⟨q, h1, h2⟩
      have := this.mp ⟨q, h2, h1⟩
      omega
    · intro h
      obtain ⟨q, h1, h2⟩ := this.mpr (by omega)
      exact ⟨q, h2, h1⟩

/-- NaN one sample before the activity of both series: aligned; of one: not -/
example : alignSeries .front [none, some 5, some 0] [some 0, none, some 7] = ([none, none, some 5], [some 0, none, some 7], -1) ∧
    alignSeries .back [some 5, none, some 0] [some 0, some 0, some 7] = ([none, some 5, none], [some 0, some 0, some 7], -1) := by decide +kernel

/-- hypotheses of `C62_exact` -/
example : EndNonzero .front [none, some 5, some 0] 0 ∧ EndActive .front [none, some 5, some 0] 1 := by
  refine ⟨⟨⟨none, rfl, by simp⟩, fun j hj => by omega⟩, ⟨⟨5, rfl, by decide⟩, ?_⟩⟩
  intro j hj
  obtain rfl : j = 0 := by omega
  rintro ⟨v, e, _⟩
  simp at e

end Trappy
