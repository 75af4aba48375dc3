import Verif.Prop.Wa2
import Verif.Prop.SysfsTable
/-!
# C78: with more than ten cooling devices, which actors get the wrong weight
-/

namespace Trappy
open Py Re

theorem exists_weightFiles {n : Nat} : ∀ (l : List Str), (∀ p ∈ l, ∃ k < n, p = weightFile k) → ∃ ks : List Nat, l = ks.map weightFile ∧ ∀ k ∈ ks, k < n := by
  intro l
  induction l with
  | nil => exact fun _ => ⟨[], rfl, by simp⟩
  | cons p l ih =>
    intro h
    obtain ⟨k, hk, rfl⟩ := h p List.mem_cons_self
    obtain ⟨ks, rfl, hks⟩ := ih fun q hq => h q (List.mem_cons_of_mem _ hq)
    refine ⟨k :: ks, rfl, ?_⟩
    intro j hj
    rcases List.mem_cons.mp hj with rfl | hj
    · exact hk
    · exact hks j hj

theorem weightFile_low : ∀ i < 10, ∀ k < i, strLt (weightFile k) (weightFile i) = true := by decide +kernel

theorem weightFile_ten : ∀ i < 10, 0 < i → strLt (weightFile 10) (weightFile i) = true := by decide +kernel

/-- the order of the devices: each of 1 to 9 comes too late -/
theorem weight_late {n : Nat} (ks : List Nat) (hmem : ∀ k, k ∈ ks ↔ k < n) (hs : (ks.map weightFile).Pairwise fun x y => strLt y x = false) (hn : 10 < n)
    (i : Nat) (h0 : 0 < i) (hi : i < 10) : ks[i]? ≠ some i := by
  intro h
  obtain ⟨hlt, e⟩ := List.getElem?_eq_some_iff.mp h
  have hsplit : ks = ks.take i ++ i :: ks.drop (i + 1) := by
    conv_lhs => rw [← List.take_append_drop i ks, List.drop_eq_getElem_cons hlt, e]
  have hbefore : ∀ k < n, strLt (weightFile k) (weightFile i) = true → k ∈ ks.take i := by
    intro k hk hlt'
    have hmem' := (hmem k).mpr hk
    rw [hsplit, List.mem_append, List.mem_cons] at hmem'
    rcases hmem' with h1 | h1 | h1
    · exact h1
    · subst h1
      have := strLt_asymm' _ _ hlt'
      rw [this] at hlt'
      cases hlt'
    · rw [hsplit, List.map_append, List.pairwise_append, List.map_cons, List.pairwise_cons] at hs
      have := hs.2.1.1 _ (List.mem_map.mpr ⟨k, h1, rfl⟩)
      rw [this] at hlt'
      cases hlt'
  have hsub : (10 :: List.range i) ⊆ ks.take i := by
    intro k hk
    rcases List.mem_cons.mp hk with rfl | hk
    · exact hbefore 10 hn (weightFile_ten i hi h0)
    · have hk' := List.mem_range.mp hk
      exact hbefore k (by omega) (weightFile_low i hi k hk')
  have hnd : (10 :: List.range i).Nodup := by
    rw [List.nodup_cons]
    exact ⟨by simp; omega, List.nodup_range⟩
  have := (hnd.subperm hsub).length_le
  simp at this

/-- **C78 (refuted for each device).** With eleven or more cooling devices whose weights are different, none of the actors 1 to 9 is paired with the weight of its own cooling device. -/
theorem C78_each_refuted {params : Dict Val} {n : Nat} {w : Nat → Val} (hk : ∀ p, (p ∈ params.map Prod.fst ∧ WeightName p) ↔ ∃ i < n, p = weightFile i)
    (hw : ∀ i < n, params.get (weightFile i) = some (w i)) (hinj : ∀ i < n, ∀ j < n, w i = w j → i = j) (hn : 10 < n) (actors : List Str)
    (i : Nat) (h0 : 0 < i) (hi : i < 10) (a : Str) : (actorWeights actors params)[i]? ≠ some (a, w i) := by
  have htrans : ∀ a b c : Str, strLt b a = false → strLt c b = false → strLt c a = false := by
    intro a b c h1 h2
    rw [← Bool.not_eq_true, strLt_iff, List.not_lt] at h1 h2 ⊢
    exact List.le_trans h1 h2
  have hs := (sortBy_sorted strLt_asymm' htrans (params.map Prod.fst)).sublist (List.filter_sublist (p := fun p => (matchPrefix weightRe p).isSome))
  have hm : ∀ p, p ∈ ((sortBy strLt (params.map Prod.fst)).filter fun p => (matchPrefix weightRe p).isSome) ↔ ∃ i < n, p = weightFile i := by
    intro p
    rw [List.mem_filter, (sortBy_perm strLt _).mem_iff, weight_match, hk]
  obtain ⟨ks, e, hlt⟩ := exists_weightFiles _ fun p hp => (hm p).mp hp
  rw [e] at hs
  have hmem : ∀ k, k ∈ ks ↔ k < n := by
    intro k
    constructor
    · exact hlt k
    · intro h
      have := (hm (weightFile k)).mpr ⟨k, h, rfl⟩
      rw [e] at this
      obtain ⟨j, hj, ej⟩ := List.mem_map.mp this
      rw [← weightFile_inj ej]
      exact hj
  have hsw : sortedWeights params = ks.map w := by
    unfold sortedWeights
    rw [e, List.filterMap_map]
    have : ∀ (l : List Nat), (∀ i ∈ l, i < n) → l.filterMap ((fun p => params.get p) ∘ weightFile) = l.map w := by
      intro l hl
      induction l with
      | nil => rfl
      | cons i l ih =>
        rw [List.filterMap_cons]
        simp only [Function.comp, hw i (hl i List.mem_cons_self), List.map_cons]
        rw [← ih fun j hj => hl j (List.mem_cons_of_mem _ hj)]
        rfl
    exact this _ hlt
  intro h
  unfold actorWeights at h
  rw [List.getElem?_zip_eq_some, hsw, List.getElem?_map, Option.map_eq_some_iff] at h
  obtain ⟨_, k, hk1, hk2⟩ := h
  obtain rfl : k = i := hinj k (hlt k (List.mem_of_getElem? hk1)) i (by omega) hk2
  exact weight_late ks hmem hs hn k h0 hi hk1

/-- twelve devices: actor 1 gets the weight of device 10, actor 2 of device 11, actor 3 of device 1 -/
example : (actorWeights (List.replicate 4 cs!"a") ((List.range 12).map fun i => (weightFile i, .int (100 + i)))).map Prod.snd = [.int 100, .int 110, .int 111, .int 101] := by decide +kernel

end Trappy
