import Verif.Spec.Power
import Verif.Prop.Events
import Mathlib.Tactic.Linarith
import Mathlib.Tactic.Positivity
import Mathlib.Tactic.FieldSimp
import Mathlib.Algebra.Order.Field.Rat
/-!
# Lemmas about the power tables
-/

namespace Trappy

/-! ## The index -/

theorem mem_insertTime (t x : Nat) (l : List Nat) : x ∈ insertTime t l ↔ x = t ∨ x ∈ l := by
  induction l with
  | nil => simp [insertTime]
  | cons u us ih =>
    unfold insertTime
    split
    · simp
    · split
      · rename_i h; subst h; simp
      · simp only [List.mem_cons, ih]
        constructor
        · rintro (h | h | h) <;> simp [h]
        · rintro (h | h | h) <;> simp [h]

theorem insertTime_sorted (t : Nat) (l : List Nat) (h : l.Pairwise (· < ·)) : (insertTime t l).Pairwise (· < ·) := by
  induction l with
  | nil => simp [insertTime]
  | cons u us ih =>
    rw [List.pairwise_cons] at h
    unfold insertTime
    split
    · rename_i hlt
      refine List.pairwise_cons.mpr ⟨?_, List.pairwise_cons.mpr h⟩
      intro x hx
      rcases List.mem_cons.mp hx with rfl | hx
      · exact hlt
      · exact Nat.lt_trans hlt (h.1 x hx)
    · split
      · exact List.pairwise_cons.mpr h
      · refine List.pairwise_cons.mpr ⟨?_, ih h.2⟩
        intro x hx
        rcases (mem_insertTime _ _ _).mp hx with rfl | hx
        · omega
        · exact h.1 x hx

theorem mem_foldInsert (j acc : List Nat) (x : Nat) :
    x ∈ j.foldl (fun acc t => insertTime t acc) acc ↔ x ∈ j ∨ x ∈ acc := by
  induction j generalizing acc with
  | nil => simp
  | cons t j ih =>
    rw [List.foldl_cons, ih, mem_insertTime]
    simp only [List.mem_cons]
    constructor
    · rintro (h | h | h) <;> simp [h]
    · rintro ((h | h) | h) <;> simp [h]

theorem foldInsert_sorted (j acc : List Nat) (h : acc.Pairwise (· < ·)) :
    (j.foldl (fun acc t => insertTime t acc) acc).Pairwise (· < ·) := by
  induction j generalizing acc with
  | nil => exact h
  | cons t j ih => exact ih _ (insertTime_sorted t acc h)

theorem mem_foldUnion (is : List (List Nat)) (acc : List Nat) (x : Nat) :
    x ∈ is.foldl (fun acc j => j.foldl (fun acc t => insertTime t acc) acc) acc ↔ (∃ i ∈ is, x ∈ i) ∨ x ∈ acc := by
  induction is generalizing acc with
  | nil => simp
  | cons i is ih =>
    rw [List.foldl_cons, ih, mem_foldInsert]
    simp only [List.mem_cons, exists_eq_or_imp]
    constructor
    · rintro (h | h | h) <;> simp [h]
    · rintro ((h | h) | h) <;> simp [h]

theorem foldUnion_sorted (is : List (List Nat)) (acc : List Nat) (h : acc.Pairwise (· < ·)) :
    (is.foldl (fun acc j => j.foldl (fun acc t => insertTime t acc) acc) acc).Pairwise (· < ·) := by
  induction is generalizing acc with
  | nil => exact h
  | cons i is ih => exact ih _ (foldInsert_sorted i acc h)

theorem commonIndex_spec (is : List (List Nat)) (h : ∀ i ∈ is, i.Pairwise (· < ·)) :
    (commonIndex is).Pairwise (· < ·) ∧ ∀ x, x ∈ commonIndex is ↔ ∃ i ∈ is, x ∈ i := by
  unfold commonIndex
  cases is with
  | nil => simp
  | cons i is =>
    simp only
    split
    · rename_i hall
      refine ⟨h i (by simp), fun x => ⟨fun hx => ⟨i, by simp, hx⟩, ?_⟩⟩
      rintro ⟨j, hj, hx⟩
      rcases List.mem_cons.mp hj with rfl | hj
      · exact hx
      · have := List.all_eq_true.mp hall j hj
        simp at this
        rwa [← this]
    · refine ⟨foldUnion_sorted _ _ .nil, fun x => ?_⟩
      rw [mem_foldUnion]
      simp

/-! ## Columns -/

theorem lookup_ne {α : Type} {t u : Nat} {v : α} {s : List (Nat × α)} (h : t ≠ u) : List.lookup t ((u, v) :: s) = List.lookup t s := by
  have : (t == u) = false := by simpa using h
  simp only [List.lookup, this]

theorem lookup_map_fst {α : Type} (s : List (Nat × α)) (h : (s.map Prod.fst).Nodup) :
    (s.map Prod.fst).map (fun t => s.lookup t) = s.map fun x => some x.2 := by
  induction s with
  | nil => rfl
  | cons x s ih =>
    obtain ⟨t, v⟩ := x
    simp only [List.map_cons, List.nodup_cons] at h ⊢
    congr 1
    · simp [List.lookup]
    · rw [← ih h.2]
      apply List.map_congr_left
      intro u hu
      have : u ≠ t := by rintro rfl; exact h.1 hu
      exact lookup_ne this

theorem alignTo_nodup {α : Type} (index : List Nat) (s : List (Nat × Option α)) (h : (s.map Prod.fst).Nodup) :
    alignTo index s = some (index.map fun t => (s.lookup t).join) := by
  unfold alignTo
  split
  · rename_i e
    subst e
    congr 1
    have := congrArg (List.map Option.join) (lookup_map_fst s h)
    simp only [List.map_map] at this ⊢
    exact this.symm
  · simp [h]

/-- the last value that is present -/
def lastSome {α : Type} (l : List (Option α)) : Option α := (l.filterMap id).getLast?

theorem ffill_length {α : Type} (last : Option α) (vs : List (Option α)) : (ffill last vs).length = vs.length := by
  induction vs generalizing last with
  | nil => rfl
  | cons v vs ih => cases v <;> simp [ffill, ih]

theorem ffill_get {α : Type} (last : Option α) (vs : List (Option α)) (j : Nat) (hj : j < vs.length) :
    (ffill last vs)[j]? = some ((lastSome (vs.take (j + 1))).or last) := by
  induction vs generalizing last j with
  | nil => simp at hj
  | cons v vs ih =>
    cases j with
    | zero => cases v <;> simp [ffill, lastSome]
    | succ j =>
      have hj' : j < vs.length := by simpa using hj
      cases v with
      | none =>
        simp only [ffill, List.getElem?_cons_succ, ih _ _ hj', List.take_succ_cons]
        simp [lastSome]
      | some v =>
        simp only [ffill, List.getElem?_cons_succ, ih _ _ hj', List.take_succ_cons]
        have e : lastSome (some v :: vs.take (j + 1)) = (lastSome (vs.take (j + 1))).or (some v) := by
          unfold lastSome
          rw [List.filterMap_cons_some (f := id) (a := some v) (b := v) rfl, List.getLast?_cons]
          cases (List.filterMap id (List.take (j + 1) vs)).getLast? <;> rfl
        rw [e]
        cases lastSome (vs.take (j + 1)) <;> rfl

theorem filterMap_lookup {α : Type} (idx : List Nat) (s : List (Nat × Option α)) (hi : idx.Pairwise (· < ·))
    (hs : (s.map Prod.fst).Pairwise (· < ·)) (hsub : ∀ x ∈ s, x.1 ∈ idx) :
    idx.filterMap (fun t => (s.lookup t).join) = s.filterMap Prod.snd := by
  induction idx generalizing s with
  | nil =>
    cases s with
    | nil => rfl
    | cons x s => exact absurd (hsub x (by simp)) (by simp)
  | cons t ts ih =>
    rw [List.pairwise_cons] at hi
    cases s with
    | nil => simp
    | cons x s =>
      obtain ⟨u, v⟩ := x
      rw [List.map_cons, List.pairwise_cons] at hs
      have hgt : ∀ y ∈ s, u < y.1 := fun y hy => hs.1 _ (List.mem_map.mpr ⟨y, hy, rfl⟩)
      by_cases hut : u = t
      · subst hut
        have hsub' : ∀ x ∈ s, x.1 ∈ ts := by
          intro x hx
          rcases List.mem_cons.mp (hsub x (by simp [hx])) with h | h
          · exact absurd (hgt x hx) (by omega)
          · exact h
        have hr := ih s hi.2 hs.2 hsub'
        have hc : ts.filterMap (fun t => (List.lookup t ((u, v) :: s)).join) = s.filterMap Prod.snd := by
          rw [← hr]
          apply List.filterMap_congr
          intro y hy
          have : y ≠ u := by have := hi.1 y hy; omega
          rw [lookup_ne this]
        rw [List.filterMap_cons, hc]
        cases v <;> simp [List.lookup]
      · have hut' : u ∈ ts := by
          rcases List.mem_cons.mp (hsub (u, v) (by simp)) with h | h
          · exact absurd h hut
          · exact h
        have htu := hi.1 u hut'
        have hnone : List.lookup t ((u, v) :: s) = none := by
          rw [List.lookup_eq_none_iff]
          intro y hy
          rcases List.mem_cons.mp hy with rfl | hy
          · simp; omega
          · have := hgt y hy; simp; omega
        rw [List.filterMap_cons]
        simp only [hnone, Option.join_none]
        apply ih _ hi.2 (by rw [List.map_cons, List.pairwise_cons]; exact hs)
        intro y hy
        rcases List.mem_cons.mp (hsub y hy) with h | h
        · exfalso
          rcases List.mem_cons.mp hy with rfl | hy
          · exact hut h
          · have := hgt y hy; omega
        · exact h

theorem lookup_filter_le {α : Type} (s : List (Nat × α)) (b t : Nat) (h : t ≤ b) :
    (s.filter fun x => x.1 ≤ b).lookup t = s.lookup t := by
  induction s with
  | nil => rfl
  | cons x s ih =>
    obtain ⟨u, v⟩ := x
    by_cases hu : u ≤ b
    · rw [List.filter_cons_of_pos (by simpa using hu)]
      simp only [List.lookup, ih]
    · rw [List.filter_cons_of_neg (by simpa using hu), ih]
      have : t ≠ u := by omega
      rw [lookup_ne this]

/-- a padded column holds the last value at or before each time -/
theorem column_cell {α : Type} (idx : List Nat) (s : List (Nat × Option α)) (hi : idx.Pairwise (· < ·))
    (hs : (s.map Prod.fst).Pairwise (· < ·)) (hsub : ∀ x ∈ s, x.1 ∈ idx) (j t : Nat) (hj : idx[j]? = some t) :
    (ffill none (idx.map fun t => (s.lookup t).join))[j]? = some ((s.filter fun x => x.1 ≤ t).filterMap Prod.snd).getLast? := by
  have hjl : j < idx.length := (List.getElem?_eq_some_iff.mp hj).1
  have hjt : idx[j] = t := (List.getElem?_eq_some_iff.mp hj).2
  rw [ffill_get _ _ _ (by simpa using hjl), Option.or_none]
  unfold lastSome
  rw [← List.map_take, List.filterMap_map]
  have htake : ∀ y ∈ idx.take (j + 1), y ≤ t := by
    intro y hy
    obtain ⟨k, hk, rfl⟩ := List.mem_take_iff_getElem.mp hy
    by_cases hkj : k = j
    · subst hkj; omega
    · have := List.pairwise_iff_getElem.mp hi k j (by omega) hjl (by omega)
      omega
  have hfil := filterMap_lookup (idx.take (j + 1)) (s.filter fun x => x.1 ≤ t) (hi.sublist (List.take_sublist _ _)) ?_ ?_
  · rw [← hfil]
    congr 2
    apply List.filterMap_congr
    intro y hy
    simp [lookup_filter_le s t y (htake y hy)]
  · exact hs.sublist (List.filter_sublist.map _)
  · intro x hx
    obtain ⟨hx, hle⟩ := List.mem_filter.mp hx
    simp at hle
    obtain ⟨k, hk, e⟩ := List.getElem_of_mem (hsub x hx)
    rw [List.mem_take_iff_getElem]
    refine ⟨k, ?_, e⟩
    by_cases hkj : k ≤ j
    · omega
    · have := List.pairwise_iff_getElem.mp hi j k hjl hk (by omega)
      omega

/-! ## The pivot -/

theorem Dict.set_new {α : Type} (d : Dict α) (k : Str) (v : α) (h : k ∉ d.map Prod.fst) : d.set k v = d ++ [(k, v)] := by
  induction d with
  | nil => rfl
  | cons x d ih =>
    obtain ⟨k', v'⟩ := x
    simp only [List.map_cons, List.mem_cons, not_or] at h
    simp only [Dict.set, List.cons_append]
    rw [if_neg (fun e => h.1 e.symm), ih h.2]

theorem pivotLoop_ok {α : Type} (rows : List (PRow α)) (mapping : Dict Str) (lab : Str → Str) (order : List Str)
    (acc : Dict (List (Nat × Option α))) (ho : order.Nodup) (hlab : ∀ m ∈ order, mapping.get m = some (lab m))
    (hinj : ∀ m ∈ order, ∀ m' ∈ order, lab m = lab m' → m = m') (hacc : ∀ m ∈ order, lab m ∉ acc.map Prod.fst) :
    pivotLoop rows mapping order acc = .ok (acc ++ order.map fun m => (lab m, seriesOf rows m)) := by
  induction order generalizing acc with
  | nil => simp [pivotLoop]
  | cons m ms ih =>
    rw [List.nodup_cons] at ho
    simp only [pivotLoop, hlab m (by simp)]
    rw [Dict.set_new _ _ _ (hacc m (by simp))]
    rw [ih _ ho.2 (fun m' h => hlab m' (by simp [h])) (fun a ha b hb => hinj a (by simp [ha]) b (by simp [hb])) ?_]
    · simp
    · intro m' hm'
      simp only [List.map_append, List.map_cons, List.map_nil, List.mem_append, List.mem_singleton, not_or]
      refine ⟨hacc m' (by simp [hm']), fun e => ?_⟩
      have := hinj m' (by simp [hm']) m (by simp) e
      subst this
      exact ho.1 hm'

theorem alignAll_ok {α : Type} (index : List Nat) (ss : Dict (List (Nat × Option α)))
    (h : ∀ x ∈ ss, (x.2.map Prod.fst).Nodup) :
    alignAll index ss = .ok (ss.map fun x => (x.1, ffill none (index.map fun t => (x.2.lookup t).join))) := by
  induction ss with
  | nil => rfl
  | cons x ss ih =>
    obtain ⟨l, s⟩ := x
    simp only [alignAll, alignTo_nodup index s (h (l, s) (by simp)), ih (fun x hx => h x (by simp [hx])), List.map_cons]

theorem get_map_inj {α : Type} (lab : Str → Str) (f : Str → α) (order : List Str)
    (hinj : ∀ m ∈ order, ∀ m' ∈ order, lab m = lab m' → m = m') (m : Str) (hm : m ∈ order) :
    Dict.get (order.map fun m => (lab m, f m)) (lab m) = some (f m) := by
  induction order with
  | nil => simp at hm
  | cons a as ih =>
    simp only [List.map_cons, Dict.get]
    split
    · rename_i h
      rw [hinj a (by simp) m hm h]
    · rename_i h
      rcases List.mem_cons.mp hm with rfl | hm
      · exact absurd rfl h
      · exact ih (fun a ha b hb => hinj a (by simp [ha]) b (by simp [hb])) hm

/-- the last value of a cluster, in terms of the rows -/
theorem lastObs_series {α : Type} (rows : List (PRow α)) (m : Str) (t : Nat) :
    LastObs rows m t (((seriesOf rows m).filter fun x => x.1 ≤ t).filterMap Prod.snd).getLast? := by
  have e : ((seriesOf rows m).filter fun x => x.1 ≤ t).filterMap Prod.snd =
      rows.filterMap fun r => if r.mask = m ∧ r.time ≤ t then r.value else none := by
    unfold seriesOf
    induction rows with
    | nil => rfl
    | cons r rows ih =>
      simp only [List.filterMap_cons]
      by_cases h1 : r.mask = m
      · rw [List.filter_cons_of_pos (by simpa using h1), List.map_cons]
        by_cases h2 : r.time ≤ t
        · rw [List.filter_cons_of_pos (by simpa using h2), List.filterMap_cons, ih]
          simp [h1, h2]
        · rw [List.filter_cons_of_neg (by simpa using h2), ih]
          simp [h2]
      · rw [List.filter_cons_of_neg (by simpa using h1), ih]
        simp [h1]
  rw [e]
  clear e
  induction rows with
  | nil => simp [LastObs]
  | cons r rows ih =>
    have step : ∀ x, LastObs rows m t (some x) → LastObs (r :: rows) m t (some x) := by
      rintro x ⟨pre, r', post, rfl, h⟩
      exact ⟨r :: pre, r', post, rfl, h⟩
    cases hlast : (rows.filterMap fun r => if r.mask = m ∧ r.time ≤ t then r.value else none).getLast? with
    | some x =>
      rw [hlast] at ih
      have : ((r :: rows).filterMap fun r => if r.mask = m ∧ r.time ≤ t then r.value else none).getLast? = some x := by
        rw [List.filterMap_cons]
        split
        · exact hlast
        · rw [List.getLast?_cons, hlast]; rfl
      rw [this]
      exact step x ih
    | none =>
      rw [hlast] at ih
      have hn : (rows.filterMap fun r => if r.mask = m ∧ r.time ≤ t then r.value else none) = [] :=
        List.getLast?_eq_none_iff.mp hlast
      rw [List.filterMap_cons, hn]
      split
      · rename_i hnone
        intro r' hr' h1 h2
        rcases List.mem_cons.mp hr' with rfl | hr'
        · simpa [h1, h2] using hnone
        · exact ih r' hr' h1 h2
      · rename_i x hx
        have hc : r.mask = m ∧ r.time ≤ t := by
          by_contra h
          simp [h] at hx
        rw [if_pos hc] at hx
        exact ⟨[], r, rows, rfl, hc.1, hc.2, hx, ih⟩

end Trappy
