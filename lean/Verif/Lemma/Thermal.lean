import Verif.Spec.Thermal
import Verif.Lemma.Power
import Verif.Lemma.Regex2
/-! Lemmas about the padded tables. -/

namespace Trappy

/-- the last value of a series at or before a time -/
def obs {α : Type} (s : List (Nat × Option α)) (t : Nat) : Option α := ((s.filter fun x => x.1 ≤ t).filterMap Prod.snd).getLast?

theorem lastObs_eq_obs {α : Type} (rows : List (PRow α)) (m : Str) (t : Nat) (v : Option α) (h : LastObs rows m t v) :
    v = obs (seriesOf rows m) t := by
  have e : ((seriesOf rows m).filter fun x => x.1 ≤ t).filterMap Prod.snd =
      rows.filterMap fun r => if r.mask = m ∧ r.time ≤ t then r.value else none := by
    unfold seriesOf
    induction rows with
    | nil => rfl
    | cons r rs ih =>
      clear ih h
      induction (r :: rs) with
      | nil => rfl
      | cons r rs ih =>
        by_cases h1 : r.mask = m
        · by_cases h2 : r.time ≤ t
          · cases hv : r.value <;> simp [h1, h2, hv] at ih ⊢ <;> exact ih
          · simp [h1, h2] at ih ⊢; exact ih
        · simp [h1] at ih ⊢; exact ih
  unfold obs
  rw [e]
  cases v with
  | none =>
    have : (rows.filterMap fun r => if r.mask = m ∧ r.time ≤ t then r.value else none) = [] := by
      rw [List.filterMap_eq_nil_iff]
      intro r hr
      split
      · rename_i hc
        exact h r hr hc.1 hc.2
      · rfl
    rw [this]; rfl
  | some x =>
    obtain ⟨pre, r, post, rfl, h1, h2, h3, h4⟩ := h
    have hp : (post.filterMap fun r => if r.mask = m ∧ r.time ≤ t then r.value else none) = [] := by
      rw [List.filterMap_eq_nil_iff]
      intro r hr
      split
      · rename_i hc
        exact h4 r hr hc.1 hc.2
      · rfl
    rw [List.filterMap_append, List.filterMap_cons]
    simp [h1, h2, h3, hp]

theorem obs_cons_le {α : Type} (s : List (Nat × Option α)) (i t : Nat) (hle : i ≤ t) (hs : ∀ x ∈ s, x.1 ≤ t → x.1 ≤ i) : obs s i = obs s t := by
  unfold obs
  congr 2
  apply List.filter_congr
  intro x hx
  simp only [decide_eq_decide]
  exact ⟨fun h => by omega, hs x hx⟩

/-- Padding again changes nothing. -/
theorem obs_pad {α : Type} (s : List (Nat × Option α)) (t : Nat) (idx : List Nat) (hi : idx.Pairwise (· < ·))
    (hsub : ∀ x ∈ s, x.1 ≤ t → x.1 ∈ idx) : obs (idx.map fun u => (u, obs s u)) t = obs s t := by
  induction idx using List.reverseRecOn with
  | nil =>
    have : s.filter (fun x => x.1 ≤ t) = [] := by
      rw [List.filter_eq_nil_iff]
      intro x hx hd
      simpa using hsub x hx (by simpa using hd)
    simp [obs, this]
  | append_singleton is i ih =>
    rw [List.pairwise_append] at hi
    by_cases hit : i ≤ t
    · have e : obs s i = obs s t := obs_cons_le s i t hit fun x hx hxt => by
        rcases List.mem_append.mp (hsub x hx hxt) with h | h
        · exact le_of_lt (hi.2.2 _ h i (by simp))
        · simp at h; omega
      unfold obs at ⊢
      rw [List.map_append, List.filter_append, List.filterMap_append]
      simp only [List.map_cons, List.map_nil]
      rw [List.filter_cons, if_pos (by simpa using hit), List.filter_nil]
      cases ho : obs s t with
      | some v =>
        have hoi : obs s i = some v := e.trans ho
        unfold obs at ho hoi
        simp [ho, hoi]
      | none =>
        have hoi : obs s i = none := e.trans ho
        have hnone : ∀ u, u ≤ t → obs s u = none := by
          intro u hu
          unfold obs at ho ⊢
          rw [List.getLast?_eq_none_iff, List.filterMap_eq_nil_iff] at ho ⊢
          intro x hx
          refine ho x ?_
          simp only [List.mem_filter, decide_eq_true_eq] at hx ⊢
          exact ⟨hx.1, by omega⟩
        unfold obs at ho hoi
        rw [ho]
        simp only [List.filterMap_cons, hoi, List.filterMap_nil, List.append_nil]
        rw [List.getLast?_eq_none_iff, List.filterMap_eq_nil_iff]
        intro x hx
        simp only [List.mem_filter, List.mem_map, decide_eq_true_eq] at hx
        obtain ⟨⟨u, _, rfl⟩, hu⟩ := hx
        exact hnone u hu
    · rw [← ih hi.1 ?_]
      · unfold obs
        rw [List.map_append, List.filter_append]
        simp only [List.map_cons, List.map_nil]
        rw [List.filter_cons, if_neg (by simpa using hit), List.filter_nil, List.append_nil]
      · intro x hx hxt
        rcases List.mem_append.mp (hsub x hx hxt) with h | h
        · exact h
        · simp at h; omega

theorem obs_map {α β : Type} (f : α → β) (s : List (Nat × Option α)) (t : Nat) :
    obs (s.map fun x => (x.1, x.2.map f)) t = (obs s t).map f := by
  unfold obs
  rw [← List.getLast?_map]
  congr 1
  induction s with
  | nil => rfl
  | cons x s ih =>
    obtain ⟨u, v⟩ := x
    by_cases h : u ≤ t <;> cases v <;> simp [h] at ih ⊢ <;> exact ih

/-- The join of two series in time order. -/
theorem joinPad_spec (a : Str) (s : List (Nat × Option Rat)) (b : Str) (s' : List (Nat × Option Rat))
    (h : (s.map Prod.fst).Pairwise (· < ·)) (h' : (s'.map Prod.fst).Pairwise (· < ·)) :
    ∃ T, joinPad a s b s' = .ok T ∧ T.index.Pairwise (· < ·) ∧
      (∀ t, t ∈ T.index ↔ t ∈ s.map Prod.fst ∨ t ∈ s'.map Prod.fst) ∧
      ∃ c c', T.cols = [(a, c), (b, c')] ∧ c.length = T.index.length ∧ c'.length = T.index.length ∧
        ∀ (j t : Nat), T.index[j]? = some t → c[j]? = some (obs s t) ∧ c'[j]? = some (obs s' t) := by
  obtain ⟨hs, hm⟩ := commonIndex_spec [s.map Prod.fst, s'.map Prod.fst] (by
    intro i hi
    simp only [List.mem_cons, List.not_mem_nil, or_false] at hi
    rcases hi with rfl | rfl <;> assumption)
  unfold joinPad
  generalize commonIndex [s.map Prod.fst, s'.map Prod.fst] = idx at hs hm
  have hin : ∀ t, t ∈ idx ↔ t ∈ s.map Prod.fst ∨ t ∈ s'.map Prod.fst := by
    intro t; rw [hm]; simp
  have hal := alignAll_ok idx [(a, s), (b, s')] (by
    intro x hx
    simp only [List.mem_cons, List.not_mem_nil, or_false] at hx
    rcases hx with rfl | rfl
    · exact h.imp fun h => by omega
    · exact h'.imp fun h => by omega)
  simp only [hal]
  refine ⟨_, rfl, hs, hin, _, _, rfl, by simp [ffill_length], by simp [ffill_length], ?_⟩
  intro j t hj
  exact ⟨column_cell idx s hs h (fun x hx => (hin _).2 (.inl (List.mem_map_of_mem hx))) j t hj,
    column_cell idx s' hs h' (fun x hx => (hin _).2 (.inr (List.mem_map_of_mem hx))) j t hj⟩

/-- what is in the cells, as a list -/
theorem col_eq_map {α : Type} (idx : List Nat) (col : List α) (f : Nat → α) (hl : col.length = idx.length)
    (h : ∀ (j t : Nat), idx[j]? = some t → col[j]? = some (f t)) : col = idx.map f := by
  apply List.ext_getElem?
  intro j
  rw [List.getElem?_map]
  cases hj : idx[j]? with
  | none =>
    rw [List.getElem?_eq_none_iff] at hj
    rw [List.getElem?_eq_none_iff.2 (by omega)]; rfl
  | some t => rw [h j t hj]; rfl

theorem zip_map_self {α : Type} (idx : List Nat) (f : Nat → α) : idx.zip (idx.map f) = idx.map fun u => (u, f u) := by
  induction idx with
  | nil => rfl
  | cons i is ih => simp [ih]

end Trappy
