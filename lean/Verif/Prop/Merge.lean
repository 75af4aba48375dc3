import Verif.Model.Merge
import Verif.Lemma.Power
import Verif.Prop.DupIndex
import Verif.Prop.Data
/-!
# C111-C115: data of interactive line plots
-/

namespace Trappy

/-! ## The common index -/

theorem mem_insertRat (t x : Rat) (l : List Rat) : x ∈ insertRat t l ↔ x = t ∨ x ∈ l := by
  induction l with
  | nil => simp [insertRat]
  | cons u us ih =>
    unfold insertRat
    split
    · simp
    · split
      · rename_i h; subst h; simp
      · simp only [List.mem_cons, ih]
        constructor
        · rintro (h | h | h) <;> simp [h]
        · rintro (h | h | h) <;> simp [h]

theorem insertRat_sorted (t : Rat) (l : List Rat) (h : l.Pairwise (· < ·)) : (insertRat t l).Pairwise (· < ·) := by
  induction l with
  | nil => simp [insertRat]
  | cons u us ih =>
    rw [List.pairwise_cons] at h
    unfold insertRat
    split
    · rename_i hlt
      refine List.pairwise_cons.mpr ⟨?_, List.pairwise_cons.mpr h⟩
      intro x hx
      rcases List.mem_cons.mp hx with rfl | hx
      · exact hlt
      · exact lt_trans hlt (h.1 x hx)
    · split
      · exact List.pairwise_cons.mpr h
      · rename_i h1 h2
        refine List.pairwise_cons.mpr ⟨?_, ih h.2⟩
        intro x hx
        rcases (mem_insertRat _ _ _).mp hx with rfl | hx
        · exact lt_of_le_of_ne (not_lt.mp h1) (Ne.symm h2)
        · exact h.1 x hx

theorem mem_foldRat (j acc : List Rat) (x : Rat) : x ∈ j.foldl (fun acc t => insertRat t acc) acc ↔ x ∈ j ∨ x ∈ acc := by
  induction j generalizing acc with
  | nil => simp
  | cons t j ih =>
    rw [List.foldl_cons, ih, mem_insertRat]
    simp only [List.mem_cons]
    constructor
    · rintro (h | h | h) <;> simp [h]
    · rintro ((h | h) | h) <;> simp [h]

theorem foldRat_sorted (j acc : List Rat) (h : acc.Pairwise (· < ·)) : (j.foldl (fun acc t => insertRat t acc) acc).Pairwise (· < ·) := by
  induction j generalizing acc with
  | nil => exact h
  | cons t j ih => exact ih _ (insertRat_sorted t acc h)

theorem mergedIndex_spec (is : List (List Rat)) (h : ∀ i ∈ is, i.Pairwise (· < ·)) :
    (mergedIndex is).Pairwise (· < ·) ∧ ∀ x, x ∈ mergedIndex is ↔ ∃ i ∈ is, x ∈ i := by
  unfold mergedIndex
  cases is with
  | nil => simp
  | cons i is =>
    simp only
    split
    · rename_i hall
      refine ⟨h i (by simp), fun x => ⟨fun hx => ⟨i, by simp, hx⟩, ?_⟩⟩
      rintro ⟨j, hj, hx⟩
      rcases List.mem_cons.mp hj with rfl | hj
      · exact hx
      · have := List.all_eq_true.mp hall j hj
        simp at this
        rwa [← this]
    · refine ⟨foldRat_sorted _ _ .nil, fun x => ?_⟩
      rw [mem_foldRat]
      simp

theorem lookup_iff_mem {β : Type} (s : List (Rat × β)) (h : (s.map Prod.fst).Nodup) (t : Rat) (v : β) :
    s.lookup t = some v ↔ (t, v) ∈ s := by
  induction s with
  | nil => simp
  | cons x s ih =>
    obtain ⟨u, w⟩ := x
    simp only [List.map_cons, List.nodup_cons] at h
    by_cases e : t = u
    · subst e
      simp only [List.lookup, BEq.rfl, Option.some.injEq, List.mem_cons, Prod.mk.injEq, true_and]
      constructor
      · intro e; exact .inl e.symm
      · rintro (e | hm)
        · exact e.symm
        · exact absurd (List.mem_map.mpr ⟨_, hm, rfl⟩) h.1
    · have : (t == u) = false := by simpa using e
      simp only [List.lookup, this, ih h.2, List.mem_cons, Prod.mk.injEq, e, false_and, false_or]

theorem mergeColumn_nodup (index : List Rat) (s : LineSeries) (h : (s.map Prod.fst).Nodup) :
    mergeColumn index s = some (index.map fun t => (s.lookup t).join) := by
  unfold mergeColumn
  split
  · rename_i e
    subst e
    congr 1
    rw [List.map_map]
    apply List.map_congr_left
    intro x hx
    have : s.lookup x.1 = some x.2 := (lookup_iff_mem s h x.1 x.2).mpr hx
    simp [this]
  · simp [h]

theorem mergeColumns_nodup (index : List Rat) (d : Dict LineSeries) (h : ∀ e ∈ d, (e.2.map Prod.fst).Nodup) :
    mergeColumns index d = some (d.map fun e => (e.1, index.map fun t => (e.2.lookup t).join)) := by
  induction d with
  | nil => rfl
  | cons e d ih =>
    obtain ⟨l, s⟩ := e
    rw [mergeColumns, mergeColumn_nodup index s (h (l, s) (by simp)), ih fun e he => h e (by simp [he])]
    rfl

/-- the samples of a column at the positions of the index -/
theorem column_get (index : List Rat) (s : LineSeries) (hs : (s.map Prod.fst).Nodup) (j : Nat) (w : Rat) :
    (index.map fun t => (s.lookup t).join)[j]? = some (some w) ↔ ∃ t, index[j]? = some t ∧ (t, some w) ∈ s := by
  rw [List.getElem?_map]
  cases index[j]? with
  | none => simp
  | some t =>
    simp only [Option.map_some, Option.some.injEq, exists_eq_left']
    rw [← lookup_iff_mem s hs]
    cases s.lookup t with
    | none => simp
    | some v => simp

/-- times that strictly increase, perhaps after the times of equal entries have been spread -/
def Spreadable (s : LineSeries) : Prop := (s.map Prod.fst).Pairwise (· ≤ ·) ∧ Roomy (1 / 1000000) (s.map Prod.fst)

/-- the series with distinct times that is drawn -/
def spread (s : LineSeries) : LineSeries := handleDup (1 / 1000000) s

theorem spread_sorted (s : LineSeries) (h : Spreadable s) : ((spread s).map Prod.fst).Pairwise (· < ·) :=
  C56_unique_partial _ (by norm_num) s h.1 h.2

theorem ratSorted_nodup {l : List Rat} (h : l.Pairwise (· < ·)) : l.Nodup := h.imp fun h => ne_of_lt h

theorem fixIndexes_eq (style : Option Str) (d : Dict LineSeries) (h2 : 2 ≤ d.length) (hs : ∀ e ∈ d, Spreadable e.2) :
    ∃ index, fixIndexes style d = .ok (index, d.map fun e => (e.1, fillCol style (index.map fun t => ((spread e.2).lookup t).join))) ∧
      index.Pairwise (· < ·) ∧ ∀ t, t ∈ index ↔ ∃ e ∈ d, t ∈ (spread e.2).map Prod.fst := by
  have hspec := mergedIndex_spec ((d.map fun (l, s) => (l, handleDup maxDeltaDefault s)).map fun e => e.2.map Prod.fst) (by
    intro i hi
    rw [List.map_map] at hi
    obtain ⟨e, he, rfl⟩ := List.mem_map.mp hi
    exact spread_sorted e.2 (hs e he))
  refine ⟨mergedIndex ((d.map fun (l, s) => (l, handleDup maxDeltaDefault s)).map fun e => e.2.map Prod.fst), ?_, hspec.1, ?_⟩
  · unfold fixIndexes
    rw [if_neg (by omega)]
    simp only
    rw [mergeColumns_nodup]
    · simp only [List.map_map]
      rfl
    · intro e he
      obtain ⟨x, hx, rfl⟩ := List.mem_map.mp he
      exact ratSorted_nodup (spread_sorted x.2 (hs x hx))
  · intro t
    rw [hspec.2]
    simp only [List.map_map, List.mem_map, Function.comp]
    constructor
    · rintro ⟨_, ⟨e, he, rfl⟩, ht⟩; exact ⟨e, he, List.mem_map.mp ht⟩
    · rintro ⟨e, he, ht⟩; exact ⟨_, ⟨e, he, rfl⟩, List.mem_map.mpr ht⟩

/-! ## Filling -/

theorem lastSome_iff (l : List (Option Rat)) (w : Rat) :
    lastSome l = some w ↔ ∃ i : Nat, l[i]? = some (some w) ∧ ∀ (k : Nat) (x : Rat), l[k]? = some (some x) → k ≤ i := by
  induction l using List.reverseRecOn with
  | nil => simp [lastSome]
  | append_singleton l a ih =>
    have hlen : ∀ (k : Nat) (x : Option Rat), (l ++ [a])[k]? = some x → k < l.length ∨ (k = l.length ∧ x = a) := by
      intro k x h
      rcases lt_trichotomy k l.length with h' | h' | h'
      · exact .inl h'
      · subst h'; simp at h; exact .inr ⟨rfl, h.symm⟩
      · rw [List.getElem?_eq_none (by simp; omega)] at h; cases h
    cases a with
    | none =>
      have e : lastSome (l ++ [none]) = lastSome l := by simp [lastSome]
      rw [e, ih]
      constructor
      · rintro ⟨i, hi, hk⟩
        have hil : i < l.length := by
          rcases Nat.lt_or_ge i l.length with h | h
          · exact h
          · rw [List.getElem?_eq_none h] at hi; cases hi
        refine ⟨i, by rwa [List.getElem?_append_left hil], ?_⟩
        intro k x h
        rcases hlen k _ h with h' | ⟨_, h'⟩
        · rw [List.getElem?_append_left h'] at h; exact hk k x h
        · cases h'
      · rintro ⟨i, hi, hk⟩
        rcases hlen i _ hi with h' | ⟨_, h'⟩
        · rw [List.getElem?_append_left h'] at hi
          refine ⟨i, hi, ?_⟩
          intro k x h
          have hkl : k < l.length := by
            rcases Nat.lt_or_ge k l.length with h | h'
            · exact h
            · rw [List.getElem?_eq_none h'] at h; cases h
          exact hk k x (by rwa [List.getElem?_append_left hkl])
        · cases h'
    | some y =>
      have e : lastSome (l ++ [some y]) = some y := by simp [lastSome]
      rw [e]
      constructor
      · rintro ⟨⟩
        refine ⟨l.length, by simp, ?_⟩
        intro k x h
        rcases hlen k _ h with h' | ⟨h', _⟩ <;> omega
      · rintro ⟨i, hi, hk⟩
        have := hk l.length y (by simp)
        rcases hlen i _ hi with h' | ⟨_, h'⟩
        · omega
        · exact h'.symm

theorem ffill_iff (vs : List (Option Rat)) (j : Nat) (hj : j < vs.length) (w : Rat) :
    (ffill none vs)[j]? = some (some w) ↔
      ∃ i : Nat, i ≤ j ∧ vs[i]? = some (some w) ∧ ∀ (k : Nat) (x : Rat), k ≤ j → vs[k]? = some (some x) → k ≤ i := by
  rw [ffill_get none vs j hj, Option.or_none, Option.some.injEq, lastSome_iff]
  constructor
  · rintro ⟨i, hi, hk⟩
    rw [List.getElem?_take] at hi
    split at hi
    · refine ⟨i, by omega, hi, fun k x hkj hx => hk k x ?_⟩
      rw [List.getElem?_take, if_pos (by omega)]; exact hx
    · cases hi
  · rintro ⟨i, hij, hi, hk⟩
    refine ⟨i, by rw [List.getElem?_take, if_pos (by omega)]; exact hi, ?_⟩
    intro k x hx
    rw [List.getElem?_take] at hx
    split at hx
    · exact hk k x (by omega) hx
    · cases hx

theorem bfill_iff (vs : List (Option Rat)) (j : Nat) (hj : j < vs.length) (w : Rat) :
    (bfillCol vs)[j]? = some (some w) ↔
      ∃ i : Nat, j ≤ i ∧ vs[i]? = some (some w) ∧ ∀ (k : Nat) (x : Rat), j ≤ k → vs[k]? = some (some x) → i ≤ k := by
  have hlen : ∀ (k : Nat) (x : Option Rat), vs[k]? = some x → k < vs.length := by
    intro k x h
    rcases Nat.lt_or_ge k vs.length with h' | h'
    · exact h'
    · rw [List.getElem?_eq_none h'] at h; cases h
  unfold bfillCol
  rw [List.getElem?_reverse (by simpa [ffill_length] using hj), ffill_length, List.length_reverse,
    ffill_iff _ _ (by simp; omega)]
  constructor
  · rintro ⟨i, hij, hi, hk⟩
    rw [List.getElem?_reverse (by omega)] at hi
    refine ⟨_, by omega, hi, fun k x hkj hx => ?_⟩
    have hkl := hlen _ _ hx
    have := hk (vs.length - 1 - k) x (by omega) (by
      rw [List.getElem?_reverse (by omega)]
      rw [show vs.length - 1 - (vs.length - 1 - k) = k by omega]; exact hx)
    omega
  · rintro ⟨i, hij, hi, hk⟩
    have hil := hlen _ _ hi
    refine ⟨vs.length - 1 - i, by omega, ?_, ?_⟩
    · rw [List.getElem?_reverse (by omega), show vs.length - 1 - (vs.length - 1 - i) = i by omega]; exact hi
    · intro k x hkj hx
      rw [List.getElem?_reverse (by omega)] at hx
      have := hk _ x (by omega) hx
      omega

theorem interpolateCol_length (last : Option (Rat × Nat)) (vs : List (Option Rat)) : (interpolateCol last vs).length = vs.length := by
  induction vs generalizing last with
  | nil => rcases last with _ | ⟨v, k⟩ <;> rfl
  | cons v vs ih => rcases v with _ | v <;> rcases last with _ | ⟨u, k⟩ <;> simp [interpolateCol, ih]

theorem interpolateCol_some (last : Option (Rat × Nat)) (v : Rat) (vs : List (Option Rat)) :
    interpolateCol last (some v :: vs) = some v :: interpolateCol (some (v, 0)) vs := by
  rcases last with _ | ⟨u, k⟩ <;> rfl

theorem interpolateCol_drop (last : Option (Rat × Nat)) (pre : List (Option Rat)) (v : Rat) (rest : List (Option Rat)) :
    (interpolateCol last (pre ++ some v :: rest)).drop pre.length = some v :: interpolateCol (some (v, 0)) rest := by
  induction pre generalizing last with
  | nil => simp [interpolateCol_some]
  | cons x pre ih => rcases x with _ | x <;> rcases last with _ | ⟨u, k⟩ <;> simp [interpolateCol, ih]

theorem fillCol_length (style : Option Str) (vs : List (Option Rat)) : (fillCol style vs).length = vs.length := by
  unfold fillCol bfillCol
  repeat' split
  all_goals simp [ffill_length, interpolateCol_length]

theorem split_at_getElem {α : Type} (l : List α) (j : Nat) (x : α) (h : l[j]? = some x) : l = l.take j ++ x :: l.drop (j + 1) := by
  obtain ⟨hj, rfl⟩ := List.getElem?_eq_some_iff.mp h
  rw [← List.drop_eq_getElem_cons hj, List.take_append_drop]

/-- filling keeps the values that are there -/
theorem fillCol_known (style : Option Str) (vs : List (Option Rat)) (j : Nat) (w : Rat) (h : vs[j]? = some (some w)) :
    (fillCol style vs)[j]? = some (some w) := by
  have hj : j < vs.length := by
    rcases Nat.lt_or_ge j vs.length with h' | h'
    · exact h'
    · rw [List.getElem?_eq_none h'] at h; cases h
  unfold fillCol
  repeat' split
  · exact (ffill_iff vs j hj w).mpr ⟨j, le_refl _, h, fun k _ hk _ => hk⟩
  · exact (bfill_iff vs j hj w).mpr ⟨j, le_refl _, h, fun k _ hk _ => hk⟩
  · exact (ffill_iff vs j hj w).mpr ⟨j, le_refl _, h, fun k _ hk _ => hk⟩
  · have e := split_at_getElem vs j _ h
    have := interpolateCol_drop none (vs.take j) w (vs.drop (j + 1))
    rw [← e, List.length_take, Nat.min_eq_left (by omega)] at this
    have h0 := congrArg (·[0]?) this
    simpa using h0

theorem nextKnown_run (m : Nat) (b : Rat) (post : List (Option Rat)) : nextKnown (List.replicate m none ++ some b :: post) = some (m, b) := by
  induction m with
  | zero => rfl
  | succ m ih => simp [List.replicate_succ, nextKnown, ih]

theorem interpolate_run (a b : Rat) (post : List (Option Rat)) (m : Nat) : ∀ (c n : Nat), n ≤ m →
    (interpolateCol (some (a, c)) (List.replicate m none ++ some b :: post))[n]? =
      some (some (a + (b - a) * ((c + 1 + n : Nat) : Rat) / ((c + 1 + m : Nat) : Rat))) := by
  induction m with
  | zero =>
    intro c n hn
    obtain rfl : n = 0 := by omega
    have : ((c + 1 : Nat) : Rat) ≠ 0 := by positivity
    simp only [List.replicate_zero, List.nil_append, interpolateCol, List.getElem?_cons_zero, Nat.add_zero]
    rw [mul_div_assoc, div_self this]
    simp
  | succ m ih =>
    intro c n hn
    simp only [List.replicate_succ, List.cons_append, interpolateCol, nextKnown_run]
    cases n with
    | zero => simp
    | succ n =>
      rw [List.getElem?_cons_succ, ih (c + 1) n (by omega)]
      rw [show c + 1 + 1 + n = c + 1 + (n + 1) by omega, show c + 1 + 1 + m = c + 1 + (m + 1) by omega]

theorem interpolate_between (vs : List (Option Rat)) (i k j : Nat) (a b : Rat) (hi : vs[i]? = some (some a)) (hk : vs[k]? = some (some b))
    (hik : i < k) (hno : ∀ n : Nat, i < n → n < k → vs[n]? = some none) (hij : i ≤ j) (hjk : j ≤ k) :
    (interpolateCol none vs)[j]? = some (some (a + (b - a) * ((j - i : Nat) : Rat) / ((k - i : Nat) : Rat))) := by
  have hkl : k < vs.length := by
    rcases Nat.lt_or_ge k vs.length with h | h
    · exact h
    · rw [List.getElem?_eq_none h] at hk; cases hk
  have e1 := split_at_getElem vs i _ hi
  have e2 : vs.drop (i + 1) = List.replicate (k - i - 1) none ++ some b :: vs.drop (k + 1) := by
    apply List.ext_getElem?
    intro n
    rw [List.getElem?_drop]
    rcases lt_trichotomy n (k - i - 1) with h | h | h
    · rw [hno _ (by omega) (by omega), List.getElem?_append_left (by simpa using h), List.getElem?_replicate, if_pos h]
    · rw [List.getElem?_append_right (by simp [h]), List.length_replicate, h, show i + 1 + (k - i - 1) = k by omega, hk]
      simp
    · rw [List.getElem?_append_right (by simp; omega), List.length_replicate,
        show n - (k - i - 1) = (n - (k - i - 1) - 1) + 1 by omega, List.getElem?_cons_succ, List.getElem?_drop]
      congr 1
      omega
  have h1 := interpolateCol_drop none (vs.take i) a (vs.drop (i + 1))
  rw [← e1, List.length_take, Nat.min_eq_left (by omega), e2] at h1
  have h2 := congrArg (·[j - i]?) h1
  simp only [List.getElem?_drop] at h2
  rw [show i + (j - i) = j by omega] at h2
  rw [h2]
  rcases Nat.eq_or_lt_of_le hij with h | h
  · subst h; simp
  · rw [show j - i = (j - i - 1) + 1 by omega, List.getElem?_cons_succ, interpolate_run _ _ _ _ _ _ (by omega)]
    rw [show 0 + 1 + (j - i - 1) = j - i - 1 + 1 by omega, show 0 + 1 + (k - i - 1) = k - i by omega]

theorem nextKnown_none (vs : List (Option Rat)) (h : ∀ x ∈ vs, x = none) : nextKnown vs = none := by
  induction vs with
  | nil => rfl
  | cons x vs ih =>
    obtain rfl := h x (by simp)
    simp [nextKnown, ih fun x hx => h x (by simp [hx])]

theorem interpolate_tail (a : Rat) (vs : List (Option Rat)) (h : ∀ x ∈ vs, x = none) : ∀ (c j : Nat), j < vs.length →
    (interpolateCol (some (a, c)) vs)[j]? = some (some a) := by
  induction vs with
  | nil => intro c j hj; simp at hj
  | cons x vs ih =>
    intro c j hj
    obtain rfl := h x (by simp)
    have h' : ∀ x ∈ vs, x = none := fun x hx => h x (by simp [hx])
    simp only [interpolateCol, nextKnown_none vs h']
    cases j with
    | zero => rfl
    | succ j => exact ih h' _ j (by simpa using hj)

theorem interpolate_after (vs : List (Option Rat)) (i j : Nat) (a : Rat) (hi : vs[i]? = some (some a)) (hij : i ≤ j) (hj : j < vs.length)
    (hno : ∀ (n : Nat) (x : Rat), vs[n]? = some (some x) → n ≤ i) : (interpolateCol none vs)[j]? = some (some a) := by
  have e1 := split_at_getElem vs i _ hi
  have h1 := interpolateCol_drop none (vs.take i) a (vs.drop (i + 1))
  rw [← e1, List.length_take, Nat.min_eq_left (by omega)] at h1
  have h2 := congrArg (·[j - i]?) h1
  simp only [List.getElem?_drop] at h2
  rw [show i + (j - i) = j by omega] at h2
  rw [h2]
  rcases Nat.eq_or_lt_of_le hij with h | h
  · subst h; simp
  · rw [show j - i = (j - i - 1) + 1 by omega, List.getElem?_cons_succ]
    apply interpolate_tail
    · intro x hx
      obtain ⟨n, hn⟩ := List.mem_iff_getElem?.mp hx
      rw [List.getElem?_drop] at hn
      cases x with
      | none => rfl
      | some x => have := hno _ x hn; omega
    · rw [List.length_drop]; omega

theorem interpolate_before (vs : List (Option Rat)) : ∀ (j : Nat), j < vs.length →
    (∀ (n : Nat) (x : Rat), vs[n]? = some (some x) → j < n) → (interpolateCol none vs)[j]? = some none := by
  induction vs with
  | nil => intro j hj; simp at hj
  | cons x vs ih =>
    intro j hj h
    cases x with
    | some x => exact absurd (h 0 x rfl) (by omega)
    | none =>
      simp only [interpolateCol]
      cases j with
      | zero => rfl
      | succ j =>
        refine ih j (by simpa using hj) fun n x hx => ?_
        have := h (n + 1) x (by simpa using hx)
        omega

/-- positions and times of a sorted index -/
theorem sorted_get {l : List Rat} (h : l.Pairwise (· < ·)) {i j : Nat} {u t : Rat} (hi : l[i]? = some u) (hj : l[j]? = some t) :
    (i < j ↔ u < t) ∧ (i ≤ j ↔ u ≤ t) := by
  obtain ⟨hi', rfl⟩ := List.getElem?_eq_some_iff.mp hi
  obtain ⟨hj', rfl⟩ := List.getElem?_eq_some_iff.mp hj
  have key : ∀ (i j : Nat) (hi : i < l.length) (hj : j < l.length), i < j → l[i] < l[j] := fun i j hi hj hij =>
    List.pairwise_iff_getElem.mp h i j hi hj hij
  rcases lt_trichotomy i j with hij | hij | hij
  · have := key i j hi' hj' hij
    exact ⟨⟨fun _ => this, fun _ => hij⟩, ⟨fun _ => le_of_lt this, fun _ => le_of_lt hij⟩⟩
  · subst hij; simp
  · have := key j i hj' hi' hij
    exact ⟨⟨fun h => by omega, fun h => absurd h (not_lt.mpr (le_of_lt this))⟩, ⟨fun h => by omega, fun h => absurd h (not_le.mpr this)⟩⟩

/-! ## C111: samples are kept -/

/-- **C111, part proved.** For every drawing style and all two or more series with sorted times whose equal times can be spread
apart: the merged index strictly increases and has exactly the times of all series, there is one column per series, in order
and under its label, and every sample is in its column at its time. -/
theorem C111_samples_partial (style : Option Str) (d : Dict LineSeries) (h2 : 2 ≤ d.length) (hs : ∀ e ∈ d, Spreadable e.2) :
    ∃ index cols, fixIndexes style d = .ok (index, cols) ∧ index.Pairwise (· < ·) ∧
      (∀ t, t ∈ index ↔ ∃ e ∈ d, ∃ v, (t, v) ∈ spread e.2) ∧ cols.map Prod.fst = d.map Prod.fst ∧
      ∀ (i : Nat) (l : Str) (s : LineSeries), d[i]? = some (l, s) → ∃ c, cols[i]? = some (l, c) ∧ c.length = index.length ∧
        ∀ (j : Nat) (t v : Rat), index[j]? = some t → (t, some v) ∈ spread s → c[j]? = some (some v) := by
  obtain ⟨index, e, hsort, hmem⟩ := fixIndexes_eq style d h2 hs
  refine ⟨index, _, e, hsort, fun t => ?_, by simp, ?_⟩
  · rw [hmem]
    simp
  · intro i l s hi
    have hsp := hs (l, s) (List.mem_of_getElem? hi)
    refine ⟨_, by rw [List.getElem?_map, hi]; rfl, by simp [fillCol_length], ?_⟩
    intro j t v hj hm
    exact fillCol_known _ _ _ _ ((column_get index _ (ratSorted_nodup (spread_sorted s hsp)) j v).mpr ⟨t, hj, hm⟩)

/-- the hypotheses are met: two series, one with two samples at one time -/
theorem demo_spreadable : Spreadable [(1, some 5), (1, some 6), (3, some 7)] ∧ Spreadable [(2, some 1), (3, some 2)] := by
  unfold Spreadable Roomy
  refine ⟨⟨?_, ?_⟩, ?_, ?_⟩ <;> decide +kernel

/-- `C111_samples_partial` and the filling that follows -/
example : (match fixIndexes none [(cs!"a", [(1, some 5), (1, some 6), (3, some 7)]), (cs!"b", [(2, some 1), (3, some 2)])] with
      | .ok x => x == ([1, 1 + 1 / 1000000, 2, 3], [(cs!"a", [some 5, some 6, some (13 / 2), some 7]), (cs!"b", [none, none, some 1, some 2])])
      | .error _ => false) = true := by decide +kernel

/-- **C111 refuted** for series with many samples at one time: after spreading them two times are equal, and the merge raises. -/
theorem C111_duplicate_refuted :
    (match fixIndexes none [(cs!"a", [(1, some 1), (1, some 2), (1, some 3), (1, some 4), (1000001 / 1000000, some 5)]), (cs!"b", [(5, some 0)])] with
      | .error .duplicateAxis => true
      | _ => false) = true := by decide +kernel

/-- **C111.** Series with distinct times are merged as they are. -/
theorem C111_distinct (s : LineSeries) (h : (s.map Prod.fst).Pairwise (· < ·)) : Spreadable s ∧ spread s = s := by
  refine ⟨⟨h.imp fun h => le_of_lt h, ?_⟩, C57_identity _ _ (ratSorted_nodup h)⟩
  intro d hd x hx hlt hbetween
  left
  have := List.nodup_iff_count_le_one.mp (ratSorted_nodup h) d
  omega

/-- `C111_distinct` for a series -/
example : spread [(1, some 5), (2, none), (3, some 7)] = [(1, some 5), (2, none), (3, some 7)] :=
  (C111_distinct _ (by decide +kernel)).2

/-! ## C112: step plots -/

/-- the sample of a series that counts at `t` if values hold until the next one: the last one at or before `t` -/
def HeldAt (s : LineSeries) (t w : Rat) : Prop :=
  ∃ u, u ≤ t ∧ (u, some w) ∈ s ∧ ∀ u' w', (u', some w') ∈ s → u' ≤ t → u' ≤ u

/-- the sample of a series that counts at `t` if values hold since the one before: the first one at or after `t` -/
def ComingAt (s : LineSeries) (t w : Rat) : Prop :=
  ∃ u, t ≤ u ∧ (u, some w) ∈ s ∧ ∀ u' w', (u', some w') ∈ s → t ≤ u' → u ≤ u'

theorem mem_mergedIndex (is : List (List Rat)) (x : Rat) : x ∈ mergedIndex is ↔ ∃ i ∈ is, x ∈ i := by
  unfold mergedIndex
  cases is with
  | nil => simp
  | cons i is =>
    simp only
    split
    · rename_i hall
      refine ⟨fun hx => ⟨i, by simp, hx⟩, ?_⟩
      rintro ⟨j, hj, hx⟩
      rcases List.mem_cons.mp hj with rfl | hj
      · exact hx
      · have := List.all_eq_true.mp hall j hj
        simp at this
        rwa [← this]
    · rw [mem_foldRat]
      simp

theorem mergeColumn_sorted {index : List Rat} (hsort : index.Pairwise (· < ·)) {s : LineSeries} {c : List (Option Rat)}
    (h : mergeColumn index s = some c) : (s.map Prod.fst).Nodup ∧ c = index.map fun t => (s.lookup t).join := by
  have hn : (s.map Prod.fst).Nodup := by
    unfold mergeColumn at h
    split at h
    · rename_i e; rw [e]; exact ratSorted_nodup hsort
    · split at h
      · assumption
      · cases h
  rw [mergeColumn_nodup index s hn] at h
  exact ⟨hn, (Option.some.inj h).symm⟩

theorem mergeColumns_get {index : List Rat} {d : Dict LineSeries} {cols : Dict (List (Option Rat))} (h : mergeColumns index d = some cols)
    {i : Nat} {l : Str} {s : LineSeries} (hi : d[i]? = some (l, s)) : ∃ c, mergeColumn index s = some c ∧ cols[i]? = some (l, c) := by
  induction d generalizing cols i with
  | nil => simp at hi
  | cons e d ih =>
    obtain ⟨l', s'⟩ := e
    rw [mergeColumns] at h
    split at h
    · rename_i c cs h1 h2
      simp only [Option.some.injEq] at h
      subst h
      cases i with
      | zero =>
        simp only [List.getElem?_cons_zero, Option.some.injEq, Prod.mk.injEq] at hi
        obtain ⟨rfl, rfl⟩ := hi
        exact ⟨c, h1, by simp⟩
      | succ i =>
        simp only [List.getElem?_cons_succ] at hi ⊢
        exact ih h2 hi
    · cases h

/-- the column of a series, given what `_fix_indexes` returned -/
theorem fixIndexes_col {style : Option Str} {d : Dict LineSeries} {index : List Rat} {cols : Dict (List (Option Rat))}
    (he : fixIndexes style d = .ok (index, cols)) (hsort : index.Pairwise (· < ·)) {i : Nat} {l : Str} {s : LineSeries} {c : List (Option Rat)}
    (hi : d[i]? = some (l, s)) (hc : cols[i]? = some (l, c)) :
    c = fillCol style (index.map fun t => ((spread s).lookup t).join) ∧ ((spread s).map Prod.fst).Nodup ∧ (∀ x ∈ spread s, x.1 ∈ index) := by
  unfold fixIndexes at he
  split at he
  · cases he
  · simp only at he
    split at he
    · cases he
    · rename_i cols' hm
      injection he with he
      obtain ⟨rfl, rfl⟩ := Prod.mk.inj he
      obtain ⟨c', h1, h2⟩ := mergeColumns_get hm (i := i) (l := l) (s := spread s) (by rw [List.getElem?_map, hi]; rfl)
      obtain ⟨h3, rfl⟩ := mergeColumn_sorted hsort h1
      refine ⟨?_, h3, ?_⟩
      · rw [List.getElem?_map, h2] at hc
        simp only [Option.map_some, Option.some.injEq, Prod.mk.injEq, true_and] at hc
        exact hc.symm
      · intro x hx
        rw [mem_mergedIndex]
        refine ⟨(spread s).map Prod.fst, ?_, List.mem_map_of_mem hx⟩
        rw [List.map_map]
        exact List.mem_map.2 ⟨(l, s), List.mem_of_getElem? hi, rfl⟩

/-- **C112.** When the merge succeeds, the merged times are strictly increasing, unless all series have the same times, which are then those of the merge. -/
theorem C112_times {style : Option Str} {d : Dict LineSeries} {index : List Rat} {cols : Dict (List (Option Rat))}
    (he : fixIndexes style d = .ok (index, cols)) : index.Pairwise (· < ·) ∨ ∀ e ∈ d, (spread e.2).map Prod.fst = index := by
  unfold fixIndexes at he
  split at he
  · cases he
  · simp only at he
    split at he
    · cases he
    · injection he with he
      obtain ⟨rfl, rfl⟩ := Prod.mk.inj he
      rw [List.map_map]
      cases d with
      | nil => left; exact .nil
      | cons e d =>
        simp only [List.map_cons, mergedIndex]
        split
        · rename_i hall
          right
          intro e' he'
          rcases List.mem_cons.1 he' with rfl | he'
          · rfl
          · have := List.all_eq_true.1 hall ((spread e'.2).map Prod.fst) (List.mem_map.2 ⟨e', he', rfl⟩)
            simpa using this
        · left
          exact foldRat_sorted _ _ .nil

/-- **C112, part proved.** For `steps-post` and `steps-mid`, all series that can be merged to strictly increasing times and every such time: the value of a series is
the one of its last sample at or before this time, and there is none before its first sample. -/
theorem C112_post_partial (style : Option Str) (hst : style = some cs!"steps-post" ∨ style = some cs!"steps-mid") (d : Dict LineSeries)
    (index : List Rat) (cols : Dict (List (Option Rat))) (he : fixIndexes style d = .ok (index, cols)) (hsort : index.Pairwise (· < ·))
    (i : Nat) (l : Str) (s : LineSeries) (c : List (Option Rat)) (hi : d[i]? = some (l, s)) (hc : cols[i]? = some (l, c))
    (j : Nat) (t w : Rat) (hj : index[j]? = some t) : c[j]? = some (some w) ↔ HeldAt (spread s) t w := by
  obtain ⟨rfl, hnd, hsub⟩ := fixIndexes_col he hsort hi hc
  have hf : ∀ vs, fillCol style vs = ffill none vs := by
    intro vs
    unfold fillCol
    rcases hst with h | h <;> subst h
    · rw [if_pos rfl]
    · rw [if_neg (by decide), if_neg (by decide), if_pos rfl]
  have hjl : j < index.length := (List.getElem?_eq_some_iff.mp hj).1
  rw [hf, ffill_iff _ _ (by simpa using hjl)]
  constructor
  · rintro ⟨n, hn, hv, hk⟩
    obtain ⟨u, hu, hm⟩ := (column_get index _ hnd n w).mp hv
    refine ⟨u, (sorted_get hsort hu hj).2.mp hn, hm, ?_⟩
    intro u' w' hm' hle
    obtain ⟨k, hk'⟩ := List.mem_iff_getElem?.mp (hsub _ hm')
    exact (sorted_get hsort hk' hu).2.mp (hk k w' ((sorted_get hsort hk' hj).2.mpr hle) ((column_get index _ hnd k w').mpr ⟨u', hk', hm'⟩))
  · rintro ⟨u, hle, hm, hlast⟩
    obtain ⟨n, hn⟩ := List.mem_iff_getElem?.mp (hsub _ hm)
    refine ⟨n, (sorted_get hsort hn hj).2.mpr hle, (column_get index _ hnd n w).mpr ⟨u, hn, hm⟩, ?_⟩
    intro k x hkj hx
    obtain ⟨u', hu', hm'⟩ := (column_get index _ hnd k x).mp hx
    exact (sorted_get hsort hu' hn).2.mpr (hlast u' x hm' ((sorted_get hsort hu' hj).2.mp hkj))

/-- **C112, part proved.** For `steps-pre` it is the one of the first sample at or after this time, and there is none after the last sample. -/
theorem C112_pre_partial (d : Dict LineSeries) (index : List Rat) (cols : Dict (List (Option Rat)))
    (he : fixIndexes (some cs!"steps-pre") d = .ok (index, cols)) (hsort : index.Pairwise (· < ·)) (i : Nat) (l : Str) (s : LineSeries) (c : List (Option Rat))
    (hi : d[i]? = some (l, s)) (hc : cols[i]? = some (l, c)) (j : Nat) (t w : Rat) (hj : index[j]? = some t) :
    c[j]? = some (some w) ↔ ComingAt (spread s) t w := by
  obtain ⟨rfl, hnd, hsub⟩ := fixIndexes_col he hsort hi hc
  have hf : ∀ vs, fillCol (some cs!"steps-pre") vs = bfillCol vs := by
    intro vs
    unfold fillCol
    rw [if_neg (by decide), if_pos rfl]
  have hjl : j < index.length := (List.getElem?_eq_some_iff.mp hj).1
  rw [hf, bfill_iff _ _ (by simpa using hjl)]
  constructor
  · rintro ⟨n, hn, hv, hk⟩
    obtain ⟨u, hu, hm⟩ := (column_get index _ hnd n w).mp hv
    refine ⟨u, (sorted_get hsort hj hu).2.mp hn, hm, ?_⟩
    intro u' w' hm' hle
    obtain ⟨k, hk'⟩ := List.mem_iff_getElem?.mp (hsub _ hm')
    exact (sorted_get hsort hu hk').2.mp (hk k w' ((sorted_get hsort hj hk').2.mpr hle) ((column_get index _ hnd k w').mpr ⟨u', hk', hm'⟩))
  · rintro ⟨u, hle, hm, hlast⟩
    obtain ⟨n, hn⟩ := List.mem_iff_getElem?.mp (hsub _ hm)
    refine ⟨n, (sorted_get hsort hj hn).2.mpr hle, (column_get index _ hnd n w).mpr ⟨u, hn, hm⟩, ?_⟩
    intro k x hkj hx
    obtain ⟨u', hu', hm'⟩ := (column_get index _ hnd k x).mp hx
    exact (sorted_get hsort hn hu').2.mpr (hlast u' x hm' ((sorted_get hsort hj hu').2.mp hkj))

/-- two series for the examples -/
def demoLines : Dict LineSeries := [(cs!"a", [(1, some 5), (4, some 7)]), (cs!"b", [(2, some 1), (3, none), (5, some 2)])]

/-- `C112_post_partial` and `C112_pre_partial` -/
example : (∀ e ∈ demoLines, Spreadable e.2) ∧
    (match fixIndexes (some cs!"steps-post") demoLines with
      | .ok x => x == ([1, 2, 3, 4, 5], [(cs!"a", [some 5, some 5, some 5, some 7, some 7]), (cs!"b", [none, some 1, some 1, some 1, some 2])])
      | .error _ => false) = true ∧
    (match fixIndexes (some cs!"steps-pre") demoLines with
      | .ok x => x == ([1, 2, 3, 4, 5], [(cs!"a", [some 5, some 7, some 7, some 7, none]), (cs!"b", [some 1, some 1, some 2, some 2, some 2])])
      | .error _ => false) = true := by
  refine ⟨?_, ?_, ?_⟩
  · intro e he
    simp only [demoLines, List.mem_cons, List.not_mem_nil, or_false] at he
    rcases he with rfl | rfl <;> exact (C111_distinct _ (by decide +kernel)).1
  · decide +kernel
  · decide +kernel

/-- **C112 refuted.** Five samples at one time and one shortly after, which has no value: spread apart, the fifth one is after the sixth.  Beside a series with the
same times, which therefore are not sorted, the value of the fifth one is shown at the time of the sixth, though the fourth one is the last one before it. -/
theorem C112_unsorted_refuted :
    let s : LineSeries := [(1, some 1), (1, some 2), (1, some 3), (1, some 4), (1, some 5), (1000005 / 1000000, none)]
    spread s = [(1, some 1), (1000001 / 1000000, some 2), (1000002 / 1000000, some 3), (1000004 / 1000000, some 4), (1000008 / 1000000, some 5),
      (1000005 / 1000000, none)] ∧
    (match fixIndexes (some cs!"steps-post") [(cs!"a", s), (cs!"b", s)] with
      | .ok x => x.1[5]? == some (1000005 / 1000000) && x.2.map (fun c => c.2[5]?) == [some (some 5), some (some 5)]
      | .error _ => false) = true := by
  decide +kernel

/-! ## C113: lines -/

/-- the drawing styles that are not steps -/
def NoSteps (style : Option Str) : Prop := style ≠ some cs!"steps-post" ∧ style ≠ some cs!"steps-pre" ∧ style ≠ some cs!"steps-mid"

theorem fillCol_noSteps {style : Option Str} (h : NoSteps style) (vs : List (Option Rat)) : fillCol style vs = interpolateCol none vs := by
  unfold fillCol
  rw [if_neg h.1, if_neg h.2.1, if_neg h.2.2]

/-- two samples of a series with no other between them -/
structure Neighbours (s : LineSeries) (u a v b : Rat) : Prop where
  lt : u < v
  left : (u, some a) ∈ s
  right : (v, some b) ∈ s
  next : ∀ x y, (x, some y) ∈ s → ¬ (u < x ∧ x < v)

/-- the value between two neighbours, in terms of positions in the index -/
theorem line_positions {style : Option Str} (hst : NoSteps style) {d : Dict LineSeries}
    {index : List Rat} {cols : Dict (List (Option Rat))} (he : fixIndexes style d = .ok (index, cols)) (hsort : index.Pairwise (· < ·))
    {i : Nat} {l : Str} {s : LineSeries} {c : List (Option Rat)} (hi : d[i]? = some (l, s)) (hc : cols[i]? = some (l, c))
    {u a v b t : Rat} (hn : Neighbours (spread s) u a v b) {j : Nat} (hj : index[j]? = some t) (hu : u ≤ t) (hv : t ≤ v) :
    ∃ m k : Nat, index[m]? = some u ∧ index[k]? = some v ∧ m < k ∧ m ≤ j ∧ j ≤ k ∧
      c[j]? = some (some (a + (b - a) * ((j - m : Nat) : Rat) / ((k - m : Nat) : Rat))) := by
  obtain ⟨rfl, hnd, hsub⟩ := fixIndexes_col he hsort hi hc
  obtain ⟨m, hm⟩ := List.mem_iff_getElem?.mp (hsub _ hn.left)
  obtain ⟨k, hk⟩ := List.mem_iff_getElem?.mp (hsub _ hn.right)
  have hmk := (sorted_get hsort hm hk).1.mpr hn.lt
  have hmj := (sorted_get hsort hm hj).2.mpr hu
  have hjk := (sorted_get hsort hj hk).2.mpr hv
  refine ⟨m, k, hm, hk, hmk, hmj, hjk, ?_⟩
  rw [fillCol_noSteps hst]
  apply interpolate_between _ m k j a b ((column_get index _ hnd m a).mpr ⟨u, hm, hn.left⟩) ((column_get index _ hnd k b).mpr ⟨v, hk, hn.right⟩) hmk _ hmj hjk
  intro n h1 h2
  have hkl : k < index.length := (List.getElem?_eq_some_iff.mp hk).1
  have hlen : n < index.length := by omega
  cases hg : (index.map fun t => ((spread s).lookup t).join)[n]? with
  | none => rw [List.getElem?_eq_none_iff] at hg; simp at hg; omega
  | some x =>
    cases x with
    | none => rfl
    | some y =>
      obtain ⟨x, hx, hxm⟩ := (column_get index _ hnd n y).mp hg
      exact absurd ⟨(sorted_get hsort hm hx).1.mp h1, (sorted_get hsort hx hk).1.mp h2⟩ (hn.next x y hxm)

/-- **C113, part proved.** If the merged times are equally spaced, the value of a series between two neighbouring samples is the
one of the straight line through them, for all series that can be merged to strictly increasing times. -/
theorem C113_line_partial (style : Option Str) (hst : NoSteps style) (d : Dict LineSeries)
    (index : List Rat) (cols : Dict (List (Option Rat))) (he : fixIndexes style d = .ok (index, cols)) (hsort : index.Pairwise (· < ·))
    (i : Nat) (l : Str) (s : LineSeries) (c : List (Option Rat)) (hi : d[i]? = some (l, s)) (hc : cols[i]? = some (l, c))
    (u a v b t : Rat) (hn : Neighbours (spread s) u a v b) (j : Nat) (hj : index[j]? = some t) (hu : u ≤ t) (hv : t ≤ v)
    (t0 h : Rat) (heq : ∀ (n : Nat) (x : Rat), index[n]? = some x → x = t0 + n * h) :
    c[j]? = some (some (a + (b - a) * ((t - u) / (v - u)))) := by
  obtain ⟨m, k, hm, hk, hmk, hmj, hjk, e⟩ := line_positions hst he hsort hi hc hn hj hu hv
  rw [e]
  have h1 := heq m u hm
  have h2 := heq k v hk
  have h3 := heq j t hj
  have hne : v - u ≠ 0 := ne_of_gt (sub_pos.mpr hn.lt)
  have hvu : v - u = ((k - m : Nat) : Rat) * h := by rw [h1, h2, Nat.cast_sub (le_of_lt hmk)]; ring
  have htu : t - u = ((j - m : Nat) : Rat) * h := by rw [h1, h3, Nat.cast_sub hmj]; ring
  have hh : h ≠ 0 := by rintro rfl; rw [mul_zero] at hvu; exact hne hvu
  rw [hvu, htu, mul_div_mul_right _ _ hh, mul_div_assoc]

/-- **C113.** Whatever the times: the value between two neighbouring samples lies between theirs. -/
theorem C113_between (style : Option Str) (hst : NoSteps style) (d : Dict LineSeries)
    (index : List Rat) (cols : Dict (List (Option Rat))) (he : fixIndexes style d = .ok (index, cols)) (hsort : index.Pairwise (· < ·))
    (i : Nat) (l : Str) (s : LineSeries) (c : List (Option Rat)) (hi : d[i]? = some (l, s)) (hc : cols[i]? = some (l, c))
    (u a v b t : Rat) (hn : Neighbours (spread s) u a v b) (j : Nat) (hj : index[j]? = some t) (hu : u ≤ t) (hv : t ≤ v) :
    ∃ w, c[j]? = some (some w) ∧ ((a ≤ w ∧ w ≤ b) ∨ (b ≤ w ∧ w ≤ a)) := by
  obtain ⟨m, k, hm, hk, hmk, hmj, hjk, e⟩ := line_positions hst he hsort hi hc hn hj hu hv
  refine ⟨_, e, ?_⟩
  have hq : (0 : Rat) < ((k - m : Nat) : Rat) := by
    have : 0 < k - m := by omega
    exact_mod_cast this
  have h0 : (0 : Rat) ≤ ((j - m : Nat) : Rat) / ((k - m : Nat) : Rat) := by positivity
  have h1 : ((j - m : Nat) : Rat) / ((k - m : Nat) : Rat) ≤ 1 := by
    rw [div_le_one hq]
    have : j - m ≤ k - m := by omega
    exact_mod_cast this
  rw [mul_div_assoc]
  generalize ((j - m : Nat) : Rat) / ((k - m : Nat) : Rat) = q at h0 h1
  rcases le_total a b with hab | hab
  · left; constructor <;> nlinarith
  · right; constructor <;> nlinarith

/-- **C113.** Before its first sample a series has no value, after its last sample it keeps the last value. -/
theorem C113_ends (style : Option Str) (hst : NoSteps style) (d : Dict LineSeries)
    (index : List Rat) (cols : Dict (List (Option Rat))) (he : fixIndexes style d = .ok (index, cols)) (hsort : index.Pairwise (· < ·))
    (i : Nat) (l : Str) (s : LineSeries) (c : List (Option Rat)) (hi : d[i]? = some (l, s)) (hc : cols[i]? = some (l, c))
    (j : Nat) (t : Rat) (hj : index[j]? = some t) :
    ((∀ x y, (x, some y) ∈ spread s → t < x) → c[j]? = some none) ∧
    (∀ u a, (u, some a) ∈ spread s → (∀ x y, (x, some y) ∈ spread s → x ≤ u) → u ≤ t → c[j]? = some (some a)) := by
  obtain ⟨rfl, hnd, hsub⟩ := fixIndexes_col he hsort hi hc
  have hjl : j < index.length := (List.getElem?_eq_some_iff.mp hj).1
  rw [fillCol_noSteps hst]
  constructor
  · intro hb
    apply interpolate_before _ _ (by simpa using hjl)
    intro n x hx
    obtain ⟨v, hv, hm⟩ := (column_get index _ hnd n x).mp hx
    exact (sorted_get hsort hj hv).1.mpr (hb _ _ hm)
  · intro u a hm hlast hle
    obtain ⟨n, hn⟩ := List.mem_iff_getElem?.mp (hsub _ hm)
    apply interpolate_after _ n j a ((column_get index _ hnd n a).mpr ⟨u, hn, hm⟩) ((sorted_get hsort hn hj).2.mpr hle) (by simpa using hjl)
    intro k x hx
    obtain ⟨v, hv, hm'⟩ := (column_get index _ hnd k x).mp hx
    exact (sorted_get hsort hv hn).2.mpr (hlast _ _ hm')

/-- **C113 refuted.** For all times `u < t < v` such that `t` is not in the middle, and all values `a ≠ b`: beside a series with a
sample at `t`, the line through `(u, a)` and `(v, b)` is drawn through `(a + b) / 2` at `t`, which is not on it. -/
theorem C113_line_refuted (u t v a b z : Rat) (h1 : u < t) (h2 : t < v) (hmid : t - u ≠ v - t) (hab : a ≠ b) :
    fixIndexes none [(cs!"a", [(u, some a), (v, some b)]), (cs!"b", [(t, some z)])] =
      .ok ([u, t, v], [(cs!"a", [some a, some ((a + b) / 2), some b]), (cs!"b", [none, some z, some z])]) ∧
    (a + b) / 2 ≠ a + (b - a) * ((t - u) / (v - u)) := by
  have huv : u < v := lt_trans h1 h2
  constructor
  · have e1 : handleDup maxDeltaDefault [(u, some a), (v, some b)] = [(u, some a), (v, some b)] :=
      C57_identity _ _ (by simp [ne_of_lt huv])
    have e2 : handleDup maxDeltaDefault [(t, some z)] = [(t, some z)] := C57_identity _ _ (by simp)
    have e3 : mergedIndex [[u, v], [t]] = [u, t, v] := by
      simp [mergedIndex, insertRat, huv.not_gt, huv.ne', h1.not_gt, h1.ne', h2]
    unfold fixIndexes
    rw [if_neg (by simp)]
    simp only [List.map_cons, List.map_nil, e1, e2, e3]
    have e4 : mergeColumns [u, t, v] [(cs!"a", [(u, some a), (v, some b)]), (cs!"b", [(t, some z)])] =
        some [(cs!"a", [some a, none, some b]), (cs!"b", [none, some z, none])] := by
      rw [mergeColumns_nodup]
      · simp [List.lookup, huv.ne, beq_eq_false_iff_ne.mpr h1.ne', beq_eq_false_iff_ne.mpr h1.ne, beq_eq_false_iff_ne.mpr h2.ne, beq_eq_false_iff_ne.mpr h2.ne', beq_eq_false_iff_ne.mpr huv.ne']
      · simp [huv.ne]
    rw [e4]
    simp only [List.map_cons, List.map_nil, fillCol_noSteps (style := none) ⟨by simp, by simp, by simp⟩]
    have e5 : a + (b - a) * ((0 + 1 : Nat) : Rat) / ((0 + 1 + (0 + 1) : Nat) : Rat) = (a + b) / 2 := by
      norm_num
      ring
    simp only [interpolateCol, nextKnown, e5]
  · intro e
    have hne : v - u ≠ 0 := sub_ne_zero.mpr huv.ne'
    have hba : b - a ≠ 0 := sub_ne_zero.mpr hab.symm
    have e1 : (b - a) * ((t - u) / (v - u)) = (b - a) * (1 / 2) := by linarith
    have e2 := mul_left_cancel₀ hba e1
    rw [div_eq_iff hne] at e2
    apply hmid
    linarith

/-- `C113_line_partial`, `C113_between` and `C113_ends`: the example series have merged times 1, 2, 3, 4, 5 -/
example : (match fixIndexes none demoLines with
      | .ok x => x == ([1, 2, 3, 4, 5], [(cs!"a", [some 5, some (17 / 3), some (19 / 3), some 7, some 7]),
          (cs!"b", [none, some 1, some (4 / 3), some (5 / 3), some 2])])
      | .error _ => false) = true ∧
    Neighbours [(1, some 5), (4, some 7)] 1 5 4 7 := by
  refine ⟨by decide +kernel, ⟨by decide +kernel, by simp, by simp, ?_⟩⟩
  intro x y h
  simp only [List.mem_cons, Prod.mk.injEq, List.not_mem_nil, or_false] at h
  rcases h with ⟨rfl, _⟩ | ⟨rfl, _⟩ <;> decide +kernel

/-- `C113_line_refuted`: times 0, 1, 10 -/
example : (0 : Rat) < 1 ∧ (1 : Rat) < 10 ∧ (1 : Rat) - 0 ≠ 10 - 1 ∧ (0 : Rat) ≠ 100 := by
  refine ⟨?_, ?_, ?_, ?_⟩ <;> decide +kernel

/-! ## C114: one line per pivot -/

theorem concatData_append {σ : Type} (key : Val → Str) (result : List (Val × σ)) (ps : List Val) :
    ∀ d : Dict σ, (ps.map key).Nodup → (∀ p ∈ ps, key p ∉ d.map Prod.fst) →
      concatData key result ps d = d ++ ps.filterMap fun p => (result.lookup p).map fun s => (key p, s) := by
  induction ps with
  | nil => intro d _ _; simp [concatData]
  | cons p ps ih =>
    intro d hn hd
    rw [List.map_cons, List.nodup_cons] at hn
    unfold concatData
    cases h : result.lookup p with
    | none =>
      simp only
      rw [ih d hn.2 fun q hq => hd q (by simp [hq])]
      simp [h]
    | some s =>
      simp only
      have e : d.set (key p) s = d ++ [(key p, s)] := by
        have := Dict.set_append_new (d := d) (e := []) (k := key p) (v := s) (hd p (by simp))
        rw [List.append_nil] at this
        exact this
      rw [e, ih _ hn.2, List.append_assoc]
      · simp [h]
      · intro q hq
        rw [List.map_append, List.mem_append, not_or]
        refine ⟨hd q (by simp [hq]), ?_⟩
        simp only [List.map_cons, List.map_nil, List.mem_singleton]
        intro e'
        exact hn.1 (e' ▸ List.mem_map_of_mem hq)

/-- **C114, part proved.** If the pivots have different labels, the plot of a constraint has exactly one line for each pivot the
constraint has data for, in the order of the pivots, with this data. -/
theorem C114_lines_partial {σ : Type} (column : ColumnArg) (pivotName : Str) (labels : List (Val × Str)) (result : List (Val × σ))
    (pivots : List Val) (h : (pivots.map (concatKey column pivotName labels)).Nodup) :
    concatData (concatKey column pivotName labels) result pivots [] =
      pivots.filterMap fun p => (result.lookup p).map fun s => (concatKey column pivotName labels p, s) := by
  rw [concatData_append _ _ _ _ h (by simp)]
  rfl

theorem intStr_inj {i j : Int} (h : Py.intStr i = Py.intStr j) : i = j := by
  have h1 := C13_decimal_roundtrip i
  rw [h, C13_decimal_roundtrip j] at h1
  injection h1 with h1
  exact h1.symm

/-- **C114.** Distinct numbers as pivots have different labels if no labels are given. -/
theorem C114_numbers (column : ColumnArg) (pivotName : Str) (is : List Int) (h : is.Nodup) :
    ((is.map Val.int).map (concatKey column pivotName [])).Nodup := by
  rw [List.map_map]
  refine List.Pairwise.map _ ?_ h
  intro i j hij e
  apply hij
  unfold Function.comp concatKey at e
  rw [if_neg (by simp [pivotMark]), if_neg (by simp [pivotMark])] at e
  have := List.append_cancel_left e
  simp only [List.cons.injEq, true_and] at this
  exact intStr_inj this

/-- **C114.** The line of a pivot is named by the pivot column and the label given for the value, or the value itself if there is none;
the line of a constraint without pivot is named by its columns. -/
theorem C114_names (column : ColumnArg) (pivotName : Str) (labels : List (Val × Str)) (p : Val) (hp : p ≠ pivotMark) :
    (∀ before l after, labels = before ++ (p, l) :: after → (∀ x ∈ before, x.1 ≠ p) →
      concatKey column pivotName labels p = pivotName ++ cs!": " ++ l) ∧
    ((∀ x ∈ labels, x.1 ≠ p) → (∀ i, p = .int i → concatKey column pivotName labels p = pivotName ++ cs!": " ++ Py.intStr i) ∧
      ∀ s, p = .str s → concatKey column pivotName labels p = pivotName ++ cs!": " ++ s) ∧
    ∀ c, concatKey (.list [c]) pivotName labels pivotMark = c := by
  have hnone : ∀ (l : List (Val × Str)), (∀ x ∈ l, x.1 ≠ p) → l.lookup p = none := by
    intro l
    induction l with
    | nil => intro _; rfl
    | cons x l ih =>
      intro h
      have : (p == x.1) = false := by simpa using (h x (by simp)).symm
      rw [List.lookup, this]
      exact ih fun y hy => h y (by simp [hy])
  refine ⟨?_, ?_, fun c => by simp [concatKey, columnKey, commaJoin]⟩
  · rintro before l after rfl hb
    have : (before ++ (p, l) :: after).lookup p = some l := by
      rw [List.lookup_append, hnone before hb]
      simp [List.lookup]
    simp [concatKey, hp, mapLabel, this]
  · intro h
    refine ⟨?_, ?_⟩
    · rintro i rfl
      simp [concatKey, hp, mapLabel, hnone labels h, pivotText]
    · rintro s rfl
      simp [concatKey, hp, mapLabel, hnone labels h, pivotText]

/-- `C114_lines_partial`: three pivots, data for two -/
example : concatData (concatKey (.list [cs!"load"]) cs!"cpu" [(.int 1, cs!"big")]) [(.int 2, "two"), (.int 1, "one")] [.int 0, .int 1, .int 2] [] =
    [(cs!"cpu: big", "one"), (cs!"cpu: 2", "two")] ∧
    ([.int 0, .int 1, .int 2].map (concatKey (.list [cs!"load"]) cs!"cpu" [(.int 1, cs!"big")])).Nodup := by
  refine ⟨?_, ?_⟩ <;> decide +kernel

/-- **C114 refuted.** For all pivots `p` and `q` that are given the same label: of their two lines only the later one is shown. -/
theorem C114_labels_refuted {σ : Type} (column : ColumnArg) (pivotName : Str) (labels : List (Val × Str)) (p q : Val) (s1 s2 : σ)
    (hpq : p ≠ q) (hp : p ≠ pivotMark) (hq : q ≠ pivotMark) (h : mapLabel labels p = mapLabel labels q) :
    concatData (concatKey column pivotName labels) [(p, s1), (q, s2)] [p, q] [] = [(concatKey column pivotName labels q, s2)] := by
  have e : concatKey column pivotName labels p = concatKey column pivotName labels q := by
    unfold concatKey; rw [if_neg hp, if_neg hq, h]
  have hne : (q == p) = false := by simpa using hpq.symm
  simp [concatData, List.lookup, hne, e, Dict.set]

/-- `C114_labels_refuted`: two clusters called alike -/
example : mapLabel [(.int 0, cs!"A53"), (.int 1, cs!"A53")] (.int 0) = mapLabel [(.int 0, cs!"A53"), (.int 1, cs!"A53")] (.int 1) := rfl

/-- **C114 refuted** for the names of lines: without pivot and with one column, given as a text, the line is named by the letters
of the column with commas between them. -/
theorem C114_column_refuted (pivotName : Str) (labels : List (Val × Str)) :
    concatKey (.one cs!"load") pivotName labels pivotMark = cs!"l,o,a,d" ∧
    concatKey (.list [cs!"load"]) pivotName labels pivotMark = cs!"load" := ⟨rfl, rfl⟩

/-! ## C115: the limit of data points -/

theorem sum_lengths {α : Type} (values : List (List α)) (n : Nat) (h : ∀ r ∈ values, r.length = n) : (values.map List.length).sum = values.length * n := by
  induction values with
  | nil => simp
  | cons r rs ih =>
    rw [List.map_cons, List.sum_cons, ih fun r hr => h r (by simp [hr]), h r (by simp), List.length_cons, Nat.succ_mul, Nat.add_comm]

/-- **C115.** A table is refused exactly if it has more cells than allowed. The limit that is suggested in the message is enough,
and so is every larger one; anything that is less than the number of cells is not. -/
theorem C115_limit {α : Type} (limit cols : Nat) (values : List (List α)) (h : ∀ r ∈ values, r.length = cols) :
    (checkDatapoints limit values = .ok () ↔ values.length * cols ≤ limit) ∧
    ∀ n, checkDatapoints limit values = .error n →
      limit < values.length * cols ∧ (∀ m, n ≤ m → checkDatapoints m values = .ok ()) ∧
      ∀ m, m + 1 < n → ∃ k, checkDatapoints m values = .error k := by
  unfold checkDatapoints
  simp only [sum_lengths values cols h]
  constructor
  · split
    · simp; omega
    · simp; omega
  · intro n hn
    split at hn
    · injection hn with hn
      refine ⟨by omega, fun m hm => by rw [if_neg (by omega)], fun m hm => ⟨_, by rw [if_pos (by omega)]⟩⟩
    · cases hn

/-- `C115_limit`: six cells -/
example : checkDatapoints 6 [[1, 2], [3, 4], [5, 6]] = .ok () ∧ checkDatapoints 5 [[1, 2], [3, 4], [5, 6]] = .error 7 := ⟨rfl, rfl⟩

end Trappy
