import Verif.Model.Stats
import Verif.Lemma.Power
/-!
# C58, C59, C90: topologies and indices
-/

namespace Trappy

theorem mem_setUnion (g s : List Nat) (x : Nat) : x ∈ setUnion s g ↔ x ∈ s ∨ x ∈ g := by
  unfold setUnion
  induction g generalizing s with
  | nil => simp
  | cons y g ih =>
    rw [List.foldl_cons, ih]
    split
    · rename_i h
      simp only [List.mem_cons]
      constructor
      · rintro (h | h) <;> simp [h]
      · rintro (h' | rfl | h') <;> simp [*]
    · simp [or_assoc]

theorem setUnion_nodup (g s : List Nat) (h : s.Nodup) : (setUnion s g).Nodup := by
  unfold setUnion
  induction g generalizing s with
  | nil => simpa
  | cons y g ih =>
    rw [List.foldl_cons]
    apply ih
    split
    · exact h
    · rename_i hy
      rw [List.nodup_append]
      exact ⟨h, by simp, fun a ha b hb => by simp at hb; subst hb; rintro rfl; exact hy ha⟩

theorem mem_foldSetUnion (vals : List (List Nat)) (s : List Nat) (x : Nat) :
    x ∈ vals.foldl setUnion s ↔ x ∈ s ∨ ∃ g ∈ vals, x ∈ g := by
  induction vals generalizing s with
  | nil => simp
  | cons g vals ih =>
    rw [List.foldl_cons, ih, mem_setUnion]
    simp [or_assoc]

theorem foldSetUnion_nodup (vals : List (List Nat)) (s : List Nat) (h : s.Nodup) : (vals.foldl setUnion s).Nodup := by
  induction vals generalizing s with
  | nil => simpa
  | cons g vals ih => rw [List.foldl_cons]; exact ih _ (setUnion_nodup g s h)

/-- a history of `add_to_level` calls on a topology -/
def Topo.run (t : Topo) (ops : List (Str × List (List Nat))) : Topo := ops.foldl (fun t op => t.add op.1 op.2) t

theorem add_get (t : Topo) (n k : Str) (vals : List (List Nat)) : (t.add n vals).levels.get k =
    if n = k then some ((match t.levels.get k with | some old => old | none => []) ++ vals) else t.levels.get k := by
  unfold Topo.add
  cases h : t.levels.get n with
  | none =>
    simp only [Dict.get_set]
    split
    · rename_i e; subst e; simp [h]
    · rfl
  | some old =>
    simp only [Dict.get_set]
    split
    · rename_i e; subst e; simp [h]
    · rfl

theorem run_levels (ops : List (Str × List (List Nat))) (t : Topo) (k : Str) : (t.run ops).levels.get k =
    if k ∈ ops.map Prod.fst then some ((match t.levels.get k with | some old => old | none => []) ++ (ops.filter fun o => o.1 = k).flatMap Prod.snd)
    else t.levels.get k := by
  unfold Topo.run
  induction ops generalizing t with
  | nil => simp
  | cons o ops ih =>
    rw [List.foldl_cons, ih, add_get]
    by_cases h : o.1 = k
    · simp only [h, if_true, List.map_cons, List.mem_cons, true_or]
      rw [List.filter_cons_of_pos (by simpa using h)]
      simp only [List.flatMap_cons]
      split
      · simp
      · rename_i hn
        have : (ops.filter fun o => decide (o.1 = k)) = [] := by
          rw [List.filter_eq_nil_iff]
          intro a ha
          simp only [decide_eq_true_eq]
          exact fun e => hn (List.mem_map.mpr ⟨a, ha, e⟩)
        simp [this]
    · have h' : ¬ k = o.1 := fun e => h e.symm
      simp only [h, if_false, List.map_cons, List.mem_cons, h', false_or]
      rw [List.filter_cons_of_neg (by simpa using h)]

theorem run_nodes (ops : List (Str × List (List Nat))) (t : Topo) (x : Nat) :
    x ∈ (t.run ops).nodes ↔ x ∈ t.nodes ∨ ∃ o ∈ ops, ∃ g ∈ o.2, x ∈ g := by
  unfold Topo.run
  induction ops generalizing t with
  | nil => simp
  | cons o ops ih =>
    rw [List.foldl_cons, ih]
    simp only [Topo.add, mem_foldSetUnion]
    simp [or_assoc]

theorem run_nodup (ops : List (Str × List (List Nat))) (t : Topo) (h : t.nodes.Nodup) : (t.run ops).nodes.Nodup := by
  unfold Topo.run
  induction ops generalizing t with
  | nil => simpa
  | cons o ops ih => rw [List.foldl_cons]; exact ih _ (foldSetUnion_nodup _ _ h)

/-- **C58.** After every sequence of `add_to_level` calls, for every order in which the set of nodes may be iterated: a level
(other than `all`) holds the groups added to it, in order, and is missing if nothing was added; the flattened topology has every
node that was added, once; the level `all` is one group with these. -/
theorem C58_levels (ord : List Nat → List Nat) (hord : ∀ l, (ord l).Perm l) (ops : List (Str × List (List Nat))) :
    (∀ k, k ≠ cs!"all" → (Topo.empty.run ops).getLevel ord k =
      if k ∈ ops.map Prod.fst then some ((ops.filter fun o => o.1 = k).flatMap Prod.snd) else none) ∧
    (∀ x, x ∈ (Topo.empty.run ops).flatten ord ↔ ∃ o ∈ ops, ∃ g ∈ o.2, x ∈ g) ∧
    ((Topo.empty.run ops).flatten ord).Nodup ∧
    (Topo.empty.run ops).getLevel ord cs!"all" = some [(Topo.empty.run ops).flatten ord] ∧
    (∀ k, (Topo.empty.run ops).hasLevel k = true ↔ k ∈ ops.map Prod.fst) := by
  refine ⟨?_, ?_, ?_, ?_, ?_⟩
  · intro k hk
    unfold Topo.getLevel
    rw [if_neg hk, run_levels]
    simp [Topo.empty, Dict.get]
  · intro x
    unfold Topo.flatten
    rw [(hord _).mem_iff, run_nodes]
    simp [Topo.empty]
  · exact ((hord _).nodup_iff).mpr (run_nodup _ _ (by simp [Topo.empty]))
  · simp [Topo.getLevel]
  · intro k
    unfold Topo.hasLevel
    rw [run_levels]
    split
    · simp [*]
    · simp [Topo.empty, Dict.get, *]

/-- **C58.** A topology made of clusters has the clusters as its level `cluster`, and a level `cpu` with one singleton group for
each node. -/
theorem C58_clusters (ord : List Nat → List Nat) (hord : ∀ l, (ord l).Perm l) (clusters : List (List Nat)) (hne : clusters ≠ []) :
    (Topo.init ord clusters).getLevel ord cs!"cluster" = some clusters ∧
    ∃ nodes : List Nat, (Topo.init ord clusters).getLevel ord cs!"cpu" = some (nodes.map fun n => [n]) ∧ nodes.Nodup ∧
      (∀ x, x ∈ nodes ↔ ∃ c ∈ clusters, x ∈ c) ∧ ((Topo.init ord clusters).flatten ord).Perm nodes := by
  have hlen : ¬ clusters.length = 0 := by simpa using hne
  unfold Topo.init
  rw [if_neg hlen]
  simp only
  generalize ht : Topo.empty.add cs!"cluster" clusters = t
  have hnodes : ∀ x, x ∈ t.nodes ↔ ∃ c ∈ clusters, x ∈ c := by
    intro x; subst ht; simp [Topo.add, mem_foldSetUnion, Topo.empty]
  have hnd : t.nodes.Nodup := by subst ht; exact foldSetUnion_nodup _ _ (by simp [Topo.empty])
  refine ⟨?_, t.flatten ord, ?_, ((hord _).nodup_iff).mpr hnd, ?_, ?_⟩
  · unfold Topo.getLevel
    rw [if_neg (by decide), add_get, if_neg (by decide)]
    subst ht
    rw [add_get, if_pos rfl]
    simp [Topo.empty, Dict.get]
  · unfold Topo.getLevel
    rw [if_neg (by decide), add_get, if_pos rfl]
    subst ht
    rw [add_get, if_neg (by decide)]
    simp [Topo.empty, Dict.get]
  · intro x
    unfold Topo.flatten
    rw [(hord _).mem_iff, hnodes]
  · have h2 : (t.add cs!"cpu" ((t.flatten ord).map fun n => [n])).nodes.Nodup := foldSetUnion_nodup _ _ hnd
    unfold Topo.flatten
    refine ((hord _).trans ?_).trans (hord _).symm
    refine (List.perm_ext_iff_of_nodup h2 hnd).mpr ?_
    intro x
    simp only [Topo.add, mem_foldSetUnion, Topo.flatten]
    constructor
    · rintro (h | ⟨g, hg, hx⟩)
      · exact h
      · obtain ⟨n, hn, rfl⟩ := List.mem_map.mp hg
        simp only [List.mem_singleton] at hx
        subst hx
        exact (hord _).mem_iff.mp hn
    · exact fun h => Or.inl h

/-- two calls for one level, and a cluster topology whose set is iterated backwards -/
example : (Topo.empty.run [(cs!"a", [[0], [1, 2]]), (cs!"b", [[5]]), (cs!"a", [[2, 3]])]).getLevel id cs!"a" = some [[0], [1, 2], [2, 3]] ∧
    (Topo.empty.run [(cs!"a", [[0], [1, 2]]), (cs!"b", [[5]]), (cs!"a", [[2, 3]])]).flatten id = [0, 1, 2, 5, 3] ∧
    (Topo.init List.reverse [[0, 1], [2]]).getLevel List.reverse cs!"cpu" = some [[2], [1], [0]] := by
  decide +kernel

/-! ## C90 -/

theorem indexOf_spec (g : List Nat) (gs : List (List Nat)) (i : Nat) :
    indexOfGroup g gs = some i ↔ gs[i]? = some g ∧ ∀ j, j < i → gs[j]? ≠ some g := by
  induction gs generalizing i with
  | nil => simp [indexOfGroup]
  | cons h hs ih =>
    unfold indexOfGroup
    split
    · rename_i e
      subst e
      constructor
      · intro hi; simp at hi; subst hi; simp
      · rintro ⟨_, h2⟩
        cases i with
        | zero => rfl
        | succ i => exact absurd (by simp) (h2 0 (by omega))
    · rename_i e
      cases i with
      | zero =>
        simp only [Option.map_eq_some_iff, List.getElem?_cons_zero, Option.some.injEq]
        constructor
        · rintro ⟨a, _, h⟩; omega
        · rintro ⟨h, _⟩; exact absurd h e
      | succ i =>
        simp only [Option.map_eq_some_iff, List.getElem?_cons_succ]
        constructor
        · rintro ⟨a, h1, h2⟩
          obtain rfl : a = i := by omega
          obtain ⟨h3, h4⟩ := (ih a).mp h1
          refine ⟨h3, ?_⟩
          intro j hj
          cases j with
          | zero => simpa using e
          | succ j => simpa using h4 j (by omega)
        · rintro ⟨h1, h2⟩
          refine ⟨i, (ih i).mpr ⟨h1, ?_⟩, rfl⟩
          intro j hj
          simpa using h2 (j + 1) (by omega)

/-- **C90.** For every topology and every level except `all`: the span is the number of groups, and it fails exactly if the level does
not exist. -/
theorem C90_span_partial (ord : List Nat → List Nat) (t : Topo) (level : Str) (h : level ≠ cs!"all") :
    t.levelSpan level = (t.getLevel ord level).map List.length := by
  simp [Topo.levelSpan, Topo.getLevel, h]

/-- **C90.** `get_index` gives the first index of the group and `get_node` gives the group at an index, so they are inverse. -/
theorem C90_index (ord : List Nat → List Nat) (t : Topo) (level : Str) (gs : List (List Nat)) (hl : t.getLevel ord level = some gs) :
    (∀ g i, t.getIndex ord level g = some i ↔ gs[i]? = some g ∧ ∀ j, j < i → gs[j]? ≠ some g) ∧
    (∀ g, g ∈ gs → ∃ i, t.getIndex ord level g = some i ∧ t.getNode ord level i = some g) ∧
    (∀ g, g ∉ gs → t.getIndex ord level g = none) := by
  have h1 : ∀ g i, t.getIndex ord level g = some i ↔ gs[i]? = some g ∧ ∀ j, j < i → gs[j]? ≠ some g := by
    intro g i
    unfold Topo.getIndex
    rw [hl]
    exact indexOf_spec g gs i
  refine ⟨h1, ?_, ?_⟩
  · intro g hg
    have : ∃ i, indexOfGroup g gs = some i := by
      clear h1 hl
      induction gs with
      | nil => simp at hg
      | cons h hs ih =>
        unfold indexOfGroup
        split
        · exact ⟨0, rfl⟩
        · rename_i e
          rcases List.mem_cons.mp hg with rfl | hg
          · exact absurd rfl e
          · obtain ⟨i, hi⟩ := ih hg
            exact ⟨i + 1, by simp [hi]⟩
    obtain ⟨i, hi⟩ := this
    refine ⟨i, by unfold Topo.getIndex; rw [hl]; exact hi, ?_⟩
    unfold Topo.getNode
    rw [hl]
    exact ((indexOf_spec g gs i).mp hi).1
  · intro g hg
    cases hi : t.getIndex ord level g with
    | none => rfl
    | some i => exact absurd (List.mem_of_getElem? ((h1 g i).mp hi).1) hg

/-- **C90, refuted for the level `all`**: it has one group, but its span is the number of nodes; and `has_level` denies it. -/
theorem C90_all_refuted : ∃ (ord : List Nat → List Nat) (t : Topo), (∀ l, (ord l).Perm l) ∧
    (t.getLevel ord cs!"all").map List.length = some 1 ∧ t.levelSpan cs!"all" = some 3 ∧ t.hasLevel cs!"all" = false :=
  ⟨id, Topo.init id [[0, 1], [2]], fun l => List.Perm.refl l, by decide +kernel, by decide +kernel, by decide +kernel⟩

example : (Topo.init id [[0, 1], [2]]).levelSpan cs!"cluster" = some 2 ∧ (Topo.init id [[0, 1], [2]]).getIndex id cs!"cluster" [2] = some 1 ∧
    (Topo.init id [[0, 1], [2]]).getNode id cs!"cluster" 1 = some [2] := by decide +kernel

/-! ## C59 -/

/-- **C59.** For every list of trigger tables: the index is strictly increasing and has exactly the times that occur in one of the
tables. -/
theorem C59_unified (indices : List (List Nat)) :
    (unifyIndex indices).Pairwise (· < ·) ∧ ∀ t, t ∈ unifyIndex indices ↔ ∃ i ∈ indices, t ∈ i := by
  refine ⟨foldUnion_sorted _ _ List.Pairwise.nil, ?_⟩
  intro t
  unfold unifyIndex
  rw [mem_foldUnion]
  simp

/-- **C59.** The same for the index of a correlator, which unifies the indices of two (or more) aggregators. -/
theorem C59_unified_indexer (is : List (List Nat)) (h : is ≠ []) (hs : ∀ i ∈ is, i.Pairwise (· < ·)) :
    ∃ u, unifiedIndexer is = some u ∧ u.Pairwise (· < ·) ∧ ∀ t, t ∈ u ↔ ∃ i ∈ is, t ∈ i := by
  cases is with
  | nil => exact absurd rfl h
  | cons i is =>
    refine ⟨_, rfl, foldUnion_sorted _ _ (hs i (by simp)), ?_⟩
    intro t
    rw [mem_foldUnion]
    simp only [List.mem_cons, exists_eq_or_imp]
    exact or_comm

example : unifyIndex [[3, 5, 9], [], [1, 3, 10]] = [1, 3, 5, 9, 10] ∧ unifiedIndexer [[2, 4], [1, 4, 8]] = some [1, 2, 4, 8] := by
  decide +kernel

end Trappy
