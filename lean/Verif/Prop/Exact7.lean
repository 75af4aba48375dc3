import Verif.Prop.Power
import Verif.Prop.Thermal
import Verif.Prop.SuperIndex
import Verif.Lemma.Registry
import Mathlib.Tactic.Common
/-!
# C50, C64 and C125, exactly
-/

namespace Trappy

/-! ## C50: clusters that share a label -/

/-- **Specification**: `m` is the cluster visited last among those with the label -/
def LastOf (order : List Str) (mapping : Dict Str) (l m : Str) : Prop :=
  ∃ a b, order = a ++ m :: b ∧ mapping.get m = some l ∧ ∀ m' ∈ b, mapping.get m' ≠ some l

theorem dictGet_none {α : Type} (d : Dict α) (k : Str) : Dict.get d k = none ↔ k ∉ d.map Prod.fst := by
  induction d with
  | nil => simp [Dict.get]
  | cons x d ih =>
    obtain ⟨k', v⟩ := x
    simp only [Dict.get, List.map_cons, List.mem_cons, not_or]
    split
    · rename_i h; simp [h]
    · rename_i h
      rw [ih]
      exact ⟨fun g => ⟨Ne.symm h, g⟩, fun g => g.2⟩

theorem dictGet_mem {α : Type} (d : Dict α) (h : (d.map Prod.fst).Nodup) (x : Str × α) : x ∈ d ↔ d.get x.1 = some x.2 := by
  induction d with
  | nil => simp [Dict.get]
  | cons y d ih =>
    obtain ⟨k, v⟩ := y
    rw [List.map_cons, List.nodup_cons] at h
    simp only [Dict.get, List.mem_cons]
    split
    · rename_i e
      constructor
      · rintro (rfl | hx)
        · rfl
        · exact absurd (List.mem_map.mpr ⟨x, hx, e.symm⟩) h.1
      · intro g
        left
        cases x
        simp only [Option.some.injEq] at g e
        subst g; subst e; rfl
    · rename_i e
      rw [← ih h.2]
      constructor
      · rintro (rfl | hx)
        · exact absurd rfl e
        · exact hx
      · exact Or.inr

theorem dictGet_map {α β : Type} (d : Dict α) (f : α → β) (k : Str) :
    Dict.get (d.map fun x => (x.1, f x.2)) k = (Dict.get d k).map f := by
  induction d with
  | nil => rfl
  | cons y d ih =>
    obtain ⟨k', v⟩ := y
    simp only [Dict.get, List.map_cons]
    split
    · rfl
    · exact ih

/-- the loop keeps the series of the cluster visited last -/
theorem pivotLoop_last {α : Type} (rows : List (PRow α)) (mapping : Dict Str) (order : List Str) (acc : Dict (List (Nat × Option α)))
    (hn : (acc.map Prod.fst).Nodup) (hl : ∀ m ∈ order, ∃ l, mapping.get m = some l) :
    ∃ s, pivotLoop rows mapping order acc = .ok s ∧ (s.map Prod.fst).Nodup ∧
      (∀ l m, LastOf order mapping l m → s.get l = some (seriesOf rows m)) ∧
      ∀ l, (∀ m ∈ order, mapping.get m ≠ some l) → s.get l = acc.get l := by
  induction order generalizing acc with
  | nil =>
    refine ⟨acc, rfl, hn, ?_, fun _ _ => rfl⟩
    rintro l m ⟨a, b, e, _⟩
    simp at e
  | cons x order ih =>
    obtain ⟨lx, hx⟩ := hl x (by simp)
    obtain ⟨s, h1, h2, h3, h4⟩ := ih (acc.set lx (seriesOf rows x)) (Dict.nodup_set hn _ _) fun m hm => hl m (by simp [hm])
    refine ⟨s, by simp only [pivotLoop, hx]; exact h1, h2, ?_, ?_⟩
    · rintro l m ⟨a, b, e, g1, g2⟩
      cases a with
      | nil =>
        simp only [List.nil_append, List.cons.injEq] at e
        obtain ⟨rfl, rfl⟩ := e
        rw [h4 l g2, Dict.get_set]
        rw [hx] at g1
        rw [if_pos (Option.some.inj g1)]
      | cons y a =>
        simp only [List.cons_append, List.cons.injEq] at e
        exact h3 l m ⟨a, b, e.2, g1, g2⟩
    · intro l g
      rw [h4 l fun m hm => g m (by simp [hm]), Dict.get_set]
      have := g x (by simp)
      rw [hx] at this
      rw [if_neg fun e => this (by rw [e])]

/-- a label in use has a cluster visited last -/
theorem lastOf_exists (order : List Str) (mapping : Dict Str) (l : Str) (h : ∃ m ∈ order, mapping.get m = some l) :
    ∃ m, LastOf order mapping l m := by
  induction order with
  | nil => simp at h
  | cons x order ih =>
    by_cases g : ∃ m ∈ order, mapping.get m = some l
    · obtain ⟨m, a, b, e, h1, h2⟩ := ih g
      exact ⟨m, x :: a, b, by rw [e]; rfl, h1, h2⟩
    · obtain ⟨m, hm, hl⟩ := h
      rcases List.mem_cons.mp hm with rfl | hm
      · exact ⟨m, [], order, rfl, hl, fun m' h' e => g ⟨m', h', e⟩⟩
      · exact absurd ⟨m, hm, hl⟩ g

/-- **C50, exactly what the table holds** whatever labels the clusters share, for every table in time order and every order of
iteration: the rows are the times of the clusters that are visited last among those with their label, the columns are the labels,
and a column holds the values of the cluster visited last alone. -/
theorem C50_exact {α : Type} (order : List Str) (rows : List (PRow α)) (mapping : Dict Str)
    (hlab : ∀ m ∈ order, ∃ l, mapping.get m = some l) (hsort : (rows.map PRow.time).Pairwise (· ≤ ·))
    (hdup : ∀ l m, LastOf order mapping l m → ((rows.filter fun r => r.mask = m).map PRow.time).Nodup) :
    ∃ T, pivotWithLabels order rows mapping = .ok T ∧ T.index.Pairwise (· < ·) ∧
      (∀ t, t ∈ T.index ↔ ∃ r ∈ rows, r.time = t ∧ ∃ l, LastOf order mapping l r.mask) ∧
      (∀ l, T.cols.get l = none ↔ ∀ m ∈ order, mapping.get m ≠ some l) ∧
      ∀ l m, LastOf order mapping l m → ∃ col, T.cols.get l = some col ∧ col.length = T.index.length ∧
        ∀ (j : Nat) (t : Nat), T.index[j]? = some t → ∃ v, col[j]? = some v ∧ LastObs rows m t v := by
  obtain ⟨s, h1, h2, h3, h4⟩ := pivotLoop_last rows mapping order [] (by simp) hlab
  have hmem : ∀ x, x ∈ s ↔ ∃ m, LastOf order mapping x.1 m ∧ x.2 = seriesOf rows m := by
    intro x
    rw [dictGet_mem s h2]
    constructor
    · intro g
      by_cases hu : ∃ m ∈ order, mapping.get m = some x.1
      · obtain ⟨m, hm⟩ := lastOf_exists order mapping x.1 hu
        rw [h3 _ _ hm] at g
        exact ⟨m, hm, (Option.some.inj g).symm⟩
      · rw [h4 x.1 fun m hm e => hu ⟨m, hm, e⟩] at g
        simp [Dict.get] at g
    · rintro ⟨m, hm, e⟩
      rw [h3 _ _ hm, e]
  have hser : ∀ l m, LastOf order mapping l m → ((seriesOf rows m).map Prod.fst).Pairwise (· < ·) := by
    intro l m hm
    have e : (seriesOf rows m).map Prod.fst = (rows.filter fun r => r.mask = m).map PRow.time := by
      simp [seriesOf, List.map_map, Function.comp_def]
    rw [e]
    have g1 : ((rows.filter fun r => r.mask = m).map PRow.time).Pairwise (· ≤ ·) :=
      hsort.sublist (List.filter_sublist.map _)
    exact (g1.and (hdup l m hm)).imp fun h => by omega
  obtain ⟨hs, hm⟩ := commonIndex_spec (s.map fun x => x.2.map Prod.fst) (by
    intro i hi
    obtain ⟨x, hx, rfl⟩ := List.mem_map.mp hi
    obtain ⟨m, g1, g2⟩ := (hmem x).mp hx
    rw [g2]
    exact hser _ _ g1)
  have halign := alignAll_ok (commonIndex (s.map fun x => x.2.map Prod.fst)) s (by
    intro x hx
    obtain ⟨m, g1, g2⟩ := (hmem x).mp hx
    rw [g2]
    exact (hser _ _ g1).imp fun h => by omega)
  generalize hidx : commonIndex (s.map fun x => x.2.map Prod.fst) = idx at hs hm halign
  have hin : ∀ t, t ∈ idx ↔ ∃ r ∈ rows, r.time = t ∧ ∃ l, LastOf order mapping l r.mask := by
    intro t
    rw [hm]
    constructor
    · rintro ⟨i, hi, ht⟩
      obtain ⟨x, hx, rfl⟩ := List.mem_map.mp hi
      obtain ⟨m, g1, g2⟩ := (hmem x).mp hx
      rw [g2] at ht
      simp only [seriesOf, List.map_map, List.mem_map, List.mem_filter, Function.comp_apply, decide_eq_true_eq] at ht
      obtain ⟨r, ⟨hr, rfl⟩, rfl⟩ := ht
      exact ⟨r, hr, rfl, _, g1⟩
    · rintro ⟨r, hr, rfl, l, g1⟩
      refine ⟨(seriesOf rows r.mask).map Prod.fst, List.mem_map.mpr ⟨(l, seriesOf rows r.mask), (hmem _).mpr ⟨_, g1, rfl⟩, rfl⟩, ?_⟩
      simp only [seriesOf, List.map_map, List.mem_map, List.mem_filter, Function.comp_apply]
      exact ⟨r, ⟨hr, by simp⟩, rfl⟩
  refine ⟨⟨idx, s.map fun x => (x.1, ffill none (idx.map fun t => (x.2.lookup t).join))⟩, ?_, hs, hin, ?_, ?_⟩
  · unfold pivotWithLabels
    rw [h1]
    simp only [hidx, halign]
  · intro l
    simp only
    rw [dictGet_map s (fun y => ffill none (idx.map fun t => (y.lookup t).join))]
    rw [Option.map_eq_none_iff]
    constructor
    · intro g m hm' e
      obtain ⟨m', hm''⟩ := lastOf_exists order mapping l ⟨m, hm', e⟩
      rw [h3 _ _ hm''] at g
      simp at g
    · intro g
      rw [h4 l g]; rfl
  · intro l m hlast
    refine ⟨ffill none (idx.map fun t => ((seriesOf rows m).lookup t).join), ?_, by simp [ffill_length], ?_⟩
    · simp only
      rw [dictGet_map s (fun y => ffill none (idx.map fun t => (y.lookup t).join)), h3 _ _ hlast]
      rfl
    intro j t hj
    refine ⟨_, column_cell idx (seriesOf rows m) hs (hser l m hlast) ?_ j t hj, lastObs_series rows m t⟩
    intro x hx
    simp only [seriesOf, List.mem_map, List.mem_filter, decide_eq_true_eq] at hx
    obtain ⟨r, ⟨hr, e⟩, rfl⟩ := hx
    exact (hin _).mpr ⟨r, hr, rfl, l, by rw [e]; exact hlast⟩

/-- **C50 refuted, for all tables**: of two clusters with the same label the one visited first is lost: a time only it reports is not
in the table. -/
theorem C50_shared_lost_refuted {α : Type} (order : List Str) (rows : List (PRow α)) (mapping : Dict Str) (ho : order.Nodup)
    (hlab : ∀ m ∈ order, ∃ l, mapping.get m = some l) (hsort : (rows.map PRow.time).Pairwise (· ≤ ·))
    (hdup : ∀ m, ((rows.filter fun r => r.mask = m).map PRow.time).Nodup)
    (a b : List Str) (m m' : Str) (he : order = a ++ m :: b) (hm' : m' ∈ b) (hshare : mapping.get m' = mapping.get m)
    (t : Nat) (honly : ∀ r ∈ rows, r.time = t → r.mask = m) :
    ∃ T, pivotWithLabels order rows mapping = .ok T ∧ t ∉ T.index := by
  obtain ⟨T, h1, _, h2, h9⟩ := C50_exact order rows mapping hlab hsort fun _ m _ => hdup m
  refine ⟨T, h1, fun ht => ?_⟩
  obtain ⟨r, hr, g1, l, a', b', e, g2, g3⟩ := (h2 t).mp ht
  have := honly r hr g1
  subst this
  have hab : b' = b := by
    subst he
    clear h1 h2 h9 hlab g2 hshare ht
    induction a generalizing a' with
    | nil =>
      cases a' with
      | nil => simpa using e.symm
      | cons y a' =>
        simp only [List.nil_append, List.cons_append, List.cons.injEq] at e
        obtain ⟨rfl, rfl⟩ := e
        simp at ho
    | cons y a ih =>
      cases a' with
      | nil =>
        simp only [List.nil_append, List.cons_append, List.cons.injEq] at e
        obtain ⟨rfl, rfl⟩ := e
        simp at ho
      | cons y' a' =>
        simp only [List.cons_append, List.cons.injEq] at e
        exact ih a' (List.nodup_cons.mp ho).2 e.2
  rw [hab] at g3
  exact g3 m' hm' (by rw [hshare, g2])

/-- the hypotheses are met: three clusters, two of which share a label -/
example : ∃ T, pivotWithLabels [cs!"1", cs!"2", cs!"4"]
    ([⟨1, cs!"1", some 5⟩, ⟨2, cs!"2", some 6⟩, ⟨2, cs!"4", some 8⟩, ⟨3, cs!"4", some 7⟩] : List (PRow Nat))
    [(cs!"1", cs!"A"), (cs!"2", cs!"B"), (cs!"4", cs!"A")] = .ok T ∧ 1 ∉ T.index := by
  refine C50_shared_lost_refuted [cs!"1", cs!"2", cs!"4"] _ _ (by decide) ?_ (by decide) ?_ [] [cs!"2", cs!"4"] cs!"1" cs!"4" rfl
    (by decide) (by decide +kernel) 1 (by decide)
  · intro m hm
    simp only [List.mem_cons, List.not_mem_nil, or_false] at hm
    rcases hm with rfl | rfl | rfl
    · exact ⟨cs!"A", by decide⟩
    · exact ⟨cs!"B", by decide⟩
    · exact ⟨cs!"A", by decide⟩
  · intro m
    by_cases h1 : m = cs!"4"
    · subst h1; decide
    · by_cases h2 : m = cs!"2"
      · subst h2; decide
      · by_cases h3 : m = cs!"1"
        · subst h3; decide
        · simp [Ne.symm h1, Ne.symm h2, Ne.symm h3]

/-! ## C125 -/

theorem alignAll_keys {α : Type} (idx : List Nat) (s : Dict (List (Nat × Option α))) (cols : Dict (List (Option α)))
    (h : alignAll idx s = .ok cols) : cols.map Prod.fst = s.map Prod.fst := by
  induction s generalizing cols with
  | nil => simp only [alignAll, Except.ok.injEq] at h; subst h; rfl
  | cons x s ih =>
    obtain ⟨l, v⟩ := x
    simp only [alignAll] at h
    split at h
    · exact absurd h (by simp)
    · split at h
      · exact absurd h (by simp)
      · rename_i cs hc
        rw [← Except.ok.inj h]
        simp only [List.map_cons, ih cs hc]

/-- the labels of the frequencies are the labels of the clusters of the table -/
theorem freqs_labels (order : List Str) (rows : List (PRow Rat)) (mapping : Dict Str) (T : PTable Rat)
    (h : getAllFreqs order rows mapping = .ok T) (l : Str) (hl : ∀ m ∈ order, mapping.get m ≠ some l) : T.series l = none := by
  have hlab : ∀ m ∈ order, ∃ l, mapping.get m = some l := by
    intro m hm
    cases e : mapping.get m with
    | some l => exact ⟨l, rfl⟩
    | none =>
      unfold getAllFreqs at h
      rw [C50_unlabelled order rows mapping m hm e] at h
      exact absurd h (by simp)
  obtain ⟨s, h1, h2, h3, h4⟩ := pivotLoop_last rows mapping order [] (by simp) hlab
  have hs : l ∉ s.map Prod.fst := (dictGet_none s l).mp (h4 l hl)
  unfold getAllFreqs pivotWithLabels at h
  rw [h1] at h
  simp only at h
  split at h
  · exact absurd h (by simp)
  · rename_i t ht
    split at ht
    · exact absurd ht (by simp)
    · rename_i cols hc
      have e1 := Except.ok.inj ht
      have e2 := Except.ok.inj h
      subst e1; subst e2
      unfold PTable.series
      rw [Option.map_eq_none_iff, dictGet_none]
      simp only [List.map_map]
      have : (Prod.fst ∘ fun x : Str × List (Option Rat) => (x.1, x.2.map fun v => v.map (· / 1000))) = Prod.fst := rfl
      rw [this, alignAll_keys _ _ _ hc]
      exact hs

theorem freqTables_missing (tin tout : PTable Rat) (ls : List Str) (l : Str) (hl : l ∈ ls)
    (h : tin.series l = none ∨ tout.series l = none) : ∃ e, freqTables tin tout ls = .error e := by
  induction ls with
  | nil => simp at hl
  | cons x ls ih =>
    simp only [freqTables]
    by_cases e : x = l
    · subst e
      rcases h with h | h
      · rw [h]; exact ⟨_, rfl⟩
      · rw [h]
        split
        · rename_i g; exact absurd g (by simp)
        · exact ⟨_, rfl⟩
    · obtain ⟨e', he'⟩ := ih (by
        rcases List.mem_cons.mp hl with h' | h'
        · exact absurd h'.symm e
        · exact h')
      rw [he']
      split
      · split
        · exact ⟨_, rfl⟩
        · exact ⟨_, rfl⟩
      · exact ⟨_, rfl⟩

/-- **C125 refuted, for all tables**: whenever one of the labels has no cluster in the table of the inputs, or none in that of the
outputs, the call raises and the frequencies of no cluster are returned. -/
theorem C125_absent_refuted (oin oout : List Str) (inRows outRows : List (PRow Rat)) (gpuIn gpuOut : List (Nat × Rat)) (mapping : Dict Str)
    (l : Str) (hl : l ∈ mapping.map Prod.snd)
    (h : (∀ m ∈ oin, mapping.get m ≠ some l) ∨ ∀ m ∈ oout, mapping.get m ≠ some l) :
    ∃ e, getAllFreqsData oin oout inRows outRows gpuIn gpuOut mapping = .error e := by
  unfold getAllFreqsData
  split
  · exact ⟨_, rfl⟩
  · rename_i tin hi
    split
    · exact ⟨_, rfl⟩
    · rename_i tout hto
      obtain ⟨e, he⟩ := freqTables_missing tin tout (mapping.map Prod.snd) l hl (by
        rcases h with h | h
        · exact .inl (freqs_labels _ _ _ _ hi l h)
        · exact .inr (freqs_labels _ _ _ _ hto l h))
      rw [he]
      exact ⟨_, rfl⟩

/-- the hypotheses are met: the big cluster never has an output row -/
example : ∃ e, getAllFreqsData [cs!"f0", cs!"0f"] [cs!"0f"] exFreqIn [⟨2, cs!"0f", some 400000⟩] [] [] exLabels = .error e :=
  C125_absent_refuted _ _ _ _ _ _ _ cs!"A15" (by decide) (.inr (by decide +kernel))

/-! ## C64 -/

/-- **C64 refuted, for all events**: once a column is in the table, an accessor of any other event with a column of that name, even
of an event that does not exist, loads nothing and denotes the data that are there. -/
theorem C64_same_name_refuted (o : GOpts) (env : GEnv) (as bs : List (Str × Str)) (a b c : Str) (st : AggDf)
    (h : gLoadAll o env as AggDf.empty = .ok st) (hc : gAccess st a c ≠ []) :
    gLoadAll o env (as ++ (b, c) :: bs) AggDf.empty = gLoadAll o env bs st ∧ gAccess st b c = gAccess st a c := by
  have hmem : c ∈ st.cols.map (fun c => c.1.1) := by
    obtain ⟨x, hx⟩ := List.exists_mem_of_ne_nil _ hc
    unfold gAccess at hx
    obtain ⟨y, hy, _⟩ := List.mem_map.mp hx
    rw [List.mem_filter] at hy
    exact List.mem_map.mpr ⟨y, hy.1, by simpa using hy.2⟩
  refine ⟨?_, rfl⟩
  have hgen : ∀ (as : List (Str × Str)) (st0 : AggDf), gLoadAll o env as st0 = .ok st →
      gLoadAll o env (as ++ (b, c) :: bs) st0 = gLoadAll o env bs st := by
    intro as
    induction as with
    | nil =>
      intro st0 e
      simp only [gLoadAll, Except.ok.injEq] at e
      subst e
      simp only [List.nil_append, gLoadAll, gPreProcess]
      rw [if_pos hmem]
    | cons x as ih =>
      intro st0 e
      obtain ⟨x1, x2⟩ := x
      simp only [gLoadAll, List.cons_append] at e ⊢
      split at e
      · exact absurd e (by simp)
      · rename_i st' _
        exact ih st' e
  exact hgen as _ h

/-- the hypotheses are met, here with an event that does not exist -/
example : ∃ st, gLoadAll ⟨0, none, [], true⟩ twoEvents [(cs!"a", cs!"x")] AggDf.empty = .ok st ∧ gAccess st cs!"a" cs!"x" ≠ [] ∧
    gLoadAll ⟨0, none, [], true⟩ twoEvents [(cs!"a", cs!"x"), (cs!"nosuch", cs!"x")] AggDf.empty = .ok st := by
  refine ⟨⟨[1, 3], [((cs!"x", none), [some 10, some 20])]⟩, ?_, ?_, ?_⟩ <;> decide +kernel

end Trappy
