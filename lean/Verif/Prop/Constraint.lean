import Verif.Model.Constraint
import Verif.Lemma.Data
/-!
# C66, C67, C68, C95, C96: plot constraints
-/

namespace Trappy

/-! ## C66: filters and pivot -/

/-- **Specification**: every filter on a column of the table allows the cell of the row. -/
def Passes (columns : List Str) (filters : Dict (List Val)) (r : CRow) : Prop :=
  ∀ f ∈ filters, f.1 ∈ columns → ∃ v, r.cells.get f.1 = some v ∧ v ∈ f.2

instance (columns : List Str) (filters : Dict (List Val)) (r : CRow) : Decidable (Passes columns filters r) := by
  unfold Passes
  have h2 : ∀ f : Str × List Val, Decidable (∃ v, r.cells.get f.1 = some v ∧ v ∈ f.2) := by
    intro f
    cases h : r.cells.get f.1 with
    | none => exact isFalse (by simp)
    | some v => exact decidable_of_iff (v ∈ f.2) (by simp)
  infer_instance

/-- **Specification**: times and values of a column of some rows -/
def columnSeries (column : Str) (rows : List CRow) : PSeries := rows.map fun r => (r.time, r.cells.get column)

/-- **Assumption on `list(set(...))`**: every element once, in an unspecified order. -/
def Enumerates (enum : List Val → List Val) : Prop := ∀ l, (enum l).Nodup ∧ ∀ v, v ∈ enum l ↔ v ∈ l

/-- the test of one filter on a column other than the pivot -/
def plotTest (pivot : Str) (columns : List Str) (f : Str × List Val) (r : CRow) : Bool :=
  if f.1 ≠ pivot ∧ f.1 ∈ columns then valIn f.2 (r.cells.get f.1) else true

theorem zipWith_and_map (rows : List CRow) (p q : CRow → Bool) :
    (rows.map p).zipWith (· && ·) (rows.map q) = rows.map fun r => p r && q r := by
  induction rows with
  | nil => rfl
  | cons r rows ih => simp only [List.map_cons, List.zipWith_cons_cons, ih]

theorem plotCriterion_eq (pivot : Str) (t : CTable) (fs : Dict (List Val)) (crit : CRow → Bool) :
    plotCriterion pivot t fs (t.rows.map crit) = t.rows.map fun r => crit r && fs.all fun f => plotTest pivot t.columns f r := by
  induction fs generalizing crit with
  | nil => simp [plotCriterion]
  | cons f fs ih =>
    obtain ⟨c, wanted⟩ := f
    unfold plotCriterion
    by_cases hc : c ≠ pivot ∧ c ∈ t.columns
    · rw [if_pos hc, zipWith_and_map, ih]
      apply List.map_congr_left
      intro r _
      simp only [List.all_cons, plotTest, if_pos hc, Bool.and_assoc]
    · rw [if_neg hc, ih]
      apply List.map_congr_left
      intro r _
      simp only [List.all_cons, plotTest, if_neg hc, Bool.true_and]

theorem plotPick_eq (column : Str) (rows : List CRow) (p : CRow → Bool) :
    plotPick column rows (rows.map p) = columnSeries column (rows.filter p) := by
  induction rows with
  | nil => rfl
  | cons r rows ih =>
    simp only [List.map_cons, plotPick, List.filter_cons, ih]
    cases p r <;> simp [columnSeries]

theorem valIn_iff (w : List Val) (o : Option Val) : valIn w o = true ↔ ∃ v, o = some v ∧ v ∈ w := by
  cases o with
  | none => simp [valIn]
  | some v => simp [valIn]

theorem plotTest_all (pivot : Str) (columns : List Str) (fs : Dict (List Val)) (r : CRow) :
    (fs.all fun f => plotTest pivot columns f r) = true ↔
      ∀ f ∈ fs, f.1 ≠ pivot → f.1 ∈ columns → ∃ v, r.cells.get f.1 = some v ∧ v ∈ f.2 := by
  rw [List.all_eq_true]
  apply forall₂_congr
  intro f _
  unfold plotTest
  by_cases hc : f.1 ≠ pivot ∧ f.1 ∈ columns
  · rw [if_pos hc, valIn_iff]
    simp [hc]
  · rw [if_neg hc]
    simp only [true_iff]
    intro h1 h2
    exact absurd ⟨h1, h2⟩ hc

theorem dict_get_mem {α : Type} {d : Dict α} {k : Str} {v : α} (h : d.get k = some v) : (k, v) ∈ d := by
  induction d with
  | nil => simp [Dict.get] at h
  | cons a d ih =>
    obtain ⟨k', v'⟩ := a
    unfold Dict.get at h
    split at h
    next hk => simp_all
    next hk => exact List.mem_cons_of_mem _ (ih h)

theorem dict_mem_get {α : Type} {d : Dict α} {k : Str} {v : α} (hn : (d.map Prod.fst).Nodup) (h : (k, v) ∈ d) : d.get k = some v := by
  induction d with
  | nil => simp at h
  | cons a d ih =>
    obtain ⟨k', v'⟩ := a
    simp only [List.map_cons, List.nodup_cons] at hn
    unfold Dict.get
    rcases List.mem_cons.1 h with h | h
    · cases h
      simp
    · have : k' ≠ k := by
        rintro rfl
        exact hn.1 (List.mem_map_of_mem (f := Prod.fst) h)
      rw [if_neg this]
      exact ih hn.2 h

theorem plotSeries_eq (pivot : Str) (filters : Dict (List Val)) (column : Str) (t : CTable) (v : Val) (hv : v ≠ pivotMark) :
    plotSeries pivot filters column t v = columnSeries column
      (t.rows.filter fun r => (filters.all fun f => plotTest pivot t.columns f r) && (r.cells.get pivot == some v)) := by
  unfold plotSeries
  simp only
  rw [if_pos hv, plotCriterion_eq, zipWith_and_map, plotPick_eq]
  simp

theorem plotSeries_mark (pivot : Str) (filters : Dict (List Val)) (column : Str) (t : CTable) :
    plotSeries pivot filters column t pivotMark = columnSeries column
      (t.rows.filter fun r => filters.all fun f => plotTest pivot t.columns f r) := by
  unfold plotSeries
  simp only
  rw [if_neg (by simp), plotCriterion_eq, plotPick_eq]
  simp

theorem mem_plotLoop (pivot : Str) (filters : Dict (List Val)) (column : Str) (t : CTable) (vs : List Val) (v : Val) (s : PSeries) :
    (v, s) ∈ plotLoop pivot filters column t vs ↔ v ∈ vs ∧ s = plotSeries pivot filters column t v ∧ s ≠ [] := by
  induction vs with
  | nil => simp [plotLoop]
  | cons u vs ih =>
    unfold plotLoop
    simp only
    split
    next h =>
      rw [List.mem_cons, ih, List.mem_cons]
      constructor
      · rintro (h' | h')
        · cases h'
          exact ⟨Or.inl rfl, rfl, fun e => h (by rw [e]; rfl)⟩
        · exact ⟨Or.inr h'.1, h'.2⟩
      · rintro ⟨rfl | h1, h2, h3⟩
        · exact Or.inl (by rw [h2])
        · exact Or.inr ⟨h1, h2, h3⟩
    next h =>
      rw [ih, List.mem_cons]
      constructor
      · rintro ⟨h1, h2⟩
        exact ⟨Or.inr h1, h2⟩
      · rintro ⟨rfl | h1, h2, h3⟩
        · exact absurd (by simpa using h : plotSeries pivot filters column t v = []) (h2 ▸ h3)
        · exact ⟨h1, h2, h3⟩

theorem plotLoop_sublist (pivot : Str) (filters : Dict (List Val)) (column : Str) (t : CTable) (vs : List Val) :
    ((plotLoop pivot filters column t vs).map Prod.fst).Sublist vs := by
  induction vs with
  | nil => simp [plotLoop]
  | cons v vs ih =>
    unfold plotLoop
    simp only
    split
    · exact ih.cons_cons v
    · exact ih.cons v

theorem mem_pivotVals {enum : List Val → List Val} (he : Enumerates enum) (pivot : Str) (filters : Dict (List Val)) (t : CTable) (v : Val) :
    v ∈ pivotVals enum pivot filters t ↔ pivot ∈ t.columns ∧ (∃ r ∈ t.rows, r.cells.get pivot = some v) ∧
      ∀ w, filters.get pivot = some w → v ∈ w := by
  unfold pivotVals
  split
  next h =>
    cases hf : filters.get pivot with
    | none => simp [(he _).2, h]
    | some w => simp [(he _).2, h]
  next h => simp [h]

/-- **C66 (series).** For every pivot column, a pivot value other than the reserved marker has a series in the result exactly if
some row has that value and passes all filters on columns of the table, the filter on the pivot column included; its series then
consists of exactly those rows, in order. Nothing is returned if the table lacks the data column or the pivot column. For all tables, filters (a dictionary: keys
are unique) and orders of iteration. -/
theorem C66_series {enum : List Val → List Val} (he : Enumerates enum) {pivot : Str} (hp : pivot ≠ pivotName)
    {filters : Dict (List Val)} (hf : (filters.map Prod.fst).Nodup) (column : Str) (t : CTable) {v : Val} (hv : v ≠ pivotMark) (s : PSeries) :
    (v, s) ∈ plotApply enum pivot filters column t ↔
      column ∈ t.columns ∧ pivot ∈ t.columns ∧ s ≠ [] ∧
      s = columnSeries column (t.rows.filter fun r => decide (Passes t.columns filters r ∧ r.cells.get pivot = some v)) := by
  unfold plotApply
  by_cases hc : column ∈ t.columns
  rotate_left
  · simp [hc]
  rw [if_pos hc, if_neg hp, mem_plotLoop, mem_pivotVals he, plotSeries_eq _ _ _ _ _ hv]
  have key : (∀ w, filters.get pivot = some w → v ∈ w) → pivot ∈ t.columns →
      (fun r : CRow => (filters.all fun f => plotTest pivot t.columns f r) && (r.cells.get pivot == some v)) =
      fun r => decide (Passes t.columns filters r ∧ r.cells.get pivot = some v) := by
    intro hw hpc
    funext r
    apply Bool.eq_iff_iff.2
    rw [Bool.and_eq_true, plotTest_all, decide_eq_true_iff, beq_iff_eq]
    constructor
    · rintro ⟨h1, h2⟩
      refine ⟨fun f hf' hfc => ?_, h2⟩
      by_cases hfp : f.1 = pivot
      · exact ⟨v, hfp ▸ h2, hw f.2 (dict_mem_get hf (hfp ▸ hf'))⟩
      · exact h1 f hf' hfp hfc
    · rintro ⟨h1, h2⟩
      exact ⟨fun f hf' _ hfc => h1 f hf' hfc, h2⟩
  constructor
  · rintro ⟨⟨hpc, _, hw⟩, hs, hne⟩
    rw [key hw hpc] at hs
    exact ⟨hc, hpc, hne, hs⟩
  · rintro ⟨_, hpc, hne, hs⟩
    have hr : ∃ r ∈ t.rows, Passes t.columns filters r ∧ r.cells.get pivot = some v := by
      cases hl : t.rows.filter fun r => decide (Passes t.columns filters r ∧ r.cells.get pivot = some v) with
      | nil => rw [hl] at hs; exact absurd hs hne
      | cons r l =>
        have : r ∈ t.rows.filter fun r => decide (Passes t.columns filters r ∧ r.cells.get pivot = some v) := by rw [hl]; exact List.mem_cons_self
        rw [List.mem_filter, decide_eq_true_iff] at this
        exact ⟨r, this⟩
    obtain ⟨r, hr, hr1, hr2⟩ := hr
    have hw : ∀ w, filters.get pivot = some w → v ∈ w := by
      intro w hw
      obtain ⟨u, hu1, hu2⟩ := hr1 (pivot, w) (dict_get_mem hw) hpc
      simp only at hu1
      rw [hr2] at hu1
      cases hu1
      exact hu2
    refine ⟨⟨hpc, ⟨r, hr, hr2⟩, hw⟩, ?_, hne⟩
    rw [key hw hpc]
    exact hs

/-- **C66 (keys).** No pivot value has two series, and no series is empty. -/
theorem C66_keys {enum : List Val → List Val} (he : Enumerates enum) (pivot : Str) (filters : Dict (List Val)) (column : Str) (t : CTable) :
    ((plotApply enum pivot filters column t).map Prod.fst).Nodup ∧ ∀ e ∈ plotApply enum pivot filters column t, e.2 ≠ [] := by
  unfold plotApply
  split
  rotate_left
  · simp
  constructor
  · apply List.Nodup.sublist (plotLoop_sublist _ _ _ _ _)
    split
    · simp
    · unfold pivotVals
      split
      · split
        · exact (he _).1
        · exact (he _).1
      · simp
  · intro e h
    exact ((mem_plotLoop _ _ _ _ _ e.1 e.2).1 h).2.2

theorem perm_by_value (get : CRow → Option Val) (f : CRow → Nat × Option Val) (p : CRow → Bool) (rows : List CRow) (vs : List Val) (hn : vs.Nodup) :
    (vs.flatMap fun v => (rows.filter fun r => p r && (get r == some v)).map f).Perm
      ((rows.filter fun r => p r && vs.any fun v => get r == some v).map f) := by
  induction vs with
  | nil => simp
  | cons v vs ih =>
    rw [List.nodup_cons] at hn
    rw [List.flatMap_cons]
    refine ((List.Perm.refl _).append (ih hn.2)).trans ?_
    rw [← List.map_append]
    apply List.Perm.map
    clear ih
    induction rows with
    | nil => simp
    | cons r rows ih =>
      simp only [List.filter_cons, List.any_cons]
      by_cases hp : p r = true
      rotate_left
      · simp only [Bool.not_eq_true] at hp
        simpa [hp] using ih
      by_cases hv : get r = some v
      · have h2 : (vs.any fun v' => get r == some v') = false := by
          rw [List.any_eq_false]
          intro u hu
          rw [hv]
          simp only [beq_iff_eq, Option.some.injEq]
          rintro rfl
          exact hn.1 hu
        simp only [hp, hv, beq_self_eq_true, Bool.and_self, Bool.true_or, if_true] at h2 ⊢
        rw [h2]
        simpa using ih
      · have h1 : (get r == some v) = false := by simpa using hv
        simp only [hp, h1, Bool.and_false, Bool.false_or, Bool.true_and]
        by_cases h2 : (vs.any fun v' => get r == some v') = true
        · simp only [h2, if_true]
          exact List.perm_middle.trans (ih.cons r)
        · simp only [h2]
          exact ih

/-- **C66 (partition).** Together the series of all pivot values contain every row that passes the filters and has a pivot value exactly once:
they are a rearrangement of those rows. For all tables with the data column and the pivot column in which no pivot cell is the reserved marker. -/
theorem C66_partition {enum : List Val → List Val} (he : Enumerates enum) {pivot : Str} (hp : pivot ≠ pivotName)
    {filters : Dict (List Val)} (hf : (filters.map Prod.fst).Nodup) {column : Str} {t : CTable} (hc : column ∈ t.columns) (hpc : pivot ∈ t.columns)
    (hm : ∀ r ∈ t.rows, r.cells.get pivot ≠ some pivotMark) :
    ((plotApply enum pivot filters column t).flatMap Prod.snd).Perm
      (columnSeries column (t.rows.filter fun r => decide (Passes t.columns filters r ∧ (r.cells.get pivot).isSome))) := by
  unfold plotApply
  rw [if_pos hc, if_neg hp]
  have hne : ∀ v ∈ pivotVals enum pivot filters t, v ≠ pivotMark := by
    intro v hv
    obtain ⟨_, ⟨r, hr, hr'⟩, _⟩ := (mem_pivotVals he _ _ _ _).1 hv
    rintro rfl
    exact hm r hr hr'
  have hnd : (pivotVals enum pivot filters t).Nodup := by
    unfold pivotVals
    rw [if_pos hpc]
    split
    · exact (he _).1
    · exact (he _).1
  have h1 : ∀ vs : List Val, (∀ v ∈ vs, v ≠ pivotMark) → (plotLoop pivot filters column t vs).flatMap Prod.snd =
      vs.flatMap fun v => (t.rows.filter fun r => (filters.all fun f => plotTest pivot t.columns f r) && (r.cells.get pivot == some v)).map
        fun r => (r.time, r.cells.get column) := by
    intro vs hvs
    induction vs with
    | nil => rfl
    | cons v vs ih =>
      have ih := ih fun u hu => hvs u (List.mem_cons_of_mem _ hu)
      unfold plotLoop
      simp only
      have e := plotSeries_eq pivot filters column t v (hvs v List.mem_cons_self)
      unfold columnSeries at e
      split
      · rw [List.flatMap_cons, List.flatMap_cons, ih, e]
      next h =>
        rw [List.flatMap_cons, ih, ← e]
        have h' : plotSeries pivot filters column t v = [] := by simpa using h
        rw [h']
        rfl
  rw [h1 _ hne]
  refine (perm_by_value (fun r => r.cells.get pivot) _ _ _ _ hnd).trans (List.Perm.of_eq ?_)
  unfold columnSeries
  congr 1
  apply List.filter_congr
  intro r hr
  apply Bool.eq_iff_iff.2
  rw [Bool.and_eq_true, plotTest_all, decide_eq_true_iff, List.any_eq_true]
  constructor
  · rintro ⟨h2, v, hv, h3⟩
    rw [beq_iff_eq] at h3
    refine ⟨fun f hf' hfc => ?_, by rw [h3]; rfl⟩
    by_cases hfp : f.1 = pivot
    · exact ⟨v, hfp ▸ h3, ((mem_pivotVals he _ _ _ _).1 hv).2.2 f.2 (dict_mem_get hf (hfp ▸ hf'))⟩
    · exact h2 f hf' hfp hfc
  · rintro ⟨h2, h3⟩
    refine ⟨fun f hf' _ hfc => h2 f hf' hfc, ?_⟩
    cases hg : r.cells.get pivot with
    | none => rw [hg] at h3; cases h3
    | some v =>
      refine ⟨v, (mem_pivotVals he _ _ _ _).2 ⟨hpc, ⟨r, hr, hg⟩, fun w hw => ?_⟩, by simp⟩
      obtain ⟨u, hu1, hu2⟩ := h2 (pivot, w) (dict_get_mem hw) hpc
      simp only at hu1
      rw [hg] at hu1
      cases hu1
      exact hu2

/-- **C66 (no pivot).** Without a pivot there is one series, named by the marker, of all rows that pass the filters; none if there is no such row. -/
theorem C66_whole (enum : List Val → List Val) (filters : Dict (List Val)) {column : Str} {t : CTable} (hc : column ∈ t.columns)
    (hm : pivotName ∉ t.columns) :
    plotApply enum pivotName filters column t =
      if (t.rows.filter fun r => decide (Passes t.columns filters r)) = [] then []
      else [(pivotMark, columnSeries column (t.rows.filter fun r => decide (Passes t.columns filters r)))] := by
  unfold plotApply
  rw [if_pos hc, if_pos rfl]
  unfold plotLoop
  simp only [plotLoop]
  rw [plotSeries_mark]
  have e : (t.rows.filter fun r => filters.all fun f => plotTest pivotName t.columns f r) =
      t.rows.filter fun r => decide (Passes t.columns filters r) := by
    apply List.filter_congr
    intro r _
    apply Bool.eq_iff_iff.2
    rw [plotTest_all, decide_eq_true_iff]
    constructor
    · intro h f hf hfc
      exact h f hf (fun e => hm (e ▸ hfc)) hfc
    · intro h f hf _ hfc
      exact h f hf hfc
  rw [e]
  generalize t.rows.filter (fun r => decide (Passes t.columns filters r)) = l
  cases l with
  | nil => rfl
  | cons r l => simp [columnSeries]

/-- one order of iteration: that of the last appearance -/
def uniqVals : List Val → List Val
  | [] => []
  | v :: l => if v ∈ l then uniqVals l else v :: uniqVals l

theorem mem_uniqVals (l : List Val) (v : Val) : v ∈ uniqVals l ↔ v ∈ l := by
  induction l with
  | nil => simp [uniqVals]
  | cons u l ih =>
    unfold uniqVals
    split
    next h =>
      rw [ih, List.mem_cons]
      constructor
      · exact Or.inr
      · rintro (rfl | h')
        · exact h
        · exact h'
    · rw [List.mem_cons, List.mem_cons, ih]

theorem uniqVals_enumerates : Enumerates uniqVals := by
  intro l
  refine ⟨?_, mem_uniqVals l⟩
  induction l with
  | nil => simp [uniqVals]
  | cons v l ih =>
    unfold uniqVals
    split
    · exact ih
    next h => exact List.nodup_cons.2 ⟨fun h' => h ((mem_uniqVals l v).1 h'), ih⟩

/-- the rows of a small table of cpu frequencies -/
def exPRow (t : Nat) (cpu freq : Int) : CRow := ⟨t, [(cs!"cpu", .int cpu), (cs!"frequency", .int freq)]⟩

/-- a small table of cpu frequencies -/
def exPTable : CTable := ⟨[cs!"cpu", cs!"frequency"], [exPRow 1 0 100, exPRow 2 1 200, exPRow 3 0 300, exPRow 4 2 100, exPRow 5 1 300]⟩

/-- `C66_series`, `C66_keys`: pivot cpu restricted to 0 and 2, a filter on the frequency and one on a column the table lacks. -/
example : plotApply (fun l => uniqVals l.reverse) cs!"cpu" [(cs!"cpu", [.int 0, .int 2]), (cs!"frequency", [.int 100, .int 200]), (cs!"pid", [.int 7])]
    cs!"frequency" exPTable = [(.int 2, [(4, some (.int 100))]), (.int 0, [(1, some (.int 100))])] := by decide +kernel

/-- `C66_partition`: three series of five rows -/
example : plotApply uniqVals cs!"cpu" [] cs!"frequency" exPTable =
    [(.int 0, [(1, some (.int 100)), (3, some (.int 300))]), (.int 2, [(4, some (.int 100))]),
     (.int 1, [(2, some (.int 200)), (5, some (.int 300))])] ∧ ∀ r ∈ exPTable.rows, r.cells.get cs!"cpu" ≠ some pivotMark := by
  refine ⟨?_, ?_⟩ <;> decide +kernel

/-- `C66_whole` -/
example : plotApply uniqVals pivotName [(cs!"frequency", [.int 300])] cs!"frequency" exPTable =
    [(pivotMark, [(3, some (.int 300)), (5, some (.int 300))])] ∧ pivotName ∉ exPTable.columns := by
  refine ⟨?_, ?_⟩ <;> decide +kernel

/-- `Enumerates` is met -/
example : Enumerates uniqVals := uniqVals_enumerates

/-- **C66 (limit), refuted.** If a pivot cell is the reserved marker, its series contains rows of other pivot values. -/
theorem C66_marker_refuted : ∃ (t : CTable) (r : CRow) (s : PSeries),
    r ∈ t.rows ∧ r.cells.get cs!"comm" = some (.str cs!"bash") ∧ (r.time, r.cells.get cs!"x") ∈ s ∧
    (pivotMark, s) ∈ plotApply uniqVals cs!"comm" [] cs!"x" t := by
  refine ⟨⟨[cs!"comm", cs!"x"], [⟨1, [(cs!"comm", pivotMark), (cs!"x", .int 1)]⟩, ⟨2, [(cs!"comm", .str cs!"bash"), (cs!"x", .int 2)]⟩]⟩,
    ⟨2, [(cs!"comm", .str cs!"bash"), (cs!"x", .int 2)]⟩, [(1, some (.int 1)), (2, some (.int 2))], ?_, ?_, ?_, ?_⟩ <;> decide +kernel

/-! ## C95: window -/

theorem lastUpTo_spec (a : Nat) (rows : List CRow) :
    (lastUpTo a rows = none ↔ ∀ r ∈ rows, ¬ r.time ≤ a) ∧
    ∀ lo, lastUpTo a rows = some lo → (∃ r ∈ rows, r.time = lo) ∧ lo ≤ a ∧ ∀ r ∈ rows, r.time ≤ a → r.time ≤ lo := by
  induction rows with
  | nil => simp [lastUpTo]
  | cons r rows ih =>
    unfold lastUpTo
    cases h : lastUpTo a rows with
    | none =>
      have h0 := ih.1.1 h
      simp only
      split
      next hr =>
        refine ⟨⟨fun h' => (by cases h'), fun h' => absurd hr (h' r List.mem_cons_self)⟩, ?_⟩
        rintro lo ⟨rfl⟩
        refine ⟨⟨r, by simp, rfl⟩, hr, ?_⟩
        intro r' h' hr'
        rcases List.mem_cons.1 h' with rfl | h'
        · exact Nat.le_refl _
        · exact absurd hr' (h0 r' h')
      next hr =>
        refine ⟨?_, by simp⟩
        simp only [true_iff]
        intro r' h'
        rcases List.mem_cons.1 h' with rfl | h'
        · exact hr
        · exact h0 r' h'
    | some t =>
      obtain ⟨⟨r1, hr1, e1⟩, ht, hmax⟩ := ih.2 t h
      simp only
      split
      next hr =>
        refine ⟨⟨fun h' => (by cases h'), fun h' => absurd hr (h' r List.mem_cons_self)⟩, ?_⟩
        rintro lo ⟨rfl⟩
        refine ⟨?_, Nat.max_le.2 ⟨hr, ht⟩, ?_⟩
        · rcases Nat.le_total r.time t with h' | h'
          · exact ⟨r1, List.mem_cons_of_mem _ hr1, by rw [e1]; omega⟩
          · exact ⟨r, List.mem_cons_self, by omega⟩
        · intro r' h' hr'
          rcases List.mem_cons.1 h' with rfl | h'
          · exact Nat.le_max_left _ _
          · exact Nat.le_trans (hmax r' h' hr') (Nat.le_max_right _ _)
      next hr =>
        refine ⟨?_, ?_⟩
        · constructor
          · intro h'; cases h'
          · intro h'
            exact absurd (e1 ▸ ht) (h' r1 (List.mem_cons_of_mem _ hr1))
        · rintro lo ⟨rfl⟩
          refine ⟨⟨r1, List.mem_cons_of_mem _ hr1, e1⟩, ht, ?_⟩
          intro r' h' hr'
          rcases List.mem_cons.1 h' with rfl | h'
          · exact absurd hr' hr
          · exact hmax r' h' hr'

theorem firstFrom_spec (b : Nat) (rows : List CRow) :
    (firstFrom b rows = none ↔ ∀ r ∈ rows, ¬ b ≤ r.time) ∧
    ∀ hi, firstFrom b rows = some hi → (∃ r ∈ rows, r.time = hi) ∧ b ≤ hi ∧ ∀ r ∈ rows, b ≤ r.time → hi ≤ r.time := by
  induction rows with
  | nil => simp [firstFrom]
  | cons r rows ih =>
    unfold firstFrom
    cases h : firstFrom b rows with
    | none =>
      have h0 := ih.1.1 h
      simp only
      split
      next hr =>
        refine ⟨⟨fun h' => (by cases h'), fun h' => absurd hr (h' r List.mem_cons_self)⟩, ?_⟩
        rintro lo ⟨rfl⟩
        refine ⟨⟨r, by simp, rfl⟩, hr, ?_⟩
        intro r' h' hr'
        rcases List.mem_cons.1 h' with rfl | h'
        · exact Nat.le_refl _
        · exact absurd hr' (h0 r' h')
      next hr =>
        refine ⟨?_, by simp⟩
        simp only [true_iff]
        intro r' h'
        rcases List.mem_cons.1 h' with rfl | h'
        · exact hr
        · exact h0 r' h'
    | some t =>
      obtain ⟨⟨r1, hr1, e1⟩, ht, hmin⟩ := ih.2 t h
      simp only
      split
      next hr =>
        refine ⟨⟨fun h' => (by cases h'), fun h' => absurd hr (h' r List.mem_cons_self)⟩, ?_⟩
        rintro lo ⟨rfl⟩
        refine ⟨?_, Nat.le_min.2 ⟨hr, ht⟩, ?_⟩
        · rcases Nat.le_total r.time t with h' | h'
          · exact ⟨r, List.mem_cons_self, by omega⟩
          · exact ⟨r1, List.mem_cons_of_mem _ hr1, by rw [e1]; omega⟩
        · intro r' h' hr'
          rcases List.mem_cons.1 h' with rfl | h'
          · exact Nat.min_le_left _ _
          · exact Nat.le_trans (Nat.min_le_right _ _) (hmin r' h' hr')
      next hr =>
        refine ⟨?_, ?_⟩
        · constructor
          · intro h'; cases h'
          · intro h'
            exact absurd (e1 ▸ ht) (h' r1 (List.mem_cons_of_mem _ hr1))
        · rintro lo ⟨rfl⟩
          refine ⟨⟨r1, List.mem_cons_of_mem _ hr1, e1⟩, ht, ?_⟩
          intro r' h' hr'
          rcases List.mem_cons.1 h' with rfl | h'
          · exact absurd hr' hr
          · exact hmin r' h' hr'

/-- **C95, partial.** If some row is not after the start of the window, and some row is not before its end or NaN is sorted last, the data of
the constraint are exactly the rows that are not before all of the former and not after any of the latter: those inside the window, the last
ones up to its start and the first ones from its end. For all tables and windows. -/
theorem C95_window_partial {nan : NanSlice} {t : CTable} {a b : Nat} (ha : ∃ r ∈ t.rows, r.time ≤ a)
    (hb : (∃ r ∈ t.rows, b ≤ r.time) ∨ nan = .sortsLast) :
    ∃ t', plotWindow nan (some (a, b)) t = some t' ∧ t'.columns = t.columns ∧ t'.rows.Sublist t.rows ∧
      ∀ r, r ∈ t'.rows ↔ r ∈ t.rows ∧ (∀ r' ∈ t.rows, r'.time ≤ a → r'.time ≤ r.time) ∧ (∀ r' ∈ t.rows, b ≤ r'.time → r.time ≤ r'.time) := by
  obtain ⟨ra, hra, ha⟩ := ha
  simp only [plotWindow]
  cases h1 : lastUpTo a t.rows with
  | none => exact absurd ha ((lastUpTo_spec a t.rows).1.1 h1 ra hra)
  | some lo =>
    obtain ⟨⟨r1, hr1, e1⟩, hlo, hmax⟩ := (lastUpTo_spec a t.rows).2 lo h1
    cases h2 : firstFrom b t.rows with
    | none =>
      have hnone := (firstFrom_spec b t.rows).1.1 h2
      rcases hb with ⟨rb, hrb, hb⟩ | rfl
      · exact absurd hb (hnone rb hrb)
      · refine ⟨{ t with rows := t.rows.filter fun r => decide (lo ≤ r.time) }, rfl, rfl, List.filter_sublist, ?_⟩
        intro r
        simp only [List.mem_filter, decide_eq_true_eq]
        constructor
        · rintro ⟨hr, h3⟩
          exact ⟨hr, fun r' h' hr' => Nat.le_trans (hmax r' h' hr') h3, fun r' h' hr' => absurd hr' (hnone r' h')⟩
        · rintro ⟨hr, h3, -⟩
          exact ⟨hr, e1 ▸ h3 r1 hr1 (e1 ▸ hlo)⟩
    | some hi =>
      obtain ⟨⟨r2, hr2, e2⟩, hhi, hmin⟩ := (firstFrom_spec b t.rows).2 hi h2
      refine ⟨{ t with rows := t.rows.filter fun r => decide (lo ≤ r.time ∧ r.time ≤ hi) }, rfl, rfl, List.filter_sublist, ?_⟩
      intro r
      simp only [List.mem_filter, decide_eq_true_eq]
      constructor
      · rintro ⟨hr, h3, h4⟩
        exact ⟨hr, fun r' h' hr' => Nat.le_trans (hmax r' h' hr') h3, fun r' h' hr' => Nat.le_trans h4 (hmin r' h' hr')⟩
      · rintro ⟨hr, h3, h4⟩
        exact ⟨hr, e1 ▸ h3 r1 hr1 (e1 ▸ hlo), e2 ▸ h4 r2 hr2 (e2 ▸ hhi)⟩

/-- **C95 (inside).** If some row is not after the start of the window, every row inside the window is kept. -/
theorem C95_inside_partial {nan : NanSlice} {t t' : CTable} {a b : Nat} (ha : ∃ r ∈ t.rows, r.time ≤ a)
    (h : plotWindow nan (some (a, b)) t = some t') {r : CRow} (hr : r ∈ t.rows) (h1 : a ≤ r.time) (h2 : r.time ≤ b) : r ∈ t'.rows := by
  have hb : (∃ r ∈ t.rows, b ≤ r.time) ∨ nan = .sortsLast := by
    by_cases hb : ∃ r ∈ t.rows, b ≤ r.time
    · exact .inl hb
    · right
      cases nan with
      | sortsLast => rfl
      | raises =>
        exfalso
        have : firstFrom b t.rows = none := (firstFrom_spec b t.rows).1.2 fun r hr h => hb ⟨r, hr, h⟩
        unfold plotWindow at h
        cases h3 : lastUpTo a t.rows <;> simp [this, h3] at h
  obtain ⟨t2, e, -, -, hm⟩ := C95_window_partial ha hb
  rw [h] at e
  obtain rfl := Option.some.inj e
  exact (hm r).2 ⟨hr, fun r' _ h' => Nat.le_trans h' h1, fun r' _ h' => Nat.le_trans h2 h'⟩

/-- **C95 (refuted for a window that starts before the first row).** No row is kept, not even those inside the window, or the plot raises,
depending on the release of pandas. For all tables and all such windows. -/
theorem C95_start_refuted (nan : NanSlice) (t : CTable) (a b : Nat) (ha : ∀ r ∈ t.rows, a < r.time) :
    plotWindow nan (some (a, b)) t = match nan with
      | .raises => none
      | .sortsLast => some ⟨t.columns, []⟩ := by
  have : lastUpTo a t.rows = none := (lastUpTo_spec a t.rows).1.2 fun r hr h => absurd (ha r hr) (Nat.not_lt.2 h)
  unfold plotWindow
  cases nan <;> simp [this]

/-- rows at 10 and 20, window from 5 to 15 -/
example : plotWindow .sortsLast (some (5, 15)) ⟨[cs!"x"], [⟨10, []⟩, ⟨20, []⟩]⟩ = some ⟨[cs!"x"], []⟩ := by decide +kernel

/-- **C95 (refuted for a window that ends after the last row).** The plot raises with releases of pandas that raise for NaN. For all tables and
all such windows; with others the rows are the right ones (`C95_window_partial`). -/
theorem C95_end_refuted (t : CTable) (a b : Nat) (hb : ∀ r ∈ t.rows, r.time < b) : plotWindow .raises (some (a, b)) t = none := by
  have : firstFrom b t.rows = none := (firstFrom_spec b t.rows).1.2 fun r hr h => absurd (hb r hr) (Nat.not_lt.2 h)
  unfold plotWindow
  cases h : lastUpTo a t.rows <;> simp [this]

/-- **C95 (no window).** Without a window all data are used. -/
theorem C95_none (nan : NanSlice) (t : CTable) : plotWindow nan none t = some t := rfl

/-- `C95_window_partial`: the window from just after row 2 to just before row 4 keeps rows 2 to 4. -/
example : plotWindow .raises (some (25, 35)) ⟨[cs!"x"], [⟨10, []⟩, ⟨20, []⟩, ⟨30, []⟩, ⟨40, []⟩, ⟨50, []⟩]⟩ =
    some ⟨[cs!"x"], [⟨20, []⟩, ⟨30, []⟩, ⟨40, []⟩]⟩ := by decide +kernel

/-! ## C67: expansion -/

/-- **Specification**: the list as it is if it has `n` elements, else its single element `n` times. -/
def Stretched {α : Type} (n : Nat) (l l' : List α) : Prop :=
  l'.length = n ∧ ∀ i, i < n → ∃ x, l'[i]? = some x ∧ l[if l.length = n then i else 0]? = some x

/-- **Specification**: the length of the longest list -/
def longest {τ κ : Type} (traces : List τ) (columns : List Str) (templates : List κ) : Nat :=
  max traces.length (max columns.length templates.length)

/-- **Specification**: every list has one element or as many as the longest. -/
def Expandable {τ κ : Type} (traces : List τ) (columns : List Str) (templates : List κ) : Prop :=
  let n := longest traces columns templates
  (traces.length = 1 ∨ traces.length = n) ∧ (columns.length = 1 ∨ columns.length = n) ∧ (templates.length = 1 ∨ templates.length = n)

theorem stretched_self {α : Type} (l : List α) : Stretched l.length l l := by
  refine ⟨rfl, fun i hi => ?_⟩
  rw [if_pos rfl]
  exact ⟨l[i], by simp [hi], by simp [hi]⟩

theorem expandOne_ok {α : Type} {n : Nat} {l l' : List α} (h : expandOne n l = .ok l') : (l.length = 1 ∨ l.length = n) ∧ Stretched n l l' := by
  unfold expandOne at h
  split at h
  next hn =>
    unfold normalizeList at h
    split at h
    · cases h
    next h1 =>
      simp only [ne_eq, Decidable.not_not] at h1
      cases h
      obtain ⟨x, rfl⟩ := List.length_eq_one_iff.1 h1
      refine ⟨Or.inl rfl, by simp, fun i hi => ?_⟩
      rw [if_neg hn]
      refine ⟨x, ?_, rfl⟩
      have : (List.replicate n [x]).flatten = List.replicate n x := by
        clear hn hi
        induction n with
        | zero => rfl
        | succ n ih => simp [List.replicate_succ, ih]
      rw [this, List.getElem?_replicate, if_pos hi]
  next hn =>
    simp only [ne_eq, Decidable.not_not] at hn
    cases h
    exact ⟨Or.inr hn, hn ▸ stretched_self l⟩

theorem expandOne_total {α : Type} {n : Nat} {l : List α} (h : l.length = 1 ∨ l.length = n) : ∃ l', expandOne n l = .ok l' := by
  unfold expandOne normalizeList
  split
  next hn =>
    rw [if_neg (by simp; omega)]
    exact ⟨_, rfl⟩
  next hn => exact ⟨_, rfl⟩

theorem expandLists_ok {τ κ : Type} {traces : List τ} {columns : List Str} {templates : List κ} {e : Expanded τ κ}
    (h : expandLists traces columns templates = .ok e) :
    Expandable traces columns templates ∧
    Stretched (longest traces columns templates) traces e.traces ∧ Stretched (longest traces columns templates) columns e.columns ∧
    Stretched (longest traces columns templates) templates e.templates ∧
    (e.traceExpanded = true ↔ traces.length ≠ longest traces columns templates) := by
  unfold expandLists at h
  simp only at h
  unfold Expandable
  simp only
  generalize hn : longest traces columns templates = n
  unfold longest at hn
  rw [hn] at h
  split at h
  · cases h
  next h0 =>
    split at h
    next h1 =>
      split at h
      next h2 =>
        cases h
        have : traces.length = n := by omega
        have h3 : columns.length = n := by omega
        have h4 : templates.length = n := by omega
        exact ⟨⟨Or.inr this, Or.inr h3, Or.inr h4⟩, this ▸ stretched_self _, h3 ▸ stretched_self _, h4 ▸ stretched_self _, by simp [this]⟩
      next h2 =>
        split at h
        · cases h
        · split at h
          · cases h
          next ts hts =>
            split at h
            · cases h
            next cs hcs =>
              split at h
              · cases h
              next ks hks =>
                cases h
                obtain ⟨a1, a2⟩ := expandOne_ok hts
                obtain ⟨b1, b2⟩ := expandOne_ok hcs
                obtain ⟨c1, c2⟩ := expandOne_ok hks
                exact ⟨⟨a1, b1, c1⟩, a2, b2, c2, by simp⟩
    next h1 =>
      cases h
      have : traces.length = n := by omega
      have h3 : columns.length = n := by omega
      have h4 : templates.length = n := by omega
      exact ⟨⟨Or.inr this, Or.inr h3, Or.inr h4⟩, this ▸ stretched_self _, h3 ▸ stretched_self _, h4 ▸ stretched_self _, by simp [this]⟩

theorem expandLists_total {τ κ : Type} {traces : List τ} {columns : List Str} {templates : List κ}
    (h : Expandable traces columns templates) : ∃ e, expandLists traces columns templates = .ok e := by
  unfold Expandable longest at h
  simp only at h
  unfold expandLists
  simp only
  generalize hn : max traces.length (max columns.length templates.length) = n at *
  rw [if_neg (by omega)]
  split
  · split
    · exact ⟨_, rfl⟩
    · rw [if_neg (by omega)]
      obtain ⟨ts, h1⟩ := expandOne_total h.1
      obtain ⟨cs, h2⟩ := expandOne_total h.2.1
      obtain ⟨ks, h3⟩ := expandOne_total h.2.2
      rw [h1, h2, h3]
      exact ⟨_, rfl⟩
  · exact ⟨_, rfl⟩

theorem zipConstraints_spec {τ κ : Type} (e : Expanded τ κ) (ts : List τ) (cs : List Str) (ks : List κ) (j n : Nat)
    (h1 : ts.length = n) (h2 : cs.length = n) (h3 : ks.length = n) :
    (zipConstraints e j ts cs ks).length = n ∧ ∀ i, i < n → ∃ t c k, ts[i]? = some t ∧ cs[i]? = some c ∧ ks[i]? = some k ∧
      (zipConstraints e j ts cs ks)[i]? = some ⟨t, c, k, if e.traceExpanded then 0 else j + i⟩ := by
  induction n generalizing j ts cs ks with
  | zero =>
    obtain rfl := List.eq_nil_of_length_eq_zero h1
    simp [zipConstraints]
  | succ n ih =>
    cases ts with
    | nil => simp at h1
    | cons t ts =>
      cases cs with
      | nil => simp at h2
      | cons c cs =>
        cases ks with
        | nil => simp at h3
        | cons k ks =>
          obtain ⟨a, b⟩ := ih ts cs ks (j + 1) (by simpa using h1) (by simpa using h2) (by simpa using h3)
          unfold zipConstraints
          refine ⟨by simp [a], fun i hi => ?_⟩
          cases i with
          | zero => exact ⟨t, c, k, rfl, rfl, rfl, rfl⟩
          | succ i =>
            obtain ⟨t', c', k', x1, x2, x3, x4⟩ := b i (by omega)
            refine ⟨t', c', k', by simpa using x1, by simpa using x2, by simpa using x3, ?_⟩
            rw [List.getElem?_cons_succ, x4]
            congr 2
            split
            · rfl
            · omega

/-- **C67 (when).** Constraints are made exactly if every one of the three lists has one element or as many as the longest; otherwise
`RuntimeError` is raised. For all lists, with and without permutation. -/
theorem C67_when {τ κ : Type} (zip : Bool) (traces : List τ) (columns : List Str) (templates : List κ) :
    (∃ cs, constraintArgs zip traces columns templates = .ok cs) ↔ Expandable traces columns templates := by
  constructor
  · rintro ⟨cs, h⟩
    unfold constraintArgs at h
    split at h
    · cases h
    next e he => exact (expandLists_ok he).1
  · intro h
    obtain ⟨e, he⟩ := expandLists_total h
    unfold constraintArgs
    rw [he]
    simp only
    cases zip with
    | true => exact ⟨_, rfl⟩
    | false => exact ⟨_, rfl⟩

/-- **C67 (zip).** There are as many constraints as the longest list has elements; the i-th is made of the i-th trace, column and template, a
list of one element giving that element, and remembers the index of its trace in the list given. For all lists. -/
theorem C67_zip {τ κ : Type} {traces : List τ} {columns : List Str} {templates : List κ} {cs : List (CArgs τ κ)}
    (h : constraintArgs true traces columns templates = .ok cs) :
    cs.length = longest traces columns templates ∧
    ∀ i, i < longest traces columns templates → ∃ c, cs[i]? = some c ∧
      traces[if traces.length = longest traces columns templates then i else 0]? = some c.trace ∧
      columns[if columns.length = longest traces columns templates then i else 0]? = some c.column ∧
      templates[if templates.length = longest traces columns templates then i else 0]? = some c.template ∧
      c.traceIdx = (if traces.length = longest traces columns templates then i else 0) := by
  unfold constraintArgs at h
  split at h
  · cases h
  next e he =>
    simp only [if_true, Except.ok.injEq] at h
    subst h
    obtain ⟨_, h1, h2, h3, h4⟩ := expandLists_ok he
    obtain ⟨a, b⟩ := zipConstraints_spec e e.traces e.columns e.templates 0 _ h1.1 h2.1 h3.1
    refine ⟨a, fun i hi => ?_⟩
    obtain ⟨t, c, k, x1, x2, x3, x4⟩ := b i hi
    obtain ⟨t', y1, y2⟩ := h1.2 i hi
    obtain ⟨c', z1, z2⟩ := h2.2 i hi
    obtain ⟨k', w1, w2⟩ := h3.2 i hi
    rw [x1] at y1
    rw [x2] at z1
    rw [x3] at w1
    cases y1
    cases z1
    cases w1
    refine ⟨_, x4, y2, z2, w2, ?_⟩
    by_cases ht : traces.length = longest traces columns templates
    · have : e.traceExpanded = false := by
        rw [← Bool.not_eq_true, h4]; simp [ht]
      rw [this, if_pos ht]
      simp
    · rw [if_neg ht, h4.2 ht]
      rfl

/-- `C67_zip`: one trace, two columns and two templates -/
example : constraintArgs true ["trace"] [cs!"a", cs!"b"] [1, 2] = .ok [⟨"trace", cs!"a", 1, 0⟩, ⟨"trace", cs!"b", 2, 0⟩] ∧
    longest ["trace"] [cs!"a", cs!"b"] [1, 2] = 2 := ⟨rfl, rfl⟩

/-- `C67_zip`: two traces, one column; the index of the trace is kept -/
example : constraintArgs true ["t0", "t1"] [cs!"a"] [1] = .ok [⟨"t0", cs!"a", 1, 0⟩, ⟨"t1", cs!"a", 1, 1⟩] := rfl

/-- `C67_when`: two traces and three columns are rejected -/
example : constraintArgs true ["t0", "t1"] [cs!"a", cs!"b", cs!"c"] [1] = .error .cannotNormalize := rfl

theorem expandOne_cases {α : Type} (n : Nat) (l : List α) :
    (expandOne n l = .error .cannotNormalize ∧ l.length ≠ n ∧ l.length ≠ 1) ∨ (∃ r, expandOne n l = .ok r) ∧ (l.length = n ∨ l.length = 1) := by
  unfold expandOne normalizeList
  by_cases h1 : l.length = n
  · right; rw [if_neg (by simp [h1])]; exact ⟨⟨_, rfl⟩, Or.inl h1⟩
  · rw [if_pos h1]
    by_cases h2 : l.length = 1
    · right; rw [if_neg (by simp [h2])]; exact ⟨⟨_, rfl⟩, Or.inr h2⟩
    · left; rw [if_pos h2]; exact ⟨rfl, h1, h2⟩

/-- **C67 (messages).** If no constraints are made, the message is that an argument is missing exactly if none of the lists has more than one element; that lists cannot be expanded if all of them have several; and that a
list cannot be repeated otherwise. For all lists. -/
theorem C67_messages {τ κ : Type} (zip : Bool) (traces : List τ) (columns : List Str) (templates : List κ) (e : CErr) (h : constraintArgs zip traces columns templates = .error e) :
    (e = .missing ↔ longest traces columns templates ≤ 1) ∧
    (e = .cannotExpand ↔ 1 < traces.length ∧ 1 < columns.length ∧ 1 < templates.length) := by
  have h' : expandLists traces columns templates = .error e := by
    unfold constraintArgs at h
    split at h
    · next he => cases h; exact he
    · next he => split at h <;> cases h
  clear h
  unfold expandLists at h'
  unfold longest
  simp only at h'
  generalize hn : max traces.length (max columns.length templates.length) = n at *
  by_cases h1 : n = 1 ∧ min traces.length (min columns.length templates.length) ≠ 1
  · rw [if_pos h1] at h'
    cases h'
    refine ⟨⟨fun _ => by omega, fun _ => rfl⟩, ⟨fun h => (by cases h), fun h => (by omega)⟩⟩
  · rw [if_neg h1] at h'
    by_cases h2 : 1 < n
    · rw [if_pos h2] at h'
      by_cases h3 : traces.length = columns.length ∧ columns.length = templates.length
      · rw [if_pos h3] at h'; cases h'
      · rw [if_neg h3] at h'
        by_cases h4 : 1 < min traces.length (min columns.length templates.length)
        · rw [if_pos h4] at h'
          cases h'
          refine ⟨⟨fun h => (by cases h), fun h => (by omega)⟩, ⟨fun _ => by omega, fun _ => rfl⟩⟩
        · rw [if_neg h4] at h'
          have key : e = .cannotNormalize := by
            rcases expandOne_cases n traces with ⟨a, _⟩ | ⟨⟨r1, a⟩, _⟩ <;> rw [a] at h' <;> simp only at h'
            · cases h'; rfl
            rcases expandOne_cases n columns with ⟨b, _⟩ | ⟨⟨r2, b⟩, _⟩ <;> rw [b] at h' <;> simp only at h'
            · cases h'; rfl
            rcases expandOne_cases n templates with ⟨c, _⟩ | ⟨⟨r3, c⟩, _⟩ <;> rw [c] at h' <;> simp only at h'
            · cases h'; rfl
            · cases h'
          subst key
          refine ⟨⟨fun h => (by cases h), fun h => (by omega)⟩, ⟨fun h => (by cases h), fun h => (by omega)⟩⟩
    · rw [if_neg h2] at h'; cases h'

/-- `C67_messages`: one of each -/
example : constraintArgs true ["t0"] [] [1] = .error .missing ∧ constraintArgs true ["t0", "t1"] [cs!"a", cs!"b", cs!"c"] [1, 2, 3] = .error .cannotExpand ∧
    constraintArgs true ["t0", "t1"] [] [1] = .error .cannotNormalize := ⟨rfl, rfl, rfl⟩

/-! ## C96: permuted constraints -/

theorem permuteConstraints_spec {τ κ : Type} (columns : List Str) (n : Nat) (ts : List τ) (ks : List κ) (j : Nat)
    (h1 : ts.length = n) (h3 : ks.length = n) :
    (permuteConstraints columns j ts ks).length = n * columns.length ∧
    ∀ i, i < n → ∀ l, l < columns.length → ∃ t c k, ts[i]? = some t ∧ columns[l]? = some c ∧ ks[i]? = some k ∧
      (permuteConstraints columns j ts ks)[i * columns.length + l]? = some ⟨t, c, k, j + i⟩ := by
  induction n generalizing j ts ks with
  | zero =>
    obtain rfl := List.eq_nil_of_length_eq_zero h1
    simp [permuteConstraints]
  | succ n ih =>
    cases ts with
    | nil => simp at h1
    | cons t ts =>
      cases ks with
      | nil => simp at h3
      | cons k ks =>
        obtain ⟨a, b⟩ := ih ts ks (j + 1) (by simpa using h1) (by simpa using h3)
        unfold permuteConstraints
        refine ⟨?_, fun i hi l hl => ?_⟩
        · rw [List.length_append, a, Nat.succ_mul]
          simp [permuteColumns]
          omega
        · cases i with
          | zero =>
            refine ⟨t, columns[l], k, rfl, by simp [hl], rfl, ?_⟩
            rw [List.getElem?_append_left (by simpa [permuteColumns] using hl)]
            simp [permuteColumns, hl]
          | succ i =>
            obtain ⟨t', c', k', x1, x2, x3, x4⟩ := b i (by omega) l hl
            refine ⟨t', c', k', by simpa using x1, x2, by simpa using x3, ?_⟩
            have e : (i + 1) * columns.length + l = (permuteColumns t k j columns).length + (i * columns.length + l) := by
              rw [Nat.succ_mul]
              simp [permuteColumns]
              omega
            rw [e, List.getElem?_append_right (by omega), Nat.add_sub_cancel_left, x4]
            congr 2
            omega

/-- **C96, partial.** With as many columns as traces (and as many templates, or one), permutation makes exactly one constraint for each trace and each column, in the
order of the traces and then of the columns, with the index of the trace. For all lists. -/
theorem C96_permute_partial {τ κ : Type} {traces : List τ} {columns : List Str} {templates : List κ} {cs : List (CArgs τ κ)}
    (hl : traces.length = columns.length) (hk : templates.length ≤ columns.length)
    (h : constraintArgs false traces columns templates = .ok cs) :
    cs.length = traces.length * columns.length ∧
    ∀ i, i < traces.length → ∀ j, j < columns.length → ∃ c, cs[i * columns.length + j]? = some c ∧
      traces[i]? = some c.trace ∧ columns[j]? = some c.column ∧
      templates[if templates.length = columns.length then i else 0]? = some c.template ∧ c.traceIdx = i := by
  unfold constraintArgs at h
  split at h
  · cases h
  next e he =>
    simp only [Bool.false_eq_true, if_false, Except.ok.injEq] at h
    subst h
    obtain ⟨_, h1, h2, h3, _⟩ := expandLists_ok he
    have hn : longest traces columns templates = columns.length := by unfold longest; omega
    rw [hn] at h1 h2 h3
    by_cases h0 : columns.length = 0
    · have : e.traces = [] := List.eq_nil_of_length_eq_zero (by rw [h1.1, h0])
      rw [this, hl, h0]
      simp [permuteConstraints]
    · have ec : e.columns.length = columns.length := h2.1
      obtain ⟨a, b⟩ := permuteConstraints_spec e.columns _ e.traces e.templates 0 h1.1 h3.1
      rw [ec] at a b
      refine ⟨by rw [hl]; exact a, fun i hi j hj => ?_⟩
      obtain ⟨t, c, k, x1, x2, x3, x4⟩ := b i (by omega) j hj
      obtain ⟨t', y1, y2⟩ := h1.2 i (by omega)
      obtain ⟨c', z1, z2⟩ := h2.2 j hj
      obtain ⟨k', w1, w2⟩ := h3.2 i (by omega)
      rw [x1] at y1
      rw [x2] at z1
      rw [x3] at w1
      cases y1
      cases z1
      cases w1
      rw [if_pos hl] at y2
      rw [if_pos rfl] at z2
      exact ⟨_, x4, y2, z2, w2, by simp⟩

/-- **C96, refuted.** Two traces and one column: four constraints instead of two, each one made twice. -/
theorem C96_permute_refuted : constraintArgs false ["t0", "t1"] [cs!"a"] [()] =
    .ok [⟨"t0", cs!"a", (), 0⟩, ⟨"t0", cs!"a", (), 0⟩, ⟨"t1", cs!"a", (), 1⟩, ⟨"t1", cs!"a", (), 1⟩] := rfl

/-- **C96 (templates), refuted.** One trace and two signals: the columns are combined with the templates of other signals, and the indices
of the trace go beyond the traces given. -/
theorem C96_templates_refuted : constraintArgs false ["trace"] [cs!"frequency", cs!"load"] ["cpu_frequency", "sched_load"] =
    .ok [⟨"trace", cs!"frequency", "cpu_frequency", 0⟩, ⟨"trace", cs!"load", "cpu_frequency", 0⟩,
         ⟨"trace", cs!"frequency", "sched_load", 1⟩, ⟨"trace", cs!"load", "sched_load", 1⟩] := rfl

/-- `C96_permute_partial`: two traces, two columns -/
example : constraintArgs false ["t0", "t1"] [cs!"a", cs!"b"] [()] =
    .ok [⟨"t0", cs!"a", (), 0⟩, ⟨"t0", cs!"b", (), 0⟩, ⟨"t1", cs!"a", (), 1⟩, ⟨"t1", cs!"b", (), 1⟩] := rfl

end Trappy
