import Verif.Prop.Constraint
/-!
# C66: exactly when the series of every pivot value is the right one
-/

namespace Trappy

/-- the row passes all filters but one on the pivot -/
def OthersPass (columns : List Str) (filters : Dict (List Val)) (pivot : Str) (r : CRow) : Prop :=
  ∀ f ∈ filters, f.1 ≠ pivot → f.1 ∈ columns → ∃ v, r.cells.get f.1 = some v ∧ v ∈ f.2

theorem mark_filter {filters : Dict (List Val)} (hf : (filters.map Prod.fst).Nodup) {pivot : Str} {columns : List Str}
    {v : Val} (hw : ∀ w, filters.get pivot = some w → v ∈ w) (r : CRow) :
    (Passes columns filters r ∧ r.cells.get pivot = some v) ↔ (OthersPass columns filters pivot r ∧ r.cells.get pivot = some v) := by
  constructor
  · rintro ⟨h1, h2⟩
    exact ⟨fun f hf' _ hfc => h1 f hf' hfc, h2⟩
  · rintro ⟨h1, h2⟩
    refine ⟨fun f hf' hfc => ?_, h2⟩
    by_cases hfp : f.1 = pivot
    · exact ⟨v, hfp ▸ h2, hw f.2 (dict_mem_get hf (hfp ▸ hf'))⟩
    · exact h1 f hf' hfp hfc

theorem filter_all_of_length {α : Type} (l : List α) (p q : α → Bool) (hpq : ∀ a ∈ l, p a = true → q a = true)
    (h : (l.filter p).length = (l.filter q).length) : ∀ a ∈ l, q a = true → p a = true := by
  induction l with
  | nil => simp
  | cons a l ih =>
    have hle : (l.filter p).length ≤ (l.filter q).length := by
      rw [← List.countP_eq_length_filter, ← List.countP_eq_length_filter]
      exact List.countP_mono_left fun b hb h => hpq b (by simp [hb]) h
    have ha := hpq a (by simp)
    intro b hb hqb
    cases hp : p a <;> cases hq : q a
    · simp only [List.filter_cons, hp, hq, Bool.false_eq_true, if_false] at h
      rcases List.mem_cons.mp hb with rfl | hb
      · rw [hq] at hqb; cases hqb
      · exact ih (fun c hc => hpq c (by simp [hc])) h b hb hqb
    · simp only [List.filter_cons, hp, hq, Bool.false_eq_true, if_false, if_true, List.length_cons] at h
      omega
    · rw [ha hp] at hq; cases hq
    · simp only [List.filter_cons, hp, hq, if_true, List.length_cons, Nat.add_right_cancel_iff] at h
      rcases List.mem_cons.mp hb with rfl | hb
      · exact hp
      · exact ih (fun c hc => hpq c (by simp [hc])) h b hb hqb

/-- **C66**: the series of every pivot value consists of exactly the rows of that value that pass the filters, unless a pivot cell is the
text reserved for plots without a pivot, the filters let it through, and there is a row of another value: exactly then it is wrong. -/
theorem C66_exact {enum : List Val → List Val} (he : Enumerates enum) {pivot : Str} (hp : pivot ≠ pivotName)
    {filters : Dict (List Val)} (hf : (filters.map Prod.fst).Nodup) (column : Str) (t : CTable) :
    (∀ v s, (v, s) ∈ plotApply enum pivot filters column t →
      s = columnSeries column (t.rows.filter fun r => decide (Passes t.columns filters r ∧ r.cells.get pivot = some v))) ↔
    ¬ (column ∈ t.columns ∧ pivot ∈ t.columns ∧ (∃ r ∈ t.rows, r.cells.get pivot = some pivotMark) ∧
      (∀ w, filters.get pivot = some w → pivotMark ∈ w) ∧ ∃ r ∈ t.rows, OthersPass t.columns filters pivot r ∧ r.cells.get pivot ≠ some pivotMark) := by
  have hm : ∀ r, (filters.all fun f => plotTest pivot t.columns f r) = true ↔ OthersPass t.columns filters pivot r := fun r => plotTest_all ..
  constructor
  · rintro h ⟨hc, hpc, hr, hw, r, hr1, hr2, hr3⟩
    have hin : (pivotMark, plotSeries pivot filters column t pivotMark) ∈ plotApply enum pivot filters column t := by
      unfold plotApply
      rw [if_pos hc, if_neg hp, mem_plotLoop]
      refine ⟨(mem_pivotVals he _ _ _ _).mpr ⟨hpc, hr, hw⟩, rfl, ?_⟩
      rw [plotSeries_mark]
      intro e
      have : r ∈ t.rows.filter fun r => filters.all fun f => plotTest pivot t.columns f r := List.mem_filter.mpr ⟨hr1, (hm r).mpr hr2⟩
      rw [List.map_eq_nil_iff.mp e] at this
      cases this
    have h1 := congrArg List.length (h _ _ hin)
    rw [plotSeries_mark] at h1
    simp only [columnSeries, List.length_map] at h1
    have h2 := filter_all_of_length t.rows _ _ (fun a _ ha => (hm a).mpr ((mark_filter hf hw a).mp (of_decide_eq_true ha)).1) h1.symm r hr1 ((hm r).mpr hr2)
    exact hr3 (of_decide_eq_true h2).2
  · intro h v s hs
    by_cases hv : v = pivotMark
    · subst hv
      unfold plotApply at hs
      split at hs
      · rename_i hc
        rw [mem_plotLoop, mem_pivotVals he] at hs
        obtain ⟨⟨hpc, hr, hw⟩, rfl, _⟩ := hs
        rw [plotSeries_mark]
        congr 1
        apply List.filter_congr
        intro r hr1
        apply Bool.eq_iff_iff.2
        rw [hm, decide_eq_true_iff, mark_filter hf hw]
        refine ⟨fun h1 => ⟨h1, ?_⟩, fun h1 => h1.1⟩
        exact Decidable.byContradiction fun h2 => h ⟨hc, hpc, hr, hw, r, hr1, h1, h2⟩
      · cases hs
    · exact ((C66_series he hp hf column t hv s).mp hs).2.2.2

/-- a table with such a cell and a row of another value, and one where the filter leaves no other row -/
example : let t : CTable := ⟨[cs!"comm", cs!"x"], [⟨1, [(cs!"comm", pivotMark), (cs!"x", .int 1)]⟩, ⟨2, [(cs!"comm", .str cs!"bash"), (cs!"x", .int 2)]⟩]⟩;
    plotApply uniqVals cs!"comm" [] cs!"x" t = [(pivotMark, [(1, some (.int 1)), (2, some (.int 2))]), (.str cs!"bash", [(2, some (.int 2))])] ∧
    plotApply uniqVals cs!"comm" [(cs!"x", [.int 1])] cs!"x" t = [(pivotMark, [(1, some (.int 1))])] := by
  decide +kernel

end Trappy
