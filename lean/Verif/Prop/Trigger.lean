import Verif.Model.Stats
import Verif.Lemma.Power
/-!
# C60, C91: triggers
-/

namespace Trappy

theorem foldl_and_all {α : Type} (p : α → Bool) (l : List α) (b : Bool) : l.foldl (fun m v => m && p v) b = (b && l.all p) := by
  induction l generalizing b with
  | nil => simp
  | cons x l ih => rw [List.foldl_cons, ih]; simp [Bool.and_assoc]

/-- What the code asks of a row for one filter: a callable must hold; of a list *all* values must be equal to the cell; values for
a column that does not exist ask nothing. -/
def FilterHolds (cols : List Str) (r : Dict SCell) (k : Str) : SFilter → Prop
  | .func f => f (r.get k) = true
  | .single v => k ∈ cols → r.get k = some v
  | .many vs => k ∈ cols → ∀ v ∈ vs, r.get k = some v

theorem maskLoop_spec (cols : List Str) (r : Dict SCell) (fs : Dict SFilter) (m : Bool) (hf : funcCols cols fs = true) :
    ∃ b, maskLoop cols r fs m = .ok b ∧ (b = true ↔ m = true ∧ ∀ kf ∈ fs, FilterHolds cols r kf.1 kf.2) := by
  induction fs generalizing m with
  | nil => exact ⟨m, rfl, by simp⟩
  | cons kf fs ih =>
    obtain ⟨k, f⟩ := kf
    cases f with
    | func f =>
      simp only [funcCols, Bool.and_eq_true, decide_eq_true_eq] at hf
      obtain ⟨b, h1, h2⟩ := ih (m && SFilter.mask k (.func f) r) hf.2
      refine ⟨b, ?_, ?_⟩
      · rw [maskLoop, if_pos hf.1]; exact h1
      · rw [h2]; simp [FilterHolds, SFilter.mask, and_assoc]
    | single v =>
      simp only [funcCols] at hf
      by_cases hk : k ∈ cols
      · obtain ⟨b, h1, h2⟩ := ih (m && SFilter.mask k (.single v) r) hf
        refine ⟨b, ?_, ?_⟩
        · rw [maskLoop, if_pos hk]; exact h1; simp
        · rw [h2]; simp [FilterHolds, SFilter.mask, hk, and_assoc]
      · obtain ⟨b, h1, h2⟩ := ih m hf
        refine ⟨b, ?_, ?_⟩
        · rw [maskLoop, if_neg hk]; exact h1; simp
        · rw [h2]; simp [FilterHolds, hk]
    | many vs =>
      simp only [funcCols] at hf
      by_cases hk : k ∈ cols
      · obtain ⟨b, h1, h2⟩ := ih (m && SFilter.mask k (.many vs) r) hf
        refine ⟨b, ?_, ?_⟩
        · rw [maskLoop, if_pos hk]; exact h1; simp
        · rw [h2]
          have := foldl_and_all (fun v => decide (r.get k = some v)) vs true
          simp only [SFilter.mask, this]
          simp [FilterHolds, hk, and_assoc]
      · obtain ⟨b, h1, h2⟩ := ih m hf
        refine ⟨b, ?_, ?_⟩
        · rw [maskLoop, if_neg hk]; exact h1; simp
        · rw [h2]; simp [FilterHolds, hk]

theorem funcCols_iff (cols : List Str) (fs : Dict SFilter) : funcCols cols fs = true ↔ ∀ k f, (k, SFilter.func f) ∈ fs → k ∈ cols := by
  induction fs with
  | nil => simp [funcCols]
  | cons kf fs ih =>
    obtain ⟨k, f⟩ := kf
    cases f with
    | func f =>
      simp only [funcCols, Bool.and_eq_true, decide_eq_true_eq, ih]
      constructor
      · rintro ⟨h1, h2⟩ k' f' h
        rcases List.mem_cons.mp h with h | h
        · simp only [Prod.mk.injEq] at h; exact h.1 ▸ h1
        · exact h2 k' f' h
      · intro h
        exact ⟨h k f (by simp), fun k' f' hm => h k' f' (by simp [hm])⟩
    | single v => simp only [funcCols, ih]; simp
    | many vs => simp only [funcCols, ih]; simp

/-- **C60.** For every table, pivot value and set of filters: a trigger keeps, in order, exactly the rows of its pivot value for which all
callables hold and *all* listed values are equal to the cell. It raises KeyError exactly if the pivot column or the column of
a callable is missing. -/
theorem C60_mask (t : STrigger) (pv : SCell) :
    ((t.pivot ∈ t.table.cols ∧ ∀ k f, (k, SFilter.func f) ∈ t.filters → k ∈ t.table.cols) →
      ∃ rs, t.rows pv = .ok rs ∧ rs.Sublist t.table.rows ∧
        ∀ p : Nat × Dict SCell → Bool, (∀ r ∈ t.table.rows, p r = true ↔
            r.2.get t.pivot = some pv ∧ ∀ kf ∈ t.filters, FilterHolds t.table.cols r.2 kf.1 kf.2) → rs = t.table.rows.filter p) ∧
    (¬ (t.pivot ∈ t.table.cols ∧ ∀ k f, (k, SFilter.func f) ∈ t.filters → k ∈ t.table.cols) → t.rows pv = .error .keyError) := by
  unfold STrigger.rows
  refine ⟨?_, ?_⟩
  · rintro ⟨h1, h2⟩
    have hf := (funcCols_iff _ _).mpr h2
    rw [if_pos h1, if_pos hf]
    refine ⟨_, rfl, List.filter_sublist.trans List.filter_sublist, ?_⟩
    intro p hp
    rw [List.filter_filter]
    apply List.filter_congr
    intro r hr
    obtain ⟨b, hb1, hb2⟩ := maskLoop_spec t.table.cols r.2 t.filters true hf
    rw [hb1]
    have := hp r hr
    rw [Bool.eq_iff_iff, this]
    simp only [Bool.and_eq_true, decide_eq_true_eq, hb2, true_and]
    exact and_comm
  · intro h
    split
    · rename_i h1
      rw [if_neg]
      intro hf
      exact h ⟨h1, (funcCols_iff _ _).mp hf⟩
    · rfl

/-- What is claimed of a filter: the callable holds, or the cell is *one* of the listed values. -/
def FilterWanted (cols : List Str) (r : Dict SCell) (k : Str) : SFilter → Prop
  | .func f => f (r.get k) = true
  | .single v => k ∈ cols → r.get k = some v
  | .many vs => k ∈ cols → ∃ v ∈ vs, r.get k = some v

/-- **C60, partial**: if no list has two or more different values and none is empty, the rows are the ones wanted. -/
theorem C60_filters_partial (t : STrigger) (pv : SCell) (h1 : t.pivot ∈ t.table.cols)
    (h2 : ∀ k f, (k, SFilter.func f) ∈ t.filters → k ∈ t.table.cols)
    (h3 : ∀ k vs, (k, SFilter.many vs) ∈ t.filters → ∃ v, vs = [v]) (p : Nat × Dict SCell → Bool)
    (hp : ∀ r ∈ t.table.rows, p r = true ↔ r.2.get t.pivot = some pv ∧ ∀ kf ∈ t.filters, FilterWanted t.table.cols r.2 kf.1 kf.2) :
    t.rows pv = .ok (t.table.rows.filter p) := by
  obtain ⟨rs, hr, _, h⟩ := (C60_mask t pv).1 ⟨h1, h2⟩
  rw [hr, h p]
  intro r hr
  rw [hp r hr]
  refine and_congr_right fun _ => ?_
  constructor
  · intro h kf hk
    have := h kf hk
    obtain ⟨k, f⟩ := kf
    cases f with
    | func f => exact this
    | single v => exact this
    | many vs =>
      obtain ⟨v, rfl⟩ := h3 k vs hk
      simpa [FilterHolds, FilterWanted] using this
  · intro h kf hk
    have := h kf hk
    obtain ⟨k, f⟩ := kf
    cases f with
    | func f => exact this
    | single v => exact this
    | many vs =>
      obtain ⟨v, rfl⟩ := h3 k vs hk
      simpa [FilterHolds, FilterWanted] using this

/-- a table with three rows -/
def trigTable : STable where
  cols := [cs!"cpu", cs!"pid"]
  rows := [(1, [(cs!"cpu", .num 0), (cs!"pid", .num 7)]), (2, [(cs!"cpu", .num 0), (cs!"pid", .num 8)]),
    (3, [(cs!"cpu", .num 1), (cs!"pid", .num 7)])]

/-- **C60, refuted** for a list of two values: no row is ever selected; and for an empty list: every row is. -/
theorem C60_list_refuted :
    (∃ rs, STrigger.rows ⟨trigTable, [(cs!"pid", .many [.num 7, .num 8])], .const 1, cs!"cpu"⟩ (.num 0) = .ok rs ∧ rs.map Prod.fst = []) ∧
    (∀ t : STrigger, ∀ pv k vs a b, (k, SFilter.many vs) ∈ t.filters → a ∈ vs → b ∈ vs → a ≠ b → k ∈ t.table.cols →
      ∀ rs, t.rows pv = .ok rs → rs = []) ∧
    (∃ rs, STrigger.rows ⟨trigTable, [(cs!"pid", .many [])], .const 1, cs!"cpu"⟩ (.num 0) = .ok rs ∧ rs.map Prod.fst = [1, 2]) := by
  refine ⟨⟨_, rfl, by decide +kernel⟩, ?_, ⟨_, rfl, by decide +kernel⟩⟩
  intro t pv k vs a b hm ha hb hab hk rs hrs
  by_cases hok : t.pivot ∈ t.table.cols ∧ ∀ k f, (k, SFilter.func f) ∈ t.filters → k ∈ t.table.cols
  · obtain ⟨rs', hr, _, h⟩ := (C60_mask t pv).1 hok
    rw [hr] at hrs
    injection hrs with hrs
    subst hrs
    rw [h (fun _ => false) ?_]
    · simp
    · intro r _
      simp only [Bool.false_eq_true, false_iff, not_and]
      intro _ hall
      have := hall _ hm hk
      exact hab (Option.some.inj ((this a ha).symm.trans (this b hb)))
  · rw [(C60_mask t pv).2 hok] at hrs
    exact absurd hrs (by simp)

/-- a value and a callable, and a filter on a column the table does not have -/
example : (∃ rs, STrigger.rows ⟨trigTable, [(cs!"pid", .single (.num 7)), (cs!"prio", .single (.num 3))], .const 1, cs!"cpu"⟩ (.num 0) = .ok rs ∧
      rs.map Prod.fst = [1]) ∧
    (∃ rs, STrigger.rows ⟨trigTable, [(cs!"pid", .func fun c => c = some (.num 8))], .const 1, cs!"cpu"⟩ (.num 0) = .ok rs ∧
      rs.map Prod.fst = [2]) := by
  refine ⟨⟨_, rfl, by decide +kernel⟩, ⟨_, rfl, by decide +kernel⟩⟩

/-! ## C91 -/

/-- **C91, partial**: a trigger with a number gives that number at the time of each selected row; for every table and filters. -/
theorem C91_const_partial (t : STrigger) (pv : SCell) (q : Rat) (hv : t.value = .const q) (rs : List (Nat × Dict SCell)) (h : t.rows pv = .ok rs) :
    t.generate pv = .ok (rs.map fun r => (r.1, some (.num q))) := by
  simp [STrigger.generate, h, hv]

/-- **C91, refuted** for a trigger with the name of a column: without filters it raises UnboundLocalError, for every table that has
the pivot column; with filters, the name of the column given does not matter at all. -/
theorem C91_column_refuted :
    (∀ (t : STrigger) (pv : SCell) (c : Str), t.value = .column c → t.filters = [] → t.pivot ∈ t.table.cols →
      t.generate pv = .error .unbound) ∧
    (∀ (t : STrigger) (pv : SCell) (c d : Str), t.value = .column c → t.generate pv = ({ t with value := .column d } : STrigger).generate pv) ∧
    STrigger.generate ⟨trigTable, [(cs!"pid", .single (.num 7))], .column cs!"pid", cs!"cpu"⟩ (.num 0) = .error .keyError := by
  refine ⟨?_, ?_, by rfl⟩
  · intro t pv c hv hf hp
    have : ∃ rs, t.rows pv = .ok rs := by
      unfold STrigger.rows
      rw [if_pos hp, hf]
      exact ⟨_, rfl⟩
    obtain ⟨rs, hrs⟩ := this
    simp [STrigger.generate, hrs, hv, hf, lastFilter]
  · intro t pv c d hv
    simp only [STrigger.generate, hv]
    rfl

/-- **C91, refuted** with filters: the column given is the one whose name is the value of the last filter, whatever column was asked for. -/
theorem C91_last_filter_refuted (t : STrigger) (pv : SCell) (c : Str) (hv : t.value = .column c) (fs : Dict SFilter) (k d : Str)
    (hf : t.filters = fs ++ [(k, .single (.str d))]) (hd : d ∈ t.table.cols) (rs : List (Nat × Dict SCell)) (h : t.rows pv = .ok rs) :
    t.generate pv = .ok (rs.map fun r => (r.1, r.2.get d)) := by
  simp [STrigger.generate, h, hv, hf, lastFilter, hd]

/-- asked for the column `pid`, it gives the column `comm` -/
example : STrigger.generate ⟨⟨[cs!"cpu", cs!"pid", cs!"comm"], [(1, [(cs!"cpu", .num 0), (cs!"pid", .num 7), (cs!"comm", .str cs!"comm")])]⟩,
    [(cs!"pid", .single (.num 7)), (cs!"comm", .single (.str cs!"comm"))], .column cs!"pid", cs!"cpu"⟩ (.num 0) =
    .ok [(1, some (.str cs!"comm"))] := by rfl

example : STrigger.generate ⟨trigTable, [(cs!"pid", .single (.num 7))], .const 2, cs!"cpu"⟩ (.num 0) = .ok [(1, some (.num 2))] := by
  rfl

end Trappy
