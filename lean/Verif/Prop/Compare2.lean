import Verif.Prop.Compare
/-!
# C160: which runs `compare_runs` gets through, for the weights and for the histograms of the temperatures
-/

namespace Trappy
open Re Py

/-- the axes of a row -/
theorem rowAxes_some (n : Nat) : ∃ L, rowAxes n = some L ∧ L.length = n := by
  unfold rowAxes subplots
  by_cases h : n = 1
  · subst h; exact ⟨_, rfl, rfl⟩
  · simp [h]

theorem eachOk_all {α β : Type} {f : α → Except CmpErr β} : ∀ {l : List α} {ys : List β}, eachOk f l = .ok ys → ∀ x ∈ l, ∃ y, f x = .ok y
  | [], _, _ => fun x hx => by cases hx
  | a :: l, ys, h => by
    unfold eachOk at h
    split at h
    · cases h
    next y hy =>
      split at h
      · cases h
      next zs hz =>
        intro x hx
        rcases List.mem_cons.1 hx with rfl | hx
        · exact ⟨y, hy⟩
        · exact eachOk_all hz x hx

theorem mem_zip_right {α β : Type} : ∀ {as : List α} {bs : List β}, bs.length ≤ as.length → ∀ b ∈ bs, ∃ a, (a, b) ∈ as.zip bs
  | _, [], _ => fun b hb => by cases hb
  | [], b :: bs, h => by simp at h
  | a :: as, b :: bs, h => by
    intro c hc
    rcases List.mem_cons.1 hc with rfl | hc
    · exact ⟨a, by simp⟩
    · obtain ⟨a', h'⟩ := mem_zip_right (as := as) (bs := bs) (by simpa using h) c hc
      exact ⟨a', by simp [h']⟩

theorem forAxes_row_all {β : Type} {runs : List ThRun} {f : AxisAt → ThRun → Except CmpErr β} {l : List β}
    (h : forAxes runs (rowAxes runs.length) f = .ok l) : ∀ run ∈ runs, ∃ ax y, f ax run = .ok y := by
  intro run hr
  obtain ⟨L, e, hl⟩ := rowAxes_some runs.length
  unfold forAxes at h
  rw [e] at h
  split at h
  · cases h
  · obtain ⟨ax, ha⟩ := mem_zip_right (as := L) (bs := runs) (by omega) run hr
    exact ⟨ax, eachOk_all h (ax, run) ha⟩

theorem map_ok {α β : Type} {e : Except CmpErr α} {f : α → β} {b : β} (h : e.map f = .ok b) : ∃ a, e = .ok a ∧ f a = b := by
  cases e with
  | error _ => cases h
  | ok a => exact ⟨a, rfl, Except.ok.inj h⟩

theorem weightLoop_nil (cols : List (Str × Points)) : weightLoop (cols.zip ([] : List (Str × Val))) [] = .ok [] := by
  rw [List.zip_nil_right]
  rfl

theorem weightedFig_mixed (actors : List Str) (runs : List ThRun) (hne : actors ≠ []) (r r' : ThRun) (hr : r ∈ runs) (hr' : r' ∈ runs)
    (h : sortedWeights r.sysfs ≠ []) (h' : sortedWeights r'.sysfs = []) (fs : List CmpFig) : weightedFig actors runs ≠ .ok fs := by
  intro hok
  unfold weightedFig at hok
  have hno : (runs.all fun r => (actorWeights actors r.sysfs).isEmpty) = false := by
    rw [← Bool.not_eq_true, List.all_eq_true]
    intro hall
    have := hall r hr
    rw [List.isEmpty_iff, actorWeights, List.zip_eq_nil_iff] at this
    exact this.elim hne h
  rw [hno] at hok
  simp only [Bool.false_eq_true, if_false] at hok
  obtain ⟨l, hl, _⟩ := map_ok hok
  obtain ⟨ax, y, hy⟩ := forAxes_row_all hl r' hr'
  unfold weightedOf actorWeights at hy
  rw [h', List.zip_nil_right, weightLoop_nil] at hy
  cases hy

theorem runSteps_until (ss ts : List (Except CmpErr (List CmpFig))) (s : Except CmpErr (List CmpFig)) (h : ∀ fs, s ≠ .ok fs) :
    (runSteps (ss ++ s :: ts)).2 ≠ none ∧ ∀ f ∈ (runSteps (ss ++ s :: ts)).1, ∃ fs, Except.ok fs ∈ ss ∧ f ∈ fs := by
  induction ss with
  | nil =>
    cases s with
    | ok fs => exact absurd rfl (h fs)
    | error e => exact ⟨by simp [runSteps], fun f hf => by simp [runSteps] at hf⟩
  | cons a ss ih =>
    cases a with
    | error e => exact ⟨by simp [runSteps], fun f hf => by simp [runSteps] at hf⟩
    | ok fs =>
      refine ⟨ih.1, fun f hf => ?_⟩
      simp only [List.cons_append, runSteps, List.mem_append] at hf
      rcases hf with hf | hf
      · exact ⟨fs, by simp, hf⟩
      · obtain ⟨gs, h1, h2⟩ := ih.2 f hf
        exact ⟨gs, by simp [h1], h2⟩

/-- **Specification**: figures that come after the weighted power -/
def CmpFig.Late : CmpFig → Prop
  | .weightedPower _ => True
  | .outputPower _ => True
  | .freqHists _ => True
  | .tempHist _ => True
  | _ => False

/-- **C160 refuted** when the weights of only some runs are known, whatever else the runs and the arguments are: `compare_runs` raises, and
neither the weighted power nor the output power nor any histogram is drawn. -/
theorem C160_weights_refuted (sort : Bool) (a : CmpArgs) (runs : List ThRun) (hne : a.actors ≠ []) (r r' : ThRun) (hr : r ∈ runs) (hr' : r' ∈ runs)
    (h : sortedWeights r.sysfs ≠ []) (h' : sortedWeights r'.sysfs = []) :
    (compareRuns sort a runs).2 ≠ none ∧ ∀ f ∈ (compareRuns sort a runs).1, ¬ f.Late := by
  unfold compareRuns
  split
  · exact ⟨by simp, fun f hf => by simp at hf⟩
  · have := runSteps_until
      [if a.other then .error .keyword else temperatureFig a.tz runs,
       if a.ylim then .error .keyword else loadFig sort a.labels runs,
       freqsFig a.labels runs, controllerFig runs, powerFig cs!"req_power" .inputPower a.actors runs]
      [powerFig cs!"granted_power" .outputPower a.actors runs, freqHistsFig sort a.labels runs, tempHistFig runs]
      (weightedFig a.actors runs) (weightedFig_mixed a.actors runs hne r r' hr hr' h h')
    refine ⟨this.1, fun f hf => ?_⟩
    obtain ⟨fs, h1, h2⟩ := this.2 f hf
    simp only [List.mem_cons, List.not_mem_nil, or_false] at h1
    rcases h1 with h1 | h1 | h1 | h1 | h1
    · split at h1
      · cases h1
      · unfold temperatureFig at h1
        split at h1
        · cases h1
        · cases h1
          simp only [List.mem_singleton] at h2
          subst h2
          exact id
    · split at h1
      · cases h1
      · obtain ⟨l, _, e⟩ := map_ok h1.symm
        subst e
        simp only [List.mem_singleton] at h2
        subst h2
        exact id
    all_goals
      obtain ⟨l, _, e⟩ := map_ok h1.symm
      subst e
      simp only [List.mem_singleton] at h2
      subst h2
      exact id

/-- the same two runs with and without weights -/
example : let run := { exCmpRun with sysfs := [(cs!"cdev1_weight", .int 2048), (cs!"cdev0_weight", .int 1024)] };
    sortedWeights run.sysfs ≠ [] ∧ sortedWeights exCmpRun'.sysfs = [] ∧ (compareRuns true exCmpArgs [run, exCmpRun']).1.length = 5 := by decide +kernel

/-! ## Histograms of the temperatures -/

theorem eachOk_iff {α β : Type} (f : α → Except CmpErr β) (l : List α) : (∃ ys, eachOk f l = .ok ys) ↔ ∀ x ∈ l, ∃ y, f x = .ok y := by
  constructor
  · rintro ⟨ys, h⟩
    exact eachOk_all h
  · intro h
    obtain ⟨ys, e, _⟩ := eachOk_forall₂ (f := f) (P := fun _ _ => True) (l := l) fun x hx => by
      obtain ⟨y, hy⟩ := h x hx
      exact ⟨y, hy, trivial⟩
    exact ⟨ys, e⟩

/-- as many of the first as there are in all: those that are come first -/
theorem firsts_iff {α : Type} (P : α → Prop) [DecidablePred P] (l : List α) :
    (∀ x ∈ l.take (l.filter fun x => decide (P x)).length, P x) ↔
      ∃ pre post, l = pre ++ post ∧ (∀ x ∈ pre, P x) ∧ ∀ x ∈ post, ¬ P x := by
  constructor
  · intro h
    refine ⟨l.take (l.filter fun x => decide (P x)).length, l.drop (l.filter fun x => decide (P x)).length, (List.take_append_drop _ _).symm, h, ?_⟩
    have hlen : (l.filter fun x => decide (P x)).length =
        ((l.take (l.filter fun x => decide (P x)).length).filter fun x => decide (P x)).length +
        ((l.drop (l.filter fun x => decide (P x)).length).filter fun x => decide (P x)).length := by
      rw [← List.length_append, ← List.filter_append, List.take_append_drop]
    have hall : (l.take (l.filter fun x => decide (P x)).length).filter (fun x => decide (P x)) = l.take (l.filter fun x => decide (P x)).length := by
      rw [List.filter_eq_self]
      exact fun x hx => decide_eq_true (h x hx)
    rw [hall, List.length_take, Nat.min_eq_left (List.length_filter_le _ _)] at hlen
    have hz : ((l.drop (l.filter fun x => decide (P x)).length).filter fun x => decide (P x)) = [] :=
      List.eq_nil_of_length_eq_zero (by omega)
    intro x hx hp
    have := List.filter_eq_nil_iff.1 hz x hx
    exact this (decide_eq_true hp)
  · rintro ⟨pre, post, rfl, h1, h2⟩
    have e1 : pre.filter (fun x => decide (P x)) = pre := List.filter_eq_self.2 fun x hx => decide_eq_true (h1 x hx)
    have e2 : post.filter (fun x => decide (P x)) = [] := List.filter_eq_nil_iff.2 fun x hx h => h2 x hx (of_decide_eq_true h)
    rw [List.filter_append, e1, e2, List.append_nil, List.take_left']
    · exact h1
    · rfl

theorem zip_all_right {α β : Type} {P : β → Prop} : ∀ (as : List α) (bs : List β), (∀ x ∈ as.zip bs, P x.2) ↔ ∀ b ∈ bs.take as.length, P b
  | [], bs => by simp
  | a :: as, [] => by simp
  | a :: as, b :: bs => by
    have := zip_all_right (P := P) as bs
    simp only [List.zip_cons_cons, List.mem_cons, List.length_cons, List.take_succ_cons, forall_eq_or_imp, this]

/-- **C160 (exactly, histograms of the temperatures).** If some run has temperatures: the histograms are drawn without an exception if and
only if the runs with temperatures come before those without. -/
theorem C160_temp_hist_exact (runs : List ThRun) (hne : ∃ r ∈ runs, r.temp.thermal ≠ []) :
    (∃ fs, tempHistFig runs = .ok fs) ↔
      ∃ pre post, runs = pre ++ post ∧ (∀ r ∈ pre, r.temp.thermal ≠ []) ∧ ∀ r ∈ post, r.temp.thermal = [] := by
  obtain ⟨r₀, hr₀, ht₀⟩ := hne
  have hpos : (runs.filter fun r => decide (r.temp.thermal ≠ [])).length ≠ 0 := by
    intro h
    have := List.filter_eq_nil_iff.1 (List.eq_nil_of_length_eq_zero h) r₀ hr₀
    exact this (decide_eq_true ht₀)
  have hruns : runs ≠ [] := List.ne_nil_of_mem hr₀
  obtain ⟨L, e, hl⟩ := rowAxes_some (runs.filter fun r : ThRun => decide (r.temp.thermal ≠ [])).length
  have hiff : (∃ fs, tempHistFig runs = .ok fs) ↔ ∃ ys, eachOk (fun x : AxisAt × ThRun => tempHistOf x.1 x.2) (L.zip runs) = .ok ys := by
    unfold tempHistFig
    simp only [if_neg hpos]
    unfold forAxes
    rw [if_neg hruns, e]
    simp only
    constructor
    · rintro ⟨fs, h⟩
      obtain ⟨ys, hy, _⟩ := map_ok h
      exact ⟨ys, hy⟩
    · rintro ⟨ys, h⟩
      rw [h]
      exact ⟨_, rfl⟩
  rw [hiff, eachOk_iff]
  have h1 : ∀ x : AxisAt × ThRun, (∃ y, tempHistOf x.1 x.2 = .ok y) ↔ x.2.temp.thermal ≠ [] := by
    intro x
    unfold tempHistOf
    split
    next h => simp [h]
    next h => simp [h]
  have h2 : (∀ x ∈ L.zip runs, ∃ y, tempHistOf x.1 x.2 = .ok y) ↔ ∀ x ∈ L.zip runs, x.2.temp.thermal ≠ [] :=
    forall₂_congr fun x _ => h1 x
  rw [h2, zip_all_right (P := fun r : ThRun => r.temp.thermal ≠ []), hl, firsts_iff (fun r : ThRun => r.temp.thermal ≠ [])]
  simp only [ne_eq, not_not]

/-- a run without temperatures after and before one with them -/
example : let run := { exCmpRun with temp := ⟨exTempRun.gov, []⟩ };
    (tempHistFig [exCmpRun', run]).toOption.isSome = true ∧ (tempHistFig [run, exCmpRun']).toOption.isSome = false := by decide +kernel

end Trappy
