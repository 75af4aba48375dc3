import Verif.Model.ViewSave
import Verif.Prop.StaticPlot
import Mathlib.Data.List.Induction
/-!
# C168: showing and saving static plots
-/

namespace Trappy

/-- **Specification**: there is something to draw on: a place in each line, and a pivot value, or a constraint if the lines are concatenated, or a pivot value of some trace if they are permuted -/
def HasAxes (a : SPlotArgs) : Prop :=
  a.perLine ≠ 0 ∧ (a.mode = .plain → a.pivots ≠ []) ∧ (a.mode = .concat → a.cs ≠ []) ∧ (a.mode = .permute → a.pivots ≠ [] ∧ a.nTraces ≠ 0)

theorem hasAxes_num (a : SPlotArgs) : HasAxes a ↔ a.num ≠ 0 ∧ a.perLine ≠ 0 := by
  unfold HasAxes SPlotArgs.num
  cases a.mode
  · simp [and_comm]
  · simp [and_comm]
  · simp [and_comm, Nat.mul_eq_zero]

/-- **Specification**: the figure of plot `i` after some calls: that of its last `view`, or of its first `savefig` if it is never viewed. `before` are the calls up to that one.
It has the style if the plot has it or was viewed as a test before, and it is interactive unless a plot was viewed as a test before. -/
def FigureOf (n : Nat) (ops : List SOp) (i : Nat) (a : SPlotArgs) (s : Bool) (f : SFig) : Prop :=
  ∃ pre op post, ops = pre ++ op :: post ∧
    ((∃ t, op = .view i t) ∧ (∀ t, .view i t ∉ post) ∨ op = .save i ∧ (∀ t, .view i t ∉ ops) ∧ .save i ∉ pre) ∧
    f.drawn = a.drawn ∧
    (∀ b, f.interactive = some b ↔ (s = true ∨ .view i true ∈ pre ++ [op]) ∧ (b = true ↔ ¬ ∃ k < n, .view k true ∈ pre ++ [op]))

/-- what is known of the world after some calls -/
structure SInv (plots : List (SPlotArgs × Bool)) (ops : List SOp) (w : SWorld) : Prop where
  len : w.plots.length = plots.length
  inter : w.interactive = true ↔ ¬ ∃ k < plots.length, .view k true ∈ ops
  plot : ∀ i a s, plots[i]? = some (a, s) → ∃ p, w.plots[i]? = some p ∧ p.args = a ∧ (p.style = true ↔ s = true ∨ .view i true ∈ ops) ∧
    (p.fig = none ↔ ¬ HasAxes a ∨ (∀ t, .view i t ∉ ops) ∧ .save i ∉ ops) ∧ ∀ f, p.fig = some f → FigureOf plots.length ops i a s f

theorem mkLayout_axes (a : SPlotArgs) : HasAxes a ↔ ∃ l, mkLayout a.perLine a.num = .ok l := by
  rw [hasAxes_num]
  unfold mkLayout
  by_cases h1 : a.num = 0
  · simp [h1]
  · by_cases h2 : a.perLine = 0
    · simp [h1, h2]
    · have : ¬ (if a.num < a.perLine then a.num else a.perLine) = 0 := by split <;> assumption
      simp only [h1, h2, this, if_false, ne_eq, not_false_eq_true, and_self, true_iff]
      exact ⟨_, rfl⟩

theorem resolvePlot_axes {p : SPlot} (h : HasAxes p.args) (b : Bool) :
    (resolvePlot b p).1 = { p with fig := some ⟨p.args.drawn, if p.style then some b else none⟩ } ∧ ∀ e, (resolvePlot b p).2 = some e ↔ p.args.drawn = .error e := by
  obtain ⟨l, hl⟩ := (mkLayout_axes _).1 h
  unfold resolvePlot
  rw [hl]
  refine ⟨rfl, fun e => ?_⟩
  cases p.args.drawn with
  | ok d => simp
  | error e' => simp

theorem resolvePlot_no {p : SPlot} (h : ¬ HasAxes p.args) (b : Bool) : ∃ e, mkLayout p.args.perLine p.args.num = .error e ∧ resolvePlot b p = (p, some (.layout e)) := by
  cases hl : mkLayout p.args.perLine p.args.num with
  | ok l => exact absurd ((mkLayout_axes _).2 ⟨l, hl⟩) h
  | error e =>
    refine ⟨e, rfl, ?_⟩
    unfold resolvePlot
    rw [hl]

/-- calls that do not concern a figure leave it the figure -/
theorem FigureOf.snoc {n : Nat} {ops : List SOp} {i : Nat} {a : SPlotArgs} {s : Bool} {f : SFig} (h : FigureOf n ops i a s f) {o : SOp} (ho : ∀ t, o ≠ .view i t) : FigureOf n (ops ++ [o]) i a s f := by
  obtain ⟨pre, op, post, rfl, h1, h2, h3⟩ := h
  refine ⟨pre, op, post ++ [o], by simp, ?_, h2, h3⟩
  rcases h1 with ⟨h, h'⟩ | ⟨h, h', h''⟩
  · left
    refine ⟨h, fun t hm => ?_⟩
    rcases List.mem_append.1 hm with hm | hm
    · exact h' t hm
    · exact ho t (List.mem_singleton.1 hm).symm
  · right
    refine ⟨h, fun t hm => ?_, h''⟩
    rcases List.mem_append.1 hm with hm | hm
    · exact h' t hm
    · exact ho t (List.mem_singleton.1 hm).symm

theorem sInv_other {plots : List (SPlotArgs × Bool)} {ops : List SOp} {w : SWorld} (h : SInv plots ops w) {o : SOp} {i : Nat} {a : SPlotArgs} {s : Bool} (hi : plots[i]? = some (a, s))
    (hv : ∀ t, o ≠ .view i t) (hs : o ≠ .save i) : ∃ p, w.plots[i]? = some p ∧ p.args = a ∧ (p.style = true ↔ s = true ∨ .view i true ∈ ops ++ [o]) ∧
    (p.fig = none ↔ ¬ HasAxes a ∨ (∀ t, .view i t ∉ ops ++ [o]) ∧ .save i ∉ ops ++ [o]) ∧ ∀ f, p.fig = some f → FigureOf plots.length (ops ++ [o]) i a s f := by
  obtain ⟨p, h1, h2, h3, h4, h5⟩ := h.plot i a s hi
  refine ⟨p, h1, h2, ?_, ?_, fun f hf => (h5 f hf).snoc hv⟩
  · rw [h3]
    simp [Ne.symm (hv true)]
  · rw [h4]
    have e1 : ∀ t, (SOp.view i t ∉ ops ++ [o] ↔ SOp.view i t ∉ ops) := fun t => by simp [Ne.symm (hv t)]
    have e2 : SOp.save i ∉ ops ++ [o] ↔ SOp.save i ∉ ops := by simp [Ne.symm hs]
    simp only [e1, e2]

theorem bool_eq_iff_iff (x b : Bool) : x = b ↔ (b = true ↔ x = true) := by cases x <;> cases b <;> simp

theorem sInv_view {plots : List (SPlotArgs × Bool)} {ops : List SOp} {w : SWorld} (h : SInv plots ops w) (i : Nat) (test : Bool) : SInv plots (ops ++ [.view i test]) (sStep w (.view i test)).1 := by
  by_cases hi : i < plots.length
  · obtain ⟨p, hp1, hp2, hp3, hp4, hp5⟩ := h.plot i plots[i].1 plots[i].2 (by simp [hi])
    have hw : i < w.plots.length := by rw [h.len]; exact hi
    have e : (sStep w (.view i test)).1 = ⟨w.plots.set i (viewStatic test w.interactive p).1, (viewStatic test w.interactive p).2.1⟩ := by
      simp only [sStep, hp1]
    have hinter : (viewStatic test w.interactive p).2.1 = true ↔ ¬ ∃ k < plots.length, .view k true ∈ ops ++ [.view i test] := by
      cases test with
      | true =>
        simp only [viewStatic, if_true, Bool.false_eq_true, false_iff, not_not]
        exact ⟨i, hi, by simp⟩
      | false =>
        simp only [viewStatic, Bool.false_eq_true, if_false, h.inter]
        simp
    refine ⟨by rw [e]; simp [h.len], by rw [e]; exact hinter, ?_⟩
    intro k a s hk
    rw [e]
    by_cases hki : k = i
    · subst hki
      have hka : plots[k] = (a, s) := by
        rw [List.getElem?_eq_getElem hi] at hk
        exact Option.some.inj hk
      rw [hka] at hp2 hp3 hp4 hp5
      simp only at hp2 hp3 hp4 hp5
      refine ⟨_, List.getElem?_set_self hw, ?_⟩
      -- the plot with its style
      have hstyle : ∀ q : SPlot, q = (if test then { p with style := true } else p) → q.args = a ∧ (q.style = true ↔ s = true ∨ .view k true ∈ ops ++ [.view k test]) ∧ q.fig = p.fig := by
        rintro q rfl
        cases test with
        | true => simp [hp2]
        | false => simp [hp2, hp3]
      generalize hq : (if test then { p with style := true } else p) = q at hstyle
      obtain ⟨q1, q2, q3⟩ := hstyle q rfl
      have ev : (viewStatic test w.interactive p).1 = (resolvePlot (if test then false else w.interactive) q).1 := by
        simp only [viewStatic, hq]
      have eb : (viewStatic test w.interactive p).2.1 = (if test then false else w.interactive) := rfl
      rw [eb] at hinter
      rw [ev]
      by_cases ha : HasAxes a
      · rw [(resolvePlot_axes (by rw [q1]; exact ha) _).1]
        refine ⟨q1, q2, ?_, ?_⟩
        · simp only [reduceCtorEq, false_iff]
          rintro (h' | ⟨h', _⟩)
          · exact h' ha
          · exact h' test (by simp)
        · intro f hf
          simp only [Option.some.injEq] at hf
          subst hf
          refine ⟨ops, .view k test, [], rfl, Or.inl ⟨⟨test, rfl⟩, by simp⟩, by simp [q1], ?_⟩
          intro b
          simp only [← q2, ← hinter]
          by_cases hs : q.style = true
          · simp only [hs, if_true, Option.some.injEq, true_and]
            exact bool_eq_iff_iff _ b
          · simp [hs]
      · obtain ⟨e', _, he⟩ := resolvePlot_no (p := q) (by rw [q1]; exact ha) (if test then false else w.interactive)
        rw [he]
        refine ⟨q1, q2, ?_, ?_⟩
        · rw [q3, hp4]
          simp [ha]
        · intro f hf
          simp only [q3] at hf
          rw [hp4.2 (Or.inl ha)] at hf
          cases hf
    · obtain ⟨p', h1, h2⟩ := sInv_other h (o := .view i test) hk (fun t ht => hki (by injection ht with h1; exact h1.symm)) (by simp)
      refine ⟨p', ?_, h2⟩
      simp only [List.getElem?_set_ne (Ne.symm hki)]
      exact h1
  · have hw : w.plots[i]? = none := by
      rw [List.getElem?_eq_none_iff, h.len]
      omega
    have e : (sStep w (.view i test)).1 = w := by simp only [sStep, hw]
    rw [e]
    refine ⟨h.len, ?_, ?_⟩
    · rw [h.inter]
      constructor
      · rintro h' ⟨k, hk, hm⟩
        rcases List.mem_append.1 hm with hm | hm
        · exact h' ⟨k, hk, hm⟩
        · simp only [List.mem_singleton, SOp.view.injEq] at hm
          omega
      · rintro h' ⟨k, hk, hm⟩
        exact h' ⟨k, hk, by simp [hm]⟩
    · intro k a s hk
      have hki : k ≠ i := by
        rintro rfl
        exact hi (List.getElem?_eq_some_iff.1 hk).1
      exact sInv_other h hk (fun t ht => hki (by injection ht with h1; exact h1.symm)) (by simp)

theorem sInv_save {plots : List (SPlotArgs × Bool)} {ops : List SOp} {w : SWorld} (h : SInv plots ops w) (i : Nat) : SInv plots (ops ++ [.save i]) (sStep w (.save i)).1 := by
  have hinter : w.interactive = true ↔ ¬ ∃ k < plots.length, .view k true ∈ ops ++ [.save i] := by
    rw [h.inter]
    simp
  by_cases hi : i < plots.length
  · obtain ⟨p, hp1, hp2, hp3, hp4, hp5⟩ := h.plot i plots[i].1 plots[i].2 (by simp [hi])
    have hw : i < w.plots.length := by rw [h.len]; exact hi
    cases hf : p.fig with
    | some f =>
      have e : (sStep w (.save i)).1 = w := by simp only [sStep, hp1, hf]
      rw [e]
      refine ⟨h.len, hinter, ?_⟩
      intro k a s hk
      by_cases hki : k = i
      · subst hki
        have hka : plots[k] = (a, s) := by
          rw [List.getElem?_eq_getElem hi] at hk
          exact Option.some.inj hk
        rw [hka] at hp2 hp3 hp4 hp5
        simp only at hp2 hp3 hp4 hp5
        refine ⟨p, hp1, hp2, ?_, ?_, fun f' hf' => (hp5 f' hf').snoc (by simp)⟩
        · rw [hp3]; simp
        · rw [hf]
          simp only [reduceCtorEq, false_iff]
          rw [hf] at hp4
          simp only [reduceCtorEq, false_iff] at hp4
          rintro (h' | ⟨_, h'⟩)
          · exact hp4 (Or.inl h')
          · exact h' (by simp)
      · exact sInv_other h hk (by simp) (fun hc => hki (by injection hc with h1; exact h1.symm))
    | none =>
      have e : (sStep w (.save i)).1 = ⟨w.plots.set i (resolvePlot w.interactive p).1, w.interactive⟩ := by
        simp only [sStep, hp1, hf, viewStatic, Bool.false_eq_true, if_false]
      rw [e]
      refine ⟨by simp [h.len], hinter, ?_⟩
      intro k a s hk
      by_cases hki : k = i
      · subst hki
        have hka : plots[k] = (a, s) := by
          rw [List.getElem?_eq_getElem hi] at hk
          exact Option.some.inj hk
        rw [hka] at hp2 hp3 hp4 hp5
        simp only at hp2 hp3 hp4 hp5
        refine ⟨_, List.getElem?_set_self hw, ?_⟩
        have hst : p.style = true ↔ s = true ∨ .view k true ∈ ops ++ [.save k] := by rw [hp3]; simp
        by_cases ha : HasAxes a
        · rw [(resolvePlot_axes (by rw [hp2]; exact ha) _).1]
          refine ⟨hp2, hst, ?_, ?_⟩
          · simp only [reduceCtorEq, false_iff]
            rintro (h' | ⟨_, h'⟩)
            · exact h' ha
            · exact h' (by simp)
          · intro f hf'
            simp only [Option.some.injEq] at hf'
            subst hf'
            rcases hp4.1 hf with h' | ⟨h1, h2⟩
            · exact absurd ha h'
            · refine ⟨ops, .save k, [], rfl, Or.inr ⟨rfl, by simpa using h1, h2⟩, by simp [hp2], ?_⟩
              intro b
              simp only [← hst, ← hinter]
              by_cases hs : p.style = true
              · simp only [hs, if_true, Option.some.injEq, true_and]
                exact bool_eq_iff_iff _ b
              · simp [hs]
        · obtain ⟨e', _, he⟩ := resolvePlot_no (p := p) (by rw [hp2]; exact ha) w.interactive
          rw [he]
          refine ⟨hp2, hst, ?_, ?_⟩
          · simp [hf, ha]
          · intro f hf'
            simp only [hf] at hf'
            cases hf'
      · obtain ⟨p', h1, h2⟩ := sInv_other h (o := .save i) hk (by simp) (fun hc => hki (by injection hc with h1; exact h1.symm))
        refine ⟨p', ?_, h2⟩
        simp only [List.getElem?_set_ne (Ne.symm hki)]
        exact h1
  · have hw : w.plots[i]? = none := by
      rw [List.getElem?_eq_none_iff, h.len]
      omega
    have e : (sStep w (.save i)).1 = w := by simp only [sStep, hw]
    rw [e]
    refine ⟨h.len, hinter, ?_⟩
    intro k a s hk
    have hki : k ≠ i := by
      rintro rfl
      exact hi (List.getElem?_eq_some_iff.1 hk).1
    exact sInv_other h hk (by simp) (fun hc => hki (by injection hc with h1; exact h1.symm))

theorem sInv_run (plots : List (SPlotArgs × Bool)) (ops : List SOp) : SInv plots ops (sRun (sNew plots) ops) := by
  induction ops using List.reverseRecOn with
  | nil =>
    refine ⟨by simp [sRun, sNew], by simp [sRun, sNew], ?_⟩
    intro i a s hi
    refine ⟨⟨a, s, none⟩, by simp [sRun, sNew, hi], rfl, by simp, by simp, by simp⟩
  | append_singleton ops o ih =>
    have e : sRun (sNew plots) (ops ++ [o]) = (sStep (sRun (sNew plots) ops) o).1 := by simp [sRun]
    rw [e]
    cases o with
    | view i t => exact sInv_view ih i t
    | save i => exact sInv_save ih i

/-- **C168 (view).** A call of `view` after any other calls returns exactly if there is something to draw on and the drawing succeeds; else it raises that error. -/
theorem C168_view (plots : List (SPlotArgs × Bool)) (ops : List SOp) (i : Nat) (a : SPlotArgs) (s test : Bool) (hi : plots[i]? = some (a, s)) :
    ((sStep (sRun (sNew plots) ops) (.view i test)).2 = .shown ↔ HasAxes a ∧ ∃ d, a.drawn = .ok d) ∧
    ∀ e, HasAxes a → ((sStep (sRun (sNew plots) ops) (.view i test)).2 = .raised e ↔ a.drawn = .error e) := by
  obtain ⟨p, hp1, hp2, _⟩ := (sInv_run plots ops).plot i a s hi
  generalize sRun (sNew plots) ops = w at hp1 ⊢
  obtain ⟨q, hq, hr⟩ : ∃ q : SPlot, q.args = a ∧ (viewStatic test w.interactive p).2.2 = (resolvePlot (if test then false else w.interactive) q).2 :=
    ⟨if test then { p with style := true } else p, by cases test <;> simp [hp2], rfl⟩
  have e : (sStep w (.view i test)).2 = match (resolvePlot (if test then false else w.interactive) q).2 with | some e => .raised e | none => .shown := by
    simp only [sStep, hp1, hr]
    cases (resolvePlot (if test then false else w.interactive) q).2 <;> rfl
  rw [e]
  by_cases ha : HasAxes a
  · have hx := (resolvePlot_axes (p := q) (by rw [hq]; exact ha) (if test then false else w.interactive)).2
    rw [hq] at hx
    cases hd : a.drawn with
    | ok d =>
      have : (resolvePlot (if test then false else w.interactive) q).2 = none := by
        cases h : (resolvePlot (if test then false else w.interactive) q).2 with
        | none => rfl
        | some e => have := (hx e).1 h; rw [hd] at this; cases this
      rw [this]
      simp [ha]
    | error e' =>
      rw [(hx e').2 hd]
      simp [ha]
  · obtain ⟨e', _, he⟩ := resolvePlot_no (p := q) (by rw [hq]; exact ha) (if test then false else w.interactive)
    rw [he]
    simp [ha]

/-- **C168 (partial).** If the drawing succeeds, `savefig` after any other calls writes the complete figure, with the style and the interaction that the last `view` of the plot had, or the first `savefig` if there is none.
For all plots and all sequences of calls. -/
theorem C168_saved_partial (plots : List (SPlotArgs × Bool)) (ops : List SOp) (i : Nat) (a : SPlotArgs) (s : Bool) (hi : plots[i]? = some (a, s)) (ha : HasAxes a) (d : List DrawnAxis × List (Option Str))
    (hd : a.drawn = .ok d) : ∃ f, (sStep (sRun (sNew plots) ops) (.save i)).2 = .saved f ∧ f.drawn = .ok d ∧ FigureOf plots.length (ops ++ [.save i]) i a s f := by
  obtain ⟨p, hp1, hp2, _⟩ := (sInv_run plots ops).plot i a s hi
  have hnext := (sInv_save (sInv_run plots ops) i).plot i a s hi
  generalize sRun (sNew plots) ops = w at hp1 hnext ⊢
  obtain ⟨p', hp1', _, _, _, h5⟩ := hnext
  have hw : i < w.plots.length := (List.getElem?_eq_some_iff.1 hp1).1
  cases hf : p.fig with
  | some f =>
    have e : sStep w (.save i) = (w, .saved f) := by simp only [sStep, hp1, hf]
    rw [e] at hp1' ⊢
    rw [hp1] at hp1'
    cases hp1'
    have hF := h5 f hf
    obtain ⟨_, _, _, _, _, hfd, _⟩ := id hF
    exact ⟨f, rfl, hfd.trans hd, hF⟩
  | none =>
    obtain ⟨r1, r2⟩ := resolvePlot_axes (p := p) (by rw [hp2]; exact ha) w.interactive
    have hno : (resolvePlot w.interactive p).2 = none := by
      cases h : (resolvePlot w.interactive p).2 with
      | none => rfl
      | some e => have := (r2 e).1 h; rw [hp2, hd] at this; cases this
    have e : sStep w (.save i) = (⟨w.plots.set i (resolvePlot w.interactive p).1, w.interactive⟩, .saved ⟨p.args.drawn, if p.style then some w.interactive else none⟩) := by
      simp only [sStep, hp1, hf, viewStatic, Bool.false_eq_true, if_false, hno, r1]
    rw [e] at hp1' ⊢
    simp only [List.getElem?_set_self hw, Option.some.injEq] at hp1'
    have hF := h5 _ (by rw [← hp1', r1])
    exact ⟨_, rfl, by rw [← hd, hp2], hF⟩

/-- **C168 (refuted, half a figure).** If the drawing stops with an error, the first `view` or `savefig` raises it; but each `savefig` after that writes the figure as far as it was drawn, without an error. -/
theorem C168_half_refuted (plots : List (SPlotArgs × Bool)) (ops : List SOp) (i : Nat) (a : SPlotArgs) (s : Bool) (hi : plots[i]? = some (a, s)) (ha : HasAxes a) (e : DErr) (hd : a.drawn = .error e)
    (hop : .save i ∈ ops ∨ ∃ t, .view i t ∈ ops) : ∃ f, (sStep (sRun (sNew plots) ops) (.save i)).2 = .saved f ∧ f.drawn = .error e := by
  obtain ⟨p, hp1, hp2, _, hp4, hp5⟩ := (sInv_run plots ops).plot i a s hi
  cases hf : p.fig with
  | some f =>
    obtain ⟨_, _, _, _, _, hfd, _⟩ := hp5 f hf
    refine ⟨f, by simp only [sStep, hp1, hf], hfd.trans hd⟩
  | none =>
    exfalso
    rcases hp4.1 hf with h | ⟨h1, h2⟩
    · exact h ha
    · rcases hop with h | ⟨t, h⟩
      · exact h2 h
      · exact h1 t h

/-- **C168 (first call).** If the drawing stops with an error, `savefig` raises it if the plot was neither shown nor saved before. -/
theorem C168_first (plots : List (SPlotArgs × Bool)) (ops : List SOp) (i : Nat) (a : SPlotArgs) (s : Bool) (hi : plots[i]? = some (a, s)) (ha : HasAxes a) (e : DErr) (hd : a.drawn = .error e)
    (h1 : .save i ∉ ops) (h2 : ∀ t, .view i t ∉ ops) : (sStep (sRun (sNew plots) ops) (.save i)).2 = .raised e := by
  obtain ⟨p, hp1, hp2, _, hp4, _⟩ := (sInv_run plots ops).plot i a s hi
  have hf := hp4.2 (Or.inr ⟨h2, h1⟩)
  have hr := ((resolvePlot_axes (p := p) (by rw [hp2]; exact ha) (sRun (sNew plots) ops).interactive).2 e).2 (by rw [hp2]; exact hd)
  simp only [sStep, hp1, hf, viewStatic, Bool.false_eq_true, if_false, hr]

/-- **C168 (no axes).** If there is nothing to draw on, every call raises an error and there is never a figure. -/
theorem C168_none (plots : List (SPlotArgs × Bool)) (ops : List SOp) (i : Nat) (a : SPlotArgs) (s : Bool) (hi : plots[i]? = some (a, s)) (ha : ¬ HasAxes a) :
    ∃ e, (sStep (sRun (sNew plots) ops) (.save i)).2 = .raised (.layout e) ∧ ∀ t, (sStep (sRun (sNew plots) ops) (.view i t)).2 = .raised (.layout e) := by
  obtain ⟨p, hp1, hp2, _, hp4, _⟩ := (sInv_run plots ops).plot i a s hi
  have hf := hp4.2 (Or.inl ha)
  obtain ⟨e, hl, _⟩ := resolvePlot_no (p := p) (by rw [hp2]; exact ha) true
  refine ⟨e, ?_, fun t => ?_⟩
  · simp only [sStep, hp1, hf, viewStatic, resolvePlot, Bool.false_eq_true, if_false, hl]
  · cases t <;> simp only [sStep, hp1, viewStatic, resolvePlot, Bool.false_eq_true, if_false, if_true, hl]

/-- **C168 (refuted, tests).** After `view(test=True)` of any plot, no figure drawn from then on is interactive, whatever plot it is of. For all calls before and after. -/
theorem C168_test_refuted (plots : List (SPlotArgs × Bool)) (ops₁ ops₂ : List SOp) (k : Nat) (hk : k < plots.length) :
    (sRun (sNew plots) (ops₁ ++ .view k true :: ops₂)).interactive = false := by
  have h := (sInv_run plots (ops₁ ++ .view k true :: ops₂)).inter
  cases hb : (sRun (sNew plots) (ops₁ ++ .view k true :: ops₂)).interactive with
  | false => rfl
  | true => exact absurd ⟨k, hk, by simp⟩ (h.1 hb)

/-- three plots: one that is complete, one that stops with `IndexError`, and one with nothing to draw on; the first one without style -/
def viewPlots : List (SPlotArgs × Bool) :=
  [(⟨2, .plain, exPlotLabels, 1, 1, [exPlotCon 0 cs!"load" [.int 0, .int 1]], [.int 0, .int 1]⟩, false),
   (⟨2, .permute, exPlotLabels, 2, 2, [exPlotCon 0 cs!"a" [.int 0, .int 1], exPlotCon 0 cs!"b" [.int 0, .int 1], exPlotCon 1 cs!"a" [.int 0, .int 1], exPlotCon 1 cs!"b" [.int 0, .int 1]], [.int 0, .int 1]⟩, true),
   (⟨2, .plain, exPlotLabels, 1, 1, [], []⟩, true)]

/-- C168: the hypotheses are met by these plots -/
example : (∃ a d, viewPlots[0]? = some (a, false) ∧ HasAxes a ∧ a.drawn = .ok d) ∧ (∃ a e, viewPlots[1]? = some (a, true) ∧ HasAxes a ∧ a.drawn = .error e) ∧ ∃ a, viewPlots[2]? = some (a, true) ∧ ¬ HasAxes a :=
  ⟨⟨_, _, rfl, (hasAxes_num _).2 ⟨by decide, by decide⟩, rfl⟩, ⟨_, _, rfl, (hasAxes_num _).2 ⟨by decide, by decide⟩, rfl⟩, ⟨_, rfl, fun h => h.2.1 rfl rfl⟩⟩

/-- whether a figure is saved, whether it is complete, and its entry `interactive` -/
def savedAs : SRes → Option (Bool × Option Bool)
  | .saved f => some (match f.drawn with | .ok _ => true | .error _ => false, f.interactive)
  | _ => none

/-- C168: a complete figure; one that is not; no figure; no interaction after a test of another plot; a figure saved after its `view` keeps the interaction of that -/
example : savedAs (sStep (sRun (sNew viewPlots) []) (.save 0)).2 = some (true, none) ∧
    savedAs (sStep (sRun (sNew viewPlots) []) (.save 1)).2 = none ∧
    savedAs (sStep (sRun (sNew viewPlots) [.save 1]) (.save 1)).2 = some (false, some true) ∧
    savedAs (sStep (sRun (sNew viewPlots) [.save 2, .view 2 false]) (.save 2)).2 = none ∧
    savedAs (sStep (sRun (sNew viewPlots) [.view 0 true]) (.save 0)).2 = some (true, some false) ∧
    savedAs (sStep (sRun (sNew viewPlots) [.view 0 true, .view 1 false]) (.save 1)).2 = some (false, some false) ∧
    savedAs (sStep (sRun (sNew viewPlots) [.view 1 false, .view 0 true]) (.save 1)).2 = some (false, some true) := by decide +kernel

end Trappy
