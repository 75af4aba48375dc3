import Verif.Prop.StaticPlot
import Mathlib.Tactic.Common
/-!
# C141 and C142: figures of several rows and missing series
-/

namespace Trappy

theorem groupPairs_error (l : Layout) (m : PlotMode) (ss : List LSeries) (i : Nat) (g : List ((Nat × Nat) × List LSeries)) (e : DErr)
    (h : groupPairs l m i ss g = .error e) : e = .layout .indexError := by
  induction ss generalizing i g with
  | nil => cases h
  | cons s ss ih =>
    rw [groupPairs] at h
    split at h
    · exact (Except.error.inj h).symm
    · exact ih _ _ h

/-- in a figure of several rows and columns the plots are not visited a second time -/
theorem grid_error {perLine num : Nat} {l : Layout} (h : mkLayout perLine num = .ok l) (h2 : 2 ≤ perLine) (hn : perLine < num)
    {m : PlotMode} (hm : m ≠ .concat) (ss : List LSeries) (hs : 2 * num ≤ ss.length) : groupPairs l m 0 ss [] = .error (.layout .indexError) := by
  cases hg : groupPairs l m 0 ss [] with
  | error e => rw [groupPairs_error _ _ _ _ _ _ hg]
  | ok g =>
    exfalso
    obtain ⟨_, _, h3, h4, h5, h6, h7, h8⟩ := mkLayout_spec h
    have hc : l.cols = perLine := by omega
    have hs' : ¬ l.single = true := fun e => by have := h6.1 e; omega
    have hu : ¬ l.usecol = true := fun e => by
      have := (h7.1 e).2
      rw [this] at h4
      omega
    have hr : ¬ l.userow = true := fun e => by have := (h8.1 e).2.2; omega
    have := groupPairs_indices l hm ss 0 [] g hg (2 * num - 1) (Nat.zero_le _) (by omega)
    unfold axisOf at this
    rw [if_neg hs', if_neg hu, if_neg hr, if_neg] at this
    · cases this
    · rintro ⟨h', _⟩
      refine absurd h' (Nat.not_lt.2 ?_)
      exact (Nat.le_div_iff_mul_le (by omega)).2 (by omega)

/-- **C142, refuted, for all data**: several constraints and more pivot values than plots in a row, with more than one in a row: nothing is drawn, `IndexError` is
raised.  The plots are counted on for the second constraint, and only in a single row or column does the count wrap around. -/
theorem C142_grid_refuted (perLine : Nat) (h2 : 2 ≤ perLine) (a : PlotLabels) (nTraces maxLen : Nat) (cs : List LConstraint) (hcs : 2 ≤ cs.length)
    (pivots : List Val) (hp : perLine < pivots.length) (hk : ∀ x ∈ cs, ∀ p ∈ pivots, p ∈ x.keys) :
    linePlot perLine .plain a nTraces maxLen cs pivots = .error (.layout .indexError) := by
  unfold linePlot
  simp only
  obtain ⟨l, h⟩ := (C69_when perLine pivots.length).2 ⟨by omega, by omega⟩
  rw [h]
  simp only [plotPairs]
  rw [grid_error h h2 hp (by decide)]
  have hlen : (cs.flatMap fun c => (pivots.filter fun p => decide (p ∈ c.keys)).map fun p => (⟨c, p⟩ : LSeries)).length =
      cs.length * pivots.length := by
    clear hcs
    induction cs with
    | nil => simp
    | cons c cs ih =>
      rw [List.flatMap_cons, List.length_append, ih fun x hx => hk x (by simp [hx]), List.length_map,
        List.filter_eq_self.2 fun p hp => by simpa using hk c (by simp) p hp, List.length_cons, Nat.succ_mul]
      omega
  rw [hlen]
  exact Nat.mul_le_mul_right _ hcs

/-- the hypotheses are met: two traces, three cpus, two plots in a row -/
example : linePlot 2 .plain exPlotLabels 2 2 [exPlotCon 0 cs!"load" [.int 0, .int 1, .int 2], exPlotCon 1 cs!"load" [.int 0, .int 1, .int 2]]
    [.int 0, .int 1, .int 2] = .error (.layout .indexError) :=
  C142_grid_refuted 2 (by decide) _ _ _ _ (by decide) _ (by decide) (by decide)

/-- **C141, refuted, for all data**: at least two columns, and more plots than fit in a row, with more than one in a row: nothing is drawn. -/
theorem C141_grid_refuted (perLine : Nat) (h2 : 2 ≤ perLine) (a : PlotLabels) (nTraces maxLen : Nat) (cs : List LConstraint)
    (hcs : 2 * nTraces ≤ cs.length) (pivots : List Val) (hp : perLine < pivots.length * nTraces) :
    linePlot perLine .permute a nTraces maxLen cs pivots = .error (.layout .indexError) ∨
      linePlot perLine .permute a nTraces maxLen cs pivots = .error .typeError := by
  unfold linePlot
  simp only
  obtain ⟨l, h⟩ := (C69_when perLine (pivots.length * nTraces)).2 ⟨by omega, by omega⟩
  rw [h]
  simp only [plotPairs]
  cases hps : plainSort pivots with
  | none => exact .inr rfl
  | some ps =>
    left
    simp only
    rw [grid_error h h2 hp (by decide)]
    rw [List.length_flatMap]
    simp only [List.length_map]
    rw [List.map_const', List.sum_replicate_nat, (plainSort_perm hps).length_eq]
    unfold sortConstraints
    rw [(sortBy_perm _ cs).length_eq, Nat.mul_comm pivots.length, ← Nat.mul_assoc]
    exact Nat.mul_le_mul_right _ hcs

/-- the hypotheses are met -/
example : linePlot 2 .permute exPlotLabels 2 2 [exPlotCon 0 cs!"a" [.int 0, .int 1], exPlotCon 0 cs!"b" [.int 0, .int 1], exPlotCon 1 cs!"a" [.int 0, .int 1],
    exPlotCon 1 cs!"b" [.int 0, .int 1]] [.int 0, .int 1] = .error (.layout .indexError) := by
  rcases C141_grid_refuted 2 (by decide) exPlotLabels 2 2 [exPlotCon 0 cs!"a" [.int 0, .int 1], exPlotCon 0 cs!"b" [.int 0, .int 1],
    exPlotCon 1 cs!"a" [.int 0, .int 1], exPlotCon 1 cs!"b" [.int 0, .int 1]] (by decide) [.int 0, .int 1] (by decide) with h | h
  · exact h
  · exact absurd h (by decide +kernel)

theorem addCell_mem (c : Nat × Nat) (s : LSeries) (g : List ((Nat × Nat) × List LSeries)) :
    (∃ x ∈ addCell c s g, s ∈ x.2) ∧ ∀ y ∈ g, ∀ t ∈ y.2, ∃ x ∈ addCell c s g, t ∈ x.2 := by
  induction g with
  | nil => exact ⟨⟨(c, [s]), by simp [addCell], by simp⟩, by simp⟩
  | cons z g ih =>
    obtain ⟨zc, zl⟩ := z
    unfold addCell
    split
    · refine ⟨⟨(zc, zl ++ [s]), by simp, by simp⟩, ?_⟩
      intro y hy t ht
      rcases List.mem_cons.1 hy with rfl | hy
      · exact ⟨(zc, zl ++ [s]), by simp, by simp at ht; simp [ht]⟩
      · exact ⟨y, by simp [hy], ht⟩
    · obtain ⟨⟨x, hx, hs⟩, h2⟩ := ih
      refine ⟨⟨x, by simp [hx], hs⟩, ?_⟩
      intro y hy t ht
      rcases List.mem_cons.1 hy with rfl | hy
      · exact ⟨(zc, zl), by simp, ht⟩
      · obtain ⟨x, hx, hs⟩ := h2 y hy t ht
        exact ⟨x, by simp [hx], hs⟩

theorem groupPairs_mem (l : Layout) (m : PlotMode) (ss : List LSeries) (i : Nat) (g g' : List ((Nat × Nat) × List LSeries))
    (e : groupPairs l m i ss g = .ok g') (t : LSeries) (ht : t ∈ ss ∨ ∃ y ∈ g, t ∈ y.2) : ∃ x ∈ g', t ∈ x.2 := by
  induction ss generalizing i g with
  | nil =>
    simp only [groupPairs, Except.ok.injEq] at e
    subst e
    simpa using ht
  | cons s ss ih =>
    rw [groupPairs] at e
    split at e
    · cases e
    next c hc =>
      apply ih _ _ e
      rcases ht with ht | ⟨y, hy, ht⟩
      · rcases List.mem_cons.1 ht with rfl | ht
        · exact .inr (addCell_mem c t g).1
        · exact .inl ht
      · exact .inr ((addCell_mem c s g).2 y hy t ht)

theorem drawLines_keys (a : PlotLabels) (m : PlotMode) (ss : List LSeries) (i : Nat) (t : Str) (lg : List (Option Str)) {r : Str × List (Option Str)}
    (e : drawLines a m i ss t lg = .ok r) : ∀ s ∈ ss, s.pivot ∈ s.constr.keys := by
  induction ss generalizing i t lg with
  | nil => simp
  | cons s ss ih =>
    rw [drawLines] at e
    split at e
    next hk =>
      split at e
      · intro x hx
        rcases List.mem_cons.1 hx with rfl | hx
        · exact hk
        · exact ih _ _ _ e x hx
      · cases e
    · cases e

theorem drawAxes_keys (a : PlotLabels) (m : PlotMode) (gs : List ((Nat × Nat) × List LSeries)) (lg : List (Option Str))
    {r : List DrawnAxis × List (Option Str)} (e : drawAxes a m gs lg = .ok r) : ∀ g ∈ gs, ∀ s ∈ g.2, s.pivot ∈ s.constr.keys := by
  induction gs generalizing lg r with
  | nil => simp
  | cons g gs ih =>
    rw [drawAxes] at e
    split at e
    · cases e
    next t lg' h' =>
      split at e
      · cases e
      next h'' =>
        intro g' hg'
        rcases List.mem_cons.1 hg' with rfl | hg'
        · exact drawLines_keys _ _ _ _ _ _ h'
        · exact ih lg' h'' g' hg'

/-- **C141, refuted, for all data**: whenever one of the permuted constraints has no series for one of the pivot values, nothing is drawn. -/
theorem C141_absent_refuted (perLine : Nat) (a : PlotLabels) (nTraces maxLen : Nat) (cs : List LConstraint) (pivots : List Val)
    (c : LConstraint) (hc : c ∈ cs) (p : Val) (hp : p ∈ pivots) (h : p ∉ c.keys) :
    ∃ e, linePlot perLine .permute a nTraces maxLen cs pivots = .error e := by
  unfold linePlot
  simp only
  split
  · exact ⟨_, rfl⟩
  · simp only [plotPairs]
    cases hps : plainSort pivots with
    | none => exact ⟨_, rfl⟩
    | some ps =>
      simp only
      split
      · exact ⟨_, rfl⟩
      next g hg =>
        cases hd : drawAxes a .permute g (List.replicate maxLen none) with
        | error e => exact ⟨e, rfl⟩
        | ok r =>
          exfalso
          have hm : (⟨c, p⟩ : LSeries) ∈ (sortConstraints cs).flatMap fun c => ps.map fun p => (⟨c, p⟩ : LSeries) := by
            refine List.mem_flatMap.2 ⟨c, ?_, List.mem_map.2 ⟨p, (plainSort_perm hps).mem_iff.2 hp, rfl⟩⟩
            exact (sortBy_perm _ cs).mem_iff.2 hc
          obtain ⟨x, hx, hs⟩ := groupPairs_mem _ _ _ _ _ _ hg _ (.inl hm)
          exact h (drawAxes_keys _ _ _ _ hd x hx _ hs)

/-- the hypotheses are met -/
example : ∃ e, linePlot 9 .permute exPlotLabels 2 2 [exPlotCon 0 cs!"a" [.int 0, .int 1], exPlotCon 0 cs!"b" [.int 0, .int 1],
    exPlotCon 1 cs!"a" [.int 1], exPlotCon 1 cs!"b" [.int 0, .int 1]] [.int 0, .int 1] = .error e :=
  C141_absent_refuted _ _ _ _ _ _ (exPlotCon 1 cs!"a" [.int 1]) (by decide) (.int 0) (by decide) (by decide)

end Trappy
