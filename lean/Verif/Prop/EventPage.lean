import Verif.Spec.EventPage
import Verif.Prop.EventPlotJs
import Mathlib.Data.List.Induction
/-!
# Event plots on one page
-/

namespace Trappy

/-! ## What one action does to each plot -/

theorem upd_get (g : EvPage) (i j : Nat) (f : EvPlot → EvPlot) :
    (g.upd i f).plots[j]? = if i = j then (g.plots[j]?).map f else g.plots[j]? := by
  unfold EvPage.upd
  simp only [List.getElem?_modify]
  split <;> simp

theorem upd_length (g : EvPage) (i : Nat) (f : EvPlot → EvPlot) : (g.upd i f).plots.length = g.plots.length := by
  unfold EvPage.upd
  simp

theorem updBrushScale_get (g : EvPage) (j : Nat) (f : LinScale → LinScale) :
    (g.updBrushScale f).plots[j]? =
      if j + 1 = g.plots.length then (g.plots[j]?).map fun p => { p with bs := f p.bs } else g.plots[j]? := by
  unfold EvPage.updBrushScale
  rw [upd_get]
  by_cases h : j + 1 = g.plots.length
  · rw [if_pos h, if_pos (by omega)]
  · rw [if_neg h]
    split
    next h' =>
      have : g.plots[j]? = none := by
        rw [List.getElem?_eq_none_iff]; omega
      rw [this]; rfl
    next => rfl

theorem updBrushScale_length (g : EvPage) (f : LinScale → LinScale) :
    (g.updBrushScale f).plots.length = g.plots.length := upd_length _ _ _

theorem zoomed_length (g : EvPage) (i : Nat) : (g.zoomed i).plots.length = g.plots.length := by
  unfold EvPage.zoomed
  split
  · rfl
  · simp only [upd_length, updBrushScale_length]

theorem zoomed_width (g : EvPage) (i : Nat) : (g.zoomed i).width = g.width := by
  unfold EvPage.zoomed
  split <;> rfl

theorem zoomed_self (g : EvPage) (i : Nat) (p : EvPlot) (h : g.plots[i]? = some p) :
    (g.zoomed i).plots[i]? = some (p.correct.drawMain p.correct.zs.a p.correct.zs.b).drawAxis := by
  unfold EvPage.zoomed
  rw [h]
  simp only [upd_get, updBrushScale_get, upd_length, if_true, h, Option.map_some]
  split <;> rfl

theorem zoomed_other (g : EvPage) (i j : Nat) (hij : i ≠ j) (r : EvPlot) (hr : g.plots[j]? = some r) :
    ∃ s, (g.zoomed i).plots[j]? = some { r with bs := s } ∧ s.w = r.bs.w ∧ (j + 1 ≠ g.plots.length → s = r.bs) := by
  unfold EvPage.zoomed
  split
  · exact ⟨r.bs, hr, rfl, fun _ => rfl⟩
  next p hp =>
    simp only [upd_get, updBrushScale_get, upd_length, if_neg hij, hr, Option.map_some]
    split
    next h => exact ⟨_, rfl, rfl, fun h' => absurd h h'⟩
    next h => exact ⟨r.bs, rfl, rfl, fun _ => rfl⟩

theorem brush_length (g : EvPage) (i : Nat) (u v : Rat) : (g.brush i u v).plots.length = g.plots.length := by
  unfold EvPage.brush
  split
  · rfl
  · split
    · simp only [upd_length, updBrushScale_length]
    · rfl

theorem brush_width (g : EvPage) (i : Nat) (u v : Rat) : (g.brush i u v).width = g.width := by
  unfold EvPage.brush
  split
  · rfl
  · split <;> rfl

/-- the view that a brush sets -/
def brushView (W : Rat) (x : LinScale) (u v : Rat) : View :=
  ⟨clampScale (W / x.app (x.a + v - u)), 0 - x.app u * (W / x.app (x.a + v - u))⟩

theorem brush_self (g : EvPage) (i : Nat) (u v : Rat) (p : EvPlot) (h : g.plots[i]? = some p) (hs : p.summary = true) :
    (g.brush i u v).plots[i]? = some ((p.rescale (brushView g.width p.x u v)).drawMain u v).drawAxis := by
  unfold EvPage.brush
  rw [h]
  simp only [hs, if_true, upd_get, updBrushScale_get, upd_length, h, Option.map_some]
  split <;> rfl

theorem brush_other (g : EvPage) (i j : Nat) (u v : Rat) (hij : i ≠ j) (r : EvPlot) (hr : g.plots[j]? = some r) :
    ∃ s, (g.brush i u v).plots[j]? = some { r with bs := s } ∧ s.w = r.bs.w ∧ (j + 1 ≠ g.plots.length → s = r.bs) := by
  unfold EvPage.brush
  split
  · exact ⟨r.bs, hr, rfl, fun _ => rfl⟩
  next p hp =>
    split
    · simp only [upd_get, updBrushScale_get, upd_length, if_neg hij, hr, Option.map_some]
      split
      next h => exact ⟨_, rfl, rfl, fun h' => absurd h h'⟩
      next h => exact ⟨r.bs, rfl, rfl, fun _ => rfl⟩
    · exact ⟨r.bs, hr, rfl, fun _ => rfl⟩

theorem brush_noSummary (g : EvPage) (i : Nat) (u v : Rat) (p : EvPlot) (h : g.plots[i]? = some p)
    (hs : p.summary = false) : g.brush i u v = g := by
  unfold EvPage.brush
  rw [h]
  simp [hs]

theorem gesture_length (g : EvPage) (i : Nat) (v : View) : (g.gesture i v).plots.length = g.plots.length := by
  unfold EvPage.gesture
  rw [zoomed_length, upd_length]

theorem gesture_width (g : EvPage) (i : Nat) (v : View) : (g.gesture i v).width = g.width := by
  unfold EvPage.gesture
  rw [zoomed_width]; rfl

theorem gesture_self (g : EvPage) (i : Nat) (v : View) (p : EvPlot) (h : g.plots[i]? = some p) :
    (g.gesture i v).plots[i]? = some
      ((p.rescale v).correct.drawMain (p.rescale v).correct.zs.a (p.rescale v).correct.zs.b).drawAxis := by
  unfold EvPage.gesture
  apply zoomed_self
  rw [upd_get, if_pos rfl, h]; rfl

theorem gesture_other (g : EvPage) (i j : Nat) (v : View) (hij : i ≠ j) (r : EvPlot) (hr : g.plots[j]? = some r) :
    ∃ s, (g.gesture i v).plots[j]? = some { r with bs := s } ∧ s.w = r.bs.w ∧ (j + 1 ≠ g.plots.length → s = r.bs) := by
  have := zoomed_other (g.upd i fun p => p.rescale v) i j hij r (by rw [upd_get, if_neg hij, hr])
  rw [upd_length] at this
  exact this

theorem resizePlot_length (g : EvPage) (i : Nat) (w : Rat) : (g.resizePlot i w).plots.length = g.plots.length := by
  unfold EvPage.resizePlot
  simp only
  split
  · simp only [upd_length, updBrushScale_length]
  · split
    · simp only [zoomed_length, upd_length, updBrushScale_length]
    · simp only [upd_length, updBrushScale_length]

theorem resizePlot_width (g : EvPage) (i : Nat) (w : Rat) : (g.resizePlot i w).width = g.width := by
  unfold EvPage.resizePlot
  simp only
  split
  · rfl
  · split
    · rw [zoomed_width]; rfl
    · rfl

/-- a plot whose scales have got the width `w` -/
def EvPlot.widen (p : EvPlot) (w : Rat) : EvPlot := { p with x := { p.x with w := w }, zs := { p.zs with w := w } }

theorem resizePlot_self (g : EvPage) (i : Nat) (w : Rat) (p : EvPlot) (h : g.plots[i]? = some p) :
    ∃ s, s.a = p.bs.a ∧ s.b = p.bs.b ∧ s.w = (if i + 1 = g.plots.length then w else p.bs.w) ∧
      (g.resizePlot i w).plots[i]? = some (
        let q : EvPlot := { p.widen w with bs := s }
        if p.summary then (q.correct.drawMain q.correct.zs.a q.correct.zs.b).drawAxis else q) := by
  have h2 : ((g.upd i fun p => p.widen w).updBrushScale fun s => { s with w := w }).plots[i]? =
      some { p.widen w with bs := ⟨p.bs.a, p.bs.b, if i + 1 = g.plots.length then w else p.bs.w⟩ } := by
    rw [updBrushScale_get, upd_length, upd_get, if_pos rfl, h]
    split <;> rfl
  refine ⟨⟨p.bs.a, p.bs.b, if i + 1 = g.plots.length then w else p.bs.w⟩, rfl, rfl, rfl, ?_⟩
  unfold EvPage.resizePlot
  simp only
  unfold EvPlot.widen at h2 ⊢
  rw [h2]
  simp only
  cases hs : p.summary
  · simp only [Bool.false_eq_true, if_false]; simpa [hs] using h2
  · simp only [if_true]
    rw [zoomed_self _ _ _ h2]
    simp [hs]

theorem resizePlot_other (g : EvPage) (i j : Nat) (w : Rat) (hij : i ≠ j) (r : EvPlot) (hr : g.plots[j]? = some r) :
    ∃ s, (g.resizePlot i w).plots[j]? = some { r with bs := s } ∧ (j + 1 ≠ g.plots.length → s = r.bs) := by
  have h2 : ∃ s, ((g.upd i fun p => p.widen w).updBrushScale fun s => { s with w := w }).plots[j]? =
      some { r with bs := s } ∧ (j + 1 ≠ g.plots.length → s = r.bs) := by
    rw [updBrushScale_get, upd_length, upd_get, if_neg hij, hr]
    split
    next h => exact ⟨_, rfl, fun h' => absurd h h'⟩
    next h => exact ⟨r.bs, rfl, fun _ => rfl⟩
  obtain ⟨s, hs, hl⟩ := h2
  unfold EvPage.resizePlot
  simp only
  unfold EvPlot.widen at hs
  split
  · exact ⟨s, hs, hl⟩
  · split
    · obtain ⟨s', h1, _, h3⟩ := zoomed_other _ i j hij _ hs
      refine ⟨s', h1, fun h => ?_⟩
      rw [h3 (by rw [updBrushScale_length, upd_length]; exact h)]
      exact hl h
    · exact ⟨s, hs, hl⟩

/-- the handlers of the first `m` plots -/
def resizeUpTo (g : EvPage) (ws : Nat → Rat) (m : Nat) : EvPage :=
  (List.range m).foldl (fun g i => g.resizePlot i (ws i)) g

theorem resizeUpTo_succ (g : EvPage) (ws : Nat → Rat) (m : Nat) :
    resizeUpTo g ws (m + 1) = (resizeUpTo g ws m).resizePlot m (ws m) := by
  unfold resizeUpTo
  rw [List.range_succ, List.foldl_append]
  rfl

theorem resizeUpTo_length (g : EvPage) (ws : Nat → Rat) (m : Nat) :
    (resizeUpTo g ws m).plots.length = g.plots.length := by
  induction m with
  | zero => rfl
  | succ m ih => rw [resizeUpTo_succ, resizePlot_length, ih]

theorem resizeUpTo_width (g : EvPage) (ws : Nat → Rat) (m : Nat) : (resizeUpTo g ws m).width = g.width := by
  induction m with
  | zero => rfl
  | succ m ih => rw [resizeUpTo_succ, resizePlot_width, ih]

theorem resizeUpTo_before (g : EvPage) (ws : Nat → Rat) (i : Nat) (p : EvPlot) (h : g.plots[i]? = some p) (m : Nat)
    (hm : m ≤ i) : ∃ s, (resizeUpTo g ws m).plots[i]? = some { p with bs := s } ∧ (i + 1 ≠ g.plots.length → s = p.bs) := by
  induction m with
  | zero => exact ⟨p.bs, h, fun _ => rfl⟩
  | succ m ih =>
    obtain ⟨s, h1, h2⟩ := ih (by omega)
    rw [resizeUpTo_succ]
    obtain ⟨s', h3, h4⟩ := resizePlot_other (resizeUpTo g ws m) m i (ws m) (by omega) _ h1
    rw [resizeUpTo_length] at h4
    exact ⟨s', h3, fun h => (h4 h).trans (h2 h)⟩

theorem resizeUpTo_after (g : EvPage) (ws : Nat → Rat) (i : Nat) (r : EvPlot) (m : Nat) (hi : i + 1 ≤ m)
    (hm : m ≤ g.plots.length) (h : (resizeUpTo g ws (i + 1)).plots[i]? = some r) :
    (resizeUpTo g ws m).plots[i]? = some r := by
  induction m with
  | zero => omega
  | succ m ih =>
    rcases Nat.eq_or_lt_of_le hi with h' | h'
    · have : m = i := by omega
      rw [this]; exact h
    · rw [resizeUpTo_succ]
      obtain ⟨s', h3, h4⟩ := resizePlot_other (resizeUpTo g ws m) m i (ws m) (by omega) _ (ih (by omega) (by omega))
      rw [resizeUpTo_length] at h4
      rw [h3, h4 (by omega)]

/-- what a plot is after all handlers -/
theorem resize_get (g : EvPage) (ws : Nat → Rat) (i : Nat) (p : EvPlot) (h : g.plots[i]? = some p) :
    ∃ s, s.w = (if i + 1 = g.plots.length then ws i else p.bs.w) ∧
      (g.resize ws).plots[i]? = some (
        let q : EvPlot := { p.widen (ws i) with bs := s }
        if p.summary then (q.correct.drawMain q.correct.zs.a q.correct.zs.b).drawAxis else q) := by
  have hi : i < g.plots.length := (List.getElem?_eq_some_iff.1 h).1
  obtain ⟨s, h1, h2⟩ := resizeUpTo_before g ws i p h i (Nat.le_refl _)
  obtain ⟨s', _, _, h3, h4⟩ := resizePlot_self (resizeUpTo g ws i) i (ws i) _ h1
  rw [resizeUpTo_length] at h3
  rw [← resizeUpTo_succ] at h4
  refine ⟨s', ?_, resizeUpTo_after g ws i _ g.plots.length hi (Nat.le_refl _) h4⟩
  rw [h3]
  split
  · rfl
  next h' => rw [h2 h']

theorem resize_length (g : EvPage) (ws : Nat → Rat) : (g.resize ws).plots.length = g.plots.length :=
  resizeUpTo_length g ws g.plots.length

theorem resize_width (g : EvPage) (ws : Nat → Rat) : (g.resize ws).width = g.width :=
  resizeUpTo_width g ws g.plots.length

/-! ## C175: the widths a page keeps -/

theorem correct_keeps (p : EvPlot) : p.correct.x = p.x ∧ p.correct.x0w = p.x0w ∧ p.correct.zs.w = p.zs.w ∧
    p.correct.summary = p.summary ∧ p.correct.bs = p.bs ∧ p.correct.view.k = p.view.k := by
  unfold EvPlot.correct EvPlot.rescale
  split
  · exact ⟨rfl, rfl, rfl, rfl, rfl, rfl⟩
  · split <;> exact ⟨rfl, rfl, rfl, rfl, rfl, rfl⟩

/-- the scales of a plot but for their domains -/
def EvPlot.frame (p : EvPlot) : LinScale × Rat × Rat × Bool := (p.x, p.x0w, p.zs.w, p.summary)

theorem gesture_frame (g : EvPage) (i : Nat) (v : View) (j : Nat) :
    ((g.gesture i v).plots[j]?).map EvPlot.frame = (g.plots[j]?).map EvPlot.frame := by
  cases h : g.plots[j]? with
  | none =>
    have : (g.gesture i v).plots[j]? = none := by
      rw [List.getElem?_eq_none_iff] at h ⊢
      rw [gesture_length]; exact h
    rw [this]
  | some p =>
    by_cases hij : i = j
    · subst hij
      rw [gesture_self g i v p h]
      obtain ⟨h1, h2, h3, h4, _, _⟩ := correct_keeps (p.rescale v)
      simp only [Option.map_some, EvPlot.frame, EvPlot.drawMain, EvPlot.drawAxis, h1, h2, h3, h4]
      rfl
    · obtain ⟨s, h1, _, _⟩ := gesture_other g i j v hij p h
      rw [h1]; rfl

theorem brush_frame (g : EvPage) (i : Nat) (u v : Rat) (j : Nat) :
    ((g.brush i u v).plots[j]?).map EvPlot.frame = (g.plots[j]?).map EvPlot.frame := by
  cases h : g.plots[j]? with
  | none =>
    have : (g.brush i u v).plots[j]? = none := by
      rw [List.getElem?_eq_none_iff] at h ⊢
      rw [brush_length]; exact h
    rw [this]
  | some p =>
    by_cases hij : i = j
    · subst hij
      cases hs : p.summary
      · rw [brush_noSummary g i u v p h hs, h]
      · rw [brush_self g i u v p h hs]; rfl
    · obtain ⟨s, h1, _, _⟩ := brush_other g i j u v hij p h
      rw [h1]; rfl

theorem resize_frame (g : EvPage) (ws : Nat → Rat) (j : Nat) :
    ((g.resize ws).plots[j]?).map EvPlot.frame =
      (g.plots[j]?).map fun p => (⟨p.x.a, p.x.b, ws j⟩, p.x0w, ws j, p.summary) := by
  cases h : g.plots[j]? with
  | none =>
    have : (g.resize ws).plots[j]? = none := by
      rw [List.getElem?_eq_none_iff] at h ⊢
      rw [resize_length]; exact h
    rw [this]; rfl
  | some p =>
    obtain ⟨s, _, h2⟩ := resize_get g ws j p h
    rw [h2]
    simp only [Option.map_some]
    split
    next hs =>
      obtain ⟨h1, h2, h3, h4, _, _⟩ := correct_keeps { p.widen (ws j) with bs := s }
      simp only [EvPlot.frame, EvPlot.drawMain, EvPlot.drawAxis, h1, h2, h3, h4]
      rfl
    next hs => rfl

theorem drawnWidths_append (as bs : List EvAct) : drawnWidths (as ++ bs) = drawnWidths as ++ drawnWidths bs := by
  induction as with
  | nil => rfl
  | cons a as ih => cases a <;> simp [drawnWidths, ih]

theorem run_snoc (as : List EvAct) (a : EvAct) : EvPage.run (as ++ [a]) = (EvPage.run as).act a := by
  unfold EvPage.run
  rw [List.foldl_append]; rfl

theorem frame_map {α} {l l' : List EvPlot} (f : LinScale × Rat × Rat × Bool → α)
    (h : ∀ j : Nat, (l[j]?).map EvPlot.frame = (l'[j]?).map EvPlot.frame) : l.map (f ∘ EvPlot.frame) = l'.map (f ∘ EvPlot.frame) := by
  apply List.ext_getElem?
  intro j
  rw [List.getElem?_map, List.getElem?_map, ← Option.map_map, h j, Option.map_map]

theorem resize_map {α} (g : EvPage) (ws : Nat → Rat) (f : LinScale × Rat × Rat × Bool → α) (f' : Nat → EvPlot → α)
    (hf : ∀ j p, f (⟨p.x.a, p.x.b, ws j⟩, p.x0w, ws j, p.summary) = f' j p) :
    (g.resize ws).plots.map (f ∘ EvPlot.frame) = g.plots.mapIdx f' := by
  apply List.ext_getElem?
  intro j
  rw [List.getElem?_map, ← Option.map_map, resize_frame, Option.map_map, List.getElem?_mapIdx]
  cases g.plots[j]? with
  | none => rfl
  | some p => simp [hf]

/-- **C175 (widths).** The zoom of a plot keeps the width at which the plot was drawn and the scales of a plot have the width that
its element has now, while the variable `width` is the width at which the plot drawn last was drawn. -/
theorem C175_widths (as : List EvAct) :
    (EvPage.run as).plots.map (·.x0w) = drawnWidths as ∧
    (EvPage.run as).plots.map (·.x.w) = as.foldl widthsAfter [] ∧
    (EvPage.run as).plots.map (·.zs.w) = as.foldl widthsAfter [] ∧
    (∀ ws w, drawnWidths as = ws ++ [w] → (EvPage.run as).width = w) := by
  induction as using List.reverseRecOn with
  | nil => exact ⟨rfl, rfl, rfl, fun ws w h => by simp [drawnWidths] at h⟩
  | append_singleton as a ih =>
    obtain ⟨h0, h1, h2, h3⟩ := ih
    rw [run_snoc, drawnWidths_append, List.foldl_append]
    cases a with
    | draw a b w s =>
      refine ⟨?_, ?_, ?_, ?_⟩
      · simp [EvPage.act, EvPage.draw, drawnWidths, h0]
      · simp [EvPage.act, EvPage.draw, widthsAfter, h1]
      · simp [EvPage.act, EvPage.draw, widthsAfter, h2]
      · intro ws w' h
        exact (List.append_inj' h rfl).2 |> fun h => by simpa [EvPage.act, EvPage.draw, drawnWidths] using h
    | gesture i v =>
      have hf := gesture_frame (EvPage.run as) i v
      refine ⟨?_, ?_, ?_, ?_⟩
      · simp only [drawnWidths, List.append_nil]; rw [← h0]; exact frame_map (fun f => f.2.1) hf
      · exact (frame_map (fun f => f.1.w) hf).trans h1
      · exact (frame_map (fun f => f.2.2.1) hf).trans h2
      · intro ws w h
        simp only [drawnWidths, List.append_nil] at h
        exact (gesture_width _ _ _).trans (h3 ws w h)
    | brush i u v =>
      have hf := brush_frame (EvPage.run as) i u v
      refine ⟨?_, ?_, ?_, ?_⟩
      · simp only [drawnWidths, List.append_nil]; rw [← h0]; exact frame_map (fun f => f.2.1) hf
      · exact (frame_map (fun f => f.1.w) hf).trans h1
      · exact (frame_map (fun f => f.2.2.1) hf).trans h2
      · intro ws w h
        simp only [drawnWidths, List.append_nil] at h
        exact (brush_width _ _ _ _).trans (h3 ws w h)
    | resize ws =>
      have hlen : (as.foldl widthsAfter []).length = (EvPage.run as).plots.length := by rw [← h1]; simp
      refine ⟨?_, ?_, ?_, ?_⟩
      · simp only [drawnWidths, List.append_nil]
        rw [← h0]
        refine (resize_map (EvPage.run as) ws (fun f => f.2.1) (fun _ p => p.x0w) fun _ _ => rfl).trans ?_
        rw [List.mapIdx_eq_iff]
        intro j
        rw [List.getElem?_map]
      · refine (resize_map (EvPage.run as) ws (fun f => f.1.w) (fun j _ => ws j) fun _ _ => rfl).trans ?_
        simp only [List.foldl_cons, List.foldl_nil, widthsAfter, hlen]
        apply List.ext_getElem
        · simp
        · intro n _ _; simp
      · refine (resize_map (EvPage.run as) ws (fun f => f.2.2.1) (fun j _ => ws j) fun _ _ => rfl).trans ?_
        simp only [List.foldl_cons, List.foldl_nil, widthsAfter, hlen]
        apply List.ext_getElem
        · simp
        · intro n _ _; simp
      · intro ws' w h
        simp only [drawnWidths, List.append_nil] at h
        exact (resize_width _ _).trans (h3 ws' w h)

/-- two plots, a resize, and a third plot -/
example : drawnWidths [.draw 0 10 100 true, .draw 0 5 200 false, .resize fun i => 50 + i, .draw 1 2 300 true] = [100, 200, 300] ∧
    [EvAct.draw 0 10 100 true, .draw 0 5 200 false, .resize fun i => 50 + i, .draw 1 2 300 true].foldl widthsAfter [] =
      [50, 51, 300] := by decide +kernel

/-! ## C175: brush and zoom -/

theorem rescale_eq (p : EvPlot) (v : View) (hw : 0 < p.x0w) (hk : 0 < v.k) :
    (p.rescale v).zs = ⟨p.x.a - v.t / v.k / p.x0w * (p.x.b - p.x.a),
      p.x.a - v.t / v.k / p.x0w * (p.x.b - p.x.a) + (p.x.b - p.x.a) / v.k, p.zs.w⟩ := by
  obtain ⟨h1, h2⟩ := zoomDomain_eq ⟨p.x.a, p.x.b, p.x0w⟩ v hw hk
  unfold EvPlot.rescale
  simp only [h2, h1]

/-- **C175 (brush, exactly).** A brush from `u` to `v` whose zoom is within the extent: the events are drawn for a window that
starts by the ratio of the plot's width now and when it was drawn away from the start of the data, and is longer by the ratio of
the plot's width and the variable `width`; the axis says `u` to `v`. So events and axis agree if and only if the variable has the
width of this plot, the plot's width is that of its own `brushScale`, and it is the width at which the plot was drawn (or the
brush starts where the data start). -/
theorem C175_brush_exact (g : EvPage) (i : Nat) (p : EvPlot) (u v : Rat) (hp : g.plots[i]? = some p) (hs : p.summary = true)
    (hab : p.x.a < p.x.b) (hxw : 0 < p.x.w) (h0w : 0 < p.x0w) (hzs : p.zs.w = p.x.w) (hW : 0 < g.width) (huv : u < v)
    (h1 : (v - u) * p.x.w ≤ g.width * (p.x.b - p.x.a)) (h2 : g.width * (p.x.b - p.x.a) ≤ 4096 * ((v - u) * p.x.w)) :
    ∃ q, (g.brush i u v).plots[i]? = some q ∧
      q.paths.a = p.x.a + (u - p.x.a) * (p.x.w / p.x0w) ∧
      q.paths.b = q.paths.a + (v - u) * (p.x.w / g.width) ∧ q.paths.w = p.x.w ∧
      q.axis = ⟨u, v, p.bs.w⟩ ∧
      (q.paths = q.axis ↔ (u = p.x.a ∨ p.x.w = p.x0w) ∧ p.x.w = g.width ∧ p.x.w = p.bs.w) := by
  have hd : 0 < v - u := sub_pos.2 huv
  have hdne : v - u ≠ 0 := ne_of_gt hd
  have hxne : p.x.w ≠ 0 := ne_of_gt hxw
  have h0ne : p.x0w ≠ 0 := ne_of_gt h0w
  have hWne : g.width ≠ 0 := ne_of_gt hW
  have hba : 0 < p.x.b - p.x.a := sub_pos.2 hab
  have hbane : p.x.b - p.x.a ≠ 0 := ne_of_gt hba
  have hdx : 0 < (v - u) * p.x.w := mul_pos hd hxw
  have hscale : g.width / p.x.app (p.x.a + v - u) = g.width * (p.x.b - p.x.a) / ((v - u) * p.x.w) := by
    unfold LinScale.app
    have : p.x.a + v - u - p.x.a = v - u := by ring
    rw [this]
    field_simp
  have hc : clampScale (g.width * (p.x.b - p.x.a) / ((v - u) * p.x.w)) = g.width * (p.x.b - p.x.a) / ((v - u) * p.x.w) := by
    unfold clampScale
    have e1 : g.width * (p.x.b - p.x.a) / ((v - u) * p.x.w) ≤ 4096 := by rw [div_le_iff₀ hdx]; exact h2
    have e2 : 1 ≤ g.width * (p.x.b - p.x.a) / ((v - u) * p.x.w) := by rw [le_div_iff₀ hdx]; linarith
    rw [min_eq_right e1, max_eq_right e2]
  have hk : 0 < g.width * (p.x.b - p.x.a) / ((v - u) * p.x.w) := div_pos (mul_pos hW hba) hdx
  have hpa : (p.rescale (brushView g.width p.x u v)).zs.a = p.x.a + (u - p.x.a) * (p.x.w / p.x0w) := by
    rw [rescale_eq p _ h0w (by unfold brushView; simp only [hscale, hc]; exact hk)]
    unfold brushView
    simp only [hscale, hc]
    unfold LinScale.app
    field_simp
    ring
  have hpb : (p.rescale (brushView g.width p.x u v)).zs.b =
      (p.rescale (brushView g.width p.x u v)).zs.a + (v - u) * (p.x.w / g.width) := by
    rw [rescale_eq p _ h0w (by unfold brushView; simp only [hscale, hc]; exact hk)]
    unfold brushView
    simp only [hscale, hc]
    field_simp
  refine ⟨_, brush_self g i u v p hp hs, hpa, hpb, hzs, rfl, ?_⟩
  have hq : (p.rescale (brushView g.width p.x u v)).zs =
      ⟨p.x.a + (u - p.x.a) * (p.x.w / p.x0w), p.x.a + (u - p.x.a) * (p.x.w / p.x0w) + (v - u) * (p.x.w / g.width), p.x.w⟩ := by
    rw [← hpa, ← hpb, ← hzs]
    rfl
  simp only [EvPlot.drawMain, EvPlot.drawAxis, hq, LinScale.mk.injEq]
  have ea : p.x.a + (u - p.x.a) * (p.x.w / p.x0w) = u ↔ (u = p.x.a ∨ p.x.w = p.x0w) := by
    constructor
    · intro h
      by_cases hu : u = p.x.a
      · exact Or.inl hu
      · refine Or.inr ?_
        have hu' : u - p.x.a ≠ 0 := sub_ne_zero.2 hu
        have : (u - p.x.a) * (p.x.w / p.x0w) = (u - p.x.a) * 1 := by linarith
        have := mul_left_cancel₀ hu' this
        rwa [div_eq_one_iff_eq h0ne] at this
    · rintro (h | h)
      · rw [h]; ring
      · rw [h, div_self h0ne]; ring
  constructor
  · rintro ⟨h3, h4, h5⟩
    refine ⟨ea.1 h3, ?_, h5⟩
    rw [h3] at h4
    have : (v - u) * (p.x.w / g.width) = (v - u) * 1 := by linarith
    have := mul_left_cancel₀ hdne this
    rwa [div_eq_one_iff_eq hWne] at this
  · rintro ⟨h3, h4, h5⟩
    refine ⟨ea.2 h3, ?_, h5⟩
    rw [ea.2 h3, h4, div_self hWne]; ring

/-- what holds for every plot of a page -/
structure EvPlot.Wf (p : EvPlot) : Prop where
  ab : p.x.a < p.x.b
  xw : 0 < p.x.w
  x0w : 0 < p.x0w
  zs : p.zs.w = p.x.w

theorem EvPlot.Wf.of_frame {p q : EvPlot} (hp : p.Wf) (h : q.frame = p.frame) : q.Wf := by
  unfold EvPlot.frame at h
  rw [Prod.mk.injEq, Prod.mk.injEq, Prod.mk.injEq] at h
  obtain ⟨h1, h2, h3, _⟩ := h
  exact ⟨by rw [h1]; exact hp.ab, by rw [h1]; exact hp.xw, by rw [h2]; exact hp.x0w, by rw [h3, h1]; exact hp.zs⟩

structure EvPage.Wf (g : EvPage) : Prop where
  plots : ∀ (j : Nat) (p : EvPlot), g.plots[j]? = some p → p.Wf
  width : g.plots ≠ [] → 0 < g.width

theorem wf_frames {g g' : EvPage} (hg : g.Wf) (hw : g'.width = g.width) (hl : g'.plots.length = g.plots.length)
    (h : ∀ j : Nat, (g'.plots[j]?).map EvPlot.frame = (g.plots[j]?).map EvPlot.frame) : g'.Wf := by
  refine ⟨fun j p hp => ?_, fun hne => ?_⟩
  · have := h j
    rw [hp] at this
    cases hq : g.plots[j]? with
    | none => rw [hq] at this; cases this
    | some q =>
      rw [hq] at this
      exact (hg.plots j q hq).of_frame (Option.some.inj this)
  · rw [hw]
    apply hg.width
    intro h'
    rw [h'] at hl
    exact hne (List.eq_nil_of_length_eq_zero hl)

theorem act_wf (g : EvPage) (a : EvAct) (hg : g.Wf) (ha : EvActOk g a) : (g.act a).Wf := by
  cases a with
  | draw a b w s =>
    refine ⟨fun j p hp => ?_, fun _ => ha.2⟩
    simp only [EvPage.act, EvPage.draw, List.getElem?_append] at hp
    split at hp
    · exact hg.plots j p hp
    · rw [List.getElem?_singleton] at hp
      split at hp
      · cases hp; exact ⟨ha.1, ha.2, ha.2, rfl⟩
      · cases hp
  | gesture i v => exact wf_frames hg (gesture_width _ _ _) (gesture_length _ _ _) (gesture_frame g i v)
  | brush i u v => exact wf_frames hg (brush_width _ _ _ _) (brush_length _ _ _ _) (brush_frame g i u v)
  | resize ws =>
    refine ⟨fun j p hp => ?_, fun hne => ?_⟩
    · have := resize_frame g ws j
      rw [show (g.resize ws).plots[j]? = some p from hp] at this
      cases hq : g.plots[j]? with
      | none => rw [hq] at this; cases this
      | some q =>
        rw [hq] at this
        simp only [Option.map_some, EvPlot.frame, Option.some.injEq, Prod.mk.injEq] at this
        obtain ⟨h1, h2, h3, _⟩ := this
        have hw := hg.plots j q hq
        exact ⟨by rw [h1]; exact hw.ab, by rw [h1]; exact ha j, by rw [h2]; exact hw.x0w, by rw [h3, h1]⟩
    · refine (resize_width g ws).symm ▸ hg.width ?_
      intro h'
      have := resize_length g ws
      rw [h'] at this
      exact hne (List.eq_nil_of_length_eq_zero this)

theorem acts_wf (as : List EvAct) : ∀ g : EvPage, g.Wf → EvActsOk g as → (as.foldl EvPage.act g).Wf := by
  induction as with
  | nil => intro g hg _; exact hg
  | cons a as ih => intro g hg h; exact ih _ (act_wf g a hg h.1) h.2

theorem empty_wf : EvPage.Wf ⟨0, []⟩ := ⟨fun j p h => by simp at h, fun h => absurd rfl h⟩

theorem run_wf (as : List EvAct) (h : EvActsOk ⟨0, []⟩ as) : (EvPage.run as).Wf := acts_wf as _ empty_wf h

/-- **C175 (brush, by history).** On any page, whatever was drawn, zoomed, brushed and resized before: a brush from `u` to `v` in a
plot that was drawn `w₀` wide and is `w₁` wide now, where the last plot was drawn `w` wide, shows the events from
`a + (u - a) * w₁ / w₀` on for a time of `(v - u) * w₁ / w`, under an axis from `u` to `v`. -/
theorem C175_brush_history (as : List EvAct) (h : EvActsOk ⟨0, []⟩ as) (i : Nat) (p : EvPlot)
    (hp : (EvPage.run as).plots[i]? = some p) (hs : p.summary = true) (ws : List Rat) (w₀ w₁ w u v : Rat)
    (h0 : (drawnWidths as)[i]? = some w₀) (h1 : (as.foldl widthsAfter [])[i]? = some w₁) (hw : drawnWidths as = ws ++ [w])
    (huv : u < v) (hlo : (v - u) * w₁ ≤ w * (p.x.b - p.x.a)) (hhi : w * (p.x.b - p.x.a) ≤ 4096 * ((v - u) * w₁)) :
    ∃ q, (EvPage.run (as ++ [.brush i u v])).plots[i]? = some q ∧
      q.paths = ⟨p.x.a + (u - p.x.a) * (w₁ / w₀), p.x.a + (u - p.x.a) * (w₁ / w₀) + (v - u) * (w₁ / w), w₁⟩ ∧
      q.axis.a = u ∧ q.axis.b = v := by
  obtain ⟨e0, e1, _, e3⟩ := C175_widths as
  have hg := run_wf as h
  have hwf := hg.plots i p hp
  have hx0 : p.x0w = w₀ := by
    rw [← e0, List.getElem?_map, hp] at h0
    exact Option.some.inj h0
  have hx1 : p.x.w = w₁ := by
    rw [← e1, List.getElem?_map, hp] at h1
    exact Option.some.inj h1
  have hW := e3 ws w hw
  have hne : (EvPage.run as).plots ≠ [] := by intro h'; rw [h'] at hp; simp at hp
  obtain ⟨q, hq, a1, a2, a3, a4, _⟩ := C175_brush_exact (EvPage.run as) i p u v hp hs hwf.ab hwf.xw hwf.x0w hwf.zs
    (hg.width hne) huv (by rw [hx1, hW]; exact hlo) (by rw [hx1, hW]; exact hhi)
  rw [run_snoc]
  refine ⟨q, hq, ?_, by rw [a4], by rw [a4]⟩
  have : q.paths = ⟨q.paths.a, q.paths.b, q.paths.w⟩ := rfl
  rw [this, a2, a1, a3, hx0, hx1, hW]

/-! ### One width and no resizing -/

/-- what holds for every plot of a page on which all plots are `w` wide and nothing was resized -/
structure EvPlot.Good (w : Rat) (p : EvPlot) : Prop where
  ab : p.x.a < p.x.b
  xw : p.x.w = w
  x0w : p.x0w = w
  zs : p.zs.w = w
  bs : p.bs.w = w
  agree : p.paths = p.axis
  lo : p.x.a ≤ p.paths.a
  hi : p.paths.b ≤ p.x.b
  pw : p.paths.w = w

theorem EvPlot.Good.of_bs {w : Rat} {p : EvPlot} (hp : p.Good w) (s : LinScale) (hs : s.w = p.bs.w) :
    EvPlot.Good w { p with bs := s } :=
  ⟨hp.ab, hp.xw, hp.x0w, hp.zs, hs.trans hp.bs, hp.agree, hp.lo, hp.hi, hp.pw⟩

theorem zs_app (s : LinScale) (v : View) (u : Rat) (hab : s.a < s.b) (hw : 0 < s.w) (hk : 0 < v.k) :
    LinScale.app ⟨(zoomDomain s v).1, (zoomDomain s v).2, s.w⟩ u = zoomScale s v u := by
  obtain ⟨h1, h2⟩ := zoomDomain_eq s v hw hk
  have hba : s.b - s.a ≠ 0 := ne_of_gt (sub_pos.2 hab)
  have hwne : s.w ≠ 0 := ne_of_gt hw
  have hkne : v.k ≠ 0 := ne_of_gt hk
  unfold LinScale.app zoomScale LinScale.app
  simp only [h2, h1, add_sub_cancel_left]
  field_simp
  ring

theorem correct_rescale (p : EvPlot) (v : View) (hab : p.x.a < p.x.b) (hw : 0 < p.x.w) (h0 : p.x0w = p.x.w)
    (hz : p.zs.w = p.x.w) (hk : 0 < v.k) : (p.rescale v).correct = p.rescale (zoomed p.x v) := by
  have hx : (⟨p.x.a, p.x.b, p.x.w⟩ : LinScale) = p.x := rfl
  have hzs : (p.rescale v).zs = ⟨(zoomDomain p.x v).1, (zoomDomain p.x v).2, p.x.w⟩ := by
    unfold EvPlot.rescale; rw [h0, hx, hz]
  have happ : ∀ u, (p.rescale v).zs.app u = zoomScale p.x v u := by
    intro u; rw [hzs]; exact zs_app p.x v u hab hw hk
  have hw' : (p.rescale v).zs.w = p.x.w := by rw [hzs]
  unfold EvPlot.correct zoomed
  rw [happ, happ, hw']
  have e1 : (p.rescale v).zs.a = (zoomDomain p.x v).1 := by rw [hzs]
  have e2 : (p.rescale v).zs.b = (zoomDomain p.x v).2 := by rw [hzs]
  rw [e1, e2]
  have e3 : (p.rescale v).x = p.x := rfl
  have e4 : (p.rescale v).view = v := rfl
  rw [e3, e4]
  split
  · rfl
  · split <;> rfl

theorem brush_good (g : EvPage) (i : Nat) (u v w : Rat) (p : EvPlot) (hw : 0 < w) (hW : g.width = w)
    (hp : g.plots[i]? = some p) (hs : p.summary = true) (hg : p.Good w) (h1 : p.x.a ≤ u) (h2 : u < v) (h3 : v ≤ p.x.b)
    (h4 : p.x.b - p.x.a ≤ 4096 * (v - u)) :
    ∃ q, (g.brush i u v).plots[i]? = some q ∧ q.Good w ∧ q.paths = ⟨u, v, w⟩ := by
  have hc : (v - u) * p.x.w ≤ g.width * (p.x.b - p.x.a) := by
    rw [hW, hg.xw, mul_comm]
    exact mul_le_mul_of_nonneg_left (by linarith) (le_of_lt hw)
  have hc' : g.width * (p.x.b - p.x.a) ≤ 4096 * ((v - u) * p.x.w) := by
    rw [hW, hg.xw]
    have := mul_le_mul_of_nonneg_left h4 (le_of_lt hw)
    linarith
  obtain ⟨q, hq, e1, e2, e3, e4, e5⟩ := C175_brush_exact g i p u v hp hs hg.ab (hg.xw ▸ hw) (hg.x0w ▸ hw)
    (hg.zs.trans hg.xw.symm) (hW ▸ hw) h2 hc hc'
  have hag := e5.2 ⟨Or.inr (hg.xw.trans hg.x0w.symm), hg.xw.trans hW.symm, hg.xw.trans hg.bs.symm⟩
  have hpaths : q.paths = ⟨u, v, w⟩ := by rw [hag, e4, hg.bs]
  have hq' := brush_self g i u v p hp hs
  rw [hq] at hq'
  have hq'' := Option.some.inj hq'
  refine ⟨q, hq, ⟨?_, ?_, ?_, ?_, ?_, hag, ?_, ?_, ?_⟩, hpaths⟩
  · rw [hq'']; exact hg.ab
  · rw [hq'']; exact hg.xw
  · rw [hq'']; exact hg.x0w
  · rw [hq'']; exact hg.zs
  · rw [hq'']; exact hg.bs
  · rw [hpaths, hq'']; exact h1
  · rw [hpaths, hq'']; exact h3
  · rw [hpaths]

theorem gesture_good (g : EvPage) (i : Nat) (v : View) (w : Rat) (p : EvPlot) (hw : 0 < w)
    (hp : g.plots[i]? = some p) (hg : p.Good w) (hk : 1 ≤ v.k) :
    ∃ q, (g.gesture i v).plots[i]? = some q ∧ q.Good w ∧
      q.paths.b - q.paths.a = (p.x.b - p.x.a) / v.k := by
  have hk0 : 0 < v.k := lt_of_lt_of_le one_pos hk
  have hxw : 0 < p.x.w := hg.xw ▸ hw
  have h0 : p.x0w = p.x.w := hg.x0w.trans hg.xw.symm
  have hc := correct_rescale p v hg.ab hxw h0 (hg.zs.trans hg.xw.symm) hk0
  have hq := gesture_self g i v p hp
  rw [hc] at hq
  obtain ⟨e1, e2, e3, _⟩ := C130_zoom p.x v hg.ab hxw hk
  have ha : (p.rescale (zoomed p.x v)).zs = ⟨(zoomDomain p.x (zoomed p.x v)).1, (zoomDomain p.x (zoomed p.x v)).2, w⟩ := by
    unfold EvPlot.rescale
    rw [h0, hg.zs]
  refine ⟨_, hq, ⟨hg.ab, hg.xw, hg.x0w, hg.zs, hg.bs, ?_, ?_, ?_, hg.zs⟩, ?_⟩
  · have : (p.rescale (zoomed p.x v)).bs.w = (p.rescale (zoomed p.x v)).zs.w := hg.bs.trans hg.zs.symm
    unfold EvPlot.drawAxis EvPlot.drawMain
    simp only [this]
  · show p.x.a ≤ (p.rescale (zoomed p.x v)).zs.a
    rw [ha]; exact e1
  · show (p.rescale (zoomed p.x v)).zs.b ≤ p.x.b
    rw [ha]; exact e2
  · show (p.rescale (zoomed p.x v)).zs.b - (p.rescale (zoomed p.x v)).zs.a = _
    rw [ha]; exact e3

structure EvPage.Good (w : Rat) (g : EvPage) : Prop where
  plots : ∀ (j : Nat) (p : EvPlot), g.plots[j]? = some p → p.Good w
  width : g.plots ≠ [] → g.width = w ∧ 0 < w

theorem good_len {w : Rat} {g g' : EvPage} (hg : g.Good w) (hw : g'.width = g.width)
    (hl : g'.plots.length = g.plots.length) : g'.plots ≠ [] → g'.width = w ∧ 0 < w := by
  intro hne
  rw [hw]
  apply hg.width
  intro h'
  rw [h'] at hl
  exact hne (List.eq_nil_of_length_eq_zero hl)

theorem ne_nil_of_get {l : List EvPlot} {j : Nat} {p : EvPlot} (h : l[j]? = some p) : l ≠ [] := by
  intro h'; rw [h'] at h; simp at h

theorem get_of_len {l l' : List EvPlot} {j : Nat} {p : EvPlot} (h : l[j]? = some p) (hl : l.length = l'.length) :
    ∃ q, l'[j]? = some q := by
  have := (List.getElem?_eq_some_iff.1 h).1
  exact ⟨l'[j]'(by omega), List.getElem?_eq_getElem (by omega)⟩

theorem act_good (w : Rat) (g : EvPage) (a : EvAct) (hg : g.Good w) (ha : EvActOk g a) (hst : a.Still w) :
    (g.act a).Good w := by
  cases a with
  | draw a b w' s =>
    have hst' : w' = w := hst
    subst hst'
    refine ⟨fun j p hp => ?_, fun _ => ⟨rfl, ha.2⟩⟩
    simp only [EvPage.act, EvPage.draw, List.getElem?_append] at hp
    split at hp
    · exact hg.plots j p hp
    · rw [List.getElem?_singleton] at hp
      split at hp
      · cases hp; exact ⟨ha.1, rfl, rfl, rfl, rfl, rfl, le_refl _, le_refl _, rfl⟩
      · cases hp
  | gesture i v =>
    refine ⟨fun j p hp => ?_, good_len hg (gesture_width _ _ _) (gesture_length _ _ _)⟩
    obtain ⟨r, hr⟩ := get_of_len (l' := g.plots) hp (gesture_length g i v)
    by_cases hij : i = j
    · subst hij
      obtain ⟨q, h1, h2, _⟩ := gesture_good g i v w r (hg.width (ne_nil_of_get hr)).2 hr (hg.plots i r hr) ha.1
      have : some p = some q := hp.symm.trans h1
      cases this; exact h2
    · obtain ⟨s, h1, h2, _⟩ := gesture_other g i j v hij r hr
      have : some p = some _ := hp.symm.trans h1
      cases this; exact (hg.plots j r hr).of_bs s h2
  | brush i u v =>
    refine ⟨fun j p hp => ?_, good_len hg (brush_width _ _ _ _) (brush_length _ _ _ _)⟩
    obtain ⟨r, hr⟩ := get_of_len (l' := g.plots) hp (brush_length g i u v)
    by_cases hij : i = j
    · subst hij
      cases hs : r.summary
      · have : some p = some r := hp.symm.trans ((congrArg (fun g => g.plots[i]?) (brush_noSummary g i u v r hr hs)).trans hr)
        cases this; exact hg.plots i p hr
      · obtain ⟨e1, e2, e3, e4⟩ := ha r hr
        have hw := hg.width (ne_nil_of_get hr)
        obtain ⟨q, h1, h2, _⟩ := brush_good g i u v w r hw.2 hw.1 hr hs (hg.plots i r hr) e1 e2 e3 e4
        have : some p = some q := hp.symm.trans h1
        cases this; exact h2
    · obtain ⟨s, h1, h2, _⟩ := brush_other g i j u v hij r hr
      have : some p = some _ := hp.symm.trans h1
      cases this; exact (hg.plots j r hr).of_bs s h2
  | resize ws => exact hst.elim

theorem acts_good (w : Rat) (as : List EvAct) :
    ∀ g : EvPage, g.Good w → EvActsOk g as → (∀ a ∈ as, a.Still w) → (as.foldl EvPage.act g).Good w := by
  induction as with
  | nil => intro g hg _ _; exact hg
  | cons a as ih =>
    intro g hg h hs
    exact ih _ (act_good w g a hg h.1 (hs a List.mem_cons_self)) h.2 fun b hb => hs b (List.mem_cons_of_mem _ hb)

theorem run_good (w : Rat) (as : List EvAct) (h : EvActsOk ⟨0, []⟩ as) (hs : ∀ a ∈ as, a.Still w) :
    (EvPage.run as).Good w :=
  acts_good w as _ ⟨fun j p h => by simp at h, fun h => absurd rfl h⟩ h hs

/-- **C175 (one width).** On a page on which every plot is drawn with the same width and nothing is resized, whatever is zoomed and
brushed in whichever plots: in every plot the events stand where the axis says, and no time is shown that is not in the data. -/
theorem C175_one_width_partial (w : Rat) (as : List EvAct) (h : EvActsOk ⟨0, []⟩ as) (hs : ∀ a ∈ as, a.Still w)
    (j : Nat) (p : EvPlot) (hp : (EvPage.run as).plots[j]? = some p) :
    p.paths = p.axis ∧ p.x.a ≤ p.paths.a ∧ p.paths.b ≤ p.x.b ∧ p.paths.w = w :=
  let hg := (run_good w as h hs).plots j p hp
  ⟨hg.agree, hg.lo, hg.hi, hg.pw⟩

/-- **C175 (brush, one width).** On such a page a brush shows what was brushed. -/
theorem C175_brush_one_width_partial (w : Rat) (as : List EvAct) (h : EvActsOk ⟨0, []⟩ as) (hs : ∀ a ∈ as, a.Still w)
    (i : Nat) (u v : Rat) (p : EvPlot) (hp : (EvPage.run as).plots[i]? = some p) (hsum : p.summary = true)
    (h1 : p.x.a ≤ u) (h2 : u < v) (h3 : v ≤ p.x.b) (h4 : p.x.b - p.x.a ≤ 4096 * (v - u)) :
    ∃ q, (EvPage.run (as ++ [.brush i u v])).plots[i]? = some q ∧ q.paths = ⟨u, v, w⟩ ∧ q.axis = ⟨u, v, w⟩ := by
  have hg := run_good w as h hs
  have hw := hg.width (ne_nil_of_get hp)
  rw [run_snoc]
  obtain ⟨q, e1, e2, e3⟩ := brush_good (EvPage.run as) i u v w p hw.2 hw.1 hp hsum (hg.plots i p hp) h1 h2 h3 h4
  exact ⟨q, e1, e3, e2.agree ▸ e3⟩

/-- two plots of the same width, zoomed and brushed in turn -/
example : (EvPage.run [.draw 0 10 100 true, .draw 0 5 100 false, .gesture 0 ⟨2, -150⟩, .gesture 1 ⟨2, 20⟩,
      .brush 0 1 3]).plots.map (fun p => (p.paths, p.axis)) =
    [(⟨1, 3, 100⟩, ⟨1, 3, 100⟩), (⟨0, 5 / 2, 100⟩, ⟨0, 5 / 2, 100⟩)] := by decide +kernel

/-- such a sequence is allowed -/
example : EvActsOk ⟨0, []⟩ [.draw 0 10 100 true, .gesture 0 ⟨2, -150⟩, .brush 0 1 3] ∧
    ∀ a ∈ [EvAct.draw 0 10 100 true, .gesture 0 ⟨2, -150⟩, .brush 0 1 3], a.Still 100 := by
  refine ⟨⟨⟨by norm_num, by norm_num⟩, ⟨by norm_num, by norm_num⟩, ?_, trivial⟩, ?_⟩
  · intro p hp
    have : (((EvPage.act ⟨0, []⟩ (.draw 0 10 100 true)).act (.gesture 0 ⟨2, -150⟩)).plots[0]?).map EvPlot.x =
        some ⟨0, 10, 100⟩ := by decide +kernel
    rw [hp] at this
    have : p.x = ⟨0, 10, 100⟩ := Option.some.inj this
    rw [this]
    norm_num
  · intro a ha
    simp only [List.mem_cons, List.not_mem_nil, or_false] at ha
    rcases ha with rfl | rfl | rfl
    · rfl
    · trivial
    · trivial

/-! ### Other widths and resizing -/

/-- **C175 (refuted for another plot of another width).** Two plots, the first `w` and the second `w'` wide: a brush in the first
shows the events of a window `w / w'` times as long as what was brushed, under an axis for what was brushed. -/
theorem C175_other_width_refuted (a b w a' b' w' u v : Rat) (s : Bool) (hab : a < b) (hw : 0 < w) (hw' : 0 < w')
    (hne : w ≠ w') (huv : u < v) (h1 : (v - u) * w ≤ w' * (b - a)) (h2 : w' * (b - a) ≤ 4096 * ((v - u) * w)) :
    ∃ q, (EvPage.run [.draw a b w true, .draw a' b' w' s, .brush 0 u v]).plots[0]? = some q ∧
      q.paths = ⟨u, u + (v - u) * (w / w'), w⟩ ∧ q.axis = ⟨u, v, w⟩ ∧ q.paths ≠ q.axis := by
  obtain ⟨q, hq, e1, e2, e3, e4, e5⟩ := C175_brush_exact (EvPage.run [.draw a b w true, .draw a' b' w' s]) 0
    ⟨⟨a, b, w⟩, w, ⟨1, 0⟩, ⟨a, b, w⟩, ⟨a, b, w⟩, true, ⟨a, b, w⟩, ⟨a, b, w⟩⟩ u v rfl rfl hab hw hw rfl hw' huv h1 h2
  refine ⟨q, hq, ?_, e4, fun h => hne (e5.1 h).2.1⟩
  have ea : q.paths.a = u := by rw [e1]; simp only; rw [div_self (ne_of_gt hw)]; ring
  have : q.paths = ⟨q.paths.a, q.paths.b, q.paths.w⟩ := rfl
  rw [this, e2, e3, ea]
  rfl

/-- 2 to 4 are brushed in a plot half as wide as another: 2 to 3 are drawn, under an axis from 2 to 4 -/
example : (EvPage.run [.draw 0 10 100 true, .draw 0 10 200 true, .brush 0 2 4]).plots.map (fun p => (p.paths, p.axis)) =
    [(⟨2, 3, 100⟩, ⟨2, 4, 100⟩), (⟨0, 10, 200⟩, ⟨0, 10, 200⟩)] := by decide +kernel

theorem correct_inside (p : EvPlot) (h1 : p.x.a ≤ p.zs.a) (h2 : p.zs.b ≤ p.x.b) : p.correct = p := by
  unfold EvPlot.correct
  rw [if_neg (not_lt.2 h1), if_neg (not_lt.2 h2)]

/-- a page with one plot after a resize -/
theorem run_draw_resize (a b w : Rat) (ws : Nat → Rat) :
    (EvPage.run [.draw a b w true, .resize ws]).width = w ∧
    (EvPage.run [.draw a b w true, .resize ws]).plots[0]? = some
      ⟨⟨a, b, ws 0⟩, w, ⟨1, 0⟩, ⟨a, b, ws 0⟩, ⟨a, b, ws 0⟩, true, ⟨a, b, ws 0⟩, ⟨a, b, ws 0⟩⟩ := by
  refine ⟨resize_width _ _, ?_⟩
  obtain ⟨s, h1, h2⟩ := resize_get (EvPage.run [.draw a b w true]) ws 0
    ⟨⟨a, b, w⟩, w, ⟨1, 0⟩, ⟨a, b, w⟩, ⟨a, b, w⟩, true, ⟨a, b, w⟩, ⟨a, b, w⟩⟩ rfl
  have h1' : s.w = ws 0 := h1
  refine Eq.trans h2 ?_
  simp only [if_true]
  rw [correct_inside _ (le_refl _) (le_refl _)]
  unfold EvPlot.drawAxis EvPlot.drawMain EvPlot.widen
  simp only [h1']

/-- **C175 (refuted after a resize, brush).** One plot, drawn `w` wide and then resized to `w₁`: a brush from `u` to `v` shows the
events of that window moved and stretched by `w₁ / w` from the start of the data, under an axis from `u` to `v`. -/
theorem C175_resized_brush_refuted (a b w u v : Rat) (ws : Nat → Rat) (hab : a < b) (hw : 0 < w) (hw' : 0 < ws 0)
    (hne : ws 0 ≠ w) (huv : u < v) (h1 : (v - u) * ws 0 ≤ w * (b - a)) (h2 : w * (b - a) ≤ 4096 * ((v - u) * ws 0)) :
    ∃ q, (EvPage.run [.draw a b w true, .resize ws, .brush 0 u v]).plots[0]? = some q ∧
      q.paths = ⟨a + (u - a) * (ws 0 / w), a + (v - a) * (ws 0 / w), ws 0⟩ ∧ q.axis = ⟨u, v, ws 0⟩ ∧ q.paths ≠ q.axis := by
  obtain ⟨hW, hp⟩ := run_draw_resize a b w ws
  obtain ⟨q, hq, e1, e2, e3, e4, e5⟩ := C175_brush_exact (EvPage.run [.draw a b w true, .resize ws]) 0 _ u v hp rfl hab hw' hw
    rfl (hW.symm ▸ hw) huv (hW.symm ▸ h1) (hW.symm ▸ h2)
  rw [hW] at e2 e5
  refine ⟨q, hq, ?_, e4, fun h => hne (e5.1 h).2.1⟩
  have : q.paths = ⟨q.paths.a, q.paths.b, q.paths.w⟩ := rfl
  rw [this, e2, e3, e1, LinScale.mk.injEq]
  refine ⟨rfl, ?_, rfl⟩
  simp only
  ring

/-- the window was made half as wide; 4 to 8 are brushed, and 2 to 4 are drawn -/
example : (EvPage.run [.draw 0 10 100 true, .resize fun _ => 50, .brush 0 4 8]).plots.map (fun p => (p.paths, p.axis)) =
    [(⟨2, 4, 50⟩, ⟨4, 8, 50⟩)] := by decide +kernel

/-- **C175 (refuted after a resize, zoom).** One plot, drawn `w` wide and resized to `w₁`, and moved to the right with the mouse so
that it would start before the data: it is not moved back to the start of the data, but stays before it if the plot has become
narrower, and starts after it if it has become wider. -/
theorem C175_resized_zoom_refuted (a b w k t : Rat) (ws : Nat → Rat) (hab : a < b) (hw : 0 < w)
    (hne : ws 0 ≠ w) (hk : 1 ≤ k) (ht : 0 < t) :
    ∃ q, (EvPage.run [.draw a b w true, .resize ws, .gesture 0 ⟨k, t⟩]).plots[0]? = some q ∧
      q.paths.a = a - t / k / w * (b - a) * (1 - ws 0 / w) ∧ q.paths.a ≠ a ∧ (ws 0 < w → q.paths.a < a) := by
  obtain ⟨_, hp⟩ := run_draw_resize a b w ws
  have hk0 : 0 < k := lt_of_lt_of_le one_pos hk
  have hkne : k ≠ 0 := ne_of_gt hk0
  have hwne : w ≠ 0 := ne_of_gt hw
  have hba : 0 < b - a := sub_pos.2 hab
  have hbane : b - a ≠ 0 := ne_of_gt hba
  have hpos : 0 < t / k / w * (b - a) := mul_pos (div_pos (div_pos ht hk0) hw) hba
  have hq := gesture_self (EvPage.run [.draw a b w true, .resize ws]) 0 ⟨k, t⟩ _ hp
  have hz : (EvPlot.rescale ⟨⟨a, b, ws 0⟩, w, ⟨1, 0⟩, ⟨a, b, ws 0⟩, ⟨a, b, ws 0⟩, true, ⟨a, b, ws 0⟩, ⟨a, b, ws 0⟩⟩ ⟨k, t⟩).zs =
      ⟨a - t / k / w * (b - a), a - t / k / w * (b - a) + (b - a) / k, ws 0⟩ := rescale_eq _ _ hw hk0
  have hc : (EvPlot.rescale ⟨⟨a, b, ws 0⟩, w, ⟨1, 0⟩, ⟨a, b, ws 0⟩, ⟨a, b, ws 0⟩, true, ⟨a, b, ws 0⟩, ⟨a, b, ws 0⟩⟩
      ⟨k, t⟩).correct.zs.a = a - t / k / w * (b - a) * (1 - ws 0 / w) := by
    unfold EvPlot.correct
    rw [if_pos (by rw [hz]; show a - t / k / w * (b - a) < a; linarith)]
    rw [rescale_eq _ _ hw hk0, hz]
    unfold LinScale.app
    show a - (t - (a - (a - t / k / w * (b - a))) / (a - t / k / w * (b - a) + (b - a) / k - (a - t / k / w * (b - a))) * ws 0
      + 0) / k / w * (b - a) = _
    have e1 : a - (a - t / k / w * (b - a)) = t / k / w * (b - a) := by ring
    have e2 : a - t / k / w * (b - a) + (b - a) / k - (a - t / k / w * (b - a)) = (b - a) / k := by ring
    rw [e1, e2]
    field_simp
    ring
  refine ⟨_, hq, hc, ?_, ?_⟩
  · show (EvPlot.correct _).zs.a ≠ a
    rw [hc]
    intro h
    have h0 : t / k / w * (b - a) * (1 - ws 0 / w) = 0 := by linarith
    rcases mul_eq_zero.1 h0 with h | h
    · exact absurd h (ne_of_gt hpos)
    · have : ws 0 / w = 1 := by linarith
      rw [div_eq_one_iff_eq hwne] at this
      exact hne this
  · intro hlt
    show (EvPlot.correct _).zs.a < a
    rw [hc]
    have : 0 < 1 - ws 0 / w := by
      have : ws 0 / w < 1 := by rw [div_lt_one hw]; exact hlt
      linarith
    have := mul_pos hpos this
    linarith

/-- twice as large and moved by 40 of 100 pixels after the plot was made half as wide: it starts at -1 -/
example : (EvPage.run [.draw 0 10 100 true, .resize fun _ => 50, .gesture 0 ⟨2, 40⟩]).plots.map (fun p => p.paths) =
    [⟨-1, 4, 50⟩] := by decide +kernel

/-- **C175 (resize, last plot).** After a resize the plot that was drawn last, if it has a summary, has its events where its axis
says, for the new width, whatever happened before. -/
theorem C175_resize_last (g : EvPage) (ws : Nat → Rat) (i : Nat) (p : EvPlot) (hp : g.plots[i]? = some p)
    (hl : i + 1 = g.plots.length) (hs : p.summary = true) :
    ∃ q, (g.resize ws).plots[i]? = some q ∧ q.paths = q.axis ∧ q.paths.w = ws i := by
  obtain ⟨s, h1, h2⟩ := resize_get g ws i p hp
  rw [if_pos hl] at h1
  rw [hs] at h2
  simp only [if_true] at h2
  obtain ⟨_, _, e3, _, e5, _⟩ := correct_keeps { p.widen (ws i) with bs := s }
  refine ⟨_, h2, ?_, ?_⟩
  · have hb : (EvPlot.correct { p.widen (ws i) with bs := s }).bs.w = (EvPlot.correct { p.widen (ws i) with bs := s }).zs.w := by
      rw [e5, e3]; exact h1
    unfold EvPlot.drawAxis EvPlot.drawMain
    simp only [hb]
  · exact e3

/-- **C175 (refuted for the other plots, resize).** A plot that is not the last of its page: after a resize its events are placed
for the new width, and its axis is drawn for the old one. -/
theorem C175_resize_axis_refuted (g : EvPage) (ws : Nat → Rat) (i : Nat) (p : EvPlot) (hp : g.plots[i]? = some p)
    (hl : i + 1 ≠ g.plots.length) (hs : p.summary = true) (hne : ws i ≠ p.bs.w) :
    ∃ q, (g.resize ws).plots[i]? = some q ∧ q.paths.w = ws i ∧ q.axis.w = p.bs.w ∧ q.paths ≠ q.axis := by
  obtain ⟨s, h1, h2⟩ := resize_get g ws i p hp
  rw [if_neg hl] at h1
  rw [hs] at h2
  simp only [if_true] at h2
  obtain ⟨_, _, e3, _, e5, _⟩ := correct_keeps { p.widen (ws i) with bs := s }
  have e3' : (EvPlot.correct { p.widen (ws i) with bs := s }).zs.w = ws i := e3
  have e5' : (EvPlot.correct { p.widen (ws i) with bs := s }).bs.w = p.bs.w := (congrArg LinScale.w e5).trans h1
  refine ⟨_, h2, e3', e5', fun h => hne ?_⟩
  exact e3'.symm.trans ((congrArg LinScale.w h).trans e5')

/-- two plots are made half as wide: the axis of the first is still 100 wide -/
example : (EvPage.run [.draw 0 10 100 true, .draw 0 10 100 true, .resize fun _ => 50]).plots.map (fun p => (p.paths, p.axis)) =
    [(⟨0, 10, 50⟩, ⟨0, 10, 100⟩), (⟨0, 10, 50⟩, ⟨0, 10, 50⟩)] := by decide +kernel

/-- **C175 (refuted without summary).** A plot without summary is not redrawn by a resize: its handler raises. Its scales have the
new width, what is on the page has the old one. -/
theorem C175_no_summary_refuted (g : EvPage) (ws : Nat → Rat) (i : Nat) (p : EvPlot) (hp : g.plots[i]? = some p)
    (hs : p.summary = false) :
    ∃ q, (g.resize ws).plots[i]? = some q ∧ q.paths = p.paths ∧ q.axis = p.axis ∧ q.x.w = ws i ∧ q.zs.w = ws i := by
  obtain ⟨s, h1, h2⟩ := resize_get g ws i p hp
  rw [hs] at h2
  exact ⟨_, h2, rfl, rfl, rfl, rfl⟩

example : (EvPage.run [.draw 0 10 100 false, .resize fun _ => 50]).plots.map (fun p => (p.paths, p.zs)) =
    [(⟨0, 10, 100⟩, ⟨0, 10, 50⟩)] := by decide +kernel

end Trappy
