import Verif.Model.EventDom
import Mathlib.Tactic.Linarith
import Mathlib.Data.List.Basic
/-!
# C177: the elements of an event plot on the page
-/

namespace Trappy

variable {α : Type}

/-! ## Specification -/

/-- **Specification**: the paths of the last action that draws the events of a plot. Without summary there is no brush, and a change
of the window's size draws nothing. -/
def lastDrawn (summary : Bool) : List α → List (DomAct α) → List α
  | ps, [] => ps
  | _, .zoom ps _ _ :: as => lastDrawn summary ps as
  | ps, .brush qs _ _ :: as => lastDrawn summary (if summary then qs else ps) as
  | ps, .resize _ qs _ _ _ :: as => lastDrawn summary (if summary then qs else ps) as
  | ps, .zoomEnd :: as => lastDrawn summary ps as
  | ps, .setA _ :: as => lastDrawn summary ps as
  | ps, .setB _ :: as => lastDrawn summary ps as

/-- **Specification**: the width after the last change of the window's size -/
def lastWidth : Rat → List (DomAct α) → Rat
  | w, [] => w
  | _, .resize w _ _ _ _ :: as => lastWidth w as
  | w, .zoom _ _ _ :: as => lastWidth w as
  | w, .brush _ _ _ :: as => lastWidth w as
  | w, .zoomEnd :: as => lastWidth w as
  | w, .setA _ :: as => lastWidth w as
  | w, .setB _ :: as => lastWidth w as

/-- **Specification**: the paths of the summary after the last change of the window's size -/
def lastMini : List α → List (DomAct α) → List α
  | m, [] => m
  | _, .resize _ _ m _ _ :: as => lastMini m as
  | m, .zoom _ _ _ :: as => lastMini m as
  | m, .brush _ _ _ :: as => lastMini m as
  | m, .zoomEnd :: as => lastMini m as
  | m, .setA _ :: as => lastMini m as
  | m, .setB _ :: as => lastMini m as

/-! ## What can be seen -/

/-- elements have different numbers below the next one; the last `zoomed` selected only elements that it hid or that were removed -/
structure EvDom.Inv (d : EvDom α) (ps : List α) : Prop where
  below : ∀ i ∈ d.items, i.id < d.fresh
  out : ∀ n ∈ d.outgoing, n < d.fresh
  hidden : ∀ i ∈ d.items, i.id ∈ d.outgoing → i.visible = false
  shown : d.shown = ps

theorem mapIdx_ids (f : Nat) (ps : List α) (i : DomItem α) (h : i ∈ ps.mapIdx fun j p => (⟨f + j, p, true⟩ : DomItem α)) :
    f ≤ i.id ∧ i.id < f + ps.length ∧ i.visible = true := by
  rw [List.mem_mapIdx] at h
  obtain ⟨j, hj, rfl⟩ := h
  exact ⟨Nat.le_add_right _ _, Nat.add_lt_add_left hj _, rfl⟩

theorem mapIdx_path (f : Nat) (ps : List α) : (ps.mapIdx fun j p => (⟨f + j, p, true⟩ : DomItem α)).map DomItem.path = ps := by
  apply List.ext_getElem?
  intro j
  rw [List.getElem?_map, List.getElem?_mapIdx, Option.map_map]
  simp [Function.comp_def]

theorem mapIdx_shown (f : Nat) (ps : List α) :
    ((ps.mapIdx fun j p => (⟨f + j, p, true⟩ : DomItem α)).filter DomItem.visible).map DomItem.path = ps := by
  have : ((ps.mapIdx fun j p => (⟨f + j, p, true⟩ : DomItem α)).filter DomItem.visible) = ps.mapIdx fun j p => ⟨f + j, p, true⟩ := by
    rw [List.filter_eq_self]
    exact fun i hi => (mapIdx_ids f ps i hi).2.2
  rw [this, mapIdx_path]

theorem drawMain_shown (d : EvDom α) (ps : List α) : (d.drawMain ps).shown = d.shown ++ ps := by
  unfold EvDom.shown EvDom.drawMain
  simp only [List.filter_append, List.map_append]
  rw [mapIdx_shown]

theorem zoomed_inv (d : EvDom α) (qs : List α) (h : d.Inv qs) (ps : List α) (t : Nat) (ms : Option Rat × Option Rat) :
    (d.zoomed ps t ms).Inv ps := by
  have hid : ∀ i ∈ d.items.map DomItem.hide, i.id < d.fresh ∧ i.visible = false := by
    intro i hi
    obtain ⟨j, hj, rfl⟩ := List.mem_map.1 hi
    exact ⟨h.below j hj, rfl⟩
  refine ⟨?_, ?_, ?_, ?_⟩
  · intro i hi
    rcases List.mem_append.1 hi with hi | hi
    · exact Nat.lt_of_lt_of_le (hid i hi).1 (Nat.le_add_right _ _)
    · exact (mapIdx_ids _ _ _ hi).2.1
  · intro n hn
    obtain ⟨j, hj, rfl⟩ := List.mem_map.1 hn
    exact Nat.lt_of_lt_of_le (h.below j hj) (Nat.le_add_right _ _)
  · intro i hi hn
    rcases List.mem_append.1 hi with hi | hi
    · exact (hid i hi).2
    · obtain ⟨j, hj, he⟩ := List.mem_map.1 hn
      have h1 := (mapIdx_ids _ _ _ hi).1
      have h2 := h.below j hj
      have h1 : d.fresh ≤ i.id := h1
      omega
  · refine Eq.trans (drawMain_shown { d with outgoing := d.items.map DomItem.id, items := d.items.map DomItem.hide } ps) ?_
    have : (EvDom.shown { d with outgoing := d.items.map DomItem.id, items := d.items.map DomItem.hide }) = [] := by
      unfold EvDom.shown
      rw [List.map_eq_nil_iff, List.filter_eq_nil_iff]
      intro i hi
      rw [(hid i hi).2]
      simp
    rw [this, List.nil_append]

theorem resized_inv (d : EvDom α) (ps : List α) (h : d.Inv ps) (w : Rat) (qs m : List α) (t : Nat) (ms : Option Rat × Option Rat) :
    (d.resized w qs m t ms).Inv (if d.summary then qs else ps) := by
  unfold EvDom.resized
  by_cases hs : d.summary = true
  · simp only [hs, if_true]
    refine zoomed_inv _ ps ?_ qs t ms
    exact ⟨h.below, h.out, h.hidden, h.shown⟩
  · simp only [hs]
    exact ⟨h.below, h.out, h.hidden, h.shown⟩

theorem brushed_inv (d : EvDom α) (ps : List α) (h : d.Inv ps) (qs : List α) (t : Nat) (ms : Option Rat × Option Rat) :
    (d.brushed qs t ms).Inv (if d.summary then qs else ps) := by
  unfold EvDom.brushed
  by_cases hs : d.summary = true
  · simp only [hs, if_true]
    refine ⟨?_, ?_, ?_, ?_⟩
    · intro i hi
      exact (mapIdx_ids _ _ _ ((List.mem_append.1 hi).resolve_left (by simp))).2.1
    · intro n hn
      exact Nat.lt_of_lt_of_le (h.out n hn) (Nat.le_add_right _ _)
    · intro i hi hn
      have h1 := (mapIdx_ids _ _ _ ((List.mem_append.1 hi).resolve_left (by simp))).1
      have h2 := h.out _ hn
      have h1 : d.fresh ≤ i.id := h1
      omega
    · exact Eq.trans (drawMain_shown { d with items := [], domainPath := false } qs) rfl
  · simp only [hs]
    exact h

theorem zoomEnd_inv (d : EvDom α) (ps : List α) (h : d.Inv ps) : d.zoomEnd.Inv ps := by
  refine ⟨fun i hi => h.below i (List.mem_filter.1 hi).1, h.out, fun i hi => h.hidden i (List.mem_filter.1 hi).1, ?_⟩
  rw [← h.shown]
  unfold EvDom.shown EvDom.zoomEnd
  congr 1
  simp only [List.filter_filter]
  apply List.filter_congr
  intro i hi
  by_cases ho : i.id ∈ d.outgoing
  · simp [h.hidden i hi ho]
  · simp [ho]

theorem act_inv (d : EvDom α) (ps : List α) (h : d.Inv ps) (a : DomAct α) :
    (d.act a).Inv (lastDrawn d.summary ps [a]) ∧ (d.act a).summary = d.summary := by
  cases a with
  | zoom p t m => exact ⟨zoomed_inv d ps h p t m, rfl⟩
  | zoomEnd => exact ⟨zoomEnd_inv d ps h, rfl⟩
  | brush p t m =>
    refine ⟨brushed_inv d ps h p t m, ?_⟩
    show (d.brushed p t m).summary = _
    unfold EvDom.brushed
    split <;> rfl
  | setA m => exact ⟨⟨h.below, h.out, h.hidden, h.shown⟩, rfl⟩
  | setB m => exact ⟨⟨h.below, h.out, h.hidden, h.shown⟩, rfl⟩
  | resize w p s t m =>
    refine ⟨resized_inv d ps h w p s t m, ?_⟩
    show (d.resized w p s t m).summary = _
    unfold EvDom.resized
    simp only
    split <;> rfl

theorem lastDrawn_cons (s : Bool) (ps : List α) (a : DomAct α) (as : List (DomAct α)) :
    lastDrawn s ps (a :: as) = lastDrawn s (lastDrawn s ps [a]) as := by
  cases a <;> rfl

theorem run_inv (as : List (DomAct α)) (d : EvDom α) (ps : List α) (h : d.Inv ps) : (d.run as).Inv (lastDrawn d.summary ps as) := by
  induction as generalizing d ps with
  | nil => exact h
  | cons a as ih =>
    obtain ⟨h1, h2⟩ := act_inv d ps h a
    have := ih (d.act a) _ h1
    rw [h2] at this
    rw [lastDrawn_cons]
    exact this

theorem first_inv (s : Bool) (n : Nat) (w : Rat) (ps mini : List α) (t : Nat) : (EvDom.first s n w ps mini t).Inv ps := by
  refine ⟨?_, (fun n hn => nomatch hn), (fun i _ hn => nomatch hn), ?_⟩
  · intro i hi
    exact (mapIdx_ids _ _ _ ((List.mem_append.1 hi).resolve_left (by simp))).2.1
  · exact Eq.trans (drawMain_shown _ ps) rfl

/-- **C177 (what can be seen).** Whatever was zoomed, brushed, clicked and resized, in whatever order: the events that can be seen are
those drawn last, each once and in their order, whatever is still on the page. -/
theorem C177_shown (s : Bool) (n : Nat) (w : Rat) (ps mini : List α) (t : Nat) (as : List (DomAct α)) :
    ((EvDom.first s n w ps mini t).run as).shown = lastDrawn s ps as :=
  (run_inv as _ ps (first_inv s n w ps mini t)).shown

/-- zooming twice, a brush before the end of the gesture, and a change of size: what is on the page, and what is seen of it -/
example : let d := (EvDom.first true 2 (100 : Rat) [1, 2] [7] 5).run [.zoom [3] 5 (none, none), .zoom [4, 5] 4 (none, none), .brush [6] 4 (none, none), .zoomEnd, .resize 50 [8] [9] 3 (none, none)];
    d.items = [⟨5, 6, false⟩, ⟨6, 8, true⟩] ∧ d.shown = [8] ∧ d.mini = [9] ∧ d.ticks = [(0, 0), (0, 0), (0, 0)] ∧
      d.lanes = [(0, 50), (0, 50)] := by decide +kernel

/-! ## What is left on the page -/

/-- **C177 (after a gesture).** When a zoom ends, and after a brush, nothing is on the page but what can be seen. -/
theorem C177_gesture_end (s : Bool) (n : Nat) (w : Rat) (ps mini : List α) (t : Nat) (as : List (DomAct α)) (qs : List α) (t' : Nat)
    (ms : Option Rat × Option Rat) :
    (((EvDom.first s n w ps mini t).run as).act (.zoom qs t' ms)).zoomEnd.items.map DomItem.path = qs ∧
    (s = true → (((EvDom.first s n w ps mini t).run as).act (.brush qs t' ms)).items.map DomItem.path = qs) := by
  have hinv := run_inv as _ ps (first_inv s n w ps mini t)
  have hsum : ((EvDom.first s n w ps mini t).run as).summary = s := by
    have : ∀ (as : List (DomAct α)) (d : EvDom α), (d.run as).summary = d.summary := by
      intro as
      induction as with
      | nil => intro d; rfl
      | cons a as ih =>
        intro d
        refine (ih (d.act a)).trans ?_
        cases a <;> first
          | rfl
          | (show (d.brushed _ _ _).summary = _; unfold EvDom.brushed; split <;> rfl)
          | (show (d.resized _ _ _ _ _).summary = _; unfold EvDom.resized; simp only; split <;> rfl)
    exact this as _
  generalize (EvDom.first s n w ps mini t).run as = d at *
  constructor
  · have hz := zoomEnd_inv _ _ (zoomed_inv d _ hinv qs t' ms)
    refine Eq.trans ?_ hz.shown
    unfold EvDom.shown
    congr 1
    symm
    show List.filter DomItem.visible (d.zoomed qs t' ms).zoomEnd.items = (d.zoomed qs t' ms).zoomEnd.items
    rw [List.filter_eq_self]
    intro i hi
    obtain ⟨h1, h2⟩ := List.mem_filter.1 hi
    rcases List.mem_append.1 h1 with h1 | h1
    · obtain ⟨j, hj, rfl⟩ := List.mem_map.1 h1
      have h3 : (d.items.map DomItem.id).contains j.id = true := by
        rw [List.contains_iff_mem]
        exact List.mem_map.2 ⟨j, hj, rfl⟩
      have h2 : (!(d.items.map DomItem.id).contains j.id) = true := h2
      rw [h3] at h2
      cases h2
    · exact (mapIdx_ids _ _ _ h1).2.2
  · intro hs
    show (d.brushed qs t' ms).items.map _ = _
    unfold EvDom.brushed
    rw [if_pos (hsum.trans hs)]
    show (([] : List (DomItem α)) ++ qs.mapIdx _).map _ = _
    rw [List.nil_append, mapIdx_path]

/-- **C177 (refuted for changes of size).** `resize` calls `zoomed`, but no gesture ends: all that was drawn before stays on the page,
hidden. After any number of changes of size the page has all paths of all of them. -/
theorem C177_resizes_refuted (d : EvDom α) (hd : d.summary = true) (rs : List (Rat × List α × List α × Nat × (Option Rat × Option Rat))) :
    (d.run (rs.map fun r => .resize r.1 r.2.1 r.2.2.1 r.2.2.2.1 r.2.2.2.2)).items.map DomItem.path =
      d.items.map DomItem.path ++ rs.flatMap fun r => r.2.1 := by
  induction rs generalizing d with
  | nil => simp [EvDom.run]
  | cons r rs ih =>
    have hsum : (d.resized r.1 r.2.1 r.2.2.1 r.2.2.2.1 r.2.2.2.2).summary = true := by
      unfold EvDom.resized; simp only; split <;> exact hd
    have hit : (d.resized r.1 r.2.1 r.2.2.1 r.2.2.2.1 r.2.2.2.2).items.map DomItem.path = d.items.map DomItem.path ++ r.2.1 := by
      unfold EvDom.resized
      simp only [hd, if_true]
      show (d.items.map _ ++ r.2.1.mapIdx _).map _ = _
      rw [List.map_append, List.map_map, mapIdx_path]
      rfl
    refine (ih _ hsum).trans ?_
    rw [hit]
    simp

/-- ten changes of size of a plot of two tasks: two paths are seen, 22 are on the page -/
example : let d := (EvDom.first true 2 (100 : Rat) [1, 2] [1, 2] 5).run (List.replicate 10 (.resize 90 [1, 2] [1, 2] 5 (none, none)));
    d.shown.length = 2 ∧ d.items.length = 22 := by decide +kernel

/-! ## Lines -/

/-- **Specification**: markers and ticks are vertical, the line of the axis is there, and the lane lines are as wide as the plot -/
def EvDom.Straight (d : EvDom α) (w : Rat) : Prop :=
  (∀ l ∈ d.ticks, l.1 = l.2) ∧ (∀ l, d.markA = some l → l.1 = l.2) ∧ (∀ l, d.markB = some l → l.1 = l.2) ∧
  (∀ l ∈ d.lanes, l = (0, w)) ∧ d.domainPath = true

theorem drawn_straight (d : EvDom α) (w : Rat) (hl : ∀ l ∈ d.lanes, l = (0, w)) (ps : List α) (t : Nat) (ms : Option Rat × Option Rat) :
    (((d.drawMain ps).drawAxis t).drawMarkers ms).Straight w := by
  refine ⟨?_, ?_, ?_, hl, rfl⟩
  · intro l h
    rw [(List.mem_replicate.1 h).2]
  · intro l h
    have h : ms.1.map (fun m => (m, m)) = some l := h
    obtain ⟨m, _, rfl⟩ := Option.map_eq_some_iff.1 h
    rfl
  · intro l h
    have h : ms.2.map (fun m => (m, m)) = some l := h
    obtain ⟨m, _, rfl⟩ := Option.map_eq_some_iff.1 h
    rfl

/-- **C177 (lines).** In a plot with summary markers and ticks are always vertical, the axis has its line, the lane lines end at the
last width of the plot, and the summary shows what was drawn into it last. -/
theorem C177_lines_partial (n : Nat) (w : Rat) (ps mini : List α) (t : Nat) (as : List (DomAct α)) :
    ((EvDom.first true n w ps mini t).run as).Straight (lastWidth w as) ∧
    ((EvDom.first true n w ps mini t).run as).mini = lastMini mini as := by
  have key : ∀ (as : List (DomAct α)) (d : EvDom α) (w : Rat) (m : List α), d.summary = true → d.Straight w → d.mini = m →
      (d.run as).Straight (lastWidth w as) ∧ (d.run as).mini = lastMini m as := by
    intro as
    induction as with
    | nil => exact fun d w m _ h hm => ⟨h, hm⟩
    | cons a as ih =>
      intro d w m hd h hm
      cases a with
      | zoom p t ms =>
        exact ih (d.zoomed p t ms) w m hd
          (drawn_straight { d with outgoing := d.items.map DomItem.id, items := d.items.map DomItem.hide } w h.2.2.2.1 p t ms) hm
      | zoomEnd => exact ih d.zoomEnd w m hd h hm
      | brush p t ms =>
        have e : d.brushed p t ms = (((EvDom.drawMain { d with items := [], domainPath := false } p).drawAxis t).drawMarkers ms) := by
          unfold EvDom.brushed; rw [if_pos hd]
        have := ih (d.brushed p t ms) w m (by rw [e]; exact hd) (by rw [e]; exact drawn_straight { d with items := [], domainPath := false } w h.2.2.2.1 p t ms) (by rw [e]; exact hm)
        exact this
      | setA x =>
        refine ih { d with markA := some (x, x) } w m hd ⟨h.1, ?_, h.2.2.1, h.2.2.2⟩ hm
        intro l hl
        have hl : some (x, x) = some l := hl
        cases hl; rfl
      | setB x =>
        refine ih { d with markB := some (x, x) } w m hd ⟨h.1, h.2.1, ?_, h.2.2.2⟩ hm
        intro l hl
        have hl : some (x, x) = some l := hl
        cases hl; rfl
      | resize v p s t ms =>
        have h1 : (d.resized v p s t ms).summary = true := by unfold EvDom.resized; simp only; split <;> exact hd
        refine ih (d.resized v p s t ms) v s h1 ?_ ?_
        · unfold EvDom.resized
          simp only [hd, if_true]
          refine drawn_straight _ v ?_ p t ms
          intro l hl
          obtain ⟨k, hk, rfl⟩ := List.mem_map.1 hl
          rw [h.2.2.2.1 k hk]
        · unfold EvDom.resized
          simp only [hd, if_true]
          rfl
  refine key as _ w mini rfl ⟨?_, ?_, ?_, ?_, rfl⟩ rfl
  · intro l h
    rw [(List.mem_replicate.1 h).2]
  · intro l h; cases h
  · intro l h; cases h
  · intro l h
    exact (List.mem_replicate.1 h).2

example : ((EvDom.first true 2 (100 : Rat) [1, 2] [7] 5).run [.setA 10, .resize 50 [8] [9] 3 (some 5, none)]).markA = some (5, 5) := by
  decide +kernel

/-- **C177 (refuted without summary).** In a plot without summary a change of the window's size draws nothing again, but `x2` of every line
is set to the width: each marker leads from its place at the top to the right border at the bottom, and each tick is a line as long as
the plot. Both stay until the next zoom. -/
theorem C177_slanted_refuted (n : Nat) (w : Rat) (ps mini : List α) (t : Nat) (as : List (DomAct α)) (v : Rat) (qs m : List α) (k : Nat)
    (ms : Option Rat × Option Rat) (l : Rat × Rat) :
    let d := (EvDom.first false n w ps mini t).run as
    let d' := d.act (.resize v qs m k ms)
    (d.markA = some l → d'.markA = some (l.1, v)) ∧ (d.markB = some l → d'.markB = some (l.1, v)) ∧
    (d'.ticks.length = d.ticks.length ∧ ∀ k ∈ d'.ticks, k.2 = v) ∧ d'.shown = d.shown := by
  intro d d'
  have hsum : d.summary = false := by
    have : ∀ (as : List (DomAct α)) (d : EvDom α), d.summary = false → (d.run as).summary = false := by
      intro as
      induction as with
      | nil => intro d h; exact h
      | cons a as ih =>
        intro d h
        refine ih (d.act a) ?_
        cases a <;> first
          | exact h
          | (show (d.brushed _ _ _).summary = _; unfold EvDom.brushed; split <;> exact h)
          | (show (d.resized _ _ _ _ _).summary = _; unfold EvDom.resized; simp only; split <;> exact h)
    exact this as _ rfl
  have e : d' = { d with lanes := d.lanes.map fun l => (l.1, v), ticks := d.ticks.map fun l => (l.1, v),
                         markA := d.markA.map fun l => (l.1, v), markB := d.markB.map fun l => (l.1, v) } := by
    show d.resized v qs m k ms = _
    unfold EvDom.resized
    simp only [hsum]
    rfl
  rw [e]
  refine ⟨fun h => ?_, fun h => ?_, ⟨by simp, fun k hk => ?_⟩, rfl⟩
  · simp only [h]; rfl
  · simp only [h]; rfl
  · obtain ⟨j, _, rfl⟩ := List.mem_map.1 hk
    rfl

/-- a marker in the middle of a plot 100 wide, which becomes 300 wide: the line leads to the corner; setting B does not mend it, a zoom does -/
example : let d := (EvDom.first false 2 (100 : Rat) [1, 2] [] 2).run [.setA 50, .resize 300 [1] [] 2 (some 150, none), .setB 20];
    d.markA = some (50, 300) ∧ d.markB = some (20, 20) ∧ d.ticks = [(0, 300), (0, 300)] ∧
    (d.act (.zoom [1] 2 (some 150, some 60))).markA = some (150, 150) := by decide +kernel

end Trappy
