import Verif.Model.LivePage
import Verif.Prop.EventPage
import Verif.Prop.EventDom
/-!
# C179: what can be seen of the events on a page, whatever was zoomed, brushed and resized
-/

namespace Trappy

/-! ## Specification -/

/-- **Specification**: what an action is for the scales of the page; markers and the end of a gesture are nothing to them. -/
def LiveAct.scales : LiveAct → Option EvAct
  | .draw _ _ _ a b w s _ => some (.draw a b w s)
  | .gesture i v _ _ => some (.gesture i v)
  | .release _ => none
  | .brush i u v _ _ => some (.brush i u v)
  | .setA _ _ => none
  | .setB _ _ => none
  | .resize ws _ _ => some (.resize ws)

/-- **Specification**: the data of the plots, in the order in which they were drawn -/
def LiveAct.plotted : LiveAct → Option (Dict (List LaneEvent) × List Str)
  | .draw data names _ _ _ _ _ _ => some (data, names)
  | _ => none

/-- **Specification**: the elements show the events as the scale `s` places them in its own window: each event of a listed name that has at
least a hundredth of a pixel in the window has its line, and each line is the part of an event in the window. -/
structure ShowsBy (s : LinScale) (data : Dict (List LaneEvent)) (names : List Str) (ps : List EvPath) : Prop where
  order : (ps.map Prod.fst).Sublist names
  all : ∀ name ∈ names, ∀ es, data.get name = some es → ∀ e ∈ es, WideEnough s.app s.a s.b e →
    ∃ path, (name, path) ∈ ps ∧ ∃ g ∈ path, ShownAs s.app s.a s.b e g
  only : ∀ p ∈ ps, p.2 ≠ [] ∧ ∀ g ∈ p.2, ∃ es e, data.get p.1 = some es ∧ e ∈ es ∧
    ((WideEnough s.app s.a s.b e ∧ ShownAs s.app s.a s.b e g) ∨ (max e.start s.a < min e.stop s.b ∧ ShownExactly s.app s.a s.b e g))

/-! ## Drawing never fails -/

theorem searchLoop_total {α : Type} (key : α → Rat) (data : List α) (value : Rat) (fuel left right : Nat)
    (hf : right - left ≤ fuel) (hlr : left ≤ right) (hr : right ≤ data.length) :
    ∃ i, searchLoop key data value fuel left right = some i ∧ i ≤ right := by
  induction fuel generalizing left right with
  | zero =>
    refine ⟨left, ?_, hlr⟩
    unfold searchLoop
    rw [if_neg (by omega)]
  | succ fuel ih =>
    unfold searchLoop
    by_cases h : left < right
    · rw [if_pos h]
      simp only
      rw [List.getElem?_eq_getElem (show (left + right) / 2 < data.length by omega)]
      simp only
      split
      · obtain ⟨i, h1, h2⟩ := ih left ((left + right) / 2) (by omega) (by omega) (by omega)
        exact ⟨i, h1, by omega⟩
      · exact ih ((left + right) / 2 + 1) right (by omega) (by omega) hr
    · rw [if_neg h]
      exact ⟨left, rfl, hlr⟩

theorem lanePath_total (x : Rat → Rat) (xMin xMax : Rat) (stride : Bool) (lane : Val) (data : List (Rat × Rat)) (h : data ≠ []) :
    ∃ p, lanePath x xMin xMax stride lane data = some p := by
  have hl : 0 < data.length := List.length_pos_of_ne_nil h
  unfold lanePath searchData
  obtain ⟨r, e1, h1⟩ := searchLoop_total Prod.fst data xMax (data.length - 1 - 0) 0 (data.length - 1) (by omega) (by omega) (by omega)
  rw [e1]
  simp only
  obtain ⟨l, e2, h2⟩ := searchLoop_total Prod.snd data xMin (r - 0) 0 r (by omega) (by omega) (by omega)
  rw [e2]
  simp only
  split
  · rw [List.getElem?_eq_getElem (show l < data.length by omega)]
    exact ⟨_, rfl⟩
  · exact ⟨_, rfl⟩

theorem getPath_total (x : Rat → Rat) (xMin xMax : Rat) (stride : Bool) (lanes : List (Val × List (Rat × Rat)))
    (h : ∀ l ∈ lanes, l.2 ≠ []) : ∃ p, getPath x xMin xMax stride lanes = some p := by
  induction lanes with
  | nil => exact ⟨[], rfl⟩
  | cons l lanes ih =>
    obtain ⟨p, hp⟩ := lanePath_total x xMin xMax stride l.1 l.2 (h l List.mem_cons_self)
    obtain ⟨q, hq⟩ := ih fun l hl => h l (List.mem_cons_of_mem _ hl)
    unfold getPath
    rw [hp]
    simp only
    rw [hq]
    exact ⟨_, rfl⟩

/-- **C179 (drawing).** Whatever the events and the window, whether or not the events follow one another: `getPaths` does not raise. -/
theorem C179_total (stride : Bool) (x : Rat → Rat) (xMin xMax : Rat) (data : Dict (List LaneEvent)) (names : List Str) :
    ∃ ps, drawnPaths stride x xMin xMax data names = some ps := by
  unfold drawnPaths
  induction names with
  | nil => exact ⟨[], rfl⟩
  | cons name names ih =>
    have : ∃ p, getPath x xMin xMax false (((groupByLanes data).get name).getD []) = some p := by
      apply getPath_total
      rw [groupByLanes_get]
      cases data.get name with
      | none => intro l hl; cases hl
      | some es =>
        intro l hl
        exact ((groupLanes_mem es l).1 hl).2
    obtain ⟨p, hp⟩ := this
    obtain ⟨ps, hps⟩ := ih
    unfold getPaths
    rw [hp]
    simp only
    rw [hps]
    simp only
    split <;> exact ⟨_, rfl⟩

/-- events that overlap and go back, and a window outside of them -/
example : drawnPaths false (fun v => v * 10) 20 30 [(cs!"a", [⟨5, 6, .int 0⟩, ⟨0, 10, .int 0⟩, ⟨5, 6, .int 1⟩])] [cs!"a", cs!"b"] = some [] := by
  decide +kernel

theorem picture_total (data : Dict (List LaneEvent)) (names : List Str) (s : LinScale) :
    drawnPaths false s.app s.a s.b data names = some (picture data names s) := by
  obtain ⟨ps, h⟩ := C179_total false s.app s.a s.b data names
  unfold picture
  rw [h]

/-! ## Elements and scales -/

theorem redraw_page (g : LivePage) (i : Nat) (f : EvPlot → LivePlot → EvDom EvPath) : (g.redraw i f).page = g.page := by
  unfold LivePage.redraw
  split <;> rfl

theorem redraw_get (g : LivePage) (i j : Nat) (f : EvPlot → LivePlot → EvDom EvPath) (p : EvPlot) (hp : g.page.plots[j]? = some p) :
    (g.redraw i f).live[j]? = if i = j then (g.live[j]?).map fun l => { l with dom := f p l } else g.live[j]? := by
  unfold LivePage.redraw
  by_cases h : i = j
  · subst h
    rw [hp]
    simp only [List.getElem?_modify, if_true]
    rfl
  · rw [if_neg h]
    split
    · rfl
    · simp only [List.getElem?_modify, if_neg h, id_map']

theorem redraw_plotted (g : LivePage) (i : Nat) (f : EvPlot → LivePlot → EvDom EvPath) :
    (g.redraw i f).live.map (fun l => (l.data, l.names)) = g.live.map fun l => (l.data, l.names) := by
  unfold LivePage.redraw
  split
  · rfl
  · apply List.ext_getElem?
    intro j
    simp only [List.getElem?_map, List.getElem?_modify]
    cases g.live[j]? with
    | none => rfl
    | some l => by_cases h : i = j <;> simp [h]

/-- the elements of a plot are those of its scales -/
structure LiveInv (p : EvPlot) (l : LivePlot) : Prop where
  summary : l.dom.summary = p.summary
  inv : l.dom.Inv (picture l.data l.names p.paths)
  mini : p.summary = true → l.dom.mini = picture l.data l.names p.x

def LivePage.Inv (g : LivePage) : Prop :=
  g.page.plots.length = g.live.length ∧
  ∀ (j : Nat) (p : EvPlot) (l : LivePlot), g.page.plots[j]? = some p → g.live[j]? = some l → LiveInv p l

theorem LiveInv.of_bs {p : EvPlot} {l : LivePlot} (h : LiveInv p l) (s : LinScale) : LiveInv { p with bs := s } l :=
  ⟨h.summary, h.inv, h.mini⟩

theorem redraw_length (g : LivePage) (i : Nat) (f : EvPlot → LivePlot → EvDom EvPath) : (g.redraw i f).live.length = g.live.length := by
  have := congrArg List.length (redraw_plotted g i f)
  rwa [List.length_map, List.length_map] at this

theorem step_inv (g : LivePage) (page' : EvPage) (i : Nat) (f : EvPlot → LivePlot → EvDom EvPath) (hg : g.Inv)
    (hl : page'.plots.length = g.page.plots.length)
    (ho : ∀ (j : Nat) (r : EvPlot), i ≠ j → g.page.plots[j]? = some r → ∃ s, page'.plots[j]? = some { r with bs := s })
    (hs : ∀ (p : EvPlot) (l : LivePlot), g.page.plots[i]? = some p → g.live[i]? = some l → LiveInv p l →
      ∃ q, page'.plots[i]? = some q ∧ LiveInv q { l with dom := f q l }) :
    (LivePage.redraw { g with page := page' } i f).Inv := by
  refine ⟨?_, fun j p l hp h => ?_⟩
  · rw [redraw_page, redraw_length]
    exact hl.trans hg.1
  · rw [redraw_page] at hp
    rw [redraw_get { g with page := page' } i j f p hp] at h
    have hlen : j < g.page.plots.length := by
      rw [← hl]
      exact (List.getElem?_eq_some_iff.1 hp).1
    have hr : g.page.plots[j]? = some g.page.plots[j] := List.getElem?_eq_getElem hlen
    by_cases hij : i = j
    · subst hij
      rw [if_pos rfl] at h
      cases hlv : g.live[i]? with
      | none => rw [hlv] at h; cases h
      | some m =>
        rw [hlv] at h
        obtain ⟨q, h1, h2⟩ := hs _ m hr hlv (hg.2 i _ m hr hlv)
        have e : q = p := Option.some.inj (h1.symm.trans hp)
        subst e
        exact Option.some.inj h ▸ h2
    · rw [if_neg hij] at h
      obtain ⟨s, h1⟩ := ho j _ hij hr
      have e := Option.some.inj (h1.symm.trans hp)
      exact e ▸ (hg.2 j _ l hr h).of_bs s

theorem gesture_inv (g : LivePage) (hg : g.Inv) (i : Nat) (v : View) (t : Nat) (ms : Option Rat × Option Rat) : (g.gesture i v t ms).Inv := by
  refine step_inv g _ i _ hg (gesture_length _ _ _) (fun j r hij hr => ?_) fun p l hp _ h => ?_
  · obtain ⟨s, h, _⟩ := gesture_other g.page i j v hij r hr
    exact ⟨s, h⟩
  · refine ⟨_, gesture_self g.page i v p hp, ?_⟩
    obtain ⟨k1, _, _, k4, _⟩ := correct_keeps (p.rescale v)
    refine ⟨?_, zoomed_inv _ _ h.inv _ _ _, fun hs => ?_⟩
    · exact h.summary.trans k4.symm
    · have hs' : p.summary = true := k4.symm.trans hs
      refine (h.mini hs').trans ?_
      exact congrArg (picture l.data l.names) k1.symm

theorem brush_inv (g : LivePage) (hg : g.Inv) (i : Nat) (u v : Rat) (t : Nat) (ms : Option Rat × Option Rat) : (g.brush i u v t ms).Inv := by
  refine step_inv g _ i _ hg (brush_length _ _ _ _) (fun j r hij hr => ?_) fun p l hp _ h => ?_
  · obtain ⟨s, h, _⟩ := brush_other g.page i j u v hij r hr
    exact ⟨s, h⟩
  · cases hs : p.summary with
    | false =>
      have e : g.page.brush i u v = g.page := brush_noSummary g.page i u v p hp hs
      refine ⟨p, by rw [e]; exact hp, ?_⟩
      have hd : l.dom.summary = false := h.summary.trans hs
      have : l.dom.brushed (picture l.data l.names p.paths) t ms = l.dom := by
        unfold EvDom.brushed
        rw [hd]
        rfl
      rw [this]
      exact h
    | true =>
      have hd : l.dom.summary = true := h.summary.trans hs
      refine ⟨_, brush_self g.page i u v p hp hs, ?_, ?_, fun _ => ?_⟩
      · refine Eq.trans ?_ hs.symm
        show (EvDom.brushed l.dom _ t ms).summary = true
        unfold EvDom.brushed
        rw [if_pos hd]
        exact hd
      · have := brushed_inv l.dom _ h.inv
          (picture l.data l.names (((p.rescale (brushView g.page.width p.x u v)).drawMain u v).drawAxis).paths) t ms
        rw [if_pos hd] at this
        exact this
      · refine Eq.trans ?_ (h.mini hs)
        show (EvDom.brushed l.dom _ t ms).mini = _
        unfold EvDom.brushed
        rw [if_pos hd]
        rfl

theorem resizePlot_inv (g : LivePage) (hg : g.Inv) (i : Nat) (w : Rat) (t : Nat) (ms : Option Rat × Option Rat) : (g.resizePlot i w t ms).Inv := by
  refine step_inv g _ i _ hg (resizePlot_length _ _ _) (fun j r hij hr => ?_) fun p l hp _ h => ?_
  · obtain ⟨s, h, _⟩ := resizePlot_other g.page i j w hij r hr
    exact ⟨s, h⟩
  · obtain ⟨s, _, _, _, e⟩ := resizePlot_self g.page i w p hp
    simp only at e
    refine ⟨_, e, ?_⟩
    cases hs : p.summary with
    | false =>
      have hd : l.dom.summary = false := h.summary.trans hs
      rw [if_neg (by simp)]
      refine ⟨?_, ?_, fun h' => absurd (hs.symm.trans h') (by simp)⟩
      · refine Eq.trans ?_ hs.symm
        show (EvDom.resized l.dom w _ _ t ms).summary = false
        unfold EvDom.resized
        simp only [hd]
        rfl
      · have := resized_inv l.dom _ h.inv w (picture l.data l.names p.paths) (picture l.data l.names { p.x with w := w }) t ms
        rw [if_neg (by rw [hd]; simp)] at this
        exact this
    | true =>
      have hd : l.dom.summary = true := h.summary.trans hs
      rw [if_pos rfl]
      obtain ⟨k1, _, _, k4, _⟩ := correct_keeps { p.widen w with bs := s }
      refine ⟨?_, ?_, fun _ => ?_⟩
      · refine Eq.trans ?_ (Eq.trans hs.symm k4.symm)
        show (EvDom.resized l.dom w _ _ t ms).summary = true
        unfold EvDom.resized
        simp only [hd, if_true]
        rfl
      · have := resized_inv l.dom _ h.inv w
          (picture l.data l.names (((({ p.widen w with bs := s } : EvPlot).correct).drawMain
            (({ p.widen w with bs := s } : EvPlot).correct).zs.a (({ p.widen w with bs := s } : EvPlot).correct).zs.b).drawAxis).paths)
          (picture l.data l.names (((({ p.widen w with bs := s } : EvPlot).correct).drawMain
            (({ p.widen w with bs := s } : EvPlot).correct).zs.a (({ p.widen w with bs := s } : EvPlot).correct).zs.b).drawAxis).x) t ms
        rw [if_pos hd] at this
        exact this
      · show (EvDom.resized l.dom w _ _ t ms).mini = _
        unfold EvDom.resized
        simp only [hd, if_true]
        rfl

theorem local_inv (g : LivePage) (hg : g.Inv) (i : Nat) (f : LivePlot → EvDom EvPath)
    (h : ∀ l ps, l.dom.Inv ps → (f l).Inv ps ∧ (f l).summary = l.dom.summary ∧ (f l).mini = l.dom.mini) : (g.redraw i fun _ l => f l).Inv :=
  step_inv g g.page i _ hg rfl (fun _ r _ hr => ⟨r.bs, hr⟩) fun p l hp _ hi =>
    ⟨p, hp, (h l _ hi.inv).2.1.trans hi.summary, (h l _ hi.inv).1, fun hs => (h l _ hi.inv).2.2.trans (hi.mini hs)⟩

theorem resizes_inv (ws : Nat → Rat) (ts : Nat → Nat) (ms : Nat → Option Rat × Option Rat) (is : List Nat) (g : LivePage) (hg : g.Inv) :
    (is.foldl (fun g i => g.resizePlot i (ws i) (ts i) (ms i)) g).Inv := by
  induction is generalizing g with
  | nil => exact hg
  | cons i is ih => exact ih _ (resizePlot_inv g hg i _ _ _)

theorem live_act_inv (g : LivePage) (hg : g.Inv) (a : LiveAct) : (g.act a).Inv := by
  cases a with
  | draw data names n a b w s t =>
    refine ⟨?_, fun j p l hp hl => ?_⟩
    · simp only [LivePage.act, LivePage.draw, EvPage.draw, List.length_append, List.length_singleton, hg.1]
    · simp only [LivePage.act, LivePage.draw, EvPage.draw, List.getElem?_append] at hp hl
      rw [hg.1] at hp
      by_cases h : j < g.live.length
      · rw [if_pos h] at hp hl
        exact hg.2 j p l hp hl
      · rw [if_neg h, List.getElem?_singleton] at hp hl
        split at hp
        next h0 =>
          rw [if_pos h0] at hl
          cases hp
          cases hl
          refine ⟨rfl, first_inv _ _ _ _ _ _, fun hs => ?_⟩
          have hs : s = true := hs
          subst hs
          rfl
        · cases hp
  | gesture i v t ms => exact gesture_inv g hg i v t ms
  | release i => exact local_inv g hg i (fun l => l.dom.zoomEnd) fun l ps h => ⟨zoomEnd_inv _ _ h, rfl, rfl⟩
  | brush i u v t ms => exact brush_inv g hg i u v t ms
  | setA i m => exact local_inv g hg i (fun l => l.dom.act (.setA m)) fun l ps h => ⟨⟨h.below, h.out, h.hidden, h.shown⟩, rfl, rfl⟩
  | setB i m => exact local_inv g hg i (fun l => l.dom.act (.setB m)) fun l ps h => ⟨⟨h.below, h.out, h.hidden, h.shown⟩, rfl, rfl⟩
  | resize ws ts ms => exact resizes_inv ws ts ms _ g hg

theorem live_run_inv (as : List LiveAct) : (LivePage.run as).Inv := by
  have : ∀ (as : List LiveAct) (g : LivePage), g.Inv → (as.foldl LivePage.act g).Inv := by
    intro as
    induction as with
    | nil => exact fun g h => h
    | cons a as ih => exact fun g h => ih _ (live_act_inv g h a)
  exact this as _ ⟨rfl, fun j p l hp => by simp at hp⟩

/-! ### The scales of the page -/

theorem live_act_page (g : LivePage) (a : LiveAct) :
    (g.act a).page = (match a.scales with | some b => g.page.act b | none => g.page) := by
  cases a with
  | resize ws ts ms =>
    have : ∀ (is : List Nat) (g : LivePage), (is.foldl (fun g i => g.resizePlot i (ws i) (ts i) (ms i)) g).page =
        is.foldl (fun g i => g.resizePlot i (ws i)) g.page := by
      intro is
      induction is with
      | nil => exact fun _ => rfl
      | cons i is ih =>
        intro g
        refine (ih _).trans ?_
        unfold LivePage.resizePlot
        rw [redraw_page]
        rfl
    exact this _ g
  | draw => rfl
  | gesture => exact redraw_page _ _ _
  | release => exact redraw_page _ _ _
  | brush => exact redraw_page _ _ _
  | setA => exact redraw_page _ _ _
  | setB => exact redraw_page _ _ _

theorem live_run_page (as : List LiveAct) : (LivePage.run as).page = EvPage.run (as.filterMap LiveAct.scales) := by
  have : ∀ (as : List LiveAct) (g : LivePage), (as.foldl LivePage.act g).page = (as.filterMap LiveAct.scales).foldl EvPage.act g.page := by
    intro as
    induction as with
    | nil => exact fun _ => rfl
    | cons a as ih =>
      intro g
      refine (ih _).trans ?_
      rw [live_act_page]
      cases h : a.scales with
      | none => rw [List.filterMap_cons_none h]
      | some b => rw [List.filterMap_cons_some h]; rfl
  exact this as _

theorem live_run_plotted (as : List LiveAct) :
    (LivePage.run as).live.map (fun l => (l.data, l.names)) = as.filterMap LiveAct.plotted := by
  have : ∀ (as : List LiveAct) (g : LivePage), (as.foldl LivePage.act g).live.map (fun l => (l.data, l.names)) =
      g.live.map (fun l => (l.data, l.names)) ++ as.filterMap LiveAct.plotted := by
    intro as
    induction as with
    | nil => exact fun g => (List.append_nil _).symm
    | cons a as ih =>
      intro g
      refine (ih _).trans ?_
      have hsame : a.plotted = none → (g.act a).live.map (fun l => (l.data, l.names)) = g.live.map fun l => (l.data, l.names) := by
        intro h
        cases a with
        | draw => cases h
        | resize ws ts ms =>
          have : ∀ (is : List Nat) (g : LivePage),
              (is.foldl (fun g i => g.resizePlot i (ws i) (ts i) (ms i)) g).live.map (fun l => (l.data, l.names)) =
                g.live.map fun l => (l.data, l.names) := by
            intro is
            induction is with
            | nil => exact fun _ => rfl
            | cons i is ih => exact fun g => (ih _).trans (redraw_plotted _ _ _)
          exact this _ g
        | gesture => exact redraw_plotted _ _ _
        | release => exact redraw_plotted _ _ _
        | brush => exact redraw_plotted _ _ _
        | setA => exact redraw_plotted _ _ _
        | setB => exact redraw_plotted _ _ _
      cases h : a.plotted with
      | none => rw [List.filterMap_cons_none h, hsame h]
      | some d =>
        rw [List.filterMap_cons_some h]
        cases a with
        | draw data names n a b w s t =>
          cases h
          simp [LivePage.act, LivePage.draw]
        | _ => cases h
  exact this as _

/-! ### Scales never turn round -/

/-- the scales of a plot go forward -/
structure EvPlot.Ahead (p : EvPlot) : Prop where
  k : 0 < p.view.k
  zs : p.zs.a < p.zs.b
  paths : p.paths.a < p.paths.b
  width : 0 < p.paths.w

theorem rescale_ahead (p : EvPlot) (v : View) (hab : p.x.a < p.x.b) (hw : 0 < p.x0w) (hk : 0 < v.k) :
    (p.rescale v).zs.a < (p.rescale v).zs.b := by
  rw [rescale_eq p v hw hk]
  have : 0 < (p.x.b - p.x.a) / v.k := div_pos (sub_pos.2 hab) hk
  simp only
  linarith

theorem correct_ahead (p : EvPlot) (hab : p.x.a < p.x.b) (hw : 0 < p.x0w) (hk : 0 < p.view.k) (hz : p.zs.a < p.zs.b) :
    p.correct.zs.a < p.correct.zs.b := by
  unfold EvPlot.correct
  split
  · exact rescale_ahead p _ hab hw hk
  · split
    · exact rescale_ahead p _ hab hw hk
    · exact hz

theorem drawn_ahead (q : EvPlot) (hw : 0 < q.zs.w) (hk : 0 < q.view.k) (hz : q.zs.a < q.zs.b) (lo hi : Rat) :
    ((q.drawMain lo hi).drawAxis).Ahead := ⟨hk, hz, hz, hw⟩

def EvPage.Ahead (g : EvPage) : Prop := ∀ (j : Nat) (p : EvPlot), g.plots[j]? = some p → p.Ahead

theorem act_ahead (g : EvPage) (a : EvAct) (hg : g.Wf) (ha : EvActOk g a) (h : g.Ahead) : (g.act a).Ahead := by
  intro j q hq
  have hlen : ∀ {g' : EvPage}, g'.plots.length = g.plots.length → g'.plots[j]? = some q → ∃ p, g.plots[j]? = some p := by
    intro g' hl hq
    have : j < g.plots.length := by rw [← hl]; exact (List.getElem?_eq_some_iff.1 hq).1
    exact ⟨_, List.getElem?_eq_getElem this⟩
  cases a with
  | draw a b w s =>
    simp only [EvPage.act, EvPage.draw, List.getElem?_append] at hq
    split at hq
    · exact h j q hq
    · rw [List.getElem?_singleton] at hq
      split at hq
      · cases hq; exact ⟨one_pos, ha.1, ha.1, ha.2⟩
      · cases hq
  | gesture i v =>
    obtain ⟨p, hp⟩ := hlen (gesture_length _ _ _) hq
    have hw := hg.plots j p hp
    by_cases hij : i = j
    · subst hij
      have e := Option.some.inj ((gesture_self g i v p hp).symm.trans hq)
      subst e
      have hk : 0 < v.k := lt_of_lt_of_le one_pos ha.1
      obtain ⟨_, _, k3, _, _, k6⟩ := correct_keeps (p.rescale v)
      refine drawn_ahead _ ?_ ?_ ?_ _ _
      · rw [k3]; exact (hw.zs.symm ▸ hw.xw : 0 < p.zs.w)
      · rw [k6]; exact hk
      · exact correct_ahead _ hw.ab hw.x0w hk (rescale_ahead p v hw.ab hw.x0w hk)
    · obtain ⟨s, h1, _⟩ := gesture_other g i j v hij p hp
      have e := Option.some.inj (h1.symm.trans hq)
      subst e
      have := h j p hp
      exact ⟨this.k, this.zs, this.paths, this.width⟩
  | brush i u v =>
    obtain ⟨p, hp⟩ := hlen (brush_length _ _ _ _) hq
    have hw := hg.plots j p hp
    by_cases hij : i = j
    · subst hij
      cases hs : p.summary with
      | false =>
        have hq : (g.brush i u v).plots[i]? = some q := hq
        rw [brush_noSummary g i u v p hp hs] at hq
        exact h i q hq
      | true =>
        have e := Option.some.inj ((brush_self g i u v p hp hs).symm.trans hq)
        subst e
        have hk : 0 < (brushView g.width p.x u v).k := lt_of_lt_of_le one_pos (le_max_left _ _)
        exact drawn_ahead (p.rescale (brushView g.width p.x u v)) (hw.zs.symm ▸ hw.xw : 0 < p.zs.w) hk (rescale_ahead p _ hw.ab hw.x0w hk) _ _
    · obtain ⟨s, h1, _⟩ := brush_other g i j u v hij p hp
      have e := Option.some.inj (h1.symm.trans hq)
      subst e
      have := h j p hp
      exact ⟨this.k, this.zs, this.paths, this.width⟩
  | resize ws =>
    obtain ⟨p, hp⟩ := hlen (resize_length _ _) hq
    have hw := hg.plots j p hp
    have hp' := h j p hp
    obtain ⟨s, _, h2⟩ := resize_get g ws j p hp
    have e := Option.some.inj (h2.symm.trans hq)
    subst e
    obtain ⟨_, _, k3, _, _, k6⟩ := correct_keeps { p.widen (ws j) with bs := s }
    simp only
    split
    · refine drawn_ahead _ ?_ ?_ ?_ _ _
      · rw [k3]; exact ha j
      · rw [k6]; exact hp'.k
      · exact correct_ahead { p.widen (ws j) with bs := s } hw.ab hw.x0w hp'.k hp'.zs
    · exact ⟨hp'.k, hp'.zs, hp'.paths, hp'.width⟩

theorem acts_ahead (as : List EvAct) : ∀ g : EvPage, g.Wf → g.Ahead → EvActsOk g as → (as.foldl EvPage.act g).Ahead := by
  induction as with
  | nil => exact fun g _ h _ => h
  | cons a as ih => exact fun g hg h ha => ih _ (act_wf g a hg ha.1) (act_ahead g a hg ha.1 h) ha.2

theorem app_mono (s : LinScale) (h : s.a < s.b) (hw : 0 < s.w) (u v : Rat) (huv : u ≤ v) : s.app u ≤ s.app v := by
  unfold LinScale.app
  have h1 : 0 < s.b - s.a := sub_pos.2 h
  exact mul_le_mul_of_nonneg_right (div_le_div_of_nonneg_right (by linarith) h1.le) hw.le

/-! ## C179 -/

/-- **C179 (elements).** Whatever is drawn, zoomed, brushed, marked and resized on a page with any event plots, in any order: for every plot the
paths that can be seen are those that `getPaths` gives for the scale by which the plot was placed last, and the summary shows those of its own
scale, from the first to the last event and as wide as the plot is now. -/
theorem C179_shown (as : List LiveAct) (j : Nat) (p : EvPlot) (data : Dict (List LaneEvent)) (names : List Str)
    (hp : (EvPage.run (as.filterMap LiveAct.scales)).plots[j]? = some p) (hd : (as.filterMap LiveAct.plotted)[j]? = some (data, names)) :
    ∃ l, (LivePage.run as).live[j]? = some l ∧
      drawnPaths false p.paths.app p.paths.a p.paths.b data names = some l.dom.shown ∧
      (p.summary = true → drawnPaths false p.x.app p.x.a p.x.b data names = some l.dom.mini) := by
  rw [← live_run_page] at hp
  rw [← live_run_plotted, List.getElem?_map] at hd
  cases hl : (LivePage.run as).live[j]? with
  | none => rw [hl] at hd; cases hd
  | some l =>
    rw [hl] at hd
    have e := Option.some.inj hd
    have hi := (live_run_inv as).2 j p l hp hl
    have e1 : l.data = data := congrArg Prod.fst e
    have e2 : l.names = names := congrArg Prod.snd e
    subst e1
    subst e2
    refine ⟨l, rfl, ?_, fun hs => ?_⟩
    · rw [hi.inv.shown]
      exact picture_total _ _ _
    · rw [hi.mini hs]
      exact picture_total _ _ _

/-- **C179 (events).** If the events of each lane of each name follow one another: whatever happens on the page, what can be seen of each plot
is its events as a scale places them that goes forward, each at least a hundredth of a pixel wide and nothing else; and the summary shows
the events from the first to the last in the same way. -/
theorem C179_events_partial (as : List LiveAct) (hok : EvActsOk ⟨0, []⟩ (as.filterMap LiveAct.scales)) (j : Nat) (p : EvPlot)
    (data : Dict (List LaneEvent)) (names : List Str)
    (hp : (EvPage.run (as.filterMap LiveAct.scales)).plots[j]? = some p) (hd : (as.filterMap LiveAct.plotted)[j]? = some (data, names))
    (ho : ∀ n es, (n, es) ∈ data → InOrder es) :
    ∃ l, (LivePage.run as).live[j]? = some l ∧ ShowsBy p.paths data names l.dom.shown ∧
      (p.summary = true → ShowsBy p.x data names l.dom.mini) ∧ p.paths.a < p.paths.b := by
  obtain ⟨l, h1, h2, h3⟩ := C179_shown as j p data names hp hd
  have hg := (run_wf _ hok).plots j p hp
  have ha : p.Ahead := acts_ahead _ ⟨0, []⟩ empty_wf (fun j p h => by simp at h) hok j p hp
  have key : ∀ (s : LinScale) (ps : List EvPath), s.a < s.b → 0 < s.w → drawnPaths false s.app s.a s.b data names = some ps →
      ShowsBy s data names ps := by
    intro s ps hs hw h
    obtain ⟨qs, e1, e2, e3, e4⟩ := C128_drawn_partial s.app (app_mono s hs hw) s.a s.b data ho names false
    have e := Option.some.inj (e1.symm.trans h)
    subst e
    exact ⟨e2, e3, e4⟩
  exact ⟨l, h1, key _ _ ha.paths ha.width h2, fun hs => key _ _ hg.ab hg.xw (h3 hs), ha.paths⟩

/-- **C179 (one width).** If moreover every plot is drawn with the same width and nothing is resized, what can be seen is the events of the
window that the axis shows, where the axis says. -/
theorem C179_axis_partial (w : Rat) (as : List LiveAct) (hok : EvActsOk ⟨0, []⟩ (as.filterMap LiveAct.scales))
    (hs : ∀ a ∈ as.filterMap LiveAct.scales, a.Still w) (j : Nat) (p : EvPlot) (data : Dict (List LaneEvent)) (names : List Str)
    (hp : (EvPage.run (as.filterMap LiveAct.scales)).plots[j]? = some p) (hd : (as.filterMap LiveAct.plotted)[j]? = some (data, names))
    (ho : ∀ n es, (n, es) ∈ data → InOrder es) :
    ∃ l, (LivePage.run as).live[j]? = some l ∧ ShowsBy p.axis data names l.dom.shown ∧ p.x.a ≤ p.axis.a ∧ p.axis.b ≤ p.x.b := by
  obtain ⟨l, h1, h2, _⟩ := C179_events_partial as hok j p data names hp hd ho
  obtain ⟨e, h3, h4, _⟩ := C175_one_width_partial w _ hok hs j p hp
  rw [e] at h2 h3 h4
  exact ⟨l, h1, h2, h3, h4⟩

/-- **C179 (brush, one width).** On such a page, after a brush from `u` to `v` in a plot with summary there can be seen in it the events
between `u` and `v`, and no element is left of what was drawn before. -/
theorem C179_brush_partial (w : Rat) (as : List LiveAct) (hok : EvActsOk ⟨0, []⟩ (as.filterMap LiveAct.scales))
    (hs : ∀ a ∈ as.filterMap LiveAct.scales, a.Still w) (i : Nat) (p : EvPlot) (data : Dict (List LaneEvent)) (names : List Str)
    (hp : (EvPage.run (as.filterMap LiveAct.scales)).plots[i]? = some p) (hsum : p.summary = true)
    (hd : (as.filterMap LiveAct.plotted)[i]? = some (data, names)) (ho : ∀ n es, (n, es) ∈ data → InOrder es) (u v : Rat) (t : Nat)
    (ms : Option Rat × Option Rat) (h1 : p.x.a ≤ u) (h2 : u < v) (h3 : v ≤ p.x.b) (h4 : p.x.b - p.x.a ≤ 4096 * (v - u)) :
    ∃ l, (LivePage.run (as ++ [.brush i u v t ms])).live[i]? = some l ∧ ShowsBy ⟨u, v, w⟩ data names (l.dom.items.map DomItem.path) ∧
      l.dom.items.map DomItem.path = l.dom.shown := by
  have ef : (as ++ [LiveAct.brush i u v t ms]).filterMap LiveAct.scales = as.filterMap LiveAct.scales ++ [.brush i u v] := by
    rw [List.filterMap_append]; rfl
  have ed : (as ++ [LiveAct.brush i u v t ms]).filterMap LiveAct.plotted = as.filterMap LiveAct.plotted := by
    rw [List.filterMap_append]; exact List.append_nil _
  obtain ⟨q, hq, e1, _⟩ := C175_brush_one_width_partial w _ hok hs i u v p hp hsum h1 h2 h3 h4
  have hok' : EvActsOk ⟨0, []⟩ (as.filterMap LiveAct.scales ++ [.brush i u v]) := by
    have : ∀ (bs : List EvAct) (g : EvPage) (a : EvAct), EvActsOk g bs → EvActOk (bs.foldl EvPage.act g) a → EvActsOk g (bs ++ [a]) := by
      intro bs
      induction bs with
      | nil => exact fun g a _ h => ⟨h, trivial⟩
      | cons b bs ih => exact fun g a h h' => ⟨h.1, ih _ a h.2 h'⟩
    refine this _ _ _ hok fun r hr => ?_
    have e : p = r := Option.some.inj (hp.symm.trans hr)
    subst e
    exact ⟨h1, h2, h3, h4⟩
  obtain ⟨l, hl, hsh, _⟩ := C179_events_partial (as ++ [.brush i u v t ms]) (ef.symm ▸ hok') i q data names
    (by rw [ef]; exact hq) (by rw [ed]; exact hd) ho
  rw [e1] at hsh
  have hitems : l.dom.items.map DomItem.path = l.dom.shown := by
    have hrun : LivePage.run (as ++ [.brush i u v t ms]) = (LivePage.run as).brush i u v t ms := by
      unfold LivePage.run
      rw [List.foldl_append]
      rfl
    rw [hrun] at hl
    unfold LivePage.brush at hl
    have hpage : ((LivePage.run as).page.brush i u v).plots[i]? = some q := by
      rw [live_run_page]
      have hq' := hq
      rw [run_snoc] at hq'
      exact hq'
    rw [redraw_get _ i i _ q hpage, if_pos rfl] at hl
    cases hm : (LivePage.run as).live[i]? with
    | none => rw [hm] at hl; cases hl
    | some m =>
      rw [hm] at hl
      have e := Option.some.inj hl
      have hms : m.dom.summary = true := by
        rw [← live_run_page] at hp
        exact ((live_run_inv as).2 i p m hp hm).summary.trans hsum
      rw [← e]
      show (EvDom.brushed m.dom _ t ms).items.map DomItem.path = (EvDom.brushed m.dom _ t ms).shown
      unfold EvDom.brushed
      rw [if_pos hms]
      unfold EvDom.shown
      show (([] : List (DomItem EvPath)) ++ List.mapIdx _ _).map DomItem.path = ((([] : List (DomItem EvPath)) ++ List.mapIdx _ _).filter _).map _
      rw [List.nil_append, mapIdx_path, mapIdx_shown]
  exact ⟨l, hl, hitems ▸ hsh, hitems⟩

/-- **C179 (refuted for plots of different widths).** Two plots, the first `w` and the second `w'` wide: after a brush from `u` to `v` in the
first, its axis shows `u` to `v`, and what can be seen is the events from `u` on for a time of `(v - u) * w / w'`. -/
theorem C179_other_width_refuted (a b w a' b' w' u v : Rat) (s : Bool) (data data' : Dict (List LaneEvent)) (names names' : List Str) (n n' t t' t'' : Nat)
    (ms : Option Rat × Option Rat) (hab : a < b) (hw : 0 < w) (hw' : 0 < w')
    (hne : w ≠ w') (huv : u < v) (h1 : (v - u) * w ≤ w' * (b - a)) (h2 : w' * (b - a) ≤ 4096 * ((v - u) * w)) :
    let as : List LiveAct := [.draw data names n a b w true t, .draw data' names' n' a' b' w' s t', .brush 0 u v t'' ms];
    ∃ p l, (EvPage.run (as.filterMap LiveAct.scales)).plots[0]? = some p ∧ (LivePage.run as).live[0]? = some l ∧ p.axis = ⟨u, v, w⟩ ∧
      drawnPaths false (LinScale.app ⟨u, u + (v - u) * (w / w'), w⟩) u (u + (v - u) * (w / w')) data names = some l.dom.shown ∧
      u + (v - u) * (w / w') ≠ v := by
  intro as
  obtain ⟨q, hq, e1, e2, e3⟩ := C175_other_width_refuted a b w a' b' w' u v s hab hw hw' hne huv h1 h2
  obtain ⟨l, hl, h3, _⟩ := C179_shown as 0 q data names hq rfl
  rw [e1] at h3
  refine ⟨q, l, hq, hl, e2, h3, fun h => e3 ?_⟩
  rw [e1, e2, h]

/-- three events of 1 second each -/
def liveExample : Dict (List LaneEvent) := [(cs!"a", [⟨0, 1, .int 0⟩, ⟨4, 5, .int 0⟩, ⟨8, 9, .int 0⟩])]

/-- Two plots of one width: a zoom in the second leaves the first alone; a brush from 3 to 8 in the first shows the second event, 20 to 40
pixels from its left border, and nothing else is left in it. (The only event of a window has its line twice: EventPlot.js:870-886.) -/
example : let g := LivePage.run [.draw liveExample [cs!"a"] 1 0 10 100 true 5, .draw liveExample [cs!"a"] 1 0 10 100 false 5,
      .gesture 1 ⟨2, -100⟩ 5 (none, none), .gesture 0 ⟨2, -20⟩ 5 (none, none), .brush 0 3 8 5 (none, none)];
    g.live.map (fun l => l.dom.shown) = [[(cs!"a", [⟨20, .int 0, 40⟩])], [(cs!"a", [⟨60, .int 0, 80⟩, ⟨60, .int 0, 80⟩])]] ∧
    g.live.map (fun l => l.dom.items.length) = [1, 2] ∧
    g.live.map (fun l => l.dom.mini) = [[(cs!"a", [⟨0, .int 0, 10⟩, ⟨40, .int 0, 50⟩, ⟨80, .int 0, 90⟩])], []] ∧
    g.page.plots.map (fun p => p.axis) = [⟨3, 8, 100⟩, ⟨5, 10, 100⟩] := by decide +kernel

/-- The same brush beside a plot twice as wide: the event from 4 to 5 is drawn 40 pixels from the left border to 80, where the axis says 5
to 7; from 5.5 on nothing is shown. -/
example : let g := LivePage.run [.draw liveExample [cs!"a"] 1 0 10 100 true 5, .draw liveExample [cs!"a"] 1 0 10 200 false 5,
      .brush 0 3 8 5 (none, none)];
    g.live.map (fun l => l.dom.shown) = [[(cs!"a", [⟨40, .int 0, 80⟩])], [(cs!"a", [⟨0, .int 0, 20⟩, ⟨80, .int 0, 100⟩, ⟨160, .int 0, 180⟩])]] ∧
    g.page.plots.map (fun p => p.axis) = [⟨3, 8, 100⟩, ⟨0, 10, 200⟩] := by decide +kernel

/-- the hypotheses of the theorems are met by the first of these pages -/
example : (let as : List LiveAct := [.draw liveExample [cs!"a"] 1 0 10 100 true 5, .draw liveExample [cs!"a"] 1 0 10 100 false 5,
      .gesture 1 ⟨2, -100⟩ 5 (none, none), .gesture 0 ⟨2, -20⟩ 5 (none, none)];
    EvActsOk ⟨0, []⟩ (as.filterMap LiveAct.scales) ∧ ∀ a ∈ as.filterMap LiveAct.scales, a.Still 100) ∧
    ∀ n es, (n, es) ∈ liveExample → InOrder es := by
  refine ⟨⟨⟨⟨by norm_num, by norm_num⟩, ⟨by norm_num, by norm_num⟩, ⟨by norm_num, by norm_num⟩, ⟨by norm_num, by norm_num⟩, trivial⟩, ?_⟩, ?_⟩
  · intro a ha
    replace ha : a ∈ [EvAct.draw 0 10 100 true, .draw 0 10 100 false, .gesture 1 ⟨2, -100⟩, .gesture 0 ⟨2, -20⟩] := ha
    simp only [List.mem_cons, List.not_mem_nil, or_false] at ha
    rcases ha with rfl | rfl | rfl | rfl
    · rfl
    · rfl
    · trivial
    · trivial
  · intro n es h
    simp only [liveExample, List.mem_singleton, Prod.mk.injEq] at h
    obtain ⟨-, rfl⟩ := h
    unfold InOrder
    simp only [List.pairwise_cons, List.mem_cons, List.not_mem_nil, or_false]
    refine ⟨?_, ?_, ?_, ?_⟩
    · rintro b (rfl | rfl) - <;> norm_num
    · rintro b rfl - ; norm_num
    · simp
    · exact List.Pairwise.nil

end Trappy
