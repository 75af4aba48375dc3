import Verif.Prop.TracePage
import Verif.Prop.LivePage
/-!
# C180: from the trace file to what can be seen on the page of `plot_trace`, whatever is zoomed and brushed there
-/

namespace Trappy

open F64 Re Py

/-! ## Specification -/

/-- **Specification**: the elements show the runs as the scale `s` places them in its own window: each run of a task that is asked for with at least a hundredth of a pixel in the window has its line, in the lane of its CPU and
under the name and the pid of the task, and each line is the part of such a run in the window. -/
structure ShowsRuns (s : LinScale) (runs : Str → Nat → List Interval) (ps : List EvPath) : Prop where
  all : ∀ c q, ∀ iv ∈ runs c q, WideEnough s.app s.a s.b (runEvent iv) →
    ∃ path, (c ++ '-' :: natStr q, path) ∈ ps ∧ ∃ g ∈ path, ShownAs s.app s.a s.b (runEvent iv) g
  only : ∀ p ∈ ps, p.2 ≠ [] ∧ ∃ c q, p.1 = c ++ '-' :: natStr q ∧ ∀ g ∈ p.2, ∃ iv ∈ runs c q,
    (WideEnough s.app s.a s.b (runEvent iv) ∧ ShownAs s.app s.a s.b (runEvent iv) g) ∨
    (max (val iv.start) s.a < min (val iv.stop) s.b ∧ ShownExactly s.app s.a s.b (runEvent iv) g)

/-! ## C180 -/

theorem plotted_plots (as : List LiveAct) (j : Nat) (d : Dict (List LaneEvent) × List Str) (hd : (as.filterMap LiveAct.plotted)[j]? = some d) :
    ∃ p, (EvPage.run (as.filterMap LiveAct.scales)).plots[j]? = some p := by
  have h1 := (live_run_inv as).1
  rw [live_run_page] at h1
  have h2 := congrArg List.length (live_run_plotted as)
  rw [List.length_map] at h2
  have h3 := (List.getElem?_eq_some_iff.1 hd).1
  exact ⟨_, List.getElem?_eq_getElem (by omega)⟩

/-- **C180, partial.** The page of `plot_trace` for a file, in the browser, together with any other event plots, whatever is zoomed, brushed, marked and resized in whichever of them, in any order: what can be seen of the
trace are its runs as the scale places them by which the plot was drawn last, in the window of that scale, and nothing else; the summary shows all runs by its own scale.
If all plots have the same width and nothing is resized, that scale is the one of the axis and the window lies between the first and the last switch, and after a brush from `s` to `t` it is the window from `s` to `t`.
For all files, parsers, windows, tasks and histories. If the end of a run was lost, the task must have the same name when it is switched to again. -/
theorem C180_trace_live_partial (fuel : Nat) (ps : List ParserClass) (hps : ∀ p ∈ ps, p ∈ builtins) (hnd : ps.Nodup)
    (header : List Str) (items : List TraceItem) (h : TraceFile ps header items)
    (cells : ParserClass → TraceEvent → List (Str × Val))
    (hc : ∀ p ∈ ps, ClassReads fuel p.name (TraceItem.eventsOf p.event items) (cells p))
    (hm : ∀ p ∈ ps, EvenMasks p.name (TraceItem.eventsOf p.event items) (cells p))
    (u : UserParams) (hw : u.window.hi = none → u.absWindow.hi ≠ some 0)
    {p : ParserClass} (hp : p ∈ ps) (hname : p.name = cs!"sched_switch")
    {v : Str} {n : Nat} (hv : FirstHeader cs!"cpus" v (header ++ items.map TraceItem.text)) (hvn : IsDecimal v n) (hn : n ≠ 0) (execnames : List Str) (pids : List Nat)
    (v4 : Bool) {css : List Str} (hcss : ∀ l ∈ css, '<' ∉ l) {fig : Str} (hfig : '<' ∉ fig) (ft : Rat → Str) (num : Str → Option Rat) :
    ∃ (out : List Nat) (shift : Nat → Nat), MinimalTimes 0 (TraceItem.times items) out ∧
      (∀ t ∈ out, if u.normalize then NearestEven (val t - val (firstTime out)) (shift t) else shift t = t) ∧
      ∀ (sw : List SwitchRow) (f l : SwitchRow), List.Forall₂ IsSwitch ((fileRows (cells p) p items u out).map fun r => (shift r.1, r.2)) sw →
        sw.head? = some f → sw.getLast? = some l → Steady execnames pids sw → ReadsBack ft num (fun q => ∃ r ∈ sw, q = val r.time) →
        (∀ r ∈ sw, Tracked execnames pids r → ¬ EndsScript r.nextComm) →
        ∃ page chart data, tracePage ft v4 css fig fuel ps u (header ++ items.map TraceItem.text) execnames pids = .ok page ∧ shownChart num v4 fig page = some chart ∧
          chart.items = groupByLanes data ∧ chart.domain = (val f.time, val l.time) ∧ chart.lanes.length = n ∧
          ∀ (as : List LiveAct) (j : Nat), EvActsOk ⟨0, []⟩ (as.filterMap LiveAct.scales) → (as.filterMap LiveAct.plotted)[j]? = some (data, chart.names) →
            ∃ plot live, (EvPage.run (as.filterMap LiveAct.scales)).plots[j]? = some plot ∧ (LivePage.run as).live[j]? = some live ∧
              ShowsRuns plot.paths (fun c q => runsOf execnames pids l.time c q sw) live.dom.shown ∧
              (plot.summary = true → ShowsRuns plot.x (fun c q => runsOf execnames pids l.time c q sw) live.dom.mini) ∧
              ∀ w, (∀ a ∈ as.filterMap LiveAct.scales, a.Still w) →
                (ShowsRuns plot.axis (fun c q => runsOf execnames pids l.time c q sw) live.dom.shown ∧ plot.x.a ≤ plot.axis.a ∧ plot.axis.b ≤ plot.x.b) ∧
                ∀ (s t : Rat) (ticks : Nat) (ms : Option Rat × Option Rat), plot.summary = true → plot.x.a ≤ s → s < t → t ≤ plot.x.b → plot.x.b - plot.x.a ≤ 4096 * (t - s) →
                  ∃ after, (LivePage.run (as ++ [.brush j s t ticks ms])).live[j]? = some after ∧
                    ShowsRuns ⟨s, t, w⟩ (fun c q => runsOf execnames pids l.time c q sw) after.dom.shown := by
  obtain ⟨out, shift, o1, o2, o3⟩ := plotTrace_drawn fuel ps hps hnd header items h cells hc hm u hw hp hname hv hvn hn execnames pids
  refine ⟨out, shift, o1, o2, fun sw f l hsw hf hl hs hr he => ?_⟩
  obtain ⟨P, p1, ⟨R, r1, r2, r3⟩, p2, p3, _, _, p6⟩ := o3 sw f l hsw hf hl hs
  refine ⟨eventHtml v4 css fig (graphJson ft P), _, laneData R.data, by unfold tracePage; rw [p1],
    C164_page hr v4 hcss hfig (showable_runs hf hl hs r1 p2 p3 r2) ((noEndTag_runs r1 p2 r2 r3).2 he), r2, p3, ?_, ?_⟩
  · simp [p2]
  intro as j hok hd
  have key : ∀ (s : LinScale) (qs : List EvPath), s.a < s.b → 0 < s.w → drawnPaths false s.app s.a s.b (laneData R.data) P.keys = some qs →
      ShowsRuns s (fun c q => runsOf execnames pids l.time c q sw) qs := by
    intro s qs h1 h2 h3
    obtain ⟨qs', e1, _, e3, e4⟩ := p6 s.app (app_mono s h1 h2) s.a s.b
    rw [r2] at e1
    have e : qs' = qs := Option.some.inj (e1.symm.trans h3)
    subst e
    exact ⟨e3, e4⟩
  obtain ⟨plot, hplot⟩ := plotted_plots as j _ hd
  obtain ⟨live, l1, l2, l3⟩ := C179_shown as j plot _ _ hplot hd
  have hg := (run_wf _ hok).plots j plot hplot
  have ha : plot.Ahead := acts_ahead _ ⟨0, []⟩ empty_wf (fun j p h => by simp at h) hok j plot hplot
  refine ⟨plot, live, hplot, l1, key _ _ ha.paths ha.width l2, fun hsum => key _ _ hg.ab hg.xw (l3 hsum), fun w hst => ⟨?_, ?_⟩⟩
  · obtain ⟨e, h3, h4, _⟩ := C175_one_width_partial w _ hok hst j plot hplot
    rw [← e]
    exact ⟨key _ _ ha.paths ha.width l2, h3, h4⟩
  · intro s t ticks ms hsum h1 h2 h3 h4
    have ef : (as ++ [LiveAct.brush j s t ticks ms]).filterMap LiveAct.scales = as.filterMap LiveAct.scales ++ [.brush j s t] := by
      rw [List.filterMap_append]; rfl
    have ed : (as ++ [LiveAct.brush j s t ticks ms]).filterMap LiveAct.plotted = as.filterMap LiveAct.plotted := by
      rw [List.filterMap_append]; exact List.append_nil _
    obtain ⟨q, hq, e1, _⟩ := C175_brush_one_width_partial w _ hok hst j s t plot hplot hsum h1 h2 h3 h4
    obtain ⟨after, a1, a2, _⟩ := C179_shown (as ++ [.brush j s t ticks ms]) j q _ _ (ef.symm ▸ hq) (ed.symm ▸ hd)
    rw [e1] at a2
    obtain ⟨_, _, _, e4⟩ := C175_one_width_partial w _ hok hst j plot hplot
    exact ⟨after, a1, key ⟨s, t, w⟩ _ h2 (e4 ▸ ha.width) a2⟩

/-! ### Examples -/

/-- the runs of `exSwitchLines` -/
def exTraceRuns : Dict (List LaneEvent) := [(cs!"work-5", [⟨1, 2, .int 0⟩, ⟨5 / 2, 4, .int 1⟩]), (cs!"sh-6", [⟨2, 4, .int 0⟩])]

/-- What the browser gets from `exSwitchLines` -/
example : (match tracePage exFloatText true [] cs!"fig_1" 5 exWholeParsers (UserParams.full false) exSwitchLines [] [] with
    | .ok page => (shownChart exReadNum true cs!"fig_1" page).map fun c => (c.items, c.names, c.domain)
    | .error _ => none) = some (groupByLanes exTraceRuns, [cs!"sh-6", cs!"work-5"], (1, 4)) := by
  decide +kernel

/-- the plot of `exSwitchLines`, 300 pixels wide, after another plot of that width, zoomed and brushed -/
def exTraceActs : List LiveAct :=
  [.draw liveExample [cs!"a"] 1 0 10 300 false 5, .draw exTraceRuns [cs!"sh-6", cs!"work-5"] 2 1 4 300 true 5,
   .gesture 1 ⟨2, -60⟩ 5 (none, none), .release 1, .gesture 0 ⟨2, -100⟩ 5 (none, none)]

/-- A brush from 3/2 to 3: `work` on CPU 0 up to pixel 100, on CPU 1 from pixel 200 on, and `sh` on CPU 0 in between. (The only run of a window has its line twice: EventPlot.js:870-886.) -/
example : ((LivePage.run (exTraceActs ++ [.brush 1 (3 / 2) 3 5 (none, none)])).live[1]?.map fun l => l.dom.shown) =
    some [(cs!"sh-6", [⟨100, .int 0, 300⟩, ⟨100, .int 0, 300⟩]), (cs!"work-5", [⟨0, .int 0, 100⟩, ⟨0, .int 0, 100⟩, ⟨200, .int 1, 300⟩, ⟨200, .int 1, 300⟩])] := by
  decide +kernel

/-- The history is one of those of the theorem. -/
example : EvActsOk ⟨0, []⟩ (exTraceActs.filterMap LiveAct.scales) ∧ (exTraceActs.filterMap LiveAct.plotted)[1]? = some (exTraceRuns, [cs!"sh-6", cs!"work-5"]) ∧
    ∀ a ∈ exTraceActs.filterMap LiveAct.scales, a.Still 300 := by
  refine ⟨⟨⟨by norm_num, by norm_num⟩, ⟨by norm_num, by norm_num⟩, ⟨by norm_num, by norm_num⟩, ⟨by norm_num, by norm_num⟩, trivial⟩, rfl, ?_⟩
  intro a ha
  simp only [exTraceActs, List.filterMap, LiveAct.scales, List.mem_cons, List.not_mem_nil, or_false] at ha
  rcases ha with rfl | rfl | rfl | rfl
  · rfl
  · rfl
  · trivial
  · trivial

end Trappy
