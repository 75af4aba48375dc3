import Verif.Model.EventPlotJs
/-!
# Event plots on one page

Models what the event plots of one page share: `/repo/trappy/plotter/js/EventPlot.js` 86-134 (scales), 246-290 (zoom), 354-395
(brush), 397-441 (set-up and resizing), 454-495 (`resize_mini`, `resize_main`, `resize_info`) and 795-800 (`drawMain`).

`width` (line 104) and `brushScale` (line 133) are assigned without `var`: they are variables of the page, and hold what the plot
drawn last has put there. `resize` declares a `width` of its own (line 427).

Simplifications: numbers are rationals. Of what is drawn, only the scale is kept by which the events (`paths`) and the axis were
placed. Lanes, markers, the information box and the mini plot's own drawing are left out. Every plot has at least one event. Of
d3 3.5.6 it is assumed in addition to EventPlotJs: `zoom.x(s)` copies the scale `s`; setting the zoom's scale or translation, and
any movement of the mouse, sets the domain of `s` to what the *copy* inverts from its own range, and leaves the range of `s`
alone; listeners of the window run in the order in which they were added, and one that raises does not stop the others.
-/

namespace Trappy

/-- A plot (`ePlot`, EventPlot.js:223-245) -/
structure EvPlot where
  /-- the scale `x` (108-110) -/
  x : LinScale
  /-- width of the range of the zoom's copy of `zoomScale`, made when the plot was drawn (410-411) -/
  x0w : Rat
  /-- scale and translation of the zoom -/
  view : View
  /-- `zoomScale` (112-114) -/
  zs : LinScale
  /-- the plot's own `ePlot.brushScale` (133, 233), which is the scale of its axis (206-208) -/
  bs : LinScale
  /-- `showSummary` (95) -/
  summary : Bool
  /-- the scale by which the events on the page were placed -/
  paths : LinScale
  /-- the scale by which the axis on the page was drawn -/
  axis : LinScale
deriving DecidableEq

/-- A page: the variable `width`, and its plots in the order in which they were drawn. The variable `brushScale` is the
`brushScale` of the last of them. -/
structure EvPage where
  width : Rat
  plots : List EvPlot
deriving DecidableEq

/-- change one plot -/
def EvPage.upd (g : EvPage) (i : Nat) (f : EvPlot → EvPlot) : EvPage := { g with plots := g.plots.modify i f }

/-- change the scale that is in the variable `brushScale` -/
def EvPage.updBrushScale (g : EvPage) (f : LinScale → LinScale) : EvPage :=
  g.upd (g.plots.length - 1) fun p => { p with bs := f p.bs }

/-- The zoom's scale and translation are set; d3 sets the domain of `zoomScale`. -/
def EvPlot.rescale (p : EvPlot) (v : View) : EvPlot :=
  let d := zoomDomain ⟨p.x.a, p.x.b, p.x0w⟩ v
  { p with view := v, zs := ⟨d.1, d.2, p.zs.w⟩ }

/-- The correction at the borders (EventPlot.js:253-271) -/
def EvPlot.correct (p : EvPlot) : EvPlot :=
  if p.zs.a < p.x.a then p.rescale ⟨p.view.k, p.view.t - p.zs.app p.x.a + 0⟩
  else if p.x.b < p.zs.b then p.rescale ⟨p.view.k, p.view.t - p.zs.app p.x.b + p.zs.w⟩
  else p

/-- `drawMain` (EventPlot.js:795-800): the events are placed by `zoomScale`. -/
def EvPlot.drawMain (p : EvPlot) (lo hi : Rat) : EvPlot :=
  { p with bs := ⟨lo, hi, p.bs.w⟩, paths := p.zs }

/-- the axis is drawn (285-286, 391-392) -/
def EvPlot.drawAxis (p : EvPlot) : EvPlot := { p with axis := p.bs }

/-- `zoomed` (EventPlot.js:251-289) -/
def EvPage.zoomed (g : EvPage) (i : Nat) : EvPage :=
  match g.plots[i]? with
  | none => g
  | some p =>
    let q := p.correct
    let g1 := g.upd i fun _ => q.drawMain q.zs.a q.zs.b
    let g2 := g1.updBrushScale fun s => ⟨q.zs.a, q.zs.b, s.w⟩
    g2.upd i EvPlot.drawAxis

/-- `_brushed_event` (EventPlot.js:355-395). There is a brush only in a plot with summary. -/
def EvPage.brush (g : EvPage) (i : Nat) (u v : Rat) : EvPage :=
  match g.plots[i]? with
  | none => g
  | some p =>
    if p.summary then
      let scale := g.width / p.x.app (p.x.a + v - u)
      let q := p.rescale ⟨clampScale scale, 0 - p.x.app u * scale⟩
      let g1 := g.upd i fun _ => q
      let g2 := g1.updBrushScale fun s => ⟨u, v, s.w⟩
      let g3 := g2.upd i fun r => r.drawMain u v
      g3.upd i EvPlot.drawAxis
    else g

/-- The mouse moves the plot: d3 sets scale and translation and then calls `zoomed` (409-419). -/
def EvPage.gesture (g : EvPage) (i : Nat) (w : View) : EvPage :=
  (g.upd i fun p => p.rescale w).zoomed i

/-- `resize` of one plot, whose element has become `w` wide without its margins (EventPlot.js:425-441). `resize_mini` (457) raises
a `TypeError` for a plot without summary, which has no `ePlot.mini`; the handler ends there. -/
def EvPage.resizePlot (g : EvPage) (i : Nat) (w : Rat) : EvPage :=
  let g1 := g.upd i fun p => { p with x := { p.x with w := w }, zs := { p.zs with w := w } }
  let g2 := g1.updBrushScale fun s => { s with w := w }
  match g2.plots[i]? with
  | none => g2
  | some p => if p.summary then g2.zoomed i else g2

/-- The handlers of all plots, in order (443-444); `ws i` is the new width of the i-th plot. -/
def EvPage.resize (g : EvPage) (ws : Nat → Rat) : EvPage :=
  (List.range g.plots.length).foldl (fun g i => g.resizePlot i (ws i)) g

/-- `generate` (EventPlot.js:86-134, 409-423): a plot of the times `[a, b]`, `w` wide -/
def EvPage.draw (g : EvPage) (a b w : Rat) (summary : Bool) : EvPage :=
  ⟨w, g.plots ++ [⟨⟨a, b, w⟩, w, ⟨1, 0⟩, ⟨a, b, w⟩, ⟨a, b, w⟩, summary, ⟨a, b, w⟩, ⟨a, b, w⟩⟩]⟩

/-- What happens on a page -/
inductive EvAct where
  | draw (a b w : Rat) (summary : Bool)
  | gesture (i : Nat) (v : View)
  | brush (i : Nat) (u v : Rat)
  | resize (ws : Nat → Rat)

def EvPage.act (g : EvPage) : EvAct → EvPage
  | .draw a b w s => g.draw a b w s
  | .gesture i v => g.gesture i v
  | .brush i u v => g.brush i u v
  | .resize ws => g.resize ws

/-- a page from the beginning; `width` is not defined before the first plot -/
def EvPage.run (as : List EvAct) : EvPage := as.foldl EvPage.act ⟨0, []⟩

end Trappy
