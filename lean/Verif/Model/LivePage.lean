import Verif.Model.EventPage
import Verif.Model.EventDom
/-!
# A page with event plots: scales and elements together

Puts EventPage (the scales of all plots of a page, and the variables that they share) and EventDom (the elements of each plot) together,
with the data of EventPlotJs: `/repo/trappy/plotter/js/EventPlot.js` 86-134, 251-289, 355-395, 409-445, 455-479, 694-711, 795-830
and 892-924.

What each action draws is computed from the scales that the plot has at the time. The simplifications are those of EventPage, EventDom
and EventPlotJs. The number of ticks and the places of the markers are given with each action; `ms` is empty for a plot without
markers.
-/

namespace Trappy

/-- A path on the page: the name whose events it shows, and its lines -/
abbrev EvPath := Str × List Segment

/-- `getPaths(ePlot, s, …)` (EventPlot.js:892-924): the window is the domain of the scale (898-899). A `TypeError` (`none`) is excluded by
`picture_total`. -/
def picture (data : Dict (List LaneEvent)) (names : List Str) (s : LinScale) : List EvPath :=
  match drawnPaths false s.app s.a s.b data names with
  | some ps => ps
  | none => []

/-- the data of a plot (EventPlot.js:92-94) and its elements -/
structure LivePlot where
  data : Dict (List LaneEvent)
  names : List Str
  dom : EvDom EvPath

/-- A page: the scales of its plots, and their data and elements, in the order in which they were drawn -/
structure LivePage where
  page : EvPage
  live : List LivePlot

/-- the elements of the plot `i` are changed by what `f` draws from the scales that the plot now has -/
def LivePage.redraw (g : LivePage) (i : Nat) (f : EvPlot → LivePlot → EvDom EvPath) : LivePage :=
  match g.page.plots[i]? with
  | none => g
  | some p => { g with live := g.live.modify i fun l => { l with dom := f p l } }

/-- `zoomed` after the mouse has moved (EventPlot.js:251-289): `drawMain` takes `zoomScale` (798). -/
def LivePage.gesture (g : LivePage) (i : Nat) (v : View) (ticks : Nat) (ms : Option Rat × Option Rat) : LivePage :=
  LivePage.redraw { g with page := g.page.gesture i v } i fun p l => l.dom.zoomed (picture l.data l.names p.paths) ticks ms

/-- `_brushed_event` (EventPlot.js:355-395) -/
def LivePage.brush (g : LivePage) (i : Nat) (u v : Rat) (ticks : Nat) (ms : Option Rat × Option Rat) : LivePage :=
  LivePage.redraw { g with page := g.page.brush i u v } i fun p l => l.dom.brushed (picture l.data l.names p.paths) ticks ms

/-- the handler of one plot (EventPlot.js:425-441): `drawMiniPaths` (694-711) takes `x`. -/
def LivePage.resizePlot (g : LivePage) (i : Nat) (w : Rat) (ticks : Nat) (ms : Option Rat × Option Rat) : LivePage :=
  LivePage.redraw { g with page := g.page.resizePlot i w } i fun p l =>
    l.dom.resized w (picture l.data l.names p.paths) (picture l.data l.names p.x) ticks ms

/-- `generate` (EventPlot.js:86-423): `n` lanes -/
def LivePage.draw (g : LivePage) (data : Dict (List LaneEvent)) (names : List Str) (n : Nat) (a b w : Rat) (summary : Bool) (ticks : Nat) : LivePage :=
  ⟨g.page.draw a b w summary,
   g.live ++ [⟨data, names, EvDom.first summary n w (picture data names ⟨a, b, w⟩) (picture data names ⟨a, b, w⟩) ticks⟩]⟩

/-- What happens on a page -/
inductive LiveAct where
  | draw (data : Dict (List LaneEvent)) (names : List Str) (n : Nat) (a b w : Rat) (summary : Bool) (ticks : Nat)
  | gesture (i : Nat) (v : View) (ticks : Nat) (ms : Option Rat × Option Rat)
  /-- the gesture ends (414-417) -/
  | release (i : Nat)
  | brush (i : Nat) (u v : Rat) (ticks : Nat) (ms : Option Rat × Option Rat)
  | setA (i : Nat) (m : Rat)
  | setB (i : Nat) (m : Rat)
  /-- the window's size changes: widths, ticks and markers of each plot (443-444) -/
  | resize (ws : Nat → Rat) (ticks : Nat → Nat) (ms : Nat → Option Rat × Option Rat)

def LivePage.act (g : LivePage) : LiveAct → LivePage
  | .draw data names n a b w s t => g.draw data names n a b w s t
  | .gesture i v t ms => g.gesture i v t ms
  | .release i => g.redraw i fun _ l => l.dom.zoomEnd
  | .brush i u v t ms => g.brush i u v t ms
  | .setA i m => g.redraw i fun _ l => l.dom.act (.setA m)
  | .setB i m => g.redraw i fun _ l => l.dom.act (.setB m)
  | .resize ws ts ms => (List.range g.page.plots.length).foldl (fun g i => g.resizePlot i (ws i) (ts i) (ms i)) g

def LivePage.run (as : List LiveAct) : LivePage := as.foldl LivePage.act ⟨⟨0, []⟩, []⟩

end Trappy
