import Mathlib.Data.Rat.Defs
import Mathlib.Tactic.Common
/-!
# The elements of an event plot on the page

Models which elements `/repo/trappy/plotter/js/EventPlot.js` adds, hides, changes and removes: 168-220 (lane lines, axis), 251-289
(`zoomed`), 312-349 (markers), 355-395 (`_brushed_event`), 409-423 (`zoomend`, first drawing), 425-441 (`resize`), 455-479
(`resize_mini`, `resize_main`), 575-597 (`drawVerticalLine`), 658-682 (`updateInfo`), 694-711 (`drawMiniPaths`), 795-830
(`drawMain`).

What is drawn by each action (the paths, the number of ticks, the places of the markers) is part of the action: see EventPlotJs
and EventPage for it. Here it is only followed what is on the page afterwards. Of lines only `x1` and `x2` are kept, those of ticks
relative to the tick. The information box, labels, tips and the context rectangle are left out.

Of d3 3.5.6 it is assumed: `selectAll('mainItems')` finds nothing (there is no such element), so that all paths are added;
`remove` of what was removed before does nothing; an axis that is drawn sets `x2` of its ticks to 0 and adds its line (`path.domain`)
if there is none.
-/

namespace Trappy

/-- an element of class `mItem` (EventPlot.js:803-816): which one, its path, and whether it is visible -/
structure DomItem (α : Type) where
  id : Nat
  path : α
  visible : Bool
deriving DecidableEq

/-- `.attr("visibility", "hidden")` (273-274) -/
def DomItem.hide {α : Type} (i : DomItem α) : DomItem α := ⟨i.id, i.path, false⟩

/-- The elements of a plot -/
structure EvDom (α : Type) where
  /-- `showSummary` (95) -/
  summary : Bool
  /-- elements of class `mItem` -/
  items : List (DomItem α)
  /-- the next element -/
  fresh : Nat
  /-- `outgoing` (250): the elements selected by the last `zoomed` -/
  outgoing : List Nat
  /-- `x1` and `x2` of the lane lines -/
  lanes : List (Rat × Rat)
  /-- the same of the ticks of the axis -/
  ticks : List (Rat × Rat)
  /-- whether the line of the axis is there -/
  domainPath : Bool
  /-- the line of the marker A, if it is drawn -/
  markA : Option (Rat × Rat)
  /-- and of the marker B -/
  markB : Option (Rat × Rat)
  /-- elements of class `miniItem` -/
  mini : List α
deriving DecidableEq

variable {α : Type}

/-- `drawMain` (795-830): one element for each path -/
def EvDom.drawMain (d : EvDom α) (paths : List α) : EvDom α :=
  { d with items := d.items ++ paths.mapIdx fun i p => ⟨d.fresh + i, p, true⟩, fresh := d.fresh + paths.length }

/-- `.call(ePlot.mainAxis)` (285-286, 391-392, 422-423) -/
def EvDom.drawAxis (d : EvDom α) (ticks : Nat) : EvDom α :=
  { d with ticks := List.replicate ticks (0, 0), domainPath := true }

/-- the markers are drawn again (`updateInfo`, 658-682, 582-588) -/
def EvDom.drawMarkers (d : EvDom α) (ms : Option Rat × Option Rat) : EvDom α :=
  { d with markA := ms.1.map fun m => (m, m), markB := ms.2.map fun m => (m, m) }

/-- `zoomed` (251-289) -/
def EvDom.zoomed (d : EvDom α) (paths : List α) (ticks : Nat) (ms : Option Rat × Option Rat) : EvDom α :=
  let d1 : EvDom α := { d with outgoing := d.items.map DomItem.id, items := d.items.map DomItem.hide }
  ((d1.drawMain paths).drawAxis ticks).drawMarkers ms

/-- `zoomend` (414-417) -/
def EvDom.zoomEnd (d : EvDom α) : EvDom α := { d with items := d.items.filter fun i => !d.outgoing.contains i.id }

/-- `_brushed_event` (355-395); there is a brush only with a summary. `main.selectAll("path")` has the line of the axis in it. -/
def EvDom.brushed (d : EvDom α) (paths : List α) (ticks : Nat) (ms : Option Rat × Option Rat) : EvDom α :=
  if d.summary then
    let d1 : EvDom α := { d with items := [], domainPath := false }
    ((d1.drawMain paths).drawAxis ticks).drawMarkers ms
  else d

/-- `resize` (425-441). `resize_main` (473-479) sets `x2` of all lines in the plot. `resize_mini` (455-468) raises a `TypeError` if
there is no summary. -/
def EvDom.resized (d : EvDom α) (w : Rat) (paths mini : List α) (ticks : Nat) (ms : Option Rat × Option Rat) : EvDom α :=
  let wide := fun l : Rat × Rat => (l.1, w)
  let d1 : EvDom α := { d with lanes := d.lanes.map wide, ticks := d.ticks.map wide, markA := d.markA.map wide, markB := d.markB.map wide }
  if d.summary then EvDom.zoomed { d1 with mini := mini } paths ticks ms else d1

/-- What happens to a plot, with what is drawn -/
inductive DomAct (α : Type) where
  | zoom (paths : List α) (ticks : Nat) (ms : Option Rat × Option Rat)
  | zoomEnd
  | brush (paths : List α) (ticks : Nat) (ms : Option Rat × Option Rat)
  /-- a click sets the marker A (331-341) -/
  | setA (m : Rat)
  /-- a click with ctrl sets the marker B (321-330) -/
  | setB (m : Rat)
  | resize (w : Rat) (paths mini : List α) (ticks : Nat) (ms : Option Rat × Option Rat)

def EvDom.act (d : EvDom α) : DomAct α → EvDom α
  | .zoom p t m => d.zoomed p t m
  | .zoomEnd => d.zoomEnd
  | .brush p t m => d.brushed p t m
  | .setA m => { d with markA := some (m, m) }
  | .setB m => { d with markB := some (m, m) }
  | .resize w p s t m => d.resized w p s t m

/-- the plot as it is drawn first (168-220, 421-423), `n` lanes `w` wide -/
def EvDom.first (summary : Bool) (n : Nat) (w : Rat) (paths mini : List α) (ticks : Nat) : EvDom α :=
  (EvDom.drawMain { summary := summary, items := [], fresh := 0, outgoing := [], lanes := List.replicate n (0, w), ticks := [], domainPath := false,
                    markA := none, markB := none, mini := if summary then mini else [] } paths).drawAxis ticks

def EvDom.run (d : EvDom α) (as : List (DomAct α)) : EvDom α := as.foldl EvDom.act d

/-- the paths that can be seen -/
def EvDom.shown (d : EvDom α) : List α := (d.items.filter DomItem.visible).map DomItem.path

end Trappy
