import Verif.Model.EventPlotJs
/-!
# Interactive line plots that follow each other on a page

Models `/repo/trappy/plotter/js/ILinePlot.js` lines 19-105 and 163-169: the state that the script keeps between plots (`graphs`, `syncObjs`), `purge`, `generate`, and the coupling of
`Dygraph.synchronize`. One plot is modelled by `LineGraph` (`EventPlotJs.lean`).

Simplifications: groups are strings (`==` on other values is left out) and a figure that is drawn has its element on the page. `Dygraph.synchronize` with `zoom` and `range` is taken as
documented: when one of the graphs gets other ranges, all of them get these. Ranges of graphs that are no longer on the page do not matter.
-/

namespace Trappy

/-- the page: the elements that exist, `graphs`, `syncZoom` of each graph, and `syncObjs`: the graphs that are coupled in a group (ILinePlot.js:19-20, 163-169) -/
structure LinePage where
  divs : List Str
  graphs : Dict LineGraph
  zoom : Dict Bool
  coupled : Dict (List Str)
deriving DecidableEq

/-- the page before the first plot -/
def LinePage.empty : LinePage := ⟨[], [], [], []⟩

/-- what happens on the page -/
inductive PageEvent where
  /-- a figure is drawn: `generate` -/
  | figure (name group : Str) (x y : Rat × Rat) (raw : List Rat) (zoom : Bool)
  /-- the output of a cell of the notebook is removed, with the elements of these figures -/
  | removed (names : List Str)
  /-- the user zooms in a figure -/
  | zoomed (name : Str) (x y : Rat × Rat)

/-- `purge` (ILinePlot.js:22-28) -/
def purgeGraphs (divs : List Str) (graphs : Dict LineGraph) : Dict LineGraph := graphs.filter fun g => decide (g.1 ∈ divs)

/-- the names of the graphs of a group, in the order of `graphs` (ILinePlot.js:37-40) -/
def groupNames (group : Str) (graphs : Dict LineGraph) : List Str := (graphs.filter fun g => g.2.group = group).map Prod.fst

/-- `syncZoom` (ILinePlot.js:35, 41): all graphs of the group ask for it -/
def allZoom (zoom : Dict Bool) (names : List Str) : Bool := names.all fun n => zoom.get n == some true

/-- an event (ILinePlot.js:22-105, 163-169) -/
def pageEvent (p : LinePage) : PageEvent → LinePage
  | .figure name group x y raw zoom =>
    let divs := p.divs ++ [name]
    let graphs := purgeGraphs divs (p.graphs.set name ⟨group, x, y, raw, false, false⟩)
    let flags := p.zoom.set name zoom
    let names := groupNames group graphs
    { divs := divs, graphs := syncGroup group graphs, zoom := flags,
      coupled := if names.length ≥ 2 ∧ allZoom flags names = true then p.coupled.set group names else p.coupled }
  | .removed names => { p with divs := p.divs.filter fun d => decide (d ∉ names) }
  | .zoomed name x y =>
    { p with graphs := p.graphs.map fun g =>
        if g.1 = name ∨ (p.coupled.any fun c => decide (name ∈ c.2) && decide (g.1 ∈ c.2)) = true then (g.1, { g.2 with xr := x, yr := y }) else g }

/-- all events -/
def pageRun (p : LinePage) (es : List PageEvent) : LinePage := es.foldl pageEvent p

end Trappy
