import Verif.Model.EventPlotJs
/-!
# The lanes of an event plot in the browser

Models `/repo/trappy/plotter/js/EventPlot.js` 99-106 (margins and height), 135-142 (`yMain`), 156-161 (the chart), 193-204
(labels), 293-297 and 312-317 (clicks), 613-640 (`drawContextRect`), 713-790 (`drawMini`), 814-816 and 834-842, 865-885, 900-906 (bars).

Simplifications: numbers are rationals; a stroke of width `s` at `y` covers `[y - s/2, y + s/2]` (SVG). A lane is an integer, as in
all data from `plot_trace` and after `_get_lanes` with explicit lanes.
-/

namespace Trappy

/-- `margin.top`, `margin.bottom` (EventPlot.js:99-102) -/
def laneMargin : Rat := 15

/-- `mainHeight` for `n` lanes (106) -/
def mainHeight (n : Nat) : Rat := 50 * n - laneMargin - laneMargin

/-- the smallest and the largest identifier, `d3.extent` (135-137) -/
def extent : List Int → Option (Int × Int)
  | [] => none
  | i :: is => some (is.foldl min i, is.foldl max i)

/-- `yMain` (138-142) for lanes with these identifiers -/
def yMain (ids : List Int) : Option LinScale :=
  (extent ids).map fun e => ⟨e.1, e.2 + 1, mainHeight ids.length⟩

/-- the identifiers that `_get_lanes` gives (EventPlot.py:203-204, 211-212) -/
def laneIds (labels : List LaneLabel) : List Int := (List.range labels.length).map fun (i : Nat) => (i : Int)

/-- top and bottom of the bars of a lane: `y(lane) + offset` with the width of the stroke (EventPlot.js:815, 835-839, 862, 905) -/
def laneBar (y : LinScale) (lane : Int) : Rat × Rat :=
  let offset := 1 / 2 * y.app 1 + 1 / 2
  let stroke := 4 / 5 * y.app 1
  (y.app lane + offset - stroke / 2, y.app lane + offset + stroke / 2)

/-- where the label of a lane is (200-202) -/
def laneLabelAt (y : LinScale) (id : Int) : Rat := y.app (id + 1 / 2)

/-- the rectangle around an event that was clicked: top and height (625-626) -/
def contextRect (y : LinScale) (lane : Int) : Rat × Rat := (y.app lane, y.app 1)

/-- the lane of a click at `p` below the top of the plot (293-297) -/
def clickedLane (y : LinScale) (p : Rat) : Int := (y.invert p).floor

/-- how far down the chart can be seen, from the top of the plot (156-166): the height of the SVG without the margin by which the plot
is moved -/
def chartBottom (n : Nat) : Rat := mainHeight n + laneMargin + laneMargin + 5 - laneMargin

/-- `miniHeight` (715) -/
def miniHeight (n : Nat) : Rat := n * 12 + 50

/-- `yMini` (721-725), the scale of the lanes in the summary -/
def yMini (ids : List Int) : Option LinScale :=
  (extent ids).map fun e => ⟨e.1, e.2 + 1, miniHeight ids.length⟩

/-- top and bottom of the bars of a lane in the summary: the stroke is 8 wide (`/repo/trappy/plotter/css/EventPlot.css:73-75) -/
def miniBar (y : LinScale) (lane : Int) : Rat × Rat :=
  let offset := 1 / 2 * y.app 1 + 1 / 2
  (y.app lane + offset - 4, y.app lane + offset + 4)

end Trappy
