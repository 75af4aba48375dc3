import Verif.Model.Residency
import Verif.Model.PyStr
/-!
# The event plot and the line plot in the browser

Models `/repo/trappy/plotter/js/EventPlot.js` (search, paths, colours, zoom, markers, information on click) and the
synchronisation of `/repo/trappy/plotter/js/ILinePlot.js`.

Simplifications: numbers are rationals instead of doubles. A path is the list of its segments; SVG attributes, dialogs and
resizing are left out. Of d3, the following is assumed: a linear scale maps its domain `[a, b]` to its range `[0, w]`, an
ordinal scale gives the i-th element of its domain the colour `i mod n` of its range, and the zoom behaviour turns the scale
`x` into `zoomScale(v) = x(v) * k + t`, where `k` is kept within `scaleExtent`, also if it is set by `zoom.scale` (as in d3
3.5.6, the version of IPythonConf.py:30).
-/

namespace Trappy

open Py

/-! ## Paths -/

/-- `search_data` (EventPlot.js:45-58): the loop between `left` and `right`, at most `fuel` rounds; `none` is the `TypeError`
of an element that is not there (or no fuel left, which `searchLoop_spec` excludes). -/
def searchLoop {α : Type} (key : α → Rat) (data : List α) (value : Rat) : Nat → Nat → Nat → Option Nat
  | 0, left, right => if left < right then none else some left
  | fuel + 1, left, right =>
    if left < right then
      let mid := (left + right) / 2
      match data[mid]? with
      | none => none
      | some d => if value < key d then searchLoop key data value fuel left mid else searchLoop key data value fuel (mid + 1) right
    else some left

/-- `search_data(data, key, value, left, right)` (EventPlot.js:45-58) -/
def searchData {α : Type} (key : α → Rat) (data : List α) (value : Rat) (left right : Nat) : Option Nat :=
  searchLoop key data value (right - left) left right

/-- A horizontal line of a path: from, lane, to; `from` and `to` in pixels. -/
structure Segment where
  start : Rat
  lane : Val
  stop : Rat
deriving DecidableEq

/-- `_handle_equality` (EventPlot.js:834-842) -/
def handleEquality (x : Rat → Rat) (xMin xMax : Rat) (lane : Val) (d : Rat × Rat) : List Segment :=
  let b0 := max d.1 xMin
  let b1 := min d.2 xMax
  if b0 < b1 then [⟨x b0, lane, x b1⟩] else []

/-- `_process` (EventPlot.js:844-863): what is added to the path -/
def processEvent (x : Rat → Rat) (xMin xMax : Rat) (lane : Val) (d : Rat × Rat) : List Segment :=
  let start := if d.1 < xMin then xMin else d.1
  let stop := if xMax < d.2 then xMax else d.2
  let s := x start
  let e := x stop
  if e - s < 1 / 100 then [] else if e - s < 1 then [⟨s, lane, s + 1⟩] else [⟨s, lane, e⟩]

/-- elements `0, n, 2n, …` of a list: `for (i = 0; i < data.length; i += n)`; `skip` elements are passed over first -/
def everyNth {α : Type} (n : Nat) : Nat → List α → List α
  | _, [] => []
  | 0, a :: l => a :: everyNth n (n - 1) l
  | skip + 1, _ :: l => everyNth n skip l

/-- the length of a stride (EventPlot.js:881-883); `max_rects` is 2000 -/
def strideLength (stride : Bool) (length : Nat) : Nat := if stride then max ((length + 1999) / 2000) 1 else 1

/-- one lane of `_get_path` (EventPlot.js:870-886); `none` is `TypeError`. For an empty lane JavaScript has -1 for
`data.length - 1`, which gives the same indices as 0. -/
def lanePath (x : Rat → Rat) (xMin xMax : Rat) (stride : Bool) (lane : Val) (data : List (Rat × Rat)) : Option (List Segment) :=
  match searchData Prod.fst data xMax 0 (data.length - 1) with
  | none => none
  | some right =>
    match searchData Prod.snd data xMin 0 right with
    | none => none
    | some left =>
      let rest := (everyNth (strideLength stride ((data.drop left).take (right + 1 - left)).length) 0 ((data.drop left).take (right + 1 - left))).flatMap
        (processEvent x xMin xMax lane)
      if left = right then
        match data[left]? with
        | none => none
        | some d => some (handleEquality x xMin xMax lane d ++ rest)
      else some rest

/-- `_get_path` (EventPlot.js:865-890) -/
def getPath (x : Rat → Rat) (xMin xMax : Rat) (stride : Bool) : List (Val × List (Rat × Rat)) → Option (List Segment)
  | [] => some []
  | (lane, data) :: lanes =>
    match lanePath x xMin xMax stride lane data with
    | none => none
    | some p =>
      match getPath x xMin xMax stride lanes with
      | none => none
      | some q => some (p ++ q)

/-- The data of an event plot: for each name, the events of each lane. -/
abbrev PlotItems := Dict (List (Val × List (Rat × Rat)))

/-- `getPaths` (EventPlot.js:892-924) without the colours: one path for each name that has something to show. Neither caller
gives a `stride` (lines 698, 798). -/
def getPaths (x : Rat → Rat) (xMin xMax : Rat) (items : PlotItems) : List Str → Option (List (Str × List Segment))
  | [] => some []
  | name :: names =>
    match getPath x xMin xMax false ((items.get name).getD []) with
    | none => none
    | some path =>
      match getPaths x xMin xMax items names with
      | none => none
      | some ps => if path = [] then some ps else some ((name, path) :: ps)

/-- What is drawn of `EventPlot(data, ..., stride=stride)` in the window: the argument is not used, the default is sent to the browser
(EventPlot.py:141), and the browser does not use what is sent (EventPlot.js:698, 798). -/
def drawnPaths (_stride : Bool) (x : Rat → Rat) (xMin xMax : Rat) (data : Dict (List LaneEvent)) (names : List Str) :
    Option (List (Str × List Segment)) :=
  getPaths x xMin xMax (groupByLanes data) names

/-! ## Colours -/

/-- the range of the colour scale if the user gives colours (EventPlot.js:123-128) -/
def userColours (names : List Str) (colourMap : Dict Str) : List Str := names.filterMap fun n => colourMap.get n

/-- `colourAxis(name)` (EventPlot.js:129-131): the position of the name in the domain, modulo the number of colours; `none` is
`undefined`. -/
def colourOf (names colours : List Str) (name : Str) : Option Str := colours[names.idxOf name % colours.length]?

/-! ## Zoom -/

/-- The zoom: `zoomScale(v) = x(v) * k + t`. -/
structure View where
  k : Rat
  t : Rat
deriving DecidableEq

/-- A linear scale with domain `[a, b]` and range `[0, w]` (EventPlot.js:108-114). -/
structure LinScale where
  a : Rat
  b : Rat
  w : Rat
deriving DecidableEq

/-- `x(v)` -/
def LinScale.app (s : LinScale) (v : Rat) : Rat := (v - s.a) / (s.b - s.a) * s.w

/-- `x.invert(p)` -/
def LinScale.invert (s : LinScale) (p : Rat) : Rat := s.a + p / s.w * (s.b - s.a)

/-- `zoomScale(v)` -/
def zoomScale (s : LinScale) (v : View) (u : Rat) : Rat := s.app u * v.k + v.t

/-- `zoomScale.domain()` -/
def zoomDomain (s : LinScale) (v : View) : Rat × Rat := (s.invert ((0 - v.t) / v.k), s.invert ((s.w - v.t) / v.k))

/-- `scaleExtent([1, 4096])` (EventPlot.js:418) -/
def clampScale (k : Rat) : Rat := max 1 (min 4096 k)

/-- `zoomed` (EventPlot.js:251-270): the translation is corrected at the borders. -/
def zoomed (s : LinScale) (v : View) : View :=
  if (zoomDomain s v).1 < s.a then ⟨v.k, v.t - zoomScale s v s.a + 0⟩
  else if s.b < (zoomDomain s v).2 then ⟨v.k, v.t - zoomScale s v s.b + s.w⟩
  else v

/-- `_brushed_event` (EventPlot.js:354-386): the view for the window `[u, v]` of the brush -/
def brushed (s : LinScale) (u v : Rat) : View :=
  let scale := s.w / s.app (s.a + v - u)
  ⟨clampScale scale, 0 - s.app u * scale⟩

/-! ## Markers -/

/-- A marker: its position in time, and whether it is drawn. -/
structure Marker where
  pos : Rat
  drawn : Bool
deriving DecidableEq

/-- The window `[lo, hi]` and the markers A and B. -/
structure MarkerState where
  lo : Rat
  hi : Rat
  start : Option Marker
  stop : Option Marker
  /-- the text beside the prefix `A - B = ` -/
  delta : Option Rat
deriving DecidableEq

/-- Events of the user: a window by zoom or brush, a right click for A, one with ctrl for B; clicks at times. -/
inductive MarkerEvent where
  | window (lo hi : Rat)
  | clickA (x : Rat)
  | clickB (x : Rat)
deriving DecidableEq

/-- `DELTA_PREFIX` (EventPlot.js:38) -/
def deltaPrefix : Str := cs!"A - B = "

/-- the text of the difference (EventPlot.js:342-346): `endGuider._x_pos - startGuider._x_pos` -/
def deltaText (st : MarkerState) : MarkerState :=
  match st.stop, st.start with
  | some e, some s => { st with delta := some (e.pos - s.pos) }
  | _, _ => st

/-- a marker after a change of the window (EventPlot.js:649-682) -/
def updateMarker (lo hi : Rat) (m : Marker) : Marker := ⟨m.pos, decide (m.pos ≥ lo ∧ m.pos ≤ hi)⟩

/-- `contextMenuHandler` and `updateInfo` (EventPlot.js:312-349, 658-682) -/
def markerStep (st : MarkerState) : MarkerEvent → MarkerState
  | .window lo hi => { st with lo := lo, hi := hi, start := st.start.map (updateMarker lo hi), stop := st.stop.map (updateMarker lo hi) }
  | .clickA x => deltaText { st with start := some ⟨x, true⟩ }
  | .clickB x => deltaText { st with stop := some ⟨x, true⟩ }

/-! ## Information about an event -/

/-- What `getCurrentInfo` finds for a click. -/
inductive InfoResult where
  | found (name : Str) (info : Rat × Rat)
  | nothing
  | typeError
deriving DecidableEq

/-- The values of JavaScript that matter here; the keys of an object are strings. -/
inductive JsVal where
  | undef
  | num (x : Rat)
  | arr (xs : List JsVal)
  | obj (fields : List (Str × JsVal))

/-- `v[i]`; `none` is `TypeError` -/
def JsVal.index (i : Nat) : JsVal → Option JsVal
  | .undef => none
  | .num _ => some .undef
  | .arr xs => some (xs[i]?.getD .undef)
  | .obj fields => some ((fields.lookup (natStr i)).getD .undef)

/-- `v.length`; `none` is `undefined` -/
def JsVal.length : JsVal → Option Nat
  | .arr xs => some xs.length
  | _ => none

/-- The number that a comparison with a number takes for the value; `none` is NaN. An array is turned into a string first: an
empty one is 0, one with a single element is that element, the commas of a longer one are not part of a number. -/
def JsVal.toNum : JsVal → Option Rat
  | .num x => some x
  | .arr [] => some 0
  | .arr [.undef] => some 0
  | .arr [v] => v.toNum
  | _ => none

/-- `search_data` (EventPlot.js:45-58) of any value; `none` is `TypeError` -/
def jsSearch (data : JsVal) (key : Nat) (value : Rat) : Nat → Nat → Nat → Option Nat
  | 0, left, right => if left < right then none else some left
  | fuel + 1, left, right =>
    if left < right then
      let mid := (left + right) / 2
      match (data.index mid).bind (JsVal.index key) with
      | none => none
      | some d =>
        match d.toNum with
        | some n => if value < n then jsSearch data key value fuel left mid else jsSearch data key value fuel (mid + 1) right
        | none => jsSearch data key value fuel (mid + 1) right
    else some left

/-- `getCurrentInfo` (EventPlot.js:64-84). If `data.length` is undefined, `data.length - 1` is NaN, `left < right` is false and
`search_data` gives `left`, that is 0. -/
def currentInfo (xMax x0 y0 : Rat) : List (Str × JsVal) → InfoResult
  | [] => .nothing
  | (name, data) :: items =>
    match (match data.length with
      | none => some 0
      | some n => jsSearch data 0 xMax n 0 (n - 1)) with
    | none => .typeError
    | some right =>
      match jsSearch data 1 x0 right 0 right with
      | none => .typeError
      | some left =>
        match data.index left with
        | none => .typeError
        | some candidate =>
          match candidate.index 0, candidate.index 1, candidate.index 2 with
          | some a, some b, some c =>
            match a.toNum, b.toNum with
            | some s, some e =>
              if s ≤ x0 ∧ x0 ≤ e ∧ c.toNum = some y0 then .found name (s, e) else currentInfo xMax x0 y0 items
            | _, _ => currentInfo xMax x0 y0 items
          | _, _, _ => .typeError

/-- `ePlot.items` (EventPlot.js:93): the data of `_group_data_by_lanes` (EventPlot.py:150-161) as JSON, an object of lanes for
each name; the numbers of lanes are keys of an object, hence strings. -/
def jsItems (items : PlotItems) : List (Str × JsVal) :=
  items.map fun (name, lanes) =>
    (name, .obj (lanes.map fun (lane, data) =>
      (lane.text, .arr (data.map fun d => .arr [.num d.1, .num d.2]))))

/-! ## Synchronised line plots -/

/-- A line plot: its group, its ranges, the times of its rows, and the flags `padFront_` and `padBack_`. -/
structure LineGraph where
  group : Str
  xr : Rat × Rat
  yr : Rat × Rat
  raw : List Rat
  padFront : Bool
  padBack : Bool
deriving DecidableEq

/-- the loop over the ranges (ILinePlot.js:43-60): `xRange` so far and the range of the next graph -/
def widen : Option (Rat × Rat) → Rat × Rat → Option (Rat × Rat)
  | none, r => some r
  | some acc, r => some (if r.1 < acc.1 then r.1 else acc.1, if acc.2 < r.2 then r.2 else acc.2)

/-- `rawData_[0][0] = xRange[0]` after the first row was inserted (ILinePlot.js:84-89) -/
def padFront (lo : Rat) (padded : Bool) (raw : List Rat) : List Rat :=
  if padded then
    match raw with
    | [] => []
    | _ :: rest => lo :: rest
  else lo :: raw

/-- `rawData_[rawData_.length - 1][0] = xRange[1]` after the last row was added (ILinePlot.js:91-96) -/
def padBack (hi : Rat) (padded : Bool) (raw : List Rat) : List Rat :=
  if padded then raw.dropLast ++ [hi] else raw ++ [hi]

/-- one graph of the group (ILinePlot.js:76-97) -/
def syncGraph (x y : Rat × Rat) (g : LineGraph) : LineGraph :=
  { g with xr := x, yr := y, raw := padBack x.2 g.padBack (padFront x.1 g.padFront g.raw), padFront := true, padBack := true }

/-- `sync(group)` (ILinePlot.js:30-99); the rows of every graph are not empty. `Dygraph.synchronize`, which couples further
zooming, is left out. -/
def syncGroup (group : Str) (graphs : Dict LineGraph) : Dict LineGraph :=
  let members := (graphs.filter fun g => g.2.group = group).map Prod.snd
  match members.foldl (fun acc g => widen acc g.xr) none, members.foldl (fun acc g => widen acc g.yr) none with
  | some x, some y =>
    if members.length ≥ 2 then graphs.map fun g => if g.2.group = group then (g.1, syncGraph x y g.2) else g else graphs
  | _, _ => graphs

/-- Events of a page: a new plot of a group, or a zoom of the user into one plot. -/
inductive LineEvent where
  | sync (group : Str)
  | range (name : Str) (x y : Rat × Rat)

/-- The plots after an event. -/
def lineStep (graphs : Dict LineGraph) : LineEvent → Dict LineGraph
  | .sync group => syncGroup group graphs
  | .range name x y => graphs.map fun g => if g.1 = name then (g.1, { g.2 with xr := x, yr := y }) else g

end Trappy
