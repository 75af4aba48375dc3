import Verif.Model.Json
import Verif.Model.Layout
import Verif.Model.Signals
/-!
# The page of an interactive plot

Models `/repo/trappy/plotter/ILinePlot.py` lines 138-168, 174-218 (attributes), `/repo/trappy/plotter/ILinePlotGen.py` lines 63-137 and 178-279 (the page) and
`/repo/trappy/plotter/js/ILinePlot.js` lines 100-175 (what the browser does with it).

Simplifications: arguments are values that `json.dumps` prints, `drawstyle` is a string or `None`, `per_line` a number that is not negative; the frames are given, with their titles (they are modelled in
`Layout.lean` and `Merge.lean`); `hash(self)` is given. The page is the list of its cells and scripts. A script is the text after `<script>`, of which the rest of the page is left out. Dygraph is the
options it is given; sizes in pixels are left out. The scripts that draw run in the order of the page, after the scripts with data (RequireJS calls them back when the libraries are there).
-/

namespace Trappy

/-- whether Python takes a value for true -/
def pyTruthy : PyJson → Bool
  | .null => false
  | .bool b => b
  | .int i => i != 0
  | .float t => t != cs!"0.0" && t != cs!"-0.0"
  | .str s => !s.isEmpty
  | .arr l => !l.isEmpty
  | .obj l => !l.isEmpty

/-- `set_defaults` (ILinePlot.py:205-218, AttrConf.py:26-51, 115-129) -/
def iDefaults : Dict PyJson :=
  [(cs!"per_line", .int 2), (cs!"concat", .bool false), (cs!"filters", .obj []), (cs!"pivot", .str cs!"__TRAPPY_PIVOT_DEFAULT"), (cs!"permute", .bool false),
   (cs!"drawstyle", .null), (cs!"step_plot", .bool false), (cs!"fill", .bool false), (cs!"scatter", .bool false), (cs!"point_size", .int 2), (cs!"map_label", .obj []),
   (cs!"title", .null)]

/-- `self._attr` after the constructor (ILinePlot.py:144-157) -/
def iAttr (kw : Dict PyJson) : Dict PyJson :=
  let a := iDefaults.update kw
  match a.get cs!"drawstyle" with
  | some (.str s) => if s ≠ [] ∧ Py.startsWith s cs!"steps" = true then a.set cs!"step_plot" (.bool true) else a
  | _ => a

/-- why an interactive plot is not shown -/
inductive IPageErr where
  /-- an exception of the layout -/
  | layout (e : LErr)
  /-- `ValueError`: "This plot is too big" (ILinePlotGen.py:229-232); the number it says to pass -/
  | tooBig (suggested : Nat)
  /-- `KeyError` -/
  | key
deriving DecidableEq

/-- a frame and its title -/
structure IFrame where
  title : Str
  columns : List Str
  index : List PyJson
  values : List (List PyJson)

/-- `df_to_dygraph` (ILinePlotGen.py:43-61) as a value -/
def frameJson (f : IFrame) : PyJson :=
  let d := dfToDygraph cs!"index" f.columns f.index f.values
  .obj [(.str cs!"data", .arr (d.2.map PyJson.arr)), (.str cs!"labels", .arr (d.1.map PyJson.str))]

/-- `fig_params` of `add_plot` (ILinePlotGen.py:234-262) with `_check_add_scatter` (203-214); `a` are the attributes of the page -/
def figParams (a : Dict PyJson) (hash fig : Str) (f : IFrame) : Option PyJson :=
  match a.get cs!"step_plot", a.get cs!"fill", a.get cs!"per_line", a.get cs!"height", a.get cs!"scatter", a.get cs!"point_size" with
  | some step, some fill, some perLine, some height, some scatter, some size =>
    some (.obj ([(.str cs!"data", frameJson f), (.str cs!"name", .str fig), (.str cs!"rangesel", .bool false), (.str cs!"logscale", .bool false), (.str cs!"title", .str f.title),
        (.str cs!"step_plot", step)] ++
      (match a.get cs!"fill_alpha" with
        | some alpha => [(.str cs!"fill_graph", .bool true), (.str cs!"fill_alpha", alpha)]
        | none => [(.str cs!"fill_graph", fill)]) ++
      [(.str cs!"per_line", perLine), (.str cs!"height", height), (.str cs!"drawPoints", .bool (pyTruthy scatter)),
        (.str cs!"strokeWidth", .float (if pyTruthy scatter then cs!"0.0" else cs!"1.0")), (.str cs!"pointSize", size),
        (.str cs!"syncGroup", match a.get cs!"group" with | some g => g | none => .str hash),
        (.str cs!"syncZoom", match a.get cs!"sync_zoom" with | some z => z | none => .bool false)] ++
      (match a.get cs!"ylim" with | some y => [(.str cs!"valueRange", y)] | none => []) ++
      (match a.get cs!"xlim" with | some x => [(.str cs!"dateWindow", x)] | none => [])))
  | _, _, _, _, _, _ => none

/-- an element of the page -/
inductive PageElem where
  /-- a cell with the element of a graph -/
  | cell (id : Str)
  /-- a cell with the element of a legend -/
  | legendCell (id : Str)
  /-- other tags -/
  | tag
  /-- a script with the data of a figure (ILinePlotGen.py:264-268) -/
  | data (fig text : Str)
  /-- a script that draws a figure (ILinePlotGen.py:76-119); the text of the second argument, if there is one -/
  | generate (fig : Str) (colours : Option Str)
deriving DecidableEq

/-- the elements of the table (ILinePlotGen.py:115, 121-142) -/
def cellElem : HElem → PageElem
  | .graph fig => .cell fig
  | .legend fig => .legendCell (fig ++ cs!"_legend")
  | _ => .tag

/-- the scripts of `_js`, one for each graph (ILinePlotGen.py:118-119) -/
def scriptElem (colours : Option Str) : HElem → Option PageElem
  | .graph fig => some (.generate fig colours)
  | _ => none

/-- text between the elements of a list of strings -/
def joinWith (sep : Str) : List Str → Str
  | [] => []
  | [w] => w
  | w :: ws => w ++ sep ++ joinWith sep ws

/-- the text of `to_dygraph_colors` (ColorMap.py:33-35) -/
def coloursText (l : List Str) : Str := cs!"[\"" ++ joinWith cs!"\", \"" l ++ cs!"\"]"

/-- `add_plot` for all plots (ILinePlot.py:220-255, ILinePlotGen.py:216-269) -/
def addPlots (a : Dict PyJson) (hash : Str) (maxPoints : Nat) (figMap : List (Nat × Str)) : Nat → List IFrame → Except IPageErr (List PageElem)
  | _, [] => .ok []
  | i, f :: fs =>
    let points := (f.values.map List.length).sum
    if maxPoints < points then .error (.tooBig (points + 1))
    else
      match figMap.lookup i with
      | none => .error .key
      | some fig =>
        match figParams a hash fig f with
        | none => .error .key
        | some v =>
          match addPlots a hash maxPoints figMap (i + 1) fs with
          | .error e => .error e
          | .ok r => .ok (.data fig (jsonPage (plotPre fig) v plotPost []) :: r)

/-- the plots per line of an `ILinePlotGen` (ILinePlotGen.py:193-194) -/
def linePlots (perLine num : Nat) : Nat := if num < perLine then num else perLine

/-- `self._attr["per_line"]` -/
def perLineOf (a : Dict PyJson) : Nat :=
  match a.get cs!"per_line" with
  | some (.int p) => p.toNat
  | _ => 0

/-- The page of an interactive plot (ILinePlot.py:174-257, ILinePlotGen.py:178-279): the table, the data, then the scripts that draw. -/
def iPage (uuid : Nat → Str) (hash : Str) (kw : Dict PyJson) (maxPoints : Nat) (colours : List Str) (frames : List IFrame) : Except IPageErr (List PageElem) :=
  let perLine := perLineOf (iAttr kw)
  match mkIPlot uuid perLine frames.length with
  | .error e => .error (.layout e)
  | .ok st =>
    let a := ((iAttr kw).set cs!"per_line" (.int (linePlots perLine frames.length))).set cs!"height" (.int 400)
    match addPlots a hash maxPoints st.figMap 0 frames with
    | .error e => .error e
    | .ok data => .ok (st.html.map cellElem ++ data ++ st.html.filterMap (scriptElem (if colours = [] then none else some (coloursText colours))))

/-! ## The browser -/

/-- a member of an object; `none` is `undefined` -/
def jsMember : JsLit → Str → Option JsLit
  | .obj l, k => l.findSome? fun p => if p.1 = utf16 k then some p.2 else none
  | _, _ => none

/-- a graph on the page: its element and the options given to Dygraph, with the group and the other values that are kept (ILinePlot.js:109-172); `none` is `undefined` -/
structure DyGraph where
  div : Str
  rows : Option JsLit
  labels : Option JsLit
  title : Option JsLit
  rangeSelector : Option JsLit
  stepPlot : Option JsLit
  logscale : Option JsLit
  fillGraph : Option JsLit
  fillAlpha : Option JsLit
  legendDiv : Str
  valueRange : Option JsLit
  dateWindow : Option JsLit
  drawPoints : Option JsLit
  strokeWidth : Option JsLit
  pointSize : Option JsLit
  colours : Option JsLit
  perLine : Option JsLit
  height : Option JsLit
  group : Option JsLit
  syncZoom : Option JsLit

/-- the state of the page: elements, variables, graphs, and the figures whose script failed -/
structure Browser where
  divs : List Str
  vars : Dict JsLit
  graphs : List DyGraph
  failed : List Str

/-- `create_graph` (ILinePlot.js:107-172); `none` is an exception, for an element that does not exist -/
def createGraph (divs : List Str) (t : JsLit) (colours : Option JsLit) : Option DyGraph :=
  match jsMember t cs!"name", jsMember t cs!"data" with
  | some (.str units), some tabular =>
    match divs.find? fun d => utf16 d = units with
    | none => none
    | some div =>
      some { div := div, rows := jsMember tabular cs!"data", labels := jsMember tabular cs!"labels", title := jsMember t cs!"title", rangeSelector := jsMember t cs!"rangesel",
             stepPlot := jsMember t cs!"step_plot", logscale := jsMember t cs!"logscale", fillGraph := jsMember t cs!"fill_graph", fillAlpha := jsMember t cs!"fill_alpha",
             legendDiv := div ++ cs!"_legend", valueRange := jsMember t cs!"valueRange", dateWindow := jsMember t cs!"dateWindow", drawPoints := jsMember t cs!"drawPoints",
             strokeWidth := jsMember t cs!"strokeWidth", pointSize := jsMember t cs!"pointSize", colours := colours, perLine := jsMember t cs!"per_line",
             height := jsMember t cs!"height", group := jsMember t cs!"syncGroup", syncZoom := jsMember t cs!"syncZoom" }
  | _, _ => none

/-- the second argument of `generate` -/
def coloursArg : Option Str → Option JsLit
  | none => none
  | some t => (jsValue (t.length + 1) t).map Prod.fst

/-- one element of the page -/
def pageStep (b : Browser) : PageElem → Browser
  | .cell id => { b with divs := b.divs ++ [id] }
  | .legendCell id => { b with divs := b.divs ++ [id] }
  | .tag => b
  | .data fig text =>
    match pageValue (plotPre fig) plotPost text with
    | some v => { b with vars := b.vars.set (fig ++ cs!"_data") v }
    | none => b
  | .generate fig colours =>
    match b.vars.get (fig ++ cs!"_data") with
    | none => { b with failed := b.failed ++ [fig] }
    | some v =>
      match createGraph b.divs v (coloursArg colours) with
      | none => { b with failed := b.failed ++ [fig] }
      | some g => { b with graphs := b.graphs ++ [g] }

/-- the page is shown -/
def showPage (page : List PageElem) : Browser := page.foldl pageStep ⟨[], [], [], []⟩

/-! ## Colours of lines -/

/-- the lines of the plot of a pivot, in order: the columns of its frame (ILinePlot.py:227-252) -/
def plotLines {σ : Type} (pivot : Val) (cs : List (IConstraint σ)) : List Str := (plotData pivot cs []).map Prod.fst

/-- the colour of line number `j` (Dygraph `setColors_`: the colours in turn) -/
def lineColour (colours : List Str) (j : Nat) : Option Str := colours[j % colours.length]?

end Trappy
