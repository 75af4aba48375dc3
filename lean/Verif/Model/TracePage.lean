import Verif.Model.PlotTrace
import Verif.Model.Json
import Verif.Model.Publish
import Verif.Model.IPage
/-!
# The page of an event plot

Models `/repo/trappy/plotter/EventPlot.py` lines 129-144 (the graph and `json.dumps`), 224-285 (`_init_html`, `_add_css`, `html`), the page of `plot_trace`
(`/repo/trappy/plotter/__init__.py` lines 55-86), and what `EventPlot.generate` gets in the browser (`/repo/trappy/plotter/js/EventPlot.js` lines 86-117).

Simplifications: the text of a float (`repr`) is a parameter, and so is the number that the browser reads; the lines of the style sheet are given; the browser runs the text between the first `<script>` and
the next end tag of a script, if the page up to there has the `div` of the plot; the lanes of a name are taken in the order of the text (a browser takes them by their numbers; they are drawn one by one
into the same path).
-/

namespace Trappy
open Py

/-- a lane (EventPlot.py:206, 214) -/
def laneJson (i : Nat) : LaneLabel → PyJson
  | .given (.int k) => .obj [(.str cs!"id", .int i), (.str cs!"label", .int k)]
  | .given (.str s) => .obj [(.str cs!"id", .int i), (.str cs!"label", .str s)]
  | .numbered pre k => .obj [(.str cs!"id", .int i), (.str cs!"label", .str (pre ++ natStr k))]

/-- the lanes from a number on -/
def lanesJson : Nat → List LaneLabel → List PyJson
  | _, [] => []
  | i, l :: ls => laneJson i l :: lanesJson (i + 1) ls

/-- `tsinfo[:2]` (EventPlot.py:160) -/
def spanJson (ft : Rat → Str) (d : Rat × Rat) : PyJson := .arr [.float (ft d.1), .float (ft d.2)]

/-- the events of a name by their lanes -/
def lanesOfJson (ft : Rat → Str) (ls : List (Val × List (Rat × Rat))) : PyJson := .obj (ls.map fun l => (l.1, .arr (l.2.map (spanJson ft))))

/-- the dictionary `graph` (EventPlot.py:129-143) -/
def graphJson (ft : Rat → Str) (P : TracePlot) : PyJson :=
  .obj [(.str cs!"lanes", .arr (lanesJson 0 P.lanes)),
    (.str cs!"xDomain", spanJson ft P.domain),
    (.str cs!"keys", .arr (P.keys.map .str)),
    (.str cs!"showSummary", .bool true),
    (.str cs!"stride", .bool false),
    (.str cs!"colorMap", .null),
    (.str cs!"data", .obj (P.items.map fun x => (.str x.1, lanesOfJson ft x.2)))]

/-- the comments with the libraries (EventPlot.py:227-229; IPythonConf.py:30-31) -/
def libComments : Str :=
  cs!"<!-- TRAPPY_PUBLISH_SOURCE_LIB = \"https://cdnjs.cloudflare.com/ajax/libs/d3/3.5.6/d3.min.js\" -->\n<!-- TRAPPY_PUBLISH_SOURCE_LIB = \"https://labratrevenge.com/d3-tip/javascripts/d3.tip.v0.6.3.js\" -->\n"

/-- the script up to the first path (EventPlot.py:232-239) -/
def reqStart : Str :=
  cs!"\n            /* TRAPPY_PUBLISH_IMPORT = \"plotter/js/EventPlot.js\" */\n            /* TRAPPY_PUBLISH_REMOVE_START */\n            var req = require.config( {\n\n                paths: {\n\n                    \"EventPlot\": '"

/-- and after the last one (EventPlot.py:241-256) -/
def reqRest : Str :=
  cs!"'\n                },\n                waitSeconds: 15,\n                shim: {\n                    \"d3-plotter\" : {\n                        \"exports\" : \"d3\"\n                    },\n                    \"d3-tip\": [\"d3-plotter\"],\n                    \"EventPlot\": {\n\n                        \"deps\": [\"d3-tip\", \"d3-plotter\" ],\n                        \"exports\":  \"EventPlot\"\n                    }\n                }\n            });\n            /* TRAPPY_PUBLISH_REMOVE_STOP */\n            "

/-- the script up to the data (EventPlot.py:232-261) -/
def eventScript (v4 : Bool) (fig : Str) : Str :=
  reqStart ++ addWebBase v4 cs!"plotter_scripts/EventPlot/EventPlot" ++ cs!"',\n                    \"d3-tip\": '" ++
    addWebBase v4 cs!"plotter_scripts/EventPlot/d3.tip.v0.6.3" ++ cs!"',\n                    \"d3-plotter\": '" ++
    addWebBase v4 cs!"plotter_scripts/EventPlot/d3.min" ++ reqRest ++
    cs!"\n        req([\"require\", \"EventPlot\"], function() { /* TRAPPY_PUBLISH_REMOVE_LINE */\n" ++ eventPre fig (addWebBase v4 [])

/-- the `div` of the plot (EventPlot.py:266-268) -/
def eventDiv (fig : Str) : Str := cs!"<div id=\"" ++ fig ++ cs!"\" class=\"eventplot\">\n"

/-- `html()` (EventPlot.py:224-285); `css` are the lines of the style sheet with their line ends -/
def eventHtml (v4 : Bool) (css : List Str) (fig : Str) (graph : PyJson) : Str :=
  joinWith ['\n'] (cs!"<style>" :: (css.map List.dropLast ++ [cs!"</style>",
    eventDiv fig ++ libComments ++ cs!"\n        <script>" ++ jsonPage (eventScript v4 fig) graph eventPost cs!"\n        </div>"]))

/-- `plot_trace(…).html()` (plotter/__init__.py:55-86) -/
def tracePage (ft : Rat → Str) (v4 : Bool) (css : List Str) (fig : Str) (fuel : Nat) (ps : List ParserClass) (u : UserParams) (lines : List Str)
    (execnames : List Str) (pids : List Nat) : Except PlotTraceErr Str :=
  match plotTrace fuel ps u lines execnames pids with
  | .ok P => .ok (eventHtml v4 css fig (graphJson ft P))
  | .error e => .error e

/-! ## The browser -/

/-- the text before and after the first `<script>` -/
def splitScript : Str → Option (Str × Str)
  | [] => none
  | c :: r =>
    if cs!"<script>" <+: c :: r then some ([], (c :: r).drop 8)
    else
      match splitScript r with
      | some (a, b) => some (c :: a, b)
      | none => none

/-- what `EventPlot.generate` gets for its third argument, if the script can be read and there is the element it draws into (EventPlot.js:86-97) -/
def generateArg (v4 : Bool) (fig page : Str) : Option JsLit :=
  match splitScript page with
  | some (before, script) => if contains (cs!"<div id=\"" ++ fig ++ cs!"\"") before then pageValue (eventScript v4 fig) eventPost script else none
  | none => none

/-- the characters of a string of JavaScript -/
def unitsText : List Nat → Str
  | [] => []
  | [u] => [Char.ofNat u]
  | u :: v :: r => if 0xd800 ≤ u ∧ u < 0xdc00 then Char.ofNat (0x10000 + (u - 0xd800) * 1024 + (v - 0xdc00)) :: unitsText r else Char.ofNat u :: unitsText (v :: r)

/-- elements of an array -/
def JsLit.elems : JsLit → Option (List JsLit)
  | .arr l => some l
  | _ => none

/-- a string -/
def JsLit.asText : JsLit → Option Str
  | .str us => some (unitsText us)
  | _ => none

/-- a number -/
def JsLit.asNum (num : Str → Option Rat) : JsLit → Option Rat
  | .num t => num t
  | _ => none

/-- `d[0]`, `d[1]` (EventPlot.js:834-863) -/
def JsLit.asSpan (num : Str → Option Rat) : JsLit → Option (Rat × Rat)
  | .arr [a, b] =>
    match a.asNum num, b.asNum num with
    | some a, some b => some (a, b)
    | _, _ => none
  | _ => none

/-- a list of which every element must be read -/
def readAll {α β : Type} (f : α → Option β) : List α → Option (List β)
  | [] => some []
  | a :: l =>
    match f a, readAll f l with
    | some b, some r => some (b :: r)
    | _, _ => none

/-- a lane in `for (var lane in new_data)`, which is a string of digits (EventPlot.js:870) -/
def keyLane (us : List Nat) : Option Val :=
  if (unitsText us).all isDigit ∧ unitsText us ≠ [] then some (.int (natVal (unitsText us))) else none

/-- `{id: …, label: …}` (EventPlot.js:173-195, 748-780) -/
def readLane (num : Str → Option Rat) (v : JsLit) : Option (Rat × Str) :=
  match jsMember v cs!"id", jsMember v cs!"label" with
  | some i, some l =>
    match i.asNum num, l.asText with
    | some i, some l => some (i, l)
    | _, _ => none
  | _, _ => none

/-- one lane of the events of a name -/
def readSpans (num : Str → Option Rat) (p : List Nat × JsLit) : Option (Val × List (Rat × Rat)) :=
  match keyLane p.1, p.2.elems with
  | some l, some es =>
    match readAll (JsLit.asSpan num) es with
    | some ds => some (l, ds)
    | none => none
  | _, _ => none

/-- the events of a name -/
def readItem (num : Str → Option Rat) (p : List Nat × JsLit) : Option (Str × List (Val × List (Rat × Rat))) :=
  match p.2 with
  | .obj l =>
    match readAll (readSpans num) l with
    | some ls => some (unitsText p.1, ls)
    | none => none
  | _ => none

/-- what is drawn from -/
structure EventChart where
  lanes : List (Rat × Str)
  domain : Rat × Rat
  names : List Str
  items : Dict (List (Val × List (Rat × Rat)))
deriving DecidableEq

/-- `d.data`, `d.lanes`, `d.keys`, `d.xDomain` (EventPlot.js:92-117); the browser does not use `stride` -/
def readChart (num : Str → Option Rat) (v : JsLit) : Option EventChart :=
  match jsMember v cs!"lanes", jsMember v cs!"xDomain", jsMember v cs!"keys", jsMember v cs!"data" with
  | some (.arr lanes), some domain, some (.arr keys), some (.obj items) =>
    match readAll (readLane num) lanes, domain.asSpan num, readAll JsLit.asText keys, readAll (readItem num) items with
    | some lanes, some domain, some names, some items => some ⟨lanes, domain, names, items⟩
    | _, _, _, _ => none
  | _, _, _, _ => none

/-- the chart that a page shows -/
def shownChart (num : Str → Option Rat) (v4 : Bool) (fig page : Str) : Option EventChart :=
  match generateArg v4 fig page with
  | some v => readChart num v
  | none => none

end Trappy
