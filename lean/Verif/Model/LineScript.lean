import Verif.Model.Publish
import Verif.Model.Install
/-!
# The script of an interactive line plot

Models the text `/repo/trappy/plotter/ILinePlotGen.py` lines 87-113 (`_add_graph_cell`), which says where the page looks for its scripts, and draws a
figure. The comments with the libraries before it (82-85) are left out.
-/

namespace Trappy

/-- up to the first path (ILinePlotGen.py:87-94) -/
def ilpHead : Str :=
  cs!"\n            <script>\n            /* TRAPPY_PUBLISH_IMPORT = \"plotter/js/ILinePlot.js\" */\n            /* TRAPPY_PUBLISH_REMOVE_START */\n            var ilp_req = require.config( {\n\n                paths: {\n                    \"dygraph-sync\": '"

/-- after the last path, up to the name of the data (ILinePlotGen.py:97-111) -/
def ilpRest : Str :=
  cs!"',\n                },\n\n                shim: {\n                    \"dygraph-sync\": [\"dygraph\"],\n                    \"ILinePlot\": {\n\n                        \"deps\": [\"dygraph-sync\", \"dygraph\", \"underscore\"],\n                        \"exports\":  \"ILinePlot\"\n                    }\n                }\n            });\n                /* TRAPPY_PUBLISH_REMOVE_STOP */\n                ilp_req([\"require\", \"ILinePlot\"], function() { /* TRAPPY_PUBLISH_REMOVE_LINE */\n                ILinePlot.generate("

/-- after the arguments (ILinePlotGen.py:111-113) -/
def ilpTail : Str :=
  cs!");\n            }); /* TRAPPY_PUBLISH_REMOVE_LINE */\n            </script>\n        "

/-- the paths (ILinePlotGen.py:94-97) -/
def ilpPaths (v4 : Bool) : Str :=
  ilpHead ++ addWebBase v4 cs!"plotter_scripts/ILinePlot/synchronizer" ++ cs!"',\n                    \"dygraph\": '" ++
    addWebBase v4 cs!"plotter_scripts/ILinePlot/dygraph-combined" ++ cs!"',\n                    \"ILinePlot\": '" ++
    addWebBase v4 cs!"plotter_scripts/ILinePlot/ILinePlot" ++ cs!"',\n                    \"underscore\": '" ++
    addWebBase v4 cs!"plotter_scripts/ILinePlot/underscore-min" ++ ilpRest

/-- the whole script; `colours` is the text of the second argument, if there is one (ILinePlotGen.py:79, 111) -/
def ilpScript (v4 : Bool) (fig : Str) (colours : Option Str) : Str :=
  ilpPaths v4 ++ fig ++ cs!"_data" ++ (match colours with | some c => cs!", " ++ c | none => []) ++ ilpTail

end Trappy
