import Verif.Model.PyStr
/-!
# Publishing notebooks

Models `change_resource_paths` and the choice of the output file of `/repo/scripts/publish_interactive_plots.py` (lines 38-67, 116-126), and
`add_web_base` of `/repo/trappy/plotter/IPythonConf.py` (lines 187-200).

Simplifications: of the version of IPython only matters whether it is at least 4.0; signing the notebook is left out.
-/

namespace Trappy

/-- `add_web_base` (IPythonConf.py:188-200): `os.path.join` with a relative path -/
def addWebBase (v4 : Bool) (path : Str) : Str := (if v4 then cs!"/nbextensions" else cs!"/static") ++ '/' :: path

/-- the replacements, in order (publish_interactive_plots.py:44-64): path of the script without `.js`, and URL -/
def publishedUrls : List (Str × Str) :=
  [(cs!"plotter_scripts/EventPlot/d3.tip.v0.6.3", cs!"https://labratrevenge.com/d3-tip/javascripts/d3.tip.v0.6.3.js"),
   (cs!"plotter_scripts/EventPlot/d3.v3.min", cs!"https://cdnjs.cloudflare.com/ajax/libs/d3/3.5.6/d3.min.js"),
   (cs!"plotter_scripts/EventPlot/EventPlot",
    cs!"https://rawgit.com/sinkap/7f89de3e558856b81f10/raw/46144f8f8c5da670c54f826f0c634762107afc66/EventPlot"),
   (cs!"plotter_scripts/ILinePlot/synchronizer", cs!"https://github.com/danvk/dygraphs/blob/v2.1.0/src/extras/synchronizer.js"),
   (cs!"plotter_scripts/ILinePlot/dygraph-combined", cs!"https://cdnjs.cloudflare.com/ajax/libs/dygraph/1.1.1/dygraph-combined.js"),
   (cs!"plotter_scripts/ILinePlot/ILinePlot",
    cs!"https://rawgit.com/sinkap/648927dfd6985d4540a9/raw/69d6f1f9031ae3624c15707315ce04be1a9d1ac3/ILinePlot"),
   (cs!"plotter_scripts/ILinePlot/underscore-min", cs!"https://cdnjs.cloudflare.com/ajax/libs/underscore.js/1.8.3/underscore-min.js")]

/-- `change_resource_paths` (publish_interactive_plots.py:38-67) -/
def changeResourcePaths (v4 : Bool) (txt : Str) : Str :=
  publishedUrls.foldl (fun txt u => Py.replace (addWebBase v4 u.1) u.2 txt) txt

/-- `os.path.basename` on POSIX -/
def baseName (path : Str) : Str := (path.reverse.takeWhile (· != '/')).reverse

/-- the file that is written (publish_interactive_plots.py:119-124) -/
def publishTarget (notebook outfile : Str) : Str :=
  if outfile = [] then cs!"published_" ++ baseName notebook
  else if Py.endsWith outfile cs!".ipynb" then outfile
  else outfile ++ cs!".ipynb"

end Trappy
