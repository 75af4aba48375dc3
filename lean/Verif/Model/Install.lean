import Verif.Model.Publish
import Verif.Model.Data
/-!
# Installing the scripts of interactive plots

Models `iplot_install` and what it calls (`/repo/trappy/plotter/IPythonConf.py` lines 28-45, 57-128).

Simplifications: the directory of the module (`<profile>/plotter_scripts/<module>`) is a dictionary from names to contents; making it and copying local
files are assumed to succeed. A download has three results: all of the file, `IOError` before the file is opened (no connection), or `IOError` with a part of it
on the disk (`urlretrieve` raises `ContentTooShortError`, or the connection breaks).
-/

namespace Trappy

/-- result of a download -/
inductive Fetch where
  | all
  | nothing
  | part (s : Str)
deriving DecidableEq

/-- `IPLOT_RESOURCES` (IPythonConf.py:34-45) -/
def iplotResources : List (Str × List Str) :=
  [(cs!"ILinePlot", [cs!"https://cdnjs.cloudflare.com/ajax/libs/dygraph/1.1.1/dygraph-combined.js", cs!"js/ILinePlot.js",
      cs!"https://github.com/danvk/dygraphs/blob/v2.1.0/src/extras/synchronizer.js",
      cs!"https://cdnjs.cloudflare.com/ajax/libs/underscore.js/1.8.3/underscore-min.js"]),
   (cs!"EventPlot", [cs!"https://cdnjs.cloudflare.com/ajax/libs/d3/3.5.6/d3.min.js",
      cs!"https://labratrevenge.com/d3-tip/javascripts/d3.tip.v0.6.3.js", cs!"js/EventPlot.js", cs!"css/EventPlot_help.jpg"])]

/-- `install_resource` (IPythonConf.py:89-103) of `src`, whose content is `content`: whether it returns, and the directory afterwards -/
def installResource (content : Str) (f : Fetch) (src dest : Str) (disk : Dict Str) : Bool × Dict Str :=
  if Py.startsWith src cs!"http" then
    match disk.get dest with
    | some _ => (true, disk)
    | none =>
      match f with
      | .all => (true, disk.set dest content)
      | .nothing => (false, disk)
      | .part s => (false, disk.set dest s)
  else (true, disk.set dest content)

/-- the loop of `iplot_install` (IPythonConf.py:120-133); `content` are the contents of URLs and local files, `net` the results of the downloads -/
def iplotInstall (content : Str → Str) (net : Str → Fetch) : List Str → Dict Str → Bool × Dict Str
  | [], disk => (true, disk)
  | r :: rs, disk =>
    match installResource (content r) (net r) r (baseName r) disk with
    | (false, d) => (false, d)
    | (true, d) => iplotInstall content net rs d

/-- calls one after the other, each with the results of its downloads: whether each returned, and the directory afterwards -/
def installCalls (content : Str → Str) (rs : List Str) : List (Str → Fetch) → Dict Str → List Bool × Dict Str
  | [], disk => ([], disk)
  | net :: nets, disk =>
    let (ok, d) := iplotInstall content net rs disk
    let (oks, d) := installCalls content rs nets d
    (ok :: oks, d)

end Trappy
