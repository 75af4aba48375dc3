import Verif.Model.Publish
import Verif.Model.Data
/-!
# Runs of publish_interactive_plots.py

Source: `scripts/publish_interactive_plots.py` lines 70-85 (`publish`) and 87-126 (`main`).

The files are a dictionary from paths to texts. The profile (99-103) is read and never used.

Simplifications: files are known by their path from the root, without links and dots; the current directory is not the root; directories can be written; signing the notebook, which comes last, is left out.
-/

namespace Trappy

/-- the path from the root -/
def absPath (cwd path : Str) : Str := if path.head? = some '/' then path else cwd ++ '/' :: path

/-- the arguments of a run; `outfile` is empty if it is not given -/
structure PublishArgs where
  cwd : Str
  profile : Str
  outfile : Str
  notebook : Str
deriving DecidableEq

/-- `main` and `publish` (publish_interactive_plots.py:70-126): the files after it, and whether it succeeds. The source is read before the target is opened. -/
def publishRun (v4 : Bool) (files : Dict Str) (a : PublishArgs) : Dict Str × Bool :=
  match files.get (absPath a.cwd a.notebook) with
  | none => (files, false)
  | some txt => (files.set (absPath a.cwd (publishTarget a.notebook a.outfile)) (changeResourcePaths v4 txt), true)

/-- several runs -/
def publishRuns (v4 : Bool) (files : Dict Str) (runs : List PublishArgs) : Dict Str := runs.foldl (fun files a => (publishRun v4 files a).1) files

end Trappy
