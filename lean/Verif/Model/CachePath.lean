import Verif.Model.PyStr
import Verif.Model.Publish
/-!
# Where the cache of a trace is

Models `_trace_cache_path` and `_get_csv_path` (`/repo/trappy/ftrace.py` lines 191-200), the path of the metadata (`ftrace.py` lines 203-204, 243) and `os.path.abspath`, `os.path.dirname` and `os.path.basename` on POSIX.

Simplifications: an absolute path is the list of its components; there are no links; the working directory is given by its components, and two slashes at the beginning of a path are not different from one.
-/

namespace Trappy
open Py

/-- the loop of `os.path.normpath` for an absolute path over the components; `acc` has those so far, the last one first -/
def normComps : List Str → List Str → List Str
  | acc, [] => acc.reverse
  | acc, c :: cs =>
    if c = [] ∨ c = cs!"." then normComps acc cs
    else if c = cs!".." then normComps acc.tail cs
    else normComps (c :: acc) cs

/-- `os.path.abspath` -/
def absComps (cwd : List Str) (path : Str) : List Str :=
  if path.head? = some '/' then normComps [] (splitOn '/' path) else normComps cwd.reverse (splitOn '/' path)

/-- `_trace_cache_path` (ftrace.py:191-196) -/
def cacheDir (cwd : List Str) (path : Str) : List Str :=
  (absComps cwd path).dropLast ++ ['.' :: (baseName path ++ cs!".cache")]

/-- `_get_csv_path` (ftrace.py:198-200) for the name of the class -/
def csvFile (cwd : List Str) (path cls : Str) : List Str := cacheDir cwd path ++ [cls ++ cs!".csv"]

/-- the path of the metadata (ftrace.py:203-204, 243) -/
def metadataFile (cwd : List Str) (path : Str) : List Str := cacheDir cwd path ++ [cs!"metadata.json"]

end Trappy
