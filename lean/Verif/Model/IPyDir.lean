import Verif.Model.Install
import Verif.Model.Line
/-!
# Where the scripts of interactive plots are installed

Models `get_profile_name`, `get_ipython_dir`, `add_web_base` and `get_scripts_path` of `/repo/trappy/plotter/IPythonConf.py` (lines 131-212), `iplot_install` (106-128) with
full paths, and `distutils.version.StrictVersion` of Python, which these compare versions with.

Simplifications: making directories succeeds (102, 125-126, 210-211); the answers of IPython and Jupyter do not change during a call.
-/

namespace Trappy
open Py

/-- what the code asks IPython and Jupyter for: `IPython.__version__` (none: IPython is not installed), `jupyter_data_dir()`, `IPython.get_ipython().profile` (none: not in a session) and
`locate_profile` -/
structure IPyEnv where
  version : Option Str
  dataDir : Str
  session : Option Str
  locate : Str → Str

/-- the exceptions: `ImportError` without IPython, `ValueError` of `StrictVersion`, `ImportError` of `get_profile_name` -/
inductive IPyErr where
  | noIPython
  | badVersion
  | noProfile
deriving DecidableEq

/-- `StrictVersion`: the numbers, and `a` or `b` with its number for a pre-release -/
structure StrictVersion where
  major : Nat
  minor : Nat
  patch : Nat
  pre : Option (Char × Nat)
deriving DecidableEq

/-- `(\d+)` at the front, greedy, and the rest -/
def numHead (s : Str) : Option (Nat × Str) :=
  if s.takeWhile isDigit = [] then none else some (natVal (s.takeWhile isDigit), s.dropWhile isDigit)

/-- `(\. (\d+))?`; the number is 0 without it -/
def patchPart (s : Str) : Nat × Str :=
  match s with
  | '.' :: t =>
    match numHead t with
    | some (n, r) => (n, r)
    | none => (0, s)
  | _ => (0, s)

/-- `([ab](\d+))?` -/
def prePart (s : Str) : Option (Char × Nat) × Str :=
  match s with
  | c :: t =>
    if c = 'a' ∨ c = 'b' then
      match numHead t with
      | some (n, r) => (some (c, n), r)
      | none => (none, s)
    else (none, s)
  | [] => (none, [])

/-- `StrictVersion(s)` (Python's distutils/version.py): `^(\d+) \. (\d+) (\. (\d+))? ([ab](\d+))?$`; none is `ValueError`. No part of the pattern can give back what it took: what follows a
number is no digit. `$` also matches before a newline at the end. -/
def strictParse (s : Str) : Option StrictVersion :=
  match numHead s with
  | some (a, '.' :: t) =>
    match numHead t with
    | some (b, u) =>
      let pa := patchPart u
      let pr := prePart pa.2
      if pr.2 = [] ∨ pr.2 = ['\n'] then some ⟨a, b, pa.1, pr.1⟩ else none
    | none => none
  | _ => none

/-- `v >= V('a.b.c')` for a version that is no pre-release: the numbers in order, then a pre-release is before its release (`StrictVersion._cmp`) -/
def StrictVersion.ge (v : StrictVersion) (a b c : Nat) : Bool :=
  if v.major ≠ a then decide (a < v.major)
  else if v.minor ≠ b then decide (b < v.minor)
  else if v.patch ≠ c then decide (c < v.patch)
  else match v.pre with
    | none => true
    | some _ => false

/-- `V(IPython.__version__) >= V('4.0.0')` (IPythonConf.py:175, 197) -/
def isV4 (s : Str) : Option Bool := (strictParse s).map (·.ge 4 0 0)

/-- `os.path.join` on POSIX -/
def osJoin (a b : Str) : Str :=
  if startsWith b cs!"/" then b
  else if a = [] ∨ endsWith a cs!"/" then a ++ b
  else a ++ '/' :: b

/-- `s.strip("/")` -/
def stripSlash (s : Str) : Str := (((s.dropWhile (· == '/')).reverse).dropWhile (· == '/')).reverse

/-- `get_ipython_dir` (IPythonConf.py:162-186) with `get_profile_name` (152-160) -/
def getIpythonDir (env : IPyEnv) (profile : Option Str) : Except IPyErr Str :=
  match env.version with
  | none => .error .noIPython
  | some s =>
    match isV4 s with
    | none => .error .badVersion
    | some true => .ok (osJoin env.dataDir (stripSlash cs!"/nbextensions"))
    | some false =>
      match profile.filter (· ≠ []) with
      | some p => .ok (osJoin (env.locate p) (stripSlash cs!"/static"))
      | none =>
        match env.session with
        | none => .error .noProfile
        | some p => .ok (osJoin (env.locate p) (stripSlash cs!"/static"))

/-- `get_scripts_path` (IPythonConf.py:202-212) -/
def getScriptsPath (env : IPyEnv) (profile : Option Str) : Except IPyErr Str :=
  match getIpythonDir env profile with
  | .error e => .error e
  | .ok d => .ok (osJoin d cs!"plotter_scripts")

/-- `add_web_base` (IPythonConf.py:188-200) -/
def webBase (env : IPyEnv) (path : Str) : Except IPyErr Str :=
  match env.version with
  | none => .error .noIPython
  | some s =>
    match isV4 s with
    | none => .error .badVersion
    | some true => .ok (osJoin cs!"/nbextensions" path)
    | some false => .ok (osJoin cs!"/static" path)

/-- the loop of `iplot_install` (IPythonConf.py:117-128) on a disk with full paths; `dir` is the directory of the module -/
def iplotInstallAt (content : Str → Str) (net : Str → Fetch) (dir : Str) : List Str → Dict Str → Bool × Dict Str
  | [], disk => (true, disk)
  | r :: rs, disk =>
    match installResource (content r) (net r) r (osJoin dir (baseName r)) disk with
    | (false, d) => (false, d)
    | (true, d) => iplotInstallAt content net dir rs d

/-- `iplot_install(module)` (IPythonConf.py:106-128) -/
def viewInstall (env : IPyEnv) (content : Str → Str) (net : Str → Fetch) (m : Str × List Str) (disk : Dict Str) : Except IPyErr (Bool × Dict Str) :=
  match getScriptsPath env none with
  | .error e => .error e
  | .ok p => .ok (iplotInstallAt content net (osJoin p m.1) m.2 disk)

end Trappy
