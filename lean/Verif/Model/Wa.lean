import Verif.Model.Regex
import Verif.Model.Data
import Verif.Model.Events
import Verif.Model.Constraint
/-!
# Benchmark results, sysfs parameters and multi-run plots

`trappy/wa/results.py`, `trappy/wa/sysfs_extractor.py`, `trappy/plot_utils.py`, `trappy/ftrace.py:46-60, 620-650`. Files are given by their contents; matplotlib figures by the axes and what is drawn on them.
-/

namespace Trappy
open Py Re

/-! ## Results -/

/-- `re.match("Overall_Score|score|FPS", metric)` (results.py:85) -/
def metricRe : Re := .alt (str cs!"Overall_Score") (.alt (str cs!"score") (str cs!"FPS"))

/-- `[ _]` -/
def isRunSep (c : Char) : Bool := c == ' ' || c == '_'

/-- `(.+)[ _](\d+)` (results.py:88); simplification: `\d` is an ASCII digit -/
def runRe : Re := .seq (.group 1 (plus notNl)) (.seq (.chr isRunSep) (.group 2 (plus isDigit)))

/-- `get_run_number` (results.py:81-96) -/
def getRunNumber (metric : Str) : Bool × Option Int :=
  match matchPrefix metricRe metric with
  | none => (false, none)
  | some _ =>
    match search runRe metric with
    | none => (true, some 0)
    | some (_, c, _) =>
      match c.get 1, c.get 2 with
      | some what, some digits =>
        (true, (intB 10 digits).map fun n => if what = cs!"Overall_Score" then n - 1 else n)
      | _, _ => (true, none)

/-- `re.sub(r"_\d+", r"", s)` (results.py:127): the flag says that digits of a match are being skipped -/
def subRunId : Bool → Str → Str
  | _, [] => []
  | skip, c :: s =>
    if skip && isDigit c then subRunId true s
    else if c = '_' && s.head?.any isDigit then subRunId true s
    else c :: subRunId false s

/-- scores of a run id, by run number -/
abbrev RunScores (ν : Type) := List (Int × ν)

/-- the nested dictionaries: benchmark, run id, run number -/
abbrev BenchDict (ν : Type) := Dict (Dict (RunScores ν))

/-- the update of `bench_dict` (results.py:135-142) -/
def addScore {ν : Type} (d : BenchDict ν) (bench id : Str) (n : Int) (v : ν) : BenchDict ν :=
  match d.get bench with
  | some b =>
    match b.get id with
    | some rs => if n ∈ rs.map Prod.fst then d else d.set bench (b.set id (rs ++ [(n, v)]))
    | none => d.set bench (b.set id [(n, v)])
  | none => d.set bench [(id, [(n, v)])]

/-- exceptions of `get_results` -/
inductive WaErr where
  | index
  | value
deriving DecidableEq

/-- a score: an integer or, if `int` raises `ValueError`, a float (results.py:130-133). `rf` stands for `float`. -/
def scoreOf {F : Type} (rf : Str → Option F) (s : Str) : Option (Int ⊕ F) :=
  match intB 10 s with
  | some i => some (.inl i)
  | none => (rf s).map .inr

/-- the run id (results.py:124-127): the name given, if any, else that of the file without run numbers -/
def runIdOf (name : Option Str) (c0 : Str) : Str :=
  match name with
  | some x => if x = [] then subRunId false c0 else x
  | none => subRunId false c0

/-- one row (results.py:121-142) -/
def resultRow {F : Type} (rf : Str → Option F) (name : Option Str) (d : BenchDict (Int ⊕ F)) (row : List Str) : Except WaErr (BenchDict (Int ⊕ F)) :=
  match row with
  | c0 :: bench :: _ :: metric :: rest =>
    match getRunNumber metric with
    | (false, _) => .ok d
    | (true, none) => .ok d
    | (true, some n) =>
      match rest with
      | [] => .error .index
      | text :: _ =>
        match scoreOf rf text with
        | none => .error .value
        | some v => .ok (addScore d bench (runIdOf name c0) n v)
  | _ => .error .index

/-- the loop of `get_results` (results.py:120-142); the tables made of it are left out -/
def resultRows {F : Type} (rf : Str → Option F) (name : Option Str) : BenchDict (Int ⊕ F) → List (List Str) → Except WaErr (BenchDict (Int ⊕ F))
  | d, [] => .ok d
  | d, r :: rs =>
    match resultRow rf name d r with
    | .error e => .error e
    | .ok d' => resultRows rf name d' rs

/-- the columns `d[benchmark]` of all results, side by side; `none` is a `KeyError` (results.py:163) -/
def benchColumns {ν : Type} (bench : Str) : List (BenchDict ν) → Option (List (Str × RunScores ν))
  | [] => some []
  | d :: ds =>
    match d.get bench, benchColumns bench ds with
    | some c, some cs => some (c ++ cs)
    | _, _ => none

/-- the loop of `combine_results` over the benchmarks of the first result -/
def combineLoop {ν : Type} (data : List (BenchDict ν)) : List Str → Option (List (Str × List (Str × RunScores ν)))
  | [] => some []
  | b :: bs =>
    match benchColumns b data, combineLoop data bs with
    | some c, some r => some ((b, c) :: r)
    | _, _ => none

/-- `combine_results` (results.py:151-168); a result is the table of each benchmark, by its columns. `none` is an exception: no results (`data[0]`), no benchmarks (`pd.concat` of nothing) or a missing
benchmark. The alignment of the rows is left out. -/
def combineResults {ν : Type} (data : List (BenchDict ν)) : Option (List (Str × List (Str × RunScores ν))) :=
  match data with
  | [] => none
  | d :: _ => if d.isEmpty then none else combineLoop data (d.map Prod.fst)

/-! ## Sysfs parameters -/

/-- the fixed properties (sysfs_extractor.py:36-37) -/
def sysfsFixed : List Str := [cs!"integral_cutoff", cs!"k_d", cs!"k_i", cs!"k_po", cs!"k_pu", cs!"policy", cs!"sustainable_power"]

/-- `cdev\d+_weight` (sysfs_extractor.py:45, plot_utils.py:250) -/
def weightRe : Re := .seq (str cs!"cdev") (.seq (plus isDigit) (str cs!"_weight"))

/-- `trip_point_\d+_temp` (sysfs_extractor.py:47) -/
def tripRe : Re := .seq (str cs!"trip_point_") (.seq (plus isDigit) (str cs!"_temp"))

/-- `self.properties` (sysfs_extractor.py:36-48) -/
def sysfsProperties (listing : List Str) : List Str :=
  sysfsFixed ++ listing.filter fun f => (search weightRe f).isSome || (search tripRe f).isSome

/-- the value of a file (sysfs_extractor.py:68-76): the last character is cut off -/
def sysfsValue (contents : Str) : Val :=
  match intB 10 contents.dropLast with
  | some i => .int i
  | none => .str contents.dropLast

/-- `get_parameters` (sysfs_extractor.py:50-78); `files` are the regular files of the directory -/
def getParameters (files : Dict Str) : List Str → Dict Val → Dict Val
  | [], ret => ret
  | p :: ps, ret =>
    match files.get p with
    | none => getParameters files ps ret
    | some contents => getParameters files ps (ret.set p (sysfsValue contents))

/-- `sorted_weights` (plot_utils.py:248-251): `re.match` -/
def sortedWeights (params : Dict Val) : List Val :=
  ((sortBy strLt (params.map Prod.fst)).filter fun p => (matchPrefix weightRe p).isSome).filterMap fun p => params.get p

/-- `list(zip(actor_order, sorted_weights))` (plot_utils.py:253) -/
def actorWeights (actors : List Str) (params : Dict Val) : List (Str × Val) := actors.zip (sortedWeights params)

/-- `re.match(r"req_power\d+", s)` (thermal.py:233) -/
def reqPowerRe : Re := .seq (str cs!"req_power") (plus isDigit)

/-- `ThermalGovernor.plot_weighted_input_power` (thermal.py:232-237): the column drawn for each actor; weights are integers here -/
def weightedPower (columns : List (Str × List Int)) (weights : List (Str × Int)) : Dict (List Rat) :=
  ((columns.filter fun c => (matchPrefix reqPowerRe c.1).isSome).zip weights).foldl
    (fun d (e : (Str × List Int) × (Str × Int)) => d.set e.2.1 (e.1.2.map fun (x : Int) => (x : Rat) * (e.2.2 : Rat) / 1024)) []

/-! ## Plots of several runs -/

/-- `plot_temperature_hist` (plot_utils.py:309-325): axis number, name and temperatures drawn; a run is a name and its temperatures. `none` is the `KeyError` of a run without thermal events, whose table
has no column `temp` (thermal.py:115). -/
def temperatureHist (runs : List (Str × List Int)) : Option (List (Nat × Str × List Int)) :=
  let n := (runs.filter fun r => decide (r.2 ≠ [])).length
  let drawn := (List.range n).zip runs
  if drawn.all fun d => decide (d.2.2 ≠ []) then some drawn else none

/-- what `plt.subplots(ncols=, nrows=)` returns: by default one-element dimensions are squeezed out -/
inductive Axes where
  | one (a : Nat × Nat)
  | line (l : List (Nat × Nat))
  | grid (g : List (List (Nat × Nat)))
deriving DecidableEq

/-- `plt.subplots`; an axis is named by its row and its column -/
def subplots (nrows ncols : Nat) : Axes :=
  if nrows = 1 ∧ ncols = 1 then .one (0, 0)
  else if nrows = 1 then .line ((List.range ncols).map fun c => (0, c))
  else if ncols = 1 then .line ((List.range nrows).map fun r => (r, 0))
  else .grid ((List.range nrows).map fun r => (List.range ncols).map fun c => (r, c))

/-- `zip(*rows)` -/
def zipStar : List (List (Nat × Nat)) → List (List (Nat × Nat))
  | [] => []
  | [r] => r.map fun a => [a]
  | r :: rs => List.zipWith List.cons r (zipStar rs)

/-- the axes of each run in `plot_allfreqs` (plot_utils.py:208-222); `none` if the value has another shape -/
def allfreqsAxes (nruns nrows : Nat) : Option (List (List (Nat × Nat))) :=
  let axis := subplots nrows nruns
  if nruns = 1 then
    if nrows = 1 then (match axis with | .one a => some [[a]] | _ => none)
    else (match axis with | .line l => some [l] | _ => none)
  else if nrows = 1 then (match axis with | .line l => some (l.map fun a => [a]) | _ => none)
  else (match axis with | .grid g => some (zipStar g) | _ => none)

/-- the axes of each run in `plot_load` (plot_utils.py:194-200) and `plot_freq_hists` (297-304) -/
def loadAxes (nruns nrows : Nat) : Option (List (List (Nat × Nat))) :=
  let axis := subplots nrows nruns
  if nruns = 1 then (match axis with | .line l => some [l] | _ => none)
  else (match axis with | .grid g => some (zipStar g) | _ => none)

/-- the axis of each run in `plot_controller`, `plot_input_power` and `plot_output_power` (plot_utils.py:229-233, 271-275, 285-289) -/
def rowAxes (nruns : Nat) : Option (List (Nat × Nat)) :=
  let axis := subplots 1 nruns
  if nruns = 1 then (match axis with | .one a => some [a] | _ => none)
  else (match axis with | .line l => some l | _ => none)

/-- `GOLDEN_RATIO` (plot_utils.py:29) -/
def goldenRatio : Rat := 1618034 / 1000000

/-- the size of the figure of `pre_plot_setup` (plot_utils.py:86-98): width and height; `//` rounds down -/
def figureSize (width height : Option Rat) (nrows : Nat) : Rat × Rat :=
  match height, width with
  | none, none => (10, 6 * nrows)
  | none, some w => (w, ((w / goldenRatio).floor : Rat) * nrows)
  | some h, none => (h * goldenRatio, h * nrows)
  | some h, some w => (w, h * nrows)

/-- the first argument of `set_lim` (plot_utils.py:43-61) -/
inductive LimArg where
  | default
  | range
  | limits (a b : Rat)
deriving DecidableEq

/-- `set_lim`: the new limits -/
def setLim (cur : Rat × Rat) : LimArg → Rat × Rat
  | .default => cur
  | .range => (cur.1 - 1 / 10 * (cur.2 - cur.1), cur.2 + 1 / 10 * (cur.2 - cur.1))
  | .limits a b => (a, b)

/-- a histogram drawn by `_plot_freq_hists` (ftrace.py:46-60): axis, title and data -/
structure FreqHist where
  axis : Nat
  title : Str
  data : List Int
deriving DecidableEq

/-- `_plot_freq_hists` -/
def freqHistsOf (what : Str) (axis : List Nat) (allfreqs : List (Str × List Int)) : List FreqHist :=
  (axis.zip allfreqs).map fun e => ⟨e.1, cs!"freq " ++ what ++ ' ' :: e.2.1, e.2.2⟩

/-- `FTrace.plot_freq_hists` (ftrace.py:620-650) for tables that are already filled; the name of the trace is left out of the titles -/
def freqHists (out inp : List (Str × List Int)) (ax : List Nat) : List FreqHist :=
  let base := ax.length / 2
  freqHistsOf cs!"out" (ax.take base) out ++ freqHistsOf cs!"out" (ax.drop base) inp

end Trappy
