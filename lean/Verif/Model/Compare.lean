import Verif.Model.Thermal
/-!
# `compare_runs`

Models `/repo/trappy/compare_runs.py` lines 21-109 with the functions of `/repo/trappy/plot_utils.py` that it calls, `plot_freq_hists` (`/repo/trappy/ftrace.py` lines 46-63, 620-650), `plot_controller` (`/repo/trappy/pid_controller.py` lines
38-62) and the power plots (`/repo/trappy/thermal.py` lines 161-291).

Simplifications: the traces are already read; sizes, legends, limits and the tables of parameters shown in a notebook are left out. A figure in which drawing fails is not counted. A table without rows has no columns. The rest as in `Thermal.lean`.
-/

namespace Trappy
open Re Py

/-- A row of the `pid_controller` table, with the columns drawn (pid_controller.py:60) -/
structure PidRow where
  time : Nat
  output : Rat
  p : Rat
  i : Rat
  d : Rat
deriving DecidableEq

/-- A run: its tables (compare_runs.py:81) and parameters of the thermal zone (plot_utils.py:243-246). -/
structure ThRun where
  name : Str
  temp : TempRun
  /-- the columns of `thermal_governor` -/
  govCols : List (Str × Points)
  /-- the columns of `cpu_in_power` other than the mask and the frequency -/
  inNames : List Str
  inRows : List LRow
  outRows : List (PRow Rat)
  gpuIn : List GpuRow
  gpuOut : List (Nat × Rat)
  pid : List PidRow
  sysfs : Dict Val
  /-- the orders in which the sets of clusters are iterated -/
  orderIn : List Str
  orderOut : List Str
deriving DecidableEq

/-- Why `compare_runs` fails. -/
inductive CmpErr where
  /-- `TypeError`: an argument of the wrong type (compare_runs.py:69-73) -/
  | argument
  /-- `TypeError`: a keyword that a function does not have -/
  | keyword
  /-- the `ValueError` with the message that there are no power allocator traces (compare_runs.py:91) -/
  | noPower
  /-- `KeyError` of a table without columns -/
  | key
  /-- `ValueError` of matplotlib: no columns of plots -/
  | noPlots
  /-- the axes have another shape -/
  | shape
  /-- `ValueError`: another number of actors than columns (thermal.py:195, 277) -/
  | actors
  /-- `TypeError` of pandas: no numeric data to plot -/
  | noNumeric
  /-- `TypeError`: a weight that is not a number (thermal.py:237) -/
  | weight
  | power (e : PowerError)
deriving DecidableEq, Repr

/-- an axis: row and column -/
abbrev AxisAt := Nat × Nat

/-- A figure. For each run the axes and what is drawn on them. -/
inductive CmpFig where
  | temperature (lines : List TempLines)
  | load (l : List (List (AxisAt × PTable Rat)))
  | freqs (l : List (List (AxisAt × Str × PTable Rat)))
  | controller (l : List (AxisAt × List PidRow))
  | inputPower (l : List (AxisAt × List (Str × Points)))
  | weightedPower (l : List (AxisAt × List (Str × Points)))
  | outputPower (l : List (AxisAt × List (Str × Points)))
  | freqHists (l : List (List (AxisAt × Str × List (Option Rat))))
  | tempHist (l : List (AxisAt × Str × List Rat))
deriving DecidableEq

/-- a loop that ends with the first exception -/
def eachOk {α β : Type} (f : α → Except CmpErr β) : List α → Except CmpErr (List β)
  | [] => .ok []
  | x :: xs =>
    match f x with
    | .error e => .error e
    | .ok y =>
      match eachOk f xs with
      | .error e => .error e
      | .ok ys => .ok (y :: ys)

/-- `for ax, run in zip(axis, runs)`; without runs `plt.subplots` fails -/
def forAxes {τ β : Type} (runs : List ThRun) (axes : Option (List τ)) (f : τ → ThRun → Except CmpErr β) : Except CmpErr (List β) :=
  if runs = [] then .error .noPlots
  else
    match axes with
    | none => .error .shape
    | some as => eachOk (fun x => f x.1 x.2) (as.zip runs)

/-- `plot_temperature` (plot_utils.py:146-178) -/
def temperatureFig (tz : Option Int) (runs : List ThRun) : Except CmpErr (List CmpFig) :=
  match plotTemperature tz (runs.map ThRun.temp) with
  | none => .error .key
  | some ls => .ok [.temperature ls]

/-- what an exception of the power tables becomes in `plot_load` (compare_runs.py:88-91) -/
def loadError : PowerError → CmpErr
  | .indexError => .noPower
  | e => .power e

/-- one run of `plot_load` (plot_utils.py:199-201): two axes -/
def loadOf (sort : Bool) (mapping : Dict Str) (axes : List AxisAt) (run : ThRun) : Except CmpErr (List (AxisAt × PTable Rat)) :=
  match plotLoad sort run.orderIn run.inNames run.inRows run.gpuIn mapping with
  | .error e => .error (loadError e)
  | .ok T =>
    match plotNormalizedLoad sort run.orderIn run.inNames run.inRows run.gpuIn mapping with
    | .error e => .error (loadError e)
    | .ok N => .ok (axes.zip [T, N])

/-- `plot_load` (plot_utils.py:190-201) -/
def loadFig (sort : Bool) (mapping : Dict Str) (runs : List ThRun) : Except CmpErr (List CmpFig) :=
  (forAxes runs (loadAxes runs.length 2) (loadOf sort mapping)).map fun l => [.load l]

/-- the rows of the frequencies of `cpu_in_power` -/
def ThRun.inFreqs (run : ThRun) : List (PRow Rat) := run.inRows.map fun r => ⟨r.time, r.mask, some r.freq⟩

/-- the rows of the frequencies of the GPU -/
def ThRun.gpuFreqs (run : ThRun) : List (Nat × Rat) := run.gpuIn.map fun r => (r.time, r.freq)

/-- one run of `plot_allfreqs` (ftrace.py:711-737) -/
def freqsOf (mapping : Dict Str) (axes : List AxisAt) (run : ThRun) : Except CmpErr (List (AxisAt × Str × PTable Rat)) :=
  match getAllFreqsData run.orderIn run.orderOut run.inFreqs run.outRows run.gpuFreqs run.gpuOut mapping with
  | .error e => .error (.power e)
  | .ok ts => .ok (axes.zip ts)

/-- `plot_allfreqs` (plot_utils.py:203-225) -/
def freqsFig (mapping : Dict Str) (runs : List ThRun) : Except CmpErr (List CmpFig) :=
  (forAxes runs (allfreqsAxes runs.length (numberFreqPlots (runs.map ThRun.gpuFreqs) mapping)) (freqsOf mapping)).map fun l => [.freqs l]

/-- one run of `plot_controller` (pid_controller.py:55-62) -/
def controllerOf (axis : AxisAt) (run : ThRun) : Except CmpErr (AxisAt × List PidRow) :=
  if run.pid = [] then .error .key else .ok (axis, run.pid)

/-- `plot_controller` (plot_utils.py:227-236) -/
def controllerFig (runs : List ThRun) : Except CmpErr (List CmpFig) :=
  (forAxes runs (rowAxes runs.length) controllerOf).map fun l => [.controller l]

/-- one run of `plot_input_power` and `plot_output_power` (thermal.py:187-206, 272-291) -/
def powerOf (word : Str) (actors : List Str) (axis : AxisAt) (run : ThRun) : Except CmpErr (AxisAt × List (Str × Points)) :=
  match powerPlot word run.govCols actors with
  | none => .error .actors
  | some [] => .error .noNumeric
  | some cols => .ok (axis, cols)

/-- `plot_input_power` up to line 279 and `plot_output_power` (plot_utils.py:269-279, 283-293) -/
def powerFig (word : Str) (fig : List (AxisAt × List (Str × Points)) → CmpFig) (actors : List Str) (runs : List ThRun) : Except CmpErr (List CmpFig) :=
  (forAxes runs (rowAxes runs.length) (powerOf word actors)).map fun l => [fig l]

/-- the loop over the columns and the weights (thermal.py:236-237); equal names replace each other -/
def weightLoop : List ((Str × Points) × (Str × Val)) → Dict Points → Except CmpErr (Dict Points)
  | [], acc => .ok acc
  | ((_, ps), (name, w)) :: l, acc =>
    match w with
    | .int k => weightLoop l (acc.set name (ps.map fun x => (x.1, x.2 * (k : Rat) / 1024)))
    | .str _ => .error .weight

/-- one run of `plot_weighted_input_power` (thermal.py:230-247) -/
def weightedOf (actors : List Str) (axis : AxisAt) (run : ThRun) : Except CmpErr (AxisAt × List (Str × Points)) :=
  match weightLoop ((run.govCols.filter fun c => (matchPrefix reqPowerRe c.1).isSome).zip (actorWeights actors run.sysfs)) [] with
  | .error e => .error e
  | .ok [] => .error .noNumeric
  | .ok d => .ok (axis, d)

/-- `plot_weighted_input_power` (plot_utils.py:238-267): nothing if no run has weights -/
def weightedFig (actors : List Str) (runs : List ThRun) : Except CmpErr (List CmpFig) :=
  if runs.all fun r => (actorWeights actors r.sysfs).isEmpty then .ok []
  else (forAxes runs (rowAxes runs.length) (weightedOf actors)).map fun l => [.weightedPower l]

/-- the columns of `pd.concat([cpu_allfreqs, devfreq_freqs], axis=1).fillna(method="pad")` (ftrace.py:641-647): the frequencies of the GPU are a table, whose column keeps its name when line 642 gives the table one -/
def histTable (sort : Bool) (T : PTable Rat) : Option (List (Nat × Option Rat)) → Except PowerError (PTable Rat)
  | none => .ok (padTable T)
  | some gpu =>
    let index := concatIndex sort T.index (gpu.map Prod.fst)
    match alignAll index (T.allSeries ++ [(cs!"freq", gpu)]) with
    | .error e => .error e
    | .ok cols => .ok ⟨index, cols⟩

/-- `_plot_freq_hists` (ftrace.py:46-63); the name of the run is left out of the title -/
def histsOf (axes : List AxisAt) (T : PTable Rat) : List (AxisAt × Str × List (Option Rat)) :=
  (axes.zip T.cols).map fun e => (e.1, cs!"freq out " ++ e.2.1, e.2.2)

/-- both frequencies of the GPU, if neither is `None` (ftrace.py:630-640) -/
def bothFreqs {β : Type} : Option β → Option β → Option (β × β)
  | some o, some i => some (o, i)
  | _, _ => none

/-- `FTrace.plot_freq_hists` (ftrace.py:620-650) -/
def freqHistsOfRun (sort : Bool) (mapping : Dict Str) (ax : List AxisAt) (run : ThRun) : Except CmpErr (List (AxisAt × Str × List (Option Rat))) :=
  let base := ax.length / 2
  let gpu := bothFreqs (devFreqs run.gpuOut) (devFreqs run.gpuFreqs)
  match getAllFreqs run.orderOut run.outRows mapping with
  | .error e => .error (.power e)
  | .ok out =>
    match getAllFreqs run.orderIn run.inFreqs mapping with
    | .error e => .error (.power e)
    | .ok inp =>
      match histTable sort out (gpu.map Prod.fst) with
      | .error e => .error (.power e)
      | .ok o =>
        match histTable sort inp (gpu.map Prod.snd) with
        | .error e => .error (.power e)
        | .ok i => .ok (histsOf (ax.take base) o ++ histsOf (ax.drop base) i)

/-- `plot_freq_hists` (plot_utils.py:295-307) -/
def freqHistsFig (sort : Bool) (mapping : Dict Str) (runs : List ThRun) : Except CmpErr (List CmpFig) :=
  (forAxes runs (loadAxes runs.length (2 * numberFreqPlots (runs.map ThRun.gpuFreqs) mapping)) (freqHistsOfRun sort mapping)).map fun l => [.freqHists l]

/-- `Thermal.plot_temperature_hist` (thermal.py:104-119) -/
def tempHistOf (axis : AxisAt) (run : ThRun) : Except CmpErr (AxisAt × Str × List Rat) :=
  if run.temp.thermal = [] then .error .key else .ok (axis, run.name, run.temp.thermal.map fun r => r.temp / 1000)

/-- `plot_temperature_hist` (plot_utils.py:309-325): one axis for each run with temperatures, and then the first runs -/
def tempHistFig (runs : List ThRun) : Except CmpErr (List CmpFig) :=
  let n := (runs.filter fun r => decide (r.temp.thermal ≠ [])).length
  if n = 0 then .ok []
  else (forAxes runs (rowAxes n) tempHistOf).map fun l => [.tempHist l]

/-- figures until the first exception -/
def runSteps : List (Except CmpErr (List CmpFig)) → List CmpFig × Option CmpErr
  | [] => ([], none)
  | .error e :: _ => ([], some e)
  | .ok fs :: ss => let r := runSteps ss; (fs ++ r.1, r.2)

/-- The arguments other than runs: whether they have the right types, and the keywords other than `width` and `height`. -/
structure CmpArgs where
  actors : List Str
  labels : Dict Str
  isList : Bool := true
  isDict : Bool := true
  tz : Option Int := none
  /-- the keyword `ylim` -/
  ylim : Bool := false
  /-- any other keyword -/
  other : Bool := false

/-- `compare_runs` (compare_runs.py:66-98); `sort` as in `concatIndex` -/
def compareRuns (sort : Bool) (a : CmpArgs) (runs : List ThRun) : List CmpFig × Option CmpErr :=
  if !a.isList || !a.isDict then ([], some .argument)
  else runSteps [
    if a.other then .error .keyword else temperatureFig a.tz runs,
    if a.ylim then .error .keyword else loadFig sort a.labels runs,
    freqsFig a.labels runs,
    controllerFig runs,
    powerFig cs!"req_power" .inputPower a.actors runs,
    weightedFig a.actors runs,
    powerFig cs!"granted_power" .outputPower a.actors runs,
    freqHistsFig sort a.labels runs,
    tempHistFig runs]

/-- `summary_plots` (compare_runs.py:100-109): one run -/
def summaryPlots (sort : Bool) (a : CmpArgs) (run : ThRun) : List CmpFig × Option CmpErr := compareRuns sort a [run]

end Trappy
