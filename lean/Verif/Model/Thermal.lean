import Verif.Model.Power
import Verif.Model.Wa
/-!
# Temperature, power, frequency and load plots

Models `plot_temperature` (`/repo/trappy/plot_utils.py` lines 146-178), the plots of `/repo/trappy/thermal.py`,
`get_all_freqs_data`, `plot_load` and `plot_normalized_load` (`/repo/trappy/ftrace.py` lines 539-569, 651-709),
`get_all_freqs` of `/repo/trappy/devfreq_power.py` and `number_freq_plots` (plot_utils.py lines 127-144).

Simplifications: what is drawn is the list of points of each line; titles, legends, limits and colours are left out. Times
are natural numbers, numbers are rationals. A table without rows has no columns, as `create_dataframe` makes it; a table
with rows has all the columns the kernel prints. Drawing a line without points draws nothing.
-/

namespace Trappy

open Re Py

/-! ## Temperature -/

/-- A row of the `thermal` table (thermal.py:29-40). -/
structure TempRow where
  time : Nat
  id : Int
  temp : Rat
deriving DecidableEq

/-- A row of the `thermal_governor` table (thermal.py:121-131). -/
structure GovRow where
  time : Nat
  zone : Int
  current : Rat
  delta : Rat
deriving DecidableEq

/-- A line of a plot. -/
abbrev Points := List (Nat × Rat)

/-- What one run adds to the temperature plot: the temperature and, if there is one, the control temperature. -/
structure TempLines where
  temp : Points
  control : Option Points
deriving DecidableEq

/-- A run: its governor table and its table of temperatures. -/
structure TempRun where
  gov : List GovRow
  thermal : List TempRow
deriving DecidableEq

/-- `(curr_temp + dfr["delta_temperature"]) / 1000` (thermal.py:141, plot_utils.py:160) -/
def controlSeries (rows : List GovRow) : Points := rows.map fun r => (r.time, (r.current + r.delta) / 1000)

/-- `Thermal.plot_temperature` (thermal.py:42-101); `none` is `ValueError`. -/
def thermalPlot (thermal : List TempRow) (control : Option Points) (tz : Option Int) : Option TempLines :=
  if thermal.length = 0 then none
  else
    match tz with
    | none => some ⟨thermal.map fun r => (r.time, r.temp / 1000), control⟩
    | some z =>
      let rows := thermal.filter fun r => r.id = z
      if rows.length = 0 then none else some ⟨rows.map fun r => (r.time, r.temp / 1000), control⟩

/-- `ThermalGovernor.plot_temperature` (thermal.py:136-159); `none` is the `KeyError` of a table without columns. -/
def governorPlot (gov : List GovRow) : Option TempLines :=
  if gov.length = 0 then none else some ⟨gov.map fun r => (r.time, r.current / 1000), some (controlSeries gov)⟩

/-- `if tz_id:` (plot_utils.py:155) -/
def zoneTruthy : Option Int → Bool
  | none => false
  | some z => z != 0

/-- the governor rows of the zone (plot_utils.py:154-156); `none` is `KeyError`. -/
def govOfZone (gov : List GovRow) (tz : Option Int) : Option (List GovRow) :=
  if zoneTruthy tz then
    if gov.length = 0 then none else some (gov.filter fun r => some r.zone = tz)
  else some gov

/-- one run of `plot_temperature` (plot_utils.py:153-170); `none` is `KeyError`. -/
def runTemperature (run : TempRun) (tz : Option Int) : Option TempLines :=
  match govOfZone run.gov tz with
  | none => none
  | some gov =>
    let control := if run.gov.length = 0 then none else some (controlSeries gov)
    match thermalPlot run.thermal control tz with
    | some lines => some lines
    | none => governorPlot run.gov

/-- the loop over the runs (plot_utils.py:153-170) -/
def plotTemperature (tz : Option Int) : List TempRun → Option (List TempLines)
  | [] => some []
  | run :: runs =>
    match runTemperature run tz with
    | none => none
    | some l =>
      match plotTemperature tz runs with
      | none => none
      | some ls => some (l :: ls)

/-! ## Input and output power -/

/-- the columns of a power plot, renamed to the actors (thermal.py:187-195 with `req_power`, 272-277 with
`granted_power`); `none` is the `ValueError` of a list of the wrong length. -/
def powerPlot {ν : Type} (word : Str) (columns : List (Str × ν)) (actors : List Str) : Option (List (Str × ν)) :=
  let cols := columns.filter fun c => (matchPrefix (.seq (str word) (plus isDigit)) c.1).isSome
  if cols.length = actors.length then some (actors.zip (cols.map Prod.snd)) else none

/-- `P(.*)_in` (thermal.py:296) -/
def inColRe : Re := .seq (lit 'P') (.seq (.group 1 (.star notNl)) (str cs!"_in"))

/-- the actors of `plot_inout_power` (thermal.py:294-298) -/
def inoutActors (columns : List Str) : List Str :=
  columns.filterMap fun col =>
    match matchPrefix inColRe col with
    | none => none
    | some (caps, _) => if col = cs!"Ptot_in" then none else Caps.get caps 1

/-- one plot for each actor (thermal.py:300-303); `none` is `KeyError`. -/
def inoutPlots {ν : Type} (columns : List (Str × ν)) : List Str → Option (List (Str × ν × ν))
  | [] => some []
  | actor :: actors =>
    match columns.lookup ('P' :: actor ++ cs!"_in"), columns.lookup ('P' :: actor ++ cs!"_out") with
    | some i, some o =>
      match inoutPlots columns actors with
      | none => none
      | some ps => some ((actor, i, o) :: ps)
    | _, _ => none

/-- `plot_inout_power` (thermal.py:293-311) -/
def plotInoutPower {ν : Type} (columns : List (Str × ν)) : Option (List (Str × ν × ν)) :=
  inoutPlots columns (inoutActors (columns.map Prod.fst))

/-! ## Frequencies -/

/-- `pd.DataFrame({a: s, b: s'}).fillna(method="pad")` (ftrace.py:551-553, 563-566) -/
def joinPad (a : Str) (s : List (Nat × Option Rat)) (b : Str) (s' : List (Nat × Option Rat)) : Except PowerError (PTable Rat) :=
  let index := commonIndex [s.map Prod.fst, s'.map Prod.fst]
  match alignAll index [(a, s), (b, s')] with
  | .error e => .error e
  | .ok cols => .ok ⟨index, cols⟩

/-- a column of a table as a series -/
def PTable.series {α : Type} (T : PTable α) (label : Str) : Option (List (Nat × Option α)) :=
  (T.cols.get label).map fun col => T.index.zip col

/-- the loop over the labels (ftrace.py:546-554) -/
def freqTables (tin tout : PTable Rat) : List Str → Except PowerError (List (Str × PTable Rat))
  | [] => .ok []
  | label :: labels =>
    match tin.series label, tout.series label with
    | some i, some o =>
      match joinPad (label ++ cs!"_freq_in") i (label ++ cs!"_freq_out") o with
      | .error e => .error e
      | .ok T =>
        match freqTables tin tout labels with
        | .error e => .error e
        | .ok ts => .ok ((label, T) :: ts)
    | _, _ => .error .keyError

/-- `DevfreqInPower.get_all_freqs` (devfreq_power.py:39-49, 66-76): the rows are time and frequency; `none` is the `KeyError`
of a table without columns. -/
def devFreqs (rows : List (Nat × Rat)) : Option (List (Nat × Option Rat)) :=
  if rows.length = 0 then none else some (rows.map fun r => (r.1, some (r.2 / 1000000)))

/-- `get_all_freqs_data` (ftrace.py:539-568); `oin` and `oout` are the orders in which the sets of clusters are iterated. -/
def getAllFreqsData (oin oout : List Str) (inRows outRows : List (PRow Rat)) (gpuIn gpuOut : List (Nat × Rat)) (mapping : Dict Str) :
    Except PowerError (List (Str × PTable Rat)) :=
  match getAllFreqs oin inRows mapping with
  | .error e => .error e
  | .ok tin =>
    match getAllFreqs oout outRows mapping with
    | .error e => .error e
    | .ok tout =>
      match freqTables tin tout (mapping.map Prod.snd) with
      | .error e => .error e
      | .ok ts =>
        match devFreqs gpuIn, devFreqs gpuOut with
        | some i, some o =>
          match joinPad cs!"gpu_freq_in" i cs!"gpu_freq_out" o with
          | .error e => .error e
          | .ok T => .ok (ts ++ [(cs!"GPU", T)])
        | _, _ => .ok ts

/-- `number_freq_plots` (plot_utils.py:127-144); of a run only the `devfreq_in_power` table counts. -/
def numberFreqPlots (gpuIn : List (List (Nat × Rat))) (mapping : Dict Str) : Nat :=
  mapping.length + if gpuIn.any fun rows => decide (0 < rows.length) then 1 else 0

/-! ## Loads -/

/-- the index of `pd.concat([a, b], axis=1)`: the common one, else the union of both, which some releases of pandas sort
and others leave as the first followed by what is new in the second. -/
def concatIndex (sort : Bool) (i j : List Nat) : List Nat :=
  if i = j then i else if sort then commonIndex [i, j] else i ++ j.filter fun t => !i.contains t

/-- all columns of a table as series -/
def PTable.allSeries {α : Type} (T : PTable α) : Dict (List (Nat × Option α)) := T.cols.map fun c => (c.1, T.index.zip c.2)

/-- adding the column of the GPU (ftrace.py:664-671, 692-700): concatenation and padding -/
def withGpu (sort : Bool) (T : PTable Rat) (gpu : List (Nat × Option Rat)) : Except PowerError (PTable Rat) :=
  let index := concatIndex sort T.index (gpu.map Prod.fst)
  match alignAll index (T.allSeries ++ [(cs!"GPU", gpu)]) with
  | .error e => .error e
  | .ok cols => .ok ⟨index, cols⟩

/-- A row of the `devfreq_in_power` table: time, load, frequency. -/
structure GpuRow where
  time : Nat
  load : Rat
  freq : Rat
deriving DecidableEq

/-- padding without a GPU column (ftrace.py:671, 700) -/
def padTable (T : PTable Rat) : PTable Rat := ⟨T.index, T.cols.map fun c => (c.1, ffill none c.2)⟩

/-- what `plot_load` draws (ftrace.py:652-680) -/
def plotLoad (sort : Bool) (order names : List Str) (rows : List LRow) (gpu : List GpuRow) (mapping : Dict Str) :
    Except PowerError (PTable Rat) :=
  match getLoadData order names rows mapping with
  | .error e => .error e
  | .ok T =>
    if gpu.length = 0 then .ok (padTable T)
    else withGpu sort T (gpu.map fun r => (r.time, some r.load))

/-- what `plot_normalized_load` draws (ftrace.py:681-709) -/
def plotNormalizedLoad (sort : Bool) (order names : List Str) (rows : List LRow) (gpu : List GpuRow) (mapping : Dict Str) :
    Except PowerError (PTable Rat) :=
  match getNormalizedLoadData order names rows mapping with
  | .error e => .error e
  | .ok T =>
    match maxOf (gpu.map GpuRow.freq) with
    | none => .ok (padTable T)
    | some mx => withGpu sort T (gpu.map fun r => (r.time, some (r.load * r.freq / mx)))

end Trappy
