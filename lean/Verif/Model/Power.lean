import Verif.Model.Events
/-!
# Tables of the CPU power actor

Models `pivot_with_labels` (`/repo/trappy/cpu_power.py` lines 26-88) and `CpuInPower` (lines 125-198).

Simplifications: times are compared only, so they are natural numbers (the bit patterns of the doubles); numbers are
rationals, so nothing is rounded and a quotient by zero is zero; a missing cell is `none`. `set` iterates in an arbitrary
order, which is a parameter. Of pandas, `DataFrame(dict of series)` and `fillna(method="pad")` are modelled: the index
is the common index if all series have the same, else the sorted union; a series whose index is not the common one can
only be aligned if its times are distinct.
-/

namespace Trappy

/-- Why the call raises. -/
inductive PowerError where
  /-- a cluster without a label (cpu_power.py:76-83) -/
  | keyError
  /-- pandas: cannot reindex on an axis with duplicate labels -/
  | duplicateAxis
  /-- `max()` of an empty column (cpu_power.py:181), or a mask that is not hexadecimal (line 94) -/
  | valueError
  /-- no column begins with `load` (cpu_power.py:147) -/
  | indexError
deriving DecidableEq, Repr

/-- The columns `pivot_with_labels` uses: time, cluster, value. -/
structure PRow (α : Type) where
  time : Nat
  mask : Str
  value : Option α
deriving DecidableEq

/-- The result: an index and named columns. -/
structure PTable (α : Type) where
  index : List Nat
  cols : Dict (List (Option α))
deriving DecidableEq

/-- `dfr[dfr[new_col_name] == col][data_col_name]` (cpu_power.py:84) -/
def seriesOf {α : Type} (rows : List (PRow α)) (mask : Str) : List (Nat × Option α) :=
  (rows.filter fun r => r.mask = mask).map fun r => (r.time, r.value)

/-- insert into a sorted list without duplicates -/
def insertTime (t : Nat) : List Nat → List Nat
  | [] => [t]
  | u :: us => if t < u then t :: u :: us else if t = u then u :: us else u :: insertTime t us

/-- the index of `pd.DataFrame(ret_series)` (cpu_power.py:88) -/
def commonIndex (indices : List (List Nat)) : List Nat :=
  match indices with
  | [] => []
  | i :: is => if is.all (· == i) then i else (i :: is).foldl (fun acc j => j.foldl (fun acc t => insertTime t acc) acc) []

/-- one column of `pd.DataFrame(ret_series)`; `none` is the exception for a duplicate axis -/
def alignTo {α : Type} (index : List Nat) (s : List (Nat × Option α)) : Option (List (Option α)) :=
  if s.map Prod.fst = index then some (s.map Prod.snd)
  else if (s.map Prod.fst).Nodup then some (index.map fun t => (s.lookup t).join)
  else none

/-- `fillna(method="pad")` on a column -/
def ffill {α : Type} : Option α → List (Option α) → List (Option α)
  | _, [] => []
  | last, none :: vs => last :: ffill last vs
  | _, some v :: vs => some v :: ffill (some v) vs

/-- the loop over the clusters (cpu_power.py:75-86) -/
def pivotLoop {α : Type} (rows : List (PRow α)) (mapping : Dict Str) :
    List Str → Dict (List (Nat × Option α)) → Except PowerError (Dict (List (Nat × Option α)))
  | [], acc => .ok acc
  | m :: ms, acc =>
    match mapping.get m with
    | none => .error .keyError
    | some label => pivotLoop rows mapping ms (acc.set label (seriesOf rows m))

/-- aligning and padding all columns -/
def alignAll {α : Type} (index : List Nat) : Dict (List (Nat × Option α)) → Except PowerError (Dict (List (Option α)))
  | [] => .ok []
  | (label, s) :: ss =>
    match alignTo index s with
    | none => .error .duplicateAxis
    | some col =>
      match alignAll index ss with
      | .error e => .error e
      | .ok cols => .ok ((label, ffill none col) :: cols)

/-- `pivot_with_labels` (cpu_power.py:26-88); `order` is the order in which `set(dfr[new_col_name])` is iterated. -/
def pivotWithLabels {α : Type} (order : List Str) (rows : List (PRow α)) (mapping : Dict Str) : Except PowerError (PTable α) :=
  match pivotLoop rows mapping order [] with
  | .error e => .error e
  | .ok series =>
    let index := commonIndex (series.map fun x => x.2.map Prod.fst)
    match alignAll index series with
    | .error e => .error e
    | .ok cols => .ok ⟨index, cols⟩

/-! ## Loads -/

/-- A row of the `cpu_in_power` table: time, cluster, frequency, and the values of the other columns. -/
structure LRow where
  time : Nat
  mask : Str
  freq : Rat
  vals : List Rat
deriving DecidableEq

/-- `s.startswith("load")` -/
def isLoadCol (s : Str) : Bool := cs!"load".isPrefixOf s

/-- positions of the load columns (cpu_power.py:145) -/
def loadCols (names : List Str) : List Nat := (List.range names.length).filter fun i => (names[i]?.map isLoadCol) == some true

/-- the cell of a row; the tables have a value in every column -/
def LRow.cell (r : LRow) (i : Nat) : Rat := (r.vals[i]?).getD 0

/-- `_get_load_series` (cpu_power.py:141-151) -/
def loadSeries (names : List Str) (rows : List LRow) : Except PowerError (List Rat) :=
  match loadCols names with
  | [] => .error .indexError
  | c :: cs => .ok (cs.foldl (fun acc col => acc.zipWith (· + ·) (rows.map fun r => r.cell col)) (rows.map fun r => r.cell c))

/-- `max(l)`; `none` is `ValueError` -/
def maxOf : List Rat → Option Rat
  | [] => none
  | x :: xs => some (xs.foldl (fun m y => if m < y then y else m) x)

/-- the loop over the labelled clusters (cpu_power.py:178-182) -/
def normLoop (rows : List LRow) : List Str → List Rat → Except PowerError (List Rat)
  | [], acc => .ok acc
  | m :: ms, acc =>
    match numCpusInMask m with
    | none => .error .valueError
    | some n =>
      match maxOf ((rows.filter fun r => r.mask = m).map LRow.freq) with
      | none => .error .valueError
      | some mf => normLoop rows ms ((rows.zip acc).map fun (r, x) => if r.mask = m then x / (mf * n) else x)

/-- the normalised series (cpu_power.py:174-182) -/
def normalizedSeries (names : List Str) (rows : List LRow) (mapping : Dict Str) : Except PowerError (List Rat) :=
  match loadSeries names rows with
  | .error e => .error e
  | .ok loads => normLoop rows (mapping.map Prod.fst) (loads.zipWith (· * ·) (rows.map LRow.freq))

/-- `get_load_data` (cpu_power.py:153-164) -/
def getLoadData (order : List Str) (names : List Str) (rows : List LRow) (mapping : Dict Str) : Except PowerError (PTable Rat) :=
  match loadSeries names rows with
  | .error e => .error e
  | .ok loads => pivotWithLabels order ((rows.zip loads).map fun (r, x) => ⟨r.time, r.mask, some x⟩) mapping

/-- `get_normalized_load_data` (cpu_power.py:166-186) -/
def getNormalizedLoadData (order : List Str) (names : List Str) (rows : List LRow) (mapping : Dict Str) :
    Except PowerError (PTable Rat) :=
  match normalizedSeries names rows mapping with
  | .error e => .error e
  | .ok loads => pivotWithLabels order ((rows.zip loads).map fun (r, x) => ⟨r.time, r.mask, some x⟩) mapping

/-- `get_all_freqs` (cpu_power.py:111-123, 188-198): the pivoted frequencies divided by 1000 -/
def getAllFreqs (order : List Str) (rows : List (PRow Rat)) (mapping : Dict Str) : Except PowerError (PTable Rat) :=
  match pivotWithLabels order rows mapping with
  | .error e => .error e
  | .ok t => .ok ⟨t.index, t.cols.map fun x => (x.1, x.2.map fun v => v.map (· / 1000))⟩

end Trappy
