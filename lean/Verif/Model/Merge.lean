import Verif.Model.DupIndex
import Verif.Model.Power
import Verif.Model.Layout
import Verif.Model.Constraint
/-!
# Data of interactive line plots

Models `ILinePlot._fix_indexes` (`/repo/trappy/plotter/ILinePlot.py` lines 291-318), the data of `_plot_concat` (lines
259-289) and the limit of `ILinePlotGen.add_plot` (`/repo/trappy/plotter/ILinePlotGen.py` lines 229-233).

Simplifications: times and values are exact rationals, a missing value is `none`. Of pandas, `concat(axis=1)`, `ffill`,
`bfill` and `interpolate()` on columns of numbers are modelled: `concat` keeps a common index, else it takes the sorted
union and raises if one of the indices has a duplicate (pandas lets it pass if that index contains all others); `interpolate()` is linear in the positions of the rows,
leaves the missing values before the first value and repeats the last one.
-/

namespace Trappy

/-- a series with possibly missing values -/
abbrev LineSeries := List (Rat × Option Rat)

/-- insert into a sorted list without duplicates -/
def insertRat (t : Rat) : List Rat → List Rat
  | [] => [t]
  | u :: us => if t < u then t :: u :: us else if t = u then u :: us else u :: insertRat t us

/-- the index of `pd.concat(..., axis=1)` (ILinePlot.py:305) -/
def mergedIndex (indices : List (List Rat)) : List Rat :=
  match indices with
  | [] => []
  | i :: is => if is.all (· == i) then i else (i :: is).flatten.foldl (fun acc t => insertRat t acc) []

/-- one column of `pd.concat(..., axis=1)` (ILinePlot.py:305); `none` is the exception for a duplicate axis -/
def mergeColumn (index : List Rat) (s : LineSeries) : Option (List (Option Rat)) :=
  if s.map Prod.fst = index then some (s.map Prod.snd)
  else if (s.map Prod.fst).Nodup then some (index.map fun t => (s.lookup t).join)
  else none

/-- all columns of `pd.concat(..., axis=1)` (ILinePlot.py:302-306) -/
def mergeColumns (index : List Rat) : Dict LineSeries → Option (Dict (List (Option Rat)))
  | [] => some []
  | (l, s) :: ss =>
    match mergeColumn index s, mergeColumns index ss with
    | some c, some cs => some ((l, c) :: cs)
    | _, _ => none

/-- `bfill()` on a column (ILinePlot.py:311) -/
def bfillCol (vs : List (Option Rat)) : List (Option Rat) := (ffill none vs.reverse).reverse

/-- the next value of a column and the number of missing values before it -/
def nextKnown : List (Option Rat) → Option (Nat × Rat)
  | [] => none
  | some w :: _ => some (0, w)
  | none :: vs => (nextKnown vs).map fun (d, w) => (d + 1, w)

/-- `interpolate()` on a column (ILinePlot.py:316); the first argument is the last value and the number of rows since -/
def interpolateCol : Option (Rat × Nat) → List (Option Rat) → List (Option Rat)
  | _, [] => []
  | _, some v :: vs => some v :: interpolateCol (some (v, 0)) vs
  | none, none :: vs => none :: interpolateCol none vs
  | some (v, k), none :: vs =>
    (match nextKnown vs with
    | some (d, w) => some (v + (w - v) * ((k + 1 : Nat) : Rat) / ((k + 1 + (d + 1) : Nat) : Rat))
    | none => some v) :: interpolateCol (some (v, k + 1)) vs

/-- the choice by `drawstyle` (ILinePlot.py:308-316) -/
def fillCol (drawstyle : Option Str) (vs : List (Option Rat)) : List (Option Rat) :=
  if drawstyle = some cs!"steps-post" then ffill none vs
  else if drawstyle = some cs!"steps-pre" then bfillCol vs
  else if drawstyle = some cs!"steps-mid" then ffill none vs
  else interpolateCol none vs

/-- Why `_fix_indexes` raises. -/
inductive MergeErr where
  /-- fewer than two series (ILinePlot.py:297-299) -/
  | single
  /-- pandas: a duplicate axis -/
  | duplicateAxis
deriving DecidableEq, Repr

/-- the default of `max_delta` (utils.py:32) -/
def maxDeltaDefault : Rat := 1 / 1000000

/-- `_fix_indexes` (ILinePlot.py:291-318): the index and the columns -/
def fixIndexes (drawstyle : Option Str) (d : Dict LineSeries) : Except MergeErr (List Rat × Dict (List (Option Rat))) :=
  if d.length ≤ 1 then .error .single
  else
    let dedup := d.map fun (l, s) => (l, handleDup maxDeltaDefault s)
    let index := mergedIndex (dedup.map fun e => e.2.map Prod.fst)
    match mergeColumns index dedup with
    | none => .error .duplicateAxis
    | some cols => .ok (index, cols.map fun (l, c) => (l, fillCol drawstyle c))

/-! ## `_plot_concat` -/

/-- `self._attr["column"]`: a list of names or one name -/
inductive ColumnArg where
  | list (l : List Str)
  | one (s : Str)

/-- `",".join(x)` -/
def commaJoin : List Str → Str
  | [] => []
  | [x] => x
  | x :: xs => x ++ ',' :: commaJoin xs

/-- `",".join(self._attr["column"])` (ILinePlot.py:275): a text is joined letter by letter -/
def columnKey : ColumnArg → Str
  | .list l => commaJoin l
  | .one s => commaJoin (s.map fun c => [c])

/-- `str` of a pivot value -/
def pivotText : Val → Str
  | .int i => Py.intStr i
  | .str s => s

/-- `map_label.get(pivot, pivot)` as a text (ILinePlot.py:277) -/
def mapLabel (labels : List (Val × Str)) (p : Val) : Str :=
  match labels.lookup p with
  | some l => l
  | none => pivotText p

/-- the label of one line (ILinePlot.py:274-277) -/
def concatKey (column : ColumnArg) (pivotName : Str) (labels : List (Val × Str)) (p : Val) : Str :=
  if p = pivotMark then columnKey column else pivotName ++ ':' :: ' ' :: mapLabel labels p

/-- the lines of the plot of one constraint (ILinePlot.py:270-279) -/
def concatData {σ : Type} (key : Val → Str) (result : List (Val × σ)) : List Val → Dict σ → Dict σ
  | [], d => d
  | p :: ps, d =>
    match result.lookup p with
    | some s => concatData key result ps (d.set (key p) s)
    | none => concatData key result ps d

/-! ## `add_plot` -/

/-- the check of `add_plot` (ILinePlotGen.py:229-233): the error carries the suggested limit -/
def checkDatapoints {α : Type} (maxDatapoints : Nat) (values : List (List α)) : Except Nat Unit :=
  let datapoints := (values.map List.length).sum
  if datapoints > maxDatapoints then .error (datapoints + 1) else .ok ()

end Trappy
