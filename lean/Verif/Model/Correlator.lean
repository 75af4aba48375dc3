import Verif.Model.Stats
/-!
# Correlation of two aggregators

Models `/repo/trappy/stats/Correlator.py` lines 38-235 and `Indexer.get_uniform` (`Indexer.py` lines 51-63).

Simplifications: times and values are exact rationals, so nothing is rounded; NaN is `none`; the correlation coefficient of two
series (`Series.corr` or the function given) is an input. No further arguments are given for the aggregation function, and `correlate` is
called with `resample=True`.
-/

namespace Trappy

/-- `np.flatnonzero` from position `i` on (Correlator.py:198-199): NaN is not equal to zero, so it is counted -/
def flatNonzero : Nat → List (Option Rat) → List Nat
  | _, [] => []
  | i, v :: vs => if v = some 0 then flatNonzero (i + 1) vs else i :: flatNonzero (i + 1) vs

/-- `Series.shift(k)` for `k ≥ 0`: the length stays, NaN comes in at the front -/
def shiftRight (k : Nat) (s : List (Option Rat)) : List (Option Rat) := (List.replicate k none ++ s).take s.length

/-- `shift_series` (Correlator.py:230-235) -/
def shiftSeries (x y : List (Option Rat)) (shift : Int) : List (Option Rat) × List (Option Rat) :=
  if shift > 0 then (x, shiftRight shift.toNat y) else (shiftRight (-1 * shift).toNat x, y)

/-- `mode` (Correlator.py:204-210) -/
inductive AlignMode where
  | front
  | back
deriving DecidableEq

/-- `p_x[0]` or `p_x[-1]` (Correlator.py:204-210) -/
def pickPos : AlignMode → List Nat → Option Nat
  | .front, l => l.head?
  | .back, l => l.getLast?

/-- `align` (Correlator.py:198-215) -/
def alignSeries (mode : AlignMode) (x y : List (Option Rat)) : List (Option Rat) × List (Option Rat) × Int :=
  match pickPos mode (flatNonzero 0 x), pickPos mode (flatNonzero 0 y) with
  | some px, some py =>
    let shift : Int := (px : Int) - (py : Int)
    let r := shiftSeries x y shift
    (r.1, r.2, shift)
  | _, _ => (x, y, 0)

/-- the shift of a correlator (Correlator.py:167-181) from the two coefficients; NaN counts as zero -/
def chooseShift (frontCorr backCorr : Option Rat) (frontShift backShift : Int) : Int :=
  let b := match backCorr with | some c => c | none => 0
  let f := match frontCorr with | some c => c | none => 0
  if f ≥ b then frontShift else backShift

/-- `np.arange(start, stop, delta)` for a positive `delta` (Indexer.py:62): `ceil((stop - start) / delta)` values -/
def arangeR (start stop delta : Rat) : List Rat :=
  (List.range ((stop - start) / delta).ceil.toNat).map fun i : Nat => start + (i : Rat) * delta

/-- `get_uniform` (Indexer.py:60-63); `none` is the IndexError for an empty index -/
def getUniform (index : List Rat) (delta : Rat) : Option (List Rat) :=
  match index.head?, index.getLast? with
  | some a, some b => some (arangeR a b delta)
  | _, _ => none

/-- one cell of `series.reindex(index, method="pad")` (Correlator.py:62): scan the sorted series -/
def padScan (t : Rat) : Option (Option Rat) → List (Rat × Option Rat) → Option Rat
  | last, [] => last.join
  | last, (u, v) :: s => if u ≤ t then padScan t (some v) s else last.join

/-- `_resample` (Correlator.py:61-62) -/
def resample (index : List Rat) (delta : Rat) (s : List (Rat × Option Rat)) : Option (List (Rat × Option Rat)) :=
  (getUniform index delta).map fun ts => ts.map fun t => (t, padScan t none s)

/-- `len(series[series != 0])` (Correlator.py:94) -/
def countNonzero (s : List (Option Rat)) : Nat := (s.filter fun v => decide (v ≠ some 0)).length

/-- the loop at Correlator.py:96-100; `none` is the ZeroDivisionError -/
def corrLoop (sum : Nat) : List (Nat × Option Rat) → Rat → Option Rat
  | [], total => some total
  | (_, none) :: l, total => corrLoop sum l total
  | (w, some c) :: l, total => if sum = 0 then none else corrLoop sum l (total + ((w : Rat) * c) / (sum : Rat))

/-- the total of `correlate` (Correlator.py:96-102) -/
def corrTotal (weights : List Nat) (corrs : List (Option Rat)) : Option Rat := corrLoop weights.sum (weights.zip corrs) 0

/-- `correlate` (Correlator.py:81-102) for the groups of both aggregators (already resampled), a shift and a correlation function -/
def correlateGroups (corr : List (Option Rat) → List (Option Rat) → Option Rat) (shift : Int)
    (groups : List (List (Option Rat) × List (Option Rat))) : List (Option Rat) × Option Rat :=
  let shifted := groups.map fun g => shiftSeries g.1 g.2 shift
  let corrs := shifted.map fun g => corr g.1 g.2
  let weights := shifted.map fun g => countNonzero g.1 + countNonzero g.2
  (corrs, corrTotal weights corrs)

/-- `_align_top_level` (Correlator.py:155-181) for the resampled series and the correlation function -/
def alignTop (corr : List (Option Rat) → List (Option Rat) → Option Rat) (x y : List (Option Rat)) : Int :=
  let front := alignSeries .front x y
  let back := alignSeries .back x y
  chooseShift (corr front.1 front.2.1) (corr back.1 back.2.1) front.2.2 back.2.2

/-- what an aggregator is made of: the times of its indexer, the nodes of its topology, its triggers and its function, if it has one
(Aggregator.py:48-53, 93-108) -/
structure AggSetup where
  index : List Nat
  nodes : List Nat
  gs : List TrigGen
  func : Option (TSeries → TSeries)

/-- `aggregate(level)` (Aggregator.py:110-158) -/
def AggSetup.call (s : AggSetup) (a : AggObj) (groups : List (List Nat)) : AggObj × Except SError (List TSeries) :=
  match s.func with
  | none => a.callPlain s.index s.nodes s.gs groups
  | some f => a.callWith s.index s.nodes s.gs f saddVals groups

/-- `_resample` (Correlator.py:48-62) of the series of an aggregator, where `time` is the time in seconds; `none` is the IndexError -/
def resampleSeries (time : Nat → Rat) (index : List Nat) (delta : Rat) (s : TSeries) : Option (List (Option Rat)) :=
  (resample (index.map time) delta (s.map fun x => (time x.1, x.2))).map fun r => r.map Prod.snd

/-- a correlator: its two aggregators, the times of its indexer, and `_shift` (Correlator.py:38-46) -/
structure CorrObj where
  first : AggObj
  second : AggObj
  index : List Nat
  shift : Int

/-- the constructor (Correlator.py:37-45) for two new aggregators; they have no common part -/
def CorrObj.new (time : Nat → Rat) (corr : List (Option Rat) → List (Option Rat) → Option Rat) (delta : Rat) (s1 s2 : AggSetup) : Except SError CorrObj :=
  match unifiedIndexer [s1.index, s2.index] with
  | none => .error .indexError
  | some index =>
    match s1.call AggObj.new [s1.nodes], s2.call AggObj.new [s2.nodes] with
    | (_, .error e), _ => .error e
    | _, (_, .error e) => .error e
    | (a1, .ok r1), (a2, .ok r2) =>
      match r1.head?, r2.head? with
      | some v1, some v2 =>
        match resampleSeries time index delta v1, resampleSeries time index delta v2 with
        | some x, some y => .ok ⟨a1, a2, index, alignTop corr x y⟩
        | _, _ => .error .indexError
      | _, _ => .error .indexError

/-- the loop of `correlate` (Correlator.py:81-92) up to the series that are compared: a group that only the first aggregator has is an
IndexError -/
def resampleGroups (time : Nat → Rat) (index : List Nat) (delta : Rat) : List TSeries → List TSeries → Except SError (List (List (Option Rat) × List (Option Rat)))
  | [], _ => .ok []
  | _ :: _, [] => .error .indexError
  | v :: vs, w :: ws =>
    match resampleSeries time index delta v, resampleSeries time index delta w with
    | some x, some y =>
      match resampleGroups time index delta vs ws with
      | .ok l => .ok ((x, y) :: l)
      | .error e => .error e
    | _, _ => .error .indexError

/-- `correlate(level)` (Correlator.py:64-102), given the groups of the level in both topologies: the object afterwards, the coefficients
and the total, which is `none` for the ZeroDivisionError -/
def CorrObj.correlate (time : Nat → Rat) (corr : List (Option Rat) → List (Option Rat) → Option Rat) (delta : Rat) (s1 s2 : AggSetup) (c : CorrObj)
    (groups1 groups2 : List (List Nat)) : CorrObj × Except SError (List (Option Rat) × Option Rat) :=
  match s1.call c.first groups1 with
  | (a1, .error e) => ({ c with first := a1 }, .error e)
  | (a1, .ok r1) =>
    match s2.call c.second groups2 with
    | (a2, .error e) => ({ c with first := a1, second := a2 }, .error e)
    | (a2, .ok r2) =>
      ({ c with first := a1, second := a2 },
       match resampleGroups time c.index delta r1 r2 with
       | .error e => .error e
       | .ok pairs => .ok (correlateGroups corr c.shift pairs))

end Trappy
