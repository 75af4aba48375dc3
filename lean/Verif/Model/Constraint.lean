import Verif.Model.Events
import Verif.Model.Data
/-!
# Plot constraints

Models `/repo/trappy/plotter/Constraint.py`, `/repo/trappy/plotter/Utils.py` lines 28-34 (`normalize_list`) and
`/repo/trappy/utils.py` lines 21-29 (`listify`).

Simplifications: times are natural numbers (bit patterns of doubles, compared only); cells are integers or strings, a missing
cell (NaN) is `none`. The iteration order of a Python `set` is a parameter: `enum l` lists the elements of the set of the elements of `l`
in some order.
-/

namespace Trappy

/-- one row of a table -/
structure CRow where
  time : Nat
  cells : Dict Val
deriving DecidableEq

/-- a table: its columns and rows -/
structure CTable where
  columns : List Str
  rows : List CRow
deriving DecidableEq

/-- a series of a result: times and values, a missing value is `none` -/
abbrev PSeries := List (Nat × Option Val)

/-- `AttrConf.PIVOT` (AttrConf.py:31) -/
def pivotName : Str := cs!"__TRAPPY_PIVOT_DEFAULT"

/-- `AttrConf.PIVOT_VAL` (AttrConf.py:33) -/
def pivotMark : Val := .str cs!"__TRAPPY_DEFAULT_PIVOT_VAL"

/-- `pivot_vals` (Constraint.py:170-187) for a pivot that is not the default -/
def pivotVals (enum : List Val → List Val) (pivot : Str) (filters : Dict (List Val)) (t : CTable) : List Val :=
  if pivot ∈ t.columns then
    match filters.get pivot with
    | some wanted => enum ((t.rows.filterMap fun r => r.cells.get pivot).filter fun v => wanted.contains v)
    | none => enum (t.rows.filterMap fun r => r.cells.get pivot)
  else []

/-- one cell of `data[key].map(lambda x: x in filter_)` (Constraint.py:142-143) -/
def valIn (wanted : List Val) : Option Val → Bool
  | some v => wanted.contains v
  | none => false

/-- the loop over the filters (Constraint.py:140-143) -/
def plotCriterion (pivot : Str) (t : CTable) : Dict (List Val) → List Bool → List Bool
  | [], crit => crit
  | (c, wanted) :: fs, crit =>
    if c ≠ pivot ∧ c ∈ t.columns then
      plotCriterion pivot t fs (crit.zipWith (· && ·) (t.rows.map fun r => valIn wanted (r.cells.get c)))
    else plotCriterion pivot t fs crit

/-- `values[criterion]` -/
def plotPick (column : Str) : List CRow → List Bool → PSeries
  | r :: rows, b :: crit => if b then (r.time, r.cells.get column) :: plotPick column rows crit else plotPick column rows crit
  | _, _ => []

/-- one pivot value of `_apply` (Constraint.py:138-148) -/
def plotSeries (pivot : Str) (filters : Dict (List Val)) (column : Str) (t : CTable) (v : Val) : PSeries :=
  let crit := plotCriterion pivot t filters (t.rows.map fun _ => true)
  let crit := if v ≠ pivotMark then crit.zipWith (· && ·) (t.rows.map fun r => r.cells.get pivot == some v) else crit
  plotPick column t.rows crit

/-- the loop over the pivot values (Constraint.py:137-150): empty series are left out -/
def plotLoop (pivot : Str) (filters : Dict (List Val)) (column : Str) (t : CTable) : List Val → List (Val × PSeries)
  | [] => []
  | v :: vs =>
    let s := plotSeries pivot filters column t v
    if s.length ≠ 0 then (v, s) :: plotLoop pivot filters column t vs else plotLoop pivot filters column t vs

/-- `_apply` (Constraint.py:120-152): the dictionary from pivot values to series -/
def plotApply (enum : List Val → List Val) (pivot : Str) (filters : Dict (List Val)) (column : Str) (t : CTable) : List (Val × PSeries) :=
  if column ∈ t.columns then
    plotLoop pivot filters column t (if pivot = pivotName then [pivotMark] else pivotVals enum pivot filters t)
  else []

/-- the last time of the rows up to `a`: `self._data.loc[:window[0]].index.max()` (Constraint.py:113) -/
def lastUpTo (a : Nat) : List CRow → Option Nat
  | [] => none
  | r :: rows =>
    match lastUpTo a rows with
    | some t => if r.time ≤ a then some (max r.time t) else some t
    | none => if r.time ≤ a then some r.time else none

/-- the first time of the rows from `b`: `self._data.loc[window[1]:].index.min()` (Constraint.py:114) -/
def firstFrom (b : Nat) : List CRow → Option Nat
  | [] => none
  | r :: rows =>
    match firstFrom b rows with
    | some t => if b ≤ r.time then some (min r.time t) else some t
    | none => if b ≤ r.time then some r.time else none

/-- What `.loc` does with a slice from or to NaN, which depends on the release of pandas: it raises, or NaN is sorted after
all numbers. -/
inductive NanSlice where
  | raises
  | sortsLast
deriving DecidableEq

/-- the window of a constraint (Constraint.py:110-115); `max` and `min` of an empty index are NaN; `none` is an exception. -/
def plotWindow (nan : NanSlice) (window : Option (Nat × Nat)) (t : CTable) : Option CTable :=
  match window with
  | none => some t
  | some (a, b) =>
    match lastUpTo a t.rows, firstFrom b t.rows, nan with
    | some lo, some hi, _ => some { t with rows := t.rows.filter fun r => decide (lo ≤ r.time ∧ r.time ≤ hi) }
    | _, _, .raises => none
    | some lo, none, .sortsLast => some { t with rows := t.rows.filter fun r => decide (lo ≤ r.time) }
    | none, _, .sortsLast => some { t with rows := [] }

/-! ## `ConstraintManager` -/

/-- Why constraints cannot be made: both are `RuntimeError`. -/
inductive CErr where
  /-- "Essential Arg Missing" (Constraint.py:295) -/
  | missing
  /-- "Cannot Expand a list of Constraints" (Constraint.py:304) -/
  | cannotExpand
  /-- "Cannot Normalize a non-unitary list" (Utils.py:32) -/
  | cannotNormalize
deriving DecidableEq, Repr

/-- `normalize_list` (Utils.py:28-34) -/
def normalizeList {α : Type} (n : Nat) (l : List α) : Except CErr (List α) :=
  if l.length ≠ 1 then .error .cannotNormalize else .ok (List.replicate n l).flatten

/-- one list in the loop of `_expand` (Constraint.py:306-310) -/
def expandOne {α : Type} (n : Nat) (l : List α) : Except CErr (List α) :=
  if l.length ≠ n then normalizeList n l else .ok l

/-- the three lists after expansion, and `_trace_expanded` -/
structure Expanded (τ κ : Type) where
  traces : List τ
  columns : List Str
  templates : List κ
  traceExpanded : Bool
deriving DecidableEq

/-- `_expand` (Constraint.py:265-310) -/
def expandLists {τ κ : Type} (traces : List τ) (columns : List Str) (templates : List κ) : Except CErr (Expanded τ κ) :=
  let n := max traces.length (max columns.length templates.length)
  let k := min traces.length (min columns.length templates.length)
  if n = 1 ∧ k ≠ 1 then .error .missing
  else if 1 < n then
    if traces.length = columns.length ∧ columns.length = templates.length then .ok ⟨traces, columns, templates, false⟩
    else if 1 < k then .error .cannotExpand
    else
      match expandOne n traces with
      | .error e => .error e
      | .ok ts =>
        match expandOne n columns with
        | .error e => .error e
        | .ok cs =>
          match expandOne n templates with
          | .error e => .error e
          | .ok ks => .ok ⟨ts, cs, ks, traces.length ≠ n⟩
  else .ok ⟨traces, columns, templates, false⟩

/-- the arguments of a constraint -/
structure CArgs (τ κ : Type) where
  trace : τ
  column : Str
  template : κ
  traceIdx : Nat
deriving DecidableEq

/-- `_populate_zip_constraints` (Constraint.py:334-353) -/
def zipConstraints {τ κ : Type} (e : Expanded τ κ) : Nat → List τ → List Str → List κ → List (CArgs τ κ)
  | i, t :: ts, c :: cs, k :: ks => ⟨t, c, k, if e.traceExpanded then 0 else i⟩ :: zipConstraints e (i + 1) ts cs ks
  | _, _, _, _ => []

/-- the inner loop of `_populate_constraints` (Constraint.py:325-329) -/
def permuteColumns {τ κ : Type} (t : τ) (k : κ) (i : Nat) (cs : List Str) : List (CArgs τ κ) := cs.map fun c => ⟨t, c, k, i⟩

/-- `_populate_constraints` (Constraint.py:312-329) -/
def permuteConstraints {τ κ : Type} (columns : List Str) : Nat → List τ → List κ → List (CArgs τ κ)
  | i, t :: ts, k :: ks => permuteColumns t k i columns ++ permuteConstraints columns (i + 1) ts ks
  | _, _, _ => []

/-- the constraints made by `ConstraintManager.__init__` (Constraint.py:243-263) -/
def constraintArgs {τ κ : Type} (zip : Bool) (traces : List τ) (columns : List Str) (templates : List κ) : Except CErr (List (CArgs τ κ)) :=
  match expandLists traces columns templates with
  | .error e => .error e
  | .ok e =>
    if zip then .ok (zipConstraints e 0 e.traces e.columns e.templates)
    else .ok (permuteConstraints e.columns 0 e.traces e.templates)

/-! ## `generate_pivots` -/

/-- `key=int` (Constraint.py:369); `none` stands for an exception -/
def decKey : Val → Option Int
  | .int i => some i
  | .str s => Py.intB 10 s

/-- `key=lambda x: int(x, 16)` (Constraint.py:372); `none` stands for an exception -/
def hexKey : Val → Option Int
  | .int _ => none
  | .str s => Py.intB 16 s

/-- the keys of all values, or `none` if one of them raises -/
def keyAll (key : Val → Option Int) : List Val → Option (List (Int × Val))
  | [] => some []
  | v :: vs =>
    match key v, keyAll key vs with
    | some k, some r => some ((k, v) :: r)
    | _, _ => none

/-- insert before the first larger element: `sorted` is stable -/
def insertBy {α : Type} (lt : α → α → Bool) (a : α) : List α → List α
  | [] => [a]
  | b :: l => if lt b a then b :: insertBy lt a l else a :: b :: l

/-- `sorted` with a strict order: stable -/
def sortBy {α : Type} (lt : α → α → Bool) : List α → List α
  | [] => []
  | a :: l => insertBy lt a (sortBy lt l)

/-- order of strings by code points -/
def strLt : Str → Str → Bool
  | _, [] => false
  | [], _ :: _ => true
  | a :: s, b :: t => if a.toNat < b.toNat then true else if b.toNat < a.toNat then false else strLt s t

/-- the strings, or `none` if the list is a mix of integers and strings: `sorted` raises `TypeError` -/
def allStr : List Val → Option (List Str)
  | [] => some []
  | .int _ :: _ => none
  | .str s :: vs =>
    match allStr vs with
    | some r => some (s :: r)
    | none => none

/-- the sorted list of pivot values (Constraint.py:368-374); `none` stands for `TypeError` -/
def sortPivots (vs : List Val) : Option (List Val) :=
  match keyAll decKey vs with
  | some ks => some ((sortBy (fun a b => decide (a.1 < b.1)) ks).map Prod.snd)
  | none =>
    match keyAll hexKey vs with
    | some ks => some ((sortBy (fun a b => decide (a.1 < b.1)) ks).map Prod.snd)
    | none =>
      match allStr vs with
      | some ss => some ((sortBy strLt ss).map Val.str)
      | none => none

/-- `generate_pivots()` (Constraint.py:355-380), `results` being the results of the constraints -/
def generatePivots (enum : List Val → List Val) (results : List (List (Val × PSeries))) : Option (List Val × Nat) :=
  match sortPivots (enum (results.flatMap fun r => r.map Prod.fst)) with
  | some l => some (l, l.length)
  | none => none

/-- `generate_pivots(permute=True)` (Constraint.py:376-378) for `n` traces -/
def generatePairs (enum : List Val → List Val) (n : Nat) (results : List (List (Val × PSeries))) : Option (List (Nat × Val) × Nat) :=
  match sortPivots (enum (results.flatMap fun r => r.map Prod.fst)) with
  | some l => some ((List.range n).flatMap (fun i => l.map fun p => (i, p)), l.length * n)
  | none => none

end Trappy
