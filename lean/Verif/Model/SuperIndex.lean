import Verif.Model.Power
/-!
# Data of expressions

Models `/repo/trappy/stats/grammar.py` lines 413-475 (`_pivot`, `_pre_process`) and 531-558 (`_get_data_frame`).

Simplifications: times are natural numbers (bit patterns of doubles, compared only); cells are integers, a missing cell is
`none`; `method` is "pad" and `limit` is None (the defaults of `StatConf.py`); a row without a value in the pivot column belongs to no
group (pandas adds a column without values for NaN). `pd.concat(..., axis=1)` is taken to have the sorted union of the
indices as index, as in the versions of pandas that have `fillna(method=...)`.
-/

namespace Trappy

/-- one row of the table of an event -/
structure GRow where
  time : Nat
  cells : Dict Int
deriving DecidableEq

/-- an event: `cls.pivot` and its table -/
structure GEvent where
  columns : List Str
  pivot : Option Str
  rows : List GRow
deriving DecidableEq

/-- Why an expression cannot be evaluated. -/
inductive GErr where
  /-- "No events found" (grammar.py:418) -/
  | noEvents
  /-- "Can't find parser class for event" (grammar.py:463) -/
  | noClass
  /-- no such column -/
  | keyError
  /-- pandas: cannot reindex on an axis with duplicate labels -/
  | duplicateAxis
deriving DecidableEq, Repr

/-- `window` and `filters` of a `Parser` (grammar.py:332-348) -/
structure GOpts where
  start : Nat
  stop : Option Nat
  filters : Dict (List Int)
  fill : Bool
deriving DecidableEq

/-- `data_frame.loc[a:]` or `data_frame.loc[a:b]` (grammar.py:539-542), both ends included -/
def gWindow (o : GOpts) (rows : List GRow) : List GRow :=
  match o.stop with
  | none => rows.filter fun r => o.start ≤ r.time
  | some b => rows.filter fun r => o.start ≤ r.time ∧ r.time ≤ b

/-- one cell of `dfr_col.isin(...)` (grammar.py:554) -/
def cellIn (wanted : List Int) : Option Int → Bool
  | some v => wanted.contains v
  | none => false

/-- the loop over the filters (grammar.py:548-554) -/
def gCriterion (columns : List Str) (rows : List GRow) : Dict (List Int) → List Bool → List Bool
  | [], crit => crit
  | (c, wanted) :: fs, crit =>
    if c ∈ columns then
      gCriterion columns rows fs (crit.zipWith (· && ·) (rows.map fun r => cellIn wanted (r.cells.get c)))
    else gCriterion columns rows fs crit

/-- `_get_data_frame` (grammar.py:531-558) -/
def getDataFrame (o : GOpts) (ev : GEvent) : List GRow :=
  if ev.rows = [] then ev.rows
  else
    let rows := gWindow o ev.rows
    if o.filters = [] then rows
    else
      let crit := gCriterion ev.columns rows o.filters (List.replicate rows.length true)
      (rows.zip crit).filterMap fun (r, b) => if b then some r else none

/-- a column with its index -/
abbrev GSeries := List (Nat × Option Int)

/-- the aggregated table: sub-columns are named by column and pivot value, `none` for "NO_PIVOT" -/
structure AggDf where
  index : List Nat
  cols : List ((Str × Option Int) × List (Option Int))
deriving DecidableEq

/-- insert into a sorted list without duplicates -/
def insertInt (t : Int) : List Int → List Int
  | [] => [t]
  | u :: us => if t < u then t :: u :: us else if t = u then u :: us else u :: insertInt t us

/-- `list(np.unique(data_frame[pivot].values))` (grammar.py:424) -/
def gUnique (l : List Int) : List Int := l.foldl (fun acc t => insertInt t acc) []

/-- `data_frame[data_frame[pivot] == val][[column]]` (grammar.py:429) -/
def gSub (pivot : Str) (val : Int) (column : Str) (rows : List GRow) : GSeries :=
  (rows.filter fun r => r.cells.get pivot = some val).map fun r => (r.time, r.cells.get column)

/-- the groups of an event before they are reindexed (grammar.py:422-429, 444) -/
def gGroups (ev : GEvent) (column : Str) (rows : List GRow) : List (Option Int × GSeries) :=
  match ev.pivot with
  | some p => (gUnique (rows.filterMap fun r => r.cells.get p)).map fun v => (some v, gSub p v column rows)
  | none => [(none, rows.map fun r => (r.time, r.cells.get column))]

/-- one cell of `reindex(index, method="pad")`: scan the sorted series -/
def gPad (t : Nat) : Option Int → GSeries → Option Int
  | last, [] => last
  | last, (u, v) :: s => if u ≤ t then gPad t v s else last

/-- `.reindex(index=new_index, method="pad")` (grammar.py:431-434, 439-442) -/
def gReindex (index : List Nat) (s : GSeries) : Except GErr GSeries :=
  if (s.map Prod.fst).Nodup then .ok (index.map fun t => (t, gPad t none s)) else .error .duplicateAxis

/-- the loop over the groups -/
def gReindexAll (index : List Nat) : List (Option Int × GSeries) → Except GErr (List (Option Int × GSeries))
  | [] => .ok []
  | (v, s) :: gs =>
    match gReindex index s with
    | .error e => .error e
    | .ok s' =>
      match gReindexAll index gs with
      | .error e => .error e
      | .ok r => .ok ((v, s') :: r)

/-- the columns of `pd.concat(..., axis=1)` on the index given -/
def gAlignAll {κ : Type} (index : List Nat) : List (κ × GSeries) → Except GErr (List (κ × List (Option Int)))
  | [] => .ok []
  | (k, s) :: gs =>
    match alignTo index s with
    | none => .error .duplicateAxis
    | some c =>
      match gAlignAll index gs with
      | .error e => .error e
      | .ok r => .ok ((k, c) :: r)

/-- `_pivot` (grammar.py:413-445) -/
def gPivot (o : GOpts) (st : AggDf) (ev : GEvent) (column : Str) : Except GErr (List Nat × List (Option Int × List (Option Int))) :=
  let rows := getDataFrame o ev
  if rows = [] then .error .noEvents
  else if column ∉ ev.columns ∨ (∃ p, ev.pivot = some p ∧ p ∉ ev.columns) then .error .keyError
  else
    let newIndex := (rows.map GRow.time).foldl (fun acc t => insertTime t acc) st.index
    let groups := gGroups ev column rows
    match (if st.index = [] then .ok groups else gReindexAll newIndex groups) with
    | .error e => .error e
    | .ok gs =>
      let index := commonIndex (gs.map fun g => g.2.map Prod.fst)
      match gAlignAll index gs with
      | .error e => .error e
      | .ok cols => .ok (index, cols)

/-- `pd.concat([self._agg_df, data_frame], axis=1)` and `fillna` (grammar.py:466-470) -/
def gAppend (o : GOpts) (st : AggDf) (column : Str) (idx : List Nat) (cols : List (Option Int × List (Option Int))) : Except GErr AggDf :=
  let all := st.cols.map (fun c => (c.1, st.index.zip c.2)) ++ cols.map fun c => ((column, c.1), idx.zip c.2)
  let index := commonIndex [st.index, idx]
  match gAlignAll index all with
  | .error e => .error e
  | .ok cs => .ok ⟨index, if o.fill then cs.map fun c => (c.1, ffill none c.2) else cs⟩

/-- where names are looked up: variables, classes of the trace, importable attributes (grammar.py:456-463) -/
structure GEnv where
  pvars : Dict GEvent
  classes : Dict GEvent
  attrs : Dict GEvent
deriving DecidableEq

/-- the class of an event (grammar.py:455-463) -/
def gClass (env : GEnv) (event : Str) : Except GErr GEvent :=
  match env.pvars.get event with
  | some c => .ok c
  | none =>
    match env.classes.get event with
    | some c => .ok c
    | none =>
      match env.attrs.get event with
      | some c => .ok c
      | none => .error .noClass

/-- `_pre_process` (grammar.py:447-472): the new table -/
def gPreProcess (o : GOpts) (env : GEnv) (st : AggDf) (event column : Str) : Except GErr AggDf :=
  if column ∈ st.cols.map (fun c => c.1.1) then .ok st
  else
    match gClass env event with
    | .error e => .error e
    | .ok ev =>
      match gPivot o st ev column with
      | .error e => .error e
      | .ok (idx, cols) => gAppend o st column idx cols

/-- `self._accessor.searchString(expr)` (grammar.py:396): all accessors, from left to right -/
def gLoadAll (o : GOpts) (env : GEnv) : List (Str × Str) → AggDf → Except GErr AggDf
  | [], st => .ok st
  | (e, c) :: as, st =>
    match gPreProcess o env st e c with
    | .error x => .error x
    | .ok st' => gLoadAll o env as st'

/-- `_parse_var_id` of `event:column` (grammar.py:516): `self._agg_df[column]`, whatever the event -/
def gAccess (st : AggDf) (_event column : Str) : List (Option Int × List (Option Int)) :=
  (st.cols.filter fun c => c.1.1 = column).map fun c => (c.1.2, c.2)

/-- the table before anything is accessed (grammar.py:343) -/
def AggDf.empty : AggDf := ⟨[], []⟩

end Trappy
