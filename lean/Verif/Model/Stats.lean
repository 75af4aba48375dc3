import Verif.Model.Power
/-!
# Topologies, triggers, indices and aggregators

Models `/repo/trappy/stats/Topology.py` lines 66-182, `Indexer.py` lines 43-106, `Trigger.py` lines 77-135 and
`Aggregator.py` lines 48-177.

Simplifications: nodes are natural numbers; the order in which a set is iterated is a parameter; times are only compared,
so they are natural numbers; numbers are rationals; a missing cell (NaN) is `none`; a table has distinct times.
-/

namespace Trappy

/-! ## Topology -/

/-- `_levels` and `_nodes`, the latter a set (Topology.py:67-68) -/
structure Topo where
  levels : Dict (List (List Nat))
  nodes : List Nat
deriving DecidableEq

/-- a topology without arguments (Topology.py:66-70) -/
def Topo.empty : Topo := ⟨[], []⟩

/-- `nodes.union(set(group))` (Topology.py:105) -/
def setUnion (s group : List Nat) : List Nat := group.foldl (fun s x => if x ∈ s then s else s ++ [x]) s

/-- `add_to_level` (Topology.py:99-105) -/
def Topo.add (t : Topo) (name : Str) (vals : List (List Nat)) : Topo where
  levels := match t.levels.get name with
    | none => t.levels.set name ([] ++ vals)
    | some old => t.levels.set name (old ++ vals)
  nodes := vals.foldl setUnion t.nodes

/-- `flatten` (Topology.py:162) with the iteration order of the set -/
def Topo.flatten (ord : List Nat → List Nat) (t : Topo) : List Nat := ord t.nodes

/-- `Topology(clusters=...)` (Topology.py:66-75) -/
def Topo.init (ord : List Nat → List Nat) (clusters : List (List Nat)) : Topo :=
  if clusters.length = 0 then Topo.empty
  else
    let t := Topo.empty.add cs!"cluster" clusters
    t.add cs!"cpu" ((t.flatten ord).map fun n => [n])

/-- `get_level` (Topology.py:115-118); `none` is the KeyError -/
def Topo.getLevel (ord : List Nat → List Nat) (t : Topo) (name : Str) : Option (List (List Nat)) :=
  if name = cs!"all" then some [t.flatten ord] else t.levels.get name

/-- `level_span` (Topology.py:170-173); `none` is the KeyError -/
def Topo.levelSpan (t : Topo) (name : Str) : Option Nat :=
  if name = cs!"all" then some t.nodes.length else (t.levels.get name).map List.length

/-- `has_level` (Topology.py:182) -/
def Topo.hasLevel (t : Topo) (name : Str) : Bool := (t.levels.get name).isSome

/-- `list.index` -/
def indexOfGroup (g : List Nat) : List (List Nat) → Option Nat
  | [] => none
  | h :: hs => if h = g then some 0 else (indexOfGroup g hs).map (· + 1)

/-- `get_index` (Topology.py:137-138); `none` is the KeyError or ValueError -/
def Topo.getIndex (ord : List Nat → List Nat) (t : Topo) (level : Str) (group : List Nat) : Option Nat :=
  (t.getLevel ord level).bind (indexOfGroup group)

/-- `get_node` for an index that is not negative (Topology.py:152-153); `none` is the KeyError or IndexError -/
def Topo.getNode (ord : List Nat → List Nat) (t : Topo) (level : Str) (i : Nat) : Option (List Nat) :=
  (t.getLevel ord level).bind fun gs => gs[i]?

/-! ## Triggers -/

/-- a cell -/
inductive SCell where
  | num (q : Rat)
  | str (s : Str)
deriving DecidableEq

/-- an event table: its columns, and the rows with their times -/
structure STable where
  cols : List Str
  rows : List (Nat × Dict SCell)

/-- the value of a filter: a callable, one value or a list of values (Trigger.py:50-64) -/
inductive SFilter where
  | func (f : Option SCell → Bool)
  | single (v : SCell)
  | many (vs : List SCell)

/-- the `value` of a trigger (Trigger.py:69) -/
inductive SValue where
  | column (name : Str)
  | const (q : Rat)
deriving DecidableEq

/-- a trigger on a table -/
structure STrigger where
  table : STable
  filters : Dict SFilter
  value : SValue
  pivot : Str

/-- why `generate` raises -/
inductive SError where
  | keyError
  /-- UnboundLocalError -/
  | unbound
  /-- indexing a frame by a callable calls it with the frame; by a list it selects several columns -/
  | notAColumn
  | indexError
  | typeError
deriving DecidableEq

/-- one filter on one row (Trigger.py:100-103, 133-134) -/
def SFilter.mask (key : Str) : SFilter → Dict SCell → Bool
  | .func f, r => f (r.get key)
  | .single v, r => ([v] : List SCell).foldl (fun m v => m && decide (r.get key = some v)) true
  | .many vs, r => vs.foldl (fun m v => m && decide (r.get key = some v)) true

/-- the loop over the filters (Trigger.py:97-103); a column that does not exist is a KeyError for a callable and skipped
for values (line 130) -/
def maskLoop (cols : List Str) (r : Dict SCell) : Dict SFilter → Bool → Except SError Bool
  | [], m => .ok m
  | (k, .func f) :: fs, m => if k ∈ cols then maskLoop cols r fs (m && SFilter.mask k (.func f) r) else .error .keyError
  | (k, f) :: fs, m => if k ∈ cols then maskLoop cols r fs (m && SFilter.mask k f r) else maskLoop cols r fs m

/-- the columns used by callables exist -/
def funcCols (cols : List Str) : Dict SFilter → Bool
  | [] => true
  | (k, .func _) :: fs => decide (k ∈ cols) && funcCols cols fs
  | _ :: fs => funcCols cols fs

/-- the rows selected (Trigger.py:95-105) -/
def STrigger.rows (t : STrigger) (pivotVal : SCell) : Except SError (List (Nat × Dict SCell)) :=
  if t.pivot ∈ t.table.cols then
    if funcCols t.table.cols t.filters then
      let rs := t.table.rows.filter fun r => r.2.get t.pivot = some pivotVal
      .ok (rs.filter fun r => match maskLoop t.table.cols r.2 t.filters true with | .ok b => b | .error _ => false)
    else .error .keyError
  else .error .keyError

/-- the last filter's value, which is what the name `value` is bound to after the loop (Trigger.py:99) -/
def lastFilter (fs : Dict SFilter) : Option SFilter := (fs.getLast?).map Prod.snd

/-- `generate` (Trigger.py:85-110): the cells by time. Line 108 indexes the frame by the loop variable `value`. -/
def STrigger.generate (t : STrigger) (pivotVal : SCell) : Except SError (List (Nat × Option SCell)) :=
  match t.rows pivotVal with
  | .error e => .error e
  | .ok rs =>
    match t.value with
    | .const q => .ok (rs.map fun r => (r.1, some (.num q)))
    | .column _ =>
      match lastFilter t.filters with
      | none => .error .unbound
      | some (.single (.str c)) => if c ∈ t.table.cols then .ok (rs.map fun r => (r.1, r.2.get c)) else .error .keyError
      | some (.single (.num _)) => .error .keyError
      | some _ => .error .notAColumn

/-! ## Indices -/

/-- `MultiTriggerIndexer._unify` (Indexer.py:99-106): union, then `np.unique` -/
def unifyIndex (indices : List (List Nat)) : List Nat :=
  indices.foldl (fun acc j => j.foldl (fun acc t => insertTime t acc) acc) []

/-- `get_unified_indexer` (Indexer.py:75-80): `pandas` union of indices, which are sorted and without duplicates;
`none` is the IndexError -/
def unifiedIndexer : List (List Nat) → Option (List Nat)
  | [] => none
  | i :: is => some (is.foldl (fun acc j => j.foldl (fun acc t => insertTime t acc) acc) i)

/-! ## Aggregators -/

/-- a series: its times and values -/
abbrev TSeries := List (Nat × Option Rat)

/-- assignment in a dictionary with numbers as keys, or in a series -/
def nset {β : Type} : List (Nat × β) → Nat → β → List (Nat × β)
  | [], k, v => [(k, v)]
  | (k', v') :: d, k, v => if k' = k then (k, v) :: d else (k', v') :: nset d k v

/-- sum of two cells; NaN if one of them is NaN -/
def vadd : Option Rat → Option Rat → Option Rat
  | some a, some b => some (a + b)
  | _, _ => none

/-- sum of two series with the same index -/
def saddVals (a b : TSeries) : TSeries := List.zipWith (fun x y => (x.1, vadd x.2 y.2)) a b

/-- `indexer.series()` (Indexer.py:49) -/
def zeroSeries (index : List Nat) : TSeries := index.map fun t => (t, some 0)

/-- `_add_result` (Aggregator.py:65-69) -/
def addResult (index : List Nat) (store : List (Nat × TSeries)) (pivot : Nat) (s : TSeries) : List (Nat × TSeries) :=
  let start := match store.lookup pivot with
    | some r => r
    | none => zeroSeries index
  nset store pivot (s.foldl (fun r x => nset r x.1 x.2) start)

/-- what a trigger gives for a node: the series or the exception -/
abbrev TrigGen := Nat → Except SError TSeries

/-- the inner loop of `_aggregate_base` (Aggregator.py:173-175) -/
def baseNodes (index : List Nat) (g : TrigGen) : List Nat → List (Nat × TSeries) → Except SError (List (Nat × TSeries))
  | [], store => .ok store
  | n :: ns, store =>
    match g n with
    | .error e => .error e
    | .ok s => baseNodes index g ns (addResult index store n s)

/-- `_aggregate_base` (Aggregator.py:172-175) for a list of triggers -/
def aggregateBase (index : List Nat) (nodes : List Nat) : List TrigGen → List (Nat × TSeries) → Except SError (List (Nat × TSeries))
  | [], store => .ok store
  | g :: gs, store =>
    match baseNodes index g nodes store with
    | .error e => .error e
    | .ok store => aggregateBase index nodes gs store

/-- `triggers`: "a list or a singular trigger object" (Aggregator.py:94) -/
inductive TriggerArg where
  | one (g : TrigGen)
  | many (gs : List TrigGen)

/-- `_aggregate_base` for the argument as it was given: a single trigger cannot be iterated (Aggregator.py:172) -/
def aggregateBaseArg (index nodes : List Nat) : TriggerArg → Except SError (List (Nat × TSeries))
  | .one _ => .error .typeError
  | .many gs => aggregateBase index nodes gs []

/-- `level_res += node_res` without aggregation function: `level_res` is the stored series itself (Aggregator.py:146-154) -/
def addInPlace (first : Nat) : List Nat → List (Nat × TSeries) → Except SError (List (Nat × TSeries))
  | [], store => .ok store
  | n :: ns, store =>
    match store.lookup first, store.lookup n with
    | some a, some b => addInPlace first ns (nset store first (saddVals a b))
    | _, _ => .error .keyError

/-- the loop over the groups without aggregation function (Aggregator.py:141-156): the store afterwards, and for each group
the stored series it refers to -/
def aggGroups : List (List Nat) → List (Nat × TSeries) → Except SError (List (Nat × TSeries) × List Nat)
  | [], store => .ok (store, [])
  | [] :: _, _ => .error .indexError
  | (g :: ns) :: gs, store =>
    match store.lookup g with
    | none => .error .keyError
    | some _ =>
      match addInPlace g ns store with
      | .error e => .error e
      | .ok store =>
        match aggGroups gs store with
        | .error e => .error e
        | .ok (store, refs) => .ok (store, g :: refs)

/-- `aggregate` without aggregation function, after `_aggregate_base`: the store afterwards and the series returned -/
def aggregatePlain (groups : List (List Nat)) (store : List (Nat × TSeries)) :
    Except SError (List (Nat × TSeries) × List TSeries) :=
  match aggGroups groups store with
  | .error e => .error e
  | .ok (store, refs) => .ok (store, refs.filterMap fun n => store.lookup n)

/-- the loop over the rest of a group with an aggregation function that returns a new object (Aggregator.py:148-154) -/
def aggRest {γ : Type} (f : TSeries → γ) (add : γ → γ → γ) (store : List (Nat × TSeries)) : List Nat → γ → Except SError γ
  | [], acc => .ok acc
  | n :: ns, acc =>
    match store.lookup n with
    | none => .error .keyError
    | some s => aggRest f add store ns (add acc (f s))

/-- `aggregate` with an aggregation function (Aggregator.py:141-158) -/
def aggregateWith {γ : Type} (f : TSeries → γ) (add : γ → γ → γ) (store : List (Nat × TSeries)) :
    List (List Nat) → Except SError (List γ)
  | [] => .ok []
  | [] :: _ => .error .indexError
  | (g :: ns) :: gs =>
    match store.lookup g with
    | none => .error .keyError
    | some s =>
      match aggRest f add store ns (f s) with
      | .error e => .error e
      | .ok v =>
        match aggregateWith f add store gs with
        | .error e => .error e
        | .ok vs => .ok (v :: vs)

/-- an aggregator: `_result` and `_aggregated` (Aggregator.py:50-51) -/
structure AggObj where
  store : List (Nat × TSeries)
  done : Bool
deriving DecidableEq

/-- a new aggregator -/
def AggObj.new : AggObj := ⟨[], false⟩

/-- `if not self._aggregated` (Aggregator.py:138-139); an exception is modelled to leave the object as it was -/
def AggObj.prepare (index nodes : List Nat) (gs : List TrigGen) (a : AggObj) : Except SError AggObj :=
  if a.done then .ok a
  else match aggregateBase index nodes gs a.store with
    | .error e => .error e
    | .ok store => .ok ⟨store, true⟩

/-- `aggregate(level)` with an aggregation function; the object afterwards and the result -/
def AggObj.callWith {γ : Type} (index nodes : List Nat) (gs : List TrigGen) (f : TSeries → γ) (add : γ → γ → γ) (a : AggObj)
    (groups : List (List Nat)) : AggObj × Except SError (List γ) :=
  match a.prepare index nodes gs with
  | .error e => (a, .error e)
  | .ok a => (a, aggregateWith f add a.store groups)

/-- `aggregate(level)` without aggregation function -/
def AggObj.callPlain (index nodes : List Nat) (gs : List TrigGen) (a : AggObj) (groups : List (List Nat)) :
    AggObj × Except SError (List TSeries) :=
  match a.prepare index nodes gs with
  | .error e => (a, .error e)
  | .ok a =>
    match aggregatePlain groups a.store with
    | .error e => (a, .error e)
    | .ok (store, r) => (⟨store, true⟩, .ok r)

/-- a sequence of calls: the results in order -/
def AggObj.runWith {γ : Type} (index nodes : List Nat) (gs : List TrigGen) (f : TSeries → γ) (add : γ → γ → γ) :
    AggObj → List (List (List Nat)) → List (Except SError (List γ))
  | _, [] => []
  | a, c :: cs =>
    let r := a.callWith index nodes gs f add c
    r.2 :: AggObj.runWith index nodes gs f add r.1 cs

/-- a sequence of calls without aggregation function -/
def AggObj.runPlain (index nodes : List Nat) (gs : List TrigGen) : AggObj → List (List (List Nat)) → List (Except SError (List TSeries))
  | _, [] => []
  | a, c :: cs =>
    let r := a.callPlain index nodes gs c
    r.2 :: AggObj.runPlain index nodes gs r.1 cs

end Trappy
