import Verif.Model.Grammar
import Verif.Model.SuperIndex
import Verif.Model.PlotTrace
/-!
# `Parser.solve` on a trace

Models `/repo/trappy/stats/grammar.py` lines 355-397 (`solve`), 505-516 (`_parse_var_id`), 77-141 (the operators) on the tables that the constructor `buildTrace` makes of the lines of a file.

Simplifications: no `pvars`; identifiers and calls are left out (an error here, see `Names.lean` for them), as are accessors by the path of a class; columns with text, pivots and filters on text are left out (an error here); the
arithmetic of single cells is a parameter (`CellOps`); logical operators on tables with different columns are left out (an error here).
-/

namespace Trappy
open F64 Py

/-! ## Accessors -/

/-- `IDENTIFIER` (grammar.py:61) -/
def takeIdent : Str → Str × Str
  | [] => ([], [])
  | c :: s => if isIdChar c then let r := takeIdent s; (c :: r.1, r.2) else ([], c :: s)

/-- the text after `FUNC_NAME + COLON + IDENTIFIER` with the event and the column, if it begins so (grammar.py:340) -/
def accessorAt (s : Str) : Option ((Str × Str) × Str) :=
  match gSkip s with
  | [] => none
  | c :: s =>
    if isIdStart c then
      let n := takeName (c :: s)
      match gSkip n.2 with
      | ':' :: r =>
        match gSkip r with
        | d :: r => if isIdStart d then let m := takeIdent (d :: r); some ((n.1, m.1), m.2) else none
        | [] => none
      | _ => none
    else none

/-- `searchString` (grammar.py:396): all accessors of a text; after one that does not match, the next character is tried -/
def accessorLoop : Nat → Str → List (Str × Str)
  | 0, _ => []
  | _ + 1, [] => []
  | f + 1, c :: s =>
    match accessorAt (c :: s) with
    | some (a, r) => a :: accessorLoop f r
    | none => accessorLoop f s

/-- the accessors of an expression -/
def accessors (s : Str) : List (Str × Str) := accessorLoop (s.length + 1) s

/-! ## Values -/

/-- Arithmetic of numbers `α`; a missing number is `none`. -/
structure CellOps (α : Type) where
  /-- a cell of a table -/
  ofInt : Int → α
  /-- `float(text)` with or without a minus sign (grammar.py:41) -/
  ofText : Bool → Str → α
  /-- one cell of an operation of tables; the outer `none` is an exception -/
  cell : GOp → Option α → Option α → Option (Option α)
  /-- an operation of two numbers; `none` is an exception, such as `ZeroDivisionError` -/
  scalar : GOp → α → α → Option α
  /-- `bool(x)` -/
  truth : α → Bool

/-- A value: a number, or a table with a column for each value of the pivot -/
inductive SVal (α : Type) where
  | num (a : α)
  | frame (cols : List (Option Int × List (Option α)))
deriving DecidableEq

/-- insert into a sorted list of pivot values -/
def insertLabel (x : Option Int) : List (Option Int) → List (Option Int)
  | [] => [x]
  | y :: ys =>
    match x, y with
    | some a, some b => if a < b then x :: y :: ys else if a = b then y :: ys else y :: insertLabel x ys
    | _, _ => y :: insertLabel x ys

/-- the columns of two tables: sorted, unless "NO_PIVOT", which is text, is one of them -/
def unionLabels (f g : List (Option Int)) : List (Option Int) :=
  if none ∈ f ∨ none ∈ g then f ++ g.filter fun x => x ∉ f
  else (f ++ g).foldl (fun acc x => insertLabel x acc) []

/-- the comparisons (grammar.py:73) -/
def GOp.compares : GOp → Bool
  | .gt | .lt | .ge | .le | .eq | .ne => true
  | _ => false

/-- all elements of a list, or an exception -/
def allSome {β : Type} : List (Option β) → Option (List β)
  | [] => some []
  | none :: _ => none
  | some x :: l => (allSome l).map (x :: ·)

/-- an operation on the cells of one column -/
def mapColumn {α : Type} (f : Option α → Option (Option α)) (col : List (Option α)) : Option (List (Option α)) := allSome (col.map f)

/-- an operation of the cells of a table and a number -/
def mapFrame {α : Type} (f : Option α → Option (Option α)) (cols : List (Option Int × List (Option α))) : Option (SVal α) :=
  (allSome (cols.map fun c => (mapColumn f c.2).map fun d => (c.1, d))).map .frame

/-- the column of a table, without values if there is none -/
def columnOf {α : Type} (n : Nat) (cols : List (Option Int × List (Option α))) (x : Option Int) : List (Option α) :=
  match cols.lookup x with
  | some c => c
  | none => List.replicate n none

/-- an operation of the cells of two tables of `n` rows -/
def zipFrames {α : Type} (ops : CellOps α) (o : GOp) (n : Nat) (labels : List (Option Int)) (f g : List (Option Int × List (Option α))) : Option (SVal α) :=
  (allSome (labels.map fun x => (allSome (List.zipWith (ops.cell o) (columnOf n f x) (columnOf n g x))).map fun d => (x, d))).map .frame

/-- `OPERATOR_MAP[opr](a, b)` (grammar.py:78-96) for tables of `n` rows; `none` is an exception. `and` and `or` of Python need the truth value of the left operand, which a table does not have. -/
def sBin {α : Type} (ops : CellOps α) (n : Nat) (o : GOp) : SVal α → SVal α → Option (SVal α)
  | .num a, b =>
    if o = .land then some (if ops.truth a then b else .num a)
    else if o = .lor then some (if ops.truth a then .num a else b)
    else
      match b with
      | .num b => (ops.scalar o a b).map .num
      | .frame g => mapFrame (fun y => ops.cell o (some a) y) g
  | .frame f, b =>
    if o = .land ∨ o = .lor then none
    else
      match b with
      | .num b => mapFrame (fun x => ops.cell o x (some b)) f
      | .frame g =>
        if f.map Prod.fst = g.map Prod.fst then zipFrames ops o n (f.map Prod.fst) f g
        else if o.compares ∨ o = .band ∨ o = .bor then none
        else zipFrames ops o n (unionLabels (f.map Prod.fst) (g.map Prod.fst)) f g

/-- what the parse actions compute with the aggregated table; `none` is an exception -/
def solveInterp {α : Type} (ops : CellOps α) (st : AggDf) : GInterp (Option (SVal α)) where
  num t := some (.num (ops.ofText false t))
  signed b t := some (.num (ops.ofText b t))
  var _ := none
  acc e c := some (.frame ((gAccess st e c).map fun x => (x.1, x.2.map fun v => v.map ops.ofInt)))
  call _ _ := none
  callNone _ := none
  bin o a b :=
    match a, b with
    | some x, some y => sBin ops st.index.length o x y
    | _, _ => none
  neg a :=
    match a with
    | some x => sBin ops st.index.length .mul (.num (ops.ofInt (-1))) x
    | none => none

/-! ## The trace -/

/-- the attribute `pivot` of the classes (cpu_power.py:108, 138, idle.py:26, pid_controller.py:32, raw_syscalls.py:25, 58, sched.py:33, 52, 69, 83, 129, thermal.py:39, 133) -/
def classPivot (name : Str) : Option Str :=
  if name ∈ [cs!"cpu_in_power", cs!"cpu_out_power", cs!"sched_load_avg_sg"] then some cs!"cpus"
  else if name = cs!"cpu_idle" then some cs!"cpu_id"
  else if name ∈ [cs!"pid_controller", cs!"thermal_governor"] then some cs!"thermal_zone_id"
  else if name ∈ [cs!"sys_enter", cs!"sys_exit", cs!"sched_load_avg_task"] then some cs!"pid"
  else if name ∈ [cs!"sched_load_avg_cpu", cs!"cpu_capacity", cs!"cpu_frequency"] then some cs!"cpu"
  else if name = cs!"thermal" then some cs!"id"
  else none

/-- the numbers of a row -/
def numberCells (cells : Dict Val) : Dict Int :=
  (cells.map Prod.fst).filterMap fun k => match cells.get k with
    | some (.int i) => some (k, i)
    | _ => none

/-- a table as the grammar sees it: the columns are those of any row -/
def eventOf (name : Str) (t : Table (Dict Val)) : GEvent :=
  ⟨t.flatMap fun r => r.2.map Prod.fst, classPivot name, t.map fun r => ⟨r.1, numberCells r.2⟩⟩

/-- the column has text -/
def textColumn (t : Table (Dict Val)) (c : Str) : Bool :=
  t.any fun r => match r.2.get c with
    | some (.str _) => true
    | _ => false

/-- Why an expression has no value. -/
inductive SolveErr where
  /-- the trace cannot be read -/
  | trace
  /-- a column with text: left out of the model -/
  | text
  /-- the accessors cannot be loaded -/
  | load (e : GErr)
  /-- `ParseException` -/
  | parse
  /-- an exception of an operation, or something left out of the model -/
  | eval
deriving DecidableEq, Repr

/-- the accessor, its pivot or a filter needs a column with text -/
def needsText (o : GOpts) (tables : Dict (Table (Dict Val))) (a : Str × Str) : Bool :=
  match tables.get a.1 with
  | none => false
  | some t => textColumn t a.2 || ((classPivot a.1).any fun p => textColumn t p) || o.filters.any fun f => textColumn t f.1

/-- `Parser(trace, window=..., filters=...).solve(text)` (grammar.py:332-397): the times of the aggregated table and the value -/
def solveTables {α : Type} (ops : CellOps α) (o : GOpts) (tables : Dict (Table (Dict Val))) (text : Str) : Except SolveErr (List Nat × SVal α) :=
  if (accessors text).any (needsText o tables) then .error .text
  else
    match gLoadAll o ⟨[], tables.map fun x => (x.1, eventOf x.1 x.2), []⟩ (accessors text) AggDf.empty with
    | .error e => .error (.load e)
    | .ok st =>
      match gSolveText (solveInterp ops st) text with
      | none => .error .parse
      | some none => .error .eval
      | some (some v) => .ok (st.index, v)

/-- `Parser(FTrace(path)).solve(text)` on the lines of the file -/
def solveFile {α : Type} (ops : CellOps α) (o : GOpts) (fuel : Nat) (ps : List ParserClass) (u : UserParams) (lines : List Str) (text : Str) : Except SolveErr (List Nat × SVal α) :=
  match buildTrace fuel ps u lines with
  | .object t => solveTables ops o (namedTables ps t.tables) text
  | _ => .error .trace

end Trappy
