import Verif.Model.Populate
/-!
# Windows, time normalisation, duration

Models `/repo/trappy/ftrace.py` lines 158-189 (`_calc_max_window`, `_windowify_class`), 306-314
(`_apply_user_parameters`), `/repo/trappy/base.py` lines 336-346 (`normalize_time`) and
`/repo/trappy/bare_trace.py` lines 42-58 (`get_duration`), 74-88 (`_normalize_time`).

Simplifications: window bounds are non-negative finite binary64 numbers (bit patterns); a table is the list of its rows
with their index value, whatever the other columns are; `sort_index` is a stable sort (pandas' default is not stable on
equal times, but leaves a sorted index alone); label slicing `df[a:b]` on a sorted index is the contiguous part
that pandas finds with `searchsorted`.
-/

namespace Trappy

/-- A window `(lo, hi)`; `hi = none` is Python's `None`. -/
structure Win where
  lo : Nat
  hi : Option Nat
deriving DecidableEq

/-- `_calc_max_window` (ftrace.py:158-172). -/
def calcMaxWindow (base : Nat) (w aw : Win) : Win :=
  { lo := max (F64.add w.lo base) aw.lo
    hi := match w.hi, aw.hi with
      | some b, some d => some (max (F64.add b base) d)
      | some b, none => some (F64.add b base)
      | none, some d => some d
      | none, none => none }

/-- A `DataFrame`: index value and remaining columns of each row. -/
abbrev Table (α : Type) := List (Nat × α)

/-- insertion of a row before the first row that is not earlier -/
def insertRow {α : Type} (r : Nat × α) : Table α → Table α
  | [] => [r]
  | x :: t => if r.1 ≤ x.1 then r :: x :: t else x :: insertRow r t

/-- `df.sort_index()`. -/
def sortIndex {α : Type} : Table α → Table α
  | [] => []
  | r :: t => insertRow r (sortIndex t)

/-- `df[lo:]` on a sorted index. -/
def sliceFrom {α : Type} (lo : Nat) (t : Table α) : Table α := t.dropWhile fun r => decide (r.1 < lo)

/-- `df[:hi]` on a sorted index, `hi` included. -/
def sliceTo {α : Type} (hi : Nat) (t : Table α) : Table α := t.takeWhile fun r => decide (r.1 ≤ hi)

/-- `_windowify_class` (ftrace.py:174-189).  `if window[1]:` is false for `None` and for `0`. -/
def windowify {α : Type} (w : Win) (t : Table α) : Table α :=
  if t.isEmpty then t
  else
    let s := sortIndex t
    match w.hi with
    | some (h + 1) => sliceTo (h + 1) (sliceFrom w.lo s)
    | _ => if w.lo ≠ 0 then sliceFrom w.lo s else s

/-- `Base.normalize_time` (base.py:336-346). -/
def normalizeTable {α : Type} (base : Nat) (t : Table α) : Table α :=
  if base = 0 then t else t.map fun r => (F64.sub r.1 base, r.2)

/-- What the user asks for besides the events. -/
structure UserParams where
  normalize : Bool
  window : Win
  absWindow : Win

/-- The default parameters except for normalisation: `window=(0, None)`, `abs_window=(0, None)`. -/
def UserParams.full (normalize : Bool) : UserParams := ⟨normalize, ⟨0, none⟩, ⟨0, none⟩⟩

/-- `self.max_window`: set when the base time becomes known (ftrace.py:115, 429-433), else `(0, None)`. -/
def maxWindow (base : Nat) (u : UserParams) : Win :=
  if base = 0 then ⟨0, none⟩ else calcMaxWindow base u.window u.absWindow

/-- `_apply_user_parameters` on one table (ftrace.py:306-314, bare_trace.py:74-88); `w` is `self.max_window`. -/
def applyWith {α : Type} (w : Win) (base : Nat) (normalize : Bool) (t : Table α) : Table α :=
  let t := windowify w t
  if normalize then normalizeTable base t else t

/-- `_apply_user_parameters` (ftrace.py:306-314) after a parse that found the base time. -/
def applyUser {α : Type} (base : Nat) (u : UserParams) (t : Table α) : Table α :=
  applyWith (maxWindow base u) base u.normalize t

/-- `get_duration` (bare_trace.py:42-58) for tables whose last time is not before the first. -/
def getDuration {α : Type} (ts : List (Table α)) : Nat :=
  let lasts := ts.filterMap fun t => t.getLast?.map Prod.fst
  let firsts := ts.filterMap fun t => t.head?.map Prod.fst
  match lasts, firsts with
  | l :: ls, f :: fs => F64.sub (ls.foldl max l) (fs.foldl min f)
  | _, _ => 0

end Trappy
