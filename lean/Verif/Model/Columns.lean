import Verif.Model.Whole
import Verif.Model.Float64
/-!
# The columns of a table

Source: `trappy/base.py` lines 301-304 (`pd.DataFrame(self.generate_parsed_data(), index=...)`) and 268-287 (`optimize_dataframe`).

pandas makes a DataFrame of dictionaries column by column. A row without the key has NaN, which is a float. If a column has text, its cells are left as they are; if it has integers only, they are left as they are
(of 64 bits, or Python numbers if they are larger); if it has integers and NaN, all its cells become binary64 numbers, rounded to the nearest, unless there are integers that do not fit into 64 bits with a sign.
In that last case, if there are no negative integers and all fit into 64 bits without a sign, it depends on the release of pandas whether the cells become floats (`big`).

`optimize_dataframe` calls `self.data_frame[col].apply(...)` for columns of the kinds `i` and `f` without using the result, and changes the data of columns of kind `S`; pandas stores text in columns of the kind `O`.
-/

namespace Trappy
open F64

/-- a cell of a DataFrame: a Python object, a binary64 number (its sign and the pattern of its absolute value), or NaN -/
inductive PdCell where
  | obj (v : Val)
  | float (neg : Bool) (bits : Nat)
  | nan
deriving DecidableEq, Repr

/-- the kind of the type of a column: integers, integers without a sign, floats, objects, bytes -/
inductive DKind where
  | i | u | f | O | S
deriving DecidableEq, Repr

/-- the integer fits into 64 bits with a sign -/
def fits64 (n : Int) : Bool := decide (-2 ^ 63 ≤ n ∧ n < 2 ^ 63)

/-- the integer fits into 64 bits without a sign -/
def fitsU64 (n : Int) : Bool := decide (0 ≤ n ∧ n < 2 ^ 64)

/-- the integers of a column, or `none` if it has text -/
def columnInts : List (Option Val) → Option (List Int)
  | [] => some []
  | none :: cs => columnInts cs
  | some (.int n) :: cs => (columnInts cs).map (n :: ·)
  | some (.str _) :: _ => none

/-- the kind of the column that pandas makes of these cells -/
def columnKind (big : Bool) (cells : List (Option Val)) : DKind :=
  match columnInts cells with
  | none => .O
  | some ns =>
    if cells.any Option.isNone then
      if ns.all fits64 || (big && ns.all fitsU64) then .f else .O
    else if ns.all fits64 then .i
    else if ns.all fitsU64 then .u
    else .O

/-- `float(n)` -/
def floatOfInt (n : Int) : PdCell := .float (decide (n < 0)) (ofRat n.natAbs 1)

/-- one cell of a column of this kind -/
def pdCell (kind : DKind) : Option Val → PdCell
  | none => .nan
  | some (.str s) => .obj (.str s)
  | some (.int n) => if kind = .f then floatOfInt n else .obj (.int n)

/-- the cells of a column of the DataFrame -/
def pdColumn (big : Bool) (rows : List (Dict Val)) (key : Str) : List PdCell :=
  let cells := rows.map fun r => Dict.get r key
  cells.map (pdCell (columnKind big cells))

/-- `optimize_dataframe` (base.py:268-287) for one column: only a column of the kind `S` is changed, with the categories of `cat` -/
def optimizeColumn {α : Type} (cat : List α → List α) (kind : DKind) (cells : List α) : List α :=
  match kind with
  | .i => cells
  | .f => cells
  | .S => cat cells
  | _ => cells

end Trappy
