import Verif.Model.Wa
/-!
# The table of sysfs parameters

Models `/repo/trappy/wa/sysfs_extractor.py` lines 80-96.

Simplifications: the table is given by its rows; how pandas writes them as HTML (`to_html`) is left out. `DataFrame.from_items` (pandas
before 1.0) with `orient="index"` makes a row of each item, in the order of the items. Comparisons are those of Python 3.
-/

namespace Trappy

/-- what is displayed -/
inductive SysfsShown where
  | nothing
  | table (rows : List (Str × List Val))
  | typeError
deriving DecidableEq

/-- `v < w`; `none` is the TypeError of an integer and a text -/
def valBelow : Val → Val → Option Bool
  | .int i, .int j => some (decide (i < j))
  | .str s, .str t => some (strLt s t)
  | _, _ => none

/-- `<` of two items: the values are compared if the keys are equal -/
def itemBelow (a b : Str × Val) : Option Bool := if a.1 = b.1 then valBelow a.2 b.2 else some (strLt a.1 b.1)

/-- insertion into a sorted list -/
def insertItem (a : Str × Val) : List (Str × Val) → Option (List (Str × Val))
  | [] => some [a]
  | b :: l =>
    match itemBelow b a with
    | none => none
    | some true => (insertItem a l).map (b :: ·)
    | some false => some (a :: b :: l)

/-- `sorted(params.items())` (sysfs_extractor.py:93); `none` is the TypeError -/
def sortItems : List (Str × Val) → Option (List (Str × Val))
  | [] => some []
  | a :: l =>
    match sortItems l with
    | none => none
    | some s => insertItem a s

/-- `pretty_print_in_ipython` (sysfs_extractor.py:87-96) -/
def prettyPrint (files : Dict Str) (listing : List Str) : SysfsShown :=
  let params := getParameters files (sysfsProperties listing) []
  if params.length = 0 then .nothing
  else
    match sortItems params with
    | none => .typeError
    | some items => .table (items.map fun kv => (kv.1, [kv.2]))

end Trappy
