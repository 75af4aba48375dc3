import Verif.Model.Stats
/-!
# The text of a topology

Models `/repo/trappy/stats/Topology.py` lines 77-83.

Simplifications: those of `Verif.Model.Stats`: nodes are natural numbers, and the order in which a set is iterated is a parameter. The text of
a list is the one CPython gives: the elements in brackets, a comma and a blank between two of them. Dictionaries are iterated in the order
of insertion (Python 3.7 and later).
-/

namespace Trappy
open Py

/-- the elements of a list after the first, each after a comma and a blank (CPython, `list_repr`) -/
def reprRest {α : Type} (f : α → Str) : List α → Str
  | [] => []
  | a :: l => ',' :: ' ' :: (f a ++ reprRest f l)

/-- `repr` of a list whose elements have the texts `f` (CPython, `list_repr`) -/
def reprList {α : Type} (f : α → Str) : List α → Str
  | [] => ['[', ']']
  | a :: l => '[' :: (f a ++ reprRest f l ++ [']'])

/-- `get_level(level_name).__repr__()` (Topology.py:81): a list of lists of nodes -/
def reprGroups (gs : List (List Nat)) : Str := reprList (reprList natStr) gs

/-- the loop of `__repr__` over the levels (Topology.py:79-82); `none` is the KeyError of `get_level` -/
def Topo.lines (ord : List Nat → List Nat) (t : Topo) : List Str → Str → Option Str
  | [], s => some s
  | name :: rest, s =>
    match t.getLevel ord name with
    | none => none
    | some gs => t.lines ord rest (s ++ (name ++ [' '] ++ reprGroups gs ++ ['\n']))

/-- `__repr__` (Topology.py:77-83) -/
def Topo.text (ord : List Nat → List Nat) (t : Topo) : Option Str := t.lines ord (t.levels.map Prod.fst) []

end Trappy
