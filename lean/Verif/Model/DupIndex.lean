import Verif.Model.PyStr
/-!
# Duplicate times

Models `handle_duplicate_index` (`/repo/trappy/utils.py` lines 31-112).

Simplifications: times are exact rationals, so nothing is rounded. `index.values` is the array behind the index, so the
updates of `new_index` are seen by the later searches in `index`, and by the final `reindex`, which therefore finds an
equal index and only copies. `searchsorted` is numpy's binary search.
-/

namespace Trappy

/-- numpy's binary search: the first position from `lo` where `p` fails, for `p` that holds on a prefix -/
def bsearch (p : Rat → Bool) (a : List Rat) : Nat → Nat → Nat → Nat
  | 0, lo, _ => lo
  | fuel + 1, lo, hi =>
    if lo < hi then
      let mid := lo + (hi - lo) / 2
      match a[mid]? with
      | none => lo
      | some x => if p x then bsearch p a fuel (mid + 1) hi else bsearch p a fuel lo mid
    else lo

/-- `index.searchsorted(d, side="left")` (utils.py:88) -/
def searchLeft (a : List Rat) (d : Rat) : Nat := bsearch (fun x => x < d) a a.length 0 a.length

/-- `index.searchsorted(d, side="right")` (utils.py:89) -/
def searchRight (a : List Rat) (d : Rat) : Nat := bsearch (fun x => x ≤ d) a a.length 0 a.length

/-- `new_index[i] += delta; delta += delta` for `n` positions from `i` (utils.py:106-110) -/
def addDeltas : Nat → Nat → Rat → List Rat → List Rat
  | 0, _, _, a => a
  | n + 1, i, delta, a => addDeltas n (i + 1) (delta + delta) (a.modify i (· + delta))

/-- one turn of the loop over the duplicated times (utils.py:86-110) -/
def fixGroup (maxDelta : Rat) (a : List Rat) (dup : Rat) : List Rat :=
  let left := searchLeft a dup
  let stop := searchRight a dup
  let num := stop - left
  let delta := match a[stop]? with
    | some x => (x - dup) / num
    | none => maxDelta
  let delta := if maxDelta < delta then maxDelta else delta
  addDeltas (stop - (left + 1)) (left + 1) delta a

/-- `index[index.duplicated()].unique()` (utils.py:84): the times that occur before, each once -/
def dupsAux (seen out : List Rat) : List Rat → List Rat
  | [] => out.reverse
  | x :: xs => if x ∈ seen then (if x ∈ out then dupsAux seen out xs else dupsAux seen (x :: out) xs)
    else dupsAux (x :: seen) out xs

/-- `index[index.duplicated()].unique()` (utils.py:84) -/
def dupsOf (a : List Rat) : List Rat := dupsAux [] [] a

/-- the new times -/
def fixIndex (maxDelta : Rat) (a : List Rat) : List Rat := (dupsOf a).foldl (fixGroup maxDelta) a

/-- `handle_duplicate_index` of a series (utils.py:31-112) -/
def handleDup {β : Type} (maxDelta : Rat) (s : List (Rat × β)) : List (Rat × β) :=
  (fixIndex maxDelta (s.map Prod.fst)).zip (s.map Prod.snd)

/-- insertion by time, then line -/
def insertByLine {β : Type} (x : Rat × Nat × β) : List (Rat × Nat × β) → List (Rat × Nat × β)
  | [] => [x]
  | y :: ys => if y.1 < x.1 ∨ (y.1 = x.1 ∧ y.2.1 ≤ x.2.1) then y :: insertByLine x ys else x :: y :: ys

/-- `data.sort_values(['Time', '__line'])` (utils.py:78-79) -/
def sortByLine {β : Type} : List (Rat × Nat × β) → List (Rat × Nat × β)
  | [] => []
  | x :: xs => insertByLine x (sortByLine xs)

/-- `handle_duplicate_index` of a table with a `__line` column -/
def handleDupFrame {β : Type} (maxDelta : Rat) (s : List (Rat × Nat × β)) : List (Rat × Nat × β) :=
  handleDup maxDelta (sortByLine s)

end Trappy
