import Verif.Model.Whole
import Verif.Model.Events
/-!
# The memory checks while rows are made

Source: `trappy/base.py` lines 34-43 (`_get_free_memory_kb`) and 237-266 (`generate_parsed_data`).

The readings of `getrusage` are an arbitrary function of the number of the event: nothing is assumed about them.

Simplifications: `kb_free * 0.9` is the rational number; with floats the comparison with an integer has the same result for less than 2^49 kB, as the error of the product is far below
a tenth. A warning is an entry in the list of events at which `warnings.warn` is called; whether Python shows it is left to its filters. Digits are ASCII.
-/

namespace Trappy
open Py

/-- `_get_free_memory_kb` (base.py:34-43) for the lines of `/proc/meminfo`, `none` if it cannot be read. The result is `None` if there is no line with `MemFree`, if the first such line has not three words,
or if the second word is not an integer. -/
def freeMemoryKb : Option (List Str) → Option Int
  | none => none
  | some lines =>
    match lines.filter (contains cs!"MemFree") with
    | [] => none
    | l :: _ =>
      match Py.split l with
      | [_, kb, _] => intB 10 kb
      | _ => none

/-- `CHECK_MEM_COUNT` (base.py:240) -/
def checkMemCount : Int := 10000

/-- `kb_free and kb_used > kb_free * 0.9` (base.py:260) -/
def lowMemory (free : Option Int) (used : Int) : Bool :=
  match free with
  | none => false
  | some f => decide (f ≠ 0) && decide (f * 9 < used * 10)

/-- the loop of `generate_parsed_data` (base.py:246-266) from event `i` on, with `check_memory_count` and `check_memory_usage`: the rows, `none` if `generate_data_dict` raises,
and the events at which there is a warning -/
def memLoop (dict : Str → Option (List (Str × Val))) (free : Option Int) (used : Nat → Int) : Nat → Int → Bool → List Rec → List Str → Option (List TRow) × List Nat
  | i, count, check, r :: rs, d :: ds =>
    match dict d with
    | none => (none, [])
    | some payload =>
      let row : TRow := { time := r.time, cells := parsedRow r.comm r.pid r.cpu r.line payload }
      if check && decide (count - 1 = 0) then
        if lowMemory free (used i) then
          let res := memLoop dict free used (i + 1) checkMemCount false rs ds
          (res.1.map (row :: ·), i :: res.2)
        else
          let res := memLoop dict free used (i + 1) checkMemCount check rs ds
          (res.1.map (row :: ·), res.2)
      else
        let res := memLoop dict free used (i + 1) (count - 1) check rs ds
        (res.1.map (row :: ·), res.2)
  | _, _, _, _, _ => (some [], [])

/-- `generate_parsed_data` (base.py:237-266) with the contents of `/proc/meminfo` -/
def genParsed (dict : Str → Option (List (Str × Val))) (meminfo : Option (List Str)) (used : Nat → Int) (rs : List Rec) (ds : List Str) : Option (List TRow) × List Nat :=
  memLoop dict (freeMemoryKb meminfo) used 0 1 true rs ds

end Trappy
