import Verif.Model.Power
import Verif.Spec.Data
/-!
# Specification of the power tables
-/

namespace Trappy

/-- `v` is the most recent value reported for the cluster at or before `t`; the rows are in the order of the trace. -/
def LastObs {α : Type} (rows : List (PRow α)) (mask : Str) (t : Nat) : Option α → Prop
  | none => ∀ r ∈ rows, r.mask = mask → r.time ≤ t → r.value = none
  | some x => ∃ pre r post, rows = pre ++ r :: post ∧ r.mask = mask ∧ r.time ≤ t ∧ r.value = some x ∧
      ∀ r' ∈ post, r'.mask = mask → r'.time ≤ t → r'.value = none

/-- the entries of a row in the columns whose names begin with `load` -/
def LRow.loads (names : List Str) (r : LRow) : List Rat :=
  ((names.zip r.vals).filter fun x => cs!"load".isPrefixOf x.1).map Prod.snd

/-- `f` is the highest frequency of the cluster. -/
def IsMaxFreq (rows : List LRow) (mask : Str) (f : Rat) : Prop :=
  (∃ r ∈ rows, r.mask = mask ∧ r.freq = f) ∧ ∀ r ∈ rows, r.mask = mask → r.freq ≤ f

/-- `n` is the number of cpus in the mask. -/
def IsCpuCount (mask : Str) (n : Nat) : Prop :=
  ∃ v, Digits 16 (mask.filter (· ≠ ',')) v ∧ ∃ l : List Nat, l.Nodup ∧ (∀ i, i ∈ l ↔ v.testBit i = true) ∧ n = l.length

end Trappy
