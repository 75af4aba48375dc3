import Verif.Prop.Events
import Verif.Prop.Exact8
/-!
# C46 and C51, exactly
-/

namespace Trappy
open Re Py

/-- **C46, exactly.** A `sys_enter` payload is decoded exactly if the number of the system call is not negative, and then to the printed numbers. For all numbers. -/
theorem C46_exact (nr a0 a1 a2 a3 a4 a5 : Int) (d : Dict Val) :
    sysEnterDict (sysEnterText (intDigits 10 nr) a0 a1 a2 a3 a4 a5) = some d ↔
      0 ≤ nr ∧ d = [(cs!"nr", .int nr), (cs!"arg0", .int a0), (cs!"arg1", .int a1), (cs!"arg2", .int a2), (cs!"arg3", .int a3), (cs!"arg4", .int a4), (cs!"arg5", .int a5)] := by
  by_cases h : 0 ≤ nr
  · obtain ⟨n, rfl⟩ := Int.eq_ofNat_of_zero_le h
    have := C46_sys_enter_partial n a0 a1 a2 a3 a4 a5 [] [] (by simp)
    rw [List.nil_append, List.append_nil] at this
    rw [this]
    constructor
    · intro e; exact ⟨h, (Option.some.inj e).symm⟩
    · rintro ⟨_, rfl⟩; rfl
  · have e : nr = -((nr.natAbs : Nat) : Int) := by omega
    have := C46_negative_number_refuted nr.natAbs a0 a1 a2 a3 a4 a5 (by omega)
    rw [← e] at this
    rw [this]
    simp [h]

example : sysEnterDict (sysEnterText (intDigits 10 (-1)) 1 2 3 4 5 6) = none ∧ (sysEnterDict (sysEnterText (intDigits 10 0) 1 2 3 4 5 6)).isSome = true := by decide +kernel

/-- **C51, exactly.** Loads of a table in which each cluster is labelled differently are normalised exactly if every labelled cluster occurs. -/
theorem C51_exact (order names : List Str) (rows : List LRow) (mapping : Dict Str) (lab : Str → Str)
    (hlen : ∀ r ∈ rows, r.vals.length = names.length) (hload : ∃ n ∈ names, cs!"load" <+: n)
    (hnd : (mapping.map Prod.fst).Nodup) (hmask : ∀ m ∈ mapping.map Prod.fst, ∃ v, Digits 16 (m.filter (· ≠ ',')) v)
    (ho : order.Nodup) (hmem : ∀ m, m ∈ order ↔ ∃ r ∈ rows, r.mask = m)
    (hlab : ∀ m ∈ order, mapping.get m = some (lab m)) (hinj : ∀ m ∈ order, ∀ m' ∈ order, lab m = lab m' → m = m')
    (hsort : (rows.map LRow.time).Pairwise (· ≤ ·)) (hdup : ∀ m, ((rows.filter fun r => r.mask = m).map LRow.time).Nodup) :
    (∃ T, getNormalizedLoadData order names rows mapping = .ok T) ↔ ∀ m ∈ mapping.map Prod.fst, ∃ r ∈ rows, r.mask = m := by
  constructor
  · rintro ⟨T, hT⟩ m hm
    by_contra hno
    have := C51_absent_refuted order names rows mapping hload m hm fun r hr e => hno ⟨r, hr, e⟩
    rw [this] at hT
    cases hT
  · intro hocc
    obtain ⟨T, h, _⟩ := C51_table_partial order names rows mapping lab hlen hload hnd hmask hocc ho hmem hlab hinj hsort hdup
    exact ⟨T, h⟩

/-- the same table with and without a label for a cluster that does not occur -/
example : (∃ T, getNormalizedLoadData [cs!"f0", cs!"03"] [cs!"load0", cs!"load1", cs!"dynamic_power"] exLoads [(cs!"03", cs!"A7"), (cs!"f0", cs!"A15")] = .ok T) ∧
    getNormalizedLoadData [cs!"f0", cs!"03"] [cs!"load0", cs!"load1", cs!"dynamic_power"] exLoads [(cs!"03", cs!"A7"), (cs!"f0", cs!"A15"), (cs!"0c", cs!"A53")] = .error .valueError :=
  ⟨⟨_, rfl⟩, C51_absent_cluster_refuted.1⟩

end Trappy
