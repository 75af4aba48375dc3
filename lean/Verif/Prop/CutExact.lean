import Verif.Prop.Correlator
import Verif.Prop.Wa2
import Verif.Prop.Export
import Mathlib.Tactic.FieldSimp
/-!
# C84, C101, C102: exactly what is lost

The refutations of these properties give one case each; these theorems say for all inputs what comes out instead.
-/

namespace Trappy
open Py

/-! ## C84 -/

/-- **Specification**: the weights of the groups with a coefficient -/
def definedWeight (ws : List Nat) (cs : List (Option Rat)) : Nat := ((ws.zip cs).filterMap fun e => e.2.map fun _ => e.1).sum

/-- **C84 (exactly).** The total is the average over the groups with a coefficient exactly if the groups without one have no weight, or the average is zero. For all weights and coefficients. -/
theorem C84_exact_partial (ws : List Nat) (cs : List (Option Rat)) (hW : ws.sum ≠ 0) (hd : definedWeight ws cs ≠ 0) :
    corrTotal ws cs = some (weightedSum ws cs / definedWeight ws cs) ↔ definedWeight ws cs = ws.sum ∨ weightedSum ws cs = 0 := by
  rw [(C84_total ws cs hW).1, Option.some.injEq]
  have h1 : ((ws.sum : Nat) : Rat) ≠ 0 := by exact_mod_cast hW
  have h2 : ((definedWeight ws cs : Nat) : Rat) ≠ 0 := by exact_mod_cast hd
  rw [div_eq_div_iff h1 h2]
  constructor
  · intro h
    rcases mul_eq_mul_left_iff.1 h with h | h
    · exact Or.inl (by exact_mod_cast h)
    · exact Or.inr h
  · rintro (h | h)
    · rw [h]
    · rw [h]; simp

/-- both sides of `C84_exact_partial` hold, and both fail -/
example : corrTotal [2, 0, 2] [some (1/2), none, some 1] = some (3/4) ∧ definedWeight [2, 0, 2] [some (1/2), none, some 1] = 4 ∧
    corrTotal [2, 4, 2] [some (1/2), none, some 1] = some (3/8) ∧ definedWeight [2, 4, 2] [some (1/2), none, some 1] = 4 := by decide +kernel

/-! ## C101 -/

/-- **C101 (exactly).** The value of a parameter is that of its file without the last character, whatever that character is. For all directories. -/
theorem C101_cut (files : Dict Str) (listing : List Str) (p t : Str) (x : Char) (v : Val) (hf : files.get p = some (t ++ [x])) :
    (getParameters files (sysfsProperties listing) []).get p = some v ↔ SysfsName listing p ∧ SysfsText t v := by
  rw [getParameters_get, ← sysfsProperties_mem, ← sysfsValue_iff]
  by_cases hp : p ∈ sysfsProperties listing
  · rw [if_pos hp, hf]
    simp [hp, sysfsValue]
  · simp [hp, Dict.get]

/-- an empty file has the empty text as its value -/
theorem C101_empty (files : Dict Str) (listing : List Str) (p : Str) (v : Val) (hf : files.get p = some []) :
    (getParameters files (sysfsProperties listing) []).get p = some v ↔ SysfsName listing p ∧ v = .str [] := by
  rw [getParameters_get, ← sysfsProperties_mem]
  by_cases hp : p ∈ sysfsProperties listing
  · rw [if_pos hp, hf]
    have : sysfsValue [] = .str [] := by decide +kernel
    simp [hp, this, eq_comm]
  · simp [hp, Dict.get]

/-- **C101 (refuted, for all numbers).** A number of two or more digits that is not followed by anything is read as a tenth of it, rounded down; it is read right only if it is zero. -/
theorem C101_digits_refuted (files : Dict Str) (listing : List Str) (p s : Str) (c : Char) (n d : Nat) (hp : SysfsName listing p) (hs : Digits 10 s n) (hc : IsDigitOf 10 c d) (hf : files.get p = some (s ++ [c])) :
    SysfsText (s ++ [c]) (.int (n * 10 + d : Nat)) ∧ (getParameters files (sysfsProperties listing) []).get p = some (.int n) ∧ n = (n * 10 + d) / 10 ∧ (n = n * 10 + d ↔ n * 10 + d = 0) := by
  have hd : d < 10 := hc.1
  refine ⟨Or.inl ⟨_, ?_, rfl⟩, (C101_cut files listing p s c _ hf).2 ⟨hp, Or.inl ⟨_, ?_, rfl⟩⟩, by omega, by omega⟩
  · rw [strip_nospace (digits_nospace (hs.snoc hc))]
    exact .plain (.digits (hs.snoc hc))
  · rw [strip_nospace (digits_nospace hs)]
    exact .plain (.digits hs)

/-- C101: files of all kinds -/
example : getParameters [(cs!"k_po", cs!"1230"), (cs!"k_pu", cs!"45 "), (cs!"k_i", cs!"7"), (cs!"k_d", cs!""), (cs!"policy", cs!"step_wise")] (sysfsProperties []) [] =
    [(cs!"k_d", .str []), (cs!"k_i", .str []), (cs!"k_po", .int 123), (cs!"k_pu", .int 45), (cs!"policy", .str cs!"step_wis")] := by decide +kernel

/-! ## C102 -/

/-- **C102 (exactly).** The lines emitted for a script that is not empty are those of the script without its last character, whatever that character is. For all scripts. -/
theorem C102_exact {fs : Str → Option Str} {base l file t : Str} {x : Char} {before ps : List Str} (h : Piece fs base before l ps) (hi : Imports base l file) (hf : fs file = some (t ++ [x]))
    (hnew : ¬ ∃ b ∈ before, Imports base b file) : ps ≠ [] ∧ joinC '\n' ps = t ∧ ∀ l ∈ ps, '\n' ∉ l := by
  cases h with
  | script hi' hn hf' hls =>
    have := imports_unique hi hi'
    subst this
    rw [hf] at hf'
    cases hf'
    obtain ⟨h1, h2⟩ := hls
    have key : ∀ (init : List Str) (last : Str), joinC '\n' (init ++ [last]) = (init.map fun l => l ++ ['\n']).flatten ++ last := by
      intro init last
      induction init with
      | nil => rfl
      | cons a init ih =>
        cases init with
        | nil => simp [joinC]
        | cons b init =>
          simp only [List.cons_append, joinC] at ih ⊢
          rw [ih]
          simp
    rcases h2 with h2 | ⟨init, last, y, rfl, hy, e⟩
    · rcases List.eq_nil_or_concat ps with rfl | ⟨init, last, rfl⟩
      · simp at h2
      · rw [List.concat_eq_append] at h1 h2 ⊢
        rw [List.map_append, List.flatten_append, List.map_singleton, List.flatten_singleton, ← List.append_assoc] at h2
        have := List.append_inj' h2 rfl
        exact ⟨by simp, by rw [key, this.1], h1⟩
    · rw [← List.append_assoc] at e
      have := List.append_inj' e rfl
      exact ⟨by simp, by rw [key, this.1], h1⟩
  | again hi' hb hold => exact absurd ⟨_, hb, imports_unique hi' hi ▸ hold⟩ hnew
  | lib hl _ => exact (not_both hi hl).elim
  | libAgain hl _ _ => exact (not_both hi hl).elim
  | text h1 _ => exact absurd ⟨_, hi⟩ h1

/-- `C102_exact`: scripts with and without a newline at their end -/
example : exportAll (scriptFs cs!"a;\n\nb") cs!"/trappy" ⟨[], []⟩ [cs!"/* TRAPPY_PUBLISH_IMPORT = \"plotter/js/X.js\" */"] = some [cs!"a;\n\n"] ∧
    exportAll (scriptFs cs!"\n") cs!"/trappy" ⟨[], []⟩ [cs!"/* TRAPPY_PUBLISH_IMPORT = \"plotter/js/X.js\" */"] = some [cs!""] := by decide +kernel

end Trappy
