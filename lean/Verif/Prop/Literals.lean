import Verif.Model.Csv
import Verif.Model.Publish
import Mathlib.Tactic.Common

/-!
Literal texts of the code that other theorems use only through their names: the texts of a cached table that are missing
values, and the old name of d3 in published notebooks.
-/

namespace Trappy

open Py

theorem convertAll_nan {F : Type} {f : Str → Option (CsvCell F)} (hf : ∀ t, f t ≠ some .nan) :
    ∀ {ts : List Str} {cs : List (CsvCell F)}, convertAll f ts = some cs → ∀ i : Nat, cs[i]? = some CsvCell.nan ↔ ∃ t, ts[i]? = some t ∧ t ∈ naTexts
  | [], cs, h, i => by
    simp only [convertAll, Option.some.injEq] at h
    subst h
    simp
  | t :: ts, cs, h, i => by
    unfold convertAll at h
    split at h
    · rename_i c cs' h1 h2
      simp only [Option.some.injEq] at h
      subst h
      cases i with
      | zero =>
        by_cases ht : t ∈ naTexts
        · simp only [ht, if_true, Option.some.injEq] at h1
          subst h1
          simp [ht]
        · simp only [ht, if_false] at h1
          have : c ≠ .nan := fun e => hf t (e ▸ h1)
          simp [ht, this]
      | succ i => simpa using convertAll_nan hf h2 i
    · cases h

/-- **C39.**  A cell of a column that is read back is missing exactly if its text is one of these seventeen. -/
theorem C39_missing {F : Type} (ft : FloatText F) (ts : List Str) (i : Nat) :
    (inferColumn ft ts)[i]? = some .nan ↔ ∃ t, ts[i]? = some t ∧
      t ∈ [cs!"", cs!"#N/A", cs!"#N/A N/A", cs!"#NA", cs!"-1.#IND", cs!"-1.#QNAN", cs!"-NaN", cs!"-nan", cs!"1.#IND", cs!"1.#QNAN",
        cs!"N/A", cs!"NA", cs!"NULL", cs!"NaN", cs!"n/a", cs!"nan", cs!"null"] := by
  show _ ↔ ∃ t, ts[i]? = some t ∧ t ∈ naTexts
  have hint : ∀ t, (intCsv t).map (CsvCell.int (F := F)) ≠ some .nan := by intro t; cases intCsv t <;> simp
  have hfl : ∀ t, (ft.parse t).map CsvCell.float ≠ some .nan := by intro t; cases ft.parse t <;> simp
  have hbo : ∀ t, (boolCsv t).map (CsvCell.bool (F := F)) ≠ some .nan := by intro t; cases boolCsv t <;> simp
  have htext : (ts.map fun t => if t ∈ naTexts then (.nan : CsvCell F) else .str t)[i]? = some .nan ↔ ∃ t, ts[i]? = some t ∧ t ∈ naTexts := by
    rw [List.getElem?_map]
    cases ts[i]? with
    | none => simp
    | some t => by_cases ht : t ∈ naTexts <;> simp [ht]
  unfold inferColumn
  simp only
  split
  · rename_i hall
    rw [List.getElem?_map]
    cases hi : ts[i]? with
    | none => simp
    | some t =>
      have := List.all_eq_true.mp hall t (List.mem_of_getElem? hi)
      simpa using this
  · split
    · rename_i cs hc
      split
      · cases hd : convertAll (fun t => (ft.parse t).map CsvCell.float) ts with
        | none => exact htext
        | some ds => exact convertAll_nan hfl hd i
      · split
        · exact convertAll_nan hint hc i
        · exact htext
    · split
      · rename_i cs hc
        exact convertAll_nan hfl hc i
      · split
        · rename_i cs hc
          exact convertAll_nan hbo hc i
        · exact htext

example : (inferColumn (F := Nat) ⟨fun _ => [], fun _ => none⟩ [cs!"a", cs!"1.#QNAN", cs!"1.#QNA"])[1]? = some .nan ∧
    (inferColumn (F := Nat) ⟨fun _ => [], fun _ => none⟩ [cs!"a", cs!"1.#QNAN", cs!"1.#QNA"])[2]? ≠ some .nan := by
  rw [Ne, C39_missing, C39_missing]
  decide +kernel

/-- **C143.**  A notebook with the old name of d3 gets the address of d3 (publish_interactive_plots.py:44-64). -/
theorem C143_old_d3 (v4 : Bool) :
    changeResourcePaths v4 (cs!"'" ++ (if v4 then cs!"/nbextensions" else cs!"/static") ++ cs!"/plotter_scripts/EventPlot/d3.v3.min'") =
      cs!"'https://cdnjs.cloudflare.com/ajax/libs/d3/3.5.6/d3.min.js'" := by
  cases v4 <;> decide +kernel

example : changeResourcePaths true cs!"'/nbextensions/plotter_scripts/EventPlot/d3.v3.min'" ≠ cs!"'/nbextensions/plotter_scripts/EventPlot/d3.v3.min'" := by
  decide +kernel

end Trappy
