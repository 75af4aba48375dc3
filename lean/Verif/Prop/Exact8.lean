import Verif.Prop.Events
import Verif.Prop.Power
import Mathlib.Tactic.Common
/-!
# C51 and C54, exactly
-/

namespace Trappy
open Re Py

/-! ## C51 -/

theorem normLoop_absent (rows : List LRow) (ms : List Str) (acc : List Rat) (m : Str) (hm : m ∈ ms) (h : ∀ r ∈ rows, r.mask ≠ m) :
    normLoop rows ms acc = .error .valueError := by
  induction ms generalizing acc with
  | nil => simp at hm
  | cons x ms ih =>
    simp only [normLoop]
    split
    · rfl
    · split
      · rfl
      · rename_i mf hmf
        rcases List.mem_cons.mp hm with rfl | hm
        · have : (rows.filter fun r => r.mask = m) = [] := by
            rw [List.filter_eq_nil_iff]
            intro r hr
            simpa using h r hr
          rw [this] at hmf
          simp [maxOf] at hmf
        · exact ih _ hm

/-- **C51 refuted, for all tables**: whenever one of the labelled clusters has no row, the call raises `ValueError` and the loads of no
cluster are returned. -/
theorem C51_absent_refuted (order names : List Str) (rows : List LRow) (mapping : Dict Str) (hload : ∃ n ∈ names, cs!"load" <+: n)
    (m : Str) (hm : m ∈ mapping.map Prod.fst) (h : ∀ r ∈ rows, r.mask ≠ m) :
    getNormalizedLoadData order names rows mapping = .error .valueError := by
  have hl : ∃ l, loadSeries names rows = .ok l := by
    unfold loadSeries
    split
    · rename_i e
      exfalso
      obtain ⟨n, hn, hp⟩ := hload
      obtain ⟨i, hi, rfl⟩ := List.getElem_of_mem hn
      have : i ∈ loadCols names := by
        unfold loadCols
        rw [List.mem_filter]
        refine ⟨List.mem_range.mpr hi, ?_⟩
        rw [List.getElem?_eq_getElem hi]
        have : isLoadCol names[i] = true := by
          unfold isLoadCol
          exact List.isPrefixOf_iff_prefix.mpr hp
        simp [this]
      rw [e] at this
      simp at this
    · exact ⟨_, rfl⟩
  obtain ⟨l, hl⟩ := hl
  unfold getNormalizedLoadData normalizedSeries
  rw [hl]
  simp only [normLoop_absent rows _ _ m hm h]

/-- the hypotheses are met -/
example : (∃ n ∈ [cs!"load0", cs!"load1", cs!"dynamic_power"], cs!"load" <+: n) ∧ (∀ r ∈ exLoads, r.mask ≠ cs!"0c") :=
  ⟨⟨cs!"load0", by decide, by decide⟩, by decide +kernel⟩

/-! ## C54 -/

/-- a text with blanks in place of commas -/
def commaBlank (v : Str) : Str := v.map fun c => if c = ',' then ' ' else c

theorem commaBlank_eq {v : Str} (h : '=' ∉ v) : '=' ∉ commaBlank v := by
  intro hm
  obtain ⟨c, hc, e⟩ := List.mem_map.mp hm
  split at e
  · exact absurd e (by decide)
  · exact h (e ▸ hc)

theorem flatMap_commaBlank (v : Str) : ((commaBlank v).flatMap fun x => if x = ',' then cs!" " else [x]) =
    v.flatMap fun x => if x = ',' then cs!" " else [x] := by
  unfold commaBlank
  induction v with
  | nil => rfl
  | cons c v ih =>
    simp only [List.map_cons, List.flatMap_cons, ih]
    congr 1
    by_cases h : c = ','
    · subst h; rfl
    · simp [h]

theorem f2fsText1_comma (fs : List (Str × Str)) :
    replace cs!"," cs!" " (f2fsText1 (fs.map fun f => (f.1, commaBlank f.2))) = replace cs!"," cs!" " (f2fsText1 fs) := by
  rw [replace_char, replace_char]
  induction fs with
  | nil => rfl
  | cons f fs ih =>
    obtain ⟨n, v⟩ := f
    cases fs with
    | nil =>
      simp only [List.map_cons, List.map_nil, f2fsText1, List.flatMap_append, flatMap_commaBlank]
    | cons g gs =>
      rw [List.map_cons] at ih
      simp only [List.map_cons, f2fsText1, List.flatMap_append, flatMap_commaBlank, ih]

/-- **C54 refuted, for all payloads**: a comma in a value cannot be told from a blank: the record is the one of the payload with blanks
for the commas in the values. -/
theorem C54_commas_refuted (fs : List (Str × Str)) (h : ∀ f ∈ fs, f.1 ≠ [] ∧ Plain f.1 ∧ '=' ∉ f.2) :
    f2fsDict (f2fsText fs) = f2fsDict (f2fsText (fs.map fun f => (f.1, commaBlank f.2))) := by
  unfold f2fsDict
  rw [f2fs_words_step1 fs h, f2fs_words_step1 (fs.map fun f => (f.1, commaBlank f.2)), f2fsText1_comma]
  intro f hf
  obtain ⟨x, hx, rfl⟩ := List.mem_map.mp hf
  obtain ⟨h1, h2, h3⟩ := h x hx
  exact ⟨h1, h2, commaBlank_eq h3⟩

/-- **C54, exactly what is read** of values whose words are separated by single blanks or commas: the words with blanks between them.
So the text is read as written if and only if it has no comma and its first word is no number, of which only the number would be kept. -/
theorem C54_exact (fs : List Field) (val : Field → Val) (raw : Field → Str) (h : ∀ f ∈ fs, F2fsField f) (hk : (fs.map Field.key).Nodup)
    (hval : ∀ f ∈ fs, f.Means (val f)) (hraw : ∀ f ∈ fs, commaBlank (raw f) = f.valueText) :
    f2fsDict (f2fsText (fs.map fun f => (f.key, raw f))) = some (fs.map fun f => (f.key, val f)) ∧
      ∀ f ∈ fs, (val f = .str (raw f) ↔ ',' ∉ raw f ∧ ∀ i, ¬ IntLit f.first i) := by
  refine ⟨?_, ?_⟩
  · rw [C54_commas_refuted]
    · rw [← C54_f2fs_words_partial fs val h hk hval]
      congr 2
      unfold f2fsPairs
      rw [List.map_map]
      apply List.map_congr_left
      intro f hf
      simp only [Function.comp_apply, hraw f hf]
    · intro x hx
      obtain ⟨f, hf, rfl⟩ := List.mem_map.mp hx
      refine ⟨(h f hf).key.1, (h f hf).key.2, fun hm => (h f hf).value_eq ?_⟩
      rw [← hraw f hf]
      exact List.mem_map.mpr ⟨'=', hm, by decide⟩
  · intro f hf
    have hm := hval f hf
    generalize val f = v at hm
    cases hm with
    | int hi => exact ⟨fun e => absurd e (by simp), fun e => absurd hi (e.2 _)⟩
    | str hs =>
      have e : commaBlank (raw f) = joinC ' ' (f.first :: f.rest) := hraw f hf
      rw [← e, Val.str.injEq]
      constructor
      · intro e
        refine ⟨fun hm => ?_, hs⟩
        rw [← e] at hm
        obtain ⟨c, _, e⟩ := List.mem_map.mp hm
        split at e
        · exact absurd e (by decide)
        · contradiction
      · rintro ⟨hm, _⟩
        unfold commaBlank
        rw [List.map_congr_left (g := id), List.map_id]
        intro c hc
        have : c ≠ ',' := fun e => hm (e ▸ hc)
        simp [this]

/-- the hypotheses are met: a device number and an inode -/
example : f2fsDict cs!"dev = (254,0), ino = 5" = some [(cs!"dev", .str cs!"(254 0)"), (cs!"ino", .int 5)] := by
  have := (C54_exact [⟨cs!"dev", cs!"(254", [cs!"0)"]⟩, ⟨cs!"ino", cs!"5", []⟩]
    (fun f => if f.key = cs!"ino" then .int 5 else .str cs!"(254 0)") (fun f => if f.key = cs!"ino" then cs!"5" else cs!"(254,0)") ?_ ?_ ?_ ?_).1
  · exact this
  · intro f hf
    simp only [List.mem_cons, List.not_mem_nil, or_false] at hf
    rcases hf with rfl | rfl <;> exact ⟨by unfold Plain; decide, by unfold Plain; decide, by unfold Plain; decide⟩
  · decide
  · intro f hf
    simp only [List.mem_cons, List.not_mem_nil, or_false] at hf
    rcases hf with rfl | rfl
    · refine .str fun i hi => ?_
      have e : strip cs!"(254" = cs!"(254" := by decide +kernel
      have := int0_core.mpr (e.symm ▸ hi)
      exact absurd this (by rw [show int0 cs!"(254" = none by decide +kernel]; simp)
    · have := (int0_core (s := cs!"5")).mp (by decide +kernel : int0 cs!"5" = some 5)
      exact .int this
  · decide

end Trappy
