import Verif.Prop.Wa
import Verif.Prop.Residency
import Mathlib.Data.List.Sort
import Mathlib.Tactic.Linarith
import Mathlib.Data.Rat.Floor
import Mathlib.Tactic.FieldSimp
import Mathlib.Data.List.Forall2
/-!
# Sysfs parameters and multi-run plots: theorems
-/

namespace Trappy
open Py Re

/-! ## C78: weights -/

/-- **Specification**: the file with the weight of a cooling device -/
def weightFile (i : Nat) : Str := cs!"cdev" ++ natStr i ++ cs!"_weight"

/-- **Specification**: a name that starts like the weight of a cooling device -/
def WeightName (p : Str) : Prop := ∃ ds rest, ds ≠ [] ∧ (∀ d ∈ ds, isDigit d = true) ∧ p = cs!"cdev" ++ ds ++ cs!"_weight" ++ rest

/-- a string of the form `prefix digits suffix …` matches -/
theorem match_numbered {a b : Str} (hb : ∀ c ∈ b.head?, isDigit c = false) (hbne : b ≠ []) (s : Str) :
    (matchPrefix (.seq (str a) (.seq (plus isDigit) (str b))) s).isSome ↔ ∃ ds rest, ds ≠ [] ∧ (∀ d ∈ ds, isDigit d = true) ∧ s = a ++ ds ++ b ++ rest := by
  constructor
  · intro h
    obtain ⟨r, h⟩ := Option.isSome_iff_exists.1 h
    obtain ⟨pre, post, _, e, hm, _⟩ := m_sound _ h
    obtain ⟨u, v, rfl, h1, h2⟩ := matches_seq hm
    obtain ⟨w, x, rfl, h3, h4⟩ := matches_seq h2
    obtain ⟨hne, hdig⟩ := matches_plus h3
    rw [matches_str h1, matches_str h4] at e
    exact ⟨w, post, hne, hdig, by rw [e]; simp⟩
  · rintro ⟨ds, rest, hne, hdig, rfl⟩
    unfold matchPrefix
    simp only [m]
    rw [show a ++ ds ++ b ++ rest = a ++ (ds ++ (b ++ rest)) by simp, m_str]
    rw [m_plus_max (v := ([], rest)) ds hne hdig]
    · rfl
    · intro y hy
      apply hb
      cases b with
      | nil => exact absurd rfl hbne
      | cons c b => exact hy
    · rw [m_str]

theorem search_numbered {a b : Str} (hb : ∀ c ∈ b.head?, isDigit c = false) (hbne : b ≠ []) (s : Str) :
    (search (.seq (str a) (.seq (plus isDigit) (str b))) s).isSome ↔ ∃ pre ds rest, ds ≠ [] ∧ (∀ d ∈ ds, isDigit d = true) ∧ s = pre ++ a ++ ds ++ b ++ rest := by
  constructor
  · intro h
    obtain ⟨r, h⟩ := Option.isSome_iff_exists.1 h
    obtain ⟨i, c, rest⟩ := r
    obtain ⟨pre, mid, e, _, hm, _⟩ := searchFrom_sound h
    obtain ⟨u, v, rfl, h1, h2⟩ := matches_seq hm
    obtain ⟨w, x, rfl, h3, h4⟩ := matches_seq h2
    obtain ⟨hne, hdig⟩ := matches_plus h3
    rw [matches_str h1, matches_str h4] at e
    exact ⟨pre, w, rest, hne, hdig, by rw [e]; simp⟩
  · rintro ⟨pre, ds, rest, hne, hdig, rfl⟩
    unfold search
    generalize 0 = n
    induction pre generalizing n with
    | nil =>
      obtain ⟨⟨c, r⟩, hr⟩ := Option.isSome_iff_exists.1 ((match_numbered (a := a) hb hbne (a ++ ds ++ b ++ rest)).2 ⟨ds, rest, hne, hdig, rfl⟩)
      rw [List.nil_append, searchFrom_hit n hr]
      rfl
    | cons x pre ih =>
      simp only [List.cons_append, searchFrom]
      split
      · rfl
      · exact ih (n + 1)

theorem weight_match (p : Str) : (matchPrefix weightRe p).isSome ↔ WeightName p := match_numbered (by decide) (by decide) p

theorem weightFile_name (i : Nat) : WeightName (weightFile i) := by
  refine ⟨natStr i, [], ?_, ?_, by simp [weightFile]⟩
  · unfold natStr; exact Nat.toDigits_ne_nil
  · exact fun d hd => natStr_digits hd

theorem weightFile_inj {i j : Nat} (h : weightFile i = weightFile j) : i = j := by
  unfold weightFile at h
  rw [List.append_left_inj, List.append_right_inj] at h
  exact natStr_inj h

theorem weightFile_sorted : ((List.range 10).map weightFile).Pairwise fun x y => strLt y x = false := by decide +kernel

/-- the files with weights, in the order of `sorted` -/
theorem weights_sorted {params : Dict Val} {n : Nat} (hnd : (params.map Prod.fst).Nodup)
    (hk : ∀ p, (p ∈ params.map Prod.fst ∧ WeightName p) ↔ ∃ i < n, p = weightFile i) :
    (((sortBy strLt (params.map Prod.fst)).filter fun p => (matchPrefix weightRe p).isSome) = (List.range n).map weightFile) ↔ n ≤ 10 := by
  have hasymm : ∀ a b : Str, strLt a b = true → strLt b a = false := by
    intro a b h
    rw [← Bool.not_eq_true, strLt_iff]
    rw [strLt_iff] at h
    exact List.not_lt.2 (List.le_of_lt h)
  have htrans : ∀ a b c : Str, strLt b a = false → strLt c b = false → strLt c a = false := by
    intro a b c h1 h2
    rw [← Bool.not_eq_true, strLt_iff, List.not_lt] at h1 h2 ⊢
    exact List.le_trans h1 h2
  have hs := sortBy_sorted hasymm htrans (params.map Prod.fst)
  have hsf := hs.sublist (List.filter_sublist (p := fun p => (matchPrefix weightRe p).isSome))
  constructor
  · intro h
    by_contra hn
    rw [h] at hsf
    have hsub : ([1, 10] : List Nat).Sublist (List.range n) := by
      have h11 : ([1, 10] : List Nat).Sublist (List.range 11) := by decide
      exact h11.trans (List.range_sublist.2 (by omega))
    have := hsf.sublist (hsub.map weightFile)
    revert this
    decide +kernel
  · intro hn
    have hp : ((sortBy strLt (params.map Prod.fst)).filter fun p => (matchPrefix weightRe p).isSome).Perm ((List.range n).map weightFile) := by
      rw [List.perm_ext_iff_of_nodup]
      · intro p
        rw [List.mem_filter, (sortBy_perm strLt _).mem_iff, weight_match, hk, List.mem_map]
        simp only [List.mem_range]
        constructor
        · rintro ⟨i, hi, rfl⟩; exact ⟨i, hi, rfl⟩
        · rintro ⟨i, hi, rfl⟩; exact ⟨i, hi, rfl⟩
      · exact ((sortBy_perm strLt _).nodup_iff.2 hnd).filter _
      · exact List.nodup_range.map fun i j h => weightFile_inj h
    have hs2 : ((List.range n).map weightFile).Pairwise fun x y => strLt y x = false :=
      weightFile_sorted.sublist ((List.range_sublist.2 hn).map weightFile)
    refine hp.eq_of_pairwise ?_ hsf hs2
    intro a b _ _ h1 h2
    rw [← Bool.not_eq_true, strLt_iff, List.not_lt] at h1 h2
    have := List.le_antisymm h1 h2
    unfold codes at this
    exact List.map_injective_iff.2 (fun x y h => Char.toNat_inj.1 h) this

/-- **C78 (partial).** With at most ten cooling devices, the i-th actor is paired with the weight of cooling device i, in whatever order the directory is listed. For all parameters and actors. -/
theorem C78_weights_partial {params : Dict Val} {n : Nat} {w : Nat → Val} (hnd : (params.map Prod.fst).Nodup)
    (hk : ∀ p, (p ∈ params.map Prod.fst ∧ WeightName p) ↔ ∃ i < n, p = weightFile i) (hw : ∀ i < n, params.get (weightFile i) = some (w i)) (hn : n ≤ 10) (actors : List Str) :
    (actorWeights actors params).length = min actors.length n ∧ ∀ (i : Nat) (a : Str), actors[i]? = some a → i < n → (actorWeights actors params)[i]? = some (a, w i) := by
  have h := (weights_sorted hnd hk).2 hn
  have e : sortedWeights params = (List.range n).map w := by
    unfold sortedWeights
    rw [h, List.filterMap_map]
    have : ∀ (l : List Nat), (∀ i ∈ l, i < n) → l.filterMap (fun x => params.get (weightFile x)) = l.map w := by
      intro l hl
      induction l with
      | nil => rfl
      | cons i l ih =>
        rw [List.filterMap_cons]
        simp only [hw i (hl i List.mem_cons_self), List.map_cons]
        rw [ih fun j hj => hl j (List.mem_cons_of_mem _ hj)]
    exact this _ fun i hi => List.mem_range.1 hi
  unfold actorWeights
  rw [e]
  constructor
  · simp
  · intro i a ha hi
    rw [List.getElem?_zip_eq_some]
    exact ⟨ha, by simp [hi]⟩

/-- **C78 (refuted).** With eleven or more cooling devices the weights are not in the order of the devices, whatever the order of the directory: the files are sorted as text and `cdev10_weight` comes
before `cdev1_weight`. -/
theorem C78_weights_refuted {params : Dict Val} {n : Nat} (hnd : (params.map Prod.fst).Nodup)
    (hk : ∀ p, (p ∈ params.map Prod.fst ∧ WeightName p) ↔ ∃ i < n, p = weightFile i) (hn : 10 < n) :
    ((sortBy strLt (params.map Prod.fst)).filter fun p => (matchPrefix weightRe p).isSome) ≠ (List.range n).map weightFile := fun h => by
  have := (weights_sorted hnd hk).1 h
  omega

/-- C78: two devices, listed in the other order -/
example : actorWeights [cs!"A7", cs!"A15", cs!"GPU"] [(cs!"cdev1_weight", .int 768), (cs!"k_po", .int 3), (cs!"cdev0_weight", .int 1024)] = [(cs!"A7", .int 1024), (cs!"A15", .int 768)] := by decide +kernel

/-- C78: eleven devices with weights 0 to 10: the second actor gets weight 10 -/
example : (actorWeights [cs!"a", cs!"b"] ((List.range 11).map fun i => (weightFile i, Val.int i))) = [(cs!"a", .int 0), (cs!"b", .int 10)] := by decide +kernel

/-! ## C81: temperature histograms -/

theorem temperatureHist_split (a b : List (Str × List Int)) (ha : ∀ r ∈ a, r.2 ≠ []) (hb : ∀ r ∈ b, r.2 = []) : temperatureHist (a ++ b) = some ((List.range a.length).zip a) := by
  have hf : ((a ++ b).filter fun r => decide (r.2 ≠ [])) = a := by
    rw [List.filter_append, List.filter_eq_self.2 (by simpa using ha), List.filter_eq_nil_iff.2 (by simpa using hb), List.append_nil]
  have hz : (List.range a.length).zip (a ++ b) = (List.range a.length).zip a := by
    have := List.zip_append (l₁ := List.range a.length) (r₁ := []) (l₂ := a) (r₂ := b) (by simp)
    simpa using this
  unfold temperatureHist
  simp only [hf, hz]
  rw [if_pos]
  rw [List.all_eq_true]
  rintro ⟨i, r⟩ hr
  simpa using ha r (List.of_mem_zip hr).2

/-- **C81 (partial).** If the runs without temperature data come last, each run with data is drawn once, on its own axis, in order, and no other run is drawn; otherwise the function raises. For all lists
of runs. -/
theorem C81_temperature_partial (runs : List (Str × List Int)) :
    (∀ a b, runs = a ++ b → (∀ r ∈ a, r.2 ≠ []) → (∀ r ∈ b, r.2 = []) → temperatureHist runs = some ((List.range a.length).zip a)) ∧
    (temperatureHist runs = none ↔ ∃ a x b y c, runs = a ++ x :: b ++ y :: c ∧ x.2 = [] ∧ y.2 ≠ []) := by
  constructor
  · rintro a b rfl ha hb
    exact temperatureHist_split a b ha hb
  · have hdec : (∃ a b, runs = a ++ b ∧ (∀ r ∈ a, r.2 ≠ []) ∧ (∀ r ∈ b, r.2 = [])) ∨ ∃ a x b y c, runs = a ++ x :: b ++ y :: c ∧ (∀ r ∈ a, r.2 ≠ []) ∧ x.2 = [] ∧ y.2 ≠ [] := by
      induction runs with
      | nil => exact Or.inl ⟨[], [], rfl, by simp, by simp⟩
      | cons r runs ih =>
        by_cases hr : r.2 = []
        · by_cases h : ∃ y ∈ runs, y.2 ≠ []
          · obtain ⟨y, hy, hy2⟩ := h
            obtain ⟨b, c, rfl⟩ := List.append_of_mem hy
            exact Or.inr ⟨[], r, b, y, c, by simp, by simp, hr, hy2⟩
          · refine Or.inl ⟨[], r :: runs, rfl, by simp, ?_⟩
            intro x hx
            rcases List.mem_cons.1 hx with rfl | hx
            · exact hr
            · by_contra hne
              exact h ⟨x, hx, hne⟩
        · rcases ih with ⟨a, b, rfl, h1, h2⟩ | ⟨a, x, b, y, c, rfl, h1, h2, h3⟩
          · refine Or.inl ⟨r :: a, b, rfl, ?_, h2⟩
            intro x hx
            rcases List.mem_cons.1 hx with rfl | hx
            · exact hr
            · exact h1 x hx
          · refine Or.inr ⟨r :: a, x, b, y, c, by simp, ?_, h2, h3⟩
            intro z hz
            rcases List.mem_cons.1 hz with rfl | hz
            · exact hr
            · exact h1 z hz
    constructor
    · intro h
      rcases hdec with ⟨a, b, rfl, ha, hb⟩ | ⟨a, x, b, y, c, rfl, _, hx, hy⟩
      · rw [temperatureHist_split a b ha hb] at h
        cases h
      · exact ⟨a, x, b, y, c, rfl, hx, hy⟩
    · rintro ⟨a0, x0, b0, y0, c0, e0, hx0, hy0⟩
      rcases hdec with ⟨a, b, rfl, ha, hb⟩ | ⟨a, x, b, y, c, rfl, ha, hx, hy⟩
      · exfalso
        -- the run without data is in `b`, so are all after it
        have key : ∀ (a b l r : List (Str × List Int)), a ++ b = l ++ x0 :: r → (∀ z ∈ a, z.2 ≠ []) → (∀ z ∈ b, z.2 = []) → ∀ z ∈ r, z.2 = [] := by
          intro a
          induction a with
          | nil =>
            rintro b l r e _ hb z hz
            rw [List.nil_append] at e
            exact hb z (by rw [e]; simp [hz])
          | cons w a ih =>
            intro b l r e ha hb
            cases l with
            | nil =>
              simp only [List.cons_append, List.nil_append, List.cons.injEq] at e
              exact absurd (e.1 ▸ hx0) (ha w List.mem_cons_self)
            | cons u l =>
              simp only [List.cons_append, List.cons.injEq] at e
              exact ih b l r e.2 (fun z hz => ha z (List.mem_cons_of_mem _ hz)) hb
        have := key a b a0 (b0 ++ y0 :: c0) (by rw [e0]; simp) ha hb y0 (by simp)
        exact hy0 this
      · unfold temperatureHist
        simp only
        rw [if_neg]
        intro hall
        rw [List.all_eq_true] at hall
        have hlen : a.length < ((a ++ x :: b ++ y :: c).filter fun r => decide (r.2 ≠ [])).length := by
          have h1 : (a.filter fun r => decide (r.2 ≠ [])) = a := List.filter_eq_self.2 (by simpa using ha)
          rw [List.append_assoc, List.filter_append, h1, List.length_append]
          have h2 : y ∈ (x :: b ++ y :: c).filter fun r => decide (r.2 ≠ []) := by
            rw [List.mem_filter]
            exact ⟨by simp, by simpa using hy⟩
          have := List.length_pos_of_mem h2
          omega
        have hmem : (a.length, x) ∈ (List.range ((a ++ x :: b ++ y :: c).filter fun r => decide (r.2 ≠ [])).length).zip (a ++ x :: b ++ y :: c) := by
          apply List.mem_of_getElem? (i := a.length)
          rw [List.getElem?_zip_eq_some]
          constructor
          · rw [List.getElem?_range hlen]
          · simp
        have := hall _ hmem
        simp [hx] at this

/-- **C81 (refuted).** A run without thermal events before one with them: nothing is drawn and a `KeyError` is raised. -/
theorem C81_temperature_refuted : temperatureHist [(cs!"idle", []), (cs!"busy", [45000, 46000])] = none := by decide +kernel

/-- C81: the run without data is the last -/
example : temperatureHist [(cs!"busy", [45000]), (cs!"hot", [50000]), (cs!"idle", [])] = some [(0, cs!"busy", [45000]), (1, cs!"hot", [50000])] := by decide +kernel

/-! ## C101: sysfs parameters -/

/-- **Specification**: a file whose value is read: one of seven names, a weight or a trip point -/
def SysfsName (listing : List Str) (p : Str) : Prop :=
  p ∈ [cs!"integral_cutoff", cs!"k_d", cs!"k_i", cs!"k_po", cs!"k_pu", cs!"policy", cs!"sustainable_power"] ∨
  (p ∈ listing ∧ ∃ pre ds rest, ds ≠ [] ∧ (∀ d ∈ ds, isDigit d = true) ∧ (p = pre ++ cs!"cdev" ++ ds ++ cs!"_weight" ++ rest ∨ p = pre ++ cs!"trip_point_" ++ ds ++ cs!"_temp" ++ rest))

/-- **Specification**: the value of a text: the integer it stands for, else the text -/
def SysfsText (text : Str) (v : Val) : Prop := (∃ i, SignedLit 10 (strip text) i ∧ v = .int i) ∨ ((¬ ∃ i, SignedLit 10 (strip text) i) ∧ v = .str text)

theorem sysfsProperties_mem (listing : List Str) (p : Str) : p ∈ sysfsProperties listing ↔ SysfsName listing p := by
  unfold sysfsProperties SysfsName
  rw [List.mem_append, List.mem_filter, Bool.or_eq_true]
  have h1 : (search weightRe p).isSome = true ↔ _ := search_numbered (a := cs!"cdev") (b := cs!"_weight") (by decide) (by decide) p
  have h2 : (search tripRe p).isSome = true ↔ _ := search_numbered (a := cs!"trip_point_") (b := cs!"_temp") (by decide) (by decide) p
  rw [h1, h2]
  constructor
  · rintro (h | ⟨h, ⟨pre, ds, rest, h3, h4, h5⟩ | ⟨pre, ds, rest, h3, h4, h5⟩⟩)
    · exact Or.inl h
    · exact Or.inr ⟨h, pre, ds, rest, h3, h4, Or.inl h5⟩
    · exact Or.inr ⟨h, pre, ds, rest, h3, h4, Or.inr h5⟩
  · rintro (h | ⟨h, pre, ds, rest, h3, h4, h5 | h5⟩)
    · exact Or.inl h
    · exact Or.inr ⟨h, Or.inl ⟨pre, ds, rest, h3, h4, h5⟩⟩
    · exact Or.inr ⟨h, Or.inr ⟨pre, ds, rest, h3, h4, h5⟩⟩

theorem sysfsValue_iff (text : Str) (v : Val) : sysfsValue (text ++ ['\n']) = v ↔ SysfsText text v := by
  unfold sysfsValue SysfsText
  rw [List.dropLast_concat]
  cases h : intB 10 text with
  | some i =>
    have h1 := intB_iff.1 h
    simp only
    constructor
    · rintro rfl
      exact Or.inl ⟨i, h1, rfl⟩
    · rintro (⟨j, hj, rfl⟩ | ⟨h2, _⟩)
      · rw [intB_iff.2 hj] at h
        cases h
        rfl
      · exact absurd ⟨i, h1⟩ h2
  | none =>
    have h1 : ¬ ∃ i, SignedLit 10 (strip text) i := by
      rintro ⟨i, hi⟩
      rw [intB_iff.2 hi] at h
      cases h
    simp only
    constructor
    · rintro rfl
      exact Or.inr ⟨h1, rfl⟩
    · rintro (⟨j, hj, rfl⟩ | ⟨_, rfl⟩)
      · exact absurd ⟨j, hj⟩ h1
      · rfl

theorem getParameters_get (files : Dict Str) (ps : List Str) (ret : Dict Val) (p : Str) :
    (getParameters files ps ret).get p = if p ∈ ps then (match files.get p with | some c => some (sysfsValue c) | none => ret.get p) else ret.get p := by
  induction ps generalizing ret with
  | nil => simp [getParameters]
  | cons q ps ih =>
    unfold getParameters
    cases hq : files.get q with
    | none =>
      simp only
      rw [ih]
      by_cases e : p = q
      · subst e
        simp [hq]
      · simp [e]
    | some c =>
      simp only
      rw [ih, Dict.get_set]
      by_cases e : p = q
      · subst e
        simp [hq]
      · simp [e, Ne.symm e]

/-- **C101 (partial).** If each file ends with a newline, the parameters are exactly those of the files with known names, each with the text of its file without the newline, as an integer if it is one.
For all directories. -/
theorem C101_parameters_partial (files : Dict Str) (listing : List Str) (hnl : ∀ p c, files.get p = some c → ∃ t, c = t ++ ['\n']) (p : Str) (v : Val) :
    (getParameters files (sysfsProperties listing) []).get p = some v ↔ SysfsName listing p ∧ ∃ text, files.get p = some (text ++ ['\n']) ∧ SysfsText text v := by
  rw [getParameters_get]
  by_cases hp : p ∈ sysfsProperties listing
  · rw [if_pos hp]
    have hp' := (sysfsProperties_mem listing p).1 hp
    cases hf : files.get p with
    | none => simp [Dict.get]
    | some c =>
      obtain ⟨t, rfl⟩ := hnl p c hf
      simp only [Option.some.injEq, sysfsValue_iff]
      constructor
      · intro h
        exact ⟨hp', t, rfl, h⟩
      · rintro ⟨_, t', e, h⟩
        rw [List.append_left_inj] at e
        rw [e]
        exact h
  · rw [if_neg hp]
    have hp' : ¬ SysfsName listing p := fun h => hp ((sysfsProperties_mem listing p).2 h)
    simp [Dict.get, hp']

/-- **C101 (refuted).** A file that does not end with a newline loses its last digit: `12` is read as 1. -/
theorem C101_parameters_refuted : (getParameters [(cs!"k_po", cs!"12")] (sysfsProperties [cs!"k_po"]) []).get cs!"k_po" = some (.int 1) := by decide +kernel

/-- C101: parameters of a directory -/
example : getParameters [(cs!"policy", cs!"step_wise\n"), (cs!"cdev0_weight", cs!"1024\n"), (cs!"mode", cs!"enabled\n"), (cs!"k_d", cs!"0\n")] (sysfsProperties [cs!"cdev0_weight", cs!"k_d", cs!"mode", cs!"policy"]) [] =
    [(cs!"k_d", .int 0), (cs!"policy", .str cs!"step_wise"), (cs!"cdev0_weight", .int 1024)] := by decide +kernel

/-! ## C103: weighted power -/

theorem dict_set_new {α : Type} {d : Dict α} {k : Str} {v : α} (h : k ∉ d.map Prod.fst) : d.set k v = d ++ [(k, v)] := by
  induction d with
  | nil => rfl
  | cons x d ih =>
    obtain ⟨k', v'⟩ := x
    simp only [List.map_cons, List.mem_cons, not_or] at h
    simp only [Dict.set, if_neg (Ne.symm h.1), ih h.2, List.cons_append]

theorem weighted_fold (l : List ((Str × List Int) × (Str × Int))) (d : Dict (List Rat)) (hnd : (l.map fun e => e.2.1).Nodup) (hd : ∀ e ∈ l, e.2.1 ∉ d.map Prod.fst) :
    l.foldl (fun d (e : (Str × List Int) × (Str × Int)) => d.set e.2.1 (e.1.2.map fun (x : Int) => (x : Rat) * (e.2.2 : Rat) / 1024)) d =
      d ++ l.map fun e => (e.2.1, e.1.2.map fun (x : Int) => (x : Rat) * (e.2.2 : Rat) / 1024) := by
  induction l generalizing d with
  | nil => simp
  | cons e l ih =>
    rw [List.foldl_cons, dict_set_new (hd e List.mem_cons_self), ih]
    · simp
    · exact (List.nodup_cons.1 hnd).2
    · intro x hx
      rw [List.map_append, List.mem_append]
      rintro (h | h)
      · exact hd x (List.mem_cons_of_mem _ hx) h
      · simp only [List.map_cons, List.map_nil, List.mem_singleton] at h
        exact (List.nodup_cons.1 hnd).1 (List.mem_map.2 ⟨x, hx, h⟩)

/-- **Specification**: a column of the requested power of an actor -/
def ReqPower (s : Str) : Prop := ∃ d rest, isDigit d = true ∧ s = cs!"req_power" ++ d :: rest

theorem reqPower_match (s : Str) : (matchPrefix reqPowerRe s).isSome ↔ ReqPower s := by
  constructor
  · intro h
    obtain ⟨r, h⟩ := Option.isSome_iff_exists.1 h
    obtain ⟨pre, post, _, e, hm, _⟩ := m_sound _ h
    obtain ⟨u, v, rfl, h1, h2⟩ := matches_seq hm
    obtain ⟨hne, hdig⟩ := matches_plus h2
    rw [matches_str h1] at e
    cases v with
    | nil => exact absurd rfl hne
    | cons d v => exact ⟨d, v ++ post, hdig d List.mem_cons_self, by rw [e]; simp⟩
  · rintro ⟨d, rest, hd, rfl⟩
    unfold matchPrefix reqPowerRe
    simp only [m]
    rw [m_str]
    have hsplit : d :: rest = (d :: rest.takeWhile isDigit) ++ rest.dropWhile isDigit := by
      rw [List.cons_append, List.takeWhile_append_dropWhile]
    rw [hsplit, m_plus_max (v := ([], rest.dropWhile isDigit))]
    · rfl
    · simp
    · intro y hy
      rcases List.mem_cons.1 hy with rfl | hy
      · exact hd
      · have hall := List.all_takeWhile (p := isDigit) (l := rest)
        rw [List.all_eq_true] at hall
        exact hall y hy
    · intro y hy
      cases h : rest.dropWhile isDigit with
      | nil => rw [h] at hy; cases hy
      | cons z zs =>
        rw [h] at hy
        simp only [List.head?_cons, Option.mem_def, Option.some.injEq] at hy
        subst hy
        have := List.head_dropWhile_not isDigit (w := by rw [h]; simp) (l := rest)
        simpa only [h, List.head_cons] using this
    · rfl

/-- **Specification**: the columns of requested power, in order -/
inductive ReqColumns : List (Str × List Int) → List (Str × List Int) → Prop where
  | nil : ReqColumns [] []
  | take {c cs r} (h : ReqPower c.1) (hs : ReqColumns cs r) : ReqColumns (c :: cs) (c :: r)
  | skip {c cs r} (h : ¬ ReqPower c.1) (hs : ReqColumns cs r) : ReqColumns (c :: cs) r

theorem reqColumns_filter (columns : List (Str × List Int)) (req : List (Str × List Int)) (h : ReqColumns columns req) : (columns.filter fun c => (matchPrefix reqPowerRe c.1).isSome) = req := by
  induction h with
  | nil => rfl
  | take h _ ih => rw [List.filter_cons, if_pos ((reqPower_match _).2 h), ih]
  | skip h _ ih => rw [List.filter_cons, if_neg (fun h' => h ((reqPower_match _).1 h')), ih]

/-- **C103 (partial).** If the actors have different names, the i-th of them is drawn with the i-th `req_power` column, each value times the weight of the actor over 1024, and nothing else is drawn. For
all tables and weights. -/
theorem C103_weighted_partial {columns req : List (Str × List Int)} {weights : List (Str × Int)} (hnd : (weights.map Prod.fst).Nodup) (hreq : ReqColumns columns req) :
    (weightedPower columns weights).length = min req.length weights.length ∧
    ∀ (i : Nat) (c : Str) (xs : List Int) (a : Str) (w : Int), req[i]? = some (c, xs) → weights[i]? = some (a, w) →
      (weightedPower columns weights)[i]? = some (a, xs.map fun (x : Int) => (x : Rat) * w / 1024) := by
  have hz : ((req.zip weights).map fun e => e.2.1).Nodup := by
    have e : ((req.zip weights).map fun e => e.2.1) = (((req.zip weights).map Prod.snd).map Prod.fst) := by simp [List.map_map, Function.comp_def]
    rw [e]
    refine hnd.sublist (List.Sublist.map _ ?_)
    have : ∀ (l : List (Str × List Int)) (r : List (Str × Int)), ((l.zip r).map Prod.snd).Sublist r := by
      intro l
      induction l with
      | nil => intro r; simp
      | cons x l ih =>
        intro r
        cases r with
        | nil => simp
        | cons y r => simpa using ih r
    exact this _ _
  have e : weightedPower columns weights = (req.zip weights).map fun e => (e.2.1, e.1.2.map fun (x : Int) => (x : Rat) * (e.2.2 : Rat) / 1024) := by
    unfold weightedPower
    rw [reqColumns_filter columns req hreq, weighted_fold _ [] hz (by simp)]
    rfl
  rw [e]
  constructor
  · simp
  · intro i c xs a w h1 h2
    rw [List.getElem?_map, List.getElem?_zip_eq_some (z := ((c, xs), (a, w))) |>.2 ⟨h1, h2⟩]
    rfl

/-- **C103 (refuted).** Two actors of the same name: the first is lost. -/
theorem C103_weighted_refuted : weightedPower [(cs!"req_power0", [1024]), (cs!"req_power1", [2048])] [(cs!"cpu", 1024), (cs!"cpu", 1024)] = [(cs!"cpu", [2048])] := by decide +kernel

/-- C103: two actors -/
example : weightedPower [(cs!"temp", [7]), (cs!"req_power0", [1024, 512]), (cs!"power_range", [9]), (cs!"req_power1", [100])] [(cs!"A7", 1024), (cs!"A15", 512)] =
    [(cs!"A7", [1024, 512]), (cs!"A15", [50])] := by decide +kernel

/-! ## C104: size of figures -/

/-- **C104 (partial).** Without a width and height a row of plots is 10 by 6; with both, as given; with the height only, the width is the height times the golden ratio; with the width only, the height is at
most the width over the ratio, but less by less than 1. The height of the figure is that of a row times the number of rows. -/
theorem C104_size_partial (w h : Rat) (nrows : Nat) :
    figureSize none none nrows = (10, 6 * (nrows : Rat)) ∧ figureSize (some w) (some h) nrows = (w, h * nrows) ∧
    (∃ x, figureSize none (some h) nrows = (x, h * nrows) ∧ x / goldenRatio = h) ∧
    (∃ y : Rat, figureSize (some w) none nrows = (w, y * nrows) ∧ y * goldenRatio ≤ w ∧ w < (y + 1) * goldenRatio) := by
  have hg : (0 : Rat) < goldenRatio := by decide +kernel
  refine ⟨rfl, rfl, ⟨h * goldenRatio, rfl, ?_⟩, ((w / goldenRatio).floor : Rat), rfl, ?_, ?_⟩
  · field_simp
  · rw [← le_div_iff₀ hg]
    exact Int.floor_le _
  · rw [← div_lt_iff₀ hg]
    exact Int.lt_floor_add_one _

/-- **C104 (refuted).** The height that goes with a width is rounded down, so it does not follow the golden ratio: 7 gives 4; and for a width of 1 the height is 0. -/
theorem C104_size_refuted : figureSize (some 7) none 1 = (7, 4) ∧ (4 : Rat) * goldenRatio ≠ 7 ∧ figureSize (some 1) none 1 = (1, 0) := by
  refine ⟨?_, ?_, ?_⟩ <;> decide +kernel

/-- C104: two rows of height 3 -/
example : figureSize none (some 3) 2 = (4854102 / 1000000, 6) := by decide +kernel

/-! ## C105: axes -/

theorem zipStar_grid (n : Nat) (rs : List Nat) (hne : rs ≠ []) : zipStar (rs.map fun r => (List.range n).map fun c => (r, c)) = (List.range n).map fun c => rs.map fun r => (r, c) := by
  induction rs with
  | nil => exact absurd rfl hne
  | cons r rs ih =>
    cases rs with
    | nil => simp [zipStar]
    | cons r' rs =>
      have := ih (by simp)
      rw [List.map_cons, List.map_cons]
      unfold zipStar
      rw [← List.map_cons (f := fun r => (List.range n).map fun c => (r, c)), this]
      apply List.ext_getElem
      · simp
      · intro i h1 h2
        simp

/-- **C105.** In the plots of several runs each run has a column of its own: the r-th plot of run c is in row r and column c. For all numbers of runs and of rows. -/
theorem C105_columns (nruns nrows : Nat) (hr : 0 < nruns) (hn : 0 < nrows) :
    (∃ L, allfreqsAxes nruns nrows = some L ∧ L.length = nruns ∧ ∀ (c : Nat), c < nruns → ∃ l, L[c]? = some l ∧ l.length = nrows ∧ ∀ r < nrows, l[r]? = some (r, c)) ∧
    (2 ≤ nrows → ∃ L, loadAxes nruns nrows = some L ∧ L.length = nruns ∧ ∀ (c : Nat), c < nruns → ∃ l, L[c]? = some l ∧ l.length = nrows ∧ ∀ r < nrows, l[r]? = some (r, c)) ∧
    (∃ L, rowAxes nruns = some L ∧ L.length = nruns ∧ ∀ c < nruns, L[c]? = some (0, c)) := by
  have hgrid : ∀ L, L = ((List.range nruns).map fun c => (List.range nrows).map fun r => (r, c)) →
      L.length = nruns ∧ ∀ (c : Nat), c < nruns → ∃ l, L[c]? = some l ∧ l.length = nrows ∧ ∀ r < nrows, l[r]? = some (r, c) := by
    rintro L rfl
    refine ⟨by simp, fun c hc => ⟨(List.range nrows).map fun r => (r, c), by simp [hc], by simp, fun r hr => by simp [hr]⟩⟩
  have hz : zipStar ((List.range nrows).map fun r => (List.range nruns).map fun c => (r, c)) = (List.range nruns).map fun c => (List.range nrows).map fun r => (r, c) :=
    zipStar_grid nruns (List.range nrows) (by simp; omega)
  refine ⟨?_, ?_, ?_⟩
  · refine ⟨_, ?_, hgrid _ rfl⟩
    unfold allfreqsAxes subplots
    by_cases h1 : nruns = 1
    · subst h1
      by_cases h2 : nrows = 1
      · subst h2
        rfl
      · simp [h2]
    · by_cases h2 : nrows = 1
      · subst h2
        simp [h1]
      · simp [h1, h2, hz]
  · intro h2
    have hn1 : nrows ≠ 1 := by omega
    refine ⟨_, ?_, hgrid _ rfl⟩
    unfold loadAxes subplots
    by_cases h1 : nruns = 1
    · subst h1
      simp [hn1]
    · simp [h1, hn1, hz]
  · refine ⟨(List.range nruns).map fun c => (0, c), ?_, by simp, fun c hc => by simp [hc]⟩
    unfold rowAxes subplots
    by_cases h1 : nruns = 1
    · subst h1
      rfl
    · simp [h1]

/-- C105: two runs with two plots each -/
example : allfreqsAxes 2 2 = some [[(0, 0), (1, 0)], [(0, 1), (1, 1)]] := by decide

/-! ## C106: frequency histograms -/

/-- **C106 (partial).** With enough axes, the histograms of output frequencies are on the first half of the axes and those of input frequencies on the second half, each with the frequencies of one actor,
in order; the titles of the former say so. For all tables. -/
theorem C106_histograms_partial {out inp : List (Str × List Int)} {ax : List Nat} (h1 : out.length ≤ ax.length / 2) (h2 : inp.length ≤ ax.length / 2) :
    (freqHists out inp ax).length = out.length + inp.length ∧
    (∀ (i : Nat) (a : Str) (xs : List Int), out[i]? = some (a, xs) → ∃ x, ax[i]? = some x ∧ (freqHists out inp ax)[i]? = some ⟨x, cs!"freq out " ++ a, xs⟩) ∧
    (∀ (i : Nat) (a : Str) (xs : List Int), inp[i]? = some (a, xs) → ∃ x t, ax[ax.length / 2 + i]? = some x ∧ (freqHists out inp ax)[out.length + i]? = some ⟨x, t, xs⟩) := by
  have hl : ∀ (w : Str) (l : List Nat) (t : List (Str × List Int)), t.length ≤ l.length → (freqHistsOf w l t).length = t.length := by
    intro w l t h
    unfold freqHistsOf
    simp [h]
  have ho : (freqHistsOf cs!"out" (ax.take (ax.length / 2)) out).length = out.length := hl _ _ _ (by simp; omega)
  have hi : (freqHistsOf cs!"out" (ax.drop (ax.length / 2)) inp).length = inp.length := hl _ _ _ (by simp; omega)
  refine ⟨?_, ?_, ?_⟩
  · simp only [freqHists, List.length_append, ho, hi]
  · intro i a xs h
    have hlt : i < out.length := (List.getElem?_eq_some_iff.1 h).1
    have hax : i < ax.length := by omega
    refine ⟨ax[i], by simp [hax], ?_⟩
    simp only [freqHists]
    rw [List.getElem?_append_left (by omega)]
    unfold freqHistsOf
    rw [List.getElem?_map, (List.getElem?_zip_eq_some (z := (ax[i], (a, xs)))).2 ⟨?_, h⟩]
    · rfl
    · rw [List.getElem?_take, if_pos (by omega)]
      simp [hax]
  · intro i a xs h
    have hlt : i < inp.length := (List.getElem?_eq_some_iff.1 h).1
    have hax : ax.length / 2 + i < ax.length := by omega
    refine ⟨ax[ax.length / 2 + i], cs!"freq out " ++ a, by simp [hax], ?_⟩
    simp only [freqHists]
    rw [List.getElem?_append_right (by omega), ho, Nat.add_sub_cancel_left]
    unfold freqHistsOf
    rw [List.getElem?_map, (List.getElem?_zip_eq_some (z := (ax[ax.length / 2 + i], (a, xs)))).2 ⟨?_, h⟩]
    · rfl
    · rw [List.getElem?_drop]
      simp [hax]

/-- **C106 (refuted).** The histograms of input frequencies are titled as output frequencies. -/
theorem C106_histograms_refuted : freqHists [(cs!"A7", [1000])] [(cs!"A7", [900])] [0, 1] = [⟨0, cs!"freq out A7", [1000]⟩, ⟨1, cs!"freq out A7", [900]⟩] := by decide +kernel

/-! ## C107: combined results -/

/-- **Specification**: a benchmark is in a result -/
def HasBench {ν : Type} (d : BenchDict ν) (b : Str) : Prop := ∃ t, (b, t) ∈ d

theorem hasBench_get {ν : Type} (d : BenchDict ν) (b : Str) : HasBench d b ↔ ∃ t, d.get b = some t := by
  have h := Dict.get_isSome d b
  constructor
  · rintro ⟨t, ht⟩
    exact Option.isSome_iff_exists.1 (h.2 (List.mem_map.2 ⟨_, ht, rfl⟩))
  · rintro ⟨t, ht⟩
    obtain ⟨⟨b', t'⟩, h1, rfl⟩ := List.mem_map.1 (h.1 (by rw [ht]; rfl))
    exact ⟨t', h1⟩

theorem benchColumns_some {ν : Type} (b : Str) (data : List (BenchDict ν)) (cols : List (Str × RunScores ν)) :
    benchColumns b data = some cols ↔ ∃ ts : List (Dict (RunScores ν)), List.Forall₂ (fun d t => d.get b = some t) data ts ∧ cols = ts.flatten := by
  induction data generalizing cols with
  | nil =>
    simp only [benchColumns, Option.some.injEq]
    constructor
    · rintro rfl
      exact ⟨[], .nil, rfl⟩
    · rintro ⟨ts, h, rfl⟩
      cases h
      rfl
  | cons d data ih =>
    unfold benchColumns
    constructor
    · intro h
      cases hd : d.get b with
      | none => rw [hd] at h; cases h
      | some t =>
        cases hr : benchColumns b data with
        | none => rw [hd, hr] at h; cases h
        | some cs =>
          rw [hd, hr] at h
          simp only [Option.some.injEq] at h
          obtain ⟨ts, h1, rfl⟩ := (ih cs).1 hr
          exact ⟨t :: ts, .cons hd h1, by simp [← h]⟩
    · rintro ⟨ts, h, rfl⟩
      cases h with
      | cons h1 h2 =>
        rename_i t ts
        rw [h1, (ih _).2 ⟨ts, h2, rfl⟩]
        simp

theorem combineLoop_some {ν : Type} (data : List (BenchDict ν)) (bs : List Str) (r : List (Str × List (Str × RunScores ν))) :
    combineLoop data bs = some r ↔ List.Forall₂ (fun b x => x.1 = b ∧ benchColumns b data = some x.2) bs r := by
  induction bs generalizing r with
  | nil =>
    simp only [combineLoop, Option.some.injEq]
    constructor
    · rintro rfl; exact .nil
    · intro h; cases h; rfl
  | cons b bs ih =>
    unfold combineLoop
    constructor
    · intro h
      cases hb : benchColumns b data with
      | none => rw [hb] at h; cases h
      | some c =>
        cases hr : combineLoop data bs with
        | none => rw [hb, hr] at h; cases h
        | some r' =>
          rw [hb, hr] at h
          simp only [Option.some.injEq] at h
          subst h
          exact .cons ⟨rfl, hb⟩ ((ih r').1 hr)
    · intro h
      cases h with
      | cons h1 h2 =>
        rename_i x r
        rw [h1.2, (ih r).2 h2]
        simp [← h1.1]

/-- **C107 (partial).** The combined result has the benchmarks of the first result, in order, each with the columns of all results side by side in order; it is computed exactly if there are benchmarks and
each of them is in all results. For all lists of results. -/
theorem C107_combine_partial {ν : Type} (d : BenchDict ν) (ds : List (BenchDict ν)) :
    (∀ r, combineResults (d :: ds) = some r → r.map Prod.fst = d.map Prod.fst ∧
      ∀ b cols, (b, cols) ∈ r → ∃ ts : List (Dict (RunScores ν)), List.Forall₂ (fun x t => x.get b = some t) (d :: ds) ts ∧ cols = ts.flatten) ∧
    ((∃ r, combineResults (d :: ds) = some r) ↔ d ≠ [] ∧ ∀ b, HasBench d b → ∀ x ∈ ds, HasBench x b) := by
  unfold combineResults
  simp only
  by_cases hd : d = []
  · subst hd
    simp
  · have hde : d.isEmpty = false := by simpa using hd
    simp only [hde, Bool.false_eq_true, if_false]
    constructor
    · intro r hr
      rw [combineLoop_some] at hr
      constructor
      · have : ∀ (bs : List Str) (r : List (Str × List (Str × RunScores ν))), List.Forall₂ (fun b x => x.1 = b ∧ benchColumns b (d :: ds) = some x.2) bs r → r.map Prod.fst = bs := by
          intro bs r h
          induction h with
          | nil => rfl
          | cons h _ ih => rw [List.map_cons, ih, h.1]
        exact this _ _ hr
      · intro b cols hb
        have : ∀ (bs : List Str) (r : List (Str × List (Str × RunScores ν))), List.Forall₂ (fun b x => x.1 = b ∧ benchColumns b (d :: ds) = some x.2) bs r →
            ∀ x ∈ r, benchColumns x.1 (d :: ds) = some x.2 := by
          intro bs r h
          induction h with
          | nil => simp
          | cons h _ ih =>
            intro x hx
            rcases List.mem_cons.1 hx with rfl | hx
            · rw [h.1]; exact h.2
            · exact ih x hx
        exact (benchColumns_some b _ cols).1 (this _ _ hr (b, cols) hb)
    · refine Iff.trans ?_ (b := ∀ b ∈ d.map Prod.fst, ∃ cols, benchColumns b (d :: ds) = some cols) ?_
      · constructor
        · rintro ⟨r, hr⟩ b hb
          rw [combineLoop_some] at hr
          have : ∀ (bs : List Str) (r : List (Str × List (Str × RunScores ν))), List.Forall₂ (fun b x => x.1 = b ∧ benchColumns b (d :: ds) = some x.2) bs r →
              ∀ b ∈ bs, ∃ cols, benchColumns b (d :: ds) = some cols := by
            intro bs r h
            induction h with
            | nil => simp
            | cons h _ ih =>
              intro x hx
              rcases List.mem_cons.1 hx with rfl | hx
              · exact ⟨_, h.2⟩
              · exact ih x hx
          exact this _ _ hr b hb
        · intro h
          have : ∀ (bs : List Str), (∀ b ∈ bs, ∃ cols, benchColumns b (d :: ds) = some cols) → ∃ r, combineLoop (d :: ds) bs = some r := by
            intro bs
            induction bs with
            | nil => intro _; exact ⟨[], rfl⟩
            | cons b bs ih =>
              intro h
              obtain ⟨c, hc⟩ := h b List.mem_cons_self
              obtain ⟨r, hr⟩ := ih fun x hx => h x (List.mem_cons_of_mem _ hx)
              exact ⟨(b, c) :: r, by simp only [combineLoop, hc, hr]⟩
          exact this _ h
      · have hcols : ∀ b, (∃ cols, benchColumns b (d :: ds) = some cols) ↔ ∀ x ∈ d :: ds, HasBench x b := by
          intro b
          generalize d :: ds = data
          induction data with
          | nil => simp [benchColumns]
          | cons y data ih =>
            rw [List.forall_mem_cons, ← ih, hasBench_get]
            rw [benchColumns]
            cases y.get b with
            | none => simp
            | some t =>
              cases benchColumns b data with
              | none => simp
              | some c => simp
        constructor
        · intro h
          refine ⟨hd, ?_⟩
          intro b hb x hx
          obtain ⟨t, ht⟩ := hb
          exact (hcols b).1 (h b (List.mem_map.2 ⟨_, ht, rfl⟩)) x (List.mem_cons_of_mem _ hx)
        · rintro ⟨_, h⟩ b hb
          rw [hcols]
          obtain ⟨⟨b', t⟩, ht, rfl⟩ := List.mem_map.1 hb
          intro x hx
          rcases List.mem_cons.1 hx with rfl | hx
          · exact ⟨t, ht⟩
          · exact h _ ⟨t, ht⟩ x hx

/-- **C107 (refuted).** A benchmark that is only in the second result is left out without notice; one that is only in the first is a `KeyError`. -/
theorem C107_combine_refuted :
    combineResults (ν := Nat) [[(cs!"geek", [(cs!"a", [(0, 1)])])], [(cs!"geek", [(cs!"b", [(0, 2)])]), (cs!"antutu", [(cs!"b", [(0, 3)])])]] = some [(cs!"geek", [(cs!"a", [(0, 1)]), (cs!"b", [(0, 2)])])] ∧
    combineResults [[(cs!"geek", [(cs!"b", [(0, 2)])]), (cs!"antutu", [(cs!"b", [(0, 3)])])], [(cs!"geek", [(cs!"a", [(0, 1)])])]] = (none : Option (List (Str × List (Str × RunScores Nat)))) := ⟨rfl, rfl⟩

/-! ## C140: limits of an axis -/

/-- **C140.** The limits given are set and the default changes nothing; `"range"` moves both limits outwards by a tenth of the distance, also on an axis that is drawn backwards: the middle stays, the
distance grows to 6/5, and what was between the limits still is. -/
theorem C140_limits (lo hi a b : Rat) :
    setLim (lo, hi) .default = (lo, hi) ∧ setLim (lo, hi) (.limits a b) = (a, b) ∧
    ∃ l h, setLim (lo, hi) .range = (l, h) ∧ l + h = lo + hi ∧ h - l = 6 / 5 * (hi - lo) ∧
      (∀ t, lo ≤ t → t ≤ hi → l ≤ t ∧ t ≤ h) ∧ (∀ t, hi ≤ t → t ≤ lo → h ≤ t ∧ t ≤ l) := by
  refine ⟨rfl, rfl, _, _, rfl, by ring, by ring, fun t h1 h2 => ⟨by linarith, by linarith⟩, fun t h1 h2 => ⟨by linarith, by linarith⟩⟩

example : setLim (0, 40) .range = (-4, 44) := by decide +kernel

end Trappy
