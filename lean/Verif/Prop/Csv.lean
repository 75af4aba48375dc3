import Verif.Model.Csv
import Verif.Lemma.Data
import Verif.Lemma.Array
import Verif.Lemma.CacheEnv
import Verif.Lemma.Events
import Mathlib.Data.List.Basic
/-!
# C39: cached tables
-/

namespace Trappy
open Py

/-! ## The text of a table -/

theorem tok_plain {w : Str} {f : Str} {r : List Str} {s : Str} (h : w.any csvSpecial = false) : csvTok .plain f r (w ++ s) = csvTok .plain (f ++ w) r s := by
  induction w generalizing f with
  | nil => simp
  | cons c w ih =>
    simp only [List.any_cons, Bool.or_eq_false_iff] at h
    obtain ⟨hc, hw⟩ := h
    simp only [csvSpecial, Bool.or_eq_false_iff, beq_eq_false_iff_ne] at hc
    rw [List.cons_append, csvTok.eq_def]
    simp only [hc.2, hc.1.1, if_false]
    rw [ih hw]
    simp

theorem tok_quoted {w : Str} {f : Str} {r : List Str} {s : Str} : csvTok .quoted f r (csvEscape w ++ s) = csvTok .quoted (f ++ w) r s := by
  induction w generalizing f with
  | nil => simp [csvEscape]
  | cons c w ih =>
    unfold csvEscape
    by_cases hc : c = '"'
    · subst hc
      simp only [if_true, List.cons_append]
      rw [csvTok.eq_def]
      simp only [if_true]
      rw [csvTok.eq_def]
      simp only [if_true]
      rw [ih]
      simp
    · simp only [if_neg hc, List.cons_append]
      rw [csvTok.eq_def]
      simp only [if_neg hc]
      rw [ih]
      simp

/-- a field and the comma after it -/
theorem tok_field_comma {w : Str} {r : List Str} {s : Str} : csvTok .startField [] r (csvField w ++ ',' :: s) = csvTok .startField [] (r ++ [w]) s := by
  unfold csvField
  by_cases h : w.any csvSpecial = true
  · rw [if_pos h, List.cons_append, csvTok.eq_def]
    simp only [show ('"' : Char) ≠ '\n' by decide, if_false, if_true]
    rw [List.append_assoc, tok_quoted, List.nil_append]
    rw [show ['"'] ++ ',' :: s = '"' :: ',' :: s from rfl, csvTok.eq_def]
    simp only [if_true]
    rw [csvTok.eq_def]
    simp [show (',' : Char) ≠ '"' by decide, show (',' : Char) ≠ '\n' by decide]
  · rw [if_neg h]
    rw [Bool.not_eq_true] at h
    cases w with
    | nil =>
      rw [List.nil_append, csvTok.eq_def]
      simp [show (',' : Char) ≠ '"' by decide, show (',' : Char) ≠ '\n' by decide]
    | cons c w =>
      have h' := h
      simp only [List.any_cons, Bool.or_eq_false_iff] at h
      obtain ⟨hc, hw⟩ := h
      simp only [csvSpecial, Bool.or_eq_false_iff, beq_eq_false_iff_ne] at hc
      rw [List.cons_append, csvTok.eq_def]
      simp only [hc.2, hc.1.1, hc.1.2, if_false]
      rw [tok_plain hw, csvTok.eq_def]
      simp [show (',' : Char) ≠ '\n' by decide]

/-- the last field of a row -/
theorem tok_field_nl {w : Str} {r : List Str} {s : Str} : csvTok .startField [] r (csvField w ++ '\n' :: s) = (csvTok .startRow [] [] s).map fun rs => (r ++ [w]) :: rs := by
  unfold csvField
  by_cases h : w.any csvSpecial = true
  · rw [if_pos h, List.cons_append, csvTok.eq_def]
    simp only [show ('"' : Char) ≠ '\n' by decide, if_false, if_true]
    rw [List.append_assoc, tok_quoted, List.nil_append]
    rw [show ['"'] ++ '\n' :: s = '"' :: '\n' :: s from rfl, csvTok.eq_def]
    simp only [if_true]
    rw [csvTok.eq_def]
    simp [show ('\n' : Char) ≠ '"' by decide]
  · rw [if_neg h]
    rw [Bool.not_eq_true] at h
    cases w with
    | nil =>
      rw [List.nil_append, csvTok.eq_def]
      simp
    | cons c w =>
      simp only [List.any_cons, Bool.or_eq_false_iff] at h
      obtain ⟨hc, hw⟩ := h
      simp only [csvSpecial, Bool.or_eq_false_iff, beq_eq_false_iff_ne] at hc
      rw [List.cons_append, csvTok.eq_def]
      simp only [hc.2, hc.1.1, hc.1.2, if_false]
      rw [tok_plain hw, csvTok.eq_def]
      simp

/-- the rest of a row -/
theorem tok_fields {ws : List Str} {r : List Str} {s : Str} (hne : ws ≠ []) :
    csvTok .startField [] r (joinC ',' (ws.map csvField) ++ '\n' :: s) = (csvTok .startRow [] [] s).map fun rs => (r ++ ws) :: rs := by
  induction ws generalizing r with
  | nil => exact absurd rfl hne
  | cons w ws ih =>
    cases ws with
    | nil =>
      simp only [List.map_cons, List.map_nil, joinC]
      exact tok_field_nl
    | cons w' ws =>
      simp only [List.map_cons, joinC, List.append_assoc, List.cons_append] at ih ⊢
      rw [tok_field_comma, ih (by simp)]
      simp

/-- at the start of a row that does not begin with an empty field -/
theorem tok_start {w : Str} {s : Str} (hw : w ≠ []) : csvTok .startRow [] [] (csvField w ++ s) = csvTok .startField [] [] (csvField w ++ s) := by
  have hf : ∃ c t, csvField w = c :: t ∧ c ≠ '\n' ∧ c ≠ ',' := by
    unfold csvField
    by_cases h : w.any csvSpecial = true
    · rw [if_pos h]
      exact ⟨'"', _, rfl, by decide, by decide⟩
    · rw [if_neg h]
      cases w with
      | nil => exact absurd rfl hw
      | cons c w =>
        rw [Bool.not_eq_true] at h
        simp only [List.any_cons, Bool.or_eq_false_iff, csvSpecial, beq_eq_false_iff_ne] at h
        exact ⟨c, w, rfl, h.1.2, h.1.1.1⟩
  obtain ⟨c, t, e, h1, h2⟩ := hf
  rw [e, List.cons_append, csvTok.eq_def, csvTok.eq_def]
  simp only [if_neg h1, if_neg h2]

/-- **C39 (text).** The fields of a table survive being written and read, whatever characters they contain, if no row is empty or begins with an empty field. For all tables. -/
theorem C39_text {rows : List (List Str)} (h : ∀ r ∈ rows, ∃ w ws, r = w :: ws ∧ w ≠ []) : csvTok .startRow [] [] (csvText rows) = some rows := by
  induction rows with
  | nil => rfl
  | cons r rows ih =>
    obtain ⟨w, ws, rfl, hw⟩ := h r List.mem_cons_self
    have ih := ih fun x hx => h x (List.mem_cons_of_mem _ hx)
    have e : csvText ((w :: ws) :: rows) = joinC ',' ((w :: ws).map csvField) ++ '\n' :: csvText rows := by
      simp [csvText, csvRow]
    have e2 : ∃ t, joinC ',' ((w :: ws).map csvField) = csvField w ++ t := by
      cases ws with
      | nil => exact ⟨[], by simp [joinC]⟩
      | cons v ws => exact ⟨_, rfl⟩
    obtain ⟨t, e2⟩ := e2
    rw [e, e2, List.append_assoc, tok_start hw, ← List.append_assoc, ← e2, tok_fields (by simp), ih]
    rfl

/-! ## Columns -/

/-- **Specification**: what is assumed of floats: they are read as written, their texts are neither integers nor NaN, integers can be read as floats, and the words for booleans cannot -/
structure FloatOk {F : Type} (ft : FloatText F) : Prop where
  back : ∀ x, ft.parse (ft.repr x) = some x
  notInt : ∀ x, intCsv (ft.repr x) = none
  notNa : ∀ x, ft.repr x ∉ naTexts
  int : ∀ s, intCsv s ≠ none → ft.parse s ≠ none
  bool : ft.parse cs!"True" = none ∧ ft.parse cs!"False" = none

/-- **Specification**: a column that survives: integers of 64 bits; floats and NaN; only NaN; booleans and NaN; texts and NaN, none of the texts one that stands for NaN, and not all of them integers, nor all floats,
nor all booleans; or texts that are all integers, one of them beyond 64 bits -/
def ColumnOk {F : Type} (ft : FloatText F) (col : List (CsvCell F)) : Prop :=
  (∀ c ∈ col, ∃ i : Int, c = .int i ∧ -2 ^ 63 ≤ i ∧ i < 2 ^ 63) ∨
  ((∀ c ∈ col, c = .nan ∨ ∃ x, c = .float x) ∧ ∃ x, .float x ∈ col) ∨
  (∀ c ∈ col, c = .nan) ∨
  ((∀ c ∈ col, c = .nan ∨ ∃ s, c = .str s ∧ s ∉ naTexts) ∧ (∃ s, .str s ∈ col ∧ intCsv s = none) ∧ (∃ s, .str s ∈ col ∧ ft.parse s = none) ∧ ∃ s, .str s ∈ col ∧ boolCsv s = none) ∨
  ((∀ c ∈ col, c = .nan ∨ ∃ b, c = .bool b) ∧ ∃ b, .bool b ∈ col) ∨
  ((∀ c ∈ col, ∃ s i, c = .str s ∧ s ∉ naTexts ∧ intCsv s = some i) ∧ ∃ s i, .str s ∈ col ∧ intCsv s = some i ∧ ¬ (-2 ^ 63 ≤ i ∧ i < 2 ^ 63))

theorem convertAll_some {F : Type} {f : Str → Option (CsvCell F)} {g : CsvCell F → Str} {col : List (CsvCell F)}
    (h : ∀ c ∈ col, (g c ∈ naTexts ∧ c = .nan) ∨ (g c ∉ naTexts ∧ f (g c) = some c)) : convertAll f (col.map g) = some col := by
  induction col with
  | nil => rfl
  | cons c col ih =>
    rw [List.map_cons, convertAll, ih fun x hx => h x (List.mem_cons_of_mem _ hx)]
    rcases h c List.mem_cons_self with ⟨h1, h2⟩ | ⟨h1, h2⟩
    · rw [if_pos h1, h2]
    · rw [if_neg h1, h2]

theorem convertAll_none {F : Type} {f : Str → Option (CsvCell F)} {ts : List Str} {t : Str} (ht : t ∈ ts) (hn : t ∉ naTexts) (hf : f t = none) : convertAll f ts = none := by
  induction ts with
  | nil => cases ht
  | cons u ts ih =>
    rw [convertAll]
    rcases List.mem_cons.1 ht with rfl | ht
    · rw [if_neg hn, hf]
    · rw [ih ht]
      split <;> simp_all

theorem nat_all_digits (n : Nat) : natStr n ≠ [] ∧ (natStr n).all isDigit = true := by
  refine ⟨?_, ?_⟩
  · unfold natStr
    exact Nat.toDigits_ne_nil
  · rw [List.all_eq_true]
    exact fun c hc => natStr_digits hc

/-- **Specification**: a number as it is usually written: no leading zeros, no sign but a minus, and none before zero -/
def UsualDecimal (s : Str) : Prop :=
  s = cs!"0" ∨ ∃ d ds, d ∈ ['1', '2', '3', '4', '5', '6', '7', '8', '9'] ∧ (∀ c ∈ ds, Py.isDigit c = true) ∧ (s = d :: ds ∨ s = '-' :: d :: ds)

theorem natStr_head (n : Nat) (h : 0 < n) : ∃ d ds, d ∈ ['1', '2', '3', '4', '5', '6', '7', '8', '9'] ∧ (∀ c ∈ ds, Py.isDigit c = true) ∧ Py.natStr n = d :: ds := by
  have key : ∃ d ds, d ∈ ['1', '2', '3', '4', '5', '6', '7', '8', '9'] ∧ Py.natStr n = d :: ds := by
    unfold Py.natStr
    induction n using Nat.strong_induction_on with
    | _ n ih =>
      rw [Nat.toDigits_eq_if (by decide)]
      split
      · refine ⟨_, _, ?_, rfl⟩
        next h10 => exact (by decide : ∀ m, m < 10 → 0 < m → Nat.digitChar m ∈ ['1', '2', '3', '4', '5', '6', '7', '8', '9']) n h10 h
      · obtain ⟨d, ds, h1, h2⟩ := ih (n / 10) (by omega) (by omega)
        rw [h2]
        exact ⟨d, _, h1, rfl⟩
  obtain ⟨d, ds, h1, h2⟩ := key
  refine ⟨d, ds, h1, ?_, h2⟩
  have := (nat_all_digits n).2
  rw [List.all_eq_true, h2] at this
  exact fun c hc => this c (by simp [hc])

/-- **C13.** An integer is printed as it is usually written, with a minus exactly if it is negative. -/
theorem C13_decimal_usual (i : Int) : UsualDecimal (Py.intStr i) ∧ ((Py.intStr i).head? = some '-' ↔ i < 0) := by
  unfold Py.intStr
  split
  · next h =>
    obtain ⟨d, ds, h1, h2, h3⟩ := natStr_head i.natAbs (by omega)
    refine ⟨.inr ⟨d, ds, h1, h2, .inr (by rw [h3])⟩, by simpa using h⟩
  · next h =>
    by_cases h0 : i = 0
    · subst h0
      exact ⟨.inl (by decide), by decide⟩
    · obtain ⟨d, ds, h1, h2, h3⟩ := natStr_head i.natAbs (by omega)
      refine ⟨.inr ⟨d, ds, h1, h2, .inl h3⟩, ?_⟩
      rw [h3]
      simp only [List.head?_cons, Option.some.injEq]
      constructor
      · rintro rfl
        exact absurd h1 (by decide)
      · intro hi; exact absurd hi h

example : Py.intStr 0 = cs!"0" ∧ Py.intStr (-120) = cs!"-120" ∧ UsualDecimal cs!"-120" ∧ ¬ UsualDecimal cs!"-0" := by
  refine ⟨by decide, by decide, .inr ⟨'1', cs!"20", by decide, by decide, .inr rfl⟩, ?_⟩
  rintro (h | ⟨d, ds, h1, _, h | h⟩)
  · exact absurd h (by decide)
  · rw [← (List.cons.inj h).1] at h1
    exact absurd h1 (by decide)
  · rw [← (List.cons.inj (List.cons.inj h).2).1] at h1
    exact absurd h1 (by decide)

theorem digit_nospace {c : Char} (h : isDigit c = true) : isSpace c = false := by
  unfold isDigit at h
  simp only [Bool.and_eq_true, decide_eq_true_eq] at h
  unfold isSpace
  simp
  omega

theorem intCsv_intStr (i : Int) : intCsv (intStr i) = some i := by
  have hd := nat_all_digits i.natAbs
  have hdig : ∀ c ∈ natStr i.natAbs, isDigit c = true := by
    have := hd.2
    rwa [List.all_eq_true] at this
  unfold intCsv intStr
  by_cases hi : i < 0
  · rw [if_pos hi, strip_nospace]
    · simp only
      rw [if_pos hd, natVal_natStr]
      congr 1
      omega
    · intro c hc
      rcases List.mem_cons.1 hc with rfl | hc
      · decide
      · exact digit_nospace (hdig c hc)
  · rw [if_neg hi, strip_nospace fun c hc => digit_nospace (hdig c hc)]
    have hne := hd.1
    cases hn : natStr i.natAbs with
    | nil => exact absurd hn hne
    | cons c ds =>
      have hc : isDigit c = true := hdig c (by rw [hn]; simp)
      have h1 : c ≠ '-' := by rintro rfl; revert hc; decide
      have h2 : c ≠ '+' := by rintro rfl; revert hc; decide
      split
      · next heq => simp only [List.cons.injEq] at heq; exact absurd heq.1 h1
      · next heq => simp only [List.cons.injEq] at heq; exact absurd heq.1 h2
      · rw [← hn, if_pos hd, natVal_natStr]
        simp
        omega

theorem intStr_notNa (i : Int) : intStr i ∉ naTexts := by
  intro h
  have hall : ∀ t ∈ naTexts, intCsv t = none := by decide +kernel
  have := hall _ h
  rw [intCsv_intStr] at this
  cases this

theorem infer_ok {F : Type} {ft : FloatText F} (hft : FloatOk ft) {col : List (CsvCell F)} (h : ColumnOk ft col) : inferColumn ft (col.map (cellText ft)) = col := by
  have hnil : ([] : Str) ∈ naTexts := by simp [naTexts]
  rcases h with h | ⟨h, x, hx⟩ | h | ⟨h, ⟨s1, hs1, hi⟩, ⟨s2, hs2, hfl⟩, s3, hs3, hb⟩ | ⟨h, b, hb⟩ | ⟨h, s, i, hs, hsi, hi⟩
  · -- integers
    unfold inferColumn
    simp only
    cases col with
    | nil => rfl
    | cons c col =>
      have hna : ∀ x ∈ c :: col, cellText ft x ∉ naTexts := by
        intro x hx
        obtain ⟨i, rfl, _⟩ := h x hx
        exact intStr_notNa i
      have h1 : ¬ (((c :: col).map (cellText ft)).all fun t => decide (t ∈ naTexts)) = true := by
        rw [List.all_eq_true]
        intro hall
        exact hna c List.mem_cons_self (by simpa using hall _ (List.mem_map.2 ⟨c, List.mem_cons_self, rfl⟩))
      rw [if_neg h1, convertAll_some (col := c :: col)]
      · simp only
        have h2 : ¬ (((c :: col).map (cellText ft)).any fun t => decide (t ∈ naTexts)) = true := by
          rw [List.any_eq_true]
          rintro ⟨t, ht, hd⟩
          obtain ⟨x, hx, rfl⟩ := List.mem_map.1 ht
          exact hna x hx (by simpa using hd)
        rw [if_neg h2, if_pos]
        rw [List.all_eq_true]
        intro t ht
        obtain ⟨x, hx, rfl⟩ := List.mem_map.1 ht
        obtain ⟨i, rfl, hi⟩ := h x hx
        simp only [cellText, intCsv_intStr, Option.any_some, isInt64, Bool.and_eq_true, decide_eq_true_eq]
        exact hi
      · intro x hx
        right
        refine ⟨hna x hx, ?_⟩
        obtain ⟨i, rfl, _⟩ := h x hx
        simp [cellText, intCsv_intStr]
  · -- floats
    unfold inferColumn
    simp only
    have hmem : ft.repr x ∈ col.map (cellText ft) := List.mem_map.2 ⟨_, hx, rfl⟩
    rw [if_neg, convertAll_none hmem (hft.notNa x) (by rw [hft.notInt]; rfl)]
    · simp only
      rw [convertAll_some (col := col)]
      intro c hc
      rcases h c hc with rfl | ⟨y, rfl⟩
      · exact Or.inl ⟨hnil, rfl⟩
      · exact Or.inr ⟨hft.notNa y, by simp [cellText, hft.back]⟩
    · rw [List.all_eq_true]
      intro hall
      exact hft.notNa x (by simpa using hall _ hmem)
  · -- NaN
    unfold inferColumn
    simp only
    rw [if_pos]
    · rw [List.map_map]
      conv => rhs; rw [← List.map_id col]
      apply List.map_congr_left
      intro c hc
      exact (h c hc).symm
    · rw [List.all_eq_true]
      intro t ht
      obtain ⟨x, hx, rfl⟩ := List.mem_map.1 ht
      rw [h x hx]
      exact decide_eq_true hnil
  · -- text
    have hna : ∀ s, .str s ∈ col → s ∉ naTexts := by
      intro s hs
      rcases h _ hs with h' | ⟨t, h', ht⟩
      · cases h'
      · cases h'; exact ht
    have hm : ∀ s, .str s ∈ col → s ∈ col.map (cellText ft) := fun s hs => List.mem_map.2 ⟨_, hs, rfl⟩
    unfold inferColumn
    simp only
    rw [if_neg, convertAll_none (hm s1 hs1) (hna s1 hs1) (by rw [hi]; rfl)]
    · simp only
      rw [convertAll_none (hm s2 hs2) (hna s2 hs2) (by rw [hfl]; rfl)]
      simp only
      rw [convertAll_none (hm s3 hs3) (hna s3 hs3) (by rw [hb]; rfl)]
      simp only
      rw [List.map_map]
      conv => rhs; rw [← List.map_id col]
      apply List.map_congr_left
      intro c hc
      rcases h c hc with rfl | ⟨s, rfl, hs⟩
      · simp [cellText, hnil]
      · simp [cellText, hs]
    · rw [List.all_eq_true]
      intro hall
      exact hna s1 hs1 (by simpa using hall _ (hm s1 hs1))
  · -- booleans
    have hna : ∀ b, cellText ft (.bool b) ∉ naTexts := by
      intro b
      cases b
      · show cs!"False" ∉ naTexts; decide +kernel
      · show cs!"True" ∉ naTexts; decide +kernel
    have hmem : cellText ft (.bool b) ∈ col.map (cellText ft) := List.mem_map.2 ⟨_, hb, rfl⟩
    have hnint : intCsv (cellText ft (.bool b)) = none := by cases b <;> rfl
    have hnfl : ft.parse (cellText ft (.bool b)) = none := by
      cases b
      · exact hft.bool.2
      · exact hft.bool.1
    unfold inferColumn
    simp only
    rw [if_neg, convertAll_none hmem (hna b) (by rw [hnint]; rfl)]
    · simp only
      rw [convertAll_none hmem (hna b) (by rw [hnfl]; rfl)]
      simp only
      rw [convertAll_some (col := col)]
      intro c hc
      rcases h c hc with rfl | ⟨b, rfl⟩
      · exact Or.inl ⟨hnil, rfl⟩
      · refine Or.inr ⟨hna b, ?_⟩
        cases b <;> rfl
    · rw [List.all_eq_true]
      intro hall
      exact hna b (by simpa using hall _ hmem)
  · -- texts that are integers
    have hmem : s ∈ col.map (cellText ft) := List.mem_map.2 ⟨_, hs, rfl⟩
    have hna : ∀ t ∈ col.map (cellText ft), t ∉ naTexts := by
      intro t ht
      obtain ⟨x, hx, rfl⟩ := List.mem_map.1 ht
      obtain ⟨s, i, rfl, h1, _⟩ := h x hx
      exact h1
    have hconv : ∃ cs : List (CsvCell F), convertAll (fun t => (intCsv t).map CsvCell.int) (col.map (cellText ft)) = some cs := by
      clear hmem hna hs hsi hi
      induction col with
      | nil => exact ⟨[], rfl⟩
      | cons c col ih =>
        obtain ⟨cs, hcs⟩ := ih fun x hx => h x (List.mem_cons_of_mem _ hx)
        obtain ⟨s, i, rfl, h1, h2⟩ := h c List.mem_cons_self
        refine ⟨.int i :: cs, ?_⟩
        rw [List.map_cons, convertAll, hcs]
        simp [cellText, h1, h2]
    obtain ⟨cs, hcs⟩ := hconv
    unfold inferColumn
    simp only
    rw [if_neg, hcs]
    · simp only
      rw [if_neg, if_neg]
      · rw [List.map_map]
        conv => rhs; rw [← List.map_id col]
        apply List.map_congr_left
        intro c hc
        obtain ⟨s, i, rfl, h1, _⟩ := h c hc
        simp [cellText, h1]
      · rw [List.all_eq_true]
        intro hall
        have := hall s hmem
        rw [hsi] at this
        simp only [Option.any_some, isInt64, Bool.and_eq_true, decide_eq_true_eq] at this
        exact hi this
      · rw [List.any_eq_true]
        rintro ⟨t, ht, hd⟩
        exact hna t ht (by simpa using hd)
    · rw [List.all_eq_true]
      intro hall
      exact hna s hmem (by simpa using hall _ hmem)

theorem convertAll_mem {F : Type} {f : Str → Option (CsvCell F)} {ts : List Str} {cs : List (CsvCell F)} (h : convertAll f ts = some cs) :
    (∀ c ∈ cs, ∃ t ∈ ts, (t ∈ naTexts ∧ c = .nan) ∨ (t ∉ naTexts ∧ f t = some c)) ∧ (∀ t ∈ ts, t ∉ naTexts → ∃ c ∈ cs, f t = some c) := by
  induction ts generalizing cs with
  | nil => cases h; exact ⟨fun _ h => absurd h List.not_mem_nil, fun _ h => absurd h List.not_mem_nil⟩
  | cons t ts ih =>
    rw [convertAll] at h
    split at h
    · rename_i c cs' h1 h2
      cases h
      have ih := ih h2
      constructor
      · intro x hx
        rcases List.mem_cons.1 hx with rfl | hx
        · refine ⟨t, List.mem_cons_self, ?_⟩
          split at h1
          · rename_i hn
            cases h1
            exact Or.inl ⟨hn, rfl⟩
          · rename_i hn
            exact Or.inr ⟨hn, h1⟩
        · obtain ⟨u, hu, h'⟩ := ih.1 x hx
          exact ⟨u, List.mem_cons_of_mem _ hu, h'⟩
      · intro u hu hn
        rcases List.mem_cons.1 hu with rfl | hu
        · rw [if_neg hn] at h1
          exact ⟨c, List.mem_cons_self, h1⟩
        · obtain ⟨c', hc', h'⟩ := ih.2 u hu hn
          exact ⟨c', List.mem_cons_of_mem _ hc', h'⟩
    · cases h

theorem convertAll_eq_none {F : Type} {f : Str → Option (CsvCell F)} {ts : List Str} (h : convertAll f ts = none) : ∃ t ∈ ts, t ∉ naTexts ∧ f t = none := by
  induction ts with
  | nil => cases h
  | cons t ts ih =>
    rw [convertAll] at h
    by_cases hn : t ∈ naTexts
    · rw [if_pos hn] at h
      cases h2 : convertAll f ts with
      | none =>
        obtain ⟨u, hu, h'⟩ := ih h2
        exact ⟨u, List.mem_cons_of_mem _ hu, h'⟩
      | some cs => rw [h2] at h; cases h
    · rw [if_neg hn] at h
      cases h1 : f t with
      | none => exact ⟨t, List.mem_cons_self, hn, h1⟩
      | some c =>
        cases h2 : convertAll f ts with
        | none =>
          obtain ⟨u, hu, h'⟩ := ih h2
          exact ⟨u, List.mem_cons_of_mem _ hu, h'⟩
        | some cs => rw [h1, h2] at h; cases h

theorem infer_only {F : Type} {ft : FloatText F} (hft : FloatOk ft) {col : List (CsvCell F)} (h : inferColumn ft (col.map (cellText ft)) = col) : ColumnOk ft col := by
  have htext : ∀ (hc : (col.map (cellText ft)).map (fun t => if t ∈ naTexts then CsvCell.nan else .str t) = col),
      (∀ c ∈ col, c = .nan ∨ ∃ s, c = .str s ∧ s ∉ naTexts) ∧ ∀ t ∈ col.map (cellText ft), t ∉ naTexts → .str t ∈ col := by
    intro hc
    constructor
    · intro c hm
      rw [← hc] at hm
      obtain ⟨t, ht, rfl⟩ := List.mem_map.1 hm
      by_cases hn : t ∈ naTexts
      · exact Or.inl (if_pos hn)
      · exact Or.inr ⟨t, if_neg hn, hn⟩
    · intro t ht hn
      rw [← hc]
      exact List.mem_map.2 ⟨t, ht, if_neg hn⟩
  unfold inferColumn at h
  simp only at h
  split at h
  · right; right; left
    intro c hc
    rw [← h] at hc
    obtain ⟨t, _, rfl⟩ := List.mem_map.1 hc
    rfl
  rename_i hall
  rw [List.all_eq_true] at hall
  simp only [decide_eq_true_eq, not_forall] at hall
  obtain ⟨t, ht, hn⟩ := hall
  split at h
  · rename_i cs hcs
    split at h
    · rename_i hany
      cases hfl : convertAll (fun t => (ft.parse t).map CsvCell.float) (col.map (cellText ft)) with
      | none =>
        obtain ⟨u, hu, hun, hf⟩ := convertAll_eq_none hfl
        obtain ⟨c, _, hi⟩ := (convertAll_mem hcs).2 u hu hun
        exfalso
        refine hft.int u ?_ (by simpa using hf)
        intro h0
        rw [h0] at hi
        cases hi
      | some fs =>
        rw [hfl] at h
        simp only [Option.getD_some] at h
        subst h
        right; left
        obtain ⟨h1, h2⟩ := convertAll_mem hfl
        constructor
        · intro c hc
          obtain ⟨t, _, ⟨_, h⟩ | ⟨_, h⟩⟩ := h1 c hc
          · exact Or.inl h
          · obtain ⟨x, _, rfl⟩ := Option.map_eq_some_iff.1 h
            exact Or.inr ⟨x, rfl⟩
        · obtain ⟨c, hc, h⟩ := h2 t ht hn
          obtain ⟨x, _, rfl⟩ := Option.map_eq_some_iff.1 h
          exact ⟨x, hc⟩
    · rename_i hany
      split at h
      · rename_i h64
        subst h
        left
        intro c hc
        obtain ⟨u, hu, ⟨hna, _⟩ | ⟨_, h⟩⟩ := (convertAll_mem hcs).1 c hc
        · exact absurd (List.any_eq_true.2 ⟨u, hu, decide_eq_true hna⟩) hany
        · obtain ⟨i, hi, rfl⟩ := Option.map_eq_some_iff.1 h
          have := (List.all_eq_true.1 h64) u hu
          rw [hi] at this
          simp only [Option.any_some, isInt64, Bool.and_eq_true, decide_eq_true_eq] at this
          exact ⟨i, rfl, this⟩
      · rename_i h64
        obtain ⟨h1, h2⟩ := htext h
        right; right; right; right; right
        have hnot : ∀ u ∈ col.map (cellText ft), u ∉ naTexts := fun u hu hna => hany (List.any_eq_true.2 ⟨u, hu, decide_eq_true hna⟩)
        have hint : ∀ u ∈ col.map (cellText ft), ∃ i, intCsv u = some i := by
          intro u hu
          obtain ⟨c, _, h⟩ := (convertAll_mem hcs).2 u hu (hnot u hu)
          obtain ⟨i, hi, _⟩ := Option.map_eq_some_iff.1 h
          exact ⟨i, hi⟩
        constructor
        · intro c hc
          rcases h1 c hc with rfl | ⟨s, rfl, hs⟩
          · exact absurd (by simp [naTexts]) (hnot [] (List.mem_map.2 ⟨_, hc, rfl⟩))
          · obtain ⟨i, hi⟩ := hint s (List.mem_map.2 ⟨_, hc, rfl⟩)
            exact ⟨s, i, rfl, hs, hi⟩
        · rw [List.all_eq_true] at h64
          simp only [not_forall] at h64
          obtain ⟨u, hu, hu64⟩ := h64
          obtain ⟨i, hi⟩ := hint u hu
          refine ⟨u, i, h2 u hu (hnot u hu), hi, ?_⟩
          rw [hi] at hu64
          simpa [isInt64] using hu64
  · rename_i hcs
    obtain ⟨u1, hu1, hn1, hi1⟩ := convertAll_eq_none hcs
    split at h
    · rename_i fs hfl
      subst h
      right; left
      obtain ⟨h1, h2⟩ := convertAll_mem hfl
      constructor
      · intro c hc
        obtain ⟨t, _, ⟨_, h⟩ | ⟨_, h⟩⟩ := h1 c hc
        · exact Or.inl h
        · obtain ⟨x, _, rfl⟩ := Option.map_eq_some_iff.1 h
          exact Or.inr ⟨x, rfl⟩
      · obtain ⟨c, hc, h⟩ := h2 t ht hn
        obtain ⟨x, _, rfl⟩ := Option.map_eq_some_iff.1 h
        exact ⟨x, hc⟩
    · rename_i hfl
      obtain ⟨u2, hu2, hn2, hi2⟩ := convertAll_eq_none hfl
      split at h
      · rename_i bs hbl
        subst h
        right; right; right; right; left
        obtain ⟨h1, h2⟩ := convertAll_mem hbl
        constructor
        · intro c hc
          obtain ⟨t, _, ⟨_, h⟩ | ⟨_, h⟩⟩ := h1 c hc
          · exact Or.inl h
          · obtain ⟨x, _, rfl⟩ := Option.map_eq_some_iff.1 h
            exact Or.inr ⟨x, rfl⟩
        · obtain ⟨c, hc, h⟩ := h2 t ht hn
          obtain ⟨x, _, rfl⟩ := Option.map_eq_some_iff.1 h
          exact ⟨x, hc⟩
      · rename_i hbl
        obtain ⟨u3, hu3, hn3, hi3⟩ := convertAll_eq_none hbl
        obtain ⟨h1, h2⟩ := htext h
        right; right; right; left
        exact ⟨h1, ⟨u1, h2 u1 hu1 hn1, by simpa using hi1⟩, ⟨u2, h2 u2 hu2 hn2, by simpa using hi2⟩, ⟨u3, h2 u3 hu3 hn3, by simpa using hi3⟩⟩

theorem transpose_back {l : List (List Str)} {n : Nat} (h : ∀ c ∈ l, c.length = n) : transposeN l.length (transposeN n l) = l := by
  unfold transposeN
  apply List.ext_getElem
  · simp
  · intro j hj1 hj2
    simp only [List.getElem_map, List.getElem_range, List.filterMap_map]
    have hl : l[j].length = n := h _ (List.getElem_mem hj2)
    have hrow : ∀ i, i < n → (l.filterMap fun r => r[i]?)[j]? = l[j][i]? := by
      intro i hi
      have : (l.filterMap fun r => r[i]?) = l.map fun r => (r[i]?).getD [] := by
        clear hl hj1 hj2
        induction l with
        | nil => rfl
        | cons c l ih =>
          have hc : c.length = n := h c List.mem_cons_self
          have : c[i]? = some c[i] := List.getElem?_eq_getElem (by omega)
          rw [List.filterMap_cons, this, List.map_cons, this, ih fun x hx => h x (List.mem_cons_of_mem _ hx)]
          rfl
      rw [this, List.getElem?_map, List.getElem?_eq_getElem hj2, Option.map_some, List.getElem?_eq_getElem (by omega)]
      rfl
    have : (List.range n).filterMap ((fun r : List Str => r[j]?) ∘ fun i => l.filterMap fun r => r[i]?) = (List.range n).filterMap fun i => l[j][i]? := by
      apply List.filterMap_congr
      intro i hi
      exact hrow i (List.mem_range.1 hi)
    rw [this]
    have hget : ∀ (c : List Str), (List.range c.length).filterMap (fun i => c[i]?) = c := by
      intro c
      apply List.ext_getElem?
      intro i
      have : (List.range c.length).filterMap (fun i => c[i]?) = (List.range c.length).map fun i => (c[i]?).getD [] := by
        have key : ∀ (is : List Nat), (∀ i ∈ is, i < c.length) → is.filterMap (fun i => c[i]?) = is.map fun i => (c[i]?).getD [] := by
          intro is his
          induction is with
          | nil => rfl
          | cons i is ih =>
            have hi : i < c.length := his i List.mem_cons_self
            have : c[i]? = some c[i] := List.getElem?_eq_getElem hi
            rw [List.filterMap_cons, this, List.map_cons, this, ih fun x hx => his x (List.mem_cons_of_mem _ hx)]
            rfl
        exact key _ fun i hi => List.mem_range.1 hi
      rw [this, List.getElem?_map]
      by_cases hi : i < c.length
      · rw [List.getElem?_range hi, Option.map_some, List.getElem?_eq_getElem hi]
        rfl
      · rw [List.getElem?_eq_none (by simpa using hi), List.getElem?_eq_none (by simpa using hi)]
        rfl
    rw [← hl]
    exact hget _

theorem read_write {F : Type} {ft : FloatText F} {f : CsvFrame F} (hlen : ∀ c ∈ f.cols, c.2.length = f.times.length) (ht : ∀ t ∈ f.times, t ≠ []) :
    csvTok .startRow [] [] (writeFrame ft f) = some ((cs!"Time" :: f.cols.map Prod.fst) :: transposeN f.times.length (f.times :: f.cols.map fun c => c.2.map (cellText ft))) ∧
    readFrame ft (writeFrame ft f) = some ⟨f.times, f.cols.map fun c => (c.1, inferColumn ft (c.2.map (cellText ft)))⟩ := by
  obtain ⟨times, cols⟩ := f
  simp only at hlen ht ⊢
  have hall : ∀ c ∈ times :: cols.map (fun c => c.2.map (cellText ft)), c.length = times.length := by
    intro c hc
    rcases List.mem_cons.1 hc with rfl | hc
    · rfl
    · obtain ⟨x, hx, rfl⟩ := List.mem_map.1 hc
      simp [hlen x hx]
  have hrows : ∀ r ∈ transposeN times.length (times :: cols.map fun c => c.2.map (cellText ft)), r.length = cols.length + 1 ∧ ∃ w ws, r = w :: ws ∧ w ≠ [] := by
    intro r hr
    unfold transposeN at hr
    obtain ⟨i, hi, rfl⟩ := List.mem_map.1 hr
    rw [List.mem_range] at hi
    constructor
    · have key : ∀ (l : List (List Str)), (∀ c ∈ l, c.length = times.length) → (l.filterMap fun r => r[i]?).length = l.length := by
        intro l hl
        induction l with
        | nil => rfl
        | cons c l ih =>
          have hc := hl c List.mem_cons_self
          have : c[i]? = some c[i] := List.getElem?_eq_getElem (by omega)
          rw [List.filterMap_cons, this, List.length_cons, List.length_cons, ih fun x hx => hl x (List.mem_cons_of_mem _ hx)]
      rw [key _ hall]
      simp
    · have : times[i]? = some times[i] := List.getElem?_eq_getElem hi
      rw [List.filterMap_cons, this]
      exact ⟨_, _, rfl, ht _ (List.getElem_mem hi)⟩
  have htok : csvTok .startRow [] [] (writeFrame ft ⟨times, cols⟩) =
      some ((cs!"Time" :: cols.map Prod.fst) :: transposeN times.length (times :: cols.map fun c => c.2.map (cellText ft))) := by
    unfold writeFrame
    rw [C39_text]
    intro r hr
    rcases List.mem_cons.1 hr with rfl | hr
    · exact ⟨_, _, rfl, by decide⟩
    · exact (hrows r hr).2
  refine ⟨htok, ?_⟩
  unfold readFrame
  rw [htok]
  simp only [List.length_cons, List.length_map]
  rw [if_pos]
  · have hb := transpose_back hall
    simp only [List.length_cons, List.length_map] at hb
    rw [hb]
    simp only [List.map_map]
    congr 2
    clear * -
    induction cols with
    | nil => rfl
    | cons c cols ih => simp only [List.map_cons, List.zip_cons_cons, ih]; rfl
  · rw [List.all_eq_true]
    intro r hr
    simpa using (hrows r hr).1

/-- **C39 (partial).** A table is read back exactly as it was written, values and types, whatever characters its texts contain, if and only if each column is one of integers of 64 bits, of floats, of booleans, or of
texts that are not all of another type and none of which stands for NaN, or of texts that are integers too large. For all tables. -/
theorem C39_types_partial {F : Type} {ft : FloatText F} (hft : FloatOk ft) {f : CsvFrame F} (hlen : ∀ c ∈ f.cols, c.2.length = f.times.length) (ht : ∀ t ∈ f.times, t ≠ []) :
    readFrame ft (writeFrame ft f) = some f ↔ ∀ c ∈ f.cols, ColumnOk ft c.2 := by
  rw [(read_write hlen ht).2]
  obtain ⟨times, cols⟩ := f
  simp only [Option.some.injEq, CsvFrame.mk.injEq, true_and]
  constructor
  · intro h c hc
    apply infer_only hft
    have : ∀ x ∈ cols, (x.1, inferColumn ft (x.2.map (cellText ft))) = x := by
      intro x hx
      exact List.map_inj_left.1 (h.trans (List.map_id cols).symm) x hx
    exact (Prod.ext_iff.1 (this c hc)).2
  · intro h
    conv => rhs; rw [← List.map_id cols]
    apply List.map_congr_left
    intro c hc
    rw [infer_ok hft (h c hc)]
    rfl

/-- **C39 (header).** The first row of the file has the names of the columns, and that of the times is `Time`, by which `read_csv` knows that it has to convert them as the parser does. -/
theorem C39_header {F : Type} (ft : FloatText F) (f : CsvFrame F) (hlen : ∀ c ∈ f.cols, c.2.length = f.times.length) (ht : ∀ t ∈ f.times, t ≠ []) :
    ∃ rows, csvTok .startRow [] [] (writeFrame ft f) = some ((cs!"Time" :: f.cols.map Prod.fst) :: rows) :=
  ⟨_, (read_write hlen ht).1⟩

/-- no floats -/
def noFloat : FloatText Empty := ⟨fun x => x.elim, fun _ => none⟩

/-- **C39 (refuted).** The types and values of other tables change: the name of a task that is a number becomes one, a task named `null` becomes NaN, and in a column of integers and texts the integers become
texts. -/
theorem C39_types_refuted :
    readFrame noFloat (writeFrame noFloat ⟨[cs!"0.5"], [(cs!"comm", [.str cs!"007"])]⟩) = some ⟨[cs!"0.5"], [(cs!"comm", [.int 7])]⟩ ∧
    readFrame noFloat (writeFrame noFloat ⟨[cs!"0.5", cs!"0.6"], [(cs!"comm", [.str cs!"null", .str cs!"a"])]⟩) = some ⟨[cs!"0.5", cs!"0.6"], [(cs!"comm", [.nan, .str cs!"a"])]⟩ ∧
    readFrame noFloat (writeFrame noFloat ⟨[cs!"0.5", cs!"0.6"], [(cs!"cpus", [.int 3, .str cs!"0f"])]⟩) = some ⟨[cs!"0.5", cs!"0.6"], [(cs!"cpus", [.str cs!"3", .str cs!"0f"])]⟩ := by
  refine ⟨?_, ?_, ?_⟩ <;> rfl

/-- C39: texts with commas, quotes and newlines -/
example : readFrame noFloat (writeFrame noFloat ⟨[cs!"0.5", cs!"0.6"], [(cs!"comm", [.str cs!"a,\"b\"\n", .str cs!"c"]), (cs!"pid", [.int (-1), .int 20])]⟩) =
    some ⟨[cs!"0.5", cs!"0.6"], [(cs!"comm", [.str cs!"a,\"b\"\n", .str cs!"c"]), (cs!"pid", [.int (-1), .int 20])]⟩ := rfl

/-- C39: booleans, with NaN, and texts that are integers too large -/
example : readFrame noFloat (writeFrame noFloat ⟨[cs!"0.5", cs!"0.6"], [(cs!"idle", [.bool false, .nan]), (cs!"id", [.str cs!"1", .str cs!"99999999999999999999"])]⟩) =
    some ⟨[cs!"0.5", cs!"0.6"], [(cs!"idle", [.bool false, .nan]), (cs!"id", [.str cs!"1", .str cs!"99999999999999999999"])]⟩ := rfl

/-- floats without a fraction -/
def wholeFloats : FloatText Nat := ⟨fun n => natStr n ++ cs!".0", fun s => match intCsv s with | some i => some i.natAbs | none => match splitOn '.' s with | [a, ['0']] => some (natVal a) | _ => none⟩

/-- C39: the hypothesis on floats can be met -/
theorem wholeFloats_ok : FloatOk wholeFloats := by
  have hsplit : ∀ n : Nat, splitOn '.' (natStr n ++ cs!".0") = [natStr n, ['0']] := by
    intro n
    have hd : '.' ∉ natStr n := by
      intro h
      have := natStr_digits h
      revert this
      decide
    exact (splitOn_cons hd).trans rfl
  have hnot : ∀ n : Nat, intCsv (natStr n ++ cs!".0") = none := by
    intro n
    have hd := nat_all_digits n
    rw [List.all_eq_true] at hd
    have hns : ∀ c ∈ natStr n ++ cs!".0", isSpace c = false := by
      intro c hc
      rcases List.mem_append.1 hc with hc | hc
      · exact digit_nospace (hd.2 c hc)
      · have : ∀ c ∈ cs!".0", isSpace c = false := by decide
        exact this c hc
    have hall : ∀ l r : Str, l ++ cs!".0" = r → ¬ (r ≠ [] ∧ r.all isDigit = true) := by
      rintro l r rfl ⟨_, h⟩
      simp [isDigit] at h
    unfold intCsv
    simp only [strip_nospace hns]
    cases hn : natStr n with
    | nil => exact absurd hn hd.1
    | cons c ds =>
      have hc : isDigit c = true := hd.2 c (by rw [hn]; simp)
      have h1 : c ≠ '-' := by rintro rfl; revert hc; decide
      have h2 : c ≠ '+' := by rintro rfl; revert hc; decide
      split
      · next heq => simp only [List.cons_append, List.cons.injEq] at heq; exact absurd heq.1 h1
      · next heq => simp only [List.cons_append, List.cons.injEq] at heq; exact absurd heq.1 h2
      · rw [if_neg (hall (c :: ds) _ rfl)]
  refine ⟨?_, hnot, ?_, ?_, ⟨rfl, rfl⟩⟩
  · intro n
    simp only [wholeFloats, hnot, hsplit, natVal_natStr]
  · intro n h
    change natStr n ++ cs!".0" ∈ naTexts at h
    have hd := nat_all_digits n
    rw [List.all_eq_true] at hd
    have : ∀ t ∈ naTexts, '.' ∉ t.drop 1 ∨ t.length = 0 ∨ '#' ∈ t := by decide
    rcases this _ h with h1 | h1 | h1
    · apply h1
      cases hn : natStr n with
      | nil => exact absurd hn hd.1
      | cons c ds =>
        simp
    · simp at h1
    · rcases List.mem_append.1 h1 with h2 | h2
      · have := hd.2 _ h2
        revert this
        decide
      · revert h2
        decide
  · intro s h
    cases hs : intCsv s with
    | none => exact absurd hs h
    | some i => simp only [wholeFloats, hs]; exact Option.some_ne_none _

end Trappy
