import Verif.Spec.Data
/-! `int(s, 0)` against the grammar of integer literals. -/

namespace Trappy
open Py

theorem char_ofNat_toNat (c : Char) : c = Char.ofNat c.toNat := by simp

theorem digitVal_lt {c : Char} {d : Nat} (h : digitVal c = some d) : d < 36 := by
  unfold digitVal isDigit isLower isUpper at h
  simp only [Bool.and_eq_true, decide_eq_true_eq] at h
  split at h
  · simp at h; omega
  · split at h
    · simp at h; omega
    · split at h
      · simp at h; omega
      · cases h

theorem digitVal_iff {c : Char} {d : Nat} :
    digitVal c = some d ↔ lowerDigits[d]? = some c ∨ upperDigits[d]? = some c := by
  constructor
  · intro h
    have hd := digitVal_lt h
    unfold digitVal isDigit isLower isUpper at h
    simp only [Bool.and_eq_true, decide_eq_true_eq] at h
    have key1 : ∀ n, n < 58 → 48 ≤ n → lowerDigits[n - 48]? = some (Char.ofNat n) := by decide
    have key2 : ∀ n, n < 123 → 97 ≤ n → lowerDigits[n - 87]? = some (Char.ofNat n) := by decide
    have key3 : ∀ n, n < 91 → 65 ≤ n → upperDigits[n - 55]? = some (Char.ofNat n) := by decide
    split at h
    · left
      simp only [Option.some.injEq] at h
      rw [← h, key1 c.toNat (by omega) (by omega), ← char_ofNat_toNat]
    · split at h
      · left
        simp only [Option.some.injEq] at h
        rw [← h, key2 c.toNat (by omega) (by omega), ← char_ofNat_toNat]
      · split at h
        · right
          simp only [Option.some.injEq] at h
          rw [← h, key3 c.toNat (by omega) (by omega), ← char_ofNat_toNat]
        · cases h
  · have len1 : lowerDigits.length = 36 := rfl
    have len2 : upperDigits.length = 36 := rfl
    have key : ∀ d, d < 36 → (lowerDigits[d]?.bind digitVal = some d) ∧ (upperDigits[d]?.bind digitVal = some d) := by
      decide
    rintro (h | h)
    · have hd : d < 36 := by
        have := (List.getElem?_eq_some_iff.mp h).1; omega
      have := (key d hd).1
      rw [h] at this; exact this
    · have hd : d < 36 := by
        have := (List.getElem?_eq_some_iff.mp h).1; omega
      have := (key d hd).2
      rw [h] at this; exact this

theorem isDigitOf_iff {b : Nat} {c : Char} {d : Nat} : IsDigitOf b c d ↔ digitVal c = some d ∧ d < b := by
  unfold IsDigitOf; rw [digitVal_iff]; exact And.comm

theorem digitVal_underscore : digitVal '_' = none := by decide

theorem readDigits_digit {b acc d : Nat} {us : Bool} {c : Char} {s : Str} (h : IsDigitOf b c d) :
    readDigits b acc us (c :: s) = readDigits b (acc * b + d) false s := by
  rw [isDigitOf_iff] at h
  have hc : c ≠ '_' := by rintro rfl; rw [digitVal_underscore] at h; cases h.1
  simp [readDigits, hc, h.1, h.2]

theorem digits_read {b : Nat} {s : Str} {n : Nat} (h : Digits b s n) :
    ∀ us t, readDigits b 0 us (s ++ t) = readDigits b n false t := by
  induction h with
  | one h => intro us t; simp [readDigits_digit h]
  | snoc hs h ih =>
    intro us t
    rw [List.append_assoc, ih, List.cons_append, List.nil_append, readDigits_digit h]
  | under hs h ih =>
    intro us t
    rw [List.append_assoc, ih, List.cons_append, List.cons_append, List.nil_append]
    rw [readDigits, if_pos rfl]
    simp only [Bool.false_eq_true, if_false]
    rw [readDigits_digit h]

theorem read_digits_aux {b : Nat} {s : Str} : ∀ {p : Str} {acc n : Nat} {us : Bool}, Digits b p acc →
    readDigits b acc us s = some n → (us = false → Digits b (p ++ s) n) ∧ (us = true → Digits b (p ++ '_' :: s) n) := by
  induction s with
  | nil =>
    intro p acc n us hp h
    unfold readDigits at h
    cases us with
    | true => simp at h
    | false => simp at h; subst h; exact ⟨fun _ => by simpa using hp, fun h => by cases h⟩
  | cons c s ih =>
    intro p acc n us hp h
    unfold readDigits at h
    split at h
    · rename_i hc; subst hc
      cases us with
      | true => simp at h
      | false =>
        simp only [Bool.false_eq_true, if_false] at h
        exact ⟨fun _ => (ih hp h).2 rfl, fun h => by cases h⟩
    · split at h
      · cases h
      · rename_i d hd
        split at h
        · rename_i hlt
          have hdig : IsDigitOf b c d := isDigitOf_iff.mpr ⟨hd, hlt⟩
          constructor
          · intro _
            have := (ih (hp.snoc hdig) h).1 rfl
            simpa using this
          · intro _
            have := (ih (hp.under hdig) h).1 rfl
            simpa using this
        · cases h

theorem read_digits {b : Nat} {s : Str} {n : Nat} : readDigits b 0 true s = some n ↔ Digits b s n := by
  constructor
  · intro h
    cases s with
    | nil => simp [readDigits] at h
    | cons c s =>
      unfold readDigits at h
      split at h
      · simp at h
      · split at h
        · cases h
        · rename_i d hd
          split at h
          · rename_i hlt
            have hdig : IsDigitOf b c d := isDigitOf_iff.mpr ⟨hd, hlt⟩
            simp only [Nat.zero_mul, Nat.zero_add] at h
            have := (read_digits_aux (Digits.one hdig) h).1 rfl
            simpa using this
          · cases h
  · intro h
    have := digits_read h true []
    simpa [readDigits] using this

theorem Digits.head {b : Nat} {s : Str} {n : Nat} (h : Digits b s n) :
    ∃ c t d, s = c :: t ∧ digitVal c = some d ∧ d < b := by
  induction h with
  | one h => exact ⟨_, [], _, rfl, isDigitOf_iff.mp h⟩
  | snoc hs h ih => obtain ⟨c, t, d, rfl, hd⟩ := ih; exact ⟨c, t ++ _, d, rfl, hd⟩
  | under hs h ih => obtain ⟨c, t, d, rfl, hd⟩ := ih; exact ⟨c, t ++ _, d, rfl, hd⟩

theorem Digits.last {b : Nat} {s : Str} {n : Nat} (h : Digits b s n) :
    ∃ c t d, s = t ++ [c] ∧ digitVal c = some d := by
  cases h with
  | one h => exact ⟨_, [], _, rfl, (isDigitOf_iff.mp h).1⟩
  | snoc hs h => exact ⟨_, _, _, rfl, (isDigitOf_iff.mp h).1⟩
  | @under s n c d hs h => exact ⟨c, s ++ ['_'], d, by simp, (isDigitOf_iff.mp h).1⟩

/-- Body after a base prefix. -/
def readBody (b : Nat) (rest : Str) : Option Nat :=
  match rest with
  | '_' :: r => readDigits b 0 true r
  | r => readDigits b 0 true r

theorem readBody_iff {b : Nat} {rest : Str} {n : Nat} :
    readBody b rest = some n ↔ Digits b rest n ∨ ∃ r, rest = '_' :: r ∧ Digits b r n := by
  unfold readBody
  split
  · rename_i r
    rw [read_digits]
    constructor
    · intro h; exact .inr ⟨r, rfl, h⟩
    · rintro (h | ⟨r', e, h⟩)
      · obtain ⟨c, t, d, e, hd, _⟩ := h.head
        cases e; rw [digitVal_underscore] at hd; cases hd
      · cases e; exact h
  · rename_i hne
    rw [read_digits]
    constructor
    · intro h; exact .inl h
    · rintro (h | ⟨r', e, h⟩)
      · exact h
      · exact absurd e (hne r')

theorem readNat0_iff {s : Str} {n : Nat} : readNat0 s = some n ↔ NatLit s n := by
  by_cases hs : ∃ x rest, s = '0' :: x :: rest
  · obtain ⟨x, rest, rfl⟩ := hs
    have e : readNat0 ('0' :: x :: rest) =
        if x = 'x' ∨ x = 'X' then readBody 16 rest
        else if x = 'o' ∨ x = 'O' then readBody 8 rest
        else if x = 'b' ∨ x = 'B' then readBody 2 rest
        else match readDigits 10 0 true ('0' :: x :: rest) with
          | some 0 => some 0
          | _ => none := rfl
    rw [e]
    have back : ∀ {b}, IsPrefix x b → (Digits b rest n ∨ ∃ r, rest = '_' :: r ∧ Digits b r n) →
        NatLit ('0' :: x :: rest) n := by
      rintro b hb (h | ⟨r, rfl, h⟩)
      · exact .pre hb h
      · exact .preUnder hb h
    have nodec : ∀ {b m}, IsPrefix x b → ¬ Digits 10 ('0' :: x :: rest) m := by
      intro b m hb h
      have h1 := read_digits.mpr h
      rw [readDigits_digit (d := 0) (by rw [isDigitOf_iff]; decide)] at h1
      unfold readDigits at h1
      have hx : x ≠ '_' ∧ ∀ d, digitVal x = some d → ¬ d < 10 := by
        rcases hb with ⟨h | h, _⟩ | ⟨h | h, _⟩ | ⟨h | h, _⟩ <;> subst h <;> refine ⟨by decide, ?_⟩ <;>
          intro d hd <;> revert hd <;> simp [digitVal, isDigit, isLower, isUpper] <;> omega
      rw [if_neg hx.1] at h1
      split at h1
      · cases h1
      · rename_i d hd
        rw [if_neg (hx.2 d hd)] at h1; cases h1
    have fwd : ∀ {b}, IsPrefix x b → NatLit ('0' :: x :: rest) n →
        (Digits b rest n ∨ ∃ r, rest = '_' :: r ∧ Digits b r n) := by
      intro b hb h
      have uniq : ∀ {b'}, IsPrefix x b' → b' = b := by
        intro b' hb'
        rcases hb with ⟨h | h, rfl⟩ | ⟨h | h, rfl⟩ | ⟨h | h, rfl⟩ <;> subst h <;>
          rcases hb' with ⟨h | h, rfl⟩ | ⟨h | h, rfl⟩ | ⟨h | h, rfl⟩ <;> first | rfl | (exact absurd h (by decide))
      cases h with
      | dec hd _ => exact absurd hd (nodec hb)
      | pre hx hs => rw [uniq hx] at hs; exact .inl hs
      | preUnder hx hs => rw [uniq hx] at hs; exact .inr ⟨_, rfl, hs⟩
    split
    · rename_i hx
      have hb : IsPrefix x 16 := .inl ⟨hx, rfl⟩
      rw [readBody_iff]; exact ⟨back hb, fwd hb⟩
    · rename_i hx1
      split
      · rename_i hx
        have hb : IsPrefix x 8 := .inr (.inl ⟨hx, rfl⟩)
        rw [readBody_iff]; exact ⟨back hb, fwd hb⟩
      · rename_i hx2
        split
        · rename_i hx
          have hb : IsPrefix x 2 := .inr (.inr ⟨hx, rfl⟩)
          rw [readBody_iff]; exact ⟨back hb, fwd hb⟩
        · rename_i hx3
          have nopre : ∀ {b}, ¬ IsPrefix x b := by
            intro b hb
            rcases hb with ⟨h, _⟩ | ⟨h, _⟩ | ⟨h, _⟩
            · exact hx1 h
            · exact hx2 h
            · exact hx3 h
          constructor
          · intro h
            split at h
            · rename_i h0
              simp only [Option.some.injEq] at h; subst h
              exact .dec (read_digits.mp h0) (.inr rfl)
            · cases h
          · intro h
            cases h with
            | dec hd h0 =>
              rcases h0 with h0 | rfl
              · simp at h0
              · rw [read_digits.mpr hd]; rfl
            | pre hx hs => exact absurd hx nopre
            | preUnder hx hs => exact absurd hx nopre
  · have e : readNat0 s = readDigits 10 0 true s := by
      unfold readNat0
      split
      · exact absurd ⟨_, _, rfl⟩ hs
      · rfl
    rw [e, read_digits]
    constructor
    · intro h
      refine .dec h ?_
      obtain ⟨c, t, d, rfl, _⟩ := h.head
      by_cases hc : c = '0'
      · subst hc
        right
        cases t with
        | nil =>
          have := read_digits.mpr h
          rw [readDigits_digit (d := 0) (by rw [isDigitOf_iff]; decide)] at this
          simpa [readDigits] using this.symm
        | cons x r => exact absurd ⟨x, r, rfl⟩ hs
      · left; simpa using hc
    · intro h
      cases h with
      | dec hd _ => exact hd
      | pre hx _ => exact absurd ⟨_, _, rfl⟩ hs
      | preUnder hx _ => exact absurd ⟨_, _, rfl⟩ hs

theorem NatLit.head {s : Str} {n : Nat} (h : NatLit s n) : ∃ c t d, s = c :: t ∧ digitVal c = some d := by
  cases h with
  | dec hd _ => obtain ⟨c, t, d, e, hd, _⟩ := hd.head; exact ⟨c, t, d, e, hd⟩
  | pre hx _ => exact ⟨_, _, 0, rfl, by decide⟩
  | preUnder hx _ => exact ⟨_, _, 0, rfl, by decide⟩

theorem NatLit.last {s : Str} {n : Nat} (h : NatLit s n) : ∃ c t d, s = t ++ [c] ∧ digitVal c = some d := by
  cases h with
  | dec hd _ => exact hd.last
  | pre hx hs => obtain ⟨c, t, d, rfl, hd⟩ := hs.last; exact ⟨c, _ :: _ :: t, d, rfl, hd⟩
  | preUnder hx hs => obtain ⟨c, t, d, rfl, hd⟩ := hs.last; exact ⟨c, _ :: _ :: _ :: t, d, rfl, hd⟩

theorem digitVal_not_space {c : Char} {d : Nat} (h : digitVal c = some d) : isSpace c = false := by
  unfold digitVal isDigit isLower isUpper at h
  simp only [Bool.and_eq_true, decide_eq_true_eq] at h
  have : 48 ≤ c.toNat ∧ c.toNat ≤ 122 := by
    split at h
    · omega
    · split at h
      · omega
      · split at h
        · omega
        · cases h
  unfold isSpace
  simp
  omega

theorem dropWhile_all_append {p : Char → Bool} {a s : Str} (h : ∀ c ∈ a, p c = true) :
    (a ++ s).dropWhile p = s.dropWhile p := by
  induction a with
  | nil => rfl
  | cons c a ih => simp [h c (by simp), ih (fun x hx => h x (by simp [hx]))]

theorem strip_core {a core b : Str} (ha : AllC isSpace a) (hb : AllC isSpace b)
    (h1 : ∀ c ∈ core.head?, isSpace c = false) (h2 : ∀ c ∈ core.getLast?, isSpace c = false) :
    strip (a ++ core ++ b) = core := by
  unfold strip lstrip rstrip
  rw [List.append_assoc, dropWhile_all_append ha]
  cases core with
  | nil =>
    simp only [List.nil_append]
    have : b.dropWhile isSpace = [] := by
      have := dropWhile_all_append (s := []) hb
      simpa using this
    rw [this]; rfl
  | cons c t =>
    have hc := h1 c (by simp)
    simp only [List.cons_append, List.dropWhile_cons, hc, Bool.false_eq_true, if_false]
    rw [← List.cons_append, List.reverse_append, dropWhile_all_append (by simpa [AllC] using hb)]
    obtain ⟨l, hl⟩ : ∃ l, (c :: t).getLast? = some l := ⟨_, List.getLast?_eq_some_getLast (by simp)⟩
    have hl2 := h2 l hl
    obtain ⟨i, hi⟩ := List.getLast?_eq_some_iff.mp hl
    rw [hi, List.reverse_append]
    simp [hl2]

theorem strip_decomp (s : Str) : ∃ a b, s = a ++ strip s ++ b ∧ AllC isSpace a ∧ AllC isSpace b := by
  have h1 := List.takeWhile_append_dropWhile (p := isSpace) (l := s)
  have h2 := List.takeWhile_append_dropWhile (p := isSpace) (l := (s.dropWhile isSpace).reverse)
  have hall : ∀ (t : Str), ∀ c ∈ t.takeWhile isSpace, isSpace c = true := by
    intro t
    induction t with
    | nil => simp
    | cons x t ih =>
      intro c hc
      by_cases hx : isSpace x = true
      · simp only [List.takeWhile_cons, hx, if_true, List.mem_cons] at hc
        rcases hc with rfl | hc
        · exact hx
        · exact ih c hc
      · simp [hx] at hc
  refine ⟨s.takeWhile isSpace, ((s.dropWhile isSpace).reverse.takeWhile isSpace).reverse, ?_, hall s, ?_⟩
  · have h3 := congrArg List.reverse h2
    simp only [List.reverse_append, List.reverse_reverse] at h3
    unfold strip lstrip rstrip
    rw [List.append_assoc, h3, h1]
  · intro c hc
    exact hall _ c (List.mem_reverse.mp hc)

theorem IntLit.ends {s : Str} {i : Int} (h : IntLit s i) :
    (∀ c ∈ s.head?, isSpace c = false) ∧ ∀ c ∈ s.getLast?, isSpace c = false := by
  cases h with
  | plain h =>
    obtain ⟨c, t, d, e, hd⟩ := h.head
    obtain ⟨c', t', d', e', hd'⟩ := h.last
    constructor
    · rw [e]; intro x hx; simp at hx; subst hx; exact digitVal_not_space hd
    · rw [e']; intro x hx; simp at hx; subst hx; exact digitVal_not_space hd'
  | plus h =>
    obtain ⟨c', t', d', e', hd'⟩ := h.last
    constructor
    · intro x hx; simp at hx; subst hx; decide
    · rw [e', ← List.cons_append]; intro x hx; rw [List.getLast?_concat] at hx; cases hx; exact digitVal_not_space hd'
  | minus h =>
    obtain ⟨c', t', d', e', hd'⟩ := h.last
    constructor
    · intro x hx; simp at hx; subst hx; decide
    · rw [e', ← List.cons_append]; intro x hx; rw [List.getLast?_concat] at hx; cases hx; exact digitVal_not_space hd'

theorem int0_core {s : Str} {i : Int} : int0 s = some i ↔ IntLit (strip s) i := by
  unfold int0
  constructor
  · intro h
    split at h
    · rename_i r e
      rw [e]
      simp only [Option.map_eq_some_iff] at h
      obtain ⟨n, h1, rfl⟩ := h
      exact .minus (readNat0_iff.mp h1)
    · rename_i r e
      rw [e]
      simp only [Option.map_eq_some_iff] at h
      obtain ⟨n, h1, rfl⟩ := h
      exact .plus (readNat0_iff.mp h1)
    · simp only [Option.map_eq_some_iff] at h
      obtain ⟨n, h1, rfl⟩ := h
      exact .plain (readNat0_iff.mp h1)
  · intro h
    generalize strip s = t at h
    cases h with
    | minus h => simp [readNat0_iff.mpr h]
    | plus h => simp [readNat0_iff.mpr h]
    | plain h =>
      obtain ⟨c, t', d, e, hd⟩ := h.head
      have h1 : c ≠ '-' := by rintro rfl; revert hd; simp [digitVal, isDigit, isLower, isUpper]
      have h2 : c ≠ '+' := by rintro rfl; revert hd; simp [digitVal, isDigit, isLower, isUpper]
      subst e
      split
      · rename_i e; cases e; exact absurd rfl h1
      · rename_i e; cases e; exact absurd rfl h2
      · rw [readNat0_iff.mpr h]; rfl

end Trappy
