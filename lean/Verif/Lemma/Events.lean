import Verif.Model.Events
import Verif.Lemma.Array
import Verif.Prop.Data
/-! Lemmas for the decoding of particular events. -/

namespace Trappy
open Re Py

/-! ## replace -/

theorem replaceAux_nil (old new : Str) (f : Nat) (n : Option Nat) : replaceAux old new f n [] = [] := by
  cases f <;> simp [replaceAux]

theorem replaceAux_hit (old new s : Str) (f : Nat) (n : Option Nat) (hn : n ≠ some 0) (ho : old ≠ []) :
    replaceAux old new (f + 1) n (old ++ s) = new ++ replaceAux old new f (n.map (· - 1)) s := by
  cases old with
  | nil => exact absurd rfl ho
  | cons c o =>
    rw [List.cons_append, replaceAux]
    · have : (c :: o).isPrefixOf (c :: (o ++ s)) = true := by
        rw [List.isPrefixOf_iff_prefix]; exact ⟨s, rfl⟩
      rw [if_pos this]
      simp
    · exact hn

theorem replaceAux_miss (old new s : Str) (c : Char) (f : Nat) (n : Option Nat) (h : ¬ old <+: c :: s) :
    replaceAux old new (f + 1) n (c :: s) = if n = some 0 then c :: s else c :: replaceAux old new f n s := by
  by_cases hn : n = some 0
  · subst hn; simp [replaceAux]
  · rw [if_neg hn, replaceAux]
    · rw [if_neg]; rw [List.isPrefixOf_iff_prefix]; exact h
    · exact hn

theorem replaceAux_zero (old new s : Str) (f : Nat) : replaceAux old new f (some 0) s = s := by
  cases f with
  | zero => simp [replaceAux]
  | succ f => cases s <;> simp [replaceAux]

theorem replaceAux_skip (old new a s : Str) (f : Nat) (n : Option Nat) (hn : n ≠ some 0)
    (h : ∀ x c y, a = x ++ c :: y → ¬ old <+: c :: (y ++ s)) :
    replaceAux old new (a.length + f) n (a ++ s) = a ++ replaceAux old new f n s := by
  induction a with
  | nil => simp
  | cons c a ih =>
    rw [List.length_cons, Nat.add_right_comm, List.cons_append, replaceAux_miss _ _ _ _ _ _ (h [] c a rfl), if_neg hn,
      ih (fun x c' y e => h (c :: x) c' y (by simp [e]))]
    rfl

/-- fuel beyond the length does not matter -/
theorem replaceAux_fuel (old new : Str) (ho : old ≠ []) : ∀ (f g : Nat) (n : Option Nat) (s : Str), s.length ≤ f → s.length ≤ g →
    replaceAux old new f n s = replaceAux old new g n s := by
  intro f
  induction f with
  | zero =>
    intro g n s hf hg
    have : s = [] := List.length_eq_zero_iff.mp (by omega)
    subst this; simp [replaceAux_nil]
  | succ f ih =>
    intro g n s hf hg
    cases s with
    | nil => simp [replaceAux_nil]
    | cons c s =>
      cases g with
      | zero => simp at hg
      | succ g =>
        by_cases hn : n = some 0
        · subst hn; simp [replaceAux_zero]
        · by_cases hp : old <+: c :: s
          · obtain ⟨t, ht⟩ := hp
            have hl : t.length ≤ s.length := by
              have := congrArg List.length ht
              have : 0 < old.length := List.length_pos_iff.mpr ho
              simp at *; omega
            rw [← ht, replaceAux_hit _ _ _ _ _ hn ho, replaceAux_hit _ _ _ _ _ hn ho,
              ih g _ t (by simp at hf; omega) (by simp at hg; omega)]
          · rw [replaceAux_miss _ _ _ _ _ _ hp, replaceAux_miss _ _ _ _ _ _ hp, if_neg hn, if_neg hn,
              ih g n s (by simpa using hf) (by simpa using hg)]

theorem replace_nil (old new : Str) : replace old new [] = [] := replaceAux_nil _ _ _ _

/-- text in which no occurrence begins is copied -/
theorem replace_skip {old new a s : Str} (ho : old ≠ []) (h : ∀ x c y, a = x ++ c :: y → ¬ old <+: c :: (y ++ s)) :
    replace old new (a ++ s) = a ++ replace old new s := by
  unfold replace
  rw [List.length_append, Nat.add_assoc, replaceAux_skip _ _ _ _ _ _ (by simp) h]

theorem replace_hit {old new s : Str} (ho : old ≠ []) : replace old new (old ++ s) = new ++ replace old new s := by
  unfold replace
  rw [replaceAux_hit _ _ _ _ _ (by simp) ho, Option.map_none,
    replaceAux_fuel old new ho _ (s.length + 1) none s (by simp) (by omega)]

/-- the first occurrence is replaced, the rest is kept -/
theorem replace1_first {old new a s : Str} (ho : old ≠ []) (h : ∀ x c y, a = x ++ c :: y → ¬ old <+: c :: (y ++ (old ++ s))) :
    replace1 old new (a ++ (old ++ s)) = a ++ (new ++ s) := by
  unfold replace1
  rw [List.length_append, Nat.add_assoc, replaceAux_skip _ _ _ _ _ _ (by simp) h, replaceAux_hit _ _ _ _ _ (by simp) ho]
  simp [replaceAux_zero]

theorem replace_char (c : Char) (new s : Str) : replace [c] new s = s.flatMap fun x => if x = c then new else [x] := by
  induction s with
  | nil => simp [replace_nil]
  | cons x s ih =>
    by_cases hx : x = c
    · subst hx
      have := replace_hit (old := [x]) (new := new) (s := s) (by simp)
      simp only [List.singleton_append] at this
      rw [this, ih]; simp
    · have := replace_skip (old := [c]) (new := new) (a := [x]) (s := s) (by simp) (by
        intro a c' y e
        have hc : c' = x := by
          cases a with
          | nil => simp at e; exact e.1.symm
          | cons a0 a => simp at e
        subst hc
        rintro ⟨t, ht⟩
        simp at ht
        exact hx ht.1.symm)
      simp only [List.singleton_append] at this
      rw [this, ih]; simp [hx]

/-! ## numbers -/

theorem digits_all {b : Nat} {s : Str} {n : Nat} (h : Digits b s n) : ∀ c ∈ s, c ≠ '_' → ∃ d, digitVal c = some d ∧ d < b := by
  induction h with
  | one h => intro c hc _; simp at hc; subst hc; exact ⟨_, isDigitOf_iff.mp h⟩
  | snoc hs h ih =>
    intro c hc hu
    rcases List.mem_append.mp hc with hc | hc
    · exact ih c hc hu
    · simp at hc; subst hc; exact ⟨_, isDigitOf_iff.mp h⟩
  | under hs h ih =>
    intro c hc hu
    rcases List.mem_append.mp hc with hc | hc
    · exact ih c hc hu
    · simp at hc
      rcases hc with rfl | rfl
      · exact absurd rfl hu
      · exact ⟨_, isDigitOf_iff.mp h⟩

/-- `int(s, b)` without a prefix -/
theorem readNatB_digits {b : Nat} (hb : b ≤ 16) {s : Str} {n : Nat} (h : Digits b s n) : readNatB b s = some n := by
  have hr : readDigits b 0 true s = some n := read_digits.mpr h
  unfold readNatB
  split
  · rename_i x rest
    rw [if_neg]
    · exact hr
    · rintro ⟨rfl, hx⟩
      have hm : x ∈ '0' :: x :: rest := by simp
      obtain ⟨d, h1, h2⟩ := digits_all h x hm (by rcases hx with rfl | rfl <;> decide)
      rcases hx with rfl | rfl
      · have : digitVal 'x' = some 33 := by decide
        rw [this] at h1; simp at h1; omega
      · have : digitVal 'X' = some 33 := by decide
        rw [this] at h1; simp at h1; omega
  · exact hr

/-- a number in base `b`, with a sign if negative -/
def intDigits (b : Nat) (i : Int) : Str := if i < 0 then '-' :: Nat.toDigits b i.natAbs else Nat.toDigits b i.natAbs

theorem digits_nospace {b : Nat} {s : Str} {n : Nat} (h : Digits b s n) : ∀ c ∈ s, isSpace c = false := by
  intro c hc
  by_cases hu : c = '_'
  · subst hu; decide
  · obtain ⟨d, hd, _⟩ := digits_all h c hc hu
    exact digitVal_not_space hd

theorem intB_digits {b : Nat} (hb : b ≤ 16) {s : Str} {n : Nat} (h : Digits b s n) :
    intB b s = some (n : Int) ∧ intB b ('-' :: s) = some (-(n : Int)) := by
  have hsp := digits_nospace h
  constructor
  · unfold intB
    rw [strip_nospace hsp]
    obtain ⟨c, t, d, rfl, hd, _⟩ := h.head
    have h1 : c ≠ '-' := by rintro rfl; simp [digitVal, isDigit, isLower, isUpper] at hd
    have h2 : c ≠ '+' := by rintro rfl; simp [digitVal, isDigit, isLower, isUpper] at hd
    split
    · rename_i r e; simp at e; exact absurd e.1 h1
    · rename_i r e; simp at e; exact absurd e.1 h2
    · rw [readNatB_digits hb h]; rfl
  · unfold intB
    rw [strip_nospace (by intro c hc; rcases List.mem_cons.mp hc with rfl | hc; decide; exact hsp c hc)]
    simp [readNatB_digits hb h]

theorem intB_intDigits {b : Nat} (hb1 : 1 < b) (hb : b ≤ 16) (i : Int) : intB b (intDigits b i) = some i := by
  unfold intDigits
  have h := digits_toDigits hb1 hb i.natAbs
  split
  · rw [(intB_digits hb h).2]; congr 1; omega
  · rw [(intB_digits hb h).1]; congr 1; omega

theorem intDigits_ten (i : Int) : intDigits 10 i = intStr i := rfl

/-! ## the signed number group -/

theorem m_signed {α : Type} {n : Nat} {p : Char → Bool} (hp : ∀ c, isSign c = true → p c = false) (sg ds : Str) {rest : Str}
    {c : Caps} {k : Str → Caps → Option α} {v : α} (hsg : sg = [] ∨ ∃ x, sg = [x] ∧ isSign x = true) (hne : ds ≠ [])
    (hd : ∀ y ∈ ds, p y = true) (hr : ∀ y ∈ rest.head?, p y = false) (hk : k rest ((n, sg ++ ds) :: c) = some v) :
    m (signedRe n p) (sg ++ ds ++ rest) c k = some v := by
  unfold signedRe
  rw [m.eq_8, m.eq_4]
  unfold opt
  rw [m.eq_5]
  have htake : (sg ++ ds ++ rest).take ((sg ++ ds ++ rest).length - rest.length) = sg ++ ds := by
    rw [List.length_append, Nat.add_sub_cancel, List.take_left']; rfl
  rcases hsg with rfl | ⟨x, rfl, hx⟩
  · cases ds with
    | nil => exact absurd rfl hne
    | cons y ds =>
      have hy : isSign y = false := by
        cases h : isSign y with
        | false => rfl
        | true => exact absurd (hp y h) (by simp [hd y (by simp)])
      simp only [List.nil_append, List.cons_append, m, hy, Bool.false_eq_true, if_false]
      have := m_plus_max (p := p) (y :: ds) (rest := rest) (c := c)
        (k := fun s' c' => k s' ((n, (y :: (ds ++ rest)).take ((y :: (ds ++ rest)).length - s'.length)) :: c')) (v := v)
        (by simp) hd hr (by
          have h2 := htake
          simp only [List.nil_append, List.cons_append] at h2
          rw [h2]; simpa using hk)
      simpa using this
  · simp only [List.singleton_append, List.cons_append, List.nil_append, m, hx, if_true]
    have := m_plus_max (p := p) ds (rest := rest) (c := c)
      (k := fun s' c' => k s' ((n, (x :: (ds ++ rest)).take ((x :: (ds ++ rest)).length - s'.length)) :: c')) (v := v)
      hne hd hr (by
        have h2 := htake
        simp only [List.singleton_append, List.cons_append, List.nil_append] at h2
        rw [h2]; simpa using hk)
    rw [this]

theorem toDigits_mem {b : Nat} (hb1 : 1 < b) (hb : b ≤ 16) (n : Nat) : ∀ c ∈ Nat.toDigits b n, ∃ d, d < b ∧ c = Nat.digitChar d := by
  induction n using Nat.strongRecOn with
  | _ n ih =>
    rw [Nat.toDigits_eq_if hb1]
    intro c hc
    split at hc
    · rename_i h; simp at hc; exact ⟨n, h, hc⟩
    · rename_i h
      rcases List.mem_append.mp hc with hc | hc
      · exact ih (n / b) (Nat.div_lt_self (by omega) hb1) c hc
      · simp at hc; exact ⟨n % b, Nat.mod_lt _ (by omega), hc⟩

theorem hex_isHex {n : Nat} : ∀ c ∈ Nat.toDigits 16 n, isHex c = true := by
  intro c hc
  obtain ⟨d, hd, rfl⟩ := toDigits_mem (by decide) (by decide) n c hc
  clear hc
  revert d
  decide

theorem dec_isDigit {n : Nat} : ∀ c ∈ Nat.toDigits 10 n, isDigit c = true := by
  intro c hc
  obtain ⟨d, hd, rfl⟩ := toDigits_mem (by decide) (by decide) n c hc
  clear hc
  revert d
  decide

theorem m_signed_int {α : Type} {n b : Nat} {p : Char → Bool} (hp : ∀ c, isSign c = true → p c = false)
    (hd : ∀ n, ∀ c ∈ Nat.toDigits b n, p c = true) (i : Int) {rest : Str}
    {c : Caps} {k : Str → Caps → Option α} {v : α} (hr : ∀ y ∈ rest.head?, p y = false)
    (hk : k rest ((n, intDigits b i) :: c) = some v) : m (signedRe n p) (intDigits b i ++ rest) c k = some v := by
  unfold intDigits at *
  split
  · rename_i h
    rw [if_pos h] at hk
    exact m_signed hp ['-'] _ (Or.inr ⟨'-', rfl, by decide⟩) Nat.toDigits_ne_nil (hd _) hr hk
  · rename_i h
    rw [if_neg h] at hk
    exact m_signed hp [] _ (Or.inl rfl) Nat.toDigits_ne_nil (hd _) hr hk

theorem isSign_not_hex : ∀ c, isSign c = true → isHex c = false := by
  intro c h
  simp only [isSign, Bool.or_eq_true, beq_iff_eq] at h
  rcases h with rfl | rfl <;> decide

theorem isSign_not_digit : ∀ c, isSign c = true → isDigit c = false := by
  intro c h
  simp only [isSign, Bool.or_eq_true, beq_iff_eq] at h
  rcases h with rfl | rfl <;> decide

theorem m_group {α : Type} {n : Nat} {r : Re} {x rest : Str} {c : Caps} {k : Str → Caps → Option α} {v : α}
    (h : m r (x ++ rest) c (fun s' c' => k s' ((n, (x ++ rest).take ((x ++ rest).length - s'.length)) :: c')) = some v) :
    m (.group n r) (x ++ rest) c k = some v := by
  rw [m.eq_8]; exact h

/-- the search skips text without the first character of the pattern -/
theorem search_skip {r : Re} {ch : Char} {lead s : Str} (hr : ∀ x t, x ≠ ch → matchPrefix r (x :: t) = none) (hl : ch ∉ lead)
    {c : Caps} {rest : Str} (hs : matchPrefix r s = some (c, rest)) :
    search r (lead ++ s) = some (lead.length, c, rest) := by
  unfold search
  have gen : ∀ (lead : Str) (i : Nat), ch ∉ lead → searchFrom r i (lead ++ s) = some (i + lead.length, c, rest) := by
    intro lead
    induction lead with
    | nil =>
      intro i _
      cases s with
      | nil => simp [searchFrom, hs]
      | cons x s => simp [searchFrom, hs]
    | cons x lead ih =>
      intro i h
      simp only [List.cons_append, searchFrom]
      rw [hr x _ (by rintro rfl; exact h (by simp)), ih (i + 1) (fun hm => h (by simp [hm]))]
      simp; omega
  simpa using gen lead 0 hl


/-- a blank more in front of words -/
theorem Spaced.lead_blank {ws : List Str} {t : Str} (h : Spaced ws t) : Spaced ws (' ' :: t) := by
  have hb : ∀ {l : Str}, AllC isSpace l → AllC isSpace (' ' :: l) := by
    intro l hl c hc
    rcases List.mem_cons.mp hc with rfl | hc
    · decide
    · exact hl c hc
  cases h with
  | nil h => exact .nil (hb h)
  | last h1 hw h2 h3 => exact Spaced.last (hb h1) hw h2 h3
  | cons h1 hw h2 h3 ht => exact Spaced.cons (hb h1) hw h2 h3 ht

end Trappy
