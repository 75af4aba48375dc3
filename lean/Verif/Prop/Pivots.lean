import Verif.Prop.Constraint
import Verif.Lemma.IntLit
/-!
# C68: the list of pivot values
-/

namespace Trappy

open Py

/-! ## Integers in a fixed base -/

/-- **Specification**: unsigned integer in base `b`; in base 16 it may begin with `0x`, `0X`, `0x_` or `0X_`. -/
inductive BaseLit (b : Nat) : Str → Nat → Prop where
  | digits {s : Str} {n : Nat} (h : Digits b s n) : BaseLit b s n
  | hex {x : Char} {s : Str} {n : Nat} (hb : b = 16) (hx : x = 'x' ∨ x = 'X') (h : Digits b s n) : BaseLit b ('0' :: x :: s) n
  | hexUnder {x : Char} {s : Str} {n : Nat} (hb : b = 16) (hx : x = 'x' ∨ x = 'X') (h : Digits b s n) : BaseLit b ('0' :: x :: '_' :: s) n

/-- **Specification**: integer in base `b` with optional sign. -/
inductive SignedLit (b : Nat) : Str → Int → Prop where
  | plain {s : Str} {n : Nat} (h : BaseLit b s n) : SignedLit b s n
  | plus {s : Str} {n : Nat} (h : BaseLit b s n) : SignedLit b ('+' :: s) n
  | minus {s : Str} {n : Nat} (h : BaseLit b s n) : SignedLit b ('-' :: s) (-(n : Int))

theorem BaseLit.head {b : Nat} {s : Str} {n : Nat} (h : BaseLit b s n) : ∃ c t d, s = c :: t ∧ digitVal c = some d := by
  cases h with
  | digits h => obtain ⟨c, t, d, e, hd, _⟩ := h.head; exact ⟨c, t, d, e, hd⟩
  | hex hb hx h => exact ⟨'0', _, 0, rfl, rfl⟩
  | hexUnder hb hx h => exact ⟨'0', _, 0, rfl, rfl⟩

theorem digits_no_x {b : Nat} (hb : b = 16) {x : Char} (hx : x = 'x' ∨ x = 'X') {r : Str} {n : Nat} : ¬ Digits b ('0' :: x :: r) n := by
  subst hb
  intro h
  rw [← read_digits] at h
  rcases hx with rfl | rfl
  · simp [readDigits, digitVal, isDigit, isLower] at h
  · simp [readDigits, digitVal, isDigit, isLower, isUpper] at h

theorem readNatB_iff {b : Nat} {s : Str} {n : Nat} : readNatB b s = some n ↔ BaseLit b s n := by
  unfold readNatB
  split
  next x rest =>
    split
    next hx =>
      change readBody b rest = some n ↔ _
      rw [readBody_iff]
      constructor
      · rintro (h | ⟨r, rfl, h⟩)
        · exact .hex hx.1 hx.2 h
        · exact .hexUnder hx.1 hx.2 h
      · intro h
        cases h with
        | digits h => exact absurd h (digits_no_x hx.1 hx.2)
        | hex _ _ h => exact Or.inl h
        | hexUnder _ _ h => exact Or.inr ⟨_, rfl, h⟩
    next hx =>
      rw [read_digits]
      constructor
      · exact .digits
      · intro h
        cases h with
        | digits h => exact h
        | hex h1 h2 _ => exact absurd ⟨h1, h2⟩ hx
        | hexUnder h1 h2 _ => exact absurd ⟨h1, h2⟩ hx
  next hne =>
    rw [read_digits]
    constructor
    · exact .digits
    · intro h
      cases h with
      | digits h => exact h
      | hex _ _ _ => exact absurd rfl (hne _ _)
      | hexUnder _ _ _ => exact absurd rfl (hne _ _)

/-- `int(s)` and `int(s, 16)` read exactly the integers in that base, with blanks around them. -/
theorem intB_iff {b : Nat} {s : Str} {i : Int} : intB b s = some i ↔ SignedLit b (strip s) i := by
  unfold intB
  constructor
  · intro h
    split at h
    · rename_i r e
      rw [e]
      simp only [Option.map_eq_some_iff] at h
      obtain ⟨n, h1, rfl⟩ := h
      exact .minus (readNatB_iff.mp h1)
    · rename_i r e
      rw [e]
      simp only [Option.map_eq_some_iff] at h
      obtain ⟨n, h1, rfl⟩ := h
      exact .plus (readNatB_iff.mp h1)
    · simp only [Option.map_eq_some_iff] at h
      obtain ⟨n, h1, rfl⟩ := h
      exact .plain (readNatB_iff.mp h1)
  · intro h
    generalize strip s = t at h
    cases h with
    | minus h => simp [readNatB_iff.mpr h]
    | plus h => simp [readNatB_iff.mpr h]
    | plain h =>
      obtain ⟨c, t', d, e, hd⟩ := h.head
      have h1 : c ≠ '-' := by rintro rfl; revert hd; simp [digitVal, isDigit, isLower, isUpper]
      have h2 : c ≠ '+' := by rintro rfl; revert hd; simp [digitVal, isDigit, isLower, isUpper]
      subst e
      split
      · rename_i e; cases e; exact absurd rfl h1
      · rename_i e; cases e; exact absurd rfl h2
      · rw [readNatB_iff.mpr h]; rfl

/-! ## Sorting -/

theorem insertBy_perm {α : Type} (lt : α → α → Bool) (a : α) (l : List α) : (insertBy lt a l).Perm (a :: l) := by
  induction l with
  | nil => exact .refl _
  | cons b l ih =>
    unfold insertBy
    split
    · exact (ih.cons b).trans (.swap a b l)
    · exact .refl _

theorem sortBy_perm {α : Type} (lt : α → α → Bool) (l : List α) : (sortBy lt l).Perm l := by
  induction l with
  | nil => exact .refl _
  | cons a l ih => exact (insertBy_perm lt a _).trans (ih.cons a)

theorem insertBy_sorted {α : Type} {lt : α → α → Bool} (hasymm : ∀ a b, lt a b = true → lt b a = false)
    (htrans : ∀ a b c, lt b a = false → lt c b = false → lt c a = false) (a : α) (l : List α)
    (h : l.Pairwise fun x y => lt y x = false) : (insertBy lt a l).Pairwise fun x y => lt y x = false := by
  induction l with
  | nil => simp [insertBy]
  | cons b l ih =>
    rw [List.pairwise_cons] at h
    unfold insertBy
    split
    next hb =>
      rw [List.pairwise_cons]
      refine ⟨fun y hy => ?_, ih h.2⟩
      rcases List.mem_cons.1 ((insertBy_perm lt a l).mem_iff.1 hy) with rfl | hy
      · exact hasymm _ _ hb
      · exact h.1 y hy
    next hb =>
      rw [List.pairwise_cons, List.pairwise_cons]
      refine ⟨fun y hy => ?_, h⟩
      simp only [Bool.not_eq_true] at hb
      rcases List.mem_cons.1 hy with rfl | hy
      · exact hb
      · exact htrans _ _ _ hb (h.1 y hy)

theorem sortBy_sorted {α : Type} {lt : α → α → Bool} (hasymm : ∀ a b, lt a b = true → lt b a = false)
    (htrans : ∀ a b c, lt b a = false → lt c b = false → lt c a = false) (l : List α) :
    (sortBy lt l).Pairwise fun x y => lt y x = false := by
  induction l with
  | nil => exact List.Pairwise.nil
  | cons a l ih => exact insertBy_sorted hasymm htrans a _ ih

/-- **Specification**: order of strings by their code points, letter by letter, a prefix first -/
def codes (s : Str) : List Nat := s.map Char.toNat

theorem strLt_iff (s t : Str) : strLt s t = true ↔ codes s < codes t := by
  induction s generalizing t with
  | nil =>
    cases t with
    | nil => simp [strLt, codes]
    | cons b t => simp [strLt, codes]
  | cons a s ih =>
    cases t with
    | nil => simp [strLt, codes]
    | cons b t =>
      unfold strLt
      unfold codes at ih ⊢
      rw [List.map_cons, List.map_cons, List.cons_lt_cons_iff]
      by_cases h1 : a.toNat < b.toNat
      · simp [h1]
      · rw [if_neg h1]
        by_cases h2 : b.toNat < a.toNat
        · rw [if_pos h2]
          simp only [Bool.false_eq_true, false_iff]
          omega
        · rw [if_neg h2, ih]
          have : a.toNat = b.toNat := by omega
          simp [this]

/-! ## C68 -/

theorem keyAll_spec (key : Val → Option Int) (vs : List Val) :
    (∀ ks, keyAll key vs = some ks → ks.map Prod.snd = vs ∧ ∀ k ∈ ks, key k.2 = some k.1) ∧
    (keyAll key vs = none ↔ ∃ v ∈ vs, key v = none) := by
  induction vs with
  | nil => simp [keyAll]
  | cons v vs ih =>
    unfold keyAll
    cases hk : key v with
    | none => simp [hk]
    | some k =>
      cases hr : keyAll key vs with
      | none =>
        have := ih.2.1 hr
        obtain ⟨u, hu, hu'⟩ := this
        exact ⟨fun ks h' => (by cases h'), ⟨fun _ => ⟨u, List.mem_cons_of_mem _ hu, hu'⟩, fun _ => rfl⟩⟩
      | some r =>
        obtain ⟨h1, h2⟩ := ih.1 r hr
        refine ⟨?_, ?_⟩
        · rintro ks ⟨rfl⟩
          refine ⟨by simp [h1], ?_⟩
          intro x hx
          rcases List.mem_cons.1 hx with rfl | hx
          · exact hk
          · exact h2 x hx
        · simp only [reduceCtorEq, false_iff, not_exists, not_and]
          intro u hu hu'
          rcases List.mem_cons.1 hu with rfl | hu
          · rw [hk] at hu'; cases hu'
          · have := ih.2.2 ⟨u, hu, hu'⟩
            rw [hr] at this
            cases this

theorem allStr_spec (vs : List Val) :
    (∀ ss, allStr vs = some ss → vs = ss.map Val.str) ∧ (allStr vs = none ↔ ∃ i, Val.int i ∈ vs) := by
  induction vs with
  | nil => simp [allStr]
  | cons v vs ih =>
    cases v with
    | int i => exact ⟨by simp [allStr], by simp only [allStr, true_iff]; exact ⟨i, List.mem_cons_self⟩⟩
    | str s =>
      unfold allStr
      cases h : allStr vs with
      | none =>
        obtain ⟨i, hi⟩ := ih.2.1 h
        exact ⟨by simp, by simp only [true_iff]; exact ⟨i, List.mem_cons_of_mem _ hi⟩⟩
      | some r =>
        have := ih.1 r h
        refine ⟨?_, ?_⟩
        · rintro ss ⟨rfl⟩
          rw [this]
          rfl
        · simp only [reduceCtorEq, false_iff, not_exists]
          intro i hi
          rcases List.mem_cons.1 hi with hi | hi
          · cases hi
          · have := ih.2.2 ⟨i, hi⟩
            rw [h] at this
            cases this

/-- **Specification**: the value is a decimal integer. -/
inductive DecimalVal : Val → Int → Prop where
  | int (i : Int) : DecimalVal (.int i) i
  | str {s : Str} {i : Int} (h : SignedLit 10 (strip s) i) : DecimalVal (.str s) i

/-- **Specification**: the value is a string with a hexadecimal integer. -/
inductive HexVal : Val → Int → Prop where
  | str {s : Str} {i : Int} (h : SignedLit 16 (strip s) i) : HexVal (.str s) i

theorem decKey_iff (v : Val) (i : Int) : decKey v = some i ↔ DecimalVal v i := by
  cases v with
  | int j =>
    constructor
    · rintro ⟨rfl⟩; exact .int _
    · rintro ⟨⟩; rfl
  | str s =>
    constructor
    · intro h; exact .str (intB_iff.1 h)
    · rintro ⟨⟩; exact intB_iff.2 ‹_›

theorem hexKey_iff (v : Val) (i : Int) : hexKey v = some i ↔ HexVal v i := by
  cases v with
  | int j =>
    constructor
    · intro h; cases h
    · rintro ⟨⟩
  | str s =>
    constructor
    · intro h; exact .str (intB_iff.1 h)
    · rintro ⟨⟩; exact intB_iff.2 ‹_›

/-- **Specification**: ascending: by value if all are decimal integers; otherwise by value if all are hexadecimal; otherwise
all are strings in the order of their code points. -/
def Ascending (vs : List Val) : Prop :=
  ((∀ v ∈ vs, ∃ i, DecimalVal v i) → vs.Pairwise fun a b => ∀ i j, DecimalVal a i → DecimalVal b j → i ≤ j) ∧
  ((¬ ∀ v ∈ vs, ∃ i, DecimalVal v i) → (∀ v ∈ vs, ∃ i, HexVal v i) → vs.Pairwise fun a b => ∀ i j, HexVal a i → HexVal b j → i ≤ j) ∧
  ((¬ ∀ v ∈ vs, ∃ i, DecimalVal v i) → (¬ ∀ v ∈ vs, ∃ i, HexVal v i) → ∃ ss : List Str, vs = ss.map Val.str ∧ ss.Pairwise fun a b => codes a ≤ codes b)

theorem keyed_sorted (key : Val → Option Int) {vs : List Val} {ks : List (Int × Val)} (h : keyAll key vs = some ks) :
    let l := (sortBy (fun a b => decide (a.1 < b.1)) ks).map Prod.snd
    l.Perm vs ∧ l.Pairwise fun a b => ∀ i j, key a = some i → key b = some j → i ≤ j := by
  obtain ⟨h1, h2⟩ := (keyAll_spec key vs).1 ks h
  have hp := sortBy_perm (fun a b : Int × Val => decide (a.1 < b.1)) ks
  refine ⟨h1 ▸ hp.map _, ?_⟩
  rw [List.pairwise_map]
  have hs := sortBy_sorted (lt := fun a b : Int × Val => decide (a.1 < b.1)) (by intro a b; simp; omega) (by intro a b c; simp; omega) ks
  refine hs.imp_of_mem ?_
  intro a b ha hb hab i j hi hj
  rw [h2 a (hp.mem_iff.1 ha)] at hi
  rw [h2 b (hp.mem_iff.1 hb)] at hj
  cases hi
  cases hj
  simpa using hab

theorem sortPivots_spec {vs l : List Val} (h : sortPivots vs = some l) : l.Perm vs ∧ Ascending l := by
  unfold sortPivots at h
  split at h
  next ks hk =>
    cases h
    obtain ⟨h1, h2⟩ := keyed_sorted decKey hk
    refine ⟨h1, ?_, ?_, ?_⟩
    · intro _
      refine h2.imp ?_
      intro a b hab i j hi hj
      exact hab i j ((decKey_iff _ _).2 hi) ((decKey_iff _ _).2 hj)
    all_goals
      intro hn
      exfalso
      apply hn
      intro v hv
      cases hd : decKey v with
      | none =>
        have := (keyAll_spec decKey vs).2.2 ⟨v, h1.mem_iff.1 hv, hd⟩
        rw [hk] at this
        cases this
      | some i => exact ⟨i, (decKey_iff _ _).1 hd⟩
  next hk =>
    obtain ⟨u, hu, hu'⟩ := (keyAll_spec decKey vs).2.1 hk
    have hnd : ∀ l : List Val, l.Perm vs → ¬ ∀ v ∈ l, ∃ i, DecimalVal v i := by
      intro l hl hall
      obtain ⟨i, hi⟩ := hall u (hl.mem_iff.2 hu)
      rw [(decKey_iff _ _).2 hi] at hu'
      cases hu'
    split at h
    next ks hx =>
      cases h
      obtain ⟨h1, h2⟩ := keyed_sorted hexKey hx
      refine ⟨h1, fun hd => absurd hd (hnd _ h1), ?_, ?_⟩
      · intro _ _
        refine h2.imp ?_
        intro a b hab i j hi hj
        exact hab i j ((hexKey_iff _ _).2 hi) ((hexKey_iff _ _).2 hj)
      · intro _ hn
        exfalso
        apply hn
        intro v hv
        cases hd : hexKey v with
        | none =>
          have := (keyAll_spec hexKey vs).2.2 ⟨v, h1.mem_iff.1 hv, hd⟩
          rw [hx] at this
          cases this
        | some i => exact ⟨i, (hexKey_iff _ _).1 hd⟩
    next hx =>
      obtain ⟨w, hw, hw'⟩ := (keyAll_spec hexKey vs).2.1 hx
      split at h
      next ss hs =>
        cases h
        have e := (allStr_spec vs).1 ss hs
        have hp : ((sortBy strLt ss).map Val.str).Perm vs := e ▸ (sortBy_perm strLt ss).map _
        refine ⟨hp, fun hd => absurd hd (hnd _ hp), ?_, ?_⟩
        · intro _ hall
          obtain ⟨i, hi⟩ := hall w (hp.mem_iff.2 hw)
          rw [(hexKey_iff _ _).2 hi] at hw'
          cases hw'
        · intro _ _
          refine ⟨sortBy strLt ss, rfl, ?_⟩
          have := sortBy_sorted (lt := strLt) ?_ ?_ ss
          · refine this.imp ?_
            intro a b hab
            rw [← Bool.not_eq_true, strLt_iff] at hab
            exact List.not_lt.1 hab
          · intro a b hab
            rw [strLt_iff] at hab
            rw [← Bool.not_eq_true, strLt_iff]
            exact List.lt_asymm hab
          · intro a b c hab hbc
            rw [← Bool.not_eq_true, strLt_iff] at hab hbc ⊢
            exact List.le_trans (List.not_lt.1 hab) (List.not_lt.1 hbc)
      next => cases h

theorem sortPivots_none (vs : List Val) : sortPivots vs = none ↔ (∃ i, Val.int i ∈ vs) ∧ ∃ v ∈ vs, ∀ i, ¬ DecimalVal v i := by
  unfold sortPivots
  cases hk : keyAll decKey vs with
  | some ks =>
    simp only [reduceCtorEq, false_iff, not_and]
    rintro - ⟨v, hv, hn⟩
    have : keyAll decKey vs = none := by
      rw [(keyAll_spec decKey vs).2]
      refine ⟨v, hv, ?_⟩
      cases h : decKey v with
      | none => rfl
      | some i => exact absurd ((decKey_iff _ _).1 h) (hn i)
    rw [hk] at this
    cases this
  | none =>
    obtain ⟨u, hu, hu'⟩ := (keyAll_spec decKey vs).2.1 hk
    have h2 : ∃ v ∈ vs, ∀ i, ¬ DecimalVal v i := ⟨u, hu, fun i hi => by rw [(decKey_iff _ _).2 hi] at hu'; cases hu'⟩
    simp only [h2, and_true]
    cases hx : keyAll hexKey vs with
    | some ks =>
      simp only [reduceCtorEq, false_iff, not_exists]
      intro i hi
      have := (keyAll_spec hexKey vs).2.2 ⟨_, hi, rfl⟩
      rw [hx] at this
      cases this
    | none =>
      simp only
      cases hs : allStr vs with
      | none => simpa using (allStr_spec vs).2.1 hs
      | some ss =>
        simp only [reduceCtorEq, false_iff]
        rw [← (allStr_spec vs).2, hs]
        simp

/-- **C68 (pivots).** Each pivot value of some constraint is listed exactly once, in ascending order, with the number of values. For all results
of constraints and all orders of iteration. -/
theorem C68_pivots {enum : List Val → List Val} (he : Enumerates enum) {results : List (List (Val × PSeries))} {l : List Val} {n : Nat}
    (h : generatePivots enum results = some (l, n)) :
    l.Nodup ∧ (∀ v, v ∈ l ↔ ∃ r ∈ results, ∃ s, (v, s) ∈ r) ∧ Ascending l ∧ n = l.length := by
  unfold generatePivots at h
  split at h
  next l' hl =>
    cases h
    obtain ⟨hp, ha⟩ := sortPivots_spec hl
    refine ⟨hp.nodup_iff.2 (he _).1, fun v => ?_, ha, rfl⟩
    rw [hp.mem_iff, (he _).2]
    simp
  next => cases h

/-- **C68 (failure).** `TypeError` is raised exactly if one pivot value is an integer and one is not a decimal integer; in all other cases a list is returned. -/
theorem C68_fails {enum : List Val → List Val} (he : Enumerates enum) (results : List (List (Val × PSeries))) :
    generatePivots enum results = none ↔
      (∃ i, ∃ r ∈ results, ∃ s, (Val.int i, s) ∈ r) ∧ ∃ v, (∃ r ∈ results, ∃ s, (v, s) ∈ r) ∧ ∀ i, ¬ DecimalVal v i := by
  unfold generatePivots
  have h := sortPivots_none (enum (results.flatMap fun r => r.map Prod.fst))
  have hm : ∀ v, v ∈ enum (results.flatMap fun r => r.map Prod.fst) ↔ ∃ r ∈ results, ∃ s, (v, s) ∈ r := by
    intro v
    rw [(he _).2]
    simp
  simp only [hm] at h
  split
  next l hl =>
    rw [hl] at h
    simpa using h
  next hl =>
    rw [hl] at h
    simpa using h

/-- **C68 (pairs).** With permutation each pair of a trace and a pivot value is listed exactly once, ordered by trace and then by pivot value as without permutation. -/
theorem C68_pairs {enum : List Val → List Val} {n : Nat} {results : List (List (Val × PSeries))}
    {l : List (Nat × Val)} {k : Nat} (h : generatePairs enum n results = some (l, k)) :
    ∃ ps, generatePivots enum results = some (ps, ps.length) ∧ k = l.length ∧ k = ps.length * n ∧
      ∀ i, i < n → ∀ j, j < ps.length → ∃ p, ps[j]? = some p ∧ l[i * ps.length + j]? = some (i, p) := by
  unfold generatePairs at h
  split at h
  next ps hps =>
    cases h
    have key : ∀ m, ((List.range m).flatMap fun i => ps.map fun p => (i, p)).length = m * ps.length ∧
        ∀ i, i < m → ∀ j, j < ps.length → ∃ p, ps[j]? = some p ∧ ((List.range m).flatMap fun i => ps.map fun p => (i, p))[i * ps.length + j]? = some (i, p) := by
      intro m
      induction m with
      | zero => simp
      | succ m ih =>
        rw [List.range_succ, List.flatMap_append]
        have hl : ([m].flatMap fun i => ps.map fun p => (i, p)) = ps.map fun p => (m, p) := by simp
        rw [hl]
        refine ⟨by rw [List.length_append, ih.1, List.length_map, Nat.succ_mul], ?_⟩
        intro i hi j hj
        by_cases hm : i < m
        · obtain ⟨p, h1, h2⟩ := ih.2 i hm j hj
          refine ⟨p, h1, ?_⟩
          rw [List.getElem?_append_left, h2]
          rw [ih.1]
          calc i * ps.length + j < i * ps.length + ps.length := by omega
            _ = (i + 1) * ps.length := by rw [Nat.succ_mul]
            _ ≤ m * ps.length := Nat.mul_le_mul_right _ hm
        · have : i = m := by omega
          subst this
          refine ⟨ps[j], by simp [hj], ?_⟩
          rw [List.getElem?_append_right (by rw [ih.1]; omega), ih.1, Nat.add_sub_cancel_left]
          simp [hj]
    refine ⟨ps, by unfold generatePivots; rw [hps], ?_, rfl, (key n).2⟩
    rw [(key n).1, Nat.mul_comm]
  next => cases h

/-- `C68_pivots`: two constraints with pivot values 10, "9" and 2 -/
example : generatePivots uniqVals [[(.int 10, []), (.str cs!"9", [])], [(.int 2, []), (.int 10, [])]] =
    some ([.int 2, .str cs!"9", .int 10], 3) := by decide +kernel

/-- `C68_pivots`: hexadecimal masks, and names -/
example : generatePivots uniqVals [[(.str cs!"f0", []), (.str cs!"f", []), (.str cs!"0x1F", [])]] =
    some ([.str cs!"f", .str cs!"0x1F", .str cs!"f0"], 3) ∧
    generatePivots uniqVals [[(.str cs!"sh", []), (.str cs!"bash", []), (.str cs!"1", [])]] =
    some ([.str cs!"1", .str cs!"bash", .str cs!"sh"], 3) := by
  refine ⟨?_, ?_⟩ <;> decide +kernel

/-- `C68_fails`: an integer and a name -/
example : generatePivots uniqVals [[(.int 1, []), (.str cs!"bash", [])]] = none := by decide +kernel

/-- `C68_pairs`: two traces, two pivot values -/
example : generatePairs uniqVals 2 [[(.int 1, []), (.int 0, [])]] =
    some ([(0, .int 0), (0, .int 1), (1, .int 0), (1, .int 1)], 4) := by decide +kernel

end Trappy
