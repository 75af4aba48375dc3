import Verif.Prop.Grammar
/-!
# C63: texts of expressions without blanks
-/

namespace Trappy

/-- **Specification**: a text: every token followed by some blanks, or by none -/
def blanked : List (GTok × Nat) → Str
  | [] => []
  | (t, n) :: ts => t.text ++ (List.replicate n ' ' ++ blanked ts)

/-- a name or a number -/
def GTok.IsWord : GTok → Prop
  | .num _ => True
  | .name _ => True
  | _ => False

/-- **Specification**: the tokens may be written without a blank between them -/
def GTok.Joins : GTok → GTok → Prop
  | .num _, b => ¬ b.IsWord
  | .name _, b => ¬ b.IsWord
  | .op _ _, .op o _ => o = .add ∨ o = .sub
  | _, _ => True

/-- the token after the blanks is a number -/
def digitAfter : Nat → List (GTok × Nat) → Bool
  | 0, (.num _, _) :: _ => true
  | _, _ => false

/-- **Specification**: blanks are left out only where the tokens stay apart; tokens are those of plain expressions, and an operator says if a digit follows -/
def Written : List (GTok × Nat) → Prop
  | [] => True
  | (t, n) :: ts => (match t with | .op _ g => g = digitAfter n ts | t => t.Plain) ∧ (n = 0 → ∀ x ∈ ts.head?, GTok.Joins t x.1) ∧ Written ts

/-- the first character of a text is none that continues a word -/
def StopsWord (s : Str) : Prop := ∀ c ∈ s.head?, isIdChar c = false ∧ c ≠ '.'

theorem GTok.text_head {t : GTok} (h : t.Plain ∨ ∃ o g, t = .op o g) : ∃ c s, t.text = c :: s ∧ (c ≠ ' ' ∧ c ≠ '\t' ∧ c ≠ '\n' ∧ c ≠ '\r') ∧
    (¬ t.IsWord → isIdChar c = false ∧ c ≠ '.') ∧ (Py.isDigit c = true ↔ ∃ x, t = .num x) ∧ ((∃ s, t = .name s) ↔ isIdStart c = true) := by
  have hdig : ∀ c, Py.isDigit c = true → (c ≠ ' ' ∧ c ≠ '\t' ∧ c ≠ '\n' ∧ c ≠ '\r') ∧ isIdStart c = false := by
    intro c hc
    refine ⟨⟨?_, ?_, ?_, ?_⟩, isDigit_not_idStart c hc⟩ <;> rintro rfl <;> revert hc <;> decide
  have hids : ∀ c, isIdStart c = true → (c ≠ ' ' ∧ c ≠ '\t' ∧ c ≠ '\n' ∧ c ≠ '\r') ∧ Py.isDigit c = false := by
    intro c hc
    constructor
    · refine ⟨?_, ?_, ?_, ?_⟩ <;> rintro rfl <;> revert hc <;> decide
    · rw [Bool.eq_false_iff]
      intro hd
      rw [isDigit_not_idStart c hd] at hc
      cases hc
  cases t with
  | num t =>
    rcases h with ⟨hne, h⟩ | ⟨_, _, h⟩
    · cases t with
      | nil => exact absurd rfl hne
      | cons c cs =>
        have hc : Py.isDigit c = true := by
          rcases h with h | ⟨a, b, e, ha, h1, _⟩
          · exact h c (by simp)
          · cases a with
            | nil => exact absurd rfl ha
            | cons a0 a =>
              simp only [List.cons_append, List.cons.injEq] at e
              rw [e.1]; exact h1 a0 (by simp)
        exact ⟨c, cs, rfl, (hdig c hc).1, fun hn => absurd trivial hn, by simp [hc], by simp [(hdig c hc).2]⟩
    · cases h
  | name s =>
    rcases h with ⟨⟨c, cs, rfl, hc⟩, h⟩ | ⟨_, _, h⟩
    · exact ⟨c, cs, rfl, (hids c hc).1, fun hn => absurd trivial hn, by simp [(hids c hc).2], by simp [hc]⟩
    · cases h
  | op o g =>
    cases o <;> exact ⟨_, _, rfl, by decide, fun _ => by decide, by simp; decide, by simp; decide⟩
  | lpar => exact ⟨_, _, rfl, by decide, fun _ => by decide, by simp; decide, by simp; decide⟩
  | rpar => exact ⟨_, _, rfl, by decide, fun _ => by decide, by simp; decide, by simp; decide⟩
  | colon => exact ⟨_, _, rfl, by decide, fun _ => by decide, by simp; decide, by simp; decide⟩
  | comma => exact ⟨_, _, rfl, by decide, fun _ => by decide, by simp; decide, by simp; decide⟩
  | bad c =>
    rcases h with h | ⟨_, _, h⟩
    · exact absurd h (by simp [GTok.Plain])
    · cases h

theorem takeDigits_stops (ds rest : Str) (hd : ∀ x ∈ ds, Py.isDigit x = true) (hc : ∀ c ∈ rest.head?, Py.isDigit c = false) : takeDigits (ds ++ rest) = (ds, rest) := by
  cases rest with
  | nil =>
    induction ds with
    | nil => rfl
    | cons d ds ih => simp only [List.cons_append, takeDigits, hd d (by simp), if_true, ih (fun x hx => hd x (by simp [hx]))]
  | cons c rest => exact takeDigits_stop ds c rest hd (hc c (by simp))

theorem takeName_stops (s rest : Str) (hr : StopsWord rest)
    (h : ∀ pre c post, s = pre ++ c :: post → isIdChar c = true ∨ (c = '.' ∧ ∃ d post', post = d :: post' ∧ isIdStart d = true)) :
    takeName (s ++ rest) = (s, rest) := by
  induction s with
  | nil =>
    rw [List.nil_append]
    cases rest with
    | nil => rfl
    | cons c rest =>
      obtain ⟨h1, h2⟩ := hr c (by simp)
      cases rest with
      | nil => simp [takeName, h1]
      | cons d rest => simp [takeName, h1, h2]
  | cons c s ih =>
    have ih := ih (fun pre x post e => h (c :: pre) x post (by rw [e]; rfl))
    have h0 := h [] c s rfl
    cases s with
    | nil =>
      have hc : isIdChar c = true := by
        rcases h0 with h0 | ⟨_, d, post, e, _⟩
        · exact h0
        · cases e
      cases rest with
      | nil => simp [takeName, hc]
      | cons d rest =>
        simp only [List.nil_append, List.cons_append] at ih ⊢
        rw [takeName, ih]
        simp [hc]
    | cons d s =>
      simp only [List.cons_append] at ih ⊢
      rw [takeName, ih, if_pos]
      rcases h0 with h0 | ⟨h1, d', post, e, h2⟩
      · simp [h0]
      · simp only [List.cons.injEq] at e
        rw [← e.1] at h2
        simp [h1, h2]

theorem isIdChar_false {c : Char} (h : isIdChar c = false) : isIdStart c = false ∧ Py.isDigit c = false := by
  unfold isIdChar at h
  simpa using h

theorem takeExp_stops (s : Str) (h : StopsWord s) : takeExp s = ([], s) := by
  cases s with
  | nil => rfl
  | cons c s =>
    obtain ⟨h1, _⟩ := h c (by simp)
    cases s with
    | nil => rfl
    | cons d s =>
      rw [takeExp, if_neg]
      rintro (rfl | rfl) <;> revert h1 <;> decide

theorem takeNum_stops {t rest : Str} (h : GTok.Plain (.num t)) (hr : StopsWord rest) : takeNum (t ++ rest) = (t, rest) := by
  have hd : ∀ c ∈ rest.head?, Py.isDigit c = false := fun c hc => (isIdChar_false (hr c hc).1).2
  rcases h.2 with h | ⟨a, b, rfl, ha, h1, h2⟩
  · unfold takeNum
    rw [takeDigits_stops t rest h hd]
    cases rest with
    | nil => rfl
    | cons c rest =>
      split
      · rename_i e
        simp only [Prod.mk.injEq, List.cons.injEq] at e
        exact absurd e.2.1 (hr c (by simp)).2
      · rfl
  · unfold takeNum
    rw [List.append_assoc, List.cons_append, takeDigits_stop a '.' _ h1 (by decide)]
    simp only
    rw [takeDigits_stops b rest h2 hd]
    simp only [takeExp_stops rest hr]
    simp

theorem takeOp_joins (o : GOp) (rest : Str) (h : ∀ c ∈ rest.head?, c ≠ '*' ∧ c ≠ '/' ∧ c ≠ '=' ∧ c ≠ '&' ∧ c ≠ '|') : takeOp (o.text ++ rest) = some (o, rest) := by
  cases rest with
  | nil => cases o <;> rfl
  | cons c rest =>
    obtain ⟨h1, h2, h3, h4, h5⟩ := h c (by simp)
    cases o <;> simp [GOp.text, takeOp, h1, h2, h3, h4, h5]

theorem gNext_op (o : GOp) (rest : Str) (h : ∀ c ∈ rest.head?, c ≠ '*' ∧ c ≠ '/' ∧ c ≠ '=' ∧ c ≠ '&' ∧ c ≠ '|') :
    gNext (o.text ++ rest) = some (.op o (digitNext rest), rest) := by
  have h0 := takeOp_joins o rest h
  cases o <;> simp only [GOp.text, List.cons_append, List.nil_append] at h0 ⊢ <;>
    (rw [gNext, if_neg (by decide), if_neg (by decide), if_neg (by decide), if_neg (by decide), if_neg (by decide), if_neg (by decide), h0])

theorem Written.first {ts : List (GTok × Nat)} (h : Written ts) : ∀ x ∈ ts.head?, x.1.Plain ∨ ∃ o g, x.1 = .op o g := by
  cases ts with
  | nil => simp
  | cons x ts =>
    obtain ⟨t, n⟩ := x
    intro y hy
    simp only [List.head?_cons, Option.mem_def, Option.some.injEq] at hy
    subst hy
    have h1 := h.1
    cases t <;> first | exact .inl h1 | exact .inr ⟨_, _, rfl⟩

theorem blanked_stops {t : GTok} {n : Nat} {ts : List (GTok × Nat)} (hj : n = 0 → ∀ x ∈ ts.head?, GTok.Joins t x.1) (h : Written ts) (hw : t.IsWord) :
    StopsWord (List.replicate n ' ' ++ blanked ts) := by
  cases n with
  | succ n =>
    intro c hc
    simp [List.replicate_succ] at hc
    subst hc
    decide
  | zero =>
    cases ts with
    | nil => intro c hc; simp [blanked] at hc
    | cons x ts =>
      obtain ⟨t', m⟩ := x
      obtain ⟨c, s, e, _, h3, _⟩ := GTok.text_head (h.first (t', m) (by simp))
      have hj := hj rfl (t', m) (by simp)
      have hn : ¬ t'.IsWord := by
        cases t <;> first | exact hj | exact absurd hw (by simp [GTok.IsWord])
      intro d hd
      simp [blanked, e] at hd
      subst hd
      exact h3 hn

theorem digitNext_blanked {n : Nat} {ts : List (GTok × Nat)} (h : Written ts) : digitNext (List.replicate n ' ' ++ blanked ts) = digitAfter n ts := by
  cases n with
  | succ n => cases ts <;> rfl
  | zero =>
    cases ts with
    | nil => rfl
    | cons x ts =>
      obtain ⟨t', m⟩ := x
      obtain ⟨c, s, e, _, _, h4, _⟩ := GTok.text_head (h.first (t', m) (by simp))
      simp only [List.replicate_zero, List.nil_append, blanked, e, List.cons_append, digitNext]
      cases t' with
      | num x => simp only [digitAfter]; exact h4.2 ⟨x, rfl⟩
      | _ => simp only [digitAfter]; rw [Bool.eq_false_iff, ne_eq, h4]; simp

theorem gNext_written {t : GTok} {n : Nat} {ts : List (GTok × Nat)} (h : Written ((t, n) :: ts)) :
    gNext (t.text ++ (List.replicate n ' ' ++ blanked ts)) = some (t, List.replicate n ' ' ++ blanked ts) := by
  obtain ⟨h1, h2, h3⟩ := h
  cases t with
  | num t =>
    have hs := blanked_stops h2 h3 (t := .num t) trivial
    obtain ⟨c, s, e, _, _, h4, h5⟩ := GTok.text_head (t := .num t) (.inl h1)
    have hnum := takeNum_stops h1 hs
    simp only [GTok.text] at e ⊢
    rw [e] at hnum ⊢
    rw [List.cons_append] at hnum ⊢
    rw [gNext, if_neg (by rw [← h5]; simp), if_pos (h4.2 ⟨_, rfl⟩), hnum]
  | name s =>
    have hs := blanked_stops h2 h3 (t := .name s) trivial
    obtain ⟨⟨c, cs, rfl, hc⟩, h⟩ := h1
    simp only [GTok.text, List.cons_append, gNext]
    rw [if_pos hc, ← List.cons_append, takeName_stops (c :: cs) _ hs h]
  | op o g =>
    simp only [GTok.text]
    rw [gNext_op o, digitNext_blanked h3, ← h1]
    intro c hc
    cases n with
    | succ n =>
      simp [List.replicate_succ] at hc
      subst hc
      decide
    | zero =>
      cases ts with
      | nil => simp [blanked] at hc
      | cons x ts =>
        obtain ⟨t', m⟩ := x
        have hj := h2 rfl (t', m) (by simp)
        obtain ⟨d, s, e, hb, h3', h4, h5⟩ := GTok.text_head (h3.first (t', m) (by simp))
        simp [blanked, e] at hc
        subst hc
        cases t' with
        | op o' g' => rcases hj with rfl | rfl <;> (simp only [GTok.text, GOp.text, List.cons.injEq] at e; rw [← e.1]; decide)
        | num x =>
          have := h4.2 ⟨x, rfl⟩
          refine ⟨?_, ?_, ?_, ?_, ?_⟩ <;> rintro rfl <;> revert this <;> decide
        | name x =>
          have := h5.1 ⟨x, rfl⟩
          refine ⟨?_, ?_, ?_, ?_, ?_⟩ <;> rintro rfl <;> revert this <;> decide
        | bad x => exact absurd h3.1 (by simp [GTok.Plain])
        | _ => simp only [GTok.text, List.cons.injEq] at e; rw [← e.1]; decide
  | lpar => rfl
  | rpar => rfl
  | colon => rfl
  | comma => rfl
  | bad c => exact absurd h1 (by simp [GTok.Plain])

theorem gSkip_written {ts : List (GTok × Nat)} (h : Written ts) : gSkip (blanked ts) = blanked ts := by
  cases ts with
  | nil => rfl
  | cons x ts =>
    obtain ⟨t, m⟩ := x
    obtain ⟨d, s, e, hb, _⟩ := GTok.text_head (h.first (t, m) (by simp))
    simp only [blanked, e, List.cons_append]
    unfold gSkip
    rw [if_neg]
    rintro (e | e | e | e)
    · exact hb.1 e
    · exact hb.2.1 e
    · exact hb.2.2.1 e
    · exact hb.2.2.2 e

theorem gLexLoop_written (ts : List (GTok × Nat)) (h : Written ts) (n f : Nat) (hf : ts.length < f) :
    gLexLoop f (List.replicate n ' ' ++ blanked ts) = ts.map Prod.fst := by
  induction ts generalizing n f with
  | nil =>
    obtain ⟨f, rfl⟩ : ∃ g, f = g + 1 := ⟨f - 1, by omega⟩
    unfold gLexLoop
    rw [gSkip_blank]
    rfl
  | cons t ts ih =>
    obtain ⟨t, m⟩ := t
    obtain ⟨f, rfl⟩ : ∃ g, f = g + 1 := ⟨f - 1, by omega⟩
    unfold gLexLoop
    rw [gSkip_blank, gSkip_written h, blanked, gNext_written h]
    simp only [List.map_cons, List.cons.injEq, true_and]
    simp only [List.length_cons] at hf
    exact ih h.2.2 m f (by omega)

theorem blanked_length {ts : List (GTok × Nat)} (h : Written ts) : ts.length ≤ (blanked ts).length := by
  induction ts with
  | nil => simp
  | cons t ts ih =>
    obtain ⟨t, n⟩ := t
    have := ih h.2.2
    obtain ⟨d, s, e, _⟩ := GTok.text_head (h.first (t, n) (by simp))
    simp only [blanked, e, List.length_cons, List.length_append, List.length_replicate]
    omega

theorem gLex_written {ts : List (GTok × Nat)} (h : Written ts) (n : Nat) : gLex (List.replicate n ' ' ++ blanked ts) = ts.map Prod.fst := by
  unfold gLex
  exact gLexLoop_written ts h n _ (by have := blanked_length h; simp only [List.length_append, List.length_replicate]; omega)

/-- **C63.** Blanks may also be left out: the text of an expression, with blanks only where two names or numbers would become one, or two operators another one, evaluates to its value. -/
theorem C63_compact {V : Type} (I : GInterp V) (n : Nat) (ts : List (GTok × Nat)) (hp : Written ts) (v : V)
    (h : GDer I 6 (ts.map Prod.fst) [v]) : gSolveText I (List.replicate n ' ' ++ blanked ts) = some v := by
  unfold gSolveText
  rw [gLex_written hp]
  exact C63_precedence I _ v h

/-- the hypotheses are met: `ab:c*-2 +(x)` -/
example : ∃ ts : List (GTok × Nat), blanked ts = cs!"ab:c*-2 +(x)" ∧ Written ts ∧ GDer intInterp 6 (ts.map Prod.fst) [-193] := by
  refine ⟨[(.name cs!"ab", 0), (.colon, 0), (.name cs!"c", 0), (.op .mul false, 0), (.op .sub true, 0), (.num cs!"2", 1), (.op .add false, 0), (.lpar, 0), (.name cs!"x", 0), (.rpar, 0)], rfl, ?_, ?_⟩
  · have p : ∀ c s, isIdStart c = true → (∀ x ∈ s, isIdChar x = true) → GTok.Plain (.name (c :: s)) := by
      intro c s hc hs
      refine ⟨⟨c, s, rfl, hc⟩, ?_⟩
      intro pre x post e
      left
      have : x ∈ c :: s := by rw [e]; simp
      rcases List.mem_cons.1 this with rfl | hx
      · simp [isIdChar, hc]
      · exact hs x hx
    refine ⟨p _ _ (by decide) (by decide), by simp [GTok.Joins, GTok.IsWord], trivial, by simp [GTok.Joins], p _ _ (by decide) (by decide), by simp [GTok.Joins, GTok.IsWord], rfl, by simp [GTok.Joins],
      rfl, by simp [GTok.Joins], ⟨by decide, .inl (by decide)⟩, by simp, rfl, by simp [GTok.Joins], trivial, by simp [GTok.Joins], p _ _ (by decide) (by decide), by simp [GTok.Joins, GTok.IsWord],
      trivial, by simp, trivial⟩
  · have u : ∀ k, k ≤ 6 → ∀ ts v, GDer intInterp 0 ts [v] → GDer intInterp k ts [v] := by
      intro k
      induction k with
      | zero => intro _ ts v h; exact h
      | succ k ih => intro hk ts v h; exact .up k _ _ (by omega) (ih (by omega) ts v h)
    have a : GDer intInterp 3 [.name cs!"ab", .colon, .name cs!"c", .op .mul false, .op .sub true, .num cs!"2"] [100 * (-1 * 2)] :=
      .bin .mul false [.name cs!"ab", .colon, .name cs!"c"] [.op .sub true, .num cs!"2"] 100 (-1 * 2) (u 3 (by omega) _ _ (.acc _ _ (by decide)))
        (.neg true [.num cs!"2"] 2 (u 2 (by omega) _ _ (.num _)))
    have b : GDer intInterp 3 [.lpar, .name cs!"x", .rpar] [7] := u 3 (by omega) _ _ (.paren [.name cs!"x"] 7 (u 6 (by omega) _ _ (.var _ (by decide))))
    exact .up 5 _ _ (by omega) (.up 4 _ _ (by omega) (.bin .add false _ _ _ _ (.up 3 _ _ (by omega) a) b))

end Trappy
