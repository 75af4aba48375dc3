import Verif.Model.Solve
import Verif.Prop.GrammarText
/-!
# The accessors of an expression
-/

namespace Trappy
open F64 Py

/-- **Specification**: the accessors of an expression, from left to right -/
def tokAccessors : List GTok → List (Str × Str)
  | .name e :: .colon :: .name c :: ts => (e, c) :: tokAccessors ts
  | _ :: ts => tokAccessors ts
  | [] => []

/-- no column has a dot -/
def PlainColumns : List GTok → Prop
  | .colon :: .name c :: ts => '.' ∉ c ∧ PlainColumns ts
  | _ :: ts => PlainColumns ts
  | [] => True

theorem gSkip_length (s : Str) : (gSkip s).length ≤ s.length := by
  induction s with
  | nil => simp [gSkip]
  | cons c s ih =>
    unfold gSkip
    split
    · simp; omega
    · simp

theorem takeName_length (s : Str) : (takeName s).2.length ≤ s.length := by
  induction s with
  | nil => simp [takeName]
  | cons c s ih =>
    cases s with
    | nil => unfold takeName; split <;> simp
    | cons d s =>
      unfold takeName
      split
      · simp only [List.length_cons] at ih ⊢; omega
      · simp

theorem takeIdent_length (s : Str) : (takeIdent s).2.length ≤ s.length := by
  induction s with
  | nil => simp [takeIdent]
  | cons c s ih =>
    unfold takeIdent
    split
    · simp only [List.length_cons]; omega
    · simp

theorem accessorAt_length {s r : Str} {a : Str × Str} (h : accessorAt s = some (a, r)) : r.length < s.length := by
  unfold accessorAt at h
  split at h
  · cases h
  · rename_i c s' e
    split at h
    · simp only at h
      split at h
      · rename_i r' e'
        split at h
        · rename_i d r'' e''
          split at h
          · simp only [Option.some.injEq, Prod.mk.injEq] at h
            have h1 := gSkip_length s
            have h2 := takeName_length (c :: s')
            have h3 := gSkip_length (takeName (c :: s')).2
            have h4 := gSkip_length r'
            have h5 := takeIdent_length (d :: r'')
            rw [← h.2]
            rw [e] at h1
            rw [e'] at h3
            rw [e''] at h4
            simp only [List.length_cons] at *
            omega
          · cases h
        · cases h
      · cases h
    · cases h

theorem accessorLoop_fuel : ∀ (n : Nat) (s : Str) (f g : Nat), s.length ≤ n → s.length < f → s.length < g → accessorLoop f s = accessorLoop g s
  | n, [], f, g, _, hf, hg => by
    obtain ⟨f, rfl⟩ : ∃ k, f = k + 1 := ⟨f - 1, by simp at hf; omega⟩
    obtain ⟨g, rfl⟩ : ∃ k, g = k + 1 := ⟨g - 1, by simp at hg; omega⟩
    rfl
  | 0, _ :: _, _, _, h, _, _ => by simp at h
  | n + 1, c :: s, f, g, h, hf, hg => by
    obtain ⟨f, rfl⟩ : ∃ k, f = k + 1 := ⟨f - 1, by simp at hf; omega⟩
    obtain ⟨g, rfl⟩ : ∃ k, g = k + 1 := ⟨g - 1, by simp at hg; omega⟩
    unfold accessorLoop
    simp only [List.length_cons] at h hf hg
    cases ha : accessorAt (c :: s) with
    | none => exact accessorLoop_fuel n s f g (by omega) (by omega) (by omega)
    | some x =>
      obtain ⟨a, r⟩ := x
      have := accessorAt_length ha
      simp only [List.length_cons] at this
      simp only
      rw [accessorLoop_fuel n r f g (by omega) (by omega) (by omega)]

theorem accessors_some {c : Char} {s r : Str} {a : Str × Str} (h : accessorAt (c :: s) = some (a, r)) : accessors (c :: s) = a :: accessors r := by
  unfold accessors
  rw [accessorLoop, h]
  simp only
  have := accessorAt_length h
  rw [accessorLoop_fuel r.length r _ (r.length + 1) (by omega) (by simp only [List.length_cons] at *; omega) (by omega)]

theorem accessors_none {c : Char} {s : Str} (h : accessorAt (c :: s) = none) : accessors (c :: s) = accessors s := by
  unfold accessors
  rw [accessorLoop, h]
  rfl

theorem accessorAt_blank (s : Str) : accessorAt (' ' :: s) = accessorAt s := by
  unfold accessorAt
  rw [show gSkip (' ' :: s) = gSkip s from rfl]

theorem accessors_blank (s : Str) : accessors (' ' :: s) = accessors s := by
  cases h : accessorAt (' ' :: s) with
  | none => exact accessors_none h
  | some x =>
    obtain ⟨a, r⟩ := x
    rw [accessors_some h]
    rw [accessorAt_blank] at h
    cases s with
    | nil => cases h
    | cons c s => rw [accessors_some h]

theorem accessors_blanks (n : Nat) (s : Str) : accessors (List.replicate n ' ' ++ s) = accessors s := by
  induction n with
  | zero => rfl
  | succ n ih => rw [List.replicate_succ, List.cons_append, accessors_blank, ih]

theorem accessors_over {w rest : Str} (h : ∀ pre c post, w = pre ++ c :: post → accessorAt (c :: (post ++ rest)) = none) : accessors (w ++ rest) = accessors rest := by
  induction w with
  | nil => rfl
  | cons c w ih =>
    rw [List.cons_append, accessors_none (h [] c w rfl)]
    exact ih fun pre d post e => h (c :: pre) d post (by rw [e]; rfl)

/-- a character that is neither a blank nor the beginning of a name -/
theorem accessorAt_other {c : Char} {s : Str} (h1 : c ≠ ' ' ∧ c ≠ '\t' ∧ c ≠ '\n' ∧ c ≠ '\r') (h2 : isIdStart c = false) : accessorAt (c :: s) = none := by
  have : gSkip (c :: s) = c :: s := by
    unfold gSkip
    rw [if_neg]
    rintro (e | e | e | e)
    · exact h1.1 e
    · exact h1.2.1 e
    · exact h1.2.2.1 e
    · exact h1.2.2.2 e
  unfold accessorAt
  rw [this]
  simp [h2]

theorem idChar_not_blank {c : Char} (h : isIdChar c = true ∨ c = '.') : c ≠ ' ' ∧ c ≠ '\t' ∧ c ≠ '\n' ∧ c ≠ '\r' := by
  refine ⟨?_, ?_, ?_, ?_⟩ <;> rintro rfl <;> revert h <;> decide

theorem takeIdent_stops (s rest : Str) (hr : StopsWord rest) (h : ∀ c ∈ s, isIdChar c = true) : takeIdent (s ++ rest) = (s, rest) := by
  induction s with
  | nil =>
    cases rest with
    | nil => rfl
    | cons c rest =>
      rw [List.nil_append, takeIdent, if_neg]
      simp [(hr c (by simp)).1]
  | cons c s ih =>
    rw [List.cons_append, takeIdent, if_pos (h c (by simp)), ih fun d hd => h d (by simp [hd])]

theorem name_accessor {e : Str} {n : Nat} {ts : List (GTok × Nat)} (h : Written ((.name e, n) :: ts)) {pre post : Str} {c : Char} (he : e = pre ++ c :: post) :
    accessorAt (c :: (post ++ (List.replicate n ' ' ++ blanked ts))) =
      if isIdStart c then
        match blanked ts with
        | ':' :: r =>
          match gSkip r with
          | d :: r => if isIdStart d then let m := takeIdent (d :: r); some ((c :: post, m.1), m.2) else none
          | [] => none
        | _ => none
      else none := by
  obtain ⟨⟨_, h1⟩, h2, h3⟩ := h
  have hs := blanked_stops h2 h3 (t := .name e) trivial
  have hc : isIdChar c = true ∨ c = '.' := by
    rcases h1 pre c post he with h | ⟨h, _⟩
    · exact .inl h
    · exact .inr h
  have hpost : ∀ pre' c' post', c :: post = pre' ++ c' :: post' → isIdChar c' = true ∨ (c' = '.' ∧ ∃ d p, post' = d :: p ∧ isIdStart d = true) := by
    intro pre' c' post' e'
    exact h1 (pre ++ pre') c' post' (by rw [he, e', List.append_assoc])
  by_cases hi : isIdStart c = true
  · rw [if_pos hi]
    have hk : ∀ s, gSkip (c :: s) = c :: s := by
      intro s
      obtain ⟨b1, b2, b3, b4⟩ := idChar_not_blank hc
      unfold gSkip
      rw [if_neg (by simp [b1, b2, b3, b4])]
    unfold accessorAt
    rw [hk]
    simp only [hi, if_true]
    rw [← List.cons_append, takeName_stops (c :: post) _ hs hpost]
    simp only [gSkip_blank, gSkip_written h3]
    rfl
  · rw [if_neg hi]
    exact accessorAt_other (idChar_not_blank hc) (by simpa using hi)

theorem plain_chars {t : GTok} (h : t.Plain ∨ ∃ o g, t = .op o g) (hn : ∀ s, t ≠ .name s) : ∀ c ∈ t.text, (c ≠ ' ' ∧ c ≠ '\t' ∧ c ≠ '\n' ∧ c ≠ '\r') ∧ isIdStart c = false := by
  have hdig : ∀ c, Py.isDigit c = true ∨ c = '.' → (c ≠ ' ' ∧ c ≠ '\t' ∧ c ≠ '\n' ∧ c ≠ '\r') ∧ isIdStart c = false := by
    rintro c (hc | rfl)
    · refine ⟨idChar_not_blank (.inl (by simp [isIdChar, hc])), isDigit_not_idStart c hc⟩
    · decide
  cases t with
  | num t =>
    intro c hc
    apply hdig
    rcases h with ⟨_, h | ⟨a, b, rfl, _, h1, h2⟩⟩ | ⟨_, _, h⟩
    · exact .inl (h c hc)
    · simp only [GTok.text, List.mem_append, List.mem_cons] at hc
      rcases hc with hc | rfl | hc
      · exact .inl (h1 c hc)
      · exact .inr rfl
      · exact .inl (h2 c hc)
    · cases h
  | name s => exact absurd rfl (hn s)
  | op o g =>
    show ∀ c ∈ o.text, _
    clear h hn
    cases o <;> decide
  | lpar => decide
  | rpar => decide
  | colon => decide
  | comma => decide
  | bad c =>
    rcases h with h | ⟨_, _, h⟩
    · exact absurd h (by simp [GTok.Plain])
    · cases h

/-- the text after a token -/
theorem blanked_first {ts : List (GTok × Nat)} (h : Written ts) : (∃ r, blanked ts = ':' :: r) ↔ ∃ n ts', ts = (.colon, n) :: ts' := by
  constructor
  · rintro ⟨r, e⟩
    cases ts with
    | nil => cases e
    | cons x ts =>
      obtain ⟨t, n⟩ := x
      cases t with
      | colon => exact ⟨n, ts, rfl⟩
      | name s =>
        obtain ⟨c, s', e', _, _, _, h5⟩ := GTok.text_head (h.first _ rfl)
        simp only [blanked] at e
        simp only at e'
        rw [e', List.cons_append, List.cons.injEq] at e
        have := h5.1 ⟨s, rfl⟩
        rw [e.1] at this
        exact absurd this (by decide)
      | num s =>
        obtain ⟨c, s', e', _, _, h4, _⟩ := GTok.text_head (h.first _ rfl)
        simp only [blanked] at e
        simp only at e'
        rw [e', List.cons_append, List.cons.injEq] at e
        have := h4.2 ⟨s, rfl⟩
        rw [e.1] at this
        exact absurd this (by decide)
      | op o g => cases o <;> simp [blanked, GTok.text, GOp.text] at e
      | lpar => simp [blanked, GTok.text] at e
      | rpar => simp [blanked, GTok.text] at e
      | comma => simp [blanked, GTok.text] at e
      | bad c => exact absurd h.1 (by simp [GTok.Plain])
  · rintro ⟨n, ts', rfl⟩
    exact ⟨_, rfl⟩

theorem ident_chars {c : Str} (h : GTok.Plain (.name c)) (hd : '.' ∉ c) : ∀ x ∈ c, isIdChar x = true := by
  intro x hx
  obtain ⟨pre, post, e⟩ := List.append_of_mem hx
  rcases h.2 pre x post e with h | ⟨h, _⟩
  · exact h
  · rw [h] at hx
    exact absurd hx hd

theorem tokAccessors_skip {t : GTok} {ts : List GTok} (h : (∀ s, t ≠ .name s) ∨ ∀ c us, ts ≠ .colon :: .name c :: us) : tokAccessors (t :: ts) = tokAccessors ts := by
  conv_lhs => unfold tokAccessors
  split
  · rename_i e c us heq
    simp only [List.cons.injEq] at heq
    rcases h with h | h
    · exact absurd heq.1 (h e)
    · exact absurd heq.2 (h c us)
  · rename_i heq
    simp only [List.cons.injEq] at heq
    rw [heq.2]
  · rename_i heq; cases heq

theorem PlainColumns.tail {t : GTok} {ts : List GTok} (h : PlainColumns (t :: ts)) : PlainColumns ts := by
  cases t with
  | colon =>
    cases ts with
    | nil => exact trivial
    | cons x ts =>
      cases x with
      | name c => exact h.2
      | _ => exact h
  | _ => exact h

/-- the accessors found in the text of an expression -/
theorem accessors_written : ∀ (ts : List (GTok × Nat)), Written ts → PlainColumns (ts.map Prod.fst) → accessors (blanked ts) = tokAccessors (ts.map Prod.fst)
  | [], _, _ => rfl
  | (t, n) :: ts, h, hp => by
    have ih : accessors (List.replicate n ' ' ++ blanked ts) = tokAccessors (ts.map Prod.fst) := by
      rw [accessors_blanks]
      exact accessors_written ts h.2.2 hp.tail
    by_cases hname : ∃ e, t = .name e
    · obtain ⟨e, rfl⟩ := hname
      have hk := fun {pre post c} => name_accessor h (pre := pre) (post := post) (c := c)
      by_cases hacc : ∃ m c k us, ts = (.colon, m) :: (.name c, k) :: us
      · obtain ⟨m, c, k, us, rfl⟩ := hacc
        obtain ⟨⟨x, e', rfl, hx⟩, he⟩ := h.1
        have hc : GTok.Plain (.name c) := h.2.2.2.2.1
        have hd : '.' ∉ c := hp.1
        have hu : Written us := h.2.2.2.2.2.2
        have hs := blanked_stops h.2.2.2.2.2.1 hu (t := .name c) trivial
        have hch := ident_chars hc hd
        obtain ⟨⟨y, c', rfl, hy⟩, _⟩ := hc
        have := hk (pre := []) (post := e') (c := x) rfl
        rw [if_pos hx] at this
        simp only [blanked, GTok.text, List.cons_append, List.nil_append, gSkip_blank] at this
        have hsk : ∀ s, gSkip (y :: s) = y :: s := by
          intro s
          obtain ⟨b1, b2, b3, b4⟩ := idChar_not_blank (.inl (hch y (by simp)))
          unfold gSkip
          rw [if_neg (by simp [b1, b2, b3, b4])]
        rw [hsk] at this
        simp only [hy, if_true] at this
        have hti := takeIdent_stops (y :: c') _ hs hch
        rw [List.cons_append] at hti
        rw [hti] at this
        simp only [blanked, GTok.text, List.cons_append, List.nil_append]
        rw [accessors_some this, accessors_blanks, accessors_written us hu hp.2]
        rfl
      · rw [blanked, GTok.text, accessors_over, ih, List.map_cons, tokAccessors_skip]
        · right
          intro c us heq
          match ts, heq with
          | (t1, m) :: (t2, k) :: us', heq =>
            simp only [List.map_cons, List.cons.injEq] at heq
            obtain ⟨rfl, rfl, _⟩ := heq
            exact hacc ⟨m, c, k, us', rfl⟩
        · intro pre c post he
          rw [hk he]
          split
          · split
            · rename_i r heq
              obtain ⟨m, us, rfl⟩ := (blanked_first h.2.2).1 ⟨r, heq⟩
              simp only [blanked, GTok.text, List.cons_append, List.nil_append, List.cons.injEq, true_and] at heq
              rw [← heq, gSkip_blank]
              have hus : Written us := h.2.2.2.2
              rw [gSkip_written hus]
              cases us with
              | nil => rfl
              | cons y us =>
                obtain ⟨t2, k⟩ := y
                obtain ⟨d, s', e', _, _, _, h5⟩ := GTok.text_head (hus.first (t2, k) rfl)
                simp only at e' h5
                simp only [blanked, e', List.cons_append]
                rw [if_neg]
                rw [← h5]
                rintro ⟨s, rfl⟩
                exact hacc ⟨m, s, k, us, rfl⟩
            · rfl
          · rfl
    · rw [blanked, accessors_over, ih, List.map_cons, tokAccessors_skip]
      · exact .inl fun s hs => hname ⟨s, hs⟩
      · intro pre c post he
        obtain ⟨b1, b2⟩ := plain_chars (h.first (t, n) rfl) (fun s hs => hname ⟨s, hs⟩) c (by simp [he])
        exact accessorAt_other b1 b2

end Trappy
