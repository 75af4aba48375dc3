import Verif.Lemma.Data
/-! Lemmas on the array regular expressions and the explosion loop. -/

namespace Trappy
open Py Re

theorem Re.mStar_exact' {α : Type} {p : Char → Bool} (xs : Str) {rest : Str} {c : Caps}
    {k : Str → Caps → Option α} {v : α} (hx : ∀ y ∈ xs, p y = true) (hk : k rest c = some v)
    (hno : ∀ pre post, rest = pre ++ post → pre ≠ [] → (∀ y ∈ pre, p y = true) → k post c = none) :
    mStar p (xs ++ rest) c k = some v := by
  induction xs with
  | nil =>
    cases rest with
    | nil => simpa [mStar] using hk
    | cons y rest =>
      simp only [List.nil_append, mStar]
      by_cases hy : p y = true
      · simp only [hy, if_true]
        have : mStar p rest c k = none := by
          cases hm : mStar p rest c k with
          | none => rfl
          | some w =>
            obtain ⟨pre, post, e, hp, hk'⟩ := mStar_sound hm
            rw [hno (y :: pre) post (by rw [e]; rfl) (by simp) (by
              intro z hz; rcases List.mem_cons.mp hz with rfl | hz; exact hy; exact hp z hz)] at hk'
            cases hk'
        rw [this]; exact hk
      · simp only [hy, Bool.false_eq_true, if_false]; exact hk
  | cons x xs ih =>
    simp only [List.cons_append, mStar, hx x (by simp), if_true]
    rw [ih (fun y hy => hx y (by simp [hy]))]

/-- Positions at which a pattern cannot match are skipped by `search`. -/
theorem Re.searchFrom_skip (r : Re) (T rest : Str) (n : Nat)
    (h : ∀ T1 T2, T = T1 ++ T2 → T2 ≠ [] → matchPrefix r (T2 ++ rest) = none) :
    searchFrom r n (T ++ rest) = searchFrom r (n + T.length) rest := by
  induction T generalizing n with
  | nil => rfl
  | cons c T ih =>
    have h0 := h [] (c :: T) rfl (by simp)
    simp only [List.cons_append] at h0
    simp only [List.cons_append, searchFrom, h0]
    rw [ih (n + 1) (fun T1 T2 e hne => h (c :: T1) T2 (by rw [e]; rfl) hne)]
    simp only [List.length_cons]
    congr 1; omega

theorem Re.searchFrom_hit {r : Re} {s : Str} {c : Caps} {rest : Str} (n : Nat)
    (h : matchPrefix r s = some (c, rest)) : searchFrom r n s = some (n, c, rest) := by
  cases s with
  | nil => simp [searchFrom, h]
  | cons x s => simp [searchFrom, h]

/-! ## Where an array can be found -/

/-- the shape of texts matched by a pattern `[p]+={…` -/
theorem no_match_in_plain {p : Char → Bool} (hp : p ' ' = false) {T rest : Str} (hne : T ≠ [])
    (hb : ∀ c ∈ T, c ≠ '{' ∧ c ≠ '}') (hl : T.getLast? = some ' ')
    {x y post : Str} (hx : ∀ c ∈ x, p c = true) (e : T ++ rest = x ++ ('=' :: '{' :: y) ++ post) : False := by
  obtain ⟨T', hT⟩ := List.getLast?_eq_some_iff.mp hl
  subst hT
  have hlen : x.length < (T' ++ [' ']).length := by
    apply Classical.byContradiction
    intro hge
    have h1 : (T' ++ [' '] ++ rest)[T'.length]? = some ' ' := by simp
    rw [e] at h1
    have : x[T'.length]? = some ' ' := by
      rw [List.append_assoc, List.getElem?_append_left (by simp at hge; omega)] at h1; exact h1
    have := hx _ (List.mem_of_getElem? this)
    rw [hp] at this; cases this
  have h2 : (T' ++ [' '] ++ rest)[x.length]? = some '=' := by rw [e]; simp
  have h3 : (T' ++ [' '] ++ rest)[x.length + 1]? = some '{' := by rw [e]; simp
  rcases Nat.lt_or_ge (x.length + 1) (T' ++ [' ']).length with h | h
  · rw [List.getElem?_append_left h] at h3
    exact (hb _ (List.mem_of_getElem? h3)).1 rfl
  · have hx' : x.length = T'.length := by simp at h hlen; omega
    rw [List.getElem?_append_left hlen, hx'] at h2
    simp at h2

theorem matches_arrayLike {p q : Char → Bool} {a b : Re} (x : Str)
    (ha : ∀ u, Matches a u → u ≠ [] ∧ ∀ c ∈ u, p c = true)
    (hb : ∀ u, Matches b u → u ≠ [] ∧ ∀ c ∈ u, q c = true)
    (h : Matches (cat [a, str cs!"={", b, lit '}']) x) :
    ∃ u v, x = u ++ ('=' :: '{' :: v) ++ ['}'] ∧ u ≠ [] ∧ v ≠ [] ∧ (∀ c ∈ u, p c = true) ∧ ∀ c ∈ v, q c = true := by
  simp only [cat] at h
  obtain ⟨u, r1, rfl, h1, h2⟩ := matches_seq h
  obtain ⟨s, r2, rfl, h3, h4⟩ := matches_seq h2
  obtain ⟨v, r3, rfl, h5, h6⟩ := matches_seq h4
  have := matches_str h3
  have h7 := matches_lit h6
  subst this; subst h7
  exact ⟨u, v, by simp, (ha u h1).1, (hb v h5).1, (ha u h1).2, (hb v h5).2⟩

theorem matches_arrayRe {x : Str} (h : Matches arrayRe x) :
    ∃ u v, x = u ++ ('=' :: '{' :: v) ++ ['}'] ∧ u ≠ [] ∧ v ≠ [] ∧ (∀ c ∈ u, (c != ' ') = true) ∧
      ∀ c ∈ v, (c != '}') = true :=
  matches_arrayLike (p := (· != ' ')) (q := (· != '}')) x (fun _ h => matches_plus h) (fun _ h => matches_plus h) h

theorem matches_patArray {x : Str} (h : Matches patArray x) :
    ∃ u v, x = u ++ ('=' :: '{' :: v) ++ ['}'] ∧ u ≠ [] ∧ v ≠ [] ∧ (∀ c ∈ u, isWord c = true) ∧
      ∀ c ∈ v, (c != '}') = true :=
  matches_arrayLike (p := isWord) (q := (· != '}')) x (fun _ h => matches_plus (matches_group h))
    (fun _ h => matches_plus (matches_group h)) h

theorem getLast_suffix {T1 T2 : Str} {ch : Char} (h : (T1 ++ T2).getLast? = some ch) (hne : T2 ≠ []) :
    T2.getLast? = some ch := by
  rw [List.getLast?_append] at h
  cases h2 : T2.getLast? with
  | none => exact absurd (List.getLast?_eq_none_iff.mp h2) hne
  | some x => rw [h2] at h; simpa using h

theorem plain_skip {r : Re} {p : Char → Bool} (hp : p ' ' = false)
    (hr : ∀ x, Matches r x → ∃ u v, x = u ++ ('=' :: '{' :: v) ++ ['}'] ∧ ∀ c ∈ u, p c = true)
    {T rest : Str} (hT : ArrPayload.PlainBefore T) (n : Nat) :
    searchFrom r n (T ++ rest) = searchFrom r (n + T.length) rest := by
  apply searchFrom_skip
  rintro T1 T2 rfl hne
  apply m_none_of
  intro pre post e hm
  obtain ⟨u, v, rfl, hu⟩ := hr _ hm
  have hl : T2.getLast? = some ' ' := by
    rcases hT.2 with h | h
    · simp at h; exact absurd h.2 hne
    · exact getLast_suffix h hne
  exact no_match_in_plain hp hne (fun c hc => hT.1 c (by simp [hc])) hl hu
    (y := v) (post := '}' :: post) (by rw [e]; simp)

theorem brace_free_none {r : Re}
    (hr : ∀ x, Matches r x → ∃ u v, x = u ++ ('=' :: '{' :: v) ++ ['}']) {T : Str}
    (hT : ∀ c ∈ T, c ≠ '{' ∧ c ≠ '}') : search r T = none := by
  unfold search
  have hno : ∀ T1 T2, T = T1 ++ T2 → matchPrefix r T2 = none := by
    rintro T1 T2 rfl
    apply m_none_of
    intro pre post e hm
    obtain ⟨u, v, rfl⟩ := hr _ hm
    have : '{' ∈ T2 := by rw [e]; simp
    exact (hT '{' (by simp [this])).1 rfl
  have := searchFrom_skip r T [] 0 (by
    intro T1 T2 e _; rw [List.append_nil]; exact hno T1 T2 e)
  rw [List.append_nil] at this
  rw [this]
  simp [searchFrom, hno T [] (by simp)]

/-! ## Matching one array -/

theorem joinC_mem {c : Char} {ws : List Str} {x : Char} (h : x ∈ joinC c ws) : x = c ∨ ∃ w ∈ ws, x ∈ w := by
  induction ws with
  | nil => simp [joinC] at h
  | cons w ws ih =>
    cases ws with
    | nil => right; exact ⟨w, by simp, by simpa [joinC] using h⟩
    | cons v vs =>
      simp only [joinC, List.mem_append, List.mem_cons] at h
      rcases h with h | h | h
      · exact .inr ⟨w, by simp, h⟩
      · exact .inl h
      · rcases ih h with h | ⟨u, hu, hx⟩
        · exact .inl h
        · exact .inr ⟨u, by simp [hu], hx⟩

theorem joinC_ne {ws : List Str} (h1 : ws ≠ []) (h2 : ws ≠ [[]]) (c : Char) : joinC c ws ≠ [] := by
  cases ws with
  | nil => exact absurd rfl h1
  | cons w ws =>
    cases ws with
    | nil => simp only [joinC]; intro h; subst h; exact h2 rfl
    | cons v vs => simp [joinC]

theorem splitOn_nosep {ch : Char} {w : Str} (h : ch ∉ w) : splitOn ch w = [w] := by
  induction w with
  | nil => rfl
  | cons c w ih =>
    have hc : (c == ch) = false := by
      simp only [beq_eq_false_iff_ne, ne_eq]; rintro rfl; exact h (by simp)
    simp only [splitOn, hc, Bool.false_eq_true, if_false]
    rw [ih (fun hx => h (by simp [hx]))]

theorem splitOn_cons {ch : Char} {w t : Str} (h : ch ∉ w) : splitOn ch (w ++ ch :: t) = w :: splitOn ch t := by
  induction w with
  | nil => simp [splitOn]
  | cons c w ih =>
    have hc : (c == ch) = false := by
      simp only [beq_eq_false_iff_ne, ne_eq]; rintro rfl; exact h (by simp)
    simp only [List.cons_append, splitOn, hc, Bool.false_eq_true, if_false]
    rw [ih (fun hx => h (by simp [hx]))]

theorem splitOn_join {ch : Char} {ws : List Str} (hne : ws ≠ []) (h : ∀ w ∈ ws, ch ∉ w) :
    splitOn ch (joinC ch ws) = ws := by
  induction ws with
  | nil => exact absurd rfl hne
  | cons w ws ih =>
    cases ws with
    | nil => exact splitOn_nosep (h w (by simp))
    | cons v vs =>
      simp only [joinC]
      rw [splitOn_cons (h w (by simp)), ih (by simp) (fun x hx => h x (by simp [hx]))]

/-- every `{` of `R` comes after a blank -/
def BlankBeforeBrace (R : Str) : Prop := ∀ pre post, R = pre ++ '{' :: post → ' ' ∈ pre

theorem Arr.WF.body {a : Arr} (h : a.WF) :
    joinC ' ' a.vals ≠ [] ∧ ∀ c ∈ joinC ' ' a.vals, c ≠ '{' ∧ c ≠ '}' ∧ c ≠ '\n' := by
  refine ⟨joinC_ne h.valsNe h.notEmpty _, ?_⟩
  intro c hc
  rcases joinC_mem hc with rfl | ⟨w, hw, hx⟩
  · decide
  · have := h.vals w hw c hx; exact ⟨this.1, this.2.1, this.2.2.2⟩

theorem m_tail_array {α : Type} {body R : Str} (hne : body ≠ []) (hb : ∀ c ∈ body, c ≠ '}') (c : Caps)
    (k : Str → Caps → Option α) (v : α) (hk : k R c = some v) :
    m (cat [str cs!"={", plus (· != '}'), lit '}']) (cs!"={" ++ (body ++ '}' :: R)) c k = some v := by
  simp only [cat, m]
  rw [m_str]
  apply m_plus_max body hne (by intro y hy; simpa using hb y hy)
  · intro y hy; simp at hy; subst hy; decide
  · rw [m_lit_cons]; exact hk

theorem m_array {a : Arr} (h : a.WF) {R : Str} (hR : BlankBeforeBrace R) :
    matchPrefix arrayRe (a.text ++ R) = some ([], R) := by
  obtain ⟨hbne, hb⟩ := h.body
  unfold matchPrefix
  obtain ⟨c0, name, hname⟩ := List.exists_cons_of_ne_nil h.nameNe
  have e : a.text ++ R = c0 :: (name ++ (cs!"={" ++ (joinC ' ' a.vals ++ '}' :: R))) := by
    simp [Arr.text, hname]
  have hn := h.name
  rw [hname] at hn
  rw [e]
  show m (.seq (plus (· != ' ')) (cat [str cs!"={", plus (· != '}'), lit '}'])) _ _ _ = _
  simp only [plus, m]
  have h0 : (c0 != ' ') = true := by simpa using (hn c0 (by simp)).2.2.2
  simp only [h0, if_true]
  apply mStar_exact' name (by intro y hy; simpa using (hn y (by simp [hy])).2.2.2)
  · exact m_tail_array hbne (fun c hc => (hb c hc).2.1) _ _ _ rfl
  · intro pre post e2 hpre hsp
    apply m_none_of
    intro p1 p2 e3 hm
    -- the continuation needs another `={`
    simp only [cat] at hm
    obtain ⟨s, r2, rfl, h3, _⟩ := matches_seq hm
    have := matches_str h3
    subst this
    rw [e3] at e2
    -- '{' occurs after pre ++ "="
    have e4 : '=' :: '{' :: (joinC ' ' a.vals ++ '}' :: R) = pre ++ '=' :: '{' :: (r2 ++ p2) := by
      simpa using e2
    cases pre with
    | nil => exact hpre rfl
    | cons p0 pre =>
      simp only [List.cons_append, List.cons.injEq] at e4
      obtain ⟨_, e4⟩ := e4
      cases pre with
      | nil => simp at e4
      | cons p1' pre =>
        simp only [List.cons_append, List.cons.injEq] at e4
        obtain ⟨_, e4⟩ := e4
        -- body ++ '}' :: R = pre ++ '=' '{' ...
        rcases List.append_eq_append_iff.mp e4 with ⟨as, e5, e6⟩ | ⟨bs, e5, e6⟩
        · -- pre = body ++ as, '}' :: R = as ++ '=' :: ...
          cases as with
          | nil => simp at e6
          | cons x as =>
            simp only [List.cons_append, List.cons.injEq] at e6
            have := hR (as ++ ['=']) (r2 ++ p2) (by rw [e6.2]; simp)
            have hsp' : ' ' ∈ as := by simpa using this
            have := hsp ' ' (by rw [e5]; simp [hsp'])
            simp at this
        · -- body = pre ++ bs, '=' :: '{' :: _ = bs ++ '}' :: R
          cases bs with
          | nil => simp at e6
          | cons b0 bs =>
            simp only [List.cons_append, List.cons.injEq] at e6
            obtain ⟨_, e6⟩ := e6
            cases bs with
            | nil => simp at e6
            | cons b1 bs =>
              simp only [List.cons_append, List.cons.injEq] at e6
              have := (hb '{' (by rw [e5, e6.1]; simp)).1
              exact this rfl

theorem m_baseName {a : Arr} (h : a.WF) :
    (matchPrefix baseNameRe a.text).bind (·.1.get 1) = some a.name := by
  have : matchPrefix baseNameRe a.text = some ([(1, a.name)], '{' :: (joinC ' ' a.vals ++ ['}'])) := by
    unfold matchPrefix baseNameRe
    simp only [cat, m]
    have e : a.text = a.name ++ ('=' :: '{' :: (joinC ' ' a.vals ++ ['}'])) := by simp [Arr.text]
    rw [e]
    apply m_plus_max a.name h.nameNe (by intro y hy; simpa using (h.name y hy).1)
    · intro y hy; simp at hy; subst hy; decide
    · rw [m_lit_cons]; simp
  rw [this]; rfl

theorem m_valsRe {body : Str} (hne : body ≠ []) (hb : ∀ c ∈ body, c ≠ '\n') :
    matchPrefix valsRe ('{' :: (body ++ ['}'])) = some ([(1, body)], []) := by
  unfold matchPrefix valsRe
  simp only [cat, m, m_lit_cons]
  obtain ⟨c0, b', rfl⟩ := List.exists_cons_of_ne_nil hne
  simp only [plus, m, List.cons_append]
  have h0 : notNl c0 = true := by simpa [notNl] using hb c0 (by simp)
  simp only [h0, if_true]
  apply mStar_exact' b' (by intro y hy; simpa [notNl] using hb y (by simp [hy]))
  · rw [m_lit_cons]; simp
  · intro pre post e hpre _
    cases pre with
    | nil => exact absurd rfl hpre
    | cons x pre =>
      simp at e
      obtain ⟨_, rfl, rfl⟩ := e
      rfl

theorem search_vals {a : Arr} (h : a.WF) :
    (search valsRe a.text).bind (·.2.1.get 1) = some (joinC ' ' a.vals) := by
  obtain ⟨hbne, hb⟩ := h.body
  have e : a.text = (a.name ++ ['=']) ++ ('{' :: (joinC ' ' a.vals ++ ['}'])) := by simp [Arr.text]
  have hs : search valsRe a.text = some (0 + (a.name ++ ['=']).length, [(1, joinC ' ' a.vals)], []) := by
    unfold search
    rw [e, searchFrom_skip]
    · exact searchFrom_hit _ (m_valsRe hbne (fun c hc => (hb c hc).2.2))
    · intro T1 T2 e2 hne
      obtain ⟨c, T2', rfl⟩ := List.exists_cons_of_ne_nil hne
      have hc : c ≠ '{' := by
        have : c ∈ a.name ++ ['='] := by rw [e2]; simp
        rcases List.mem_append.mp this with h1 | h1
        · exact (h.name c h1).2.1
        · simp at h1; subst h1; decide
      unfold matchPrefix valsRe
      simp only [cat, m, List.cons_append]
      exact m_lit_ne hc _ _ _
  rw [hs]; rfl

theorem joinC_snoc_blank (c : Char) (ws : List Str) (h : ws ≠ []) :
    (ws.flatMap fun w => w ++ [c]).dropLast = joinC c ws := by
  induction ws with
  | nil => exact absurd rfl h
  | cons w ws ih =>
    cases ws with
    | nil => simp [joinC]
    | cons v vs =>
      simp only [joinC]
      rw [← ih (by simp), List.flatMap_cons, List.append_assoc, List.dropLast_append_of_ne_nil (by simp)]
      congr 1
      rw [List.dropLast_append_of_ne_nil (by simp)]
      simp

theorem explodeVals_eq (name : Str) (vs : List Str) (i : Nat) :
    explodeVals name i vs = (Arr.elems name i vs).flatMap fun w => w ++ [' '] := by
  induction vs generalizing i with
  | nil => rfl
  | cons v vs ih => simp [explodeVals, Arr.elems, ih, natStr]

theorem elems_ne {name : Str} {i : Nat} {vs : List Str} (h : vs ≠ []) : Arr.elems name i vs ≠ [] := by
  cases vs with
  | nil => exact absurd rfl h
  | cons v vs => simp [Arr.elems]

theorem explodeStep_array (lens : Str → Nat) {T R : Str} {a : Arr} (hT : ArrPayload.PlainBefore T) (ha : a.WF)
    (hR : BlankBeforeBrace R) :
    explodeStep lens (T ++ (a.text ++ R)) = .next (T ++ (a.exploded (lens a.name) ++ R)) := by
  have hs : search arrayRe (T ++ (a.text ++ R)) = some (0 + T.length, [], R) := by
    unfold search
    rw [plain_skip (r := arrayRe) (p := (· != ' ')) (by decide) (by
      intro x hx
      obtain ⟨u, v, e, _, _, hu, _⟩ := matches_arrayRe hx
      exact ⟨u, v, e, hu⟩) hT]
    exact searchFrom_hit _ (m_array ha hR)
  unfold explodeStep
  rw [hs]
  have e1 : (List.drop (0 + T.length) (T ++ (a.text ++ R))).take
      ((T ++ (a.text ++ R)).length - (0 + T.length) - R.length) = a.text := by
    simp only [Nat.zero_add, List.drop_left, List.length_append]
    rw [show T.length + (a.text.length + R.length) - T.length - R.length = a.text.length by omega]
    exact List.take_left
  simp only [e1, m_baseName ha, search_vals ha]
  rw [splitOn_join ha.valsNe (fun w hw hc => (ha.vals w hw _ hc).2.2.1 rfl)]
  rw [explodeVals_eq, joinC_snoc_blank _ _ (elems_ne (by simp [padVals, ha.valsNe]))]
  simp [padVals, Arr.exploded]

theorem natStr_digits {i : Nat} {c : Char} (h : c ∈ Nat.toDigits 10 i) : isDigit c = true := by
  have := Nat.isDigit_of_mem_toDigits (by omega) (by omega) h
  simp only [Char.isDigit, Bool.and_eq_true, decide_eq_true_eq] at this
  unfold isDigit
  simp only [Bool.and_eq_true, decide_eq_true_eq]
  exact ⟨this.1, this.2⟩

theorem elems_mem {name : Str} {vs : List Str} {i : Nat} {w : Str} (h : w ∈ Arr.elems name i vs) :
    ∃ j v, v ∈ vs ∧ w = name ++ Nat.toDigits 10 j ++ '=' :: v := by
  induction vs generalizing i with
  | nil => simp [Arr.elems] at h
  | cons v vs ih =>
    simp only [Arr.elems, List.mem_cons] at h
    rcases h with rfl | h
    · exact ⟨i, v, by simp, rfl⟩
    · obtain ⟨j, u, hu, e⟩ := ih h
      exact ⟨j, u, by simp [hu], e⟩

theorem exploded_brace_free {a : Arr} (h : a.WF) (n : Nat) : ∀ c ∈ a.exploded n, c ≠ '{' ∧ c ≠ '}' := by
  intro c hc
  unfold Arr.exploded at hc
  rcases joinC_mem hc with rfl | ⟨w, hw, hx⟩
  · decide
  · obtain ⟨j, v, hv, rfl⟩ := elems_mem hw
    simp only [List.append_assoc, List.mem_append, List.mem_cons] at hx
    rcases hx with hx | hx | hx | hx
    · have := h.name c hx; exact ⟨this.2.1, this.2.2.1⟩
    · have := natStr_digits hx
      constructor <;> rintro rfl <;> revert this <;> decide
    · subst hx; decide
    · rcases List.mem_append.mp hv with hv | hv
      · have := h.vals v hv c hx; exact ⟨this.1, this.2.1⟩
      · have := (List.mem_replicate.mp hv).2
        subst this; simp at hx; subst hx; decide

theorem explode_payload (lens : Str → Nat) (p : ArrPayload) (h : p.WF) (fuel : Nat) (hf : p.tail.length < fuel) :
    explode lens fuel (p.textWith Arr.text) = some (some (p.textWith fun a => a.exploded (lens a.name))) := by
  obtain ⟨lead, tail⟩ := p
  induction tail generalizing lead fuel with
  | nil =>
    cases fuel with
    | zero => simp at hf
    | succ fuel =>
      have hl := h.lead
      simp only [if_true] at hl
      have hd : explodeStep lens lead = .done := by
        unfold explodeStep
        rw [brace_free_none (fun x hx => by
          obtain ⟨u, v, e, _⟩ := matches_arrayRe hx; exact ⟨u, v, e⟩) hl]
      simp [explode, ArrPayload.textWith, hd]
  | cons x tail ih =>
    obtain ⟨a, t⟩ := x
    cases fuel with
    | zero => simp at hf
    | succ fuel =>
      have hl := h.lead
      simp only [List.cons_ne_nil, if_false] at hl
      have ha := h.arr (a, t) (by simp)
      have ht := h.plain (a, t) (by simp)
      have hR : BlankBeforeBrace (t ++ (tail.map fun x => x.1.text ++ x.2).flatten) := by
        intro pre post e
        cases tail with
        | nil =>
          simp at e
          have : '{' ∈ t := by rw [e]; simp
          exact absurd rfl (ht '{' this).1
        | cons y tail =>
          have hbl := h.blank (a, t) (by simp)
          obtain ⟨t', rfl⟩ := List.getLast?_eq_some_iff.mp hbl
          rcases List.append_eq_append_iff.mp e with ⟨as, e5, e6⟩ | ⟨bs, e5, e6⟩
          · rw [e5]; simp
          · cases bs with
            | nil => rw [List.append_nil] at e5; rw [← e5]; simp
            | cons b bs =>
              simp only [List.cons_append, List.cons.injEq] at e6
              have : '{' ∈ t' ++ [' '] := by rw [e5, e6.1]; simp
              exact absurd rfl (ht '{' this).1
      have hstep := explodeStep_array lens hl ha hR
      have e1 : ({ lead := lead, tail := (a, t) :: tail } : ArrPayload).textWith Arr.text =
          lead ++ (a.text ++ (t ++ (tail.map fun x => x.1.text ++ x.2).flatten)) := by
        simp [ArrPayload.textWith]
      have e2 : lead ++ (a.exploded (lens a.name) ++ (t ++ (tail.map fun x => x.1.text ++ x.2).flatten)) =
          ({ lead := lead ++ a.exploded (lens a.name) ++ t, tail := tail } : ArrPayload).textWith Arr.text := by
        simp [ArrPayload.textWith]
      rw [e1, explode, hstep]
      simp only
      rw [e2, ih]
      · simp [ArrPayload.textWith]
      · refine ⟨?_, fun x hx => h.arr x (by simp [hx]), fun x hx => h.plain x (by simp [hx]), ?_⟩
        · have hbf : ∀ c ∈ lead ++ a.exploded (lens a.name) ++ t, c ≠ '{' ∧ c ≠ '}' := by
            intro c hc
            simp only [List.mem_append] at hc
            rcases hc with (hc | hc) | hc
            · exact hl.1 c hc
            · exact exploded_brace_free ha _ c hc
            · exact ht c hc
          simp only
          split
          · exact hbf
          · rename_i hne
            refine ⟨hbf, .inr ?_⟩
            have hbl := h.blank (a, t) (by
              cases tail with
              | nil => exact absurd rfl hne
              | cons y tail => simp)
            rw [List.getLast?_append, hbl]; simp
        · intro x hx
          apply h.blank x
          cases tail with
          | nil => simp at hx
          | cons y tail => simp only [List.dropLast_cons_cons]; exact List.mem_cons_of_mem _ hx
      · simp at hf; omega

/-! ## Array lengths -/

theorem m_patArray {a : Arr} (h : a.WF) (hw : ∀ c ∈ a.name, isWord c = true) (R : Str) :
    matchPrefix patArray (a.text ++ R) = some ([(2, joinC ' ' a.vals), (1, a.name)], R) := by
  obtain ⟨hbne, hb⟩ := h.body
  unfold matchPrefix
  have e : a.text ++ R = a.name ++ (cs!"={" ++ (joinC ' ' a.vals ++ '}' :: R)) := by simp [Arr.text]
  rw [e]
  unfold patArray
  simp only [cat, m]
  apply m_plus_max a.name h.nameNe hw
  · intro y hy; simp at hy; subst hy; decide
  · rw [m_str]
    apply m_plus_max _ hbne (by intro y hy; simpa using (hb y hy).2.1)
    · intro y hy; simp at hy; subst hy; decide
    · rw [m_lit_cons]
      simp

/-- the new length table after seeing an array -/
def bump (ret : Str → Option Nat) (a : Arr) : Str → Option Nat :=
  fun k => if k = a.name then some (max ((ret a.name).getD 0) a.vals.length) else ret k

theorem lineLengths_payload (p : ArrPayload) (h : p.WF) (hw : ∀ x ∈ p.tail, ∀ c ∈ x.1.name, isWord c = true)
    (fuel : Nat) (hf : p.tail.length < fuel) (ret : Str → Option Nat) :
    lineLengths fuel (p.textWith Arr.text) ret = p.tail.foldl (fun r x => bump r x.1) ret := by
  obtain ⟨lead, tail⟩ := p
  have hpat : ∀ x, Matches patArray x → ∃ u v, x = u ++ ('=' :: '{' :: v) ++ ['}'] ∧ ∀ c ∈ u, isWord c = true := by
    intro x hx
    obtain ⟨u, v, e, _, _, hu, _⟩ := matches_patArray hx
    exact ⟨u, v, e, hu⟩
  induction tail generalizing lead fuel ret with
  | nil =>
    cases fuel with
    | zero => simp at hf
    | succ fuel =>
      have hl := h.lead
      simp only [if_true] at hl
      simp only [ArrPayload.textWith, List.map_nil, List.flatten_nil, List.append_nil, List.foldl_nil]
      unfold lineLengths
      rw [brace_free_none (fun x hx => by obtain ⟨u, v, e, _⟩ := hpat x hx; exact ⟨u, v, e⟩) hl]
  | cons x tail ih =>
    obtain ⟨a, t⟩ := x
    cases fuel with
    | zero => simp at hf
    | succ fuel =>
      have hl := h.lead
      simp only [List.cons_ne_nil, if_false] at hl
      have ha := h.arr (a, t) (by simp)
      have ht := h.plain (a, t) (by simp)
      have e1 : ({ lead := lead, tail := (a, t) :: tail } : ArrPayload).textWith Arr.text =
          lead ++ (a.text ++ (t ++ (tail.map fun x => x.1.text ++ x.2).flatten)) := by
        simp [ArrPayload.textWith]
      have hs : search patArray (lead ++ (a.text ++ (t ++ (tail.map fun x => x.1.text ++ x.2).flatten))) =
          some (0 + lead.length, [(2, joinC ' ' a.vals), (1, a.name)], t ++ (tail.map fun x => x.1.text ++ x.2).flatten) := by
        unfold search
        rw [plain_skip (r := patArray) (p := isWord) (by decide) hpat hl]
        exact searchFrom_hit _ (m_patArray ha (hw (a, t) (by simp)) _)
      rw [e1, lineLengths, hs]
      simp only [Caps.get, List.lookup]
      simp only [show ((1 : Nat) == 2) = false from rfl, show ((1 : Nat) == 1) = true from rfl,
        show ((2 : Nat) == 2) = true from rfl]
      rw [splitOn_join ha.valsNe (fun w hw hc => (ha.vals w hw _ hc).2.2.1 rfl)]
      have e2 : (t ++ (tail.map fun x => x.1.text ++ x.2).flatten) =
          ({ lead := t, tail := tail } : ArrPayload).textWith Arr.text := by simp [ArrPayload.textWith]
      rw [e2, ih]
      · rw [List.foldl_cons]
        congr 1
        funext k
        unfold bump
        simp only
        split
        · congr 1
          split <;> omega
        · rfl
      · refine ⟨?_, fun x hx => h.arr x (by simp [hx]), fun x hx => h.plain x (by simp [hx]), ?_⟩
        · simp only
          split
          · exact ht
          · rename_i hne
            refine ⟨ht, .inr ?_⟩
            exact h.blank (a, t) (by
              cases tail with
              | nil => exact absurd rfl hne
              | cons y tail => simp)
        · intro x hx
          apply h.blank x
          cases tail with
          | nil => simp at hx
          | cons y tail => simp only [List.dropLast_cons_cons]; exact List.mem_cons_of_mem _ hx
      · intro x hx; exact hw x (by simp [hx])
      · simp at hf; omega

theorem search_patArray_isNone (p : ArrPayload) (h : p.WF) (hw : ∀ x ∈ p.tail, ∀ c ∈ x.1.name, isWord c = true) :
    (search patArray (p.textWith Arr.text)).isNone = p.tail.isEmpty := by
  obtain ⟨lead, tail⟩ := p
  have hpat : ∀ x, Matches patArray x → ∃ u v, x = u ++ ('=' :: '{' :: v) ++ ['}'] ∧ ∀ c ∈ u, isWord c = true := by
    intro x hx
    obtain ⟨u, v, e, _, _, hu, _⟩ := matches_patArray hx
    exact ⟨u, v, e, hu⟩
  cases tail with
  | nil =>
    have hl := h.lead
    simp only [if_true] at hl
    simp only [ArrPayload.textWith, List.map_nil, List.flatten_nil, List.append_nil]
    rw [brace_free_none (fun x hx => by obtain ⟨u, v, e, _⟩ := hpat x hx; exact ⟨u, v, e⟩) hl]
    rfl
  | cons x tail =>
    obtain ⟨a, t⟩ := x
    have hl := h.lead
    simp only [List.cons_ne_nil, if_false] at hl
    have ha := h.arr (a, t) (by simp)
    have e1 : ({ lead := lead, tail := (a, t) :: tail } : ArrPayload).textWith Arr.text =
        lead ++ (a.text ++ (t ++ (tail.map fun x => x.1.text ++ x.2).flatten)) := by
      simp [ArrPayload.textWith]
    rw [e1]
    unfold search
    rw [plain_skip (r := patArray) (p := isWord) (by decide) hpat hl,
      searchFrom_hit _ (m_patArray ha (hw (a, t) (by simp)) _)]
    rfl

theorem tail_length_le (p : ArrPayload) (h : p.WF) : p.tail.length ≤ (p.textWith Arr.text).length := by
  obtain ⟨lead, tail⟩ := p
  have : ∀ l : List (Arr × Str), l.length ≤ ((l.map fun x => x.1.text ++ x.2).flatten).length := by
    intro l
    induction l with
    | nil => simp
    | cons x l ih =>
      simp only [List.map_cons, List.flatten_cons, List.length_append, List.length_cons]
      have : 0 < x.1.text.length := by simp only [Arr.text, List.length_append, List.length_cons]; omega
      omega
  simp only [ArrPayload.textWith, List.length_append]
  have := this tail
  omega

theorem arrayLengthsFrom_payloads (ps : List ArrPayload) (h : ∀ p ∈ ps, p.WF)
    (hw : ∀ p ∈ ps, ∀ x ∈ p.tail, ∀ c ∈ x.1.name, isWord c = true) (ret : Str → Option Nat) :
    arrayLengthsFrom (ps.map (·.textWith Arr.text)) ret false =
      ((ps.flatMap (·.tail)).foldl (fun r x => bump r x.1) ret, false) := by
  induction ps generalizing ret with
  | nil => rfl
  | cons p ps ih =>
    have hp := h p (by simp)
    simp only [List.map_cons, arrayLengthsFrom, Bool.false_and, Bool.false_eq_true, if_false]
    rw [lineLengths_payload p hp (hw p (by simp)) _ (by have := tail_length_le p hp; omega)]
    rw [ih (fun q hq => h q (by simp [hq])) (fun q hq => hw q (by simp [hq]))]
    simp [List.foldl_append]

theorem arrayLengths_payloads (p : ArrPayload) (ps : List ArrPayload) (h : ∀ q ∈ p :: ps, q.WF)
    (hw : ∀ q ∈ p :: ps, ∀ x ∈ q.tail, ∀ c ∈ x.1.name, isWord c = true) (hne : p.tail ≠ []) :
    arrayLengths ((p :: ps).map (·.textWith Arr.text)) =
      some fun k => ((((p :: ps).flatMap (·.tail)).foldl (fun r x => bump r x.1) fun _ => none) k).getD 0 := by
  have hp := h p (by simp)
  have hn : (search patArray (p.textWith Arr.text)).isNone = false := by
    rw [search_patArray_isNone p hp (hw p (by simp))]; simpa using hne
  unfold arrayLengths
  simp only [List.map_cons, arrayLengthsFrom, hn, Bool.and_false, Bool.false_eq_true, if_false]
  rw [lineLengths_payload p hp (hw p (by simp)) _ (by have := tail_length_le p hp; omega)]
  rw [arrayLengthsFrom_payloads ps (fun q hq => h q (by simp [hq])) (fun q hq => hw q (by simp [hq]))]
  simp [List.foldl_append]

/-- the table of lengths holds maxima -/
theorem bump_fold_max (l : List (Arr × Str)) (ret : Str → Option Nat) (k : Str) :
    let m := ((l.foldl (fun r x => bump r x.1) ret) k).getD 0
    (ret k).getD 0 ≤ m ∧ (∀ x ∈ l, x.1.name = k → x.1.vals.length ≤ m) ∧
    (m = (ret k).getD 0 ∨ ∃ x ∈ l, x.1.name = k ∧ x.1.vals.length = m) := by
  induction l generalizing ret with
  | nil => simp
  | cons y l ih =>
    simp only [List.foldl_cons]
    have h := ih (bump ret y.1)
    simp only at h
    generalize ((l.foldl (fun r x => bump r x.1) (bump ret y.1)) k).getD 0 = m at h ⊢
    by_cases hk : k = y.1.name
    · have e : (bump ret y.1 k).getD 0 = max ((ret k).getD 0) y.1.vals.length := by
        subst hk; simp [bump]
      rw [e] at h
      refine ⟨by omega, ?_, ?_⟩
      · intro x hx hxk
        rcases List.mem_cons.mp hx with rfl | hx
        · omega
        · exact h.2.1 x hx hxk
      · rcases h.2.2 with h3 | ⟨x, hx, h3⟩
        · rcases Nat.le_total ((ret k).getD 0) y.1.vals.length with hle | hle
          · right; exact ⟨y, by simp, hk.symm, by omega⟩
          · left; omega
        · right; exact ⟨x, by simp [hx], h3⟩
    · have e : bump ret y.1 k = ret k := by simp [bump, hk]
      rw [e] at h
      refine ⟨h.1, ?_, ?_⟩
      · intro x hx hxk
        rcases List.mem_cons.mp hx with rfl | hx
        · exact absurd hxk.symm hk
        · exact h.2.1 x hx hxk
      · rcases h.2.2 with h3 | ⟨x, hx, h3⟩
        · exact .inl h3
        · exact .inr ⟨x, by simp [hx], h3⟩

end Trappy
