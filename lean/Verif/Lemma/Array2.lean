import Verif.Lemma.Array
import Verif.Model.Populate
/-! Lemmas on termination of the array explosion and on the removal of empty arrays. -/

namespace Trappy
open Py Re

theorem Re.searchFrom_sound {r : Re} {s : Str} {n i : Nat} {c : Caps} {rest : Str}
    (h : searchFrom r n s = some (i, c, rest)) :
    ∃ pre mid, s = pre ++ (mid ++ rest) ∧ i = n + pre.length ∧ Matches r mid ∧
      matchPrefix r (mid ++ rest) = some (c, rest) := by
  have key : ∀ t : Str, ∀ c' rest', matchPrefix r t = some (c', rest') →
      ∃ mid, t = mid ++ rest' ∧ Matches r mid := by
    intro t c' rest' hm
    obtain ⟨pre, post, c1, e, hmat, hk⟩ := m_sound r hm
    simp at hk
    obtain ⟨_, rfl⟩ := hk
    exact ⟨pre, e, hmat⟩
  induction s generalizing n with
  | nil =>
    simp only [searchFrom, Option.map_eq_some_iff] at h
    obtain ⟨⟨c', rest'⟩, hm, e⟩ := h
    cases e
    obtain ⟨mid, e, hmat⟩ := key _ _ _ hm
    exact ⟨[], mid, by simpa using e, by simp, hmat, by rw [← e]; exact hm⟩
  | cons x s ih =>
    unfold searchFrom at h
    split at h
    · rename_i c' rest' hm
      cases h
      obtain ⟨mid, e, hmat⟩ := key _ _ _ hm
      exact ⟨[], mid, by simpa using e, by simp, hmat, by rw [← e]; exact hm⟩
    · obtain ⟨pre, mid, e, hi, hmat, hm⟩ := ih h
      exact ⟨x :: pre, mid, by rw [e]; rfl, by simp; omega, hmat, hm⟩

theorem group_plus_lit {p : Char → Bool} {ch : Char} {s : Str} {c : Caps} {rest : Str}
    (h : matchPrefix (cat [.group 1 (plus p), lit ch]) s = some (c, rest)) :
    ∃ u, s = u ++ ch :: rest ∧ (∀ y ∈ u, p y = true) ∧ c.get 1 = some u := by
  unfold matchPrefix at h
  simp only [cat] at h
  rw [m.eq_4] at h
  rw [m.eq_8] at h
  obtain ⟨pre, post, c', e, hm, hk⟩ := m_sound _ h
  obtain ⟨pre2, post2, c2, e2, hm2, hk2⟩ := m_sound _ hk
  have := matches_lit hm2
  subst this
  cases post with
  | nil => simp at e2
  | cons y post =>
    simp at e2
    obtain ⟨rfl, rfl⟩ := e2
    rw [m_lit_cons] at hk
    simp only [Option.some.injEq, Prod.mk.injEq] at hk
    obtain ⟨rfl, rfl⟩ := hk
    refine ⟨pre, e, (matches_plus hm).2, ?_⟩
    subst e
    have : (pre ++ y :: post).length - (y :: post).length = pre.length := by simp
    simp only [this, List.take_left]
    rfl

theorem vals_capture {s : Str} {c : Caps} {rest : Str} (h : matchPrefix valsRe s = some (c, rest)) :
    ∃ u, s = '{' :: (u ++ '}' :: rest) ∧ c.get 1 = some u := by
  unfold valsRe matchPrefix at h
  simp only [cat] at h
  rw [m.eq_4] at h
  obtain ⟨pre, post, c', e, hm, hk⟩ := m_sound _ h
  have := matches_lit hm
  subst this
  subst e
  rw [List.singleton_append, m_lit_cons] at h
  obtain ⟨u, hu, _, hc⟩ := group_plus_lit (s := post) (c := c) (rest := rest) (p := notNl) (ch := '}') (by
    unfold matchPrefix; exact h)
  exact ⟨u, by rw [hu]; rfl, hc⟩

theorem mem_splitOn {ch : Char} {s w : Str} (h : w ∈ splitOn ch s) : ∀ c ∈ w, c ∈ s := by
  induction s generalizing w with
  | nil => simp [splitOn] at h; subst h; simp
  | cons x s ih =>
    unfold splitOn at h
    split at h
    · rcases List.mem_cons.mp h with rfl | h
      · simp
      · intro c hc; exact List.mem_cons_of_mem _ (ih h c hc)
    · split at h
      · simp at h; subst h; intro c hc; simp at hc; simp [hc]
      · rename_i w0 ws hs
        rw [hs] at ih
        rcases List.mem_cons.mp h with rfl | h
        · intro c hc
          rcases List.mem_cons.mp hc with rfl | hc
          · simp
          · exact List.mem_cons_of_mem _ (ih (by simp) c hc)
        · intro c hc; exact List.mem_cons_of_mem _ (ih (by simp [h]) c hc)

theorem explodeVals_no_brace {name : Str} {vs : List Str} (hn : '}' ∉ name) (hv : ∀ v ∈ vs, '}' ∉ v) (i : Nat) :
    '}' ∉ explodeVals name i vs := by
  rw [explodeVals_eq]
  intro h
  simp only [List.mem_flatMap, List.mem_append, List.mem_singleton] at h
  obtain ⟨w, hw, h | h⟩ := h
  · obtain ⟨j, v, hv', rfl⟩ := elems_mem hw
    simp only [List.append_assoc, List.mem_append, List.mem_cons] at h
    rcases h with h | h | h | h
    · exact hn h
    · have := natStr_digits h; revert this; decide
    · simp at h
    · exact hv v hv' h
  · simp at h

/-- what one pass of the loop does when every `}` is followed by a blank -/
theorem explodeStep_shrinks (lens : Str → Nat) {s : Str} (hs : BraceThenBlank s) {s' : Str}
    (h : explodeStep lens s = .next s') : BraceThenBlank s' ∧ s'.count '}' < s.count '}' := by
  unfold explodeStep at h
  split at h
  · cases h
  rename_i begin c rest hsearch
  obtain ⟨pre, mid, e, hi, hmat, _⟩ := searchFrom_sound hsearch
  simp only [Nat.zero_add] at hi
  subst hi
  obtain ⟨u, v, rfl, hu, hv, hup, hvp⟩ := matches_arrayRe hmat
  have hmid : (List.drop pre.length s).take (s.length - pre.length - rest.length) = u ++ '=' :: '{' :: v ++ ['}'] := by
    rw [e, List.drop_left]
    have : (pre ++ (u ++ '=' :: '{' :: v ++ ['}'] ++ rest)).length - pre.length - rest.length =
      (u ++ '=' :: '{' :: v ++ ['}']).length := by
      simp only [List.length_append]; omega
    rw [this, List.take_left]
  simp only [hmid] at h
  -- no closing brace in u
  have hub : '}' ∉ u := by
    intro hmem
    obtain ⟨u1, u2, rfl⟩ := List.append_of_mem hmem
    have := hs (pre ++ u1) (u2 ++ '=' :: '{' :: v ++ ['}'] ++ rest) (by rw [e]; simp)
    rcases this with h1 | h1
    · simp at h1
    · cases u2 with
      | nil => simp at h1
      | cons y u2 =>
        simp at h1; subst h1
        have := hup ' ' (by simp)
        simp at this
  have hvb : '}' ∉ v := by intro hm; have := hvp _ hm; simp at this
  split at h
  · rename_i name valsStr hname hvals
    cases h
    -- the name
    have hnb : '}' ∉ name := by
      cases hbm : matchPrefix baseNameRe (u ++ '=' :: '{' :: v ++ ['}']) with
      | none => rw [hbm] at hname; cases hname
      | some x =>
        obtain ⟨c1, r1⟩ := x
        rw [hbm] at hname
        simp at hname
        obtain ⟨w, hw, hwp, hc1⟩ := group_plus_lit hbm
        rw [hname] at hc1; cases hc1
        intro hm
        rw [List.append_assoc] at hw
        rcases List.append_eq_append_iff.mp hw with ⟨as, e5, e6⟩ | ⟨bs, e5, e6⟩
        · cases as with
          | nil => simp at e5; exact hub (e5 ▸ hm)
          | cons y as =>
            simp at e6
            have := hwp '=' (by rw [e5, ← e6.1]; simp)
            simp at this
        · exact hub (by rw [e5]; simp [hm])
    have hvsb : '}' ∉ valsStr := by
      cases hsm : search valsRe (u ++ '=' :: '{' :: v ++ ['}']) with
      | none => rw [hsm] at hvals; cases hvals
      | some x =>
        obtain ⟨i1, c1, r1⟩ := x
        rw [hsm] at hvals
        simp at hvals
        obtain ⟨pre1, mid1, e1, _, _, hm1⟩ := searchFrom_sound hsm
        obtain ⟨w, hw, hc1⟩ := vals_capture hm1
        rw [hvals] at hc1; cases hc1
        intro hmem
        have hcount : (u ++ '=' :: '{' :: v ++ ['}']).count '}' = 1 := by
          simp [List.count_eq_zero_of_not_mem hub, List.count_eq_zero_of_not_mem hvb]
        rw [e1, hw] at hcount
        simp only [List.count_append, List.count_cons] at hcount
        have := List.count_pos_iff.mpr hmem
        simp at hcount
        omega
    have hE : '}' ∉ (explodeVals name 0 (padVals (splitOn ' ' valsStr) (lens name))).dropLast := by
      intro hm
      refine explodeVals_no_brace hnb ?_ 0 (List.dropLast_subset _ hm)
      intro w hw hmem
      unfold padVals at hw
      rcases List.mem_append.mp hw with hw | hw
      · exact hvsb (mem_splitOn hw _ hmem)
      · have := (List.mem_replicate.mp hw).2; subst this; simp at hmem
    generalize hEe : (explodeVals name 0 (padVals (splitOn ' ' valsStr) (lens name))).dropLast = E at hE
    have hpre : pre.getLast? ≠ some '}' := by
      intro hl
      obtain ⟨p', rfl⟩ := List.getLast?_eq_some_iff.mp hl
      obtain ⟨y, u', rfl⟩ := List.exists_cons_of_ne_nil hu
      have := hs p' (y :: u' ++ '=' :: '{' :: v ++ ['}'] ++ rest) (by rw [e]; simp)
      rcases this with h1 | h1
      · simp at h1
      · simp at h1; subst h1
        have := hup ' ' (by simp)
        simp at this
    have htake : List.take pre.length s = pre := by rw [e, List.take_left]
    rw [htake]
    constructor
    · intro a b hab
      rw [List.append_assoc] at hab
      rcases List.append_eq_append_iff.mp hab with ⟨as, e5, e6⟩ | ⟨bs, e5, e6⟩
      · rcases List.append_eq_append_iff.mp e6 with ⟨as2, e7, e8⟩ | ⟨bs2, e7, e8⟩
        · exact hs (pre ++ (u ++ '=' :: '{' :: v ++ ['}']) ++ as2) b (by rw [e, e8]; simp)
        · cases bs2 with
          | nil => simp at e8; exact hs (pre ++ (u ++ '=' :: '{' :: v ++ ['}'])) b (by rw [e, ← e8]; simp)
          | cons y bs2 =>
            simp at e8
            exact absurd (by rw [e7, ← e8.1]; simp) hE
      · cases bs with
        | nil =>
          simp at e6
          rcases List.append_eq_append_iff.mp (show ([] : Str) ++ '}' :: b = E ++ rest from by simpa using e6) with ⟨as2, e7, e8⟩ | ⟨bs2, e7, e8⟩
          · cases as2 with
            | nil => simp at e7 e8; exact hs (pre ++ (u ++ '=' :: '{' :: v ++ ['}'])) b (by rw [e, ← e8]; simp)
            | cons y as2 => simp at e7 e8; exact absurd (by rw [e7, ← e8.1]; simp) hE
          · simp at e7; obtain ⟨h7, h8⟩ := e7; subst h7; subst h8
            simp at e8
            exact hs (pre ++ (u ++ '=' :: '{' :: v ++ ['}'])) b (by rw [e, ← e8]; simp)
        | cons y bs =>
          simp at e6
          obtain ⟨rfl, rfl⟩ := e6
          cases bs with
          | nil => rw [e5] at hpre; simp at hpre
          | cons z bs =>
            have := hs a (z :: bs ++ (u ++ '=' :: '{' :: v ++ ['}'] ++ rest)) (by rw [e, e5]; simp)
            simpa using this
    · rw [e]
      simp [List.count_eq_zero_of_not_mem hE]
      omega
  · cases h

theorem explode_terminates (lens : Str → Nat) (n : Nat) : ∀ s : Str, BraceThenBlank s → s.count '}' ≤ n →
    ∃ r, ∀ fuel, n < fuel → explode lens fuel s = some r := by
  induction n with
  | zero =>
    intro s hs hc
    cases hst : explodeStep lens s with
    | done => exact ⟨some s, fun fuel hf => by cases fuel with | zero => omega | succ f => simp [explode, hst]⟩
    | error => exact ⟨none, fun fuel hf => by cases fuel with | zero => omega | succ f => simp [explode, hst]⟩
    | next s' => have := (explodeStep_shrinks lens hs hst).2; omega
  | succ n ih =>
    intro s hs hc
    cases hst : explodeStep lens s with
    | done => exact ⟨some s, fun fuel hf => by cases fuel with | zero => omega | succ f => simp [explode, hst]⟩
    | error => exact ⟨none, fun fuel hf => by cases fuel with | zero => omega | succ f => simp [explode, hst]⟩
    | next s' =>
      have h2 := explodeStep_shrinks lens hs hst
      obtain ⟨r, hr⟩ := ih s' h2.1 (by omega)
      exact ⟨r, fun fuel hf => by
        cases fuel with
        | zero => omega
        | succ f => simp only [explode, hst]; exact hr f (by omega)⟩

/-! ## Payloads on which the loop never ends -/

/-- texts `p{}D=X={c p{}R`: every pass of the loop yields another such text -/
def Loops (p c s : Str) : Prop :=
  ∃ D X R : Str, '=' ∉ D ∧ '\n' ∉ D ∧ ' ' ∉ D ∧ ' ' ∉ X ∧ '\n' ∉ X ∧
    s = p ++ cs!"{}" ++ D ++ '=' :: X ++ cs!"={" ++ c ++ ' ' :: p ++ cs!"{}" ++ R

/-- a name in front of the braces -/
structure LoopName (p c : Str) : Prop where
  ne : p ≠ []
  name : ∀ x ∈ p, x ≠ ' ' ∧ x ≠ '=' ∧ x ≠ '\n' ∧ x ≠ '{' ∧ x ≠ '}'
  val : ∀ x ∈ c, x ≠ ' ' ∧ x ≠ '=' ∧ x ≠ '\n' ∧ x ≠ '}'

/-- one pass on `p{W={c V}R`, where `W` has an equals sign -/
theorem loop_pass (lens : Str → Nat) {p c D X V R : Str} (h : LoopName p c) (hD1 : '=' ∉ D) (hD2 : '\n' ∉ D) (hD3 : ' ' ∉ D) (hX : ' ' ∉ X) (hX2 : '\n' ∉ X)
    (hV : ∀ x ∈ V, x ≠ ' ' ∧ x ≠ '\n' ∧ x ≠ '}') (T : Str) (hT : T = [] ∨ T = '=' :: X)  :
    explodeStep lens (p ++ cs!"{}" ++ D ++ T ++ cs!"={" ++ c ++ ' ' :: V ++ '}' :: R) =
      .next ((explodeVals (p ++ cs!"{}" ++ D) 0 (padVals ['}' :: (D ++ T) ++ cs!"={" ++ c, V] (lens (p ++ cs!"{}" ++ D)))).dropLast ++ R) := by
  obtain ⟨a, p', rfl⟩ := List.exists_cons_of_ne_nil h.ne
  have hp' : ∀ x ∈ p', x ≠ ' ' ∧ x ≠ '=' ∧ x ≠ '\n' ∧ x ≠ '{' ∧ x ≠ '}' := fun x hx => h.name x (List.mem_cons_of_mem _ hx)
  have ha := h.name a List.mem_cons_self
  let W : Str := '}' :: (D ++ T)
  have hWs : ∀ c ∈ W, c ≠ ' ' ∧ c ≠ '\n' := by
    intro c hc
    simp only [W, List.mem_cons, List.mem_append] at hc
    rcases hc with rfl | hc | hc
    · decide
    · exact ⟨by rintro rfl; exact hD3 hc, by rintro rfl; exact hD2 hc⟩
    · rcases hT with rfl | rfl
      · simp at hc
      · rcases List.mem_cons.1 hc with rfl | hc
        · decide
        · exact ⟨by rintro rfl; exact hX hc, by rintro rfl; exact hX2 hc⟩
  have es : a :: p' ++ cs!"{}" ++ D ++ T ++ cs!"={" ++ c ++ ' ' :: V ++ '}' :: R =
      a :: ((p' ++ '{' :: W) ++ (cs!"={" ++ ((c ++ ' ' :: V) ++ '}' :: R))) := by
    simp [W]
  have hm : matchPrefix arrayRe (a :: ((p' ++ '{' :: W) ++ (cs!"={" ++ ((c ++ ' ' :: V) ++ '}' :: R)))) = some ([], R) := by
    unfold matchPrefix
    show m (.seq (plus (· != ' ')) (cat [str cs!"={", plus (· != '}'), lit '}'])) _ _ _ = _
    simp only [plus, m]
    have ha' : (a != ' ') = true := by simpa using ha.1
    simp only [ha', if_true]
    apply mStar_exact' (p' ++ '{' :: W)
    · intro y hy
      rcases List.mem_append.1 hy with hy | hy
      · simpa using (hp' y hy).1
      · rcases List.mem_cons.mp hy with rfl | hy
        · decide
        · simpa using (hWs y hy).1
    · refine m_tail_array (by simp) ?_ _ _ _ rfl
      intro y hy
      rcases List.mem_append.1 hy with hy | hy
      · exact (h.val y hy).2.2.2
      · rcases List.mem_cons.1 hy with rfl | hy
        · decide
        · exact (hV y hy).2.2
    · intro pre post e hne hsp
      apply m_none_of
      intro p1 p2 e3 hm
      simp only [cat] at hm
      obtain ⟨s1, r2, rfl, h3, _⟩ := matches_seq hm
      have := matches_str h3
      subst this
      rw [e3] at e
      -- pre is a prefix of "={c", as it has no blank
      cases pre with
      | nil => exact hne rfl
      | cons a1 pre =>
        simp at e
        obtain ⟨_, e⟩ := e
        cases pre with
        | nil => simp at e
        | cons a2 pre =>
          simp at e
          obtain ⟨_, e⟩ := e
          -- what follows the brace
          have hsp' : ∀ x ∈ pre, x ≠ ' ' := fun x hx => by simpa using hsp x (by simp [hx])
          rcases List.append_eq_append_iff.mp e with ⟨as, e5, e6⟩ | ⟨bs, e5, e6⟩
          · cases as with
            | nil => simp at e6
            | cons z as =>
              simp at e6
              exact hsp' ' ' (by rw [e5, ← e6.1]; simp) rfl
          · cases bs with
            | nil => simp at e6
            | cons z bs =>
              simp at e6
              exact (h.val '=' (by rw [e5, e6.1]; simp)).2.1 rfl
  have hs : search arrayRe (a :: ((p' ++ '{' :: W) ++ (cs!"={" ++ ((c ++ ' ' :: V) ++ '}' :: R)))) = some (0, [], R) :=
    searchFrom_hit 0 hm
  have hE : ∃ E, T ++ (cs!"={" ++ ((c ++ ' ' :: V) ++ ['}'])) = '=' :: E := by
    rcases hT with rfl | rfl
    · exact ⟨_, rfl⟩
    · exact ⟨_, rfl⟩
  have hbase : (matchPrefix baseNameRe (a :: ((p' ++ '{' :: W) ++ (cs!"={" ++ ((c ++ ' ' :: V) ++ ['}']))))).bind (·.1.get 1) =
      some (a :: p' ++ cs!"{}" ++ D) := by
    obtain ⟨E, hE⟩ := hE
    have : matchPrefix baseNameRe (a :: ((p' ++ '{' :: W) ++ (cs!"={" ++ ((c ++ ' ' :: V) ++ ['}'])))) =
        some ([(1, a :: p' ++ cs!"{}" ++ D)], E) := by
      unfold matchPrefix baseNameRe
      simp only [cat, m]
      have e : a :: ((p' ++ '{' :: W) ++ (cs!"={" ++ ((c ++ ' ' :: V) ++ ['}']))) =
          (a :: p' ++ cs!"{}" ++ D) ++ ('=' :: E) := by rw [← hE]; simp [W]
      rw [e]
      apply m_plus_max (a :: p' ++ cs!"{}" ++ D) (by simp)
      · intro y hy
        rcases List.mem_append.mp hy with hy | hy
        · rcases List.mem_append.mp hy with hy | hy
          · simpa using (h.name y hy).2.1
          · have : ∀ y ∈ cs!"{}", (y != '=') = true := by decide
            exact this y hy
        · simp; rintro rfl; exact hD1 hy
      · intro y hy; simp at hy; subst hy; decide
      · rw [m_lit_cons]
        have : (a :: p' ++ cs!"{}" ++ D ++ '=' :: E).length - ('=' :: E).length = (a :: p' ++ cs!"{}" ++ D).length := by
          simp only [List.length_append]; omega
        rw [this, List.take_left]
    rw [this]; rfl
  have hnl : ∀ y ∈ W ++ (cs!"={" ++ (c ++ ' ' :: V)), y ≠ '\n' := by
    intro y hy
    rcases List.mem_append.1 hy with hy | hy
    · exact (hWs y hy).2
    · rcases List.mem_append.1 hy with hy | hy
      · rintro rfl; revert hy; decide
      · rcases List.mem_append.1 hy with hy | hy
        · exact (h.val y hy).2.2.1
        · rcases List.mem_cons.1 hy with rfl | hy
          · decide
          · exact (hV y hy).2.1
  have hvals : (search valsRe (a :: ((p' ++ '{' :: W) ++ (cs!"={" ++ ((c ++ ' ' :: V) ++ ['}']))))).bind (·.2.1.get 1) =
      some (W ++ (cs!"={" ++ (c ++ ' ' :: V))) := by
    have e : a :: ((p' ++ '{' :: W) ++ (cs!"={" ++ ((c ++ ' ' :: V) ++ ['}']))) = (a :: p') ++ ('{' :: ((W ++ (cs!"={" ++ (c ++ ' ' :: V))) ++ ['}'])) := by
      simp
    have : search valsRe (a :: ((p' ++ '{' :: W) ++ (cs!"={" ++ ((c ++ ' ' :: V) ++ ['}'])))) =
        some (0 + (a :: p').length, [(1, W ++ (cs!"={" ++ (c ++ ' ' :: V)))], []) := by
      unfold search
      rw [e, searchFrom_skip]
      · exact searchFrom_hit _ (m_valsRe (by simp [W]) hnl)
      · intro T1 T2 e2 hne
        obtain ⟨z, T2, rfl⟩ := List.exists_cons_of_ne_nil hne
        have hz := (h.name z (by rw [e2]; simp)).2.2.2.1
        unfold matchPrefix valsRe
        simp only [cat, List.cons_append, m]
        rw [m_lit_ne hz]
    rw [this]; rfl
  have hsplit : splitOn ' ' (W ++ (cs!"={" ++ (c ++ ' ' :: V))) = [W ++ (cs!"={" ++ c), V] := by
    have e : W ++ (cs!"={" ++ (c ++ ' ' :: V)) = (W ++ (cs!"={" ++ c)) ++ ' ' :: V := by simp
    rw [e, splitOn_cons, splitOn_nosep]
    · exact fun h => (hV _ h).1 rfl
    · intro hc
      rcases List.mem_append.mp hc with hc | hc
      · exact (hWs _ hc).1 rfl
      · rcases List.mem_append.mp hc with hc | hc
        · revert hc; decide
        · exact (h.val _ hc).1 rfl
  rw [es]
  unfold explodeStep
  rw [hs]
  have e1 : (List.drop 0 (a :: ((p' ++ '{' :: W) ++ (cs!"={" ++ ((c ++ ' ' :: V) ++ '}' :: R))))).take
      ((a :: ((p' ++ '{' :: W) ++ (cs!"={" ++ ((c ++ ' ' :: V) ++ '}' :: R)))).length - 0 - R.length) =
      a :: ((p' ++ '{' :: W) ++ (cs!"={" ++ ((c ++ ' ' :: V) ++ ['}']))) := by
    have e2 : a :: ((p' ++ '{' :: W) ++ (cs!"={" ++ ((c ++ ' ' :: V) ++ '}' :: R))) =
      (a :: ((p' ++ '{' :: W) ++ (cs!"={" ++ ((c ++ ' ' :: V) ++ ['}'])))) ++ R := by simp
    rw [e2, List.drop_zero]
    have : ((a :: ((p' ++ '{' :: W) ++ (cs!"={" ++ ((c ++ ' ' :: V) ++ ['}'])))) ++ R).length - 0 - R.length =
        (a :: ((p' ++ '{' :: W) ++ (cs!"={" ++ ((c ++ ' ' :: V) ++ ['}'])))).length := by
      rw [List.length_append]; omega
    rw [this, List.take_left]
  simp only [e1, hbase, hvals, hsplit]
  simp [W]

/-- the text after a pass is of the form again -/
theorem loop_next (lens : Str → Nat) {p c D T V R : Str} (hD1 : '=' ∉ D) (hD2 : '\n' ∉ D) (hD3 : ' ' ∉ D) (hT : ' ' ∉ T) (hT2 : '\n' ∉ T) :
    Loops p c ((explodeVals (p ++ cs!"{}" ++ D) 0 (padVals ['}' :: (D ++ T) ++ cs!"={" ++ c, V] (lens (p ++ cs!"{}" ++ D)))).dropLast ++ R) := by
  rw [explodeVals_eq, joinC_snoc_blank _ _ (elems_ne (by simp [padVals]))]
  simp only [padVals, List.cons_append, List.nil_append, Arr.elems]
  have hj : ∀ (w : Str) (ws : List Str), ∃ q, joinC ' ' (w :: ws) = w ++ q := by
    intro w ws
    cases ws with
    | nil => exact ⟨[], by simp [joinC]⟩
    | cons v vs => exact ⟨' ' :: joinC ' ' (v :: vs), rfl⟩
  rw [joinC]
  · obtain ⟨q, hq⟩ := hj (p ++ cs!"{}" ++ D ++ Nat.toDigits 10 (0 + 1) ++ '=' :: V)
      (Arr.elems (p ++ cs!"{}" ++ D) (0 + 1 + 1) (List.replicate (lens (p ++ cs!"{}" ++ D) - ['}' :: (D ++ T) ++ cs!"={" ++ c, V].length) cs!"0"))
    simp only [List.cons_append, List.nil_append] at hq
    rw [hq]
    refine ⟨D ++ cs!"0", '}' :: (D ++ T), D ++ cs!"1=" ++ V ++ q ++ R, ?_, ?_, ?_, ?_, ?_, ?_⟩
    · simp [hD1]
    · simp [hD2]
    · simp [hD3]
    · simp [hD3, hT]
    · simp [hD2, hT2]
    · have h0 : Nat.toDigits 10 0 = ['0'] := by decide
      have h1 : Nat.toDigits 10 (0 + 1) = ['1'] := by decide
      rw [h0, h1]
      simp
  · simp

theorem loops_step (lens : Str → Nat) {p c s : Str} (hp : LoopName p c) (h : Loops p c s) : ∃ s', explodeStep lens s = .next s' ∧ Loops p c s' := by
  obtain ⟨D, X, R, hD1, hD2, hD3, hX, hX2, rfl⟩ := h
  have hV : ∀ x ∈ p ++ cs!"{", x ≠ ' ' ∧ x ≠ '\n' ∧ x ≠ '}' := by
    intro x hx
    rcases List.mem_append.1 hx with hx | hx
    · have := hp.name x hx; exact ⟨this.1, this.2.2.1, this.2.2.2.2⟩
    · have : ∀ x ∈ cs!"{", x ≠ ' ' ∧ x ≠ '\n' ∧ x ≠ '}' := by decide
      exact this x hx
  have h1 := loop_pass lens (V := p ++ cs!"{") (R := R) hp hD1 hD2 hD3 hX hX2 hV ('=' :: X) (.inr rfl)
  refine ⟨_, ?_, loop_next lens (T := '=' :: X) (V := p ++ cs!"{") (R := R) hD1 hD2 hD3 (by simp [hX]) (by simp [hX2])⟩
  rw [← h1]; simp

theorem loops_forever (lens : Str → Nat) {p c : Str} (hp : LoopName p c) (fuel : Nat) : ∀ {s : Str}, Loops p c s → explode lens fuel s = none := by
  induction fuel with
  | zero => intro s _; rfl
  | succ n ih =>
    intro s h
    obtain ⟨s', h1, h2⟩ := loops_step lens hp h
    simp only [explode, h1]
    exact ih h2

/-! ## Removing empty arrays -/

/-- one match of the pattern -/
theorem m_emptyArray {n R : Str} (hne : n ≠ []) (hw : ∀ c ∈ n, isWord c = true) :
    matchPrefix emptyArrayRe (n ++ (cs!"={} " ++ R)) = some ([], R) := by
  unfold matchPrefix emptyArrayRe
  simp only [cat, m]
  apply m_plus_max n hne hw
  · intro y hy; simp at hy; subst hy; decide
  · rw [m_str]

theorem no_emptyArray_in {T rest : Str} (hT : Before T) (hr : ∀ c ∈ rest.head?, c ≠ '{' ∧ c ≠ '}') (hne : T ≠ []) :
    matchPrefix emptyArrayRe (T ++ rest) = none := by
  apply m_none_of
  intro pre post e hm
  unfold emptyArrayRe at hm
  simp only [cat] at hm
  obtain ⟨u, v, rfl, h1, h2⟩ := matches_seq hm
  have := matches_str h2
  subst this
  have hu := matches_plus h1
  rw [List.append_assoc] at e
  rcases List.append_eq_append_iff.mp e with ⟨as, e5, e6⟩ | ⟨bs, e5, e6⟩
  · -- u = T ++ as : T all word chars
    have hl : T.getLast? = some (T.getLast hne) := List.getLast?_eq_some_getLast hne
    have h3 := hT.2 _ hl
    have h4 := hu.2 (T.getLast hne) (by rw [e5]; exact List.mem_append_left _ (List.getLast_mem hne))
    rw [h3] at h4; cases h4
  · -- T = u ++ bs
    simp only [List.cons_append, List.nil_append] at e6
    cases bs with
    | nil =>
      have hl : T.getLast? = some (T.getLast hne) := List.getLast?_eq_some_getLast hne
      have h3 := hT.2 _ hl
      have h4 := hu.2 (T.getLast hne) (by simp at e5; exact e5 ▸ List.getLast_mem hne)
      rw [h3] at h4; cases h4
    | cons b1 bs =>
      simp at e6
      obtain ⟨rfl, e6⟩ := e6
      cases bs with
      | nil => simp at e6; exact (hr '{' (by rw [← e6]; simp)).1 rfl
      | cons b2 bs =>
        simp at e6
        obtain ⟨rfl, e6⟩ := e6
        cases bs with
        | nil => simp at e6; exact (hr '}' (by rw [← e6]; simp)).2 rfl
        | cons b3 bs =>
          simp at e6
          obtain ⟨rfl, e6⟩ := e6
          exact hT.1 ⟨u, bs, by rw [e5]; simp⟩

theorem Before.tail {c : Char} {T : Str} (h : Before (c :: T)) : Before T := by
  refine ⟨fun hi => h.1 (List.infix_cons hi), ?_⟩
  intro x hx
  apply h.2
  cases T with
  | nil => simp at hx
  | cons y T => simpa using hx

theorem sub_skip {T rest : Str} (hT : Before T) (hr : ∀ c ∈ rest.head?, c ≠ '{' ∧ c ≠ '}') (fuel : Nat)
    (hf : T.length ≤ fuel) :
    subEmptyArrays fuel (T ++ rest) = T ++ subEmptyArrays (fuel - T.length) rest := by
  induction T generalizing fuel with
  | nil => simp
  | cons c T ih =>
    cases fuel with
    | zero => simp at hf
    | succ fuel =>
      have := no_emptyArray_in hT hr (by simp)
      simp only [List.cons_append] at this
      simp only [List.cons_append, subEmptyArrays, this]
      rw [ih hT.tail fuel (by simpa using hf)]
      simp

theorem sub_hit {n R : Str} (hne : n ≠ []) (hw : ∀ c ∈ n, isWord c = true) (fuel : Nat) :
    subEmptyArrays (fuel + 1) (n ++ (cs!"={} " ++ R)) = subEmptyArrays fuel R := by
  have hm := m_emptyArray (R := R) hne hw
  obtain ⟨c, n', rfl⟩ := List.exists_cons_of_ne_nil hne
  simp only [List.cons_append] at hm ⊢
  simp only [subEmptyArrays, hm]

theorem sub_last {T : Str} (hT : ¬ (cs!"={} " <:+: T)) (fuel : Nat) : subEmptyArrays fuel T = T := by
  induction T generalizing fuel with
  | nil => cases fuel <;> rfl
  | cons c T ih =>
    cases fuel with
    | zero => rfl
    | succ fuel =>
      have : matchPrefix emptyArrayRe (c :: T) = none := by
        apply m_none_of
        intro pre post e hm
        unfold emptyArrayRe at hm
        simp only [cat] at hm
        obtain ⟨u, v, rfl, h1, h2⟩ := matches_seq hm
        have := matches_str h2
        subst this
        exact hT ⟨u, post, by rw [e]⟩
      simp only [subEmptyArrays, this]
      rw [ih (fun h => hT (List.infix_cons h))]

theorem sub_segments (segs : List (Str × Str)) (last : Str)
    (hs : ∀ x ∈ segs, Before x.1 ∧ x.2 ≠ [] ∧ ∀ c ∈ x.2, isWord c = true) (hl : ¬ (cs!"={} " <:+: last)) (fuel : Nat)
    (hf : ((segs.map fun x => x.1 ++ (x.2 ++ cs!"={} ")).flatten ++ last).length ≤ fuel) :
    subEmptyArrays fuel ((segs.map fun x => x.1 ++ (x.2 ++ cs!"={} ")).flatten ++ last) =
      (segs.map Prod.fst).flatten ++ last := by
  induction segs generalizing fuel with
  | nil => simpa using sub_last hl fuel
  | cons x segs ih =>
    obtain ⟨T, n⟩ := x
    obtain ⟨hT, hne, hw⟩ := hs (T, n) (by simp)
    simp only at hT hne hw
    simp only [List.map_cons, List.flatten_cons, List.append_assoc, List.length_append] at hf ⊢
    rw [sub_skip hT (by
      intro c hc
      obtain ⟨c0, n', rfl⟩ := List.exists_cons_of_ne_nil hne
      simp at hc; subst hc
      have := hw c0 (by simp)
      constructor <;> rintro rfl <;> revert this <;> decide) fuel (by omega)]
    obtain ⟨k, hk⟩ : ∃ k, fuel - T.length = k + 1 := ⟨fuel - T.length - 1, by
      have : (cs!"={} " : Str).length = 4 := rfl
      omega⟩
    rw [hk, sub_hit hne hw]
    rw [ih (fun y hy => hs y (by simp [hy])) k (by
      have : (cs!"={} " : Str).length = 4 := rfl
      simp only [List.length_append]
      omega)]

end Trappy
