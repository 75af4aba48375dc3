import Verif.Lemma.Array2
import Verif.Lemma.Regex2
/-! Termination of the array explosion when no array name has both kinds of braces in it. -/

namespace Trappy
open Py Re

/-! ## Words -/

theorem splitOn_ne (ch : Char) (s : Str) : splitOn ch s ≠ [] := by
  cases s with
  | nil => simp [splitOn]
  | cons x s =>
    unfold splitOn
    split
    · simp
    · split <;> simp

theorem splitOn_append (ch : Char) (x y : Str) :
    ∃ xs l h ys, splitOn ch x = xs ++ [l] ∧ splitOn ch y = h :: ys ∧ splitOn ch (x ++ y) = xs ++ (l ++ h) :: ys := by
  induction x with
  | nil =>
    obtain ⟨h, ys, e⟩ := List.exists_cons_of_ne_nil (splitOn_ne ch y)
    exact ⟨[], [], h, ys, rfl, e, by simpa using e⟩
  | cons c x ih =>
    obtain ⟨xs, l, h, ys, e1, e2, e3⟩ := ih
    by_cases hc : c = ch
    · refine ⟨[] :: xs, l, h, ys, ?_, e2, ?_⟩
      · simp [splitOn, hc, e1]
      · simp [splitOn, hc, e3]
    · cases xs with
      | nil =>
        refine ⟨[], c :: l, h, ys, ?_, e2, ?_⟩
        · simp [splitOn, hc, e1]
        · simp [splitOn, hc, e3]
      | cons w xs =>
        refine ⟨(c :: w) :: xs, l, h, ys, ?_, e2, ?_⟩
        · simp [splitOn, hc, e1]
        · simp [splitOn, hc, e3]

theorem splitOn_count {ch d : Char} (hd : d ≠ ch) (s : Str) : ((splitOn ch s).map (List.count d)).sum = s.count d := by
  induction s with
  | nil => simp [splitOn]
  | cons x s ih =>
    unfold splitOn
    by_cases hx : x = ch
    · subst hx
      simp [ih, List.count_cons, Ne.symm hd]
    · have hx' : (x == ch) = false := by simpa using hx
      rw [hx']
      simp only [Bool.false_eq_true, if_false]
      obtain ⟨w, ws, e⟩ := List.exists_cons_of_ne_nil (splitOn_ne ch s)
      rw [e] at ih ⊢
      simp only [List.map_cons, List.sum_cons, List.count_cons] at ih ⊢
      omega

theorem splitOn_words {ch : Char} {s w : Str} (h : w ∈ splitOn ch s) : ch ∉ w := by
  induction s generalizing w with
  | nil => simp [splitOn] at h; subst h; simp
  | cons x s ih =>
    unfold splitOn at h
    by_cases hx : x = ch
    · simp only [hx, beq_self_eq_true, if_true] at h
      rcases List.mem_cons.1 h with rfl | h
      · simp
      · exact ih h
    · have hx' : (x == ch) = false := by simpa using hx
      rw [hx'] at h
      simp only [Bool.false_eq_true, if_false] at h
      obtain ⟨v, vs, e⟩ := List.exists_cons_of_ne_nil (splitOn_ne ch s)
      rw [e] at h ih
      rcases List.mem_cons.1 h with rfl | h
      · rw [List.mem_cons, not_or]
        exact ⟨Ne.symm hx, ih (by simp)⟩
      · exact ih (by simp [h])

theorem splitOn_first {ch : Char} {s v : Str} {vs : List Str} (h : splitOn ch s = v :: vs) : ∃ b, s = v ++ b := by
  induction s generalizing v vs with
  | nil => simp [splitOn] at h; exact ⟨[], by simp [h.1]⟩
  | cons y s ih2 =>
    unfold splitOn at h
    split at h
    · cases h; exact ⟨y :: s, rfl⟩
    · split at h
      · next h0 => exact absurd h0 (splitOn_ne ch s)
      · next w ws h0 =>
        cases h
        obtain ⟨b, hb⟩ := ih2 h0
        exact ⟨b, by rw [List.cons_append, ← hb]⟩

theorem splitOn_later {ch : Char} {s v w : Str} {vs : List Str} (h : splitOn ch s = v :: vs) (hw : w ∈ vs) : ∃ a b, s = a ++ ch :: (w ++ b) := by
  induction s generalizing v vs with
  | nil => simp [splitOn] at h; rw [h.2] at hw; simp at hw
  | cons y s ih2 =>
    unfold splitOn at h
    split at h
    · next hy =>
      cases h
      have hy : y = ch := by simpa using hy
      subst hy
      cases hs : splitOn y s with
      | nil => exact absurd hs (splitOn_ne y s)
      | cons u us =>
        rw [hs] at hw
        rcases List.mem_cons.1 hw with rfl | hw
        · obtain ⟨b, hb⟩ := splitOn_first hs
          exact ⟨[], b, by rw [← hb]; rfl⟩
        · obtain ⟨a, b, e⟩ := ih2 hs hw
          exact ⟨y :: a, b, by rw [e]; rfl⟩
    · split at h
      · next h0 => exact absurd h0 (splitOn_ne ch s)
      · next u us h0 =>
        cases h
        obtain ⟨a, b, e⟩ := ih2 h0 hw
        exact ⟨y :: a, b, by rw [e]; rfl⟩

/-- the condition of the specification in terms of words -/
theorem namesWithout_iff (ch : Char) (s : Str) :
    NamesWithout ch s ↔ ∀ w ∈ splitOn ' ' s, ∀ n v, w = n ++ '=' :: v → '=' ∉ n → ch ∉ n := by
  constructor
  · intro h w hw n v e hn
    have hb : ' ' ∉ n := by
      have := splitOn_words hw
      rw [e] at this
      exact fun h' => this (List.mem_append_left _ h')
    cases hs : splitOn ' ' s with
    | nil => exact absurd hs (splitOn_ne _ _)
    | cons u us =>
      rw [hs] at hw
      rcases List.mem_cons.1 hw with rfl | hw
      · obtain ⟨b, hb'⟩ := splitOn_first hs
        exact h [] n (v ++ b) (by rw [hb', e]; simp) (.inl rfl) hb hn
      · obtain ⟨a, b, hb'⟩ := splitOn_later hs hw
        exact h (a ++ [' ']) n (v ++ b) (by rw [hb', e]; simp) (.inr (by simp)) hb hn
  · intro h a n b e ha hb hn
    obtain ⟨xs, l, w, ys, e1, e2, e3⟩ := splitOn_append ' ' (n ++ '=' :: []) b
    have hnb : ' ' ∉ n ++ ['='] := by simp [hb]
    rw [splitOn_nosep hnb] at e1
    have hl : xs = [] ∧ l = n ++ ['='] := by
      cases xs with
      | nil => simp at e1; exact ⟨rfl, e1.symm⟩
      | cons x xs => simp at e1
    obtain ⟨rfl, rfl⟩ := hl
    rcases ha with rfl | ha
    · refine h (n ++ '=' :: w) ?_ n w rfl hn
      rw [e, show [] ++ n ++ '=' :: b = n ++ ['='] ++ b by simp, e3]
      simp
    · obtain ⟨a', rfl⟩ := List.getLast?_eq_some_iff.1 ha
      refine h (n ++ '=' :: w) ?_ n w rfl hn
      rw [e]
      obtain ⟨xs, l, w', ys', f1, f2, f3⟩ := splitOn_append ' ' a' (' ' :: (n ++ ['='] ++ b))
      rw [show a' ++ [' '] ++ n ++ '=' :: b = a' ++ ' ' :: (n ++ ['='] ++ b) by simp, f3]
      have f4 : splitOn ' ' (' ' :: (n ++ ['='] ++ b)) = [] :: splitOn ' ' (n ++ ['='] ++ b) := by rw [splitOn]; simp
      rw [f4, e3] at f2
      cases f2
      simp

/-! ## The match begins with a word -/

theorem searchFrom_first {r : Re} {s : Str} {n i : Nat} {c : Caps} {rest : Str} (h : searchFrom r n s = some (i, c, rest)) :
    ∀ a b, s = a ++ b → n + a.length < i → matchPrefix r b = none := by
  induction s generalizing n with
  | nil =>
    intro a b e hl
    simp only [searchFrom, Option.map_eq_some_iff] at h
    obtain ⟨⟨c', rest'⟩, hm, e'⟩ := h
    cases e'
    omega
  | cons x s ih =>
    intro a b e hl
    unfold searchFrom at h
    split at h
    · cases h; omega
    · next hm =>
      cases a with
      | nil => rw [← List.nil_append b, ← e]; exact hm
      | cons y a =>
        cases e
        exact ih h a b rfl (by simp at hl; omega)

theorem arrayRe_simple : arrayRe.Simple := by
  simp [arrayRe, Re.cat, Re.Simple, Re.plus, Re.lit, Re.str]

theorem matches_arrayRe_cons {x : Char} {u v : Str} (hx : x ≠ ' ') (hu : ∀ c ∈ u, (c != ' ') = true) (hv : ∀ c ∈ v, (c != '}') = true) (hne : v ≠ []) :
    Matches arrayRe (x :: u ++ ('=' :: '{' :: v) ++ ['}']) := by
  obtain ⟨y, v, rfl⟩ := List.exists_cons_of_ne_nil hne
  have h1 : Matches (plus (· != ' ')) (x :: u) := by
    have := Matches.seq (Matches.chr (p := (· != ' ')) (x := x) (by simpa using hx)) (Matches.star (p := (· != ' ')) (x := u) hu)
    simpa [plus] using this
  have h2 : Matches (str cs!"={") cs!"={" := by
    have := Matches.seq (Matches.chr (p := (· == '=')) (x := '=') (by decide))
      (Matches.seq (Matches.chr (p := (· == '{')) (x := '{') (by decide)) Matches.eps)
    simpa [str, lit] using this
  have h3 : Matches (plus (· != '}')) (y :: v) := by
    have := Matches.seq (Matches.chr (p := (· != '}')) (x := y) (hv y (by simp))) (Matches.star (p := (· != '}')) (x := v) (fun c hc => hv c (by simp [hc])))
    simpa [plus] using this
  have h4 : Matches (lit '}') ['}'] := Matches.chr (by decide)
  have := Matches.seq h1 (Matches.seq h2 (Matches.seq h3 h4))
  simpa [arrayRe, cat] using this

/-! ## One pass -/

theorem count_elems {d : Char} (hd : isDigit d = false) (hd2 : d ≠ '=') {name : Str} (hn : d ∉ name) (vs : List Str) (i : Nat) :
    ((Arr.elems name i vs).map (List.count d)).sum = (vs.map (List.count d)).sum := by
  induction vs generalizing i with
  | nil => rfl
  | cons v vs ih =>
    rw [Arr.elems, List.map_cons, List.sum_cons, ih, List.map_cons, List.sum_cons]
    congr 1
    have h0 : List.count d (Nat.toDigits 10 i) = 0 := List.count_eq_zero_of_not_mem fun h => by
      have := natStr_digits h
      rw [hd] at this
      cases this
    simp [List.count_eq_zero_of_not_mem hn, h0, List.count_cons, Ne.symm hd2]

theorem count_joinC {d ch : Char} (hd : d ≠ ch) (ws : List Str) : (joinC ch ws).count d = (ws.map (List.count d)).sum := by
  induction ws with
  | nil => rfl
  | cons w ws ih =>
    cases ws with
    | nil => simp [joinC]
    | cons v vs =>
      rw [joinC, List.count_append, List.count_cons, ih, List.map_cons (f := List.count d), List.sum_cons]
      · simp [Ne.symm hd]
      · simp

theorem elems_head {name : Str} {vs : List Str} {i : Nat} {w : Str} (h : w ∈ Arr.elems name i vs) :
    ∃ (j : Nat) (v : Str), v ∈ vs ∧ w = name ++ Nat.toDigits 10 j ++ '=' :: v := elems_mem h

/-- each pass removes a brace of the kind that no name has, and makes no such name -/
theorem explodeStep_names (lens : Str → Nat) {ch : Char} (hch : ch = '{' ∨ ch = '}') {s : Str} (hs : NamesWithout ch s) {s' : Str}
    (h : explodeStep lens s = .next s') : NamesWithout ch s' ∧ s'.count ch < s.count ch := by
  have hd : isDigit ch = false := by rcases hch with rfl | rfl <;> decide
  have hd2 : ch ≠ '=' := by rcases hch with rfl | rfl <;> decide
  have hd3 : ch ≠ ' ' := by rcases hch with rfl | rfl <;> decide
  unfold explodeStep at h
  split at h
  · cases h
  rename_i begin c rest hsearch
  obtain ⟨pre, mid, e, hi, hmat, _⟩ := searchFrom_sound hsearch
  have hfirst := searchFrom_first hsearch
  simp only [Nat.zero_add] at hi
  subst hi
  obtain ⟨u, v, rfl, hu, hv, hup, hvp⟩ := matches_arrayRe hmat
  have hmid : (List.drop pre.length s).take (s.length - pre.length - rest.length) = u ++ '=' :: '{' :: v ++ ['}'] := by
    rw [e, List.drop_left]
    have : (pre ++ (u ++ '=' :: '{' :: v ++ ['}'] ++ rest)).length - pre.length - rest.length =
      (u ++ '=' :: '{' :: v ++ ['}']).length := by
      simp only [List.length_append]; omega
    rw [this, List.take_left]
  simp only [hmid] at h
  -- the match begins with a word
  have hpre : pre = [] ∨ pre.getLast? = some ' ' := by
    rcases List.eq_nil_or_concat pre with rfl | ⟨p, x, rfl⟩
    · exact .inl rfl
    · right
      by_cases hx : x = ' '
      · simp [hx]
      exfalso
      have hn := hfirst p (x :: u ++ ('=' :: '{' :: v) ++ ['}'] ++ rest) (by rw [e]; simp) (by simp)
      have := (matchPrefix_isSome arrayRe_simple (x :: u ++ ('=' :: '{' :: v) ++ ['}'] ++ rest)).2 ⟨_, _, rfl, matches_arrayRe_cons hx hup hvp hv⟩
      rw [hn] at this
      cases this
  split at h
  · rename_i name valsStr hname hvals
    cases h
    have hnb : ch ∉ name ∧ ' ' ∉ name := by
      cases hbm : matchPrefix baseNameRe (u ++ '=' :: '{' :: v ++ ['}']) with
      | none => rw [hbm] at hname; cases hname
      | some x =>
        obtain ⟨c1, r1⟩ := x
        rw [hbm] at hname
        simp at hname
        obtain ⟨w, hw, hwp, hc1⟩ := group_plus_lit hbm
        rw [hname] at hc1; cases hc1
        have heq : '=' ∉ name := fun hm => by have := hwp _ hm; simp at this
        have hsp : ' ' ∉ name := by
          intro hm
          rw [List.append_assoc] at hw
          rcases List.append_eq_append_iff.mp hw with ⟨as, e5, e6⟩ | ⟨bs, e5, e6⟩
          · cases as with
            | nil => simp at e5; have := hup ' ' (e5 ▸ hm); simp at this
            | cons y as =>
              simp at e6
              have := hwp '=' (by rw [e5, ← e6.1]; simp)
              simp at this
          · have := hup ' ' (by rw [e5]; simp [hm]); simp at this
        refine ⟨hs pre name (r1 ++ rest) ?_ hpre hsp heq, hsp⟩
        rw [e, hw]; simp
    have hvals' : ∃ a b, u ++ '=' :: '{' :: v ++ ['}'] = a ++ '{' :: (valsStr ++ '}' :: b) := by
      cases hsm : search valsRe (u ++ '=' :: '{' :: v ++ ['}']) with
      | none => rw [hsm] at hvals; cases hvals
      | some x =>
        obtain ⟨i1, c1, r1⟩ := x
        rw [hsm] at hvals
        simp at hvals
        obtain ⟨pre1, mid1, e1, _, _, hm1⟩ := searchFrom_sound hsm
        obtain ⟨w, hw, hc1⟩ := vals_capture hm1
        rw [hvals] at hc1; cases hc1
        exact ⟨pre1, r1, by rw [e1, hw]⟩
    obtain ⟨a, b, hab⟩ := hvals'
    have htake : List.take pre.length s = pre := by rw [e, List.take_left]
    rw [htake]
    have hpv : padVals (splitOn ' ' valsStr) (lens name) ≠ [] := by
      unfold padVals
      simp [splitOn_ne]
    have hE : (explodeVals name 0 (padVals (splitOn ' ' valsStr) (lens name))).dropLast =
        joinC ' ' (Arr.elems name 0 (padVals (splitOn ' ' valsStr) (lens name))) := by
      rw [explodeVals_eq, joinC_snoc_blank _ _ (elems_ne hpv)]
    rw [hE]
    have hcount : (joinC ' ' (Arr.elems name 0 (padVals (splitOn ' ' valsStr) (lens name)))).count ch = valsStr.count ch := by
      rw [count_joinC hd3, count_elems hd hd2 hnb.1, padVals, List.map_append, List.sum_append, splitOn_count hd3]
      have h0 : List.count ch cs!"0" = 0 := List.count_eq_zero_of_not_mem (by rcases hch with rfl | rfl <;> decide)
      simp [List.map_replicate, h0]
    have hwords : ∀ w ∈ Arr.elems name 0 (padVals (splitOn ' ' valsStr) (lens name)), ' ' ∉ w := by
      intro w hw hb
      obtain ⟨j, x, hx, rfl⟩ := elems_mem hw
      simp only [List.append_assoc, List.mem_append, List.mem_cons] at hb
      rcases hb with hb | hb | hb | hb
      · exact hnb.2 hb
      · have := natStr_digits hb; revert this; decide
      · simp at hb
      · unfold padVals at hx
        rcases List.mem_append.1 hx with hx | hx
        · exact splitOn_words hx hb
        · rw [(List.mem_replicate.1 hx).2] at hb; revert hb; decide
    constructor
    · rw [namesWithout_iff] at hs ⊢
      have hgood : ∀ w ∈ Arr.elems name 0 (padVals (splitOn ' ' valsStr) (lens name)), ∀ t n x, w ++ t = n ++ '=' :: x → '=' ∉ n → ch ∉ n := by
        intro w hw t n x e' hn hm
        obtain ⟨j, y, _, rfl⟩ := elems_mem hw
        have hnn : ch ∉ name ++ Nat.toDigits 10 j := by
          rw [List.mem_append, not_or]
          exact ⟨hnb.1, fun h => by have := natStr_digits h; rw [hd] at this; cases this⟩
        rw [List.append_assoc, List.cons_append] at e'
        rcases List.append_eq_append_iff.mp e' with ⟨as, e5, e6⟩ | ⟨bs, e5, e6⟩
        · cases as with
          | nil => rw [List.append_nil] at e5; exact hnn (e5 ▸ hm)
          | cons z as =>
            rw [List.cons_append] at e6
            exact hn (by rw [e5, ← (List.cons.inj e6).1]; simp)
        · exact hnn (by rw [e5]; exact List.mem_append_left _ hm)
      -- words of the rest
      have hrest : ∀ h0 ys, splitOn ' ' rest = h0 :: ys → ∀ w ∈ ys, ∀ n x, w = n ++ '=' :: x → '=' ∉ n → ch ∉ n := by
        intro h0 ys e0 w hw
        apply hs
        obtain ⟨xs, l, h1, ys1, _, f2, f3⟩ := splitOn_append ' ' (pre ++ (u ++ '=' :: '{' :: v ++ ['}'])) rest
        rw [e0] at f2
        cases f2
        rw [e, ← List.append_assoc, f3]
        simp [hw]
      have hEr : ∀ w ∈ splitOn ' ' (joinC ' ' (Arr.elems name 0 (padVals (splitOn ' ' valsStr) (lens name))) ++ rest), ∀ n x, w = n ++ '=' :: x → '=' ∉ n → ch ∉ n := by
        obtain ⟨xs, l, h1, ys1, f1, f2, f3⟩ := splitOn_append ' ' (joinC ' ' (Arr.elems name 0 (padVals (splitOn ' ' valsStr) (lens name)))) rest
        rw [splitOn_join (elems_ne hpv) hwords] at f1
        intro w hw n x ew hn
        rw [f3] at hw
        rcases List.mem_append.1 hw with hw | hw
        · exact hgood w (by rw [f1]; simp [hw]) [] n x (by simpa using ew) hn
        · rcases List.mem_cons.1 hw with rfl | hw
          · exact hgood l (by rw [f1]; simp) h1 n x ew hn
          · exact hrest _ _ f2 w hw n x ew hn
      rw [List.append_assoc]
      rcases hpre with rfl | hpre
      · simpa using hEr
      · obtain ⟨p, rfl⟩ := List.getLast?_eq_some_iff.1 hpre
        have hp : ∀ t, splitOn ' ' (p ++ [' '] ++ t) = splitOn ' ' p ++ splitOn ' ' t := by
          intro t
          obtain ⟨xs, l, h1, ys1, f1, f2, f3⟩ := splitOn_append ' ' p (' ' :: t)
          have f4 : splitOn ' ' (' ' :: t) = [] :: splitOn ' ' t := by rw [splitOn]; simp
          rw [f4] at f2
          cases f2
          rw [List.append_assoc, List.singleton_append, f3, f1]
          simp
        intro w hw
        rw [hp] at hw
        rcases List.mem_append.1 hw with hw | hw
        · exact hs w (by rw [e, hp]; exact List.mem_append_left _ hw)
        · exact hEr w hw
    · rw [e, List.count_append, List.count_append, List.count_append, List.count_append, hcount, hab]
      rw [List.count_append, List.count_cons, List.count_append, List.count_cons]
      rcases hch with rfl | rfl <;> simp <;> omega
  · cases h

theorem explode_terminates_names (lens : Str → Nat) {ch : Char} (hch : ch = '{' ∨ ch = '}') (n : Nat) : ∀ s : Str, NamesWithout ch s → s.count ch ≤ n →
    ∃ r, ∀ fuel, n < fuel → explode lens fuel s = some r := by
  induction n with
  | zero =>
    intro s hs hc
    cases hst : explodeStep lens s with
    | done => exact ⟨some s, fun fuel hf => by cases fuel with | zero => omega | succ f => simp [explode, hst]⟩
    | error => exact ⟨none, fun fuel hf => by cases fuel with | zero => omega | succ f => simp [explode, hst]⟩
    | next s' => have := (explodeStep_names lens hch hs hst).2; omega
  | succ n ih =>
    intro s hs hc
    cases hst : explodeStep lens s with
    | done => exact ⟨some s, fun fuel hf => by cases fuel with | zero => omega | succ f => simp [explode, hst]⟩
    | error => exact ⟨none, fun fuel hf => by cases fuel with | zero => omega | succ f => simp [explode, hst]⟩
    | next s' =>
      have h2 := explodeStep_names lens hch hs hst
      obtain ⟨r, hr⟩ := ih s' h2.1 (by omega)
      exact ⟨r, fun fuel hf => by
        cases fuel with
        | zero => omega
        | succ f => simp only [explode, hst]; exact hr f (by omega)⟩

/-- it is enough to look at the part of each word before the first equals sign -/
theorem namesWithout_words {ch : Char} {s : Str} (h : ∀ w ∈ splitOn ' ' s, ch ∉ w.takeWhile (· != '=')) : NamesWithout ch s := by
  refine (namesWithout_iff ch s).2 fun w hw n v e hn hc => h w hw ?_
  rw [e, List.takeWhile_append_of_pos (fun a ha => by simp; rintro rfl; exact hn ha)]
  exact List.mem_append_left _ hc

end Trappy
