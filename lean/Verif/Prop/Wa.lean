import Verif.Model.Wa
import Verif.Lemma.Regex
import Verif.Lemma.Data
import Verif.Lemma.Array2
import Verif.Lemma.Events
import Verif.Prop.Pivots
/-!
# C76, C77: benchmark results
-/

namespace Trappy
open Py Re

/-! ## C77: run numbers -/

/-- **Specification**: a number after a blank or an underscore: `l` are the lines before it, `a` is what precedes the separator on its line, which is not empty, and `ds` are the digits, none of which follow -/
def NumberAt (s l a ds : Str) : Prop :=
  ∃ c rest, s = l ++ (a ++ c :: (ds ++ rest)) ∧ (l = [] ∨ l.getLast? = some '\n') ∧ '\n' ∉ a ∧ a ≠ [] ∧ (c = ' ' ∨ c = '_') ∧ ds ≠ [] ∧ (∀ d ∈ ds, isDigit d = true) ∧ ∀ d ∈ rest.head?, isDigit d = false

/-- **Specification**: the last number of the first line with a number -/
def RunText (s l a ds : Str) : Prop := NumberAt s l a ds ∧ ∀ l' a' ds', NumberAt s l' a' ds' → l.length ≤ l'.length ∧ (l' = l → a'.length ≤ a.length)

theorem isRunSep_iff {c : Char} : isRunSep c = true ↔ c = ' ' ∨ c = '_' := by
  simp [isRunSep]

theorem numberAt_of {pre u : Str} {c d : Char} {rest : Str} (hu : u ≠ []) (hnl : '\n' ∉ u) (hc : c = ' ' ∨ c = '_') (hd : isDigit d = true) :
    ∃ l a ds, NumberAt (pre ++ (u ++ c :: d :: rest)) l a ds ∧ l.length ≤ pre.length ∧ l ++ a = pre ++ u := by
  -- the line of `u`
  have hline : ∀ r : Str, ∃ l v : Str, r.reverse = l ++ v ∧ (l = [] ∨ l.getLast? = some '\n') ∧ '\n' ∉ v := by
    intro r
    induction r with
    | nil => exact ⟨[], [], rfl, Or.inl rfl, by simp⟩
    | cons x r ih =>
      by_cases hx : x = '\n'
      · exact ⟨(x :: r).reverse, [], by simp, Or.inr (by simp [hx]), by simp⟩
      · obtain ⟨l, v, h1, h2, h3⟩ := ih
        exact ⟨l, v ++ [x], by simp [h1], h2, by simp [h3, Ne.symm hx]⟩
  obtain ⟨l, v, h1, h2, h3⟩ := hline pre.reverse
  rw [List.reverse_reverse] at h1
  refine ⟨l, v ++ u, d :: rest.takeWhile isDigit, ⟨c, rest.dropWhile isDigit, ?_, h2, ?_, by simp [hu], hc, by simp, ?_, ?_⟩, by rw [h1]; simp, by rw [h1]; simp⟩
  · rw [List.cons_append, List.takeWhile_append_dropWhile, h1]
    simp
  · simp [h3, hnl]
  · intro x hx
    rcases List.mem_cons.1 hx with rfl | hx
    · exact hd
    · have := List.all_takeWhile (p := isDigit) (l := rest)
      rw [List.all_eq_true] at this
      exact this x hx
  · intro x hx
    cases h : rest.dropWhile isDigit with
    | nil => rw [h] at hx; cases hx
    | cons y ys =>
      rw [h] at hx
      simp only [List.head?_cons, Option.mem_def, Option.some.injEq] at hx
      subst hx
      have := List.head_dropWhile_not isDigit (w := by rw [h]; simp) (l := rest)
      simpa only [h, List.head_cons] using this

/-- There is a first line with a number, and a last number of it, if there is any. -/
theorem runText_exists {s l a ds : Str} (h : NumberAt s l a ds) : ∃ l a ds, RunText s l a ds := by
  have first : ∀ (n : Nat) (l a ds : Str), l.length = n → NumberAt s l a ds → ∃ l a ds, NumberAt s l a ds ∧ ∀ l' a' ds', NumberAt s l' a' ds' → l.length ≤ l'.length := by
    intro n
    induction n using Nat.strongRecOn with
    | _ n ih =>
      intro l a ds hn h
      by_cases hl : ∀ l' a' ds', NumberAt s l' a' ds' → l.length ≤ l'.length
      · exact ⟨l, a, ds, h, hl⟩
      · simp only [Classical.not_forall, Nat.not_le] at hl
        obtain ⟨l', a', ds', h', hlt⟩ := hl
        exact ih l'.length (by omega) l' a' ds' rfl h'
  obtain ⟨l, a, ds, h, hfirst⟩ := first _ l a ds rfl h
  have key : ∀ (n : Nat) (a ds : Str), s.length - a.length = n → NumberAt s l a ds → ∃ l a ds, RunText s l a ds := by
    intro n
    induction n using Nat.strongRecOn with
    | _ n ih =>
      intro a ds hn h
      by_cases hl : ∀ a' ds', NumberAt s l a' ds' → a'.length ≤ a.length
      · exact ⟨l, a, ds, h, fun l' a' ds' h' => ⟨hfirst l' a' ds' h', fun e => hl a' ds' (e ▸ h')⟩⟩
      · simp only [Classical.not_forall, Nat.not_le] at hl
        obtain ⟨a', ds', h', hlt⟩ := hl
        have : a'.length < s.length := by
          obtain ⟨c, rest, e, _⟩ := h'
          rw [e]
          simp
          omega
        exact ih (s.length - a'.length) (by omega) a' ds' rfl h'
  exact key _ a ds rfl h

theorem notNl_iff {c : Char} : notNl c = true ↔ c ≠ '\n' := by simp [notNl]

/-- The greedy star picks `xs` if the continuation accepts there and nowhere later in the class. -/
theorem mStar_last {α : Type} {p : Char → Bool} (xs : Str) {rest : Str} {c : Caps}
    {k : Str → Caps → Option α} {v : α} (hx : ∀ y ∈ xs, p y = true) (hk : k rest c = some v)
    (hno : ∀ pre post, rest = pre ++ post → pre ≠ [] → (∀ y ∈ pre, p y = true) → k post c = none) :
    mStar p (xs ++ rest) c k = some v := by
  induction xs with
  | nil =>
    cases rest with
    | nil => simpa [mStar] using hk
    | cons y rest =>
      simp only [List.nil_append, mStar]
      split
      next hy =>
        cases hm : mStar p rest c k with
        | some w =>
          obtain ⟨pre, post, e, hpre, hkp⟩ := mStar_sound hm
          rw [hno (y :: pre) post (by simp [e]) (by simp) (by
            intro z hz
            rcases List.mem_cons.1 hz with rfl | hz
            · exact hy
            · exact hpre z hz)] at hkp
          simp at hkp
        | none => exact hk
      · exact hk
  | cons x xs ih =>
    have hp : p x = true := hx x (by simp)
    have := ih (fun y hy => hx y (by simp [hy]))
    simp [mStar, hp, this]

theorem matches_runRe {x : Str} (h : Matches runRe x) : ∃ u sep d v, x = u ++ sep :: d :: v ∧ u ≠ [] ∧ '\n' ∉ u ∧ (sep = ' ' ∨ sep = '_') ∧ isDigit d = true := by
  obtain ⟨u, v, rfl, h1, h2⟩ := matches_seq h
  obtain ⟨w, x, rfl, h3, h4⟩ := matches_seq h2
  obtain ⟨sep, rfl, hsep⟩ := matches_chr h3
  obtain ⟨hne, hu⟩ := matches_plus (matches_group h1)
  obtain ⟨hx, hdig⟩ := matches_plus (matches_group h4)
  cases x with
  | nil => exact absurd rfl hx
  | cons d x =>
    refine ⟨u, sep, d, x, by simp, hne, ?_, isRunSep_iff.1 hsep, hdig d List.mem_cons_self⟩
    intro h'
    exact notNl_iff.1 (hu _ h') rfl

theorem search_run {s l a ds : Str} (h : RunText s l a ds) :
    ∃ i c rest, search runRe s = some (i, c, rest) ∧ c.get 1 = some a ∧ c.get 2 = some ds := by
  obtain ⟨⟨sep, rest, e, hl, hnl, ha, hc, hds, hdig, hrest⟩, hlast⟩ := h
  have hm : matchPrefix runRe (a ++ sep :: (ds ++ rest)) = some ([(2, ds), (1, a)], rest) := by
    unfold matchPrefix runRe
    cases a with
    | nil => exact absurd rfl ha
    | cons x xs =>
      have hx : notNl x = true := by
        rw [notNl_iff]
        rintro rfl
        simp at hnl
      simp only [m, plus, List.cons_append, hx, if_true]
      apply mStar_last xs
      · intro y hy
        rw [notNl_iff]
        rintro rfl
        simp [hy] at hnl
      · -- at the last separator
        have hsep : isRunSep sep = true := isRunSep_iff.2 hc
        simp only [m, hsep, if_true]
        change m (plus isDigit) (ds ++ rest) _ _ = _
        apply m_plus_max ds hds hdig hrest
        have e1 : (ds ++ rest).take ((ds ++ rest).length - rest.length) = ds := by
          have : (ds ++ rest).length - rest.length = ds.length := by rw [List.length_append]; omega
          rw [this, List.take_left]
        have e2 : (x :: (xs ++ sep :: (ds ++ rest))).take ((x :: (xs ++ sep :: (ds ++ rest))).length - (sep :: (ds ++ rest)).length) = x :: xs := by
          have : (x :: (xs ++ sep :: (ds ++ rest))).length - (sep :: (ds ++ rest)).length = (x :: xs).length := by
            simp
            omega
          rw [this, ← List.cons_append, List.take_left]
        rw [e1, e2]
      · intro pre post e' hpre hpnl
        cases post with
        | nil => rfl
        | cons y post =>
          by_cases hy : isRunSep y = true
          · cases post with
            | nil => simp [m, hy]
            | cons z post =>
              by_cases hz : isDigit z = true
              · exfalso
                have hpre' : '\n' ∉ x :: xs ++ pre := by
                  rw [List.mem_append]
                  rintro (h | h)
                  · exact hnl h
                  · exact notNl_iff.1 (hpnl _ h) rfl
                obtain ⟨l', a', ds', h1, h2, h3⟩ := numberAt_of (pre := l) (u := x :: xs ++ pre) (rest := post) (by simp) hpre' (isRunSep_iff.1 hy) hz
                have : s = l ++ (x :: xs ++ pre ++ y :: z :: post) := by
                  rw [e, e', List.append_assoc]
                rw [← this] at h1
                have h4 := hlast _ _ _ h1
                obtain ⟨rfl, rfl⟩ := List.append_inj h3 (by omega)
                have := h4.2 rfl
                rw [List.length_append] at this
                have := List.length_pos_iff.2 hpre
                omega
              · simp [m, hy, hz]
          · simp [m, hy]
  refine ⟨0 + l.length, [(2, ds), (1, a)], rest, ?_, rfl, rfl⟩
  unfold search
  rw [e, searchFrom_skip]
  · exact searchFrom_hit _ hm
  · intro T1 T2 eT hT
    apply m_none_of
    intro pre post e2 hmat
    obtain ⟨u, sep', d, v, rfl, hu, hunl, hsep', hd⟩ := matches_runRe hmat
    obtain ⟨l', a', ds', h1, h2, _⟩ := numberAt_of (pre := T1) (u := u) (rest := v ++ post) hu hunl hsep' hd
    have : s = T1 ++ (u ++ sep' :: d :: (v ++ post)) := by
      have e3 : T2 ++ (a ++ sep :: (ds ++ rest)) = u ++ sep' :: d :: (v ++ post) := by rw [e2]; simp
      rw [e, eT, List.append_assoc, e3]
    rw [← this] at h1
    have h4 := (hlast _ _ _ h1).1
    have := List.length_pos_iff.2 hT
    have : l.length = T1.length + T2.length := by rw [eT, List.length_append]
    omega

theorem search_run_none {s : Str} (h : ¬ ∃ l a ds, NumberAt s l a ds) : search runRe s = none := by
  cases hs : search runRe s with
  | none => rfl
  | some r =>
    exfalso
    obtain ⟨i, c, rest⟩ := r
    obtain ⟨pre, mid, e, _, hm, _⟩ := searchFrom_sound hs
    obtain ⟨u, sep, d, v, rfl, hu, hunl, hsep, hd⟩ := matches_runRe hm
    obtain ⟨l, a, ds, h1, _⟩ := numberAt_of (pre := pre) (u := u) (rest := v ++ rest) hu hunl hsep hd
    apply h
    refine ⟨l, a, ds, ?_⟩
    rw [e]
    simpa using h1

theorem digit_isDigitOf {c : Char} (h : isDigit c = true) : ∃ d, IsDigitOf 10 c d := by
  refine ⟨c.toNat - 48, isDigitOf_iff.2 ⟨?_, ?_⟩⟩
  · unfold digitVal
    rw [if_pos h]
  · unfold isDigit at h
    simp only [Bool.and_eq_true, decide_eq_true_eq] at h
    omega

theorem digits_exist {ds : Str} (hne : ds ≠ []) (h : ∀ d ∈ ds, isDigit d = true) : ∃ n, Digits 10 ds n := by
  have key : ∀ (r : Str), r ≠ [] → (∀ d ∈ r, isDigit d = true) → ∃ n, Digits 10 r.reverse n := by
    intro r
    induction r with
    | nil => intro h; exact absurd rfl h
    | cons c r ih =>
      intro _ h
      obtain ⟨d, hd⟩ := digit_isDigitOf (h c List.mem_cons_self)
      cases r with
      | nil => exact ⟨d, .one hd⟩
      | cons c' r =>
        obtain ⟨n, hn⟩ := ih (by simp) fun x hx => h x (List.mem_cons_of_mem _ hx)
        exact ⟨n * 10 + d, by rw [List.reverse_cons]; exact .snoc hn hd⟩
  obtain ⟨n, hn⟩ := key ds.reverse (by simpa using hne) (by simpa using h)
  exact ⟨n, by simpa using hn⟩

theorem intB_digits10 {ds : Str} {n : Nat} (h : Digits 10 ds n) : intB 10 ds = some (n : Int) := by
  rw [intB_iff, strip_nospace (digits_nospace h)]
  exact .plain (.digits h)

/-- **Specification**: the names of the metrics that are scores -/
def scoreNames : List Str := [cs!"Overall_Score", cs!"score", cs!"FPS"]

/-- **Specification**: a metric that is a score, and its run number: the last number of the first line with one, less one if exactly `Overall_Score` precedes it; 0 without a number -/
def Recognised (metric : Str) (n : Int) : Prop :=
  (∃ p ∈ scoreNames, p <+: metric) ∧
    ((∃ (l a ds : Str) (k : Nat), RunText metric l a ds ∧ Digits 10 ds k ∧ n = if a = cs!"Overall_Score" then (k : Int) - 1 else k) ∨ ((¬ ∃ l a ds, NumberAt metric l a ds) ∧ n = 0))

theorem metric_match (metric : Str) : (matchPrefix metricRe metric).isSome ↔ ∃ p ∈ scoreNames, p <+: metric := by
  constructor
  · intro h
    obtain ⟨r, h⟩ := Option.isSome_iff_exists.1 h
    obtain ⟨pre, post, _, e, hm, _⟩ := m_sound metricRe h
    unfold metricRe at hm
    cases hm with
    | altL h => rw [matches_str h] at e; exact ⟨_, by simp [scoreNames], ⟨post, e.symm⟩⟩
    | altR h =>
      cases h with
      | altL h => rw [matches_str h] at e; exact ⟨_, by simp [scoreNames], ⟨post, e.symm⟩⟩
      | altR h => rw [matches_str h] at e; exact ⟨_, by simp [scoreNames], ⟨post, e.symm⟩⟩
  · rintro ⟨p, hp, t, rfl⟩
    unfold matchPrefix metricRe
    simp only [scoreNames, List.mem_cons, List.not_mem_nil, or_false] at hp
    simp only [m]
    rcases hp with rfl | rfl | rfl
    · rw [m_str]; rfl
    · rw [m_str]
      split <;> rfl
    · rw [m_str]
      split
      · rfl
      · split <;> rfl

/-- **C77.** A metric is recognised exactly if it begins with `score`, `FPS` or `Overall_Score`; its run number is the last number after a blank or an underscore (on the first line with one), less
one if that follows exactly `Overall_Score`, and 0 if there is none. For all names. -/
theorem C77_run_number (metric : Str) :
    (∀ n, getRunNumber metric = (true, some n) ↔ Recognised metric n) ∧
    (getRunNumber metric = (false, none) ↔ ¬ ∃ p ∈ scoreNames, p <+: metric) ∧
    ((∃ p ∈ scoreNames, p <+: metric) → ∃ n, Recognised metric n) := by
  have hrec : (∃ p ∈ scoreNames, p <+: metric) → ∃ n, getRunNumber metric = (true, some n) ∧ Recognised metric n := by
    intro hp
    obtain ⟨r, hr⟩ := Option.isSome_iff_exists.1 ((metric_match metric).2 hp)
    unfold getRunNumber
    rw [hr]
    simp only
    by_cases h : ∃ l a ds, NumberAt metric l a ds
    · obtain ⟨l, a, ds, h⟩ := h
      obtain ⟨l, a, ds, h⟩ := runText_exists h
      obtain ⟨i, c, rest, h1, h2, h3⟩ := search_run h
      obtain ⟨_, _, _, _, _, _, _, hds, hdig, _⟩ := h.1
      obtain ⟨k, hk⟩ := digits_exist hds hdig
      rw [h1]
      simp only [h2, h3, intB_digits10 hk, Option.map_some]
      exact ⟨_, rfl, hp, Or.inl ⟨l, a, ds, k, h, hk, rfl⟩⟩
    · rw [search_run_none h]
      exact ⟨0, rfl, hp, Or.inr ⟨h, rfl⟩⟩
  have huniq : ∀ n n', Recognised metric n → Recognised metric n' → n = n' := by
    rintro n n' ⟨_, h1⟩ ⟨_, h2⟩
    rcases h1 with ⟨l, a, ds, k, h1, hk, rfl⟩ | ⟨h1, rfl⟩ <;> rcases h2 with ⟨l', a', ds', k', h2, hk', rfl⟩ | ⟨h2, rfl⟩
    · have e1 := h1.2 _ _ _ h2.1
      have e2 := h2.2 _ _ _ h1.1
      obtain ⟨c, r, e3, _, _, _, _, _, hd, hr⟩ := h1.1
      obtain ⟨c', r', e4, _, _, _, _, _, hd', hr'⟩ := h2.1
      rw [e3] at e4
      obtain ⟨e9, e4⟩ := List.append_inj e4 (by omega)
      rw [e9] at e1
      rw [e9] at e2
      have e7 := e1.2 rfl
      have e8 := e2.2 rfl
      obtain ⟨rfl, e5⟩ := List.append_inj e4 (by omega)
      simp only [List.cons.injEq] at e5
      have hspan : ∀ (u v : Str), (∀ d ∈ u, isDigit d = true) → (∀ d ∈ v.head?, isDigit d = false) → (u ++ v).takeWhile isDigit = u := by
        intro u v hu hv
        rw [List.takeWhile_append_of_pos hu]
        cases v with
        | nil => simp
        | cons y v => simp [hv y (by simp)]
      have e6 : ds = ds' := by
        rw [← hspan ds r hd hr, e5.2, hspan ds' r' hd' hr']
      subst e6
      have : k = k' := by
        have := (intB_digits10 hk).symm.trans (intB_digits10 hk')
        simp only [Option.some.injEq] at this
        omega
      rw [this]
    · exact absurd ⟨l, a, ds, h1.1⟩ h2
    · exact absurd ⟨l', a', ds', h2.1⟩ h1
    · rfl
  refine ⟨?_, ?_, ?_⟩
  · intro n
    constructor
    · intro h
      by_cases hp : ∃ p ∈ scoreNames, p <+: metric
      · obtain ⟨n', h1, h2⟩ := hrec hp
        rw [h1] at h
        cases h
        exact h2
      · exfalso
        rw [← metric_match, Option.not_isSome_iff_eq_none] at hp
        unfold getRunNumber at h
        rw [hp] at h
        cases h
    · intro h
      obtain ⟨n', h1, h2⟩ := hrec h.1
      rw [h1, huniq n n' h h2]
  · constructor
    · intro h hp
      obtain ⟨n', h1, _⟩ := hrec hp
      rw [h1] at h
      cases h
    · intro hp
      rw [← metric_match, Option.not_isSome_iff_eq_none] at hp
      unfold getRunNumber
      rw [hp]
  · intro hp
    obtain ⟨n, _, h⟩ := hrec hp
    exact ⟨n, h⟩

/-- C77 -/
example : getRunNumber cs!"Overall_Score_3" = (true, some 2) ∧ getRunNumber cs!"FPS" = (true, some 0) ∧ getRunNumber cs!"score_1_x 12b" = (true, some 12) ∧
    getRunNumber cs!"Overall_Score_x_7" = (true, some 7) ∧ getRunNumber cs!"time_3" = (false, none) ∧
    getRunNumber cs!"score\nx_2_3\ny_4" = (true, some 3) := by
  refine ⟨?_, ?_, ?_, ?_, ?_, ?_⟩ <;> decide +kernel

/-! ## C76: results -/

/-- **Specification**: a name without its run numbers: each underscore followed by digits is left out, with all the digits -/
inductive RunIdOf : Str → Str → Prop where
  | nil : RunIdOf [] []
  | keep {c : Char} {s t : Str} (h : ¬ (c = '_' ∧ ∃ d s', s = d :: s' ∧ isDigit d = true)) (hs : RunIdOf s t) : RunIdOf (c :: s) (c :: t)
  | drop {ds s t : Str} (hne : ds ≠ []) (hd : ∀ d ∈ ds, isDigit d = true) (h : ∀ d ∈ s.head?, isDigit d = false) (hs : RunIdOf s t) : RunIdOf ('_' :: (ds ++ s)) t

theorem subRunId_skip {s : Str} (h : ∀ d ∈ s.head?, isDigit d = false) : subRunId true s = subRunId false s := by
  cases s with
  | nil => rfl
  | cons c s =>
    have := h c (by simp)
    simp [subRunId, this]

theorem subRunId_digits {ds s : Str} (hd : ∀ d ∈ ds, isDigit d = true) (h : ∀ d ∈ s.head?, isDigit d = false) : subRunId true (ds ++ s) = subRunId false s := by
  induction ds with
  | nil => exact subRunId_skip h
  | cons d ds ih =>
    have := hd d List.mem_cons_self
    rw [List.cons_append, subRunId]
    simp only [this, Bool.and_self, if_true]
    exact ih fun x hx => hd x (List.mem_cons_of_mem _ hx)

theorem subRunId_iff (s t : Str) : RunIdOf s t ↔ subRunId false s = t := by
  constructor
  · intro h
    induction h with
    | nil => rfl
    | @keep c s t h _ ih =>
      rw [subRunId]
      simp only [Bool.false_and, Bool.false_eq_true, if_false]
      rw [if_neg, ih]
      intro h'
      apply h
      simp only [Bool.and_eq_true, decide_eq_true_eq, Option.any_eq_true] at h'
      obtain ⟨h1, d, h2, h3⟩ := h'
      refine ⟨h1, ?_⟩
      cases s with
      | nil => cases h2
      | cons y s =>
        simp only [List.head?_cons, Option.some.injEq] at h2
        exact ⟨y, s, rfl, by rw [h2]; exact h3⟩
    | @drop ds s t hne hd h _ ih =>
      cases ds with
      | nil => exact absurd rfl hne
      | cons d ds =>
        have := hd d List.mem_cons_self
        rw [List.cons_append, subRunId]
        simp only [Bool.false_and, Bool.false_eq_true, if_false, List.head?_cons, Option.any_some, this, Bool.and_true, decide_true, if_true]
        rw [← List.cons_append, subRunId_digits hd h, ih]
  · rintro rfl
    have key : ∀ (n : Nat) (s : Str), s.length ≤ n → RunIdOf s (subRunId false s) := by
      intro n
      induction n with
      | zero =>
        intro s hs
        cases s with
        | nil => exact .nil
        | cons c s => simp at hs
      | succ n ih =>
        intro s hs
        cases s with
        | nil => exact .nil
        | cons c s =>
          by_cases h : c = '_' ∧ ∃ d s', s = d :: s' ∧ isDigit d = true
          · obtain ⟨rfl, d, s', rfl, hd⟩ := h
            have hall := List.all_takeWhile (p := isDigit) (l := s')
            rw [List.all_eq_true] at hall
            have hdig : ∀ x ∈ d :: s'.takeWhile isDigit, isDigit x = true := by
              intro x hx
              rcases List.mem_cons.1 hx with rfl | hx
              · exact hd
              · exact hall x hx
            have hhead : ∀ x ∈ (s'.dropWhile isDigit).head?, isDigit x = false := by
              intro x hx
              cases h : s'.dropWhile isDigit with
              | nil => rw [h] at hx; cases hx
              | cons y ys =>
                rw [h] at hx
                simp only [List.head?_cons, Option.mem_def, Option.some.injEq] at hx
                subst hx
                have := List.head_dropWhile_not isDigit (w := by rw [h]; simp) (l := s')
                simpa only [h, List.head_cons] using this
            have e : d :: s' = (d :: s'.takeWhile isDigit) ++ s'.dropWhile isDigit := by
              rw [List.cons_append, List.takeWhile_append_dropWhile]
            have e2 : subRunId false ('_' :: d :: s') = subRunId false (s'.dropWhile isDigit) := by
              rw [subRunId]
              simp only [Bool.false_and, Bool.false_eq_true, if_false, List.head?_cons, Option.any_some, hd, Bool.and_true, decide_true, if_true]
              rw [e, subRunId_digits hdig hhead]
            rw [e2, e]
            refine .drop (by simp) hdig hhead (ih _ ?_)
            have := (List.dropWhile_sublist isDigit (l := s')).length_le
            simp only [List.length_cons] at hs
            omega
          · have : subRunId false (c :: s) = c :: subRunId false s := by
              rw [subRunId]
              simp only [Bool.false_and, Bool.false_eq_true, if_false]
              rw [if_neg]
              intro h'
              apply h
              simp only [Bool.and_eq_true, decide_eq_true_eq, Option.any_eq_true] at h'
              obtain ⟨h1, d, h2, h3⟩ := h'
              refine ⟨h1, ?_⟩
              cases s with
              | nil => cases h2
              | cons y s =>
                simp only [List.head?_cons, Option.some.injEq] at h2
                exact ⟨y, s, rfl, by rw [h2]; exact h3⟩
            rw [this]
            exact .keep h (ih s (by simpa using hs))
    exact key s.length s (Nat.le_refl _)

/-- **Specification**: the score written in a text: an integer if it is one, else a float -/
def ScoreText {F : Type} (rf : Str → Option F) (text : Str) (v : Int ⊕ F) : Prop :=
  (∃ i, SignedLit 10 (strip text) i ∧ v = .inl i) ∨ ((¬ ∃ i, SignedLit 10 (strip text) i) ∧ ∃ f, rf text = some f ∧ v = .inr f)

theorem scoreOf_iff {F : Type} (rf : Str → Option F) (text : Str) (v : Int ⊕ F) : scoreOf rf text = some v ↔ ScoreText rf text v := by
  unfold scoreOf ScoreText
  cases h : intB 10 text with
  | some i =>
    have h1 := intB_iff.1 h
    constructor
    · intro h'
      cases h'
      exact Or.inl ⟨i, h1, rfl⟩
    · rintro (⟨j, h2, rfl⟩ | ⟨h2, _⟩)
      · rw [intB_iff.2 h2] at h
        cases h
        rfl
      · exact absurd ⟨i, h1⟩ h2
  | none =>
    have h1 : ¬ ∃ i, SignedLit 10 (strip text) i := by
      rintro ⟨i, hi⟩
      rw [intB_iff.2 hi] at h
      cases h
    simp only [Option.map_eq_some_iff]
    constructor
    · rintro ⟨f, h2, rfl⟩
      exact Or.inr ⟨h1, f, h2, rfl⟩
    · rintro (⟨j, h2, rfl⟩ | ⟨_, f, h2, rfl⟩)
      · exact absurd ⟨j, h2⟩ h1
      · exact ⟨f, h2, rfl⟩

/-- **Specification**: the run id: the name given, if it is not empty, else that of the file without run numbers -/
def RunIdent (name : Option Str) (c0 id : Str) : Prop := (name = some id ∧ id ≠ []) ∨ ((name = none ∨ name = some []) ∧ RunIdOf c0 id)

theorem runIdOf_iff (name : Option Str) (c0 id : Str) : RunIdent name c0 id ↔ runIdOf name c0 = id := by
  unfold RunIdent runIdOf
  cases name with
  | none => simp [subRunId_iff]
  | some x =>
    by_cases hx : x = []
    · subst hx
      simp only [Option.some.injEq, reduceCtorEq, or_true, true_and, if_true, subRunId_iff, or_iff_right_iff_imp]
      rintro ⟨rfl, h⟩
      exact absurd rfl h
    · simp only [Option.some.injEq, reduceCtorEq, hx, or_self, false_and, or_false, if_false]
      constructor
      · exact fun h => h.1
      · rintro rfl
        exact ⟨rfl, hx⟩

/-- **Specification**: a row is the score `v` of benchmark `b`, run id `id` and run number `n`. -/
def RowScore {F : Type} (rf : Str → Option F) (name : Option Str) (row : List Str) (b id : Str) (n : Int) (v : Int ⊕ F) : Prop :=
  ∃ c0 c2 metric text rest, row = c0 :: b :: c2 :: metric :: text :: rest ∧ Recognised metric n ∧ ScoreText rf text v ∧ RunIdent name c0 id

/-- **Specification**: the first row with a score for the benchmark, run id and run number -/
def FirstScore {F : Type} (rf : Str → Option F) (name : Option Str) (rows : List (List Str)) (b id : Str) (n : Int) (v : Int ⊕ F) : Prop :=
  ∃ pre row post, rows = pre ++ row :: post ∧ RowScore rf name row b id n v ∧ ∀ r ∈ pre, ¬ ∃ v', RowScore rf name r b id n v'

/-- **Specification**: what is stored -/
def Stored {ν : Type} (d : BenchDict ν) (b id : Str) (n : Int) (v : ν) : Prop := ∃ x rs, d.get b = some x ∧ x.get id = some rs ∧ (n, v) ∈ rs

theorem stored_add {ν : Type} (d : BenchDict ν) (b0 id0 : Str) (n0 : Int) (v0 : ν) (b id : Str) (n : Int) (v : ν) :
    Stored (addScore d b0 id0 n0 v0) b id n v ↔ Stored d b id n v ∨ (b = b0 ∧ id = id0 ∧ n = n0 ∧ v = v0 ∧ ¬ ∃ v', Stored d b0 id0 n0 v') := by
  unfold addScore
  cases hb : d.get b0 with
  | none =>
    simp only [Stored, Dict.get_set]
    by_cases e : b0 = b
    · subst e
      simp only [if_true, hb, Option.some.injEq]
      constructor
      · rintro ⟨x, rs, rfl, h1, h2⟩
        simp only [Dict.get] at h1
        by_cases e : id0 = id
        · subst e
          simp at h1
          subst h1
          simp at h2
          right
          exact ⟨trivial, rfl, h2.1, h2.2, by rintro ⟨_, _, _, h, _⟩; cases h⟩
        · simp [e] at h1
      · rintro (⟨_, _, h, _⟩ | ⟨_, rfl, rfl, rfl, _⟩)
        · cases h
        · exact ⟨_, [(n, v)], rfl, by simp [Dict.get], by simp⟩
    · simp only [if_neg e]
      constructor
      · exact Or.inl
      · rintro (h | ⟨h, _⟩)
        · exact h
        · exact absurd h.symm e
  | some x0 =>
    simp only
    cases hi : x0.get id0 with
    | none =>
      simp only [Stored, Dict.get_set]
      by_cases e : b0 = b
      · subst e
        simp only [if_true, hb, Option.some.injEq]
        constructor
        · rintro ⟨x, rs, rfl, h1, h2⟩
          rw [Dict.get_set] at h1
          by_cases e : id0 = id
          · subst e
            simp at h1
            subst h1
            simp at h2
            right
            refine ⟨trivial, rfl, h2.1, h2.2, ?_⟩
            rintro ⟨_, _, _, rfl, h, _⟩
            rw [hi] at h
            cases h
          · rw [if_neg e] at h1
            exact Or.inl ⟨x0, rs, rfl, h1, h2⟩
        · rintro (⟨x, rs, rfl, h1, h2⟩ | ⟨_, rfl, rfl, rfl, _⟩)
          · refine ⟨_, rs, rfl, ?_, h2⟩
            rw [Dict.get_set, if_neg]
            · exact h1
            · rintro rfl
              rw [hi] at h1
              cases h1
          · exact ⟨_, [(n, v)], rfl, by simp [Dict.get_set], by simp⟩
      · simp only [if_neg e]
        constructor
        · exact Or.inl
        · rintro (h | ⟨h, _⟩)
          · exact h
          · exact absurd h.symm e
    | some rs0 =>
      simp only
      have hex : (∃ v', Stored d b0 id0 n0 v') ↔ n0 ∈ rs0.map Prod.fst := by
        rw [List.mem_map]
        constructor
        · rintro ⟨v', x, rs, h1, h2, h3⟩
          rw [hb] at h1
          cases h1
          rw [hi] at h2
          cases h2
          exact ⟨_, h3, rfl⟩
        · rintro ⟨⟨n', v'⟩, h1, rfl⟩
          exact ⟨v', x0, rs0, hb, hi, h1⟩
      rw [hex]
      by_cases hn : n0 ∈ rs0.map Prod.fst
      · rw [if_pos hn]
        simp [hn]
      · rw [if_neg hn]
        simp only [Stored, Dict.get_set]
        by_cases e : b0 = b
        · subst e
          simp only [if_true, hb, Option.some.injEq]
          constructor
          · rintro ⟨x, rs, rfl, h1, h2⟩
            rw [Dict.get_set] at h1
            by_cases e : id0 = id
            · subst e
              simp at h1
              subst h1
              rw [List.mem_append] at h2
              rcases h2 with h2 | h2
              · exact Or.inl ⟨x0, rs0, rfl, hi, h2⟩
              · simp at h2
                exact Or.inr ⟨trivial, rfl, h2.1, h2.2, hn⟩
            · rw [if_neg e] at h1
              exact Or.inl ⟨x0, rs, rfl, h1, h2⟩
          · rintro (⟨x, rs, rfl, h1, h2⟩ | ⟨_, rfl, rfl, rfl, _⟩)
            · by_cases e : id0 = id
              · subst e
                rw [hi] at h1
                cases h1
                exact ⟨_, rs0 ++ [(n0, v0)], rfl, by simp [Dict.get_set], by simp [h2]⟩
              · exact ⟨_, rs, rfl, by rw [Dict.get_set, if_neg e]; exact h1, h2⟩
            · exact ⟨_, rs0 ++ [(n, v)], rfl, by simp [Dict.get_set], by simp⟩
        · simp only [if_neg e]
          constructor
          · exact Or.inl
          · rintro (h | ⟨h, _⟩)
            · exact h
            · exact absurd h.symm e

theorem firstScore_snoc {F : Type} (rf : Str → Option F) (name : Option Str) (rows : List (List Str)) (r : List Str) (b id : Str) (n : Int) (v : Int ⊕ F) :
    FirstScore rf name (rows ++ [r]) b id n v ↔ FirstScore rf name rows b id n v ∨ (RowScore rf name r b id n v ∧ ∀ r' ∈ rows, ¬ ∃ v', RowScore rf name r' b id n v') := by
  constructor
  · rintro ⟨pre, row, post, e, h1, h2⟩
    rcases List.eq_nil_or_concat post with rfl | ⟨post', x, rfl⟩
    · obtain ⟨rfl, e'⟩ := List.append_inj' e rfl
      cases e'
      exact Or.inr ⟨h1, h2⟩
    · left
      have e' : rows ++ [r] = (pre ++ row :: post') ++ [x] := by rw [e]; simp
      obtain ⟨rfl, _⟩ := List.append_inj' e' rfl
      exact ⟨pre, row, post', rfl, h1, h2⟩
  · rintro (⟨pre, row, post, rfl, h1, h2⟩ | ⟨h1, h2⟩)
    · exact ⟨pre, row, post ++ [r], by simp, h1, h2⟩
    · exact ⟨rows, r, [], rfl, h1, h2⟩

theorem first_exists {F : Type} (rf : Str → Option F) (name : Option Str) (rows : List (List Str)) (b id : Str) (n : Int) :
    (∃ v, FirstScore rf name rows b id n v) ↔ ∃ r ∈ rows, ∃ v, RowScore rf name r b id n v := by
  constructor
  · rintro ⟨v, pre, row, post, rfl, h1, _⟩
    exact ⟨row, by simp, v, h1⟩
  · intro h
    induction rows with
    | nil => obtain ⟨r, hr, _⟩ := h; cases hr
    | cons r rows ih =>
      by_cases hr : ∃ v, RowScore rf name r b id n v
      · obtain ⟨v, hv⟩ := hr
        exact ⟨v, [], r, rows, rfl, hv, by simp⟩
      · obtain ⟨r', hr', hv⟩ := h
        rcases List.mem_cons.1 hr' with rfl | hr'
        · exact absurd hv hr
        · obtain ⟨v, pre, row, post, rfl, h1, h2⟩ := ih ⟨r', hr', hv⟩
          refine ⟨v, r :: pre, row, post, rfl, h1, ?_⟩
          intro x hx
          rcases List.mem_cons.1 hx with rfl | hx
          · exact hr
          · exact h2 x hx

/-- a row that is not a score leaves the scores as they are, one that is adds its score -/
theorem resultRow_spec {F : Type} (rf : Str → Option F) (name : Option Str) (d d' : BenchDict (Int ⊕ F)) (row : List Str) (h : resultRow rf name d row = .ok d') :
    ((¬ ∃ b id n v, RowScore rf name row b id n v) ∧ d' = d) ∨
    (∃ b id n v, RowScore rf name row b id n v ∧ d' = addScore d b id n v ∧ ∀ b' id' n' v', RowScore rf name row b' id' n' v' → b' = b ∧ id' = id ∧ n' = n ∧ v' = v) := by
  match row, h with
  | c0 :: bench :: c2 :: metric :: rest, h =>
    obtain ⟨c1, c2', c3⟩ := C77_run_number metric
    simp only [resultRow] at h
    by_cases hp : ∃ p ∈ scoreNames, p <+: metric
    · obtain ⟨n, hn⟩ := c3 hp
      rw [(c1 n).2 hn] at h
      simp only at h
      cases rest with
      | nil => cases h
      | cons text rest =>
        simp only at h
        cases hs : scoreOf rf text with
        | none => rw [hs] at h; cases h
        | some v =>
          rw [hs] at h
          simp only [Except.ok.injEq] at h
          right
          refine ⟨bench, runIdOf name c0, n, v, ⟨c0, c2, metric, text, rest, rfl, hn, (scoreOf_iff _ _ _).1 hs, (runIdOf_iff _ _ _).2 rfl⟩, h.symm, ?_⟩
          rintro b' id' n' v' ⟨c0', c2'', metric', text', rest', e, g1, g2, g3⟩
          simp only [List.cons.injEq] at e
          obtain ⟨rfl, rfl, rfl, rfl, rfl, rfl⟩ := e
          refine ⟨rfl, ((runIdOf_iff _ _ _).1 g3).symm, ?_, ?_⟩
          · have := (c1 n').2 g1
            rw [(c1 n).2 hn] at this
            cases this
            rfl
          · have := (scoreOf_iff _ _ _).2 g2
            rw [hs] at this
            cases this
            rfl
    · rw [c2'.2 hp] at h
      simp only [Except.ok.injEq] at h
      left
      refine ⟨?_, h.symm⟩
      rintro ⟨b', id', n', v', c0', c2'', metric', text', rest', e, g1, _, _⟩
      simp only [List.cons.injEq] at e
      obtain ⟨_, _, _, rfl, _⟩ := e
      exact hp g1.1
  | [], h => cases h
  | [_], h => cases h
  | [_, _], h => cases h
  | [_, _, _], h => cases h

/-- the benchmark has a score in the rows -/
def HasScore {F : Type} (rf : Str → Option F) (name : Option Str) (rows : List (List Str)) (b : Str) : Prop := ∃ r ∈ rows, ∃ id n v, RowScore rf name r b id n v

/-- what holds after some rows -/
structure ResultInv {F : Type} (rf : Str → Option F) (name : Option Str) (rows : List (List Str)) (d : BenchDict (Int ⊕ F)) : Prop where
  first : ∀ b id n v, Stored d b id n v ↔ FirstScore rf name rows b id n v
  nodup : (d.map Prod.fst).Nodup
  keys : ∀ b, b ∈ d.map Prod.fst ↔ HasScore rf name rows b
  order : (d.map Prod.fst).Pairwise fun b b' => ∃ pre post, rows = pre ++ post ∧ HasScore rf name pre b ∧ ¬ HasScore rf name pre b'

theorem keys_addScore {ν : Type} (d : BenchDict ν) (b id : Str) (n : Int) (v : ν) :
    (addScore d b id n v).map Prod.fst = if b ∈ d.map Prod.fst then d.map Prod.fst else d.map Prod.fst ++ [b] := by
  have hs : ∀ x : Dict (RunScores ν), (d.set b x).map Prod.fst = if b ∈ d.map Prod.fst then d.map Prod.fst else d.map Prod.fst ++ [b] := by
    intro x
    induction d with
    | nil => simp [Dict.set]
    | cons y d ih =>
      obtain ⟨k, z⟩ := y
      simp only [Dict.set]
      by_cases e : k = b
      · subst e
        simp
      · simp only [if_neg e, List.map_cons, ih, List.mem_cons, Ne.symm e, false_or]
        split <;> simp
  unfold addScore
  cases hb : d.get b with
  | none => exact hs _
  | some x =>
    have hmem : b ∈ d.map Prod.fst := (Dict.get_isSome d b).1 (by rw [hb]; rfl)
    simp only
    cases x.get id with
    | none => exact hs _
    | some rs =>
      rw [if_pos hmem]
      simp only
      split
      · rfl
      · rw [hs, if_pos hmem]

theorem resultInv_step {F : Type} {rf : Str → Option F} {name : Option Str} {rows : List (List Str)} {d d' : BenchDict (Int ⊕ F)} {row : List Str}
    (h : ResultInv rf name rows d) (hr : resultRow rf name d row = .ok d') : ResultInv rf name (rows ++ [row]) d' := by
  have hext : ∀ b, HasScore rf name (rows ++ [row]) b ↔ HasScore rf name rows b ∨ ∃ id n v, RowScore rf name row b id n v := by
    intro b
    unfold HasScore
    constructor
    · rintro ⟨r, hr, h⟩
      rcases List.mem_append.1 hr with hr | hr
      · exact Or.inl ⟨r, hr, h⟩
      · rw [List.mem_singleton] at hr
        subst hr
        exact Or.inr h
    · rintro (⟨r, hr, h⟩ | h)
      · exact ⟨r, by simp [hr], h⟩
      · exact ⟨row, by simp, h⟩
  have hord : ∀ b b', (∃ pre post, rows = pre ++ post ∧ HasScore rf name pre b ∧ ¬ HasScore rf name pre b') →
      ∃ pre post, rows ++ [row] = pre ++ post ∧ HasScore rf name pre b ∧ ¬ HasScore rf name pre b' := by
    rintro b b' ⟨pre, post, rfl, h1, h2⟩
    exact ⟨pre, post ++ [row], by simp, h1, h2⟩
  rcases resultRow_spec rf name d d' row hr with ⟨hno, rfl⟩ | ⟨b, id, n, v, hrow, rfl, huniq⟩
  · refine ⟨?_, h.nodup, ?_, ?_⟩
    · intro b id n v
      rw [h.first, firstScore_snoc]
      constructor
      · exact Or.inl
      · rintro (h | ⟨h, _⟩)
        · exact h
        · exact absurd ⟨b, id, n, v, h⟩ hno
    · intro b
      rw [h.keys, hext]
      constructor
      · exact Or.inl
      · rintro (h | ⟨id, n, v, h⟩)
        · exact h
        · exact absurd ⟨b, id, n, v, h⟩ hno
    · exact h.order.imp fun {a b} => hord a b
  · refine ⟨?_, ?_, ?_, ?_⟩
    · intro b' id' n' v'
      rw [stored_add, firstScore_snoc, h.first]
      have hne : (¬ ∃ v', Stored d b id n v') ↔ ∀ r' ∈ rows, ¬ ∃ v', RowScore rf name r' b id n v' := by
        have : (∃ v', Stored d b id n v') ↔ ∃ v', FirstScore rf name rows b id n v' := by
          constructor
          · rintro ⟨v', hv⟩; exact ⟨v', (h.first _ _ _ _).1 hv⟩
          · rintro ⟨v', hv⟩; exact ⟨v', (h.first _ _ _ _).2 hv⟩
        rw [this, first_exists]
        constructor
        · intro h r hr hv
          exact h ⟨r, hr, hv⟩
        · rintro h ⟨r, hr, hv⟩
          exact h r hr hv
      constructor
      · rintro (h1 | ⟨rfl, rfl, rfl, rfl, h1⟩)
        · exact Or.inl h1
        · exact Or.inr ⟨hrow, hne.1 h1⟩
      · rintro (h1 | ⟨h1, h2⟩)
        · exact Or.inl h1
        · obtain ⟨rfl, rfl, rfl, rfl⟩ := huniq _ _ _ _ h1
          exact Or.inr ⟨rfl, rfl, rfl, rfl, hne.2 h2⟩
    · rw [keys_addScore]
      split
      · exact h.nodup
      next hb =>
        rw [List.nodup_append]
        refine ⟨h.nodup, by simp, ?_⟩
        intro x hx y hy e
        rw [List.mem_singleton] at hy
        exact hb (hy ▸ e ▸ hx)
    · intro b'
      rw [keys_addScore, hext]
      have hb' : (∃ id n v, RowScore rf name row b' id n v) ↔ b' = b := by
        constructor
        · rintro ⟨_, _, _, h1⟩
          exact (huniq _ _ _ _ h1).1
        · rintro rfl
          exact ⟨_, _, _, hrow⟩
      rw [hb', ← h.keys]
      split
      next hb =>
        constructor
        · exact Or.inl
        · rintro (h1 | rfl)
          · exact h1
          · exact hb
      next hb => rw [List.mem_append, List.mem_singleton]
    · rw [keys_addScore]
      split
      · exact h.order.imp fun {a b} => hord a b
      next hb =>
        rw [List.pairwise_append]
        refine ⟨h.order.imp fun {a b} => hord a b, by simp, ?_⟩
        intro x hx y hy
        rw [List.mem_singleton] at hy
        subst hy
        exact ⟨rows, [row], rfl, (h.keys x).1 hx, fun h' => hb ((h.keys _).2 h')⟩

theorem resultRows_inv {F : Type} {rf : Str → Option F} {name : Option Str} : ∀ {rest rows : List (List Str)} {d d' : BenchDict (Int ⊕ F)},
    ResultInv rf name rows d → resultRows rf name d rest = .ok d' → ResultInv rf name (rows ++ rest) d' := by
  intro rest
  induction rest with
  | nil =>
    intro rows d d' h hr
    cases hr
    simpa using h
  | cons r rest ih =>
    intro rows d d' h hr
    unfold resultRows at hr
    cases hrow : resultRow rf name d r with
    | error e => rw [hrow] at hr; cases hr
    | ok d1 =>
      rw [hrow] at hr
      have := ih (resultInv_step h hrow) hr
      simpa using this

/-- **C76.** The value stored for a benchmark, run id and run number is that of the first row with a score for them, and all such scores are stored; the benchmarks are listed once, in the order of their
first scores. For all files. -/
theorem C76_first {F : Type} {rf : Str → Option F} {name : Option Str} {rows : List (List Str)} {d : BenchDict (Int ⊕ F)}
    (h : resultRows rf name [] rows = .ok d) :
    (∀ b id n v, Stored d b id n v ↔ FirstScore rf name rows b id n v) ∧ (d.map Prod.fst).Nodup ∧ (∀ b, b ∈ d.map Prod.fst ↔ HasScore rf name rows b) ∧
    (d.map Prod.fst).Pairwise fun b b' => ∃ pre post, rows = pre ++ post ∧ HasScore rf name pre b ∧ ¬ HasScore rf name pre b' := by
  have h0 : ResultInv rf name [] ([] : BenchDict (Int ⊕ F)) := by
    refine ⟨?_, by simp, ?_, by simp⟩
    · intro b id n v
      constructor
      · rintro ⟨_, _, h, _⟩; cases h
      · rintro ⟨pre, row, post, h, _⟩; simp at h
    · intro b
      constructor
      · intro h; cases h
      · rintro ⟨r, hr, _⟩; cases hr
  have := resultRows_inv h0 h
  exact ⟨this.first, this.nodup, this.keys, this.order⟩

/-- **Specification**: a row that can be read: it has a metric and, if that is a score, its value -/
def RowFine {F : Type} (rf : Str → Option F) (row : List Str) : Prop :=
  ∃ c0 b c2 metric rest, row = c0 :: b :: c2 :: metric :: rest ∧ ∀ n, Recognised metric n → ∃ text rest' v, rest = text :: rest' ∧ ScoreText rf text v

theorem resultRow_ok {F : Type} (rf : Str → Option F) (name : Option Str) (d : BenchDict (Int ⊕ F)) (row : List Str) :
    (∃ d', resultRow rf name d row = .ok d') ↔ RowFine rf row := by
  match row with
  | c0 :: bench :: c2 :: metric :: rest =>
    obtain ⟨c1, c2', c3⟩ := C77_run_number metric
    simp only [resultRow]
    by_cases hp : ∃ p ∈ scoreNames, p <+: metric
    · obtain ⟨n, hn⟩ := c3 hp
      rw [(c1 n).2 hn]
      simp only
      constructor
      · rintro ⟨d', h⟩
        refine ⟨c0, bench, c2, metric, rest, rfl, ?_⟩
        intro _ _
        cases rest with
        | nil => cases h
        | cons text rest =>
          simp only at h
          cases hs : scoreOf rf text with
          | none => rw [hs] at h; cases h
          | some v => exact ⟨text, rest, v, rfl, (scoreOf_iff _ _ _).1 hs⟩
      · rintro ⟨_, _, _, _, _, e, h⟩
        simp only [List.cons.injEq] at e
        obtain ⟨rfl, rfl, rfl, rfl, rfl⟩ := e
        obtain ⟨text, rest', v, rfl, hv⟩ := h n hn
        simp only [(scoreOf_iff _ _ _).2 hv]
        exact ⟨_, rfl⟩
    · rw [c2'.2 hp]
      simp only
      constructor
      · intro _
        refine ⟨c0, bench, c2, metric, rest, rfl, ?_⟩
        intro n hn
        exact absurd hn.1 hp
      · intro _
        exact ⟨d, rfl⟩
  | [] => exact ⟨fun ⟨_, h⟩ => (by cases h), fun ⟨_, _, _, _, _, h, _⟩ => (by cases h)⟩
  | [_] => exact ⟨fun ⟨_, h⟩ => (by cases h), fun ⟨_, _, _, _, _, h, _⟩ => (by cases h)⟩
  | [_, _] => exact ⟨fun ⟨_, h⟩ => (by cases h), fun ⟨_, _, _, _, _, h, _⟩ => (by cases h)⟩
  | [_, _, _] => exact ⟨fun ⟨_, h⟩ => (by cases h), fun ⟨_, _, _, _, _, h, _⟩ => (by cases h)⟩

/-- **C76 (errors).** A file is read exactly if each row has a metric and each row with a score has a number; else an exception is raised, in particular for an empty line. -/
theorem C76_readable {F : Type} (rf : Str → Option F) (name : Option Str) (rows : List (List Str)) (d : BenchDict (Int ⊕ F)) :
    (∃ d', resultRows rf name d rows = .ok d') ↔ ∀ r ∈ rows, RowFine rf r := by
  induction rows generalizing d with
  | nil => simp [resultRows]
  | cons r rows ih =>
    have hr := resultRow_ok rf name d r
    unfold resultRows
    constructor
    · rintro ⟨d', h⟩
      cases hrow : resultRow rf name d r with
      | error e => rw [hrow] at h; cases h
      | ok d1 =>
        rw [hrow] at h
        intro x hx
        rcases List.mem_cons.1 hx with rfl | hx
        · exact hr.1 ⟨d1, hrow⟩
        · exact (ih d1).1 ⟨d', h⟩ x hx
    · intro h
      obtain ⟨d1, h1⟩ := hr.2 (h r List.mem_cons_self)
      rw [h1]
      exact (ih d1).2 fun x hx => h x (List.mem_cons_of_mem _ hx)

/-- C76: the second score of the same run is ignored, that of another run is not -/
example : resultRows (fun _ => some ()) none [] [[cs!"id", cs!"spec", cs!"iteration", cs!"metric", cs!"value"], [cs!"ipa_1", cs!"geek", cs!"1", cs!"score", cs!"12"],
      [cs!"ipa_2", cs!"geek", cs!"1", cs!"score", cs!"13"], [cs!"ipa_1", cs!"antutu", cs!"1", cs!"Overall_Score_2", cs!"1.5"], [cs!"ipa_3", cs!"geek", cs!"1", cs!"score_4", cs!"14"]] =
    .ok [(cs!"geek", [(cs!"ipa", [(0, .inl 12), (4, .inl 14)])]), (cs!"antutu", [(cs!"ipa", [(1, .inr ())])])] := rfl

/-- `C76_readable`: an empty line -/
example : resultRows (fun _ => some ()) none [] [[]] = .error .index := rfl

end Trappy
