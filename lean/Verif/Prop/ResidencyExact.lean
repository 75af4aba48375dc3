import Verif.Prop.Residency
/-!
# C72: exactly which tables are drawn rightly
-/

namespace Trappy

variable {execnames : List Str} {pids : List Nat}

/-- the first lost end of a task that changed its name -/
theorem steady_snoc_break {pre : List SwitchRow} {s : SwitchRow} (h : Steady execnames pids pre) (hn : ¬ Steady execnames pids (pre ++ [s])) :
    ∃ a r b, pre = a ++ r :: b ∧ Tracked execnames pids r ∧ b.find? (touches r.nextPid) = none ∧ s.prevPid ≠ r.nextPid ∧ s.nextPid = r.nextPid ∧ s.nextComm ≠ r.nextComm := by
  induction pre with
  | nil =>
    refine absurd ?_ hn
    exact ⟨fun _ s h => (by simp at h), trivial⟩
  | cons x pre ih =>
    obtain ⟨hx, hp⟩ := h
    by_cases hp' : Steady execnames pids (pre ++ [s])
    · rw [List.cons_append, Steady] at hn
      have hn : ¬ (Tracked execnames pids x → ∀ s', (pre ++ [s]).find? (touches x.nextPid) = some s' → s'.prevPid ≠ x.nextPid → s'.nextComm = x.nextComm) := fun h => hn ⟨h, hp'⟩
      simp only [Classical.not_forall] at hn
      obtain ⟨ht, s', hf, hpr, hc⟩ := hn
      rw [List.find?_append] at hf
      cases hpre : pre.find? (touches x.nextPid) with
      | some s'' =>
        rw [hpre] at hf
        simp only [Option.some_or, Option.some.injEq] at hf
        subst hf
        exact absurd (hx ht s'' hpre hpr) hc
      | none =>
        rw [hpre, Option.none_or, List.find?_cons] at hf
        cases hts : touches x.nextPid s with
        | false => rw [hts] at hf; cases hf
        | true =>
          rw [hts] at hf
          simp only [Option.some.injEq] at hf
          subst hf
          simp only [touches, decide_eq_true_eq] at hts
          exact ⟨[], x, pre, rfl, ht, hpre, hpr, hts.resolve_left hpr, hc⟩
    · obtain ⟨a, r, b, rfl, h⟩ := ih hp hp'
      exact ⟨x :: a, r, b, rfl, h⟩

theorem steady_break {rows : List SwitchRow} (hn : ¬ Steady execnames pids rows) :
    ∃ a r b s post, rows = (a ++ r :: b) ++ s :: post ∧ Steady execnames pids (a ++ r :: b) ∧ Tracked execnames pids r ∧ b.find? (touches r.nextPid) = none ∧
      s.prevPid ≠ r.nextPid ∧ s.nextPid = r.nextPid ∧ s.nextComm ≠ r.nextComm := by
  have key : ∀ (l : List SwitchRow), ¬ Steady execnames pids l.reverse → ∃ a r b s post, l.reverse = (a ++ r :: b) ++ s :: post ∧ Steady execnames pids (a ++ r :: b) ∧ Tracked execnames pids r ∧
      b.find? (touches r.nextPid) = none ∧ s.prevPid ≠ r.nextPid ∧ s.nextPid = r.nextPid ∧ s.nextComm ≠ r.nextComm := by
    intro l
    induction l with
    | nil => intro h; exact absurd trivial h
    | cons s l ih =>
      intro h
      rw [List.reverse_cons] at h ⊢
      by_cases hp : Steady execnames pids l.reverse
      · obtain ⟨a, r, b, e, h'⟩ := steady_snoc_break hp h
        exact ⟨a, r, b, s, [], by rw [e], e ▸ hp, h'⟩
      · obtain ⟨a, r, b, s', post, e, h'⟩ := ih hp
        exact ⟨a, r, b, s', post ++ [s], by rw [e]; simp, h'⟩
  have := key rows.reverse
  rw [List.reverse_reverse] at this
  exact this hn

theorem switchLoop_append {endIdx : Nat} {st : RState} (x y : List SwitchRow) :
    switchLoop execnames pids endIdx st (x ++ y) = (switchLoop execnames pids endIdx st x).bind fun st' => switchLoop execnames pids endIdx st' y := by
  induction x generalizing st with
  | nil => rfl
  | cons r x ih =>
    rw [List.cons_append, switchLoop, switchLoop]
    cases switchStep execnames pids endIdx st r with
    | none => rfl
    | some st' => exact ih

theorem closeLast_starts {t : Nat} {l l' : List Interval} (h : closeLast t l = some l') : l'.map (·.start) = l.map (·.start) := by
  rcases List.eq_nil_or_concat l with rfl | ⟨m, iv, rfl⟩
  · cases h
  · rw [List.concat_eq_append] at h ⊢
    rw [closeLast_append] at h
    cases h
    simp

/-- what `pmap` says is a name of the process -/
def RNames_rx (st : RState) : Prop := ∀ p n, st.pmap.lookup p = some n → ∃ c, n = procName c p

/-- `closePrev`, for any state -/
theorem closePrev_any {r : SwitchRow} {st st1 : RState} (h : closePrev r st = some st1) :
    (∀ p, st1.pmap.lookup p = if p = r.prevPid then none else st.pmap.lookup p) ∧ (∀ n, st.pmap.lookup r.prevPid ≠ some n → st1.at n = st.at n) ∧
    ∀ n, (st1.at n).map (·.start) = (st.at n).map (·.start) := by
  unfold closePrev at h
  cases hl : st.pmap.lookup r.prevPid with
  | none =>
    rw [hl] at h
    cases h
    refine ⟨fun p => ?_, fun _ _ => rfl, fun _ => rfl⟩
    split
    next hp => rw [hp, hl]
    next => rfl
  | some name =>
    rw [hl] at h
    simp only at h
    cases hc : closeLast r.time (st.at name) with
    | none => rw [hc] at h; cases h
    | some l =>
      rw [hc] at h
      cases h
      refine ⟨fun p => lookup_del _ _ _, fun n hn => ?_, fun n => ?_⟩
      · rw [at_set, if_neg (fun e => hn (by rw [e]))]
      · rw [at_set]
        split
        next e => rw [closeLast_starts hc, e]
        next => rfl

/-- `dropStale`, for any state -/
theorem dropStale_any {r : SwitchRow} {st st1 : RState} (h : dropStale r st = some st1) :
    (∀ p, st1.pmap.lookup p = if p = r.nextPid then none else st.pmap.lookup p) ∧ (∀ n, ∀ iv ∈ st1.at n, iv ∈ st.at n) ∧
    ((st.pmap.lookup r.nextPid).isSome → ∃ l y, st.at (procName r.nextComm r.nextPid) = l ++ [y] ∧ st1.at (procName r.nextComm r.nextPid) = l) := by
  unfold dropStale at h
  cases hl : st.pmap.lookup r.nextPid with
  | none =>
    rw [hl] at h
    cases h
    refine ⟨fun p => ?_, fun _ _ h => h, fun h => by cases h⟩
    split
    next hp => rw [hp, hl]
    next => rfl
  | some name =>
    rw [hl] at h
    simp only at h
    cases hc : st.at (procName r.nextComm r.nextPid) with
    | nil => rw [hc] at h; cases h
    | cons iv ivs =>
      rw [hc] at h
      cases h
      refine ⟨fun p => lookup_del _ _ _, fun n x hx => ?_, fun _ => ⟨(iv :: ivs).dropLast, (iv :: ivs).getLast (by simp), (List.dropLast_append_getLast (by simp)).symm, ?_⟩⟩
      · rw [at_set] at hx
        split at hx
        next e =>
          rw [← e, hc]
          exact List.dropLast_subset _ hx
        next => exact hx
      · rw [at_set, if_pos rfl]

/-- a step, for any state -/
theorem step_any {endIdx : Nat} {st st' : RState} {r : SwitchRow} (h : switchStep execnames pids endIdx st r = some st') (hn : RNames_rx st) :
    RNames_rx st' ∧ (Tracked execnames pids r → st'.pmap.lookup r.nextPid = some (procName r.nextComm r.nextPid)) ∧
    (∀ p, p ≠ r.prevPid → p ≠ r.nextPid → st'.pmap.lookup p = st.pmap.lookup p) ∧
    (∀ n, ∀ iv ∈ st'.at n, iv.start = r.time ∨ ∃ iv' ∈ st.at n, iv'.start = iv.start) ∧
    (∀ p, p ≠ r.prevPid → r.nextPid = p → (st.pmap.lookup p).isSome → ∃ l y, st.at (procName r.nextComm p) = l ++ [y] ∧ ∀ iv ∈ st'.at (procName r.nextComm p), iv.start = r.time ∨ iv ∈ l) := by
  unfold switchStep at h
  cases h1 : closePrev r st with
  | none => rw [h1] at h; cases h
  | some st1 =>
    rw [h1] at h
    simp only at h
    cases h2 : dropStale r st1 with
    | none => rw [h2] at h; cases h
    | some st2 =>
      rw [h2] at h
      simp only [Option.some.injEq] at h
      subst h
      obtain ⟨a1, a2, a3⟩ := closePrev_any h1
      obtain ⟨b1, b2, b3⟩ := dropStale_any h2
      obtain ⟨o1, o2⟩ := openNext_spec execnames pids endIdx r st2
      have hlook2 : ∀ p, st2.pmap.lookup p = if p = r.nextPid ∨ p = r.prevPid then none else st.pmap.lookup p := by
        intro p
        rw [b1, a1]
        by_cases h1 : p = r.nextPid <;> by_cases h2 : p = r.prevPid <;> simp [h1, h2]
      have hopen : ∀ n, ∀ iv ∈ (openNext execnames pids endIdx r st2).at n, iv.start = r.time ∨ iv ∈ st2.at n := by
        intro n iv hiv
        by_cases ht : Tracked execnames pids r
        · rw [(o2 ht).2] at hiv
          split at hiv
          · rcases List.mem_append.1 hiv with h | h
            · exact Or.inr h
            · rw [List.mem_singleton.1 h]
              exact Or.inl rfl
          · exact Or.inr hiv
        · rw [o1 ht] at hiv
          exact Or.inr hiv
      have hst1 : ∀ n, ∀ iv ∈ st1.at n, ∃ iv' ∈ st.at n, iv'.start = iv.start := by
        intro n iv hiv
        have : iv.start ∈ (st1.at n).map (·.start) := List.mem_map_of_mem hiv
        rw [a3] at this
        obtain ⟨iv', h1, h2⟩ := List.mem_map.1 this
        exact ⟨iv', h1, h2⟩
      refine ⟨?_, fun ht => ?_, ?_, ?_, ?_⟩
      · intro p n hp
        by_cases ht : Tracked execnames pids r
        · rw [(o2 ht).1] at hp
          split at hp
          next e =>
            cases hp
            exact ⟨r.nextComm, by rw [e]⟩
          next =>
            rw [hlook2] at hp
            split at hp
            · cases hp
            · exact hn p n hp
        · rw [o1 ht, hlook2] at hp
          split at hp
          · cases hp
          · exact hn p n hp
      · rw [(o2 ht).1, if_pos rfl]
      · intro p h1 h2
        by_cases ht : Tracked execnames pids r
        · rw [(o2 ht).1, if_neg h2, hlook2, if_neg]
          rintro (h | h)
          · exact h2 h
          · exact h1 h
        · rw [o1 ht, hlook2, if_neg]
          rintro (h | h)
          · exact h2 h
          · exact h1 h
      · intro n iv hiv
        rcases hopen n iv hiv with h | h
        · exact Or.inl h
        · exact Or.inr (hst1 n iv (b2 n iv h))
      · intro p hp1 hp2 hsome
        subst hp2
        have hs1 : (st1.pmap.lookup r.nextPid).isSome := by rw [a1, if_neg hp1]; exact hsome
        obtain ⟨l, y, e1, e2⟩ := b3 hs1
        have e3 : st1.at (procName r.nextComm r.nextPid) = st.at (procName r.nextComm r.nextPid) := by
          apply a2
          intro e
          obtain ⟨c, hc⟩ := hn _ _ e
          exact hp1 (procName_inj hc).2
        refine ⟨l, y, e3 ▸ e1, fun iv hiv => ?_⟩
        rcases hopen _ iv hiv with h | h
        · exact Or.inl h
        · exact Or.inr (e2 ▸ h)

theorem loop_any {endIdx : Nat} {rows : List SwitchRow} {st st' : RState} (h : switchLoop execnames pids endIdx st rows = some st') (hn : RNames_rx st) :
    RNames_rx st' ∧ (∀ p, rows.find? (touches p) = none → st'.pmap.lookup p = st.pmap.lookup p) ∧ ∀ n, ∀ iv ∈ st'.at n, (∃ r ∈ rows, iv.start = r.time) ∨ ∃ iv' ∈ st.at n, iv'.start = iv.start := by
  induction rows generalizing st with
  | nil =>
    cases h
    exact ⟨hn, fun _ _ => rfl, fun n iv hiv => Or.inr ⟨iv, hiv, rfl⟩⟩
  | cons r rows ih =>
    rw [switchLoop] at h
    cases hs : switchStep execnames pids endIdx st r with
    | none => rw [hs] at h; cases h
    | some st1 =>
      rw [hs] at h
      obtain ⟨s1, _, s3, s4, _⟩ := step_any hs hn
      obtain ⟨i1, i2, i3⟩ := ih h s1
      refine ⟨i1, fun p hp => ?_, fun n iv hiv => ?_⟩
      · rw [List.find?_eq_none] at hp
        have hr := hp r List.mem_cons_self
        simp only [touches, decide_eq_true_eq, not_or] at hr
        rw [i2 p (List.find?_eq_none.2 fun x hx => hp x (List.mem_cons_of_mem _ hx)), s3 p (fun e => hr.1 e.symm) (fun e => hr.2 e.symm)]
      · rcases i3 n iv hiv with ⟨x, hx, hxt⟩ | ⟨iv', hm, he⟩
        · exact Or.inl ⟨x, List.mem_cons_of_mem _ hx, hxt⟩
        · rcases s4 n iv' hm with h | ⟨iv'', hm', he'⟩
          · exact Or.inl ⟨r, List.mem_cons_self, he ▸ h⟩
          · exact Or.inr ⟨iv'', hm', he'.trans he⟩

theorem mem_runsOf {endIdx : Nat} {c : Str} {p : Nat} {rows : List SwitchRow} {iv : Interval} :
    iv ∈ runsOf execnames pids endIdx c p rows ↔ ∃ a r b, rows = a ++ r :: b ∧ r.nextComm = c ∧ r.nextPid = p ∧ Tracked execnames pids r ∧ iv ∈ intervalAt endIdx r b := by
  induction rows with
  | nil => simp [runsOf]
  | cons x rows ih =>
    rw [runsOf, List.mem_append, ih]
    constructor
    · rintro (h | ⟨a, r, b, rfl, h⟩)
      · split at h
        next hc => exact ⟨[], x, rows, rfl, hc.1, hc.2.1, hc.2.2, h⟩
        next => cases h
      · exact ⟨x :: a, r, b, rfl, h⟩
    · rintro ⟨a, r, b, e, h1, h2, h3, h4⟩
      cases a with
      | nil =>
        cases e
        left
        rw [if_pos ⟨h1, h2, h3⟩]
        exact h4
      | cons y a =>
        cases e
        exact Or.inr ⟨a, r, b, rfl, h1, h2, h3, h4⟩

theorem intervalAt_start {endIdx : Nat} {r : SwitchRow} {b : List SwitchRow} {iv : Interval} (h : iv ∈ intervalAt endIdx r b) : iv.start = r.time := by
  unfold intervalAt at h
  split at h
  · rw [List.mem_singleton.1 h]
  · split at h
    · rw [List.mem_singleton.1 h]
    · cases h

theorem runsOf_sorted {endIdx : Nat} {c : Str} {p : Nat} {rows : List SwitchRow} (ht : rows.Pairwise fun a b => a.time < b.time) :
    (runsOf execnames pids endIdx c p rows).Pairwise fun a b => a.start < b.start := by
  induction rows with
  | nil => exact List.Pairwise.nil
  | cons r rows ih =>
    rw [List.pairwise_cons] at ht
    rw [runsOf, List.pairwise_append]
    refine ⟨?_, ih ht.2, ?_⟩
    · split
      · unfold intervalAt
        split
        · exact List.pairwise_singleton _ _
        · split
          · exact List.pairwise_singleton _ _
          · exact List.Pairwise.nil
      · exact List.Pairwise.nil
    · intro x hx y hy
      split at hx
      · rw [intervalAt_start hx]
        obtain ⟨s, hs, _, _, e, _⟩ := runsOf_starts hy
        rw [e]
        exact ht.1 s hs
      · cases hx

/-- **C72 (exactly).** In a table in the order of time, the intervals of all tasks are the runs, if and only if every task whose end was lost has the same name when it is switched to again. For all tables and
filters. -/
theorem C72_exact_partial {rows : List SwitchRow} {l : SwitchRow} (hl : rows.getLast? = some l) (ht : rows.Pairwise fun a b => a.time < b.time) :
    (∃ R, residency execnames pids rows = some R ∧ ∀ c p, (∀ ivs, R.data.get (procName c p) = some ivs → ivs = runsOf execnames pids l.time c p rows) ∧
        (R.data.get (procName c p) = none → runsOf execnames pids l.time c p rows = [])) ↔ Steady execnames pids rows := by
  have hne : rows ≠ [] := by rintro rfl; cases hl
  constructor
  · rintro ⟨R, hR, hd⟩
    apply Classical.byContradiction
    intro hns
    obtain ⟨a, r, b, s, post, e, hst, htr, hb, hs1, hs2, hs3⟩ := steady_break hns
    obtain ⟨stf, hloop, hdata⟩ : ∃ stf, switchLoop execnames pids l.time ⟨[], [], []⟩ rows = some stf ∧ R.data = stf.data := by
      cases rows with
      | nil => exact absurd rfl hne
      | cons f rs =>
        have hlast : (f :: rs).getLast (by simp) = l := by
          rw [List.getLast?_eq_getLast_of_ne_nil (by simp)] at hl
          simpa using hl
        unfold residency at hR
        simp only at hR
        rw [hlast] at hR
        cases hsl : switchLoop execnames pids l.time ⟨[], [], []⟩ (f :: rs) with
        | none => rw [hsl] at hR; cases hR
        | some stf =>
          rw [hsl] at hR
          cases hR
          exact ⟨stf, rfl, rfl⟩
    have hat : ∀ c p, stf.at (procName c p) = runsOf execnames pids l.time c p rows := by
      intro c p
      unfold RState.at
      obtain ⟨g1, g2⟩ := hd c p
      rw [hdata] at g1 g2
      cases hg : stf.data.get (procName c p) with
      | none => exact (g2 hg).symm
      | some ivs => exact g1 ivs hg
    -- before the second switch to the task
    obtain ⟨st, hpre, hden⟩ := loop_spec (execnames := execnames) (pids := pids) l.time (rows := a ++ r :: b) (st := ⟨[], [], []⟩) (by intro p n h; cases h) (by intro p n s h; cases h) hst
    have hnil : RNames_rx ⟨[], [], []⟩ := by intro p n h; cases h
    have hden : ∀ c p, st.at (procName c p) = runsOf execnames pids l.time c p (a ++ r :: b) := by
      intro c p
      rw [hden c p, denote_closed (by simp)]
      simp [RState.at, Dict.get]
    have hstn := (loop_any hpre hnil).1
    have hlook : st.pmap.lookup r.nextPid = some (procName r.nextComm r.nextPid) := by
      rw [switchLoop_append] at hpre
      cases ha : switchLoop execnames pids l.time ⟨[], [], []⟩ a with
      | none => rw [ha] at hpre; cases hpre
      | some sa =>
        rw [ha, Option.bind_some, switchLoop] at hpre
        have hsan := (loop_any ha hnil).1
        cases hr : switchStep execnames pids l.time sa r with
        | none => rw [hr] at hpre; cases hpre
        | some sr =>
          rw [hr] at hpre
          obtain ⟨t1, t2, _⟩ := step_any hr hsan
          rw [(loop_any hpre t1).2.1 _ hb, t2 htr]
    rw [e, switchLoop_append, hpre, Option.bind_some, switchLoop] at hloop
    cases hss : switchStep execnames pids l.time st s with
    | none => rw [hss] at hloop; cases hloop
    | some st1 =>
      rw [hss] at hloop
      obtain ⟨u1, _, _, _, u5⟩ := step_any hss hstn
      obtain ⟨m, y, hm, hm2⟩ := u5 r.nextPid (fun e => hs1 e.symm) hs2 (by rw [hlook]; rfl)
      have hfin := (loop_any hloop u1).2.2 (procName s.nextComm r.nextPid)
      rw [hden] at hm
      -- the run that was deleted
      have hy : y ∈ runsOf execnames pids l.time s.nextComm r.nextPid (a ++ r :: b) := by rw [hm]; simp
      obtain ⟨a', r', b', e', c1, c2, c3, c4⟩ := mem_runsOf.1 hy
      rw [e] at ht
      have htp := List.pairwise_append.1 ht
      have hrows : ∃ iv ∈ runsOf execnames pids l.time s.nextComm r.nextPid rows, iv.start = y.start := by
        cases hf : b'.find? (touches r'.nextPid) with
        | some q =>
          refine ⟨y, mem_runsOf.2 ⟨a', r', b' ++ s :: post, by rw [e, e']; simp, c1, c2, c3, ?_⟩, rfl⟩
          unfold intervalAt at c4 ⊢
          rw [List.find?_append, hf]
          rw [hf] at c4
          exact c4
        | none =>
          exfalso
          rw [c2] at hf
          have hcases : ∀ (a a' : List SwitchRow), a ++ r :: b = a' ++ r' :: b' → (r = r' ∨ r ∈ b' ∨ r' ∈ b) := by
            intro a
            induction a with
            | nil =>
              intro a' e
              cases a' with
              | nil => cases e; exact Or.inl rfl
              | cons x a' =>
                cases e
                exact Or.inr (Or.inr (by simp))
            | cons x a ih =>
              intro a' e
              cases a' with
              | nil =>
                cases e
                exact Or.inr (Or.inl (by simp))
              | cons x' a' => exact ih a' (List.cons.inj e).2
          rcases hcases a a' e' with rfl | h | h
          · exact hs3 c1.symm
          · exact List.find?_eq_none.1 hf r h (by simp [touches])
          · exact List.find?_eq_none.1 hb r' h (by simp [touches, c2])
      obtain ⟨iv, hiv, hst'⟩ := hrows
      rw [← hat] at hiv
      have hyt : y.start = r'.time := intervalAt_start c4
      have hr' : r' ∈ a ++ r :: b := by rw [e']; simp
      have hlt : ∀ x ∈ s :: post, y.start < x.time := fun x hx => hyt ▸ htp.2.2 r' hr' x hx
      rcases hfin iv hiv with ⟨x, hx, hxt⟩ | ⟨iv', hm', he⟩
      · have := hlt x (List.mem_cons_of_mem _ hx)
        omega
      · rcases hm2 iv' hm' with h | h
        · have := hlt s List.mem_cons_self
          omega
        · have hsort := runsOf_sorted (execnames := execnames) (pids := pids) (endIdx := l.time) (c := s.nextComm) (p := r.nextPid) htp.1
          rw [hm, List.pairwise_append] at hsort
          have := hsort.2.2 iv' h y (by simp)
          omega
  · intro hs
    obtain ⟨R, h1, _, _, _, h2⟩ := C72_intervals_partial (List.head?_eq_some_head hne) hl hs
    exact ⟨R, h1, h2⟩

/-- `C72_exact_partial`: the table of `C72_rename_refuted` -/
example : ([⟨1, 0, 5, cs!"work", 0⟩, ⟨2, 5, 0, cs!"swapper", 0⟩, ⟨3, 0, 5, cs!"sh", 0⟩, ⟨4, 0, 5, cs!"work", 1⟩, ⟨9, 5, 0, cs!"swapper", 1⟩] : List SwitchRow).Pairwise (fun a b => a.time < b.time) ∧
    ¬ Steady [] [] [⟨1, 0, 5, cs!"work", 0⟩, ⟨2, 5, 0, cs!"swapper", 0⟩, ⟨3, 0, 5, cs!"sh", 0⟩, ⟨4, 0, 5, cs!"work", 1⟩, ⟨9, 5, 0, cs!"swapper", 1⟩] := by
  refine ⟨by decide, ?_⟩
  rintro ⟨_, _, h, _⟩
  exact absurd (h (by decide) ⟨4, 0, 5, cs!"work", 1⟩ rfl (by decide)) (by decide)

/-! ## C73 -/

theorem step_empty {endIdx : Nat} {st st' : RState} {r : SwitchRow} {n : Str} (h : switchStep execnames pids endIdx st r = some st') (hn : st.at n = [])
    (hr : Tracked execnames pids r → procName r.nextComm r.nextPid ≠ n) : st'.at n = [] := by
  unfold switchStep at h
  cases h1 : closePrev r st with
  | none => rw [h1] at h; cases h
  | some st1 =>
    rw [h1] at h
    simp only at h
    cases h2 : dropStale r st1 with
    | none => rw [h2] at h; cases h
    | some st2 =>
      rw [h2] at h
      cases h
      have e1 : st1.at n = [] := by
        have := (closePrev_any h1).2.2 n
        rw [hn] at this
        simpa using this
      have e2 : st2.at n = [] := by
        rw [List.eq_nil_iff_forall_not_mem]
        intro x hx
        have := (dropStale_any h2).2.1 n x hx
        rw [e1] at this
        cases this
      by_cases ht : Tracked execnames pids r
      · rw [((openNext_spec execnames pids endIdx r st2).2 ht).2, if_neg (hr ht), e2]
      · rw [(openNext_spec execnames pids endIdx r st2).1 ht, e2]

theorem loop_empty {endIdx : Nat} {rows : List SwitchRow} {st st' : RState} {n : Str} (h : switchLoop execnames pids endIdx st rows = some st') (hn : st.at n = [])
    (hr : ∀ r ∈ rows, Tracked execnames pids r → procName r.nextComm r.nextPid ≠ n) : st'.at n = [] := by
  induction rows generalizing st with
  | nil => cases h; exact hn
  | cons r rows ih =>
    rw [switchLoop] at h
    cases hs : switchStep execnames pids endIdx st r with
    | none => rw [hs] at h; cases h
    | some st1 =>
      rw [hs] at h
      exact ih h (step_empty hs hn (hr r List.mem_cons_self)) fun x hx => hr x (List.mem_cons_of_mem _ hx)

/-- the end of the run that begins with `r` is lost, and there are no intervals under the name of the second switch -/
theorem loop_raises {endIdx : Nat} {a b post : List SwitchRow} {r s : SwitchRow} (htr : Tracked execnames pids r) (hb : b.find? (touches r.nextPid) = none)
    (hs1 : s.prevPid ≠ r.nextPid) (hs2 : s.nextPid = r.nextPid)
    (he : ∀ st, switchLoop execnames pids endIdx ⟨[], [], []⟩ (a ++ r :: b) = some st → st.at (procName s.nextComm s.nextPid) = []) :
    switchLoop execnames pids endIdx ⟨[], [], []⟩ ((a ++ r :: b) ++ s :: post) = none := by
  have hnil : RNames_rx ⟨[], [], []⟩ := by intro p n h; cases h
  rw [switchLoop_append]
  cases hpre : switchLoop execnames pids endIdx ⟨[], [], []⟩ (a ++ r :: b) with
  | none => rfl
  | some st =>
    have hstn := (loop_any hpre hnil).1
    have hempty := he st hpre
    have hlook : st.pmap.lookup r.nextPid = some (procName r.nextComm r.nextPid) := by
      rw [switchLoop_append] at hpre
      cases ha : switchLoop execnames pids endIdx ⟨[], [], []⟩ a with
      | none => rw [ha] at hpre; cases hpre
      | some sa =>
        rw [ha, Option.bind_some, switchLoop] at hpre
        have hsan := (loop_any ha hnil).1
        cases hr : switchStep execnames pids endIdx sa r with
        | none => rw [hr] at hpre; cases hpre
        | some sr =>
          rw [hr] at hpre
          obtain ⟨t1, t2, _⟩ := step_any hr hsan
          rw [(loop_any hpre t1).2.1 _ hb, t2 htr]
    rw [Option.bind_some, switchLoop]
    cases hss : switchStep execnames pids endIdx st s with
    | none => rfl
    | some st1 =>
      exfalso
      obtain ⟨_, _, _, _, u5⟩ := step_any hss hstn
      obtain ⟨m, y, hm, _⟩ := u5 r.nextPid (fun e => hs1 e.symm) hs2 (by rw [hlook]; rfl)
      rw [← hs2, hempty] at hm
      simp at hm

theorem residency_loop_none {rows : List SwitchRow} (h : ∀ endIdx, switchLoop execnames pids endIdx ⟨[], [], []⟩ rows = none) : residency execnames pids rows = none := by
  cases rows with
  | nil => rfl
  | cons r rs =>
    unfold residency
    simp only [h]

theorem loop_wf {endIdx : Nat} {rows : List SwitchRow} {st st' : RState} (hw : RWf st) (ho : ROpen st rows) (hs : Steady execnames pids rows)
    (h : switchLoop execnames pids endIdx st rows = some st') : RWf st' := by
  induction rows generalizing st with
  | nil => cases h; exact hw
  | cons r rest ih =>
    obtain ⟨st1, h1, h2, h3, _⟩ := step_spec endIdx hw ho hs
    rw [switchLoop, h1] at h
    exact ih h2 h3 hs.2 h

/-- **C73, refuted for all such tables.** Whenever the end of a run is lost and the task is switched to again under a name under which it has not been shown before, an `IndexError` is raised: whatever
the filters are and whatever comes before, between and after. -/
theorem C73_new_name_refuted {a b post : List SwitchRow} {r s : SwitchRow} (htr : Tracked execnames pids r) (hb : ∀ x ∈ b, x.prevPid ≠ r.nextPid ∧ x.nextPid ≠ r.nextPid)
    (hs1 : s.prevPid ≠ r.nextPid) (hs2 : s.nextPid = r.nextPid) (hnew : ∀ x ∈ a ++ [r], x.nextPid = r.nextPid → Tracked execnames pids x → x.nextComm ≠ s.nextComm) :
    residency execnames pids (a ++ r :: b ++ s :: post) = none := by
  refine residency_loop_none fun endIdx => loop_raises htr ?_ hs1 hs2 fun st hst => loop_empty hst rfl ?_
  · rw [List.find?_eq_none]
    intro x hx
    have := hb x hx
    simp [touches, this]
  · intro x hx ht e
    obtain ⟨e1, e2⟩ := procName_inj e
    rw [hs2] at e2
    rw [List.mem_append, List.mem_cons] at hx
    rcases hx with hx | rfl | hx
    · exact hnew x (by simp [hx]) e2 ht e1
    · exact hnew x (by simp) e2 ht e1
    · exact (hb x hx).2 e2

/-- **C73, exactly at the first change of a name.** Let a task whose end was lost be switched to again under another name, for the first time in the table. The table up to there raises an `IndexError`
exactly if no run of the task under the new name has been shown. -/
theorem C73_first_partial {a b : List SwitchRow} {r s : SwitchRow} (hst : Steady execnames pids (a ++ r :: b)) (htr : Tracked execnames pids r)
    (hb : ∀ x ∈ b, x.prevPid ≠ r.nextPid ∧ x.nextPid ≠ r.nextPid) (hs1 : s.prevPid ≠ r.nextPid) (hs2 : s.nextPid = r.nextPid) :
    residency execnames pids (a ++ r :: b ++ [s]) = none ↔ runsOf execnames pids s.time s.nextComm s.nextPid (a ++ r :: b) = [] := by
  have hb' : b.find? (touches r.nextPid) = none := by
    rw [List.find?_eq_none]
    intro x hx
    have := hb x hx
    simp [touches, this]
  have hnil : RNames_rx ⟨[], [], []⟩ := by intro p n h; cases h
  obtain ⟨st, hpre, hden⟩ := loop_spec (execnames := execnames) (pids := pids) s.time (rows := a ++ r :: b) (st := ⟨[], [], []⟩) (by intro p n h; cases h) (by intro p n s h; cases h) hst
  have hden : ∀ c p, st.at (procName c p) = runsOf execnames pids s.time c p (a ++ r :: b) := by
    intro c p
    rw [hden c p, denote_closed (by simp)]
    simp [RState.at, Dict.get]
  have hres : residency execnames pids (a ++ r :: b ++ [s]) = none ↔ switchLoop execnames pids s.time ⟨[], [], []⟩ (a ++ r :: b ++ [s]) = none := by
    generalize hrows : a ++ r :: b ++ [s] = rows
    have hl : rows.getLast? = some s := by rw [← hrows, List.getLast?_concat]
    cases rows with
    | nil => cases hl
    | cons f rs =>
      have hlast : (f :: rs).getLast (by simp) = s := by
        rw [List.getLast?_eq_getLast_of_ne_nil (by simp)] at hl
        simpa using hl
      unfold residency
      simp only [hlast]
      cases switchLoop execnames pids s.time ⟨[], [], []⟩ (f :: rs) <;> simp
  rw [hres]
  constructor
  · intro h
    rw [← hden]
    rw [switchLoop_append, hpre, Option.bind_some, switchLoop] at h
    have hstep : switchStep execnames pids s.time st s = none := by
      cases hss : switchStep execnames pids s.time st s with
      | none => rfl
      | some x => rw [hss] at h; cases h
    have hwf := loop_wf (by intro p n h; cases h) (by intro p n s h; cases h) hst hpre
    unfold switchStep at hstep
    obtain ⟨st1, e1, _⟩ := closePrev_spec s st hwf
    rw [e1] at hstep
    simp only at hstep
    have hdrop : dropStale s st1 = none := by
      cases hd : dropStale s st1 with
      | none => rfl
      | some x => rw [hd] at hstep; cases hstep
    unfold dropStale at hdrop
    have hat : st1.at (procName s.nextComm s.nextPid) = [] := by
      split at hdrop
      · cases hdrop
      · split at hdrop
        next h => exact h
        · cases hdrop
    have := (closePrev_any e1).2.2 (procName s.nextComm s.nextPid)
    rw [hat] at this
    simpa using this.symm
  · intro h
    exact loop_raises htr hb' hs1 hs2 fun st' hst' => by
      rw [hpre] at hst'
      cases hst'
      rw [hden, h]

/-- the hypotheses of `C73_new_name_refuted`: the task 5 has another name after a lost switch -/
example : residency [] [] ([⟨1, 0, 5, cs!"sh", 0⟩, ⟨2, 5, 6, cs!"ls", 0⟩] ++ ⟨3, 6, 5, cs!"sh", 0⟩ :: [⟨4, 7, 8, cs!"x", 1⟩] ++ ⟨5, 8, 5, cs!"work", 1⟩ :: [⟨6, 5, 0, cs!"swapper", 1⟩]) = none :=
  C73_new_name_refuted (by decide) (by decide) (by decide) (by decide) (by decide)

/-- `C73_first_partial`: a run under the new name has been shown, or has not -/
example : residency [] [] ([⟨1, 0, 5, cs!"work", 0⟩, ⟨2, 5, 6, cs!"ls", 0⟩] ++ ⟨3, 6, 5, cs!"sh", 0⟩ :: [] ++ [⟨5, 8, 5, cs!"work", 1⟩]) ≠ none ∧
    residency [] [] ([⟨1, 0, 5, cs!"work", 0⟩, ⟨2, 6, 5, cs!"work", 0⟩, ⟨3, 5, 6, cs!"ls", 0⟩] ++ ⟨4, 6, 5, cs!"sh", 0⟩ :: [] ++ [⟨5, 8, 5, cs!"ls", 1⟩]) = none := by decide +kernel

end Trappy
