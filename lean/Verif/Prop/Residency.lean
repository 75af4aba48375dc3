import Verif.Model.Residency
import Verif.Lemma.Data
import Verif.Lemma.CacheEnv
import Verif.Lemma.Array
/-!
# C72, C73: task residency
-/

namespace Trappy

/-! ## Specification -/

/-- **Specification**: the task of the row is to be shown. -/
def Tracked (execnames : List Str) (pids : List Nat) (r : SwitchRow) : Prop :=
  r.nextPid ≠ 0 ∧ ¬ cs!"migration" <+: r.nextComm ∧ (execnames = [] ∨ r.nextComm ∈ execnames) ∧ (pids = [] ∨ r.nextPid ∈ pids)

instance (execnames : List Str) (pids : List Nat) (r : SwitchRow) : Decidable (Tracked execnames pids r) := by
  unfold Tracked
  infer_instance

/-- **Specification**: the switch is from or to the process. -/
def touches (p : Nat) (r : SwitchRow) : Bool := decide (r.prevPid = p ∨ r.nextPid = p)

/-- **Specification**: the interval that begins with the switch `r`, if the switches `rest` follow: it ends at the first later switch from the process, or at the end of
the trace. If the first later switch of the process is another one to it, the end was lost and there is no interval. -/
def intervalAt (endIdx : Nat) (r : SwitchRow) (rest : List SwitchRow) : List Interval :=
  match rest.find? (touches r.nextPid) with
  | none => [⟨r.time, endIdx, r.cpu⟩]
  | some s => if s.prevPid = r.nextPid then [⟨r.time, s.time, r.cpu⟩] else []

/-- **Specification**: the intervals of a task -/
def runsOf (execnames : List Str) (pids : List Nat) (endIdx : Nat) (c : Str) (p : Nat) : List SwitchRow → List Interval
  | [] => []
  | r :: rest => (if r.nextComm = c ∧ r.nextPid = p ∧ Tracked execnames pids r then intervalAt endIdx r rest else []) ++
      runsOf execnames pids endIdx c p rest

/-- **Hypothesis**: if the end of a run was lost, the task has the same name when it is switched to again. -/
def Steady (execnames : List Str) (pids : List Nat) : List SwitchRow → Prop
  | [] => True
  | r :: rest => (Tracked execnames pids r → ∀ s, rest.find? (touches r.nextPid) = some s → s.prevPid ≠ r.nextPid → s.nextComm = r.nextComm) ∧
      Steady execnames pids rest

/-! ## Names -/

theorem natStr_inj {m n : Nat} (h : Py.natStr m = Py.natStr n) : m = n := by
  rw [← natVal_natStr m, ← natVal_natStr n]
  exact congrArg _ h

theorem dash_not_digit {i : Nat} : '-' ∉ Py.natStr i := by
  intro h
  have := natStr_digits h
  revert this
  decide

theorem split_last {a b c d : Str} {x : Char} (h1 : x ∉ b) (h2 : x ∉ d) (h : a ++ x :: b = c ++ x :: d) : a = c ∧ b = d := by
  have hr := congrArg List.reverse h
  simp only [List.reverse_append, List.reverse_cons, List.append_assoc, List.singleton_append] at hr
  have key : ∀ (u v s t : Str), x ∉ u → x ∉ v → u ++ x :: s = v ++ x :: t → u = v ∧ s = t := by
    intro u
    induction u with
    | nil =>
      intro v s t _ hv e
      cases v with
      | nil => simpa using e
      | cons y v => simp only [List.nil_append, List.cons_append, List.cons.injEq] at e; exact absurd (e.1 ▸ List.mem_cons_self) hv
    | cons y u ih =>
      intro v s t hu hv e
      cases v with
      | nil => simp only [List.nil_append, List.cons_append, List.cons.injEq] at e; exact absurd (e.1 ▸ List.mem_cons_self) hu
      | cons z v =>
        simp only [List.cons_append, List.cons.injEq] at e
        obtain ⟨h1, h2⟩ := ih v s t (fun h => hu (List.mem_cons_of_mem _ h)) (fun h => hv (List.mem_cons_of_mem _ h)) e.2
        exact ⟨by rw [e.1, h1], h2⟩
  obtain ⟨h3, h4⟩ := key _ _ _ _ (by simpa using h1) (by simpa using h2) hr
  exact ⟨List.reverse_injective h4, List.reverse_injective h3⟩

theorem procName_inj {c d : Str} {p q : Nat} (h : procName c p = procName d q) : c = d ∧ p = q := by
  obtain ⟨h1, h2⟩ := split_last dash_not_digit dash_not_digit h
  exact ⟨h1, natStr_inj h2⟩

/-! ## Steps -/

theorem tracked_iff (execnames : List Str) (pids : List Nat) (r : SwitchRow) : tracked execnames pids r = true ↔ Tracked execnames pids r := by
  unfold tracked Tracked Py.startsWith
  simp only [Bool.and_eq_true, Bool.or_eq_true, bne_iff_ne, ne_eq, Bool.not_eq_true', decide_eq_true_eq, List.isEmpty_iff, and_assoc]
  rw [← Bool.not_eq_true, List.isPrefixOf_iff_prefix]

theorem closeLast_append (t : Nat) (l : List Interval) (iv : Interval) : closeLast t (l ++ [iv]) = some (l ++ [{ iv with stop := t }]) := by
  induction l with
  | nil => rfl
  | cons x l ih =>
    cases l with
    | nil => rfl
    | cons y l =>
      rw [List.cons_append, List.cons_append, closeLast]
      · rw [← List.cons_append, ih]; rfl
      · simp

theorem lookup_del (pm : List (Nat × Str)) (q p : Nat) : (pm.filter fun e => e.1 != q).lookup p = if p = q then none else pm.lookup p := by
  induction pm with
  | nil => simp
  | cons e pm ih =>
    obtain ⟨k, v⟩ := e
    rw [List.filter_cons]
    by_cases hk : k = q
    · subst hk
      simp only [bne_self_eq_false, Bool.false_eq_true, if_false]
      rw [ih, List.lookup_cons]
      by_cases hp : p = k
      · simp [hp]
      · have : (p == k) = false := by simpa using hp
        simp [hp, this]
    · have : (k != q) = true := by simpa using hk
      simp only [this, if_true, List.lookup_cons]
      rw [ih]
      by_cases hp : p = k
      · subst hp; simp [hk]
      · have : (p == k) = false := by simpa using hp
        simp [this]

theorem at_set (st : RState) (n m : Str) (l : List Interval) (pm : List (Nat × Str)) (pr : List Str) :
    RState.at ⟨st.data.set n l, pm, pr⟩ m = if n = m then l else st.at m := by
  unfold RState.at
  rw [Dict.get_set]
  by_cases h : n = m <;> simp [h]

/-- What `pmap` says is a name of the process, and there is an interval under it. -/
def RWf (st : RState) : Prop := ∀ p n, st.pmap.lookup p = some n → (∃ c, n = procName c p) ∧ st.at n ≠ []

/-- Running tasks are named as in the next switch, if that is to them. -/
def ROpen (st : RState) (rest : List SwitchRow) : Prop :=
  ∀ p n s, st.pmap.lookup p = some n → rest.find? (touches p) = some s → s.prevPid ≠ p → procName s.nextComm p = n

/-- how an open interval ends -/
def resolve (p : Nat) (iv : Interval) (rest : List SwitchRow) : List Interval :=
  match rest.find? (touches p) with
  | none => [iv]
  | some s => if s.prevPid = p then [{ iv with stop := s.time }] else []

theorem closePrev_spec (r : SwitchRow) (st : RState) (hw : RWf st) : ∃ st1, closePrev r st = some st1 ∧ st1.procs = st.procs ∧
    (∀ p, st1.pmap.lookup p = if p = r.prevPid then none else st.pmap.lookup p) ∧
    (∀ n, st.pmap.lookup r.prevPid ≠ some n → st1.at n = st.at n) ∧
    (∀ n l iv, st.pmap.lookup r.prevPid = some n → st.at n = l ++ [iv] → st1.at n = l ++ [{ iv with stop := r.time }]) := by
  unfold closePrev
  cases h : st.pmap.lookup r.prevPid with
  | none =>
    refine ⟨st, rfl, rfl, fun p => ?_, fun _ _ => rfl, fun n l iv h' => by cases h'⟩
    split
    next hp => rw [hp, h]
    next => rfl
  | some name =>
    obtain ⟨_, hne⟩ := hw _ _ h
    have e : st.at name = (st.at name).dropLast ++ [(st.at name).getLast hne] := (List.dropLast_append_getLast hne).symm
    simp only
    rw [e, closeLast_append]
    refine ⟨_, rfl, rfl, fun p => lookup_del _ _ _, fun n hn => ?_, fun n l iv hn hl => ?_⟩
    · rw [at_set, if_neg (fun e => hn (by rw [e]))]
    · cases hn
      rw [at_set, if_pos rfl]
      have e := hl.symm.trans e
      obtain ⟨e1, e2⟩ := List.append_inj' e rfl
      rw [← e1]
      simp only [List.cons.injEq, and_true] at e2
      rw [← e2]

theorem dropStale_spec (r : SwitchRow) (st : RState) (hw : RWf st) (hs : ∀ n, st.pmap.lookup r.nextPid = some n → procName r.nextComm r.nextPid = n) :
    ∃ st1, dropStale r st = some st1 ∧ st1.procs = st.procs ∧
    (∀ p, st1.pmap.lookup p = if p = r.nextPid then none else st.pmap.lookup p) ∧
    (∀ n, st.pmap.lookup r.nextPid ≠ some n → st1.at n = st.at n) ∧
    (∀ n, st.pmap.lookup r.nextPid = some n → st1.at n = (st.at n).dropLast) := by
  unfold dropStale
  cases h : st.pmap.lookup r.nextPid with
  | none =>
    refine ⟨st, rfl, rfl, fun p => ?_, fun _ _ => rfl, fun n h' => by cases h'⟩
    split
    next hp => rw [hp, h]
    next => rfl
  | some name =>
    obtain ⟨_, hne⟩ := hw _ _ h
    rw [hs name h]
    simp only
    cases hl : st.at name with
    | nil => exact absurd hl hne
    | cons iv ivs =>
      refine ⟨_, rfl, rfl, fun p => lookup_del _ _ _, fun n hn => ?_, fun n hn => ?_⟩
      · rw [at_set, if_neg (fun e => hn (by rw [e]))]
      · cases hn
        rw [at_set, if_pos rfl, hl]

theorem openNext_spec (execnames : List Str) (pids : List Nat) (endIdx : Nat) (r : SwitchRow) (st : RState) :
    (¬ Tracked execnames pids r → openNext execnames pids endIdx r st = st) ∧
    (Tracked execnames pids r →
      (∀ p, (openNext execnames pids endIdx r st).pmap.lookup p = if p = r.nextPid then some (procName r.nextComm r.nextPid) else st.pmap.lookup p) ∧
      (∀ n, (openNext execnames pids endIdx r st).at n =
        if procName r.nextComm r.nextPid = n then st.at n ++ [⟨r.time, endIdx, r.cpu⟩] else st.at n)) := by
  unfold openNext
  constructor
  · intro h
    rw [if_neg (by rw [tracked_iff]; exact h)]
  · intro h
    rw [if_pos ((tracked_iff _ _ _).2 h)]
    refine ⟨fun p => ?_, fun n => ?_⟩
    · simp only [List.lookup_cons]
      by_cases hp : p = r.nextPid
      · simp [hp]
      · have : (p == r.nextPid) = false := by simpa using hp
        rw [this, if_neg hp]
        simp only
        rw [lookup_del, if_neg hp]
    · simp only
      rw [at_set]
      split
      next e => rw [e]
      next => rfl

theorem find_skip {p : Nat} {r : SwitchRow} {rest : List SwitchRow} (h1 : r.prevPid ≠ p) (h2 : r.nextPid ≠ p) :
    (r :: rest).find? (touches p) = rest.find? (touches p) := by
  rw [List.find?_cons_of_neg]
  simp [touches, h1, h2]

theorem find_here {p : Nat} {r : SwitchRow} {rest : List SwitchRow} (h : r.prevPid = p ∨ r.nextPid = p) :
    (r :: rest).find? (touches p) = some r := by
  rw [List.find?_cons_of_pos]
  simp [touches, h]

/-- **The intervals of a task after the rest of the table**, in terms of the present state -/
def denote (execnames : List Str) (pids : List Nat) (endIdx : Nat) (st : RState) (rest : List SwitchRow) (c : Str) (p : Nat) : List Interval :=
  (if st.pmap.lookup p = some (procName c p) then
    (st.at (procName c p)).dropLast ++ (match (st.at (procName c p)).getLast? with | some iv => resolve p iv rest | none => [])
   else st.at (procName c p)) ++ runsOf execnames pids endIdx c p rest

theorem denote_closed {execnames : List Str} {pids : List Nat} {endIdx : Nat} {st : RState} {rest : List SwitchRow} {c : Str} {p : Nat}
    (h : st.pmap.lookup p ≠ some (procName c p)) :
    denote execnames pids endIdx st rest c p = st.at (procName c p) ++ runsOf execnames pids endIdx c p rest := by
  unfold denote
  rw [if_neg h]

theorem denote_open {execnames : List Str} {pids : List Nat} {endIdx : Nat} {st : RState} {rest : List SwitchRow} {c : Str} {p : Nat} {l : List Interval} {iv : Interval}
    (h : st.pmap.lookup p = some (procName c p)) (hl : st.at (procName c p) = l ++ [iv]) :
    denote execnames pids endIdx st rest c p = l ++ resolve p iv rest ++ runsOf execnames pids endIdx c p rest := by
  unfold denote
  rw [if_pos h, hl]
  simp

theorem step_spec {execnames : List Str} {pids : List Nat} (endIdx : Nat) {st : RState} {r : SwitchRow} {rest : List SwitchRow} (hw : RWf st)
    (ho : ROpen st (r :: rest)) (hs : Steady execnames pids (r :: rest)) :
    ∃ st', switchStep execnames pids endIdx st r = some st' ∧ RWf st' ∧ ROpen st' rest ∧
      ∀ c p, denote execnames pids endIdx st (r :: rest) c p = denote execnames pids endIdx st' rest c p := by
  obtain ⟨st1, a1, _, a2, a3, a4⟩ := closePrev_spec r st hw
  have hname : ∀ q n, st.pmap.lookup q = some n → ∀ c p, p ≠ q → n ≠ procName c p := by
    intro q n hq c p hp e
    obtain ⟨⟨c', h'⟩, _⟩ := hw q n hq
    rw [h'] at e
    exact hp (procName_inj e).2.symm
  have hw1 : RWf st1 := by
    intro p n h
    rw [a2] at h
    split at h
    · cases h
    next hp =>
      obtain ⟨⟨c, h1⟩, h2⟩ := hw p n h
      refine ⟨⟨c, h1⟩, ?_⟩
      rw [a3]
      · exact h2
      · intro e
        exact hname _ _ e c p hp h1
  have hs1 : ∀ n, st1.pmap.lookup r.nextPid = some n → procName r.nextComm r.nextPid = n := by
    intro n h
    rw [a2] at h
    split at h
    · cases h
    next hp => exact ho _ _ r h (find_here (Or.inr rfl)) (fun e => hp e.symm)
  obtain ⟨st2, b1, _, b2, b3, b4⟩ := dropStale_spec r st1 hw1 hs1
  have hname1 : ∀ q n, st1.pmap.lookup q = some n → ∀ c p, p ≠ q → n ≠ procName c p := by
    intro q n hq c p hp e
    obtain ⟨⟨c', h'⟩, _⟩ := hw1 q n hq
    rw [h'] at e
    exact hp (procName_inj e).2.symm
  have hlook : ∀ p, st2.pmap.lookup p = if p = r.nextPid ∨ p = r.prevPid then none else st.pmap.lookup p := by
    intro p
    rw [b2, a2]
    by_cases h1 : p = r.nextPid <;> by_cases h2 : p = r.prevPid <;> simp [h1, h2]
  -- a task that the row does not touch
  have hsame : ∀ c p, p ≠ r.prevPid → p ≠ r.nextPid → st2.at (procName c p) = st.at (procName c p) := by
    intro c p h1 h2
    rw [b3 _ (fun e => hname1 _ _ e c p h2 rfl), a3 _ (fun e => hname _ _ e c p h1 rfl)]
  obtain ⟨o1, o2⟩ := openNext_spec execnames pids endIdx r st2
  refine ⟨openNext execnames pids endIdx r st2, by unfold switchStep; rw [a1]; simp only; rw [b1], ?_, ?_, ?_⟩
  · -- well-formedness
    have hw2 : RWf st2 := by
      intro p n h
      rw [hlook] at h
      split at h
      · cases h
      next hp =>
        obtain ⟨⟨c, h1⟩, h2⟩ := hw p n h
        refine ⟨⟨c, h1⟩, ?_⟩
        rw [h1, hsame c p (fun e => hp (Or.inr e)) (fun e => hp (Or.inl e)), ← h1]
        exact h2
    by_cases ht : Tracked execnames pids r
    · obtain ⟨p1, p2⟩ := o2 ht
      intro p n h
      rw [p1] at h
      rw [p2]
      split at h
      next hp =>
        cases h
        subst hp
        refine ⟨⟨_, rfl⟩, ?_⟩
        rw [if_pos rfl]
        simp
      next hp =>
        obtain ⟨h1, h2⟩ := hw2 p n h
        refine ⟨h1, ?_⟩
        split
        · simp
        · exact h2
    · rw [o1 ht]
      exact hw2
  · -- running tasks
    have ho2 : ROpen st2 rest := by
      intro p n s h hf hp
      rw [hlook] at h
      split at h
      · cases h
      next hq =>
        refine ho p n s h ?_ hp
        rw [find_skip (fun e => hq (Or.inr e.symm)) (fun e => hq (Or.inl e.symm))]
        exact hf
    by_cases ht : Tracked execnames pids r
    · obtain ⟨p1, _⟩ := o2 ht
      intro p n s h hf hp
      rw [p1] at h
      split at h
      next hq =>
        cases h
        subst hq
        rw [hs.1 ht s hf hp]
      next hq => exact ho2 p n s h hf hp
    · rw [o1 ht]
      exact ho2
  · intro c p
    by_cases htouch : r.prevPid = p ∨ r.nextPid = p
    · -- the intervals before the row are complete
      have hclosed : st2.pmap.lookup p ≠ some (procName c p) := by
        rw [hlook, if_pos (by rcases htouch with h | h <;> simp [h])]
        simp
      have hl : denote execnames pids endIdx st (r :: rest) c p = st2.at (procName c p) ++ runsOf execnames pids endIdx c p (r :: rest) := by
        by_cases hO : st.pmap.lookup p = some (procName c p)
        · have hne := (hw _ _ hO).2
          have hl := (List.dropLast_append_getLast hne).symm
          rw [denote_open hO hl]
          congr 1
          unfold resolve
          rw [find_here htouch]
          simp only
          by_cases hp : r.prevPid = p
          · rw [if_pos hp]
            rw [b3, a4 _ _ _ (by rw [hp]; exact hO) hl]
            intro e
            rw [a2] at e
            split at e
            · cases e
            next hq =>
              have hq' : r.nextPid ≠ p := fun e' => hq (by rw [e', hp])
              exact hname _ _ e c p hq'.symm rfl
          · rw [if_neg hp, List.append_nil]
            have hn : r.nextPid = p := by
              rcases htouch with h | h
              · exact absurd h hp
              · exact h
            rw [b4, a3]
            · intro e
              exact hname _ _ e c p (fun e' => hp e'.symm) rfl
            · rw [a2, hn, if_neg (fun e' => hp e'.symm)]
              exact hO
        · rw [denote_closed hO]
          congr 1
          rw [b3, a3]
          · intro e
            by_cases hp : p = r.prevPid
            · rw [← hp] at e
              exact hO e
            · exact hname _ _ e c p hp rfl
          · intro e
            rw [a2] at e
            split at e
            · cases e
            next hq =>
              by_cases hp : p = r.nextPid
              · rw [← hp] at e
                exact hO e
              · exact hname _ _ e c p hp rfl
      rw [hl]
      by_cases ht : Tracked execnames pids r
      · obtain ⟨p1, p2⟩ := o2 ht
        by_cases hrun : r.nextComm = c ∧ r.nextPid = p
        · obtain ⟨e1, e2⟩ := hrun
          subst e1 e2
          rw [denote_open (l := st2.at (procName r.nextComm r.nextPid)) (iv := ⟨r.time, endIdx, r.cpu⟩)]
          · rw [runsOf, if_pos ⟨rfl, rfl, ht⟩, List.append_assoc]
            rfl
          · rw [p1, if_pos rfl]
          · rw [p2, if_pos rfl]
        · have hrow : runsOf execnames pids endIdx c p (r :: rest) = runsOf execnames pids endIdx c p rest := by
            rw [runsOf, if_neg (fun h => hrun ⟨h.1, h.2.1⟩), List.nil_append]
          rw [hrow, denote_closed]
          · rw [p2, if_neg]
            intro e
            exact hrun (procName_inj e)
          · rw [p1]
            split
            · intro e
              simp only [Option.some.injEq] at e
              exact hrun (procName_inj e)
            · exact hclosed
      · rw [o1 ht, denote_closed hclosed, runsOf, if_neg (fun h => ht h.2.2), List.nil_append]
    · have h1 : r.prevPid ≠ p := fun e => htouch (Or.inl e)
      have h2 : r.nextPid ≠ p := fun e => htouch (Or.inr e)
      have hrow : runsOf execnames pids endIdx c p (r :: rest) = runsOf execnames pids endIdx c p rest := by
        rw [runsOf, if_neg (fun h => h2 h.2.1), List.nil_append]
      have hlk : (openNext execnames pids endIdx r st2).pmap.lookup p = st.pmap.lookup p := by
        have : st2.pmap.lookup p = st.pmap.lookup p := by
          rw [hlook, if_neg]
          rintro (h | h)
          · exact h2 h.symm
          · exact h1 h.symm
        by_cases ht : Tracked execnames pids r
        · rw [(o2 ht).1, if_neg h2.symm, this]
        · rw [o1 ht, this]
      have hat : (openNext execnames pids endIdx r st2).at (procName c p) = st.at (procName c p) := by
        by_cases ht : Tracked execnames pids r
        · rw [(o2 ht).2, if_neg (fun e => h2 (procName_inj e).2), hsame c p h1.symm h2.symm]
        · rw [o1 ht, hsame c p h1.symm h2.symm]
      unfold denote
      rw [hlk, hat, hrow]
      simp only [resolve, find_skip h1 h2]

theorem loop_spec {execnames : List Str} {pids : List Nat} (endIdx : Nat) {rows : List SwitchRow} {st : RState} (hw : RWf st)
    (ho : ROpen st rows) (hs : Steady execnames pids rows) :
    ∃ st', switchLoop execnames pids endIdx st rows = some st' ∧
      ∀ c p, st'.at (procName c p) = denote execnames pids endIdx st rows c p := by
  induction rows generalizing st with
  | nil =>
    refine ⟨st, rfl, fun c p => ?_⟩
    by_cases h : st.pmap.lookup p = some (procName c p)
    · have hne := (hw _ _ h).2
      rw [denote_open h (List.dropLast_append_getLast hne).symm]
      simp [resolve, runsOf, List.dropLast_append_getLast hne]
    · rw [denote_closed h]
      simp [runsOf]
  | cons r rest ih =>
    obtain ⟨st1, h1, h2, h3, h4⟩ := step_spec endIdx hw ho hs
    obtain ⟨st2, h5, h6⟩ := ih h2 h3 hs.2
    refine ⟨st2, ?_, fun c p => ?_⟩
    · unfold switchLoop
      rw [h1]
      exact h5
    · rw [h6, h4]

theorem closePrev_procs {r : SwitchRow} {st st1 : RState} (h : closePrev r st = some st1) : st1.procs = st.procs := by
  unfold closePrev at h
  split at h
  · cases h; rfl
  · split at h
    · cases h
    · cases h; rfl

theorem dropStale_procs {r : SwitchRow} {st st1 : RState} (h : dropStale r st = some st1) : st1.procs = st.procs := by
  unfold dropStale at h
  split at h
  · cases h; rfl
  · split at h
    · cases h
    · cases h; rfl

theorem loop_procs {execnames : List Str} {pids : List Nat} {endIdx : Nat} {rows : List SwitchRow} {st st' : RState}
    (h : switchLoop execnames pids endIdx st rows = some st') (n : Str) :
    n ∈ st'.procs ↔ n ∈ st.procs ∨ ∃ r ∈ rows, Tracked execnames pids r ∧ procName r.nextComm r.nextPid = n := by
  induction rows generalizing st with
  | nil => cases h; simp
  | cons r rest ih =>
    unfold switchLoop at h
    cases hst : switchStep execnames pids endIdx st r with
    | none => rw [hst] at h; cases h
    | some st1 =>
      rw [hst] at h
      rw [ih h]
      unfold switchStep at hst
      cases h1 : closePrev r st with
      | none => rw [h1] at hst; cases hst
      | some sa =>
        rw [h1] at hst
        simp only at hst
        cases h2 : dropStale r sa with
        | none => rw [h2] at hst; cases hst
        | some sb =>
          rw [h2] at hst
          simp only [Option.some.injEq] at hst
          subst hst
          have e : sb.procs = st.procs := (dropStale_procs h2).trans (closePrev_procs h1)
          unfold openNext
          by_cases ht : Tracked execnames pids r
          · rw [if_pos ((tracked_iff _ _ _).2 ht)]
            simp only [e]
            constructor
            · rintro (h' | h')
              · split at h'
                · exact Or.inl h'
                · rcases List.mem_append.1 h' with h' | h'
                  · exact Or.inl h'
                  · exact Or.inr ⟨r, List.mem_cons_self, ht, (List.mem_singleton.1 h').symm⟩
              · obtain ⟨s, hs, h3⟩ := h'
                exact Or.inr ⟨s, List.mem_cons_of_mem _ hs, h3⟩
            · rintro (h' | ⟨s, hs, h3, h4⟩)
              · left
                split
                · exact h'
                · exact List.mem_append_left _ h'
              · rcases List.mem_cons.1 hs with rfl | hs
                · left
                  rw [← h4]
                  split
                  next hm => exact hm
                  next => simp
                · exact Or.inr ⟨s, hs, h3, h4⟩
          · rw [if_neg (fun h' => ht ((tracked_iff _ _ _).1 h')), e]
            constructor
            · rintro (h' | ⟨s, hs, h3⟩)
              · exact Or.inl h'
              · exact Or.inr ⟨s, List.mem_cons_of_mem _ hs, h3⟩
            · rintro (h' | ⟨s, hs, h3, h4⟩)
              · exact Or.inl h'
              · rcases List.mem_cons.1 hs with rfl | hs
                · exact absurd h3 ht
                · exact Or.inr ⟨s, hs, h3, h4⟩

/-! ## Theorems -/

/-- **C72 and C73, partial.** If a task whose end was lost has the same name when it is switched to again, the residency data are produced, and the intervals of each task are: for each
switch to it, in order, the interval from there to the next switch from it, or to the end of the table, on the processor of the switch; there is none if the task is switched to again before.
The names are those of the tasks shown, the domain is from the first to the last time. For all tables, with any lost events, and all filters. -/
theorem C72_intervals_partial {execnames : List Str} {pids : List Nat} {rows : List SwitchRow} {f l : SwitchRow} (hf : rows.head? = some f) (hl : rows.getLast? = some l)
    (hs : Steady execnames pids rows) :
    ∃ R, residency execnames pids rows = some R ∧ R.first = f.time ∧ R.last = l.time ∧
      (∀ n, n ∈ R.procs ↔ ∃ r ∈ rows, Tracked execnames pids r ∧ procName r.nextComm r.nextPid = n) ∧
      ∀ c p, (∀ ivs, R.data.get (procName c p) = some ivs → ivs = runsOf execnames pids l.time c p rows) ∧
        (R.data.get (procName c p) = none → runsOf execnames pids l.time c p rows = []) := by
  cases rows with
  | nil => cases hf
  | cons r rs =>
    cases hf
    have hlast : (f :: rs).getLast (by simp) = l := by
      rw [List.getLast?_eq_getLast_of_ne_nil (by simp)] at hl
      simpa using hl
    obtain ⟨st, h1, h2⟩ := loop_spec (execnames := execnames) (pids := pids) l.time (rows := f :: rs) (st := ⟨[], [], []⟩)
      (by intro p n h; cases h) (by intro p n s h; cases h) hs
    refine ⟨⟨st.data, st.procs, f.time, l.time⟩, ?_, rfl, rfl, fun n => ?_, fun c p => ?_⟩
    · unfold residency
      simp only
      rw [hlast, h1]
    · have := loop_procs h1 n
      simpa using this
    · have := h2 c p
      rw [denote_closed (by simp)] at this
      unfold RState.at at this
      refine ⟨fun ivs h => ?_, fun h => ?_⟩
      · change st.data.get (procName c p) = some ivs at h
        rw [h] at this
        simpa [Dict.get] using this
      · change st.data.get (procName c p) = none at h
        rw [h] at this
        simpa [Dict.get] using this.symm

theorem runsOf_starts {execnames : List Str} {pids : List Nat} {endIdx : Nat} {c : Str} {p : Nat} {rows : List SwitchRow} {iv : Interval}
    (h : iv ∈ runsOf execnames pids endIdx c p rows) : ∃ r ∈ rows, r.nextPid = p ∧ r.nextComm = c ∧ iv.start = r.time ∧ iv.cpu = r.cpu ∧ Tracked execnames pids r := by
  induction rows with
  | nil => cases h
  | cons r rest ih =>
    rw [runsOf] at h
    rcases List.mem_append.1 h with h | h
    · split at h
      next hc =>
        refine ⟨r, List.mem_cons_self, hc.2.1, hc.1, ?_, ?_, hc.2.2⟩ <;>
        · unfold intervalAt at h
          split at h
          · rw [List.mem_singleton] at h; rw [h]
          · split at h
            · rw [List.mem_singleton] at h; rw [h]
            · cases h
      · cases h
    · obtain ⟨s, hs, h'⟩ := ih h
      exact ⟨s, List.mem_cons_of_mem _ hs, h'⟩

/-- **C72 (order), partial.** In a table in the order of time the intervals of a task are in order and do not overlap, and none ends before it begins. -/
theorem C72_order_partial {execnames : List Str} {pids : List Nat} {rows : List SwitchRow} {l : SwitchRow} (hl : rows.getLast? = some l)
    (ht : rows.Pairwise fun a b => a.time ≤ b.time) (c : Str) (p : Nat) :
    (runsOf execnames pids l.time c p rows).Pairwise (fun a b => a.stop ≤ b.start) ∧
    ∀ iv ∈ runsOf execnames pids l.time c p rows, iv.start ≤ iv.stop := by
  have key : ∀ (e : Nat) (rows : List SwitchRow), (rows.Pairwise fun a b => a.time ≤ b.time) → (∀ r ∈ rows, r.time ≤ e) →
      (runsOf execnames pids e c p rows).Pairwise (fun a b => a.stop ≤ b.start) ∧ ∀ iv ∈ runsOf execnames pids e c p rows, iv.start ≤ iv.stop := by
    intro e rows
    induction rows with
    | nil => intro _ _; exact ⟨List.Pairwise.nil, fun _ h => by cases h⟩
    | cons r rest ih =>
      intro ht he
      rw [List.pairwise_cons] at ht
      obtain ⟨i1, i2⟩ := ih ht.2 fun x hx => he x (List.mem_cons_of_mem _ hx)
      rw [runsOf]
      have hown : ∀ iv ∈ (if r.nextComm = c ∧ r.nextPid = p ∧ Tracked execnames pids r then intervalAt e r rest else []),
          iv.start ≤ iv.stop ∧ ∀ jv ∈ runsOf execnames pids e c p rest, iv.stop ≤ jv.start := by
        intro iv hiv
        split at hiv
        next hc =>
          obtain ⟨_, hp, _⟩ := hc
          unfold intervalAt at hiv
          cases hfind : rest.find? (touches r.nextPid) with
          | none =>
            rw [hfind] at hiv
            simp only [List.mem_singleton] at hiv
            subst hiv
            refine ⟨he r List.mem_cons_self, fun jv hj => ?_⟩
            obtain ⟨s, hs, h1, _⟩ := runsOf_starts hj
            rw [List.find?_eq_none] at hfind
            exact absurd (by simp [touches, h1, hp]) (hfind s hs)
          | some s =>
            rw [hfind] at hiv
            simp only at hiv
            split at hiv
            · rw [List.mem_singleton] at hiv
              subst hiv
              have hsm : s ∈ rest := List.mem_of_find?_eq_some hfind
              refine ⟨ht.1 s hsm, fun jv hj => ?_⟩
              -- every switch to the task after this row is at or after the first one that touches it
              have aux : ∀ rest' : List SwitchRow, (rest'.Pairwise fun a b => a.time ≤ b.time) → rest'.find? (touches p) = some s →
                  jv ∈ runsOf execnames pids e c p rest' → s.time ≤ jv.start := by
                intro rest'
                induction rest' with
                | nil => intro _ h; cases h
                | cons x xs ihx =>
                  intro hpw hf hj
                  rw [List.pairwise_cons] at hpw
                  by_cases hx : touches p x = true
                  · rw [List.find?_cons_of_pos hx] at hf
                    cases hf
                    obtain ⟨y, hy, _, _, h3, _⟩ := runsOf_starts hj
                    rw [h3]
                    rcases List.mem_cons.1 hy with rfl | hy
                    · exact Nat.le_refl _
                    · exact hpw.1 y hy
                  · rw [List.find?_cons_of_neg hx] at hf
                    rw [runsOf] at hj
                    rcases List.mem_append.1 hj with hj | hj
                    · split at hj
                      next hc =>
                        exact absurd (by simp [touches, hc.2.1]) hx
                      next => cases hj
                    · exact ihx hpw.2 hf hj
              exact aux rest ht.2 (by rw [← hp]; exact hfind) hj
            · cases hiv
        next => cases hiv
      refine ⟨?_, ?_⟩
      · rw [List.pairwise_append]
        refine ⟨?_, i1, fun a ha b hb => (hown a ha).2 b hb⟩
        split
        · unfold intervalAt
          split
          · exact List.pairwise_singleton _ _
          · split
            · exact List.pairwise_singleton _ _
            · exact List.Pairwise.nil
        · exact List.Pairwise.nil
      · intro iv hiv
        rcases List.mem_append.1 hiv with h | h
        · exact (hown iv h).1
        · exact i2 iv h
  refine key l.time rows ht ?_
  intro r hr
  obtain ⟨ys, rfl⟩ : ∃ ys, rows = ys ++ [l] := by
    rw [List.getLast?_eq_some_iff] at hl
    exact hl
  rcases List.mem_append.1 hr with hr | hr
  · rw [List.pairwise_append] at ht
    exact ht.2.2 r hr l (by simp)
  · rw [List.mem_singleton] at hr
    rw [hr]

/-- A table for the examples: task 5 runs on cpu 0, loses a switch and runs again on cpu 1. -/
def exSwitches : List SwitchRow :=
  [⟨1, 0, 5, cs!"work", 0⟩, ⟨2, 5, 6, cs!"sh", 0⟩, ⟨3, 6, 5, cs!"work", 0⟩, ⟨4, 0, 5, cs!"work", 1⟩, ⟨6, 5, 0, cs!"swapper", 1⟩, ⟨7, 0, 6, cs!"sh", 1⟩, ⟨9, 0, 7, cs!"migration/0", 0⟩]

/-- `C72_intervals_partial`: the run of `work` from 3, whose end was lost, is left out; the last run of `sh` lasts to the end. -/
example : Steady [] [] exSwitches ∧ residency [] [] exSwitches = some
    { data := [(cs!"work-5", [⟨1, 2, 0⟩, ⟨4, 6, 1⟩]), (cs!"sh-6", [⟨2, 3, 0⟩, ⟨7, 9, 1⟩])], procs := [cs!"work-5", cs!"sh-6"], first := 1, last := 9 } := by
  refine ⟨?_, by decide +kernel⟩
  refine ⟨?_, ?_, ?_, ?_, ?_, ?_, ?_, trivial⟩ <;> intro _ s hs <;> revert hs <;> simp [touches] <;> intro e <;> subst e <;> simp

/-- `C72_order_partial` -/
example : (exSwitches.Pairwise fun a b => a.time ≤ b.time) ∧ exSwitches.getLast?.isSome ∧
    runsOf [] [] 9 cs!"work" 5 exSwitches = [⟨1, 2, 0⟩, ⟨4, 6, 1⟩] := by
  refine ⟨by decide, by decide, by decide +kernel⟩

/-- **C73, refuted.** A task that changed its name and whose switch-out was lost: `IndexError`. -/
theorem C73_rename_refuted : residency [] [] [⟨1, 0, 5, cs!"sh", 0⟩, ⟨3, 0, 5, cs!"work", 1⟩] = none := by decide +kernel

/-- **C73 (empty table), refuted.** An empty table: `IndexError`. -/
theorem C73_empty_refuted : residency [] [] [] = none := rfl

/-- **C72, refuted.** A task that changed its name and whose switch-out was lost: its complete run from 1 to 2 is deleted, and the run whose end was lost is drawn to the end of the
trace, over the following run of the same process. -/
theorem C72_rename_refuted : residency [] [] [⟨1, 0, 5, cs!"work", 0⟩, ⟨2, 5, 0, cs!"swapper", 0⟩, ⟨3, 0, 5, cs!"sh", 0⟩, ⟨4, 0, 5, cs!"work", 1⟩, ⟨9, 5, 0, cs!"swapper", 1⟩] = some
    { data := [(cs!"work-5", [⟨4, 9, 1⟩]), (cs!"sh-5", [⟨3, 9, 0⟩])], procs := [cs!"work-5", cs!"sh-5"], first := 1, last := 9 } := by decide +kernel

/-- **C73, partial.** If a task whose end was lost has the same name when it is switched to again, no error occurs for a table with rows. -/
theorem C73_partial {execnames : List Str} {pids : List Nat} {rows : List SwitchRow} (hne : rows ≠ []) (hs : Steady execnames pids rows) :
    ∃ R, residency execnames pids rows = some R := by
  obtain ⟨R, h, _⟩ := C72_intervals_partial (List.head?_eq_some_head hne) (List.getLast?_eq_getLast_of_ne_nil hne) hs
  exact ⟨R, h⟩

/-- **C73 (kept names), partial.** No error occurs if every process keeps its name. -/
theorem C73_names_partial {execnames : List Str} {pids : List Nat} {rows : List SwitchRow} (hne : rows ≠ []) (name : Nat → Str)
    (hn : ∀ r ∈ rows, r.nextComm = name r.nextPid) : ∃ R, residency execnames pids rows = some R := by
  refine C73_partial hne ?_
  clear hne
  induction rows with
  | nil => trivial
  | cons r rest ih =>
    refine ⟨fun _ s hs hp => ?_, ih fun x hx => hn x (List.mem_cons_of_mem _ hx)⟩
    have h1 := hn s (List.mem_cons_of_mem _ (List.mem_of_find?_eq_some hs))
    have h2 := List.find?_some hs
    simp only [touches, decide_eq_true_eq] at h2
    rcases h2 with h2 | h2
    · exact absurd h2 hp
    · rw [h1, h2, hn r List.mem_cons_self]

/-- `C73_names_partial` -/
example : ∀ r ∈ exSwitches, r.nextComm = (fun p : Nat => if p = 0 then cs!"swapper" else if p = 5 then cs!"work" else if p = 6 then cs!"sh" else cs!"migration/0") r.nextPid := by
  decide

end Trappy
