import Verif.Lemma.Registry
/-!
# C26 – C31: parser registry, choice of events, attribute names and lookup
-/

namespace Trappy
open Py

/-! ## C26 -/

/-- An operation on the registry. -/
inductive RegOp where
  | reg (c : PClass) (scope : Str)
  | unreg (c : PClass)

/-- The registry after a sequence of operations; a registration that raises changes nothing. -/
def runOps : List RegOp → Registry → Registry
  | [], r => r
  | .reg c scope :: ops, r => runOps ops (match r.register c scope with | some r' => r' | none => r)
  | .unreg c :: ops, r => runOps ops (r.unregister c)

/-- The registry before anything is registered (ftrace.py:74-78). -/
def Registry.empty : Registry := ⟨[], [], []⟩

/-- No dictionary has two entries with one key. -/
def Registry.Unique (r : Registry) : Prop :=
  (r.thermal.map Prod.fst).Nodup ∧ (r.sched.map Prod.fst).Nodup ∧ (r.dynamic.map Prod.fst).Nodup

theorem register_unique {r r' : Registry} (h : r.Unique) {c : PClass} {s : Str} (hr : r.register c s = some r') :
    r'.Unique := by
  unfold Registry.register at hr
  split at hr
  · cases hr; exact ⟨h.1, h.2.1, Dict.nodup_set h.2.2 _ _⟩
  split at hr
  · cases hr; exact ⟨Dict.nodup_set h.1 _ _, h.2.1, h.2.2⟩
  split at hr
  · cases hr; exact ⟨h.1, Dict.nodup_set h.2.1 _ _, h.2.2⟩
  split at hr
  · cases hr; exact ⟨h.1, h.2.1, Dict.nodup_set h.2.2 _ _⟩
  · cases hr

theorem unregister_unique {r : Registry} (h : r.Unique) (c : PClass) : (r.unregister c).Unique :=
  ⟨Dict.nodup_filter h.1 _, Dict.nodup_filter h.2.1 _, Dict.nodup_filter h.2.2 _⟩

theorem runOps_unique (ops : List RegOp) {r : Registry} (h : r.Unique) : (runOps ops r).Unique := by
  induction ops generalizing r with
  | nil => exact h
  | cons o ops ih =>
    cases o with
    | reg c s =>
      unfold runOps
      cases hr : r.register c s with
      | none => exact ih h
      | some r' => exact ih (register_unique h hr)
    | unreg c => exact ih (unregister_unique h c)

/-- The three places a class can be registered in. -/
inductive Slot where
  | thermal | sched | dynamic
deriving DecidableEq

/-- The place each accepted value of `scope` stands for. -/
def slotOf : List (Str × Slot) :=
  [(cs!"all", .dynamic), (cs!"thermal", .thermal), (cs!"sched", .sched), (cs!"dynamic", .dynamic)]

/-- the dictionary of a place -/
def Registry.at (r : Registry) : Slot → Dict PClass
  | .thermal => r.thermal
  | .sched => r.sched
  | .dynamic => r.dynamic

/-- **C26**: after any history, registering `c` (for any accepted scope) and unregistering it again leaves every
place as it was, in the same order, without the entries of `c` itself and, in the place of the registration, without
the entry that had the name of `c`.  Other values of `scope` raise. -/
theorem C26_unregister_undoes (ops : List RegOp) (c : PClass) (scope : Str) :
    (∀ sl, (scope, sl) ∈ slotOf → ∃ r', (runOps ops Registry.empty).register c scope = some r' ∧
      ∀ s, (r'.unregister c).at s = ((runOps ops Registry.empty).at s).filter fun e =>
          decide (e.2.id ≠ c.id ∧ (s = sl → e.1 ≠ c.name))) ∧
    ((∀ sl, (scope, sl) ∉ slotOf) → (runOps ops Registry.empty).register c scope = none) := by
  have hu : (runOps ops Registry.empty).Unique := runOps_unique ops (by simp [Registry.Unique, Registry.empty])
  generalize runOps ops Registry.empty = r at hu
  obtain ⟨h1, h2, h3⟩ := hu
  have key : ∀ d : Dict PClass, (d.map Prod.fst).Nodup → delClass c (d.set c.name c) =
      d.filter fun e => decide (e.2.id ≠ c.id ∧ e.1 ≠ c.name) := by
    intro d hd
    unfold delClass
    rw [Dict.set_filter hd _ _ _ (by simp), List.filter_filter]
    congr 1; funext e; simp
  constructor
  · intro sl hsl
    simp only [slotOf, List.mem_cons, Prod.mk.injEq, List.not_mem_nil, or_false] at hsl
    rcases hsl with ⟨rfl, rfl⟩ | ⟨rfl, rfl⟩ | ⟨rfl, rfl⟩ | ⟨rfl, rfl⟩
    all_goals refine ⟨_, rfl, ?_⟩
    all_goals
      intro s
      cases s <;> simp only [Registry.unregister, Registry.at, key _ h1, key _ h2, key _ h3] <;>
        simp [delClass]
  · intro h
    unfold Registry.register
    have n1 : scope ≠ cs!"all" := fun e => h .dynamic (by rw [e]; simp [slotOf])
    have n2 : scope ≠ cs!"thermal" := fun e => h .thermal (by rw [e]; simp [slotOf])
    have n3 : scope ≠ cs!"sched" := fun e => h .sched (by rw [e]; simp [slotOf])
    have n4 : scope ≠ cs!"dynamic" := fun e => h .dynamic (by rw [e]; simp [slotOf])
    rw [if_neg n1, if_neg n2, if_neg n3, if_neg n4]

/-- **C26**: after unregistering, no scope holds the class; entries of other classes are untouched. -/
theorem C26_unregistered (r : Registry) (c : PClass) (s : Slot) :
    (∀ e ∈ (r.unregister c).at s, e.2.id ≠ c.id) ∧
    ∀ e, e.2.id ≠ c.id → (e ∈ (r.unregister c).at s ↔ e ∈ r.at s) := by
  have key : ∀ d : Dict PClass, (∀ e ∈ delClass c d, e.2.id ≠ c.id) ∧ ∀ e, e.2.id ≠ c.id → (e ∈ delClass c d ↔ e ∈ d) := by
    intro d
    unfold delClass
    constructor
    · intro e he; simpa using (List.mem_filter.mp he).2
    · intro e he; simp [List.mem_filter, he]
  cases s <;> exact key _

def exThermal : PClass := namedClass 1 (some cs!"thermal") cs!"thermal_temperature:"
def exSwitch : PClass := namedClass 2 none cs!"sched_switch:"
def exOther : PClass := namedClass 3 (some cs!"sched_switch") cs!"my_switch"

/-- a registry with a thermal and a scheduler event; another class takes the name of the latter and is removed -/
example : let r := runOps [.reg exThermal cs!"thermal", .reg exSwitch cs!"sched", .reg exOther cs!"all"] Registry.empty
    r.thermal = [(cs!"thermal", exThermal)] ∧ r.sched = [(cs!"sched_switch", exSwitch)] ∧
    r.dynamic = [(cs!"sched_switch", exOther)] ∧ (r.unregister exOther).dynamic = [] ∧
    (r.register exOther cs!"other").isNone := by
  decide +kernel

/-! ## C27 -/

/-- The classes of a scope, in the order of increasing precedence (documentation of `FTrace`). -/
def scopeDicts (r : Registry) (scope : Str) : List (Dict PClass) :=
  if scope = cs!"thermal" then [r.thermal, r.dynamic]
  else if scope = cs!"sched" then [r.sched, r.dynamic]
  else if scope = cs!"custom" then []
  else [r.thermal, r.sched, r.dynamic]

theorem runOps_scopeDicts (ops : List RegOp) (scope : Str) :
    ∀ d ∈ scopeDicts (runOps ops Registry.empty) scope, (d.map Prod.fst).Nodup := by
  have hu : (runOps ops Registry.empty).Unique := runOps_unique ops (by simp [Registry.Unique, Registry.empty])
  intro d hd
  unfold scopeDicts at hd
  obtain ⟨h1, h2, h3⟩ := hu
  repeat' split at hd
  all_goals simp at hd
  · rcases hd with rfl | rfl <;> assumption
  · rcases hd with rfl | rfl <;> assumption
  · rcases hd with rfl | rfl | rfl <;> assumption

/-- **C27**: the classes of a trace.  A name is bound to the class the scope's dictionaries bind it to (the last one
counts), else to the class of a requested event with that name; there are no others. -/
theorem C27_scopes (ops : List RegOp) (scope : Str) (events : List Str) (n : Str) :
    (classDefinitions (runOps ops Registry.empty) scope events).get n =
      ((scopeDicts (runOps ops Registry.empty) scope).reverse.findSome? fun d => d.get n).or
        ((addEvents (runOps ops Registry.empty) events).get n) := by
  have hu : (runOps ops Registry.empty).Unique := runOps_unique ops (by simp [Registry.Unique, Registry.empty])
  generalize runOps ops Registry.empty = r at hu
  obtain ⟨h1, h2, h3⟩ := hu
  unfold classDefinitions scopeDicts
  simp only
  split
  · rw [Dict.get_update_nodup _ h3, Dict.get_update_nodup _ h1]
    cases h : r.dynamic.get n <;> cases h' : r.thermal.get n <;> simp [h, h']
  split
  · rw [Dict.get_update_nodup _ h3, Dict.get_update_nodup _ h2]
    cases h : r.dynamic.get n <;> cases h' : r.sched.get n <;> simp [h, h']
  split
  · rename_i hne
    rw [Dict.get_update_nodup _ h3, Dict.get_update_nodup _ h2, Dict.get_update_nodup _ h1]
    cases h : r.dynamic.get n <;> cases h' : r.sched.get n <;> cases h'' : r.thermal.get n <;> simp [h, h', h'']
  · rename_i hne
    have hne : scope = cs!"custom" := by simpa using hne
    subst hne
    simp

/-- What a request for event `e` may be answered with: a class of the registry that has `e` as its name or, up to a
colon, as its unique word; or, if there is none, a fresh class for the unique word `e:`. -/
def Answers (r : Registry) (e : Str) (c : PClass) : Prop :=
  ((c.word = e ∨ c.word = e ++ [':'] ∨ c.name = e) ∧ ∃ s, (c.name, c) ∈ r.at s) ∨
  (c = { id := none, name := e, word := e ++ [':'] } ∧
    ∀ n d, r.known.get n = some d → d.word ≠ e ∧ d.word ≠ e ++ [':'] ∧ d.name ≠ e)

/-- every class is registered under its own name -/
def Registry.Named (r : Registry) : Prop := ∀ s, ∀ e ∈ r.at s, e.2.name = e.1

theorem mem_set {α : Type} {d : Dict α} {k : Str} {v : α} {e : Str × α} (h : e ∈ d.set k v) : e = (k, v) ∨ e ∈ d := by
  induction d with
  | nil => simp [Dict.set] at h; exact Or.inl h
  | cons x d ih =>
    obtain ⟨k', v'⟩ := x
    unfold Dict.set at h
    split at h
    · rcases List.mem_cons.mp h with h | h
      · exact Or.inl h
      · exact Or.inr (List.mem_cons_of_mem _ h)
    · rcases List.mem_cons.mp h with h | h
      · exact Or.inr (by simp [h])
      · rcases ih h with h | h
        · exact Or.inl h
        · exact Or.inr (List.mem_cons_of_mem _ h)

theorem mem_update {α : Type} {d e : Dict α} {x : Str × α} (h : x ∈ d.update e) : x ∈ e ∨ x ∈ d := by
  unfold Dict.update at h
  induction e generalizing d with
  | nil => exact Or.inr h
  | cons y e ih =>
    rcases ih h with h | h
    · exact Or.inl (List.mem_cons_of_mem _ h)
    · rcases mem_set h with h | h
      · exact Or.inl (by simp [h])
      · exact Or.inr h

theorem runOps_named (ops : List RegOp) {r : Registry} (h : r.Named) : (runOps ops r).Named := by
  induction ops generalizing r with
  | nil => exact h
  | cons o ops ih =>
    cases o with
    | reg c sc =>
      unfold runOps
      cases hr : r.register c sc with
      | none => exact ih h
      | some r' =>
        apply ih
        have key : ∀ d : Dict PClass, (∀ e ∈ d, e.2.name = e.1) → ∀ e ∈ d.set c.name c, e.2.name = e.1 := by
          intro d hd e he
          rcases mem_set he with rfl | he
          · rfl
          · exact hd e he
        have ht : ∀ e ∈ r.thermal, e.2.name = e.1 := h .thermal
        have hs : ∀ e ∈ r.sched, e.2.name = e.1 := h .sched
        have hd : ∀ e ∈ r.dynamic, e.2.name = e.1 := h .dynamic
        intro s
        unfold Registry.register at hr
        repeat' split at hr
        all_goals cases hr
        all_goals cases s
        all_goals first | exact ht | exact hs | exact hd | exact key _ ht | exact key _ hs | exact key _ hd
    | unreg c =>
      apply ih
      intro s e he
      apply h s
      have := (C26_unregistered r c s).2 e ((C26_unregistered r c s).1 e he)
      exact this.mp he

theorem eventClass_answers {r : Registry} (hnamed : r.Named) (e : Str) :
    Answers r e (eventClass r.known e) := by
  unfold eventClass
  cases hf : r.known.find? (fun kc => matchesEvent e kc.2) with
  | some kc =>
    left
    have h1 := List.find?_some hf
    have h2 := List.mem_of_find?_eq_some hf
    unfold matchesEvent at h1
    simp at h1
    have h1' : kc.2.word = e ∨ kc.2.word = e ++ [':'] ∨ kc.2.name = e := by
      rcases h1 with (h | h) | h
      · exact Or.inl h.symm
      · exact Or.inr (Or.inl h.symm)
      · exact Or.inr (Or.inr h.symm)
    refine ⟨h1', ?_⟩
    unfold Registry.known at h2
    rcases mem_update h2 with h | h
    · refine ⟨.dynamic, ?_⟩
      have := hnamed .dynamic kc h
      simp only; rw [this]; exact h
    rcases mem_update h with h | h
    · refine ⟨.sched, ?_⟩
      have := hnamed .sched kc h
      simp only; rw [this]; exact h
    rcases mem_update h with h | h
    · refine ⟨.thermal, ?_⟩
      have := hnamed .thermal kc h
      simp only; rw [this]; exact h
    · cases h
  | none =>
    right
    refine ⟨rfl, ?_⟩
    intro n d hd
    rw [List.find?_eq_none] at hf
    have := hf (n, d) (Dict.get_mem hd)
    unfold matchesEvent at this
    simp at this
    exact ⟨fun h => this.1.1 h.symm, fun h => this.1.2 h.symm, fun h => this.2 h.symm⟩

/-- **C27**: the classes of requested events: every entry answers some requested event and is entered under its own
name, and a name that answers a request stays in the table. -/
theorem C27_requested (ops : List RegOp) (events : List Str) :
    let r := runOps ops Registry.empty
    (∀ n c, (addEvents r events).get n = some c → c.name = n ∧ ∃ e ∈ events, Answers r e c) ∧
    ∀ e ∈ events, ∃ c, Answers r e c ∧ ∃ c', (addEvents r events).get c.name = some c' := by
  intro r
  have hn : r.Named := runOps_named ops (by
    intro s e he
    cases s <;> simp [Registry.at, Registry.empty] at he)
  have gen : ∀ (evs : List Str) (d : Dict PClass),
      (∀ n c, (evs.foldl (fun d e => let c := eventClass r.known e; d.set c.name c) d).get n = some c →
        (c.name = n ∧ ∃ e ∈ evs, Answers r e c) ∨ d.get n = some c) ∧
      (∀ e ∈ evs, ((evs.foldl (fun d e => let c := eventClass r.known e; d.set c.name c) d).get (eventClass r.known e).name).isSome) ∧
      (∀ n, (d.get n).isSome → ((evs.foldl (fun d e => let c := eventClass r.known e; d.set c.name c) d).get n).isSome) := by
    intro evs
    induction evs with
    | nil => intro d; exact ⟨fun n c h => Or.inr h, by simp, fun n h => h⟩
    | cons e evs ih =>
      intro d
      simp only [List.foldl_cons]
      obtain ⟨i1, i2, i3⟩ := ih (d.set (eventClass r.known e).name (eventClass r.known e))
      refine ⟨?_, ?_, ?_⟩
      · intro n c h
        rcases i1 n c h with ⟨h1, e', he', h2⟩ | h'
        · exact Or.inl ⟨h1, e', by simp [he'], h2⟩
        · rw [Dict.get_set] at h'
          split at h'
          · rename_i heq; cases h'
            exact Or.inl ⟨heq, e, by simp, eventClass_answers hn e⟩
          · exact Or.inr h'
      · intro e' he'
        rcases List.mem_cons.mp he' with rfl | he'
        · apply i3; rw [Dict.get_set]; simp
        · exact i2 e' he'
      · intro n h
        apply i3; rw [Dict.get_set]; split
        · rfl
        · exact h
  obtain ⟨g1, g2, _⟩ := gen events []
  constructor
  · intro n c h
    rcases g1 n c h with h | h
    · exact h
    · cases h
  · intro e he
    exact ⟨_, eventClass_answers hn e, Option.isSome_iff_exists.mp (g2 e he)⟩

/-- a request by unique word, one by name, and one for an event nobody registered -/
example : let r := runOps [.reg exThermal cs!"thermal", .reg exSwitch cs!"sched"] Registry.empty
    addEvents r [cs!"thermal_temperature", cs!"sched_switch", cs!"foo"] =
      [(cs!"thermal", exThermal), (cs!"sched_switch", exSwitch), (cs!"foo", ⟨none, cs!"foo", cs!"foo:"⟩)] ∧
    (classDefinitions r cs!"sched" [cs!"foo"]).map Prod.fst = [cs!"foo", cs!"sched_switch"] ∧
    (classDefinitions r cs!"custom" []).map Prod.fst = [] ∧
    (classDefinitions r cs!"all" []).map Prod.fst = [cs!"thermal", cs!"sched_switch"] := by decide +kernel

/-! ## C87 -/

/-- **C87 refuted**: an event nobody registered, requested with its colon, gets the unique word `foo::`. -/
theorem C87_trailing_colon_refuted :
    ¬ ∀ (ops : List RegOp) (e : Str),
      (eventClass (runOps ops Registry.empty).known (e ++ [':'])).word =
        (eventClass (runOps ops Registry.empty).known e).word := by
  intro h
  have := h [] cs!"foo"
  revert this
  decide +kernel

/-- **C87, part proved**: for a registered event with unique word `e:` the two requests give the same class, as long
as no other class answers to one of them. -/
theorem C87_trailing_colon_partial (r : Registry) (e n : Str) (c : PClass) (hc : (n, c) ∈ r.known)
    (hw : c.word = e ++ [':'])
    (huniq : ∀ m d, (m, d) ∈ r.known → d.word ∈ [e, e ++ [':'], e ++ [':', ':']] ∨ d.name ∈ [e, e ++ [':']] → d = c) :
    eventClass r.known e = c ∧ eventClass r.known (e ++ [':']) = c := by
  have key : ∀ q : Str, matchesEvent q c = true → (∀ m d, (m, d) ∈ r.known → matchesEvent q d = true → d = c) →
      eventClass r.known q = c := by
    intro q h1 h2
    unfold eventClass
    cases hf : r.known.find? (fun kc => matchesEvent q kc.2) with
    | none =>
      rw [List.find?_eq_none] at hf
      exact absurd h1 (hf (n, c) hc)
    | some kc =>
      have h3 := List.find?_some hf
      exact h2 kc.1 kc.2 (List.mem_of_find?_eq_some hf) h3
  constructor
  · apply key
    · simp [matchesEvent, hw]
    · intro m d hd hm
      apply huniq m d hd
      simp [matchesEvent] at hm
      simp
      rcases hm with (h | h) | h
      · exact Or.inl (Or.inl h.symm)
      · exact Or.inl (Or.inr (Or.inl h.symm))
      · exact Or.inr (Or.inl h.symm)
  · apply key
    · simp [matchesEvent, hw]
    · intro m d hd hm
      apply huniq m d hd
      simp [matchesEvent] at hm
      simp
      rcases hm with (h | h) | h
      · exact Or.inl (Or.inr (Or.inl h.symm))
      · exact Or.inl (Or.inr (Or.inr h.symm))
      · exact Or.inr (Or.inr h.symm)

example : let r := runOps [.reg exThermal cs!"thermal", .reg exSwitch cs!"sched"] Registry.empty
    (cs!"sched_switch", exSwitch) ∈ r.known ∧
    (∀ kc ∈ r.known, kc.2.word ∈ [cs!"sched_switch", cs!"sched_switch:", cs!"sched_switch::"] ∨
      kc.2.name ∈ [cs!"sched_switch", cs!"sched_switch:"] → kc.2 = exSwitch) := by decide +kernel

/-! ## C28 -/

theorem combinations2_all {α : Type} (xs : List α) (p : α → α → Bool) :
    ((combinations2 xs).all fun q => p q.1 q.2) = true ↔ xs.Pairwise fun a b => p a b = true := by
  induction xs with
  | nil => simp [combinations2]
  | cons x xs ih =>
    simp only [combinations2, List.all_append, Bool.and_eq_true, ih, List.pairwise_cons]
    simp

/-- **C28**: construction goes on iff of any two classes neither unique word is contained in the other. -/
theorem C28_accepted_iff (defs : Dict PClass) :
    wordsAccepted defs = true ↔
      (defs.map Prod.snd).Pairwise fun c d => ¬ c.word <:+: d.word ∧ ¬ d.word <:+: c.word := by
  unfold wordsAccepted
  have := combinations2_all (defs.map Prod.snd) fun c d => !(Py.contains c.word d.word || Py.contains d.word c.word)
  rw [this]
  simp [← contains_iff]

/-- **C28**: in an accepted trace the check for two parsers with the same unique word never fails, whichever classes
are left out because they are cached, and there is one entry for each class. -/
theorem C28_word_table (defs : Dict PClass) (h : wordsAccepted defs = true) (cs : List PClass)
    (hcs : cs.Sublist (defs.map Prod.snd)) :
    wordTable cs [] = some (cs.map fun c => (c.word, c)) := by
  have hp := ((C28_accepted_iff defs).mp h).sublist hcs
  have gen : ∀ (cs : List PClass) (d : Dict PClass),
      (cs.Pairwise fun c d => ¬ c.word <:+: d.word ∧ ¬ d.word <:+: c.word) →
      (∀ c ∈ cs, c.word ∉ d.map Prod.fst) → wordTable cs d = some (d ++ cs.map fun c => (c.word, c)) := by
    intro cs
    induction cs with
    | nil => intro d _ _; simp [wordTable]
    | cons c cs ih =>
      intro d hp hd
      have hc := hd c (by simp)
      have hnone : d.get c.word = none := by
        cases hg : d.get c.word with
        | none => rfl
        | some v => exact absurd ((Dict.get_isSome d c.word).mp (by rw [hg]; rfl)) hc
      rw [List.pairwise_cons] at hp
      have hset : d.set c.word c = d ++ [(c.word, c)] := by
        have := Dict.set_append_new (d := d) (e := []) (k := c.word) (v := c) hc
        simpa [Dict.set] using this
      unfold wordTable
      rw [hnone, hset]
      simp only [Option.isSome_none, Bool.false_eq_true, if_false]
      rw [ih _ hp.2]
      · simp
      · intro x hx hm
        simp only [List.map_append, List.map_cons, List.map_nil, List.mem_append, List.mem_singleton] at hm
        rcases hm with hm | hm
        · exact hd x (by simp [hx]) hm
        · exact (hp.1 x hx).1 (by rw [hm])
  simpa using gen cs [] hp (by simp)

example : wordsAccepted [(cs!"a", ⟨none, cs!"a", cs!"sched_switch:"⟩), (cs!"b", ⟨none, cs!"b", cs!"switch:"⟩)] = false ∧
    wordsAccepted [(cs!"a", ⟨none, cs!"a", cs!"sched_switch:"⟩), (cs!"b", ⟨none, cs!"b", cs!"sched:"⟩)] = true := by
  decide +kernel

/-! ## C29 -/

/-- `rs` are the maximal runs of capitals and of other characters of a text. -/
def Runs : List Str → Prop
  | [] => True
  | [r] => r ≠ [] ∧ ((∀ c ∈ r, isUpper c = true) ∨ ∀ c ∈ r, isUpper c = false)
  | r :: r' :: rs => r ≠ [] ∧ (((∀ c ∈ r, isUpper c = true) ∧ ∀ c ∈ r', isUpper c = false) ∨
      ((∀ c ∈ r, isUpper c = false) ∧ ∀ c ∈ r', isUpper c = true)) ∧ Runs (r' :: rs)

theorem Runs.tail {r : Str} {rs : List Str} (h : Runs (r :: rs)) : Runs rs := by
  cases rs with
  | nil => trivial
  | cons r' rs => exact h.2.2

/-- every text has such runs -/
theorem runs_exist (s : Str) : ∃ rs, Runs rs ∧ rs.flatten = s := by
  induction s with
  | nil => exact ⟨[], trivial, rfl⟩
  | cons c s ih =>
    obtain ⟨rs, h1, h2⟩ := ih
    cases rs with
    | nil =>
      refine ⟨[[c]], ⟨by simp, ?_⟩, by simpa using h2⟩
      cases h : isUpper c <;> simp [h]
    | cons r rs =>
      have hr : r ≠ [] ∧ ((∀ c ∈ r, isUpper c = true) ∨ ∀ c ∈ r, isUpper c = false) := by
        cases rs with
        | nil => exact h1
        | cons r' rs => exact ⟨h1.1, h1.2.1.elim (fun h => Or.inl h.1) (fun h => Or.inr h.1)⟩
      have merge : ∀ b, isUpper c = b → (∀ x ∈ r, isUpper x = b) → Runs ((c :: r) :: rs) := by
        intro b hb hall
        have hall' : ∀ x ∈ c :: r, isUpper x = b := by
          intro x hx
          rcases List.mem_cons.mp hx with rfl | hx
          · exact hb
          · exact hall x hx
        cases rs with
        | nil =>
          refine ⟨by simp, ?_⟩
          cases b
          · exact Or.inr hall'
          · exact Or.inl hall'
        | cons r' rs =>
          refine ⟨by simp, ?_, h1.2.2⟩
          obtain ⟨x, hx⟩ := List.exists_mem_of_ne_nil r hr.1
          rcases h1.2.1 with h | h
          · have : b = true := by rw [← hall x hx, h.1 x hx]
            subst this; exact Or.inl ⟨hall', h.2⟩
          · have : b = false := by rw [← hall x hx, h.1 x hx]
            subst this; exact Or.inr ⟨hall', h.2⟩
      cases hc : isUpper c with
      | true =>
        rcases hr.2 with h | h
        · exact ⟨(c :: r) :: rs, merge true hc h, by simpa using h2⟩
        · exact ⟨[c] :: r :: rs, ⟨by simp, Or.inl ⟨by simpa using hc, h⟩, h1⟩, by simpa using h2⟩
      | false =>
        rcases hr.2 with h | h
        · exact ⟨[c] :: r :: rs, ⟨by simp, Or.inr ⟨by simpa using hc, h⟩, h1⟩, by simpa using h2⟩
        · exact ⟨(c :: r) :: rs, merge false hc h, by simpa using h2⟩

theorem subCapitals_runs (rs : List Str) (h : Runs rs) : ∀ n, rs.flatten.length < n →
    subCapitals n rs.flatten = rs.flatMap fun r => if r.all isUpper then '_' :: r else r := by
  induction rs with
  | nil => intro n _; cases n <;> rfl
  | cons r rs ih =>
    intro n hn
    have hr : r ≠ [] ∧ ((∀ c ∈ r, isUpper c = true) ∨ ∀ c ∈ r, isUpper c = false) := by
      cases rs with
      | nil => exact h
      | cons r' rs => exact ⟨h.1, h.2.1.elim (fun h => Or.inl h.1) (fun h => Or.inr h.1)⟩
    rw [List.flatten_cons, List.flatMap_cons]
    rw [List.flatten_cons, List.length_append] at hn
    rcases hr.2 with hup | hlow
    · have hall : r.all isUpper = true := by simpa using hup
      cases n with
      | zero => omega
      | succ n =>
        rw [if_pos hall, subCapitals_upper hr.1 hup, ih h.tail n]
        · rfl
        · have : 0 < r.length := List.length_pos_iff.mpr hr.1
          omega
        · cases rs with
          | nil => simp
          | cons r' rs =>
            intro c hc
            obtain ⟨x, hx⟩ := List.exists_mem_of_ne_nil r hr.1
            have hne' : r' ≠ [] := by
              cases rs with
              | nil => exact h.2.2.1
              | cons _ _ => exact h.2.2.1
            obtain ⟨y, r'', rfl⟩ := List.exists_cons_of_ne_nil hne'
            simp at hc; subst hc
            rcases h.2.1 with h' | h'
            · exact h'.2 _ (by simp)
            · have := h'.1 x hx; rw [hup x hx] at this; cases this
    · have hall : r.all isUpper = false := by
        obtain ⟨x, hx⟩ := List.exists_mem_of_ne_nil r hr.1
        rw [List.all_eq_false]
        exact ⟨x, hx, by rw [hlow x hx]; simp⟩
      obtain ⟨n', h1, h2⟩ := subCapitals_lower hlow hn
      rw [h2, ih h.tail n' h1, hall]
      rfl

/-- **C29**: the attribute name of a class whose name is `c` followed by the runs `rs`: lower case, with an underscore
before each run of capitals after the first character.  (A leading run of several capitals is split after its first
letter: `CPUIdle` becomes `c_puidle`.) -/
theorem C29_name_of_runs (c : Char) (rs : List Str) (h : Runs rs) :
    getName (c :: rs.flatten) = Py.lower (c :: rs.flatMap fun r => if r.all isUpper then '_' :: r else r) := by
  simp only [getName]
  rw [subCapitals_runs rs h _ (by omega)]

theorem lower_filter (r : Str) (hr : '_' ∉ r) : (Py.lower r).filter (· != '_') = Py.lower r := by
  rw [List.filter_eq_self]
  intro x hx
  unfold Py.lower at hx
  obtain ⟨y, hy, rfl⟩ := List.mem_map.mp hx
  simp only [bne_iff_ne]
  cases hu : isUpper y with
  | true => exact upper_ne_us hu
  | false =>
    unfold lowerChar; rw [hu]
    simp only [Bool.false_eq_true, if_false]
    rintro rfl; exact hr hy

/-- **C29**: a name without underscores can be recovered from the attribute name up to case, so classes whose names
differ in more than case get different attribute names. -/
theorem C29_distinct (a b : Str) (ha : '_' ∉ a) (hb : '_' ∉ b) (h : getName a = getName b) :
    Py.lower a = Py.lower b := by
  have key : ∀ a : Str, '_' ∉ a → (getName a).filter (· != '_') = Py.lower a := by
    intro a ha
    cases a with
    | nil => rfl
    | cons c s =>
      obtain ⟨rs, hr, rfl⟩ := runs_exist s
      rw [C29_name_of_runs c rs hr]
      have e : ∀ rs : List Str, '_' ∉ rs.flatten →
          (Py.lower (rs.flatMap fun r => if r.all isUpper then '_' :: r else r)).filter (· != '_') = Py.lower rs.flatten := by
        intro rs
        induction rs with
        | nil => intro _; rfl
        | cons r rs ih =>
          intro hus
          rw [List.flatten_cons, List.mem_append, not_or] at hus
          have hl : ∀ x y : Str, Py.lower (x ++ y) = Py.lower x ++ Py.lower y := fun x y => List.map_append
          rw [List.flatMap_cons, List.flatten_cons, hl, hl, List.filter_append, ih hus.2]
          congr 1
          split
          · have : Py.lower ('_' :: r) = '_' :: Py.lower r := rfl
            rw [this]
            simp [lower_filter r hus.1]
          · exact lower_filter r hus.1
      rw [List.mem_cons, not_or] at ha
      have hc : '_' ∉ [c] := by simpa using ha.1
      have : ∀ t : Str, Py.lower (c :: t) = Py.lower [c] ++ Py.lower t := fun t => rfl
      rw [this (rs.flatMap _), this rs.flatten, List.filter_append, lower_filter [c] hc, e rs ha.2]
  rw [← key a ha, ← key b hb, h]

/-- the case of letters is lost: two class names can share one attribute -/
theorem C29_case_collision : getName cs!"CpuID" = getName cs!"CpuId" := by decide +kernel

example : getName cs!"SchedLoadAvgCpu" = cs!"sched_load_avg_cpu" ∧ getName cs!"CPUIdle" = cs!"c_puidle" ∧
    Runs [cs!"ched", cs!"L", cs!"oad"] ∧ getName cs!"SchedLoad" = cs!"sched_load" ∧ getName [] = [] := by
  refine ⟨by decide +kernel, by decide +kernel, ?_, by decide +kernel, rfl⟩
  simp only [Runs]
  decide +kernel

/-! ## C30 -/

/-- An addition of a parsed event; one that raises changes nothing. -/
def addAll {α : Type} : List (Str × α) → TraceState α → TraceState α
  | [], s => s
  | (n, f) :: xs, s => addAll xs (match addParsedEvent s n f with | some s' => s' | none => s)

/-- **C30**: an addition raises iff the name can already be found as an attribute; else exactly that name now gives
the new frame, every other name gives what it gave before, and the event is appended to the trace's events. -/
theorem C30_add_event {α : Type} (s : TraceState α) (n : Str) (f : α) :
    (addParsedEvent s n f = none ↔ ∃ v, getAttr s.attrs s.defs n = .found v) ∧
    ∀ s', addParsedEvent s n f = some s' →
      getAttr s'.attrs s'.defs n = .found f ∧ s'.events = s.events ++ [(n, f)] ∧
      (∀ m v, m ≠ n → (getAttr s'.attrs s'.defs m = .found v ↔ getAttr s.attrs s.defs m = .found v)) ∧
      s'.defs.get n = some ⟨none, n, n ++ [':']⟩ ∧ ∀ m, m ≠ n → s'.defs.get m = s.defs.get m := by
  have hfound : ∀ (a : Dict α) (d : Dict PClass) (m : Str) (v : α), getAttr a d m = .found v ↔ a.get m = some v := by
    intro a d m v
    unfold getAttr
    cases a.get m with
    | some w => simp
    | none =>
      simp only [reduceCtorEq, iff_false]
      split
      · simp
      · split <;> simp
  unfold addParsedEvent
  constructor
  · cases h : getAttr s.attrs s.defs n with
    | found v => simp
    | redirect m => simp
    | missing => simp
  · intro s' hs
    have e : s' = { attrs := s.attrs.set n f, defs := s.defs.set n ⟨none, n, n ++ [':']⟩, events := s.events ++ [(n, f)] } := by
      cases h : getAttr s.attrs s.defs n <;> rw [h] at hs <;> simp at hs <;> exact hs.symm
    subst e
    simp only [hfound, Dict.get_set]
    refine ⟨by simp, trivial, ?_, by simp, ?_⟩
    · intro m v hm; rw [if_neg (fun h => hm h.symm)]
    · intro m hm; rw [if_neg (fun h => hm h.symm)]

/-- **C30**, histories: whatever is added later, what was available stays available unchanged. -/
theorem C30_never_overwritten {α : Type} (xs : List (Str × α)) (s : TraceState α) (m : Str) (v : α)
    (h : getAttr s.attrs s.defs m = .found v) :
    getAttr (addAll xs s).attrs (addAll xs s).defs m = .found v := by
  induction xs generalizing s with
  | nil => exact h
  | cons x xs ih =>
    obtain ⟨n, f⟩ := x
    unfold addAll
    apply ih
    cases hs : addParsedEvent s n f with
    | none => exact h
    | some s' =>
      have := (C30_add_event s n f).2 s' hs
      by_cases hm : m = n
      · subst hm
        have := (C30_add_event s m f).1.mpr ⟨v, h⟩
        rw [hs] at this; cases this
      · exact (this.2.2.1 m v hm).mpr h

example : (addParsedEvent (⟨[(cs!"name", 0)], [], []⟩ : TraceState Nat) cs!"name" 7).isNone ∧
    (addAll [(cs!"pmu", 1), (cs!"pmu", 2)] (⟨[(cs!"name", 0)], [], []⟩ : TraceState Nat)).events = [(cs!"pmu", 1)] := by
  decide +kernel

/-! ## C31 -/

theorem rstripColon_eq (s : Str) : ∃ k, s = rstripColon s ++ List.replicate k ':' := by
  refine ⟨(s.reverse.takeWhile (· == ':')).length, ?_⟩
  have h1 : s.reverse = s.reverse.takeWhile (· == ':') ++ s.reverse.dropWhile (· == ':') :=
    (List.takeWhile_append_dropWhile ..).symm
  have h2 : s.reverse.takeWhile (· == ':') = List.replicate (s.reverse.takeWhile (· == ':')).length ':' := by
    rw [List.eq_replicate_iff]
    exact ⟨rfl, fun b hb => by simpa using List.mem_takeWhile_imp hb⟩
  have := congrArg List.reverse h1
  rw [List.reverse_reverse, List.reverse_append] at this
  unfold rstripColon
  rw [← List.reverse_replicate, ← h2]
  exact this

theorem rstripColon_last (s : Str) : (rstripColon s).getLast? ≠ some ':' := by
  unfold rstripColon
  rw [List.getLast?_reverse]
  intro h
  have := List.head?_dropWhile_not (fun x : Char => x == ':') s.reverse
  rw [h] at this
  simp at this

theorem rstripColon_append {a : Str} (h : a.getLast? ≠ some ':') (k : Nat) :
    rstripColon (a ++ List.replicate k ':') = a := by
  unfold rstripColon
  rw [List.reverse_append, List.reverse_replicate]
  have h1 : (List.replicate k ':' ++ a.reverse).dropWhile (· == ':') = a.reverse.dropWhile (· == ':') := by
    induction k with
    | zero => rfl
    | succ k ih => simpa [List.replicate_succ] using ih
  rw [h1]
  rw [← List.head?_reverse] at h
  cases hr : a.reverse with
  | nil => simp at hr; simp [hr]
  | cons x t =>
    rw [hr] at h
    have hx : (x == ':') = false := by
      simp at h; simpa using h
    rw [List.dropWhile_cons, hx]
    simp only [Bool.false_eq_true, if_false]
    rw [← hr, List.reverse_reverse]

/-- **C31**: attributes that exist are found.  Otherwise, for an accepted set of classes, the error names the attribute
`n` exactly if `n` is the table name of the class that has the attribute (up to colons) as its unique word and `n` is
not the attribute itself. -/
theorem C31_redirect {α : Type} (attrs : Dict α) (defs : Dict PClass) (hacc : wordsAccepted defs = true) (attr : Str) :
    (∀ v, getAttr attrs defs attr = .found v ↔ attrs.get attr = some v) ∧
    (∀ n, getAttr attrs defs attr = .redirect n ↔
      attrs.get attr = none ∧ ¬ (cs!"__" <+: attr ∧ cs!"__" <:+ attr) ∧
      n ≠ attr ∧ ∃ c k, (n, c) ∈ defs ∧ c.word = attr ++ List.replicate k ':' ∧ attr.getLast? ≠ some ':') := by
  have hfound : ∀ v, getAttr attrs defs attr = .found v ↔ attrs.get attr = some v := by
    intro v
    unfold getAttr
    cases attrs.get attr with
    | some w => simp
    | none =>
      simp only [reduceCtorEq, iff_false]
      split
      · simp
      · split <;> simp
  refine ⟨hfound, ?_⟩
  intro n
  have hred : redirectOf attr defs = some n ↔ n ≠ attr ∧ ∃ c, (n, c) ∈ defs ∧ rstripColon c.word = attr := by
    have hp := (C28_accepted_iff defs).mp hacc
    clear hacc hfound
    induction defs with
    | nil => simp [redirectOf]
    | cons x defs ih =>
      obtain ⟨n', c'⟩ := x
      rw [List.map_cons, List.pairwise_cons] at hp
      have ih := ih hp.2
      unfold redirectOf
      by_cases hm : attr = rstripColon c'.word
      · rw [if_pos hm]
        have huniq : ∀ m d, (m, d) ∈ defs → rstripColon d.word ≠ attr := by
          intro m d hd he
          obtain ⟨k1, e1⟩ := rstripColon_eq c'.word
          obtain ⟨k2, e2⟩ := rstripColon_eq d.word
          rw [← hm] at e1
          rw [he] at e2
          have hc := hp.1 d (List.mem_map_of_mem (f := Prod.snd) hd)
          rcases Nat.le_total k1 k2 with hk | hk
          · apply hc.1
            rw [e1, e2]
            refine List.IsPrefix.isInfix ⟨List.replicate (k2 - k1) ':', ?_⟩
            rw [List.append_assoc, List.replicate_append_replicate]; congr 2; omega
          · apply hc.2
            rw [e1, e2]
            refine List.IsPrefix.isInfix ⟨List.replicate (k1 - k2) ':', ?_⟩
            rw [List.append_assoc, List.replicate_append_replicate]; congr 2; omega
        rw [← hm]
        constructor
        · intro h
          split at h
          · cases h
          · rename_i hne
            cases h
            exact ⟨hne, c', by simp, hm.symm⟩
        · rintro ⟨hne, d, hd, he⟩
          rcases List.mem_cons.mp hd with hd | hd
          · cases hd; rw [if_neg hne]
          · exact absurd he (huniq _ _ hd)
      · rw [if_neg hm]
        refine ih.trans ?_
        constructor
        · rintro ⟨h1, c, h2, h3⟩; exact ⟨h1, c, by simp [h2], h3⟩
        · rintro ⟨h1, c, h2, h3⟩
          refine ⟨h1, c, ?_, h3⟩
          rcases List.mem_cons.mp h2 with h2 | h2
          · cases h2; exact absurd h3.symm hm
          · exact h2
  have hw : ∀ c : PClass, rstripColon c.word = attr ↔
      ∃ k, c.word = attr ++ List.replicate k ':' ∧ attr.getLast? ≠ some ':' := by
    intro c
    constructor
    · rintro rfl
      obtain ⟨k, e⟩ := rstripColon_eq c.word
      exact ⟨k, e, rstripColon_last c.word⟩
    · rintro ⟨k, e, h⟩; rw [e, rstripColon_append h]
  have hdun : (Py.startsWith attr cs!"__" && Py.endsWith attr cs!"__") = true ↔ (cs!"__" <+: attr ∧ cs!"__" <:+ attr) := by
    simp [Py.startsWith, Py.endsWith]
  unfold getAttr
  cases hg : attrs.get attr with
  | some w => simp
  | none =>
    by_cases hd : (Py.startsWith attr cs!"__" && Py.endsWith attr cs!"__") = true
    · simp only [hd, if_true, reduceCtorEq, false_iff]
      rintro ⟨_, h, _⟩; exact h (hdun.mp hd)
    · simp only [hd, Bool.false_eq_true, if_false, true_and]
      rw [hdun] at hd
      have e : ∀ o : Option Str, (match o with | some n => Lookup.redirect (α := α) n | none => .missing) = .redirect n ↔
          o = some n := by
        intro o; cases o <;> simp
      refine (e _).trans ?_
      rw [hred]
      simp only [hw]
      constructor
      · rintro ⟨h1, c, h2, k, h3, h4⟩; exact ⟨hd, h1, c, k, h2, h3, h4⟩
      · rintro ⟨_, h1, c, k, h2, h3, h4⟩; exact ⟨h1, c, h2, k, h3, h4⟩

example : getAttr [(cs!"thermal", 1)] [(cs!"thermal", exThermal)] cs!"thermal_temperature" = .redirect cs!"thermal" ∧
    getAttr [(cs!"thermal", 1)] [(cs!"thermal", exThermal)] cs!"thermal" = .found 1 ∧
    getAttr [(cs!"thermal", 1)] [(cs!"thermal", exThermal)] cs!"thermal_" = .missing ∧
    wordsAccepted [(cs!"thermal", exThermal)] = true := by decide +kernel

end Trappy
