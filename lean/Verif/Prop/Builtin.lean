import Verif.Model.Builtin
import Verif.Lemma.Array2
import Verif.Prop.Registry
import Verif.Prop.Dispatch
import Verif.Prop.Line
import Verif.Lemma.Header
/-!
# C116-C120: the parsers that come with TRAPpy, raw events, the temporary file and filters
-/

namespace Trappy
open Py

/-! ## C116: the built-in parsers can be used together -/

/-- neither unique word contains the other -/
def Apart (v w : Str) : Prop := ¬ v <:+: w ∧ ¬ w <:+: v

instance (v w : Str) : Decidable (Apart v w) :=
  decidable_of_iff (Py.contains v w = false ∧ Py.contains w v = false) (by
    unfold Apart
    rw [← contains_iff, ← contains_iff]
    simp)

theorem builtins_apart : ∀ c ∈ builtins, ∀ d ∈ builtins, c.name ≠ d.name → Apart c.word d.word := by
  decide +kernel

theorem builtins_names : ∀ c ∈ builtins, ∀ d ∈ builtins, c.name = d.name → c = d := by decide +kernel

/-- The registry holds parsers that come with TRAPpy only, under their names and in their scopes, in any order; some may
have been taken out. -/
structure HoldsBuiltins (r : Registry) : Prop where
  thermal : ∀ e ∈ r.thermal, ∃ c ∈ builtinThermal, e = (c.name, c.toP)
  sched : ∀ e ∈ r.sched, ∃ c ∈ builtinSched, e = (c.name, c.toP)
  dynamic : ∀ e ∈ r.dynamic, ∃ c ∈ builtinDynamic, e = (c.name, c.toP)

/-- The registry after import if the modules are loaded in the order of the lists. -/
def builtinRegistry : Registry :=
  { thermal := builtinThermal.map fun c => (c.name, c.toP), sched := builtinSched.map fun c => (c.name, c.toP),
    dynamic := builtinDynamic.map fun c => (c.name, c.toP) }

theorem builtinRegistry_holds : HoldsBuiltins builtinRegistry := by
  constructor
  all_goals
    intro e he
    obtain ⟨c, hc, rfl⟩ := List.mem_map.mp he
    exact ⟨c, hc, rfl⟩

theorem set_keys_nodup {α : Type} {d : Dict α} (h : (d.map Prod.fst).Nodup) (k : Str) (v : α) :
    ((d.set k v).map Prod.fst).Nodup := by
  induction d with
  | nil => simp [Dict.set]
  | cons x d ih =>
    obtain ⟨k1, v1⟩ := x
    simp only [List.map_cons, List.nodup_cons] at h
    simp only [Dict.set]
    split
    · rename_i hk
      simp only [List.map_cons, List.nodup_cons]
      have : k1 = k := by simpa using hk
      rw [← this]; exact h
    · rename_i hk
      simp only [List.map_cons, List.nodup_cons]
      refine ⟨?_, ih h.2⟩
      intro hm
      rcases (Dict.keys_set d k k1 v).mp hm with h' | h'
      · exact h.1 h'
      · exact hk (by simpa using h')

theorem update_keys_nodup {α : Type} {d : Dict α} (h : (d.map Prod.fst).Nodup) (e : Dict α) :
    ((d.update e).map Prod.fst).Nodup := by
  unfold Dict.update
  induction e generalizing d with
  | nil => exact h
  | cons y e ih => exact ih (set_keys_nodup h _ _)

/-- the entries of `class_definitions`: registered classes and classes of requested events -/
theorem classDefinitions_mem (r : Registry) (scope : Str) (events : List Str) :
    ((classDefinitions r scope events).map Prod.fst).Nodup ∧
    ∀ x ∈ classDefinitions r scope events,
      x ∈ r.thermal ∨ x ∈ r.sched ∨ x ∈ r.dynamic ∨ ∃ e ∈ events, x = ((eventClass r.known e).name, eventClass r.known e) := by
  have gen : ∀ (evs : List Str) (d : Dict PClass), (d.map Prod.fst).Nodup →
      ((evs.foldl (fun d e => d.set (eventClass r.known e).name (eventClass r.known e)) d).map Prod.fst).Nodup ∧
      ∀ x ∈ evs.foldl (fun d e => d.set (eventClass r.known e).name (eventClass r.known e)) d,
        x ∈ d ∨ ∃ e ∈ evs, x = ((eventClass r.known e).name, eventClass r.known e) := by
    intro evs
    induction evs with
    | nil => intro d hd; exact ⟨hd, fun x hx => Or.inl hx⟩
    | cons e evs ih =>
      intro d hd
      obtain ⟨h1, h2⟩ := ih _ (set_keys_nodup hd (eventClass r.known e).name (eventClass r.known e))
      refine ⟨h1, fun x hx => ?_⟩
      rcases h2 x hx with h | ⟨e', he', h⟩
      · rcases mem_set h with h | h
        · exact Or.inr ⟨e, by simp, h⟩
        · exact Or.inl h
      · exact Or.inr ⟨e', by simp [he'], h⟩
  obtain ⟨hn, hm⟩ := gen events [] (by simp)
  have hm' : ∀ x ∈ addEvents r events, ∃ e ∈ events, x = ((eventClass r.known e).name, eventClass r.known e) := by
    intro x hx
    rcases hm x hx with h | h
    · cases h
    · exact h
  have hn' : ((addEvents r events).map Prod.fst).Nodup := hn
  unfold classDefinitions
  simp only
  split
  · refine ⟨update_keys_nodup (update_keys_nodup hn' _) _, fun x hx => ?_⟩
    rcases mem_update hx with h | h
    · exact Or.inr (Or.inr (Or.inl h))
    · rcases mem_update h with h | h
      · exact Or.inl h
      · exact Or.inr (Or.inr (Or.inr (hm' x h)))
  · split
    · refine ⟨update_keys_nodup (update_keys_nodup hn' _) _, fun x hx => ?_⟩
      rcases mem_update hx with h | h
      · exact Or.inr (Or.inr (Or.inl h))
      · rcases mem_update h with h | h
        · exact Or.inr (Or.inl h)
        · exact Or.inr (Or.inr (Or.inr (hm' x h)))
    · split
      · refine ⟨update_keys_nodup (update_keys_nodup (update_keys_nodup hn' _) _) _, fun x hx => ?_⟩
        rcases mem_update hx with h | h
        · exact Or.inr (Or.inr (Or.inl h))
        · rcases mem_update h with h | h
          · exact Or.inr (Or.inl h)
          · rcases mem_update h with h | h
            · exact Or.inl h
            · exact Or.inr (Or.inr (Or.inr (hm' x h)))
      · exact ⟨hn', fun x hx => Or.inr (Or.inr (Or.inr (hm' x hx)))⟩

theorem eventClass_cases {r : Registry} (hr : HoldsBuiltins r) (e : Str) :
    (∃ c ∈ builtins, eventClass r.known e = c.toP) ∨ eventClass r.known e = { id := none, name := e, word := e ++ [':'] } := by
  unfold eventClass
  split
  · rename_i kc h
    left
    have hm := List.mem_of_find?_eq_some h
    unfold Registry.known at hm
    rcases mem_update hm with h | h
    · obtain ⟨c, hc, rfl⟩ := hr.dynamic _ h
      exact ⟨c, by simp [builtins, hc], rfl⟩
    · rcases mem_update h with h | h
      · obtain ⟨c, hc, rfl⟩ := hr.sched _ h
        exact ⟨c, by simp [builtins, hc], rfl⟩
      · rcases mem_update h with h | h
        · obtain ⟨c, hc, rfl⟩ := hr.thermal _ h
          exact ⟨c, by simp [builtins, hc], rfl⟩
        · cases h
  · right; rfl

/-- **C116**: with the parsers that come with TRAPpy the check of the unique words never fails, for every scope, every order in
which the modules were loaded, and whatever parsers have been unregistered; and further events can be requested if their words
are apart from each other and from the built-in ones. -/
theorem C116_builtins_accepted_partial (r : Registry) (hr : HoldsBuiltins r) (scope : Str) (events : List Str)
    (hnew : ∀ e ∈ events, (∃ c ∈ builtins, eventClass r.known e = c.toP) ∨ ∀ c ∈ builtins, Apart (e ++ [':']) c.word)
    (hpair : ∀ e ∈ events, ∀ f ∈ events, e ≠ f → Apart (e ++ [':']) (f ++ [':'])) :
    wordsAccepted (classDefinitions r scope events) = true := by
  rw [C28_accepted_iff]
  obtain ⟨hk, hm⟩ := classDefinitions_mem r scope events
  -- the entries
  have hent : ∀ x ∈ classDefinitions r scope events, (∃ c ∈ builtins, x = (c.name, c.toP)) ∨
      ∃ e ∈ events, x = (e, { id := none, name := e, word := e ++ [':'] }) ∧ ∀ c ∈ builtins, Apart (e ++ [':']) c.word := by
    intro x hx
    rcases hm x hx with h | h | h | ⟨e, he, rfl⟩
    · obtain ⟨c, hc, rfl⟩ := hr.thermal _ h
      exact Or.inl ⟨c, by simp [builtins, hc], rfl⟩
    · obtain ⟨c, hc, rfl⟩ := hr.sched _ h
      exact Or.inl ⟨c, by simp [builtins, hc], rfl⟩
    · obtain ⟨c, hc, rfl⟩ := hr.dynamic _ h
      exact Or.inl ⟨c, by simp [builtins, hc], rfl⟩
    · rcases eventClass_cases hr e with ⟨c, hc, h⟩ | h
      · rw [h]; exact Or.inl ⟨c, hc, rfl⟩
      · rcases hnew e he with ⟨c, hc, h'⟩ | h'
        · rw [h']; exact Or.inl ⟨c, hc, rfl⟩
        · rw [h]; exact Or.inr ⟨e, he, rfl, h'⟩
  rw [List.pairwise_map]
  rw [List.nodup_iff_pairwise_ne, List.pairwise_map] at hk
  refine List.Pairwise.imp_of_mem ?_ hk
  intro x y hx hy hne
  rcases hent x hx with ⟨c, hc, rfl⟩ | ⟨e, he, rfl, ha⟩ <;> rcases hent y hy with ⟨d, hd, rfl⟩ | ⟨f, hf, rfl, hb⟩
  · exact builtins_apart c hc d hd hne
  · exact ⟨(hb c hc).2, (hb c hc).1⟩
  · exact ha d hd
  · exact hpair e he f hf hne

example : wordsAccepted (classDefinitions builtinRegistry cs!"all" [cs!"irq_handler_entry", cs!"sched_switch"]) = true ∧
    (classDefinitions builtinRegistry cs!"all" []).length = 35 ∧
    (classDefinitions builtinRegistry cs!"sched" []).length = 28 := by
  refine ⟨?_, ?_, ?_⟩ <;> decide +kernel

example : (∀ c ∈ builtins, Apart (cs!"irq_handler_entry" ++ [':']) c.word) ∧
    ∃ c ∈ builtins, eventClass builtinRegistry.known cs!"sched_switch" = c.toP := by
  refine ⟨by decide +kernel, unnamed cs!"sched_switch:" true, by decide +kernel, by decide +kernel⟩

/-- **C116 refuted** for requested events in general: the kernel events `sys_enter_openat` and `cpu_idle_miss` cannot be requested
with the default scope, the constructor raises. -/
theorem C116_requested_refuted :
    wordsAccepted (classDefinitions builtinRegistry cs!"all" [cs!"sys_enter_openat"]) = false ∧
    wordsAccepted (classDefinitions builtinRegistry cs!"all" [cs!"cpu_idle_miss"]) = false ∧
    wordsAccepted (classDefinitions builtinRegistry cs!"custom" [cs!"sys_enter_openat"]) = true := by
  refine ⟨?_, ?_, ?_⟩ <;> decide +kernel

/-! ## C117: every table gets the lines of its event -/

theorem infix_split {P : Char → Bool} {w A B : Str} {c : Char} (hw : AllC P w) (hc : P c = false)
    (h : w <:+: A ++ c :: B) : w <:+: A ∨ w <:+: B := by
  obtain ⟨s, t, e⟩ := h
  have hcw : c ∉ w := fun hm => by rw [hw c hm] at hc; cases hc
  rw [List.append_eq_append_iff] at e
  rcases e with ⟨a, h1, _⟩ | ⟨a, h1, h2⟩
  · exact Or.inl ⟨s, a, h1.symm⟩
  · cases a with
    | nil => exact Or.inl ⟨s, [], by simpa using h1⟩
    | cons x a =>
      simp only [List.cons_append, List.cons.injEq] at h2
      obtain ⟨rfl, rfl⟩ := h2
      rw [List.append_eq_append_iff] at h1
      rcases h1 with ⟨b, _, h2⟩ | ⟨b, _, h2⟩
      · exact absurd (by rw [h2]; simp) hcw
      · cases b with
        | nil => exact absurd (by rw [← List.nil_append w, ← h2]; simp) hcw
        | cons y b =>
          simp only [List.cons_append, List.cons.injEq] at h2
          exact Or.inr ⟨b, t, by rw [h2.2]⟩

theorem infix_drop_left {P : Char → Bool} {w S X : Str} (hne : w ≠ []) (hw : AllC P w) (hS : ∀ c ∈ S, P c = false)
    (h : w <:+: S ++ X) : w <:+: X := by
  induction S with
  | nil => exact h
  | cons c S ih =>
    rcases infix_split (A := []) hw (hS c (by simp)) h with h | h
    · exact absurd (List.infix_nil.mp h) hne
    · exact ih (fun c hc => hS c (by simp [hc])) h

theorem infix_drop_right {P : Char → Bool} {w S X : Str} (hne : w ≠ []) (hw : AllC P w) (hS : ∀ c ∈ S, P c = false)
    (h : w <:+: X ++ S) : w <:+: X := by
  cases S with
  | nil => simpa using h
  | cons c S =>
    rcases infix_split hw (hS c (by simp)) h with h | h
    · exact h
    · exact absurd (List.infix_nil.mp (infix_drop_left (S := S) (X := []) hne hw (fun c hc => hS c (by simp [hc]))
        (by simpa using h))) hne

/-- a character of a unique word -/
def keyChar (c : Char) : Bool := isWord c || c == ':'

/-- A text that can only occur in the task name, the event or the payload of a line: word characters and colons, at least five, one
of them a letter or an underscore. -/
structure Keyword (w : Str) : Prop where
  chars : AllC keyChar w
  long : 5 ≤ w.length
  letter : ∃ c ∈ w, isDigit c = false ∧ c ≠ ':'

theorem keyChar_space {c : Char} (h : isSpace c = true) : keyChar c = false := by
  simp only [keyChar, isSpace_isWord h, Bool.false_or, beq_eq_false_iff_ne]
  rintro rfl
  revert h; decide

theorem infix_chars {w X : Str} (h : w <:+: X) : ∀ c ∈ w, c ∈ X := by
  obtain ⟨s, t, rfl⟩ := h
  intro c hc
  simp [hc]

/-- a key word does not occur in a text of characters that are no letters -/
theorem Keyword.not_in {w X : Str} (hw : Keyword w) (hX : ∀ c ∈ X, isDigit c = true ∨ keyChar c = false ∨ c = ':') : ¬ w <:+: X := by
  intro h
  obtain ⟨c, hc, h1, h2⟩ := hw.letter
  rcases hX c (infix_chars h c hc) with h3 | h3 | h3
  · rw [h1] at h3; cases h3
  · rw [hw.chars c hc] at h3; cases h3
  · exact h2 h3

/-- where a key word can be in a printed line with blanks behind it -/
theorem keyword_in_line {l : PrintedLine} (hl : l.WF) {w ws : Str} (hw : Keyword w) (hws : AllC isSpace ws) :
    w <:+: l.text ++ ws ↔ w <:+: l.comm ∨ w <:+: l.event ++ [':'] ∨ w <:+: l.data := by
  have hne : w ≠ [] := by rintro rfl; have := hw.long; simp at this
  have sp : ∀ {s : Str}, AllC isSpace s → ∀ c ∈ s, keyChar c = false := fun h c hc => keyChar_space (h c hc)
  constructor
  · intro h
    have e1 : l.text ++ ws = l.lead ++ (l.comm ++ '-' :: ((l.pid ++ (l.tgidText ++ l.ws1)) ++ '[' :: (l.cpu ++ ']' ::
        (l.flagsText ++ (l.ws2 ++ ((l.tsText ++ [':']) ++ ' ' :: ((l.event ++ [':']) ++ (l.ws3 ++ (l.data ++ ws))))))))) := by
      simp [PrintedLine.text, PrintedLine.tailText]
    rw [e1] at h
    have h := infix_drop_left hne hw.chars (sp hl.lead) h
    rcases infix_split hw.chars (by decide) h with h | h
    · exact Or.inl h
    right
    rcases infix_split hw.chars (by decide) h with h | h
    · exfalso
      refine hw.not_in ?_ h
      intro c hc
      rcases List.mem_append.mp hc with hc | hc
      · exact Or.inl (hl.pid c hc)
      rcases List.mem_append.mp hc with hc | hc
      · unfold PrintedLine.tgidText at hc
        split at hc
        · cases hc
        · rename_i w' t ht
          obtain ⟨_, h2, h3⟩ := hl.tgid w' t ht
          simp only [List.append_assoc, List.cons_append, List.mem_append, List.mem_cons, List.not_mem_nil, or_false] at hc
          rcases hc with hc | rfl | hc | rfl
          · exact Or.inr (Or.inl (keyChar_space (h2 c hc)))
          · exact Or.inr (Or.inl (by decide))
          · rcases h3 with h3 | h3
            · have := h3 c hc
              simp only [Bool.or_eq_true, beq_iff_eq] at this
              rcases this with rfl | h
              · exact Or.inr (Or.inl (by decide))
              · exact Or.inl h
            · have := h3 c hc
              simp only [beq_iff_eq] at this
              rw [this]
              exact Or.inr (Or.inl (by decide))
          · exact Or.inr (Or.inl (by decide))
      · exact Or.inr (Or.inl (keyChar_space (hl.ws1 c hc)))
    rcases infix_split hw.chars (by decide) h with h | h
    · exact absurd h (hw.not_in fun c hc => Or.inl (hl.cpu c hc))
    have h : w <:+: l.ws2 ++ ((l.tsText ++ [':']) ++ ' ' :: ((l.event ++ [':']) ++ (l.ws3 ++ (l.data ++ ws)))) := by
      cases hf : l.flags with
      | none => simpa [PrintedLine.flagsText, hf] using h
      | some x =>
        obtain ⟨w', f⟩ := x
        obtain ⟨_, h2, h3, _⟩ := hl.flags w' f hf
        simp only [PrintedLine.flagsText, hf, List.append_assoc] at h
        have h := infix_drop_left hne hw.chars (sp h2) h
        obtain ⟨b, bs, hb⟩ := List.exists_cons_of_ne_nil hl.ws2Ne
        rw [hb] at h ⊢
        rcases infix_split hw.chars (keyChar_space (hl.ws2 b (by simp [hb]))) h with h | h
        · have := h.length_le
          have := hw.long
          omega
        · obtain ⟨s, t, e⟩ := h
          exact ⟨b :: s, t, by simpa using e⟩
    have h := infix_drop_left hne hw.chars (sp hl.ws2) h
    rcases infix_split hw.chars (by decide) h with h | h
    · exfalso
      refine hw.not_in ?_ h
      intro c hc
      rcases List.mem_append.mp hc with hc | hc
      · unfold PrintedLine.tsText at hc
        split at hc
        · exact Or.inl (hl.secs c hc)
        · rename_i f hf
          rcases List.mem_append.mp hc with hc | hc
          · exact Or.inl (hl.secs c hc)
          · rcases List.mem_cons.mp hc with rfl | hc
            · exact Or.inr (Or.inl (by decide))
            · exact Or.inl ((hl.frac f hf).2 c hc)
      · exact Or.inr (Or.inr (by simpa using hc))
    obtain ⟨b, bs, hb⟩ := List.exists_cons_of_ne_nil hl.ws3Ne
    rw [hb] at h
    rcases infix_split hw.chars (keyChar_space (hl.ws3 b (by simp [hb]))) h with h | h
    · exact Or.inl h
    · have h := infix_drop_left hne hw.chars (S := bs) (fun c hc => keyChar_space (hl.ws3 c (by simp [hb, hc]))) h
      exact Or.inr (infix_drop_right hne hw.chars (sp hws) h)
  · rintro (h | h | h)
    · refine h.trans ⟨l.lead, ('-' :: (l.pid ++ (l.tgidText ++ (l.ws1 ++ ('[' :: (l.cpu ++ (']' ::
        (l.flagsText ++ (l.ws2 ++ l.tailText))))))))) ++ ws, ?_⟩
      simp [PrintedLine.text]
    · refine h.trans ⟨l.lead ++ (l.comm ++ ('-' :: (l.pid ++ (l.tgidText ++ (l.ws1 ++ ('[' :: (l.cpu ++ (']' ::
        (l.flagsText ++ (l.ws2 ++ (l.tsText ++ [':', ' ']))))))))))), l.ws3 ++ l.data ++ ws, ?_⟩
      simp [PrintedLine.text, PrintedLine.tailText]
    · refine h.trans ⟨l.lead ++ (l.comm ++ ('-' :: (l.pid ++ (l.tgidText ++ (l.ws1 ++ ('[' :: (l.cpu ++ (']' ::
        (l.flagsText ++ (l.ws2 ++ (l.tsText ++ ([':', ' '] ++ (l.event ++ ':' :: l.ws3))))))))))))), ws, ?_⟩
      simp [PrintedLine.text, PrintedLine.tailText]

/-- **C117**: for a parser whose unique word ends with a colon, as the words of events requested by name do, a line whose task name
and payload do not have the word in them goes to the parser iff the event name ends with the word; for a word without a
colon iff the event name has the word in it. -/
theorem C117_word_in_line (l : PrintedLine) (hl : l.WF) (e ws : Str) (hws : AllC isSpace ws) (he : AllC isWord e)
    (hlong : 5 ≤ e.length) (hletter : ∃ c ∈ e, isDigit c = false) :
    ((¬ (e ++ [':']) <:+: l.comm) → (¬ (e ++ [':']) <:+: l.data) → ((e ++ [':']) <:+: l.text ++ ws ↔ e <:+ l.event)) ∧
    ((¬ e <:+: l.comm) → (¬ e <:+: l.data) → (e <:+: l.text ++ ws ↔ e <:+: l.event)) := by
  have hcolon : isWord ':' = false := by decide
  have hmem : ∀ {s : Str}, AllC isWord s → ':' ∉ s := fun h hm => by have := h _ hm; rw [hcolon] at this; cases this
  obtain ⟨x, hx, hxd⟩ := hletter
  have k1 : Keyword e :=
    ⟨fun c hc => by simp [keyChar, he c hc], hlong, x, hx, hxd, fun h => hmem he (h ▸ hx)⟩
  have k2 : Keyword (e ++ [':']) :=
    ⟨fun c hc => by
        rcases List.mem_append.mp hc with hc | hc
        · simp [keyChar, he c hc]
        · simp [keyChar, List.mem_singleton.mp hc],
      by simp; omega, x, by simp [hx], hxd, fun h => hmem he (h ▸ hx)⟩
  refine ⟨fun h1 h2 => ?_, fun h1 h2 => ?_⟩
  · rw [keyword_in_line hl k2 hws]
    constructor
    · rintro (h | h | h)
      · exact absurd h h1
      · obtain ⟨s, t, e'⟩ := h
        cases t using List.reverseRecOn with
        | nil =>
          refine ⟨s, ?_⟩
          have : (s ++ e) ++ [':'] = l.event ++ [':'] := by simpa using e'
          exact List.append_cancel_right this
        | append_singleton t y _ =>
          exfalso
          have : (s ++ (e ++ [':']) ++ t) ++ [y] = l.event ++ [':'] := by simpa using e'
          have := (List.append_inj_left' this rfl)
          exact hmem hl.event (by rw [← this]; simp)
      · exact absurd h h2
    · rintro ⟨s, hs⟩
      exact Or.inr (Or.inl ⟨s, [], by simp [← hs]⟩)
  · rw [keyword_in_line hl k1 hws]
    constructor
    · rintro (h | h | h)
      · exact absurd h h1
      · rcases infix_split he hcolon h with h | h
        · exact h
        · exact absurd (List.infix_nil.mp h) (by rintro rfl; simp at hlong)
      · exact absurd h h2
    · intro h
      exact Or.inr (Or.inl (h.trans ⟨[], [':'], by simp⟩))

/-- the event of a built-in parser -/
def ParserClass.event (c : ParserClass) : Str := c.word.takeWhile (· ≠ ':')

theorem builtins_keywords : ∀ c ∈ builtins, c.word.all keyChar = true ∧ 5 ≤ c.word.length ∧
    ∃ x ∈ c.word, isDigit x = false ∧ x ≠ ':' := by decide +kernel

theorem builtins_events : ∀ c ∈ builtins, Py.contains c.word (c.event ++ [':']) = true ∧
    ∀ d ∈ builtins, Py.contains d.word (c.event ++ [':']) = true → d = c := by decide +kernel

/-- **C117**: a line of an event with a built-in parser goes to that parser, in whatever order the parsers are tried and
whatever built-in parsers are in use, if neither the task name nor the payload has the unique word of a built-in parser in it. -/
theorem C117_own_lines_partial (l : PrintedLine) (hl : l.WF) (ws : Str) (hws : AllC isSpace ws)
    (ps : List ParserClass) (hps : ∀ p ∈ ps, p ∈ builtins) (c : ParserClass) (hc : c ∈ ps) (hev : l.event = c.event)
    (hcomm : ∀ p ∈ ps, ¬ p.word <:+: l.comm) (hdata : ∀ p ∈ ps, ¬ p.word <:+: l.data) :
    ∃ i, getTraceClass (l.text ++ ws) (ps.map ParserClass.toCls) = some i ∧ ps[i]? = some c := by
  have key : ∀ p ∈ ps, (p.word <:+: l.text ++ ws ↔ p = c) := by
    intro p hp
    obtain ⟨k1, k2, x, k3, k4⟩ := builtins_keywords p (hps p hp)
    have hk : Keyword p.word := ⟨fun y hy => List.all_eq_true.mp k1 y hy, k2, x, k3, k4⟩
    rw [keyword_in_line hl hk hws, hev]
    obtain ⟨b1, b2⟩ := builtins_events c (hps c hc)
    constructor
    · rintro (h | h | h)
      · exact absurd h (hcomm p hp)
      · exact b2 p (hps p hp) ((contains_iff _ _).mpr h)
      · exact absurd h (hdata p hp)
    · rintro rfl
      exact Or.inr (Or.inl ((contains_iff _ _).mp b1))
  have hd := C09_dispatch (l.text ++ ws) (ps.map ParserClass.toCls)
  cases hi : getTraceClass (l.text ++ ws) (ps.map ParserClass.toCls) with
  | none => exact absurd ((key c hc).mpr rfl) (hd.1.mp hi c.toCls (List.mem_map.mpr ⟨c, hc, rfl⟩))
  | some i =>
    obtain ⟨d, h1, h2, _⟩ := hd.2 i hi
    rw [List.getElem?_map, Option.map_eq_some_iff] at h1
    obtain ⟨p, h3, rfl⟩ := h1
    exact ⟨i, rfl, by rw [h3, (key p (List.mem_of_getElem? h3)).mp h2]⟩

/-- **C117**: a line of another event goes to no built-in parser under the same conditions, if no built-in unique word is in its
event name with the colon. -/
theorem C117_foreign_lines_partial (l : PrintedLine) (hl : l.WF) (ws : Str) (hws : AllC isSpace ws)
    (ps : List ParserClass) (hps : ∀ p ∈ ps, p ∈ builtins) (hev : ∀ p ∈ ps, ¬ p.word <:+: l.event ++ [':'])
    (hcomm : ∀ p ∈ ps, ¬ p.word <:+: l.comm) (hdata : ∀ p ∈ ps, ¬ p.word <:+: l.data) :
    getTraceClass (l.text ++ ws) (ps.map ParserClass.toCls) = none := by
  rw [(C09_dispatch _ _).1]
  intro d hd
  obtain ⟨p, hp, rfl⟩ := List.mem_map.mp hd
  obtain ⟨k1, k2, x, k3, k4⟩ := builtins_keywords p (hps p hp)
  have hk : Keyword p.word := ⟨fun y hy => List.all_eq_true.mp k1 y hy, k2, x, k3, k4⟩
  show ¬ p.word <:+: _
  rw [keyword_in_line hl hk hws]
  rintro (h | h | h)
  · exact hcomm p hp h
  · exact hev p hp h
  · exact hdata p hp h

example : exampleLine.WF ∧ exampleLine.event = (unnamed cs!"sched_switch:" true).event ∧
    (unnamed cs!"sched_switch:" true) ∈ builtins ∧ (∀ p ∈ builtins, Py.contains p.word exampleLine.comm = false) ∧
    (∀ p ∈ builtins, Py.contains p.word exampleLine.data = false) ∧
    getTraceClass (exampleLine.text ++ ['\n']) (builtins.map ParserClass.toCls) = some 14 := by
  refine ⟨PrintedLine.wf_of_wfB (by decide +kernel), ?_, ?_, ?_, ?_, ?_⟩ <;> decide +kernel

example : ({ exampleLine with event := cs!"irq_handler_entry" } : PrintedLine).WF ∧
    (∀ p ∈ builtins, Py.contains p.word (cs!"irq_handler_entry" ++ [':']) = false) ∧
    getTraceClass ({ exampleLine with event := cs!"irq_handler_entry" } : PrintedLine).text (builtins.map ParserClass.toCls) = none := by
  refine ⟨PrintedLine.wf_of_wfB (by decide +kernel), ?_, ?_⟩ <;> decide +kernel

example : AllC isWord cs!"cpu_idle" ∧ 5 ≤ (cs!"cpu_idle").length ∧ (∃ c ∈ cs!"cpu_idle", isDigit c = false) ∧
    ¬ (cs!"cpu_idle" <:+: exampleLine.comm) ∧ ¬ (cs!"cpu_idle" <:+: exampleLine.data) := by
  refine ⟨by decide +kernel, by decide +kernel, by decide +kernel, ?_, ?_⟩ <;>
  · rw [← contains_iff]; decide +kernel

/-- **C117 refuted**: lines of events without a parser end up in tables of other events, and a task name can take a line away from its
table: `cpu_idle_miss` lines go to `cpu_idle`, `sys_enter_openat` lines to `sys_enter`, `my_cpu_frequency` lines to `cpu_frequency`, and
the `sched_switch` line of a task called `function` to the parser of functions if that one is tried first. -/
theorem C117_foreign_lines_refuted :
    (∃ l : PrintedLine, l.WF ∧ l.event = cs!"cpu_idle_miss" ∧ getTraceClass l.text [(unnamed cs!"cpu_idle").toCls] = some 0) ∧
    (∃ l : PrintedLine, l.WF ∧ l.event = cs!"sys_enter_openat" ∧ getTraceClass l.text [(unnamed cs!"sys_enter").toCls] = some 0) ∧
    (∃ l : PrintedLine, l.WF ∧ l.event = cs!"my_cpu_frequency" ∧ getTraceClass l.text [(unnamed cs!"cpu_frequency:").toCls] = some 0) ∧
    ∃ l : PrintedLine, l.WF ∧ l.event = cs!"sched_switch" ∧ l.comm = cs!"function" ∧
      getTraceClass l.text [(unnamed cs!"function" true).toCls, (unnamed cs!"sched_switch:" true).toCls] = some 0 := by
  refine ⟨⟨{ exampleLine with event := cs!"cpu_idle_miss" }, PrintedLine.wf_of_wfB (by decide +kernel), rfl, by decide +kernel⟩,
    ⟨{ exampleLine with event := cs!"sys_enter_openat" }, PrintedLine.wf_of_wfB (by decide +kernel), rfl, by decide +kernel⟩,
    ⟨{ exampleLine with event := cs!"my_cpu_frequency" }, PrintedLine.wf_of_wfB (by decide +kernel), rfl, by decide +kernel⟩,
    ⟨{ exampleLine with comm := cs!"function" }, PrintedLine.wf_of_wfB (by decide +kernel), rfl, rfl, by decide +kernel⟩⟩

/-! ## C118: the events asked for in raw form -/

theorem mem_rawEventList (thermal sched dynamic : List ParserClass) (n : Str) :
    n ∈ rawEventList thermal sched dynamic ↔
      ∃ c, (c ∈ thermal ∨ c ∈ sched ∨ c ∈ dynamic) ∧ c.raw = true ∧ c.name = n ∧ n ≠ [] := by
  unfold rawEventList
  simp only [List.mem_filterMap, List.mem_append, or_assoc]
  constructor
  · rintro ⟨c, hc, h⟩
    split at h
    · rename_i hr
      cases h
      simp only [Bool.and_eq_true, decide_eq_true_eq] at hr
      exact ⟨c, hc, hr.1, rfl, hr.2⟩
    · cases h
  · rintro ⟨c, hc, h1, rfl, h2⟩
    exact ⟨c, hc, by simp [h1, h2]⟩

/-- **C118**: the command is `trace-cmd report -t`, then a pair `-r name` for every registered class that is to be parsed raw, in the order
of thermal, sched and other classes, and the file last; the scope of the trace and the requested events play no role. -/
theorem C118_command (thermal sched dynamic : List ParserClass) (dat : Str) (hn : ∀ c ∈ thermal ++ sched ++ dynamic, c.name ≠ []) :
    reportCommand (rawEventList thermal sched dynamic) dat =
      [cs!"trace-cmd", cs!"report", cs!"-t"] ++
        (((thermal ++ sched ++ dynamic).filter fun c => c.raw).flatMap fun c => [cs!"-r", c.name]) ++ [dat] := by
  unfold reportCommand rawEventList
  have gen : ∀ cs : List ParserClass, (∀ c ∈ cs, c.name ≠ []) →
      rawOptions (cs.filterMap fun c => if c.raw && decide (c.name ≠ []) then some c.name else none) =
        (cs.filter fun c => c.raw).flatMap fun c => [cs!"-r", c.name] := by
    intro cs
    induction cs with
    | nil => intro _; rfl
    | cons c cs ih =>
      intro h
      have h1 := h c (by simp)
      have h2 := ih fun c hc => h c (by simp [hc])
      cases hr : c.raw with
      | false => simp [hr] at h2 ⊢; exact h2
      | true => simp [hr, h1, rawOptions] at h2 ⊢; exact h2
  rw [gen _ hn]

/-- **C118**: with the parsers that come with TRAPpy, the scheduler events for wakeups and switches and the events of the function
tracers are asked for in raw form, and no others. -/
theorem C118_builtin_raw : reportCommand (rawEventList builtinThermal builtinSched builtinDynamic) cs!"t.dat" =
    [cs!"trace-cmd", cs!"report", cs!"-t", cs!"-r", cs!"sched_wakeup", cs!"-r", cs!"sched_wakeup_new", cs!"-r", cs!"sched_switch",
     cs!"-r", cs!"function", cs!"-r", cs!"funcgraph_entry", cs!"-r", cs!"funcgraph_exit", cs!"t.dat"] := by
  decide +kernel

/-- **C118**: for the built-in parsers that are to be parsed raw, the names given to `trace-cmd` are the events their lines come from. -/
theorem C118_raw_names_partial (c : ParserClass) (hc : c ∈ builtins) (hr : c.raw = true) :
    c.name = c.event ∧ c.event ∈ rawEventList builtinThermal builtinSched builtinDynamic := by
  have h1 : ∀ c ∈ builtins, c.raw = true → c.name = c.event ∧ c.name ≠ [] := by decide +kernel
  obtain ⟨h2, h3⟩ := h1 c hc hr
  refine ⟨h2, ?_⟩
  rw [← h2, mem_rawEventList]
  refine ⟨c, ?_, hr, rfl, h3⟩
  simpa [builtins, or_assoc] using hc

example : (dynamicClass cs!"SchedWakeup" cs!"sched_wakeup:" true) ∈ builtins := by decide +kernel

/-- **C118 refuted** for parsers made with `register_dynamic_ftrace`: it is the name made from the class name that is asked for, so for a
class called `IrqEntry` of the event `irq_handler_entry` trace-cmd is asked for raw `irq_entry`, not for the event. -/
theorem C118_raw_names_refuted :
    ∃ c : ParserClass, c = dynamicClass cs!"IrqEntry" cs!"irq_handler_entry:" true ∧ c.raw = true ∧
      cs!"irq_entry" ∈ rawEventList builtinThermal builtinSched (builtinDynamic ++ [c]) ∧
      c.event ∉ rawEventList builtinThermal builtinSched (builtinDynamic ++ [c]) :=
  ⟨_, rfl, rfl, by decide +kernel, by decide +kernel⟩

/-! ## C119: the temporary file -/

/-- **C119**: after a `.dat` file has been read without an exception, there are the files there were before. -/
theorem C119_no_leftovers_partial (cached : Bool) (fails : Option DatStep) (tmp : Str) (files : List Str) (hnew : tmp ∉ files)
    (h : (parseDat cached fails tmp files).1 = false ∨ cached = true) : (parseDat cached fails tmp files).2 = files := by
  unfold parseDat at *
  cases cached with
  | true => rfl
  | false =>
    cases fails with
    | some s => simp at h
    | none =>
      simp only [Bool.false_eq_true, if_false, List.filter_append]
      rw [List.filter_eq_self.mpr (by intro a ha; simp; rintro rfl; exact hnew ha)]
      simp

example : (parseDat false none cs!"tmp1" [cs!"trace.dat"]).1 = false := by decide +kernel
example : parseDat false none cs!"tmp1" [cs!"trace.dat"] = (false, [cs!"trace.dat"]) := by decide +kernel

/-- **C119 refuted**: whatever step raises, `trace-cmd` included, the temporary file stays. -/
theorem C119_no_leftovers_refuted (s : DatStep) (tmp : Str) (files : List Str) :
    (parseDat false (some s) tmp files).1 = true ∧ tmp ∈ (parseDat false (some s) tmp files).2 := by
  simp [parseDat]

/-! ## C120: the list of filters -/

/-- the characters of a text, one by one: a dot in the key stands for any character but a line break -/
inductive Like : Str → Str → Prop where
  | nil : Like [] []
  | same (c : Char) {k x : Str} (h : Like k x) : Like (c :: k) (c :: x)
  | dot {c : Char} {k x : Str} (hc : c ≠ '\n') (h : Like k x) : Like ('.' :: k) (c :: x)

theorem Like.refl (k : Str) : Like k k := by
  induction k with
  | nil => exact .nil
  | cons c k ih => exact .same c ih

theorem Like.eq_of_no_dot {k x : Str} (h : Like k x) (hd : '.' ∉ k) : k = x := by
  induction h with
  | nil => rfl
  | same c h ih => rw [ih (fun hm => hd (by simp [hm]))]
  | dot hc h ih => exact absurd (by simp) hd

theorem keyRe_some {k : Str} : (keyRe k).isSome ↔ ∀ c ∈ k, isWord c = true ∨ c = '.' := by
  induction k with
  | nil => simp [keyRe]
  | cons c k ih =>
    unfold keyRe
    cases hr : keyRe k with
    | none =>
      rw [hr] at ih
      simp only [Option.isSome_none, Bool.false_eq_true, false_iff] at ih ⊢
      intro h
      exact ih fun c hc => h c (by simp [hc])
    | some r =>
      rw [hr] at ih
      have := ih.mp rfl
      simp only
      split
      · rename_i hw
        simp only [Option.isSome_some, true_iff]
        intro d hd
        rcases List.mem_cons.mp hd with rfl | hd
        · exact Or.inl hw
        · exact this d hd
      · split
        · rename_i hw he
          simp only [Option.isSome_some, true_iff]
          intro d hd
          rcases List.mem_cons.mp hd with rfl | hd
          · exact Or.inr he
          · exact this d hd
        · rename_i hw he
          simp only [Option.isSome_none, Bool.false_eq_true, false_iff]
          intro h
          rcases h c (by simp) with h | h
          · exact hw h
          · exact he h

theorem keyRe_match {k : Str} {r : Re} (h : keyRe k = some r) (s : Str) :
    (Re.matchPrefix r s).isSome ↔ ∃ x y, s = x ++ y ∧ Like k x := by
  have gen : ∀ (k : Str) (r : Re), keyRe k = some r → ∀ (s : Str) (c : Caps),
      (Re.m r s c (fun s' c' => some (c', s'))).isSome ↔ ∃ x y, s = x ++ y ∧ Like k x := by
    intro k
    induction k with
    | nil =>
      intro r h s c
      simp only [keyRe, Option.some.injEq] at h
      subst h
      simp only [Re.m, Option.isSome_some, true_iff]
      exact ⟨[], s, rfl, .nil⟩
    | cons a k ih =>
      intro r h s c
      unfold keyRe at h
      cases hr : keyRe k with
      | none => rw [hr] at h; cases h
      | some r' =>
        rw [hr] at h
        simp only at h
        split at h
        · rename_i hw
          simp only [Option.some.injEq] at h
          subst h
          cases s with
          | nil =>
            simp only [Re.m, Re.lit, Option.isSome_none, Bool.false_eq_true, false_iff]
            rintro ⟨x, y, e, hl⟩
            cases hl <;> simp at e
          | cons b s =>
            simp only [Re.m, Re.lit]
            by_cases hb : b = a
            · subst hb
              simp only [beq_self_eq_true, if_true]
              rw [ih r' hr s c]
              constructor
              · rintro ⟨x, y, rfl, hl⟩
                exact ⟨b :: x, y, rfl, .same b hl⟩
              · rintro ⟨x, y, e, hl⟩
                cases hl with
                | same _ hl => simp at e; exact ⟨_, y, e, hl⟩
                | dot hc hl => simp at e; exact ⟨_, y, e.2, hl⟩
            · simp only [beq_eq_false_iff_ne.mpr hb, Bool.false_eq_true, if_false, Option.isSome_none, false_iff]
              rintro ⟨x, y, e, hl⟩
              cases hl with
              | same _ hl => simp at e; exact hb e.1
              | dot hc hl => revert hw; decide
        · split at h
          · rename_i hw ha
            subst ha
            simp only [Option.some.injEq] at h
            subst h
            cases s with
            | nil =>
              simp only [Re.m, Option.isSome_none, Bool.false_eq_true, false_iff]
              rintro ⟨x, y, e, hl⟩
              cases hl <;> simp at e
            | cons b s =>
              simp only [Re.m]
              by_cases hb : b = '\n'
              · subst hb
                simp only [notNl, bne_self_eq_false, Bool.false_eq_true, if_false, Option.isSome_none, false_iff]
                rintro ⟨x, y, e, hl⟩
                cases hl with
                | same _ hl => simp at e
                | dot hc hl => simp at e; exact hc e.1.symm
              · have : notNl b = true := by simpa [notNl] using hb
                simp only [this, if_true]
                rw [ih r' hr s c]
                constructor
                · rintro ⟨x, y, rfl, hl⟩
                  exact ⟨b :: x, y, rfl, .dot hb hl⟩
                · rintro ⟨x, y, e, hl⟩
                  cases hl with
                  | same _ hl => simp at e; exact ⟨_, y, e.2, hl⟩
                  | dot hc hl => simp at e; exact ⟨_, y, e.2, hl⟩
          · cases h
  exact gen k r h s []

theorem search_isSome (r : Re) (s : Str) : (Re.search r s).isSome ↔ ∃ a b, s = a ++ b ∧ (Re.matchPrefix r b).isSome := by
  have gen : ∀ (s : Str) (n : Nat), (Re.searchFrom r n s).isSome ↔ ∃ a b, s = a ++ b ∧ (Re.matchPrefix r b).isSome := by
    intro s
    induction s with
    | nil =>
      intro n
      simp only [Re.searchFrom, Option.isSome_map]
      constructor
      · intro h; exact ⟨[], [], rfl, h⟩
      · rintro ⟨a, b, e, h⟩
        obtain ⟨rfl, rfl⟩ := List.append_eq_nil_iff.mp e.symm
        exact h
    | cons x s ih =>
      intro n
      rw [Re.searchFrom]
      split
      · rename_i c rest hm
        simp only [Option.isSome_some, true_iff]
        exact ⟨[], x :: s, rfl, by rw [hm]; rfl⟩
      · rename_i hm
        rw [ih]
        constructor
        · rintro ⟨a, b, e, h⟩
          exact ⟨x :: a, b, by rw [e]; rfl, h⟩
        · rintro ⟨a, b, e, h⟩
          cases a with
          | nil =>
            simp only [List.nil_append] at e
            rw [← e, hm] at h; cases h
          | cons y a =>
            simp only [List.cons_append, List.cons.injEq] at e
            exact ⟨a, b, e.2, h⟩
  exact gen s 0

/-- **C120**: for a key of letters, digits, underscores and dots, `get_filters` gives, in their order, the names of classes that have a
text like the key in them. -/
theorem C120_filters (key : Str) (names : List Str) (hk : ∀ c ∈ key, isWord c = true ∨ c = '.') :
    ∃ out, getFilters key names = some out ∧ out.Sublist names ∧ ∀ n, n ∈ out ↔ n ∈ names ∧ ∃ x, Like key x ∧ x <:+: n := by
  obtain ⟨r, hr⟩ := Option.isSome_iff_exists.mp (keyRe_some.mpr hk)
  refine ⟨_, by simp [getFilters, hr]; rfl, List.filter_sublist, ?_⟩
  intro n
  rw [List.mem_filter, search_isSome]
  refine and_congr_right fun _ => ?_
  constructor
  · rintro ⟨a, b, e, h⟩
    obtain ⟨x, y, e', hl⟩ := (keyRe_match hr b).mp h
    exact ⟨x, hl, a, y, by rw [e, e']; simp⟩
  · rintro ⟨x, hl, a, y, e⟩
    exact ⟨a, x ++ y, by rw [← e]; simp, (keyRe_match hr _).mpr ⟨x, y, rfl, hl⟩⟩

/-- **C120**: for a key of letters, digits and underscores these are the names that have the key in them, as documented; all of them are
given, with repetitions and order kept, and without a key everything. -/
theorem C120_filters_literal_partial (key : Str) (names : List Str) (hk : AllC isWord key) :
    getFilters key names = some (names.filter fun n => Py.contains key n) := by
  have hk' : ∀ c ∈ key, isWord c = true ∨ c = '.' := fun c hc => Or.inl (hk c hc)
  obtain ⟨r, hr⟩ := Option.isSome_iff_exists.mp (keyRe_some.mpr hk')
  have hd : '.' ∉ key := fun h => by have := hk _ h; revert this; decide
  simp only [getFilters, hr, Option.map_some, Option.some.injEq]
  apply List.filter_congr
  intro n _
  rw [Bool.eq_iff_iff, search_isSome, contains_iff]
  constructor
  · rintro ⟨a, b, e, h⟩
    obtain ⟨x, y, e', hl⟩ := (keyRe_match hr b).mp h
    rw [hl.eq_of_no_dot hd]
    exact ⟨a, y, by rw [e, e']; simp⟩
  · rintro ⟨a, y, e⟩
    exact ⟨a, key ++ y, by rw [← e]; simp, (keyRe_match hr _).mpr ⟨key, y, rfl, Like.refl key⟩⟩

theorem C120_no_key (names : List Str) : getFilters [] names = some names := by
  rw [C120_filters_literal_partial [] names (by intro c hc; cases hc)]
  simp only [Option.some.injEq, List.filter_eq_self]
  intro n _
  rw [contains_iff]
  exact List.nil_infix

example : getFilters cs!"sched_w" (builtinSched.map ParserClass.name) = some [cs!"sched_wakeup", cs!"sched_wakeup_new"] := by
  decide +kernel
example : AllC isWord cs!"sched_w" ∧ ∀ c ∈ cs!"sched.w", isWord c = true ∨ c = '.' := by decide +kernel

/-- **C120 refuted** for other keys: `get_filters("sched.switch")` gives `sched_switch`, whose name does not have the key in it. -/
theorem C120_filters_refuted :
    getFilters cs!"sched.switch" [cs!"sched_switch"] = some [cs!"sched_switch"] ∧
    Py.contains cs!"sched.switch" cs!"sched_switch" = false := by
  refine ⟨?_, ?_⟩ <;> decide +kernel

end Trappy
