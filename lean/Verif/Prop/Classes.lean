import Verif.Model.Classes
import Mathlib.Tactic.Common
import Mathlib.Data.List.Forall2
/-!
# C173: the classes that are registered can be made into parsers
-/

namespace Trappy

/-! ## Specification -/

/-- **Specification**: a class has no constructor of its own, or one that only calls the next -/
def PassesOn (b : ClassBody) : Prop := b.init = none ∨ b.init = some .plain

/-- **Specification**: what a parser of the class should be: it parses raw output if the class says so, and is a fallback only if the class says so -/
def AsDeclared (c : ClassChain) (p : ParserObj) : Prop := (p.raw = true ↔ c.rawAttr = some true) ∧ (p.fallback = true ↔ ∃ b ∈ c, b.init = some .passFallback)

/-! ## Lemmas -/

theorem initArg_ok (p q : ParserObj) (c : ClassChain) : initArg p c = .ok q ↔ p = q ∧ ∀ b ∈ c, b.init = none := by
  induction c with
  | nil => simp [initArg]
  | cons b bs ih =>
    unfold initArg
    cases hb : b.init with
    | none => simp [ih, hb]
    | some k => simp [hb]

theorem initFrom_passes (full : ClassChain) (pre post : ClassChain) (h : ∀ b ∈ pre, PassesOn b) : initFrom full (pre ++ post) = initFrom full post := by
  induction pre with
  | nil => rfl
  | cons b bs ih =>
    have hb := h b List.mem_cons_self
    rw [List.cons_append, initFrom]
    rcases hb with hb | hb <;> rw [hb] <;> exact ih fun b hb => h b (List.mem_cons_of_mem _ hb)

theorem split_passes (c : ClassChain) : (∀ b ∈ c, PassesOn b) ∨ ∃ pre b rest, c = pre ++ b :: rest ∧ (∀ b ∈ pre, PassesOn b) ∧ ¬ PassesOn b := by
  induction c with
  | nil => exact .inl (by simp)
  | cons b bs ih =>
    by_cases hb : PassesOn b
    · rcases ih with h | ⟨pre, b', rest, rfl, h1, h2⟩
      · exact .inl (by simpa using ⟨hb, h⟩)
      · exact .inr ⟨b :: pre, b', rest, rfl, by simpa using ⟨hb, h1⟩, h2⟩
    · exact .inr ⟨[], b, bs, rfl, by simp, hb⟩

/-! ## C173 -/

/-- **C173 (dynamic classes).** For all arguments: a class made by `register_dynamic_ftrace` can be made into a parser, which parses raw output exactly if that was asked for. -/
theorem C173_dynamic (raw : Bool) : ∃ p, construct (dynamicChain raw) = .ok p ∧ p.raw = raw ∧ p.fallback = false := by
  cases raw <;> exact ⟨_, rfl, rfl, rfl⟩

/-- **C173 (the classes of TRAPpy).** Each of them can be made into a parser, and the parsers have the attributes that the classes have in the tables of C116, C117 and C118. -/
theorem C173_builtins : constructAll builtinChains = .ok (builtins.map fun c => ⟨c.raw, c.fallback⟩) ∧ builtinChains.map (fun c => decide (c.rawAttr = some true)) = builtins.map ParserClass.raw ∧
    ∀ c ∈ builtinChains, ∀ p, construct c = .ok p → AsDeclared c p := by
  refine ⟨by decide +kernel, by decide +kernel, ?_⟩
  have h : ∀ c ∈ builtinChains, ∃ p, construct c = .ok p ∧ (p.raw = true ↔ c.rawAttr = some true) ∧ (p.fallback = true ↔ (c.any fun b => b.init = some .passFallback) = true) := by
    have : ∀ c ∈ builtinChains, (match construct c with
        | .ok p => decide (p.raw = true ↔ c.rawAttr = some true) && decide (p.fallback = true ↔ (c.any fun b => b.init = some .passFallback) = true)
        | .error _ => false) = true := by decide +kernel
    intro c hc
    have := this c hc
    cases hp : construct c with
    | error e => simp [hp] at this
    | ok p =>
      simp only [hp, Bool.and_eq_true, decide_eq_true_eq] at this
      exact ⟨p, rfl, this⟩
  intro c hc p hp
  obtain ⟨q, h1, h2, h3⟩ := h c hc
  obtain rfl : p = q := Except.ok.inj (hp.symm.trans h1)
  refine ⟨h2, h3.trans ?_⟩
  simp

/-- **C173, exactly when**: for all classes, a class can be made into a parser exactly if the first constructor that passes an argument on reaches that of `Base` directly: the classes after it have no constructor, and a dynamic class
is that of the object itself (or never gets an argument to pass on). -/
theorem C173_exact (c : ClassChain) (p : ParserObj) : construct c = .ok p ↔
    ((∀ b ∈ c, PassesOn b) ∧ p = ⟨false, false⟩) ∨
    ∃ pre b rest, c = pre ++ b :: rest ∧ (∀ b ∈ pre, PassesOn b) ∧
      ((b.init = some .passFallback ∧ p = ⟨false, true⟩ ∧ ∀ b ∈ rest, b.init = none) ∨
       (b.init = some .passRaw ∧ c.rawAttr = some p.raw ∧ p.fallback = false ∧ ∀ b ∈ rest, b.init = none) ∨
       (b.init = some .dynamic ∧ pre = [] ∧ c.rawAttr = some p.raw ∧ p.fallback = false ∧ ∀ b ∈ rest, b.init = none) ∨
       (b.init = some .dynamic ∧ pre = [] ∧ c.rawAttr = none ∧ initFrom c rest = .ok p)) := by
  unfold construct
  rcases split_passes c with h | ⟨pre, b, rest, hc, h1, h2⟩
  · have : initFrom c c = .ok ⟨false, false⟩ := by
      have e := initFrom_passes c c [] h
      rw [List.append_nil] at e
      rw [e]
      rfl
    rw [this]
    constructor
    · intro e
      exact .inl ⟨h, (Except.ok.inj e).symm⟩
    · rintro (⟨-, rfl⟩ | ⟨pre, b, rest, rfl, -, hb⟩)
      · rfl
      · exfalso
        have hp := h b (by simp)
        unfold PassesOn at hp
        rcases hb with hb | hb | hb | hb <;> rw [hb.1] at hp <;> simp at hp
  · have hu : ∀ pre' b' rest', c = pre' ++ b' :: rest' → (∀ b ∈ pre', PassesOn b) → ¬ PassesOn b' → pre' = pre ∧ b' = b ∧ rest' = rest := by
      clear p
      subst hc
      induction pre with
      | nil =>
        intro pre' b' rest' e hp hb
        cases pre' with
        | nil =>
          rw [List.nil_append, List.nil_append, List.cons.injEq] at e
          exact ⟨rfl, e.1.symm, e.2.symm⟩
        | cons x xs =>
          rw [List.nil_append, List.cons_append, List.cons.injEq] at e
          exact absurd (hp x List.mem_cons_self) (e.1 ▸ h2)
      | cons y ys ih =>
        intro pre' b' rest' e hp hb
        cases pre' with
        | nil =>
          rw [List.nil_append, List.cons_append, List.cons.injEq] at e
          exact absurd (h1 y List.mem_cons_self) (e.1 ▸ hb)
        | cons x xs =>
          rw [List.cons_append, List.cons_append, List.cons.injEq] at e
          obtain ⟨r1, r2, r3⟩ := ih (fun b hb => h1 b (List.mem_cons_of_mem _ hb)) xs b' rest' e.2 (fun b hb => hp b (List.mem_cons_of_mem _ hb)) hb
          exact ⟨by rw [e.1, r1], r2, r3⟩
    have hstep : initFrom c c = initFrom c (b :: rest) := by
      have e := initFrom_passes c pre (b :: rest) h1
      rwa [← hc] at e
    have hlen : rest.length + 1 = c.length ↔ pre = [] := by
      rw [hc]
      simp
    have hpn : pre ≠ [] → ¬ ∀ x ∈ c.tail, x.init = none := by
      intro hp hall
      have : b ∈ c.tail := by
        rw [hc]
        cases pre with
        | nil => exact absurd rfl hp
        | cons x xs => simp
      exact h2 (.inl (hall b this))
    have hnil : pre = [] → c.tail = rest := by
      rintro rfl
      rw [hc]
      rfl
    have hnot : ¬ ((∀ b ∈ c, PassesOn b) ∧ p = ⟨false, false⟩) := fun h => h2 (h.1 b (by rw [hc]; simp))
    rw [hstep, or_iff_right hnot]
    have hnp : ∀ {b' : ClassBody}, b'.init = some .passFallback ∨ b'.init = some .passRaw ∨ b'.init = some .dynamic → ¬ PassesOn b' := by
      intro b' hb hp
      unfold PassesOn at hp
      rcases hb with hb | hb | hb <;> rw [hb] at hp <;> simp at hp
    rw [initFrom]
    cases hb : b.init with
    | none => exact absurd (.inl hb) h2
    | some k =>
      cases k with
      | plain => exact absurd (.inr hb) h2
      | passFallback =>
        simp only [initArg_ok]
        constructor
        · rintro ⟨rfl, hr⟩
          exact ⟨pre, b, rest, hc, h1, .inl ⟨hb, rfl, hr⟩⟩
        · rintro ⟨pre', b', rest', e, hp, hcase⟩
          obtain ⟨rfl, rfl, rfl⟩ := hu pre' b' rest' e hp (by
            rcases hcase with h | h | h | h
            · exact hnp (.inl h.1)
            · exact hnp (.inr (.inl h.1))
            · exact hnp (.inr (.inr h.1))
            · exact hnp (.inr (.inr h.1)))
          rw [hb] at hcase
          simp only [Option.some.injEq, reduceCtorEq, false_and, or_false, true_and] at hcase
          exact ⟨hcase.1.symm, hcase.2⟩
      | passRaw =>
        cases hraw : c.rawAttr with
        | none =>
          simp only [reduceCtorEq, false_iff]
          rintro ⟨pre', b', rest', e, hp, hcase⟩
          obtain ⟨rfl, rfl, rfl⟩ := hu pre' b' rest' e hp (by
            rcases hcase with h | h | h | h
            · exact hnp (.inl h.1)
            · exact hnp (.inr (.inl h.1))
            · exact hnp (.inr (.inr h.1))
            · exact hnp (.inr (.inr h.1)))
          rw [hb] at hcase
          simp at hcase
        | some r =>
          simp only [initArg_ok]
          constructor
          · rintro ⟨rfl, hr⟩
            exact ⟨pre, b, rest, hc, h1, .inr (.inl ⟨hb, rfl, rfl, hr⟩)⟩
          · rintro ⟨pre', b', rest', e, hp, hcase⟩
            obtain ⟨rfl, rfl, rfl⟩ := hu pre' b' rest' e hp (by
              rcases hcase with h | h | h | h
              · exact hnp (.inl h.1)
              · exact hnp (.inr (.inl h.1))
              · exact hnp (.inr (.inr h.1))
              · exact hnp (.inr (.inr h.1)))
            rw [hb] at hcase
            simp only [Option.some.injEq, reduceCtorEq, false_and, or_false, false_or, true_and] at hcase
            obtain ⟨e1, e2, e3⟩ := hcase
            refine ⟨?_, e3⟩
            obtain ⟨pr, pf⟩ := p
            simp only at e1 e2
            rw [e1, e2]
      | dynamic =>
        cases hraw : c.rawAttr with
        | none =>
          simp only
          by_cases hpre : pre = []
          · rw [if_pos (hlen.2 hpre)]
            constructor
            · intro h
              exact ⟨pre, b, rest, hc, h1, .inr (.inr (.inr ⟨hb, hpre, by simp, h⟩))⟩
            · rintro ⟨pre', b', rest', e, hp, hcase⟩
              obtain ⟨rfl, rfl, rfl⟩ := hu pre' b' rest' e hp (by
                rcases hcase with h | h | h | h
                · exact hnp (.inl h.1)
                · exact hnp (.inr (.inl h.1))
                · exact hnp (.inr (.inr h.1))
                · exact hnp (.inr (.inr h.1)))
              rw [hb] at hcase
              simp only [Option.some.injEq, reduceCtorEq, false_and, false_or, true_and, and_false] at hcase
              exact hcase.2
          · rw [if_neg (fun h => hpre (hlen.1 h))]
            simp only [reduceCtorEq, false_iff]
            rintro ⟨pre', b', rest', e, hp, hcase⟩
            obtain ⟨rfl, rfl, rfl⟩ := hu pre' b' rest' e hp (by
              rcases hcase with h | h | h | h
              · exact hnp (.inl h.1)
              · exact hnp (.inr (.inl h.1))
              · exact hnp (.inr (.inr h.1))
              · exact hnp (.inr (.inr h.1)))
            rw [hb] at hcase
            simp [hpre] at hcase
        | some r =>
          simp only [initArg_ok]
          constructor
          · rintro ⟨rfl, hr⟩
            have hpre : pre = [] := by
              by_contra hne
              exact hpn hne hr
            exact ⟨pre, b, rest, hc, h1, .inr (.inr (.inl ⟨hb, hpre, rfl, rfl, hnil hpre ▸ hr⟩))⟩
          · rintro ⟨pre', b', rest', e, hp, hcase⟩
            obtain ⟨rfl, rfl, rfl⟩ := hu pre' b' rest' e hp (by
              rcases hcase with h | h | h | h
              · exact hnp (.inl h.1)
              · exact hnp (.inr (.inl h.1))
              · exact hnp (.inr (.inr h.1))
              · exact hnp (.inr (.inr h.1)))
            rw [hb] at hcase
            simp only [Option.some.injEq, reduceCtorEq, false_and, or_false, false_or, true_and, and_false] at hcase
            obtain ⟨e0, e1, e2, e3⟩ := hcase
            refine ⟨?_, by rw [hnil e0]; exact e3⟩
            obtain ⟨pr, pf⟩ := p
            simp only at e1 e2
            rw [e1, e2]

theorem initFrom_error (full : ClassChain) (hr : full.rawAttr ≠ none) (c : ClassChain) (e : CtorErr) (h : initFrom full c = .error e) : e = .typeError := by
  have ha : ∀ (p : ParserObj) (c : ClassChain), initArg p c = .error e → e = .typeError := by
    intro p c
    induction c with
    | nil => simp [initArg]
    | cons b bs ih =>
      unfold initArg
      cases b.init with
      | none => exact ih
      | some k => intro h; cases h; rfl
  obtain ⟨r, hr⟩ := Option.ne_none_iff_exists'.1 hr
  induction c with
  | nil => simp [initFrom] at h
  | cons b bs ih =>
    unfold initFrom at h
    simp only [hr] at h
    split at h
    · exact ih h
    · exact ih h
    · exact ha _ _ h
    · exact ha _ _ h
    · exact ha _ _ h

/-- **C173, refuted (derived classes)**: no class derived from one that `register_dynamic_ftrace` made can be made into a parser, whatever its attributes and constructors are: TypeError for all of them. -/
theorem C173_derived_refuted (sub : ClassChain) (h : sub ≠ []) (raw : Bool) : construct (sub ++ dynamicChain raw) = .error .typeError := by
  have hno : (sub ++ dynamicChain raw).rawAttr ≠ none := by
    clear h
    induction sub with
    | nil => simp [dynamicChain, ClassChain.rawAttr]
    | cons x xs ih =>
      rw [List.cons_append, ClassChain.rawAttr]
      cases x.raw with
      | some r => simp
      | none => exact ih
  suffices hok : ∀ p, construct (sub ++ dynamicChain raw) ≠ .ok p by
    cases hc : construct (sub ++ dynamicChain raw) with
    | ok p => exact absurd hc (hok p)
    | error e => rw [initFrom_error _ hno _ e hc]
  intro p hp
  rw [C173_exact] at hp
  have hd : ∀ {q : ClassBody → Prop}, (∀ b ∈ sub ++ dynamicChain raw, q b) → q ⟨some raw, some .dynamic⟩ := fun hq => hq _ (by simp [dynamicChain])
  rcases hp with ⟨hall, -⟩ | ⟨pre, b, rest, e, hpre, hcase⟩
  · rcases hd hall with h | h <;> simp at h
  · have hrest : (∀ b ∈ rest, b.init = none) → rest = [] := by
      intro hr
      by_contra hne
      have hl : (sub ++ dynamicChain raw).getLast? = rest.getLast? := by
        rw [e, List.getLast?_append, List.getLast?_cons]
        cases rest with
        | nil => exact absurd rfl hne
        | cons x xs => simp [List.getLast?_cons]
      have hm : (⟨some raw, some .dynamic⟩ : ClassBody) ∈ rest := by
        apply List.mem_of_getLast?
        rw [← hl]
        simp [dynamicChain]
      have := hr _ hm
      simp at this
    have hlast : rest = [] → pre = sub ∧ b = ⟨some raw, some .dynamic⟩ := by
      rintro rfl
      have := List.append_inj' e (by simp [dynamicChain])
      refine ⟨this.1.symm, ?_⟩
      have h2 := this.2
      simp only [dynamicChain, List.cons.injEq, and_true] at h2
      exact h2.symm
    rcases hcase with ⟨h1, -, h3⟩ | ⟨h1, -, -, h3⟩ | ⟨h1, h2, -, -, h3⟩ | ⟨-, -, h3, -⟩
    · obtain ⟨-, rfl⟩ := hlast (hrest h3)
      simp at h1
    · obtain ⟨-, rfl⟩ := hlast (hrest h3)
      simp at h1
    · obtain ⟨h4, -⟩ := hlast (hrest h3)
      exact h (h4 ▸ h2)
    · exact hno h3

/-- **C173, refuted (attributes)**: a class with `parse_raw = True` and no constructor that passes it on gives parsers that do not parse raw output, although `trace-cmd` is asked for it; for all such classes. -/
theorem C173_attribute_refuted (c : ClassChain) (h : ∀ b ∈ c, PassesOn b) (hr : c.rawAttr = some true) : ∃ p, construct c = .ok p ∧ p.raw = false ∧ ¬ AsDeclared c p := by
  refine ⟨⟨false, false⟩, (C173_exact c _).2 (.inl ⟨h, rfl⟩), rfl, ?_⟩
  intro hd
  simpa using hd.1.2 hr

/-- **C173, partial**: a class derived directly from `Base`, made with `register_dynamic_ftrace` or with a constructor as in TRAPpy, can be made into a parser, which is as declared. -/
theorem C173_direct_partial (b : ClassBody) (h : b.init = some .dynamic ∨ b.init = some .passRaw) (r : Bool) (hr : b.raw = some r) : ∃ p, construct [b] = .ok p ∧ AsDeclared [b] p ∧ p.raw = r := by
  have ha : ClassChain.rawAttr [b] = some r := by simp [ClassChain.rawAttr, hr]
  refine ⟨⟨r, false⟩, (C173_exact _ _).2 (.inr ⟨[], b, [], rfl, by simp, ?_⟩), ⟨by simp [ha], ?_⟩, rfl⟩
  · rcases h with h | h
    · exact .inr (.inr (.inl ⟨h, rfl, ha, rfl, by simp⟩))
    · exact .inr (.inl ⟨h, ha, rfl, by simp⟩)
  · rcases h with h | h <;> simp [h]

/-- **C173 (the trace).** One class among those of a trace that cannot be made into a parser, and the constructor of every trace with these classes raises; otherwise each class has its parser, in order. -/
theorem C173_trace (cs : List ClassChain) : (∀ ps, constructAll cs = .ok ps ↔ List.Forall₂ (fun c p => construct c = .ok p) cs ps) ∧
    ((∃ c ∈ cs, ∀ p, construct c ≠ .ok p) → ∃ e, constructAll cs = .error e) := by
  have h1 : ∀ ps, constructAll cs = .ok ps ↔ List.Forall₂ (fun c p => construct c = .ok p) cs ps := by
    induction cs with
    | nil => intro ps; cases ps <;> simp [constructAll]
    | cons c cs ih =>
      intro ps
      unfold constructAll
      cases hc : construct c with
      | error e =>
        simp only [reduceCtorEq, false_iff]
        rintro (_ | ⟨h, -⟩)
        rw [hc] at h
        cases h
      | ok p =>
        simp only
        cases ha : constructAll cs with
        | error e =>
          simp only [reduceCtorEq, false_iff]
          rintro (_ | ⟨-, h⟩)
          rw [← ih, ha] at h
          cases h
        | ok qs =>
          simp only [Except.ok.injEq]
          constructor
          · rintro rfl
            exact .cons hc ((ih qs).1 ha)
          · rintro (_ | ⟨h, h'⟩)
            rw [hc] at h
            rw [← ih, ha] at h'
            rw [Except.ok.inj h, Except.ok.inj h']
  refine ⟨h1, ?_⟩
  rintro ⟨c, hc, hno⟩
  cases ha : constructAll cs with
  | error e => exact ⟨e, rfl⟩
  | ok ps =>
    exfalso
    have := (h1 ps).1 ha
    clear h1 ha
    induction this with
    | nil => simp at hc
    | @cons a b _ _ hab _ ih =>
      rcases List.mem_cons.1 hc with rfl | hm
      · exact hno _ hab
      · exact ih hm

/-! ## Examples -/

/-- a class derived from `SchedWakeup` without anything of its own, with a constructor that calls the next, and with a constructor as that of `SchedSwitch` -/
example : construct ([({} : ClassBody)] ++ dynamicChain true) = .error .typeError ∧ construct ([{ init := some .plain }] ++ dynamicChain true) = .error .typeError ∧
    construct ([⟨some false, some .passRaw⟩] ++ dynamicChain true) = .error .typeError := by decide +kernel

/-- a class derived from `SchedSwitch` works, with its own attribute; so does one that calls the constructor of `FallbackEvent`, but a class derived from that which passes `parse_raw` on does not -/
example : construct ([⟨some false, none⟩] ++ rawChain true) = .ok ⟨false, false⟩ ∧ construct [{ init := some .plain }, { init := some .passFallback }] = .ok ⟨false, true⟩ ∧
    construct [⟨some true, some .passRaw⟩, { init := some .passFallback }] = .error .typeError ∧ construct [⟨some true, none⟩] = .ok ⟨false, false⟩ := by decide +kernel

/-- the hypotheses of the refutation about attributes -/
example : (∀ b ∈ ([⟨some true, none⟩, {}] : ClassChain), PassesOn b) ∧ ClassChain.rawAttr [⟨some true, none⟩, {}] = some true := ⟨by simp [PassesOn], rfl⟩

/-- a trace with a class derived from a dynamic one -/
example : constructAll (builtinChains ++ [[({} : ClassBody), ⟨some true, some .dynamic⟩]]) = .error .typeError := by decide +kernel

end Trappy
