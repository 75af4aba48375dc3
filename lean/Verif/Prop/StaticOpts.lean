import Verif.Model.StaticOpts
import Verif.Lemma.Data
import Mathlib.Tactic.Linarith
import Mathlib.Tactic.NormNum
import Mathlib.Data.Rat.Floor
/-!
# Options of static plots, sizes of figures, limits of axes

C152: which options reach matplotlib. C153: the size of the figures. C154: the plots of the correlator. C155: `enlarge_axis`.
-/

namespace Trappy

/-! ### C152: forwarded options -/

/-- the last call about `a` registers it, or there is none that unregisters it and it is one of the six options of matplotlib that are forwarded anyway -/
def Registered (ops : List FwdOp) (a : Str) : Prop :=
  (∃ pre post, ops = pre ++ FwdOp.register a :: post ∧ FwdOp.unregister a ∉ post) ∨
  (FwdOp.unregister a ∉ ops ∧ a ∈ [cs!"marker", cs!"markersize", cs!"markevery", cs!"linestyle", cs!"linewidth", cs!"drawstyle"])

theorem fwdStep_nodup {names : List Str} (h : names.Nodup) (op : FwdOp) : (fwdStep names op).Nodup := by
  cases op with
  | register a =>
    by_cases ha : a ∈ names
    · simpa [fwdStep, ha] using h
    · simp only [fwdStep, ha, if_false]
      rw [List.nodup_append]
      refine ⟨h, by simp, fun x hx y hy => ?_⟩
      rw [List.mem_singleton] at hy
      subst hy
      exact fun e => ha (e ▸ hx)
  | unregister a => exact h.erase a

theorem fwdNames_mem (a : Str) (ops : List FwdOp) :
    ∀ names : List Str, names.Nodup →
      (a ∈ ops.foldl fwdStep names ↔
        (∃ pre post, ops = pre ++ FwdOp.register a :: post ∧ FwdOp.unregister a ∉ post) ∨ (FwdOp.unregister a ∉ ops ∧ a ∈ names)) := by
  induction ops with
  | nil => intro names _; simp
  | cons op ops ih =>
    intro names hn
    rw [List.foldl_cons, ih _ (fwdStep_nodup hn op)]
    constructor
    · rintro (⟨pre, post, rfl, hp⟩ | ⟨hu, hm⟩)
      · exact .inl ⟨op :: pre, post, rfl, hp⟩
      · cases op with
        | register b =>
          by_cases hb : b ∈ names
          · simp only [fwdStep, hb, if_true] at hm
            exact .inr ⟨by simpa using hu, hm⟩
          · simp only [fwdStep, hb, if_false, List.mem_append, List.mem_singleton] at hm
            rcases hm with hm | rfl
            · exact .inr ⟨by simpa using hu, hm⟩
            · exact .inl ⟨[], ops, rfl, hu⟩
        | unregister b =>
          have hm' : a ∈ names.erase b := hm
          rw [hn.mem_erase_iff] at hm'
          refine .inr ⟨?_, hm'.2⟩
          simp only [List.mem_cons, FwdOp.unregister.injEq, not_or]
          exact ⟨hm'.1, hu⟩
    · rintro (⟨pre, post, he, hp⟩ | ⟨hu, hm⟩)
      · cases pre with
        | nil =>
          simp only [List.nil_append, List.cons.injEq] at he
          obtain ⟨rfl, rfl⟩ := he
          refine .inr ⟨hp, ?_⟩
          by_cases ha : a ∈ names <;> simp [fwdStep, ha]
        | cons p pre =>
          simp only [List.cons_append, List.cons.injEq] at he
          obtain ⟨_, rfl⟩ := he
          exact .inl ⟨pre, post, rfl, hp⟩
      · simp only [List.mem_cons, not_or] at hu
        refine .inr ⟨hu.2, ?_⟩
        cases op with
        | register b => by_cases hb : b ∈ names <;> simp [fwdStep, hb, hm]
        | unregister b =>
          have : a ≠ b := fun e => hu.1 (e ▸ rfl)
          exact hn.mem_erase_iff.2 ⟨this, hm⟩

theorem fwdNames_iff (ops : List FwdOp) (a : Str) : a ∈ fwdNames ops ↔ Registered ops a :=
  fwdNames_mem a ops argsToForward (by decide +kernel)

theorem splitOpts_get (names : List Str) (k : Str) :
    ∀ (kw : List (Str × OptVal)) (attr fwd : Dict OptVal), (kw.map Prod.fst).Nodup →
      ((splitOpts names kw (attr, fwd)).1.get k = if k ∉ names ∧ k ∈ kw.map Prod.fst then Dict.get kw k else attr.get k) ∧
      ((splitOpts names kw (attr, fwd)).2.get k = if k ∈ names ∧ k ∈ kw.map Prod.fst then Dict.get kw k else fwd.get k) := by
  intro kw
  induction kw with
  | nil => intro attr fwd _; simp [splitOpts]
  | cons p kw ih =>
    obtain ⟨k', v⟩ := p
    intro attr fwd hn
    simp only [List.map_cons, List.nodup_cons] at hn
    have hg : Dict.get ((k', v) :: kw) k = if k' = k then some v else Dict.get kw k := rfl
    by_cases hk : k' ∈ names
    · simp only [splitOpts, hk, if_true]
      obtain ⟨h1, h2⟩ := ih attr (fwd.set k' v) hn.2
      rw [h1, h2, hg, Dict.get_set]
      by_cases e : k' = k
      · subst e
        simp [hk, hn.1]
      · simp only [List.map_cons, List.mem_cons, Ne.symm e, false_or, e, if_false, and_self]
    · simp only [splitOpts, hk, if_false]
      obtain ⟨h1, h2⟩ := ih (attr.set k' v) fwd hn.2
      rw [h1, h2, hg, Dict.get_set]
      by_cases e : k' = k
      · subst e
        simp [hk, hn.1]
      · simp only [List.map_cons, List.mem_cons, Ne.symm e, false_or, e, if_false, and_self]

theorem optGet_iff {kw : List (Str × OptVal)} (hn : (kw.map Prod.fst).Nodup) (k : Str) (v : OptVal) : Dict.get kw k = some v ↔ (k, v) ∈ kw := by
  induction kw with
  | nil => simp [Dict.get]
  | cons p kw ih =>
    obtain ⟨k', v'⟩ := p
    simp only [List.map_cons, List.nodup_cons] at hn
    have hg : Dict.get ((k', v') :: kw) k = if k' = k then some v' else Dict.get kw k := rfl
    rw [hg]
    by_cases e : k' = k
    · subst e
      simp only [if_true, Option.some.injEq, List.mem_cons, Prod.mk.injEq, true_and]
      constructor
      · exact fun h => .inl h.symm
      · rintro (h | h)
        · exact h.symm
        · exact absurd (List.mem_map_of_mem (f := Prod.fst) h) hn.1
    · rw [if_neg e, ih hn.2]
      simp [Ne.symm e]

/-- the option is among the arguments of the constructor and is one of its own, not of matplotlib -/
def OwnOpt (ops : List FwdOp) (kw : List (Str × OptVal)) (k : Str) (v : OptVal) : Prop := (k, v) ∈ kw ∧ ¬ Registered ops k

/-- the option is among the arguments of the constructor and is one of matplotlib -/
def MplOpt (ops : List FwdOp) (kw : List (Str × OptVal)) (k : Str) (v : OptVal) : Prop := (k, v) ∈ kw ∧ Registered ops k

/-- an option is set: given and true -/
def SetOpt (ops : List FwdOp) (kw : List (Str × OptVal)) (k : Str) : Prop := ∃ v, OwnOpt ops kw k v ∧ v ≠ .none ∧ v ≠ .bool false ∧ v ≠ .num 0 ∧ v ≠ .str []

theorem truthy_iff (v : OptVal) : v.truthy = true ↔ v ≠ .none ∧ v ≠ .bool false ∧ v ≠ .num 0 ∧ v ≠ .str [] := by
  cases v <;> simp [OptVal.truthy]

theorem split_fwd (ops : List FwdOp) {kw : List (Str × OptVal)} (hn : (kw.map Prod.fst).Nodup) (k : Str) (v : OptVal) :
    (splitOpts (fwdNames ops) kw (lineDefaults, [])).2.get k = some v ↔ MplOpt ops kw k v := by
  rw [(splitOpts_get (fwdNames ops) k kw lineDefaults [] hn).2]
  unfold MplOpt
  rw [← fwdNames_iff]
  by_cases h : k ∈ fwdNames ops ∧ k ∈ kw.map Prod.fst
  · rw [if_pos h, optGet_iff hn]
    exact ⟨fun e => ⟨e, h.1⟩, fun e => e.1⟩
  · rw [if_neg h]
    simp only [Dict.get, reduceCtorEq, false_iff]
    exact fun e => h ⟨e.2, List.mem_map_of_mem (f := Prod.fst) e.1⟩

theorem split_attr (ops : List FwdOp) {kw : List (Str × OptVal)} (hn : (kw.map Prod.fst).Nodup) (k : Str) (v : OptVal) :
    (splitOpts (fwdNames ops) kw (lineDefaults, [])).1.get k = some v ↔
      OwnOpt ops kw k v ∨ (lineDefaults.get k = some v ∧ ∀ w, ¬ OwnOpt ops kw k w) := by
  rw [(splitOpts_get (fwdNames ops) k kw lineDefaults [] hn).1]
  unfold OwnOpt
  rw [← fwdNames_iff]
  by_cases h : k ∉ fwdNames ops ∧ k ∈ kw.map Prod.fst
  · rw [if_pos h, optGet_iff hn]
    constructor
    · exact fun e => .inl ⟨e, h.1⟩
    · rintro (e | ⟨_, e⟩)
      · exact e.1
      · obtain ⟨p, hp, rfl⟩ := List.mem_map.1 h.2
        exact absurd ⟨hp, h.1⟩ (e p.2)
  · rw [if_neg h]
    have hno : ∀ w, ¬ ((k, w) ∈ kw ∧ ¬ k ∈ fwdNames ops) := fun w e => h ⟨e.2, List.mem_map_of_mem (f := Prod.fst) e.1⟩
    constructor
    · exact fun e => .inr ⟨e, hno⟩
    · rintro (e | e)
      · exact absurd e (hno v)
      · exact e.1

theorem split_set (ops : List FwdOp) {kw : List (Str × OptVal)} (hn : (kw.map Prod.fst).Nodup) {k : Str} (hk : lineDefaults.get k = some (.bool false)) :
    optOn (splitOpts (fwdNames ops) kw (lineDefaults, [])).1 k = true ↔ SetOpt ops kw k := by
  have hiff : ∀ d : Dict OptVal, optOn d k = true ↔ ∃ v, d.get k = some v ∧ v.truthy = true := fun d => by
    unfold optOn
    cases d.get k <;> simp
  rw [hiff]
  constructor
  · rintro ⟨v, hv, ht⟩
    rcases (split_attr ops hn k v).1 hv with h | ⟨h, _⟩
    · exact ⟨v, h, (truthy_iff v).1 ht⟩
    · rw [hk] at h
      simp only [Option.some.injEq] at h
      subst h
      simp [OptVal.truthy] at ht
  · rintro ⟨v, h, ht⟩
    exact ⟨v, (split_attr ops hn k v).2 (.inl h), (truthy_iff v).2 ht⟩

/-- What the forwarded options are, as a table: with `scatter` three of them are replaced. -/
theorem lineOpts_fwd (ops : List FwdOp) {kw : List (Str × OptVal)} (hn : (kw.map Prod.fst).Nodup) (k : Str) (v : OptVal) :
    (lineOpts (fwdNames ops) kw).2.get k = some v ↔
      (¬ SetOpt ops kw cs!"scatter" ∧ MplOpt ops kw k v) ∨
      (SetOpt ops kw cs!"scatter" ∧
        ((k = cs!"linestyle" ∧ v = .str []) ∨ (k = cs!"marker" ∧ v = .str cs!"o") ∨
         (k = cs!"markersize" ∧ OwnOpt ops kw cs!"point_size" v) ∨
         (k ≠ cs!"linestyle" ∧ k ≠ cs!"marker" ∧ (k = cs!"markersize" → ∀ w, ¬ OwnOpt ops kw cs!"point_size" w) ∧ MplOpt ops kw k v))) := by
  have hs := split_set ops hn (k := cs!"scatter") (by decide +kernel)
  have hp := split_attr ops hn cs!"point_size"
  have hd : lineDefaults.get cs!"point_size" = none := by decide +kernel
  have hf := split_fwd ops hn k v
  simp only [lineOpts, addScatter]
  generalize splitOpts (fwdNames ops) kw (lineDefaults, []) = s at hs hp hf
  have hne1 : ¬ cs!"marker" = cs!"markersize" := by decide
  have hne2 : ¬ cs!"linestyle" = cs!"markersize" := by decide
  have hne3 : ¬ cs!"linestyle" = cs!"marker" := by decide
  generalize cs!"marker" = km at *
  generalize cs!"markersize" = ks at *
  generalize cs!"linestyle" = kl at *
  generalize cs!"point_size" = kp at *
  generalize OptVal.str cs!"o" = vo at *
  generalize OptVal.str [] = vn at *
  by_cases hset : SetOpt ops kw cs!"scatter"
  · simp only [hs.2 hset, if_true, hset, not_true_eq_false, false_and, false_or, true_and]
    cases hps : s.1.get kp with
    | none =>
      have hno : ∀ w, ¬ OwnOpt ops kw kp w := fun w hw => by
        have := (hp w).2 (.inl hw)
        rw [hps] at this
        cases this
      simp only [Dict.get_set, hno, and_false, not_false_eq_true, implies_true, true_and, false_or]
      by_cases e1 : km = k
      · subst e1
        simp [hne3, Ne.symm hne3, eq_comm (a := v)]
      · by_cases e2 : kl = k
        · subst e2
          simp [hne3, Ne.symm hne3, eq_comm (a := v)]
        · simp [e1, e2, Ne.symm e1, Ne.symm e2, hf]
    | some p =>
      have hpo : OwnOpt ops kw kp p := by
        rcases (hp p).1 hps with h | ⟨h, _⟩
        · exact h
        · rw [hd] at h; cases h
      have hpu : ∀ w, OwnOpt ops kw kp w ↔ p = w := fun w => by
        constructor
        · intro hw
          have := (hp w).2 (.inl hw)
          rw [hps] at this
          exact Option.some.inj this
        · rintro rfl; exact hpo
      simp only [Dict.get_set, hpu]
      by_cases e0 : ks = k
      · subst e0
        simp [Ne.symm hne1, Ne.symm hne2]
      · by_cases e1 : km = k
        · subst e1
          simp [hne3, Ne.symm hne3, e0, hne1, eq_comm (a := v)]
        · by_cases e2 : kl = k
          · subst e2
            simp [hne3, Ne.symm hne3, e0, hne2, eq_comm (a := v)]
          · simp [e0, e1, e2, Ne.symm e0, Ne.symm e1, Ne.symm e2, hf]
  · have hoff : ¬ optOn s.1 cs!"scatter" = true := fun h => hset (hs.1 h)
    simp [hset, hf, hoff]

theorem drawLine_ok {color : OptVal} {attr fwd : Dict OptVal} {c : LineCall} (h : drawLine color attr fwd = .ok c) :
    fwd.get cs!"color" = none ∧ c.opts = (cs!"color", color) :: fwd ∧ c.filled = optOn attr cs!"fill" := by
  unfold drawLine at h
  cases hc : fwd.get cs!"color" with
  | some _ => rw [hc] at h; cases h
  | none =>
    rw [hc] at h
    simp only at h
    by_cases hb : (optOn attr cs!"fill" && isSteps fwd) = true
    · rw [if_pos hb] at h
      cases h
    · rw [if_neg hb] at h
      cases h
      exact ⟨rfl, rfl, rfl⟩

/-- **C152 (options of matplotlib).** Without `scatter`, `axis.plot` is called with the colour of the colour map and with exactly those arguments of the constructor whose names are registered, by
default or by `register_forwarding_arg`, with the values given. -/
theorem C152_options (ops : List FwdOp) {color : OptVal} {kw : List (Str × OptVal)} (hn : (kw.map Prod.fst).Nodup) (hs : ¬ SetOpt ops kw cs!"scatter")
    {c : LineCall} (h : optLinePlot ops color kw = .ok c) :
    c.opts.get cs!"color" = some color ∧ (∀ k v, k ≠ cs!"color" → (c.opts.get k = some v ↔ (k, v) ∈ kw ∧ Registered ops k)) ∧
    (c.filled = true ↔ SetOpt ops kw cs!"fill") := by
  obtain ⟨h1, h2, h3⟩ := drawLine_ok h
  rw [h2, h3]
  refine ⟨by simp [Dict.get], fun k v hk => ?_, ?_⟩
  · have : Dict.get ((cs!"color", color) :: (lineOpts (fwdNames ops) kw).2) k = (lineOpts (fwdNames ops) kw).2.get k := by
      show (if _ then _ else _) = _
      rw [if_neg (Ne.symm hk)]
    rw [this, lineOpts_fwd ops hn]
    simp [hs, MplOpt]
  · exact split_set ops hn (k := cs!"fill") (by decide +kernel)

/-- **C152 (points).** With `scatter` no line is drawn between the points, they are circles of size `point_size`, if that is given; the other options are passed as given. -/
theorem C152_scatter (ops : List FwdOp) {color : OptVal} {kw : List (Str × OptVal)} (hn : (kw.map Prod.fst).Nodup) (hs : SetOpt ops kw cs!"scatter")
    {c : LineCall} (h : optLinePlot ops color kw = .ok c) :
    c.opts.get cs!"color" = some color ∧ c.opts.get cs!"linestyle" = some (.str []) ∧ c.opts.get cs!"marker" = some (.str cs!"o") ∧
    (∀ v, (cs!"point_size", v) ∈ kw → ¬ Registered ops cs!"point_size" → c.opts.get cs!"markersize" = some v) ∧
    (∀ k v, k ∉ [cs!"color", cs!"linestyle", cs!"marker", cs!"markersize"] → (c.opts.get k = some v ↔ (k, v) ∈ kw ∧ Registered ops k)) ∧
    (c.filled = true ↔ SetOpt ops kw cs!"fill") := by
  obtain ⟨h1, h2, h3⟩ := drawLine_ok h
  have hg : ∀ k, k ≠ cs!"color" → c.opts.get k = (lineOpts (fwdNames ops) kw).2.get k := fun k hk => by
    rw [h2]
    show (if _ then _ else _) = _
    rw [if_neg (Ne.symm hk)]
  refine ⟨by simp [h2, Dict.get], ?_, ?_, fun v hv hr => ?_, fun k v hk => ?_, (by rw [h3]; exact split_set ops hn (k := cs!"fill") (by decide +kernel))⟩
  · rw [hg _ (by decide), lineOpts_fwd ops hn]
    exact .inr ⟨hs, .inl ⟨rfl, rfl⟩⟩
  · rw [hg _ (by decide), lineOpts_fwd ops hn]
    exact .inr ⟨hs, .inr (.inl ⟨rfl, rfl⟩)⟩
  · rw [hg _ (by decide), lineOpts_fwd ops hn]
    exact .inr ⟨hs, .inr (.inr (.inl ⟨rfl, hv, hr⟩))⟩
  · simp only [List.mem_cons, List.not_mem_nil, or_false, not_or] at hk
    obtain ⟨k0, k1, k2, k3⟩ := hk
    rw [hg _ k0, lineOpts_fwd ops hn]
    simp [hs, k1, k2, k3, MplOpt]

/-- **C152 (failures).** The line is drawn unless the name `color` is registered and given, or the area under a step plot is to be filled. -/
theorem C152_errors (ops : List FwdOp) {color : OptVal} {kw : List (Str × OptVal)} (hn : (kw.map Prod.fst).Nodup) :
    (optLinePlot ops color kw = .error .twice ↔ Registered ops cs!"color" ∧ cs!"color" ∈ kw.map Prod.fst) ∧
    (optLinePlot ops color kw = .error .steps ↔
      ¬ (Registered ops cs!"color" ∧ cs!"color" ∈ kw.map Prod.fst) ∧ SetOpt ops kw cs!"fill" ∧
      ∃ rest, (cs!"drawstyle", OptVal.str (cs!"steps" ++ rest)) ∈ kw ∧ Registered ops cs!"drawstyle") := by
  have hcol : (lineOpts (fwdNames ops) kw).2.get cs!"color" = none ↔ ¬ (Registered ops cs!"color" ∧ cs!"color" ∈ kw.map Prod.fst) := by
    have hf := lineOpts_fwd ops hn cs!"color"
    constructor
    · rintro h ⟨hr, hm⟩
      obtain ⟨p, hp, hpk⟩ := List.mem_map.1 hm
      have hp' : (cs!"color", p.2) ∈ kw := by rw [← hpk]; exact hp
      have : (lineOpts (fwdNames ops) kw).2.get cs!"color" = some p.2 := by
        rw [hf]
        by_cases hs : SetOpt ops kw cs!"scatter"
        · exact .inr ⟨hs, .inr (.inr (.inr ⟨by decide, by decide, fun e => absurd e (by decide), hp', hr⟩))⟩
        · exact .inl ⟨hs, hp', hr⟩
      rw [h] at this; cases this
    · intro h
      cases hg : (lineOpts (fwdNames ops) kw).2.get cs!"color" with
      | none => rfl
      | some v =>
        rcases (hf v).1 hg with ⟨_, h1, h2⟩ | ⟨_, h1 | h1 | h1 | ⟨_, _, _, h1, h2⟩⟩
        · exact absurd ⟨h2, List.mem_map_of_mem (f := Prod.fst) h1⟩ h
        · exact absurd h1.1 (by decide)
        · exact absurd h1.1 (by decide)
        · exact absurd h1.1 (by decide)
        · exact absurd ⟨h2, List.mem_map_of_mem (f := Prod.fst) h1⟩ h
  have hst : isSteps (lineOpts (fwdNames ops) kw).2 = true ↔ ∃ rest, (cs!"drawstyle", OptVal.str (cs!"steps" ++ rest)) ∈ kw ∧ Registered ops cs!"drawstyle" := by
    have hf := lineOpts_fwd ops hn cs!"drawstyle"
    have hf' : ∀ v, (lineOpts (fwdNames ops) kw).2.get cs!"drawstyle" = some v ↔ MplOpt ops kw cs!"drawstyle" v := fun v => by
      rw [hf v]
      by_cases hs : SetOpt ops kw cs!"scatter" <;> simp [hs]
    unfold isSteps
    constructor
    · intro h
      split at h
      · rename_i s hs
        have hm := (hf' _).1 hs
        have hpre : cs!"steps" <+: s := by simpa [Py.startsWith] using h
        obtain ⟨rest, rfl⟩ := hpre
        exact ⟨rest, hm.1, hm.2⟩
      · cases h
    · rintro ⟨rest, h1, h2⟩
      rw [(hf' _).2 ⟨h1, h2⟩]
      simp [Py.startsWith]
  have hfill := split_set ops hn (k := cs!"fill") (by decide +kernel)
  rw [← hst, ← hfill, ← hcol]
  unfold optLinePlot drawLine
  cases hc : (lineOpts (fwdNames ops) kw).2.get cs!"color" with
  | some v =>
    have := hcol.not.1 (by rw [hc]; simp)
    simp only [not_not] at this
    simp [this]
  | none =>
    have := hcol.1 hc
    have ha : (lineOpts (fwdNames ops) kw).1 = (splitOpts (fwdNames ops) kw (lineDefaults, [])).1 := rfl
    rw [ha]
    simp only [this, iff_false, not_false_eq_true, true_and]
    cases optOn (splitOpts (fwdNames ops) kw (lineDefaults, [])).1 cs!"fill" <;> cases isSteps (lineOpts (fwdNames ops) kw).2 <;> simp

/-- `register_forwarding_arg("alpha")`, `LinePlot(..., alpha=0.5, marker="x", fill=True, title="t")` -/
example : optLinePlot [.register cs!"alpha"] (.str cs!"c0") [(cs!"alpha", .num (1/2)), (cs!"marker", .str cs!"x"), (cs!"fill", .bool true), (cs!"title", .str cs!"t")] =
    .ok { opts := [(cs!"color", .str cs!"c0"), (cs!"alpha", .num (1/2)), (cs!"marker", .str cs!"x")], filled := true } := by decide +kernel

/-- registered twice, unregistered once: no longer forwarded -/
example : optLinePlot [.register cs!"alpha", .register cs!"alpha", .unregister cs!"alpha", .unregister cs!"marker"] (.str cs!"c0") [(cs!"alpha", .num (1/2)), (cs!"marker", .str cs!"x")] =
    .ok { opts := [(cs!"color", .str cs!"c0")], filled := false } := by decide +kernel

example : optLinePlot [] (.str cs!"c0") [(cs!"scatter", .bool true), (cs!"point_size", .num 3), (cs!"linewidth", .num 2)] =
    .ok { opts := [(cs!"color", .str cs!"c0"), (cs!"linewidth", .num 2), (cs!"linestyle", .str []), (cs!"marker", .str cs!"o"), (cs!"markersize", .num 3)], filled := false } := by decide +kernel

example : optLinePlot [] (.str cs!"c0") [(cs!"fill", .bool true), (cs!"drawstyle", .str cs!"steps-post")] = .error .steps := by decide +kernel

/-- the hypotheses of the first theorem are met by the first of these plots -/
example : ∀ k v, k ≠ cs!"color" →
    (Dict.get [(cs!"color", OptVal.str cs!"c0"), (cs!"alpha", .num (1/2))] k = some v ↔
      (k, v) ∈ [(cs!"alpha", OptVal.num (1/2)), (cs!"title", .str cs!"t")] ∧ Registered [.register cs!"alpha"] k) :=
  (C152_options [.register cs!"alpha"] (color := .str cs!"c0") (kw := [(cs!"alpha", .num (1/2)), (cs!"title", .str cs!"t")]) (by decide +kernel)
    (by rintro ⟨v, ⟨h, _⟩, _⟩; simp at h) (c := { opts := [(cs!"color", .str cs!"c0"), (cs!"alpha", .num (1/2))], filled := false }) (by decide +kernel)).2.1

/-- those of the second by a plot of points -/
example : SetOpt [] [(cs!"scatter", .bool true), (cs!"marker", .str cs!"x")] cs!"scatter" := by
  refine ⟨.bool true, ⟨by simp, ?_⟩, by simp⟩
  rw [← fwdNames_iff]
  decide +kernel

/-- **C152 refuted (options given are used).** With `scatter=True` the marker given is replaced: the points are circles although crosses were asked for. -/
theorem C152_marker_refuted :
    ∃ (kw : List (Str × OptVal)) (c : LineCall), (kw.map Prod.fst).Nodup ∧ (cs!"marker", OptVal.str cs!"x") ∈ kw ∧ optLinePlot [] (.str cs!"c0") kw = .ok c ∧
      c.opts.get cs!"marker" = some (.str cs!"o") :=
  ⟨[(cs!"scatter", .bool true), (cs!"marker", .str cs!"x")], _, by decide +kernel, by decide +kernel, rfl, by decide +kernel⟩

/-- **C152 refuted (registered options reach matplotlib).** An option can be registered and still not be usable: after `register_forwarding_arg("color")` every line plot with a colour fails, because
the colour of the colour map is passed as well. -/
theorem C152_color_refuted (color v : OptVal) : optLinePlot [.register cs!"color"] color [(cs!"color", v)] = .error .twice := by
  refine (C152_errors _ (by simp)).1.2 ⟨?_, by simp⟩
  exact .inl ⟨[], [], rfl, by simp⟩

/-! ### C153: sizes -/

theorem truncInt_nonneg {q : Rat} (h : 0 ≤ q) : (truncInt q : Rat) ≤ q ∧ q < truncInt q + 1 := by
  unfold truncInt
  rw [if_pos h]
  exact ⟨Int.floor_le q, Int.lt_floor_add_one q⟩

/-- **C153 (size).** The figure has room for all plots, `per_line` or fewer of them in a row, and every cell has the size asked for if there are several plots, more than one in a row. -/
theorem C153_size {perLine num : Nat} {w h : Rat} (hn : 1 < num) (hc : 1 < perLine) :
    ∃ l W H, figSize perLine num (w, h) = .ok (l, W, H) ∧ l.cols = min perLine num ∧ num ≤ l.rows * l.cols ∧ (l.rows - 1) * l.cols < num ∧
      W = w * l.cols ∧ H = h * l.rows := by
  unfold figSize mkLayout
  have h0 : num ≠ 0 := by omega
  have h1 : num ≠ 1 := by omega
  obtain ⟨c, hcdef⟩ : ∃ c, c = if num < perLine then num else perLine := ⟨_, rfl⟩
  have hcm : c = min perLine num := by subst hcdef; split <;> omega
  have hc1 : 1 < c := by omega
  simp only [h0, if_false, ← hcdef, show c ≠ 0 by omega]
  have hdm := Nat.div_add_mod num c
  have hml := Nat.mod_lt num (show c > 0 by omega)
  obtain ⟨r, hr⟩ : ∃ r, r = if num % c ≠ 0 then num / c + 1 else num / c := ⟨_, rfl⟩
  simp only [← hr]
  have hrow : num ≤ r * c ∧ (r - 1) * c < num := by
    have hcc : c * (num / c) = num / c * c := Nat.mul_comm _ _
    by_cases hm : num % c ≠ 0
    · rw [hr, if_pos hm, Nat.add_mul]
      simp only [Nat.add_sub_cancel]
      omega
    · rw [hr, if_neg hm]
      have hpos : 1 ≤ num / c := by
        rcases Nat.eq_zero_or_pos (num / c) with h | h
        · rw [h] at hdm; simp at hdm hm; omega
        · exact h
      rw [Nat.sub_mul]
      omega
  by_cases hr1 : r = 1
  · exact ⟨_, _, _, rfl, hcm, hrow.1, hrow.2, by simp [hr1, h1], by simp [hr1, h1]⟩
  · exact ⟨_, _, _, rfl, hcm, hrow.1, hrow.2, by simp [hr1, h1, show c ≠ 1 by omega], by simp [hr1, h1, show c ≠ 1 by omega]⟩

/-- **C153 (one plot in a row).** A single plot, or one plot per row, gets 2.5 times the width and 1.25 times the length, both truncated. The cell is at least as large as asked for if the
width is at least 2/3 and the length is a natural number or at least 4. -/
theorem C153_scaled {perLine num : Nat} {w h : Rat} (hp : 0 < perLine) (hn : 0 < num) (hc : perLine = 1 ∨ num = 1) (hw : 2/3 ≤ w) (hh : 4 ≤ h ∨ ∃ n : Nat, h = n) :
    ∃ l, ∃ W H : Rat, figSize perLine num (w, h) = .ok (l, W * l.cols, H * l.rows) ∧ l.cols = 1 ∧ l.rows = num ∧
      w ≤ W ∧ W ≤ 5/2 * w ∧ 5/2 * w < W + 1 ∧ h ≤ H ∧ H ≤ 5/4 * h ∧ 5/4 * h < H + 1 := by
  have hcols : (if num < perLine then num else perLine) = 1 := by split <;> omega
  have hW := truncInt_nonneg (q := w * (5/2)) (by linarith)
  have hh0 : 0 ≤ h := by
    rcases hh with hh | ⟨n, rfl⟩
    · linarith
    · exact_mod_cast Nat.zero_le n
  have hH := truncInt_nonneg (q := h * (5/4)) (by linarith)
  have hHh : h ≤ (truncInt (h * (5/4)) : Rat) := by
    rcases hh with hh | ⟨n, rfl⟩
    · linarith [hH.2]
    · have : ((n : Int) : Rat) ≤ (n : Rat) * (5/4) := by
        have : (0 : Rat) ≤ n := by exact_mod_cast Nat.zero_le n
        push_cast; linarith
      have := Int.le_floor.2 this
      unfold truncInt
      rw [if_pos (by linarith)]
      have h2 : (n : Int) ≤ Rat.floor ((n : Rat) * (5/4)) := this
      exact_mod_cast h2
  have h0 : num ≠ 0 := by omega
  refine ⟨{ rows := num, cols := 1, single := num = 1, usecol := num ≠ 1 ∧ num = 1, userow := num ≠ 1 ∧ num ≠ 1 ∧ (1 : Nat) = 1 },
    truncInt (w * (5/2)), truncInt (h * (5/4)), ?_, rfl, rfl, by linarith [hW.2], by linarith [hW.1], by linarith [hW.2], hHh, by linarith [hH.1], by linarith [hH.2]⟩
  unfold figSize mkLayout
  simp only [h0, if_false, hcols, Nat.one_ne_zero, Nat.mod_one, ne_eq, not_true_eq_false, Nat.div_one]
  by_cases h1 : num = 1 <;> simp [h1, scaleSize]

example : figSize 2 3 (7, 5) = .ok ({ rows := 2, cols := 2, single := false, usecol := false, userow := false }, 14, 10) := by decide +kernel
example : figSize 1 3 (7, 5) = .ok ({ rows := 3, cols := 1, single := false, usecol := false, userow := true }, 17, 18) := by decide +kernel

/-- **C153 refuted (the size asked for).** A single plot of length 3/2 is made smaller, one of length 1/2 has no height at all. -/
theorem C153_size_refuted :
    (∃ l, figSize 2 1 (2, 3/2) = .ok (l, 5, 1)) ∧ (∃ l, figSize 2 1 (2, 1/2) = .ok (l, 5, 0)) :=
  ⟨⟨{ rows := 1, cols := 1, single := true, usecol := false, userow := false }, by decide +kernel⟩,
   ⟨{ rows := 1, cols := 1, single := true, usecol := false, userow := false }, by decide +kernel⟩⟩

/-! ### C154: plots of the correlator -/

/-- **C154 refuted (the correlator plots both aggregates).** `Correlator.plot` never draws anything: `PlotLayout` reads the title, which the correlator does not pass and which has no default. -/
theorem C154_drawn_refuted {σ : Type} (perLine span : Nat) (first second : List σ) :
    ∀ drawn, corrPlot perLine span first second ≠ .ok drawn := by
  intro drawn h
  unfold corrPlot plotLayout at h
  split at h
  · cases h
  · rename_i hf
    split at hf
    · cases hf
    · cases hf

/-- **C154 (the failure).** The exception is `KeyError` if there is a group and a plot per line, `RuntimeError` if there is no group. -/
theorem C154_failure {σ : Type} (perLine span : Nat) (first second : List σ) :
    (span = 0 → corrPlot perLine span first second = .error (.layout .noPlots)) ∧
    (0 < span → 0 < perLine → corrPlot perLine span first second = .error .keyError) := by
  constructor
  · rintro rfl
    simp [corrPlot, plotLayout, figSize, mkLayout]
  · intro h1 h2
    have hc : (if span < perLine then span else perLine) ≠ 0 := by split <;> omega
    simp [corrPlot, plotLayout, figSize, mkLayout, show span ≠ 0 by omega, hc]

example : corrPlot 3 4 [1, 2, 3, 4] [5, 6, 7, 8] = .error .keyError := by decide +kernel

/-- **C154 (figures with a title).** With a title, be it `None`, there is a figure; defaults of width and length are 7. -/
theorem C154_layout {perLine num : Nat} (a : LayoutArgs) (hp : 0 < perLine) (hn : 0 < num) (t : Option Str) (ht : a.title = some t) :
    ∃ f, plotLayout perLine num a = .ok f ∧ (f.title = none ↔ t = none ∨ t = some []) ∧ (∀ s, s ≠ [] → (f.title = some s ↔ t = some s)) := by
  have hc : (if num < perLine then num else perLine) ≠ 0 := by split <;> omega
  simp only [plotLayout, figSize, mkLayout, show num ≠ 0 by omega, hc, if_false, ht]
  refine ⟨_, rfl, ?_, fun s hs => ?_⟩
  · cases t with
    | none => simp
    | some s => cases s <;> simp
  · cases t with
    | none => simp
    | some s' => cases s' <;> simp [Ne.symm hs]

example : plotLayout 2 3 { width := none, length := some 5, title := some (some cs!"t") } =
    .ok { layout := { rows := 2, cols := 2, single := false, usecol := false, userow := false }, width := 14, length := 10, title := some cs!"t" } := by decide +kernel

/-! ### C155: `enlarge_axis` -/

theorem pyMinF_none (xs : List Flt) : pyMinF none xs = none := by
  unfold pyMinF
  induction xs with
  | nil => rfl
  | cons x xs ih => cases x <;> simpa [fltLt] using ih

theorem pyMaxF_none (xs : List Flt) : pyMaxF none xs = none := by
  unfold pyMaxF
  induction xs with
  | nil => rfl
  | cons x xs ih => cases x <;> simpa [fltLt] using ih

theorem pyMinF_some (xs : List Flt) : ∀ m : Rat, ∃ r, pyMinF (some m) xs = some r ∧ r ≤ m ∧ (∀ x, some x ∈ xs → r ≤ x) ∧ (r = m ∨ some r ∈ xs) := by
  induction xs with
  | nil => intro m; exact ⟨m, rfl, le_refl _, by simp, .inl rfl⟩
  | cons x xs ih =>
    intro m
    cases x with
    | none =>
      obtain ⟨r, h1, h2, h3, h4⟩ := ih m
      refine ⟨r, by simpa [pyMinF, fltLt] using h1, h2, fun y hy => h3 y (by simpa using hy), by simpa using h4⟩
    | some x =>
      by_cases hx : x < m
      · obtain ⟨r, h1, h2, h3, h4⟩ := ih x
        refine ⟨r, by simpa [pyMinF, fltLt, hx] using h1, by linarith, fun y hy => ?_, .inr ?_⟩
        · simp only [List.mem_cons, Option.some.injEq] at hy
          rcases hy with rfl | hy
          · exact h2
          · exact h3 y hy
        · rcases h4 with rfl | h4
          · exact List.mem_cons_self
          · exact List.mem_cons_of_mem _ h4
      · obtain ⟨r, h1, h2, h3, h4⟩ := ih m
        refine ⟨r, by simpa [pyMinF, fltLt, hx] using h1, h2, fun y hy => ?_, ?_⟩
        · simp only [List.mem_cons, Option.some.injEq] at hy
          rcases hy with rfl | hy
          · linarith [not_lt.1 hx]
          · exact h3 y hy
        · rcases h4 with rfl | h4
          · exact .inl rfl
          · exact .inr (List.mem_cons_of_mem _ h4)

theorem pyMaxF_some (xs : List Flt) : ∀ m : Rat, ∃ r, pyMaxF (some m) xs = some r ∧ m ≤ r ∧ (∀ x, some x ∈ xs → x ≤ r) ∧ (r = m ∨ some r ∈ xs) := by
  induction xs with
  | nil => intro m; exact ⟨m, rfl, le_refl _, by simp, .inl rfl⟩
  | cons x xs ih =>
    intro m
    cases x with
    | none =>
      obtain ⟨r, h1, h2, h3, h4⟩ := ih m
      refine ⟨r, by simpa [pyMaxF, fltLt] using h1, h2, fun y hy => h3 y (by simpa using hy), by simpa using h4⟩
    | some x =>
      by_cases hx : m < x
      · obtain ⟨r, h1, h2, h3, h4⟩ := ih x
        refine ⟨r, by simpa [pyMaxF, fltLt, hx] using h1, by linarith, fun y hy => ?_, .inr ?_⟩
        · simp only [List.mem_cons, Option.some.injEq] at hy
          rcases hy with rfl | hy
          · exact h2
          · exact h3 y hy
        · rcases h4 with rfl | h4
          · exact List.mem_cons_self
          · exact List.mem_cons_of_mem _ h4
      · obtain ⟨r, h1, h2, h3, h4⟩ := ih m
        refine ⟨r, by simpa [pyMaxF, fltLt, hx] using h1, h2, fun y hy => ?_, ?_⟩
        · simp only [List.mem_cons, Option.some.injEq] at hy
          rcases hy with rfl | hy
          · linarith [not_lt.1 hx]
          · exact h3 y hy
        · rcases h4 with rfl | h4
          · exact .inl rfl
          · exact .inr (List.mem_cons_of_mem _ h4)

/-- **C155 (all data are visible).** If the axes of the result are the current ones and the first value is a number, then afterwards the limits enclose all data strictly; they are never narrowed, and
they change only on the side where data touched or crossed them. -/
theorem C155_visible (cur : Rat × Rat) (first : Rat) (rest : List Flt) :
    ∃ lo hi : Rat, axisAfter cur cur (some first :: rest) = some (some lo, some hi) ∧ lo ≤ cur.1 ∧ cur.2 ≤ hi ∧
      (∀ x : Rat, some x ∈ some first :: rest → lo < x ∧ x < hi) ∧
      ((∀ x : Rat, some x ∈ some first :: rest → cur.1 < x) → lo = cur.1) ∧ ((∀ x : Rat, some x ∈ some first :: rest → x < cur.2) → hi = cur.2) := by
  obtain ⟨a, ha, ha1, ha2, ha3⟩ := pyMinF_some rest first
  obtain ⟨b, hb, hb1, hb2, hb3⟩ := pyMaxF_some rest first
  have hma : some a ∈ some first :: rest := by
    rcases ha3 with rfl | h
    · exact List.mem_cons_self
    · exact List.mem_cons_of_mem _ h
  have hmb : some b ∈ some first :: rest := by
    rcases hb3 with rfl | h
    · exact List.mem_cons_self
    · exact List.mem_cons_of_mem _ h
  have hall : ∀ x : Rat, some x ∈ some first :: rest → a ≤ x ∧ x ≤ b := by
    intro x hx
    simp only [List.mem_cons, Option.some.injEq] at hx
    rcases hx with rfl | hx
    · exact ⟨ha1, hb1⟩
    · exact ⟨ha2 x hx, hb2 x hx⟩
  obtain ⟨m, hm, hm1⟩ : ∃ m : Rat, marginOf (some a) (some b) = some m ∧ 1 ≤ m := by
    simp only [marginOf, fltSub, fltTenth, fltLt]
    by_cases h : (b - a) / 10 < 1
    · exact ⟨1, by simp [h], le_refl _⟩
    · exact ⟨(b - a) / 10, by simp [h], not_lt.1 h⟩
  simp only [axisAfter, enlargeAxis, ha, hb, hm, fltLe]
  by_cases h1 : a ≤ cur.1 <;> by_cases h2 : cur.2 ≤ b
  · refine ⟨a - m, b + m, by simp [h1, h2, fltSub, fltAdd], by linarith, by linarith, fun x hx => ?_, fun h => ?_, fun h => ?_⟩
    · have := hall x hx; constructor <;> linarith
    · linarith [h a hma]
    · linarith [h b hmb]
  · refine ⟨a - m, cur.2, by simp [h1, h2, fltSub], by linarith, le_refl _, fun x hx => ?_, fun h => ?_, fun _ => rfl⟩
    · have := hall x hx; constructor <;> linarith
    · linarith [h a hma]
  · refine ⟨cur.1, b + m, by simp [h1, h2, fltAdd], le_refl _, by linarith, fun x hx => ?_, fun _ => rfl, fun h => ?_⟩
    · have := hall x hx; constructor <;> linarith
    · linarith [h b hmb]
  · refine ⟨cur.1, cur.2, by simp [h1, h2], le_refl _, le_refl _, fun x hx => ?_, fun _ => rfl, fun _ => rfl⟩
    have := hall x hx; constructor <;> linarith

example : axisAfter (0, 10) (0, 10) [some 3, none, some 45, some 5] = some (some 0, some (246/5)) := by decide +kernel

/-- **C155 refuted (missing values).** If the first value is NaN then the limits are not touched, whatever the other values are: python's `min` and `max` are NaN. -/
theorem C155_nan_refuted (own cur : Rat × Rat) (rest : List Flt) : axisAfter own cur (none :: rest) = some (some own.1, some own.2) := by
  simp [axisAfter, enlargeAxis, pyMinF_none, pyMaxF_none, fltLe]

/-- **C155 refuted (other axes).** The limits are read from the current axes of matplotlib and set on those of the result: if another figure is current, data may remain outside. -/
theorem C155_other_refuted : ∃ (own cur : Rat × Rat) (x : Rat), axisAfter own cur [some x] = some (some own.1, some own.2) ∧ own.2 < x :=
  ⟨(0, 1), (0, 100), 50, by decide +kernel, by norm_num⟩

/-- **C155 (no data).** Without any data `ValueError` is raised. -/
theorem C155_empty (own cur : Rat × Rat) (data : List Flt) : axisAfter own cur data = none ↔ data = [] := by
  cases data with
  | nil => simp [axisAfter, enlargeAxis]
  | cons x xs =>
    simp only [axisAfter, enlargeAxis, reduceCtorEq, iff_false]
    split <;> rename_i h
    · split at h <;> cases h
    · simp
    · simp

end Trappy
