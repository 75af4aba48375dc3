import Verif.Prop.Thermal
import Verif.Prop.Wa
/-!
# C123 and C124, exactly: which columns are drawn for which actor
-/

namespace Trappy
open Re Py

/-! ## Specification -/

/-- **Specification**: the name is `P`, the actor, `_in` and possibly more, with the actor as long as possible -/
def ReadAsActor (col a : Str) : Prop :=
  '\n' ∉ a ∧ (∃ y, col = 'P' :: a ++ cs!"_in" ++ y) ∧ ∀ b y, '\n' ∉ b → col = 'P' :: b ++ cs!"_in" ++ y → b.length ≤ a.length

/-- **Specification**: the actors of all columns but `Ptot_in`, in the order of the columns -/
inductive ActorsRead : List Str → List Str → Prop where
  | nil : ActorsRead [] []
  | take {c a : Str} {cs as : List Str} (h : ReadAsActor c a) (hne : c ≠ cs!"Ptot_in") (hs : ActorsRead cs as) : ActorsRead (c :: cs) (a :: as)
  | skip {c : Str} {cs as : List Str} (h : c = cs!"Ptot_in" ∨ ∀ a, ¬ ReadAsActor c a) (hs : ActorsRead cs as) : ActorsRead (c :: cs) as

/-! ## Lemmas -/

theorem readAsActor_match {c a : Str} (h : ReadAsActor c a) : ∃ y, matchPrefix inColRe c = some ([(1, a)], y) := by
  obtain ⟨hnl, ⟨y, rfl⟩, hmax⟩ := h
  refine ⟨y, ?_⟩
  unfold matchPrefix inColRe
  simp only [m, List.cons_append, List.append_assoc]
  rw [m_lit_cons]
  apply mStar_last a
  · intro ch hc
    simp only [notNl, bne_iff_ne, ne_eq]
    rintro rfl
    exact hnl hc
  · have := m_str (α := List (Nat × Str) × Str) cs!"_in" y [(1, (a ++ (cs!"_in" ++ y)).take ((a ++ (cs!"_in" ++ y)).length - (cs!"_in" ++ y).length))] fun s' c => some (c, s')
    refine Eq.trans this ?_
    simp
  · intro pre post e hne hp
    apply m_none_of
    intro x z e' hx
    rw [matches_str hx] at e'
    have hb := hmax (a ++ pre) z (by
      rw [List.mem_append]
      rintro (h | h)
      · exact hnl h
      · have := hp _ h
        simp [notNl] at this) (by
      have : 'P' :: a ++ cs!"_in" ++ y = 'P' :: a ++ (pre ++ post) := by rw [← e]; simp
      rw [this, e']
      simp)
    have : pre.length ≠ 0 := by simpa [List.length_eq_zero_iff] using hne
    rw [List.length_append] at hb
    omega

theorem readAsActor_of {c : Str} (h : InCol c) : ∃ a, ReadAsActor c a := by
  obtain ⟨x, y, hx, rfl⟩ := h
  have key : ∀ n (x y : Str), n = y.length → '\n' ∉ x → ∃ a, ReadAsActor ('P' :: x ++ cs!"_in" ++ y) a := by
    intro n
    induction n using Nat.strongRecOn with
    | _ n ih =>
      intro x y hn hx
      by_cases hmax : ∀ b z, '\n' ∉ b → 'P' :: x ++ cs!"_in" ++ y = 'P' :: b ++ cs!"_in" ++ z → b.length ≤ x.length
      · exact ⟨x, hx, ⟨y, rfl⟩, hmax⟩
      · simp only [not_forall] at hmax
        obtain ⟨b, z, hb, e, hlt⟩ := hmax
        rw [e]
        refine ih z.length ?_ b z rfl hb
        have := congrArg List.length e
        simp at this
        omega
  exact key _ x y rfl hx

theorem readAsActor_unique {c a b : Str} (ha : ReadAsActor c a) (hb : ReadAsActor c b) : a = b := by
  obtain ⟨y, h⟩ := readAsActor_match ha
  obtain ⟨z, h'⟩ := readAsActor_match hb
  rw [h] at h'
  cases h'
  rfl

theorem inoutActors_read {cols as : List Str} (h : ActorsRead cols as) : inoutActors cols = as := by
  unfold inoutActors
  induction h with
  | nil => rfl
  | @take c a cs as h hne _ ih =>
    obtain ⟨y, hm⟩ := readAsActor_match h
    rw [List.filterMap_cons, hm]
    simp only [if_neg hne]
    rw [ih]
    rfl
  | @skip c cs as h _ ih =>
    rw [List.filterMap_cons]
    cases hm : matchPrefix inColRe c with
    | none => exact ih
    | some v =>
      rcases h with h | h
      · simp only [h, if_true]
        exact ih
      · obtain ⟨a, ha⟩ := readAsActor_of ((inCol_match c).1 (by rw [hm]; rfl))
        exact absurd ha (h a)

theorem actorsRead_exists (cols : List Str) : ∃ as, ActorsRead cols as := by
  induction cols with
  | nil => exact ⟨[], .nil⟩
  | cons c cs ih =>
    obtain ⟨as, ih⟩ := ih
    by_cases h : c = cs!"Ptot_in" ∨ ∀ a, ¬ ReadAsActor c a
    · exact ⟨as, .skip h ih⟩
    · rw [not_or, not_forall] at h
      obtain ⟨h1, a, h2⟩ := h
      exact ⟨a :: as, .take (Classical.not_not.1 h2) h1 ih⟩

theorem lookup_isSome_mem {ν : Type} (columns : List (Str × ν)) (s : Str) : (columns.lookup s).isSome ↔ s ∈ columns.map Prod.fst := by
  induction columns with
  | nil => simp
  | cons c cs ih =>
    obtain ⟨k, v⟩ := c
    by_cases h : s = k
    · simp [List.lookup, h]
    · have hb : (s == k) = false := by simpa using h
      simp only [List.lookup, hb, List.map_cons, List.mem_cons, h, false_or]
      exact ih

theorem inoutPlots_iff {ν : Type} (columns : List (Str × ν)) (as : List Str) (ps : List (Str × ν × ν)) :
    inoutPlots columns as = some ps ↔ ps.map Prod.fst = as ∧ ∀ p ∈ ps, columns.lookup ('P' :: p.1 ++ cs!"_in") = some p.2.1 ∧ columns.lookup ('P' :: p.1 ++ cs!"_out") = some p.2.2 := by
  induction as generalizing ps with
  | nil =>
    rw [inoutPlots]
    constructor
    · rintro ⟨⟩
      exact ⟨rfl, by simp⟩
    · rintro ⟨h, _⟩
      rw [List.map_eq_nil_iff] at h
      rw [h]
  | cons a as ih =>
    rw [inoutPlots]
    constructor
    · intro h
      split at h
      next i o hi ho =>
        cases hr : inoutPlots columns as with
        | none => rw [hr] at h; cases h
        | some qs =>
          rw [hr] at h
          cases h
          obtain ⟨h1, h2⟩ := (ih qs).1 hr
          refine ⟨by simp [h1], ?_⟩
          intro p hp
          rcases List.mem_cons.1 hp with rfl | hp
          · exact ⟨hi, ho⟩
          · exact h2 p hp
      next => cases h
    · rintro ⟨h1, h2⟩
      cases ps with
      | nil => simp at h1
      | cons p ps =>
        obtain ⟨n, i, o⟩ := p
        simp only [List.map_cons, List.cons.injEq] at h1
        obtain ⟨rfl, h1⟩ := h1
        obtain ⟨hi, ho⟩ := h2 _ List.mem_cons_self
        rw [hi, ho, (ih ps).2 ⟨h1, fun p hp => h2 p (List.mem_cons_of_mem _ hp)⟩]

theorem inoutPlots_none {ν : Type} (columns : List (Str × ν)) (as : List Str) :
    inoutPlots columns as = none ↔ ∃ a ∈ as, 'P' :: a ++ cs!"_in" ∉ columns.map Prod.fst ∨ 'P' :: a ++ cs!"_out" ∉ columns.map Prod.fst := by
  induction as with
  | nil => simp [inoutPlots]
  | cons a as ih =>
    rw [inoutPlots, List.exists_mem_cons_iff, ← ih, ← lookup_isSome_mem, ← lookup_isSome_mem]
    cases hi : columns.lookup ('P' :: a ++ cs!"_in") with
    | none => simp
    | some i =>
      cases ho : columns.lookup ('P' :: a ++ cs!"_out") with
      | none => simp
      | some o =>
        cases inoutPlots columns as <;> simp

/-! ## C124 -/

/-- **C124, exactly.** For all tables: the actors are read from the names of the columns, from each but `Ptot_in` the longest text between `P` and `_in`, whatever follows. The call raises a `KeyError`
exactly if an input or output column of one of them is missing; otherwise one plot is drawn for each of them, in this order, with its columns. -/
theorem C124_exact {ν : Type} (columns : List (Str × ν)) : ∃ actors, ActorsRead (columns.map Prod.fst) actors ∧
    (plotInoutPower columns = none ↔ ∃ a ∈ actors, 'P' :: a ++ cs!"_in" ∉ columns.map Prod.fst ∨ 'P' :: a ++ cs!"_out" ∉ columns.map Prod.fst) ∧
    ∀ ps, plotInoutPower columns = some ps ↔ ps.map Prod.fst = actors ∧
      ∀ p ∈ ps, columns.lookup ('P' :: p.1 ++ cs!"_in") = some p.2.1 ∧ columns.lookup ('P' :: p.1 ++ cs!"_out") = some p.2.2 := by
  obtain ⟨as, h⟩ := actorsRead_exists (columns.map Prod.fst)
  refine ⟨as, h, ?_, fun ps => ?_⟩
  · unfold plotInoutPower
    rw [inoutActors_read h, inoutPlots_none]
  · unfold plotInoutPower
    rw [inoutActors_read h, inoutPlots_iff]

/-- **C124, refuted for all such tables.** Whenever a column begins like an input column but goes on, and the shorter name is no column, nothing at all is drawn. -/
theorem C124_longer_refuted {ν : Type} (columns : List (Str × ν)) (col : Str) (hcol : col ∈ columns.map Prod.fst) (x y : Str) (hx : '\n' ∉ x) (he : col = 'P' :: x ++ cs!"_in" ++ y)
    (hno : ∀ b z, col = 'P' :: b ++ cs!"_in" ++ z → 'P' :: b ++ cs!"_in" ∉ columns.map Prod.fst) : plotInoutPower columns = none := by
  obtain ⟨as, h, hnone, hsome⟩ := C124_exact columns
  rw [hnone]
  obtain ⟨a, ha⟩ := readAsActor_of ⟨x, y, hx, he⟩
  have hne : col ≠ cs!"Ptot_in" := by
    rintro rfl
    exact hno cs!"tot" [] rfl hcol
  obtain ⟨z, hz⟩ := ha.2.1
  refine ⟨a, ?_, .inl (hno a z hz)⟩
  clear hnone hsome hno he hz
  generalize columns.map Prod.fst = cols at h hcol
  induction h with
  | nil => cases hcol
  | @take c b cs as hb hb' _ ih =>
    rcases List.mem_cons.1 hcol with rfl | hc
    · rw [readAsActor_unique ha hb]
      exact List.mem_cons_self
    · exact List.mem_cons_of_mem _ (ih hc)
  | @skip c cs as hb _ ih =>
    rcases List.mem_cons.1 hcol with rfl | hc
    · rcases hb with hb | hb
      · exact absurd hb hne
      · exact absurd ha (hb a)
    · exact ih hc

/-- the hypotheses: the table of `C124_prefix_refuted` -/
example : plotInoutPower [(cs!"PA15_in", 10), (cs!"PA15_out", 9), (cs!"Pmax_interval", 4)] = none :=
  C124_longer_refuted _ cs!"Pmax_interval" (by decide) cs!"max" cs!"terval" (by decide) rfl (by
    intro b z e h
    have h' : 'P' :: b ++ cs!"_in" = cs!"PA15_in" ∨ 'P' :: b ++ cs!"_in" = cs!"PA15_out" ∨ 'P' :: b ++ cs!"_in" = cs!"Pmax_interval" := by simpa using h
    rcases h' with h | h | h
    · rw [h] at e
      revert e
      simp
    · have := congrArg List.getLast? h
      rw [List.getLast?_append] at this
      simp at this
    · have := congrArg List.getLast? h
      rw [List.getLast?_append] at this
      simp at this)

/-- `ActorsRead`: from the longer name the same actor is read, who is drawn twice -/
example : plotInoutPower [(cs!"Ptot_in", 1), (cs!"PA15_in", 10), (cs!"PA15_out", 9), (cs!"PA15_in_max", 4)] = some [(cs!"A15", 10, 9), (cs!"A15", 10, 9)] := by decide +kernel

/-! ## C123 -/

theorem actorCols_sublist {ν : Type} {word : Str} {columns req : List (Str × ν)} (h : ActorCols word columns req) : req.Sublist columns := by
  induction h with
  | nil => exact .slnil
  | take _ _ ih => exact ih.cons_cons _
  | skip _ _ ih => exact ih.cons _

theorem lookup_mem_pair {ν : Type} {columns : List (Str × ν)} {s : Str} {v : ν} (h : columns.lookup s = some v) : (s, v) ∈ columns := by
  induction columns with
  | nil => cases h
  | cons c cs ih =>
    obtain ⟨k, w⟩ := c
    by_cases hk : s = k
    · subst hk
      simp [List.lookup] at h
      simp [h]
    · have hb : (s == k) = false := by simpa using hk
      simp only [List.lookup, hb] at h
      exact List.mem_cons_of_mem _ (ih h)

/-- **C123, exactly.** For all tables of different columns: every name of the list is drawn with the column of its number, if and only if the columns named after the word and a number are `word0`,
`word1`, … in this order, one for each name. -/
theorem C123_exact {ν : Type} (word : Str) (columns req : List (Str × ν)) (actors : List Str) (h : ActorCols word columns req) (hnd : (columns.map Prod.fst).Nodup)
    (hdiff : (columns.map Prod.snd).Nodup) :
    (∃ ps, powerPlot word columns actors = some ps ∧ ∀ (k : Nat) (a : Str), actors[k]? = some a → ∃ v, columns.lookup (word ++ natStr k) = some v ∧ ps[k]? = some (a, v)) ↔
      req.map Prod.fst = (List.range actors.length).map fun k => word ++ natStr k := by
  constructor
  · rintro ⟨ps, hps, hk⟩
    rw [C123_positional word columns req actors h] at hps
    split at hps
    next hlen =>
      cases hps
      apply List.ext_getElem?
      intro k
      rw [List.getElem?_map, List.getElem?_map]
      by_cases hlt : k < actors.length
      · obtain ⟨v, hv, hz⟩ := hk k actors[k] (List.getElem?_eq_getElem hlt)
        rw [List.getElem?_zip_eq_some] at hz
        have hz := hz.2
        rw [List.getElem?_map] at hz
        obtain ⟨c, hc, hcv⟩ := Option.map_eq_some_iff.1 hz
        have hmem := (actorCols_sublist h).subset (List.mem_of_getElem? hc)
        have hmem' := lookup_mem_pair hv
        have : c = (word ++ natStr k, v) := List.inj_on_of_nodup_map hdiff hmem hmem' hcv
        rw [hc, List.getElem?_range hlt, this]
        rfl
      · rw [List.getElem?_eq_none (by omega), List.getElem?_eq_none (by simp; omega)]
        rfl
    next => cases hps
  · intro hord
    obtain ⟨ps, h1, _, h2⟩ := C123_power_partial word columns req actors h hord (((actorCols_sublist h).map Prod.fst).nodup hnd)
    exact ⟨ps, h1, h2⟩

/-- the hypotheses: two columns in the wrong order -/
example : ActorCols cs!"req_power" [(cs!"req_power1", 20), (cs!"temp", 5), (cs!"req_power0", 10)] [(cs!"req_power1", 20), (cs!"req_power0", 10)] ∧
    [cs!"req_power1", cs!"req_power0"] ≠ (List.range 2).map fun k => cs!"req_power" ++ natStr k := by
  refine ⟨.take ⟨'1', [], rfl, rfl⟩ (.skip ?_ (.take ⟨'0', [], rfl, rfl⟩ .nil)), by decide +kernel⟩
  rintro ⟨d, r, _, e⟩
  simp at e

end Trappy
