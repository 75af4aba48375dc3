import Verif.Model.Stats
import Verif.Lemma.Power
/-!
# C61, C92: aggregation
-/

namespace Trappy

theorem nset_lookup {β : Type} (d : List (Nat × β)) (k j : Nat) (v : β) : (nset d k v).lookup j = if k = j then some v else d.lookup j := by
  induction d with
  | nil =>
    by_cases h : k = j
    · subst h; simp [nset]
    · rw [nset, lookup_ne (fun e => h e.symm), if_neg h]
  | cons x d ih =>
    obtain ⟨k', v'⟩ := x
    unfold nset
    split
    · rename_i e
      subst e
      by_cases h : k' = j
      · subst h; simp
      · rw [lookup_ne (fun e => h e.symm), if_neg h, lookup_ne (fun e => h e.symm)]
    · rename_i e
      by_cases h : k' = j
      · subst h
        rw [if_neg (fun e' => e e'.symm)]
        simp
      · rw [lookup_ne (fun e => h e.symm), ih, lookup_ne (fun e => h e.symm)]

theorem nset_keys {β : Type} (d : List (Nat × β)) (k : Nat) (v : β) (h : k ∈ d.map Prod.fst) : (nset d k v).map Prod.fst = d.map Prod.fst := by
  induction d with
  | nil => simp at h
  | cons x d ih =>
    obtain ⟨k', v'⟩ := x
    unfold nset
    split
    · rename_i e; simp [e]
    · rename_i e
      simp only [List.map_cons, List.mem_cons] at h
      rcases h with h | h
      · exact absurd h.symm e
      · simp [ih h]

/-- the series after the assignments of `_add_result` -/
theorem assign_lookup (s r : TSeries) (t : Nat) (hn : (s.map Prod.fst).Nodup) :
    (s.foldl (fun r x => nset r x.1 x.2) r).lookup t = (s.lookup t).or (r.lookup t) := by
  induction s generalizing r with
  | nil => simp
  | cons x s ih =>
    rw [List.map_cons, List.nodup_cons] at hn
    rw [List.foldl_cons, ih _ hn.2, nset_lookup]
    by_cases h : x.1 = t
    · subst h
      have : s.lookup x.1 = none := by
        rw [List.lookup_eq_none_iff]
        intro p hp
        have : x.1 ≠ p.1 := fun e => hn.1 (List.mem_map.mpr ⟨p, hp, e.symm⟩)
        simpa using this
      obtain ⟨a, b⟩ := x
      rw [show List.lookup a s = none from this]
      simp
    · obtain ⟨a, b⟩ := x
      rw [lookup_ne (fun e => h e.symm), if_neg h]

theorem assign_keys (s r : TSeries) (h : ∀ t ∈ s.map Prod.fst, t ∈ r.map Prod.fst) :
    (s.foldl (fun r x => nset r x.1 x.2) r).map Prod.fst = r.map Prod.fst := by
  induction s generalizing r with
  | nil => rfl
  | cons x s ih =>
    have hx := nset_keys r x.1 x.2 (h x.1 (by simp))
    rw [List.foldl_cons, ih, hx]
    intro t ht
    rw [hx]
    exact h t (by simp [ht])

theorem zeroSeries_keys (index : List Nat) : (zeroSeries index).map Prod.fst = index := by
  unfold zeroSeries; rw [List.map_map]; exact List.map_id _

theorem zeroSeries_lookup (index : List Nat) (t : Nat) (h : t ∈ index) : (zeroSeries index).lookup t = some (some 0) := by
  unfold zeroSeries
  induction index with
  | nil => simp at h
  | cons u us ih =>
    by_cases e : t = u
    · subst e; simp
    · rw [List.map_cons, lookup_ne e]
      exact ih (by simpa [e] using h)

/-- The series of a node: on the index, and by trigger as claimed. -/
def IsBase (index : List Nat) (gs : List TrigGen) (n : Nat) (r : TSeries) : Prop :=
  r.map Prod.fst = index ∧
  (∀ t ∈ index, (∀ g ∈ gs, ∀ s, g n = .ok s → s.lookup t = none) → r.lookup t = some (some 0)) ∧
  (∀ t ∈ index, ∀ (i : Nat) g s v, gs[i]? = some g → g n = .ok s → s.lookup t = some v →
    (∀ (j : Nat) g' s', i < j → gs[j]? = some g' → g' n = .ok s' → s'.lookup t = none) → r.lookup t = some v)

/-- a trigger gives distinct times of the index -/
def TrigOk (index nodes : List Nat) (g : TrigGen) : Prop :=
  ∀ n ∈ nodes, ∃ s, g n = .ok s ∧ (s.map Prod.fst).Nodup ∧ ∀ t ∈ s.map Prod.fst, t ∈ index

theorem isBase_snoc (index : List Nat) (gs : List TrigGen) (g : TrigGen) (n : Nat) (r s : TSeries) (hs : g n = .ok s)
    (hn : (s.map Prod.fst).Nodup) (hi : ∀ t ∈ s.map Prod.fst, t ∈ index) (hr : IsBase index gs n r) :
    IsBase index (gs ++ [g]) n (s.foldl (fun r x => nset r x.1 x.2) r) := by
  obtain ⟨h1, h2, h3⟩ := hr
  refine ⟨?_, ?_, ?_⟩
  · rw [assign_keys _ _ (by rw [h1]; exact hi), h1]
  · intro t ht hnone
    rw [assign_lookup s r t hn, hnone g (by simp) s hs, Option.none_or]
    exact h2 t ht (fun g' hg' => hnone g' (by simp [hg']))
  · intro t ht i g' s' v hgi hgn hv hlast
    rw [assign_lookup s r t hn]
    by_cases hlt : i < gs.length
    · have hl : (gs ++ [g])[gs.length]? = some g := by simp
      rw [hlast gs.length g s hlt hl hs, Option.none_or]
      rw [List.getElem?_append_left hlt] at hgi
      refine h3 t ht i g' s' v hgi hgn hv ?_
      intro j g'' s'' hij hgj hgn'
      refine hlast j g'' s'' hij ?_ hgn'
      have hj : j < gs.length := by
        rcases Nat.lt_or_ge j gs.length with h | h
        · exact h
        · rw [List.getElem?_eq_none h] at hgj; simp at hgj
      rw [List.getElem?_append_left hj]; exact hgj
    · have hi' : i = gs.length := by
        have := (List.getElem?_eq_some_iff.mp hgi).1
        simp at this; omega
      subst hi'
      have : g' = g := by simpa using hgi.symm
      subst this
      have : s' = s := by rw [hs] at hgn; injection hgn with h; exact h.symm
      subst this
      rw [hv]; simp

theorem isBase_zero (index : List Nat) (n : Nat) : IsBase index [] n (zeroSeries index) :=
  ⟨zeroSeries_keys index, fun t ht _ => zeroSeries_lookup index t ht, by intro t _ i g s v h; simp at h⟩

theorem addResult_lookup (index : List Nat) (store : List (Nat × TSeries)) (n m : Nat) (s : TSeries) : (addResult index store n s).lookup m =
    if n = m then some (s.foldl (fun r x => nset r x.1 x.2) (match store.lookup n with | some r => r | none => zeroSeries index))
    else store.lookup m := by
  unfold addResult
  rw [nset_lookup]
  rfl

theorem baseNodes_spec (index : List Nat) (gs : List TrigGen) (g : TrigGen) (ns : List Nat) (hnd : ns.Nodup) :
    ∀ store : List (Nat × TSeries), (∀ n ∈ ns, ∃ s, g n = .ok s ∧ (s.map Prod.fst).Nodup ∧ ∀ t ∈ s.map Prod.fst, t ∈ index) →
    (∀ n ∈ ns, IsBase index gs n (match store.lookup n with | some r => r | none => zeroSeries index)) →
    ∃ store', baseNodes index g ns store = .ok store' ∧ (∀ n ∈ ns, ∃ r, store'.lookup n = some r ∧ IsBase index (gs ++ [g]) n r) ∧
      (∀ n, n ∉ ns → store'.lookup n = store.lookup n) := by
  induction ns with
  | nil => intro store _ _; exact ⟨store, rfl, by simp, by simp⟩
  | cons n ns ih =>
    intro store hg hb
    rw [List.nodup_cons] at hnd
    obtain ⟨s, hs, h1, h2⟩ := hg n (by simp)
    have hlook := addResult_lookup index store n
    obtain ⟨store', e1, e2, e3⟩ := ih hnd.2 (addResult index store n s) (fun m hm => hg m (by simp [hm])) (by
      intro m hm
      rw [hlook, if_neg (by rintro rfl; exact hnd.1 hm)]
      exact hb m (by simp [hm]))
    refine ⟨store', ?_, ?_, ?_⟩
    · simp only [baseNodes, hs]; exact e1
    · intro m hm
      rcases List.mem_cons.mp hm with rfl | hm
      · refine ⟨_, by rw [e3 m hnd.1, hlook, if_pos rfl], ?_⟩
        exact isBase_snoc index gs g m _ s hs h1 h2 (hb m (by simp))
      · exact e2 m hm
    · intro m hm
      simp only [List.mem_cons, not_or] at hm
      rw [e3 m hm.2, hlook, if_neg (fun e => hm.1 e.symm)]

theorem aggregateBase_spec (index nodes : List Nat) (hnd : nodes.Nodup) (gs : List TrigGen) :
    ∀ (pre : List TrigGen) (store : List (Nat × TSeries)), (∀ g ∈ gs, TrigOk index nodes g) →
    (∀ n ∈ nodes, IsBase index pre n (match store.lookup n with | some r => r | none => zeroSeries index)) →
    ∃ store', aggregateBase index nodes gs store = .ok store' ∧
      (∀ n ∈ nodes, IsBase index (pre ++ gs) n (match store'.lookup n with | some r => r | none => zeroSeries index)) ∧
      (gs ≠ [] → ∀ n ∈ nodes, (store'.lookup n).isSome = true) := by
  induction gs with
  | nil => intro pre store _ hb; exact ⟨store, rfl, by simpa using hb, by simp⟩
  | cons g gs ih =>
    intro pre store hg hb
    obtain ⟨store1, e1, e2, _⟩ := baseNodes_spec index pre g nodes hnd store (hg g (by simp)) hb
    obtain ⟨store', f1, f2, f3⟩ := ih (pre ++ [g]) store1 (fun g' h' => hg g' (by simp [h'])) (by
      intro n hn
      obtain ⟨r, hr, hbr⟩ := e2 n hn
      rw [hr]; exact hbr)
    refine ⟨store', ?_, by simpa using f2, ?_⟩
    · simp only [aggregateBase, e1]; exact f1
    · intro _ n hn
      by_cases hgs : gs = []
      · subst hgs
        simp only [aggregateBase, Except.ok.injEq] at f1
        subst f1
        obtain ⟨r, hr, _⟩ := e2 n hn
        rw [hr]; rfl
      · exact f3 hgs n hn

/-- **C61.** The base series: for every (non-empty) list of triggers and every node, on the index of the aggregator, the value at a time
is the one of the last trigger that has data for the node at that time, and zero if none has. -/
theorem C61_base (index nodes : List Nat) (hnd : nodes.Nodup) (gs : List TrigGen) (hne : gs ≠ []) (hg : ∀ g ∈ gs, TrigOk index nodes g) :
    ∃ store, aggregateBase index nodes gs [] = .ok store ∧ ∀ n ∈ nodes, ∃ r, store.lookup n = some r ∧ IsBase index gs n r := by
  obtain ⟨store, h1, h2, h3⟩ := aggregateBase_spec index nodes hnd gs [] [] hg (by intro n _; exact isBase_zero index n)
  refine ⟨store, h1, ?_⟩
  intro n hn
  have := h3 hne n hn
  obtain ⟨r, hr⟩ := Option.isSome_iff_exists.mp this
  have h := h2 n hn
  rw [hr] at h
  exact ⟨r, hr, by simpa using h⟩

/-! ## With an aggregation function -/

theorem aggRest_ok {γ : Type} (f : TSeries → γ) (add : γ → γ → γ) (store : List (Nat × TSeries)) (base : Nat → TSeries) (ns : List Nat) (acc : γ)
    (h : ∀ n ∈ ns, store.lookup n = some (base n)) : aggRest f add store ns acc = .ok (ns.foldl (fun a n => add a (f (base n))) acc) := by
  induction ns generalizing acc with
  | nil => rfl
  | cons n ns ih =>
    simp only [aggRest, h n (by simp), List.foldl_cons]
    exact ih _ (fun m hm => h m (by simp [hm]))

/-- the result claimed for a group: the sum over its nodes -/
def GroupSum {γ : Type} (f : TSeries → γ) (add : γ → γ → γ) (base : Nat → TSeries) : List Nat → γ → Prop
  | [], _ => False
  | n :: ns, v => v = ns.foldl (fun a m => add a (f (base m))) (f (base n))

theorem aggregateWith_ok {γ : Type} (f : TSeries → γ) (add : γ → γ → γ) (store : List (Nat × TSeries)) (base : Nat → TSeries) (groups : List (List Nat))
    (hne : ∀ g ∈ groups, g ≠ []) (h : ∀ g ∈ groups, ∀ n ∈ g, store.lookup n = some (base n)) :
    ∃ r, aggregateWith f add store groups = .ok r ∧ List.Forall₂ (GroupSum f add base) groups r := by
  induction groups with
  | nil => exact ⟨[], rfl, List.Forall₂.nil⟩
  | cons g gs ih =>
    obtain ⟨r, h1, h2⟩ := ih (fun g hg => hne g (by simp [hg])) (fun g hg => h g (by simp [hg]))
    cases g with
    | nil => exact absurd rfl (hne [] (by simp))
    | cons n ns =>
      have hb := h (n :: ns) (by simp)
      refine ⟨_ :: r, ?_, List.Forall₂.cons rfl h2⟩
      simp only [aggregateWith, hb n (by simp), aggRest_ok f add store base ns _ (fun m hm => hb m (by simp [hm])), h1]

/-- **C61, with an aggregation function** that returns a new object: for every sequence of calls, at any levels, the result of each call is, for each
group, the sum of the processed base series of its nodes; so equal calls give equal results. -/
theorem C61_repeatable_partial {γ : Type} (index nodes : List Nat) (hnd : nodes.Nodup) (gs : List TrigGen) (hgs : gs ≠ [])
    (hg : ∀ g ∈ gs, TrigOk index nodes g) (f : TSeries → γ) (add : γ → γ → γ) :
    ∃ base : Nat → TSeries, (∀ n ∈ nodes, IsBase index gs n (base n)) ∧
      ∀ calls : List (List (List Nat)), (∀ c ∈ calls, ∀ g ∈ c, g ≠ [] ∧ ∀ n ∈ g, n ∈ nodes) →
        List.Forall₂ (fun c r => ∃ vs, r = Except.ok vs ∧ List.Forall₂ (GroupSum f add base) c vs) calls
          (AggObj.new.runWith index nodes gs f add calls) := by
  obtain ⟨store, h1, h2⟩ := C61_base index nodes hnd gs hgs hg
  have hbase : ∀ n, ∃ r, n ∈ nodes → store.lookup n = some r ∧ IsBase index gs n r := by
    intro n
    by_cases hn : n ∈ nodes
    · obtain ⟨r, hr⟩ := h2 n hn; exact ⟨r, fun _ => hr⟩
    · exact ⟨[], fun h => absurd h hn⟩
  choose base hb using hbase
  refine ⟨base, fun n hn => (hb n hn).2, ?_⟩
  have hready : ∀ calls : List (List (List Nat)), (∀ c ∈ calls, ∀ g ∈ c, g ≠ [] ∧ ∀ n ∈ g, n ∈ nodes) →
      ∀ a : AggObj, a.prepare index nodes gs = .ok ⟨store, true⟩ →
        List.Forall₂ (fun c r => ∃ vs, r = Except.ok vs ∧ List.Forall₂ (GroupSum f add base) c vs) calls
          (a.runWith index nodes gs f add calls) := by
    intro calls
    induction calls with
    | nil => intro _ a _; exact List.Forall₂.nil
    | cons c cs ih =>
      intro hc a ha
      obtain ⟨vs, hv1, hv2⟩ := aggregateWith_ok f add store base c (fun g hg => (hc c (by simp) g hg).1)
        (fun g hg n hn => (hb n ((hc c (by simp) g hg).2 n hn)).1)
      have hcall : a.callWith index nodes gs f add c = (⟨store, true⟩, .ok vs) := by
        simp only [AggObj.callWith, ha, hv1]
      simp only [AggObj.runWith, hcall]
      refine List.Forall₂.cons ⟨vs, rfl, hv2⟩ (ih (fun c hcs => hc c (by simp [hcs])) _ ?_)
      simp [AggObj.prepare]
  intro calls hc
  apply hready calls hc
  simp [AggObj.prepare, AggObj.new, h1]

/-! ## Without one -/

theorem addInPlace_ok (first : Nat) (ns : List Nat) (hf : first ∉ ns) (base : Nat → TSeries) : ∀ (store : List (Nat × TSeries)) (acc : TSeries),
    store.lookup first = some acc → (∀ n ∈ ns, store.lookup n = some (base n)) →
    ∃ store', addInPlace first ns store = .ok store' ∧ store'.lookup first = some (ns.foldl (fun a m => saddVals a (base m)) acc) ∧
      ∀ m, m ≠ first → store'.lookup m = store.lookup m := by
  induction ns with
  | nil => intro store acc h _; exact ⟨store, rfl, h, fun _ _ => rfl⟩
  | cons n ns ih =>
    intro store acc h hb
    simp only [List.mem_cons, not_or] at hf
    obtain ⟨store', e1, e2, e3⟩ := ih hf.2 (nset store first (saddVals acc (base n))) (saddVals acc (base n))
      (by rw [nset_lookup, if_pos rfl]) (by
        intro m hm
        rw [nset_lookup, if_neg (by rintro rfl; exact hf.2 hm)]
        exact hb m (by simp [hm]))
    refine ⟨store', ?_, e2, ?_⟩
    · simp only [addInPlace, h, hb n (by simp)]; exact e1
    · intro m hm
      rw [e3 m hm, nset_lookup, if_neg (fun e => hm e.symm)]

theorem aggGroups_ok (base : Nat → TSeries) (groups : List (List Nat)) (hne : ∀ g ∈ groups, g ≠ []) :
    ∀ store : List (Nat × TSeries), (groups.flatten).Nodup → (∀ g ∈ groups, ∀ n ∈ g, store.lookup n = some (base n)) →
    ∃ store' refs, aggGroups groups store = .ok (store', refs) ∧
      List.Forall₂ (fun g n => ∃ s, store'.lookup n = some s ∧ GroupSum id saddVals base g s) groups refs ∧
      (∀ m, m ∉ groups.flatten → store'.lookup m = store.lookup m) := by
  induction groups with
  | nil => intro store _ _; exact ⟨store, [], rfl, List.Forall₂.nil, fun _ _ => rfl⟩
  | cons g gs ih =>
    intro store hnd hb
    cases g with
    | nil => exact absurd rfl (hne [] (by simp))
    | cons n ns =>
      have hnd2 := hnd
      simp only [List.flatten_cons, List.cons_append, List.nodup_cons, List.mem_append, not_or] at hnd
      obtain ⟨⟨hn1, hn2⟩, hnd⟩ := hnd
      rw [List.nodup_append] at hnd
      obtain ⟨store1, e1, e2, e3⟩ := addInPlace_ok n ns hn1 base store (base n) (hb (n :: ns) (by simp) n (by simp))
        (fun m hm => hb (n :: ns) (by simp) m (by simp [hm]))
      obtain ⟨store', refs, f1, f2, f3⟩ := ih (fun g hg => hne g (by simp [hg])) store1 hnd.2.1 (by
        intro g hg m hm
        rw [e3 m (by rintro rfl; exact hn2 (List.mem_flatten.mpr ⟨g, hg, hm⟩))]
        exact hb g (by simp [hg]) m hm)
      refine ⟨store', n :: refs, ?_, List.Forall₂.cons ⟨_, ?_, rfl⟩ f2, ?_⟩
      · simp only [aggGroups, hb (n :: ns) (by simp) n (by simp), e1, f1]
      · rw [f3 n hn2, e2]; rfl
      · intro m hm
        simp only [List.flatten_cons, List.cons_append, List.mem_cons, List.mem_append, not_or] at hm
        rw [f3 m hm.2.2, e3 m hm.1]

/-- the sum of cells: NaN if one of them is -/
def CellSum (vals : List (Option Rat)) (r : Option Rat) : Prop :=
  (∃ qs : List Rat, vals = qs.map some ∧ r = some qs.sum) ∨ (none ∈ vals ∧ r = none)

/-- the series claimed for a group: on the index, and at each time the sum of the values of its nodes -/
def SeriesSum (index : List Nat) (base : Nat → TSeries) (g : List Nat) (v : TSeries) : Prop :=
  v.map Prod.fst = index ∧ ∀ (i : Nat) (vals : List (Option Rat)), vals.length = g.length → (∀ (j n : Nat) (x : Option Rat), g[j]? = some n → vals[j]? = some x → ((base n).map Prod.snd)[i]? = some x) →
    i < index.length → ∃ r, (v.map Prod.snd)[i]? = some r ∧ CellSum vals r

theorem saddVals_fst (a b : TSeries) (h : a.length = b.length) : (saddVals a b).map Prod.fst = a.map Prod.fst := by
  induction a generalizing b with
  | nil => rfl
  | cons x a ih =>
    cases b with
    | nil => simp at h
    | cons y b =>
      show x.1 :: (saddVals a b).map Prod.fst = _
      rw [ih b (by simpa using h)]
      rfl

theorem saddVals_snd (a b : TSeries) (i : Nat) (x y : Option Rat) (ha : (a.map Prod.snd)[i]? = some x) (hb : (b.map Prod.snd)[i]? = some y) :
    ((saddVals a b).map Prod.snd)[i]? = some (vadd x y) := by
  induction a generalizing b i with
  | nil => simp at ha
  | cons u a ih =>
    cases b with
    | nil => simp at hb
    | cons v b =>
      cases i with
      | zero => simp only [List.map_cons, List.getElem?_cons_zero, Option.some.injEq] at ha hb; rw [← ha, ← hb]; rfl
      | succ i => exact ih b i (by simpa using ha) (by simpa using hb)

theorem cellSum_vadd (vals : List (Option Rat)) (r x : Option Rat) (h : CellSum vals r) : CellSum (vals ++ [x]) (vadd r x) := by
  rcases h with ⟨qs, rfl, rfl⟩ | ⟨hn, rfl⟩
  · cases x with
    | none => exact Or.inr ⟨by simp, rfl⟩
    | some q => exact Or.inl ⟨qs ++ [q], by simp, by simp [vadd]⟩
  · exact Or.inr ⟨by simp [hn], rfl⟩

theorem seriesSum_of (index : List Nat) (base : Nat → TSeries) (g : List Nat) (v : TSeries) (hb : ∀ n ∈ g, (base n).map Prod.fst = index)
    (h : GroupSum id saddVals base g v) : SeriesSum index base g v := by
  cases g with
  | nil => exact absurd h id
  | cons n ns =>
    have key : ∀ (ms done : List Nat) (acc : TSeries), (∀ m ∈ ms, (base m).map Prod.fst = index) → SeriesSum index base done acc →
        SeriesSum index base (done ++ ms) (ms.foldl (fun a m => saddVals a (base m)) acc) := by
      intro ms
      induction ms with
      | nil => intro done acc _ h; simpa using h
      | cons m ms ih =>
        intro done acc hm hacc
        have := ih (done ++ [m]) (saddVals acc (base m)) (fun k hk => hm k (List.mem_cons_of_mem _ hk)) (by
          have hl : acc.length = index.length := by rw [← hacc.1, List.length_map]
          have hl' : (base m).length = index.length := by rw [← hm m List.mem_cons_self, List.length_map]
          refine ⟨by rw [saddVals_fst _ _ (by omega), hacc.1], ?_⟩
          intro i vals hlen hvals hi
          have hsplit : ∃ vs x, vals = vs ++ [x] := by
            rcases List.eq_nil_or_concat vals with rfl | ⟨vs, x, rfl⟩
            · simp at hlen
            · exact ⟨vs, x, by simp⟩
          obtain ⟨vs, x, rfl⟩ := hsplit
          simp only [List.length_append, List.length_singleton, Nat.add_right_cancel_iff] at hlen
          obtain ⟨r, hr1, hr2⟩ := hacc.2 i vs hlen (by
            intro j k y hj hy
            have h1 : j < done.length := (List.getElem?_eq_some_iff.1 hj).1
            exact hvals j k y (by rw [List.getElem?_append_left h1]; exact hj) (by rw [List.getElem?_append_left (by omega)]; exact hy)) hi
          have hx := hvals done.length m x (by simp) (by rw [← hlen]; simp)
          exact ⟨_, saddVals_snd _ _ _ _ _ hr1 hx, cellSum_vadd _ _ _ hr2⟩)
        simpa using this
    rw [h]
    refine key ns [n] (base n) (fun m hm => hb m (List.mem_cons_of_mem _ hm)) ⟨hb n List.mem_cons_self, ?_⟩
    intro i vals hlen hvals hi
    match vals, hlen with
    | [x], _ =>
      refine ⟨x, hvals 0 n x rfl rfl, ?_⟩
      cases x with
      | none => exact Or.inr ⟨by simp, rfl⟩
      | some q => exact Or.inl ⟨[q], rfl, by simp⟩

/-- **C61, without an aggregation function**: the first call gives the sums, if no node is in two groups of the level. -/
theorem C61_first_call_partial (index nodes : List Nat) (hnd : nodes.Nodup) (gs : List TrigGen) (hgs : gs ≠ [])
    (hg : ∀ g ∈ gs, TrigOk index nodes g) (groups : List (List Nat)) (hgr : ∀ g ∈ groups, g ≠ [] ∧ ∀ n ∈ g, n ∈ nodes)
    (hdis : groups.flatten.Nodup) :
    ∃ base : Nat → TSeries, (∀ n ∈ nodes, IsBase index gs n (base n)) ∧ ∃ vs,
      (AggObj.new.callPlain index nodes gs groups).2 = .ok vs ∧ List.Forall₂ (SeriesSum index base) groups vs := by
  obtain ⟨store, h1, h2⟩ := C61_base index nodes hnd gs hgs hg
  have hbase : ∀ n, ∃ r, n ∈ nodes → store.lookup n = some r ∧ IsBase index gs n r := by
    intro n
    by_cases hn : n ∈ nodes
    · obtain ⟨r, hr⟩ := h2 n hn; exact ⟨r, fun _ => hr⟩
    · exact ⟨[], fun h => absurd h hn⟩
  choose base hb using hbase
  refine ⟨base, fun n hn => (hb n hn).2, ?_⟩
  obtain ⟨store', refs, e1, e2, e3⟩ := aggGroups_ok base groups (fun g h => (hgr g h).1) store hdis
    (fun g h n hn => (hb n ((hgr g h).2 n hn)).1)
  refine ⟨refs.filterMap fun n => store'.lookup n, ?_, ?_⟩
  · have hp : AggObj.new.prepare index nodes gs = .ok ⟨store, true⟩ := by simp [AggObj.prepare, AggObj.new, h1]
    simp only [AggObj.callPlain, hp, aggregatePlain, e1]
  · clear e1 hdis e3
    induction e2 with
    | nil => exact List.Forall₂.nil
    | @cons g _ _ _ h _ ih =>
      obtain ⟨s, hs, hsum⟩ := h
      simp only [List.filterMap_cons, hs]
      exact List.Forall₂.cons (seriesSum_of index base g s (fun n hn => (hb n ((hgr g List.mem_cons_self).2 n hn)).2.1) hsum)
        (ih fun g hg => hgr g (List.mem_cons_of_mem _ hg))

/-- **C61, without an aggregation function**: calls at levels whose groups are single nodes leave the aggregator as it is, so they can be
repeated. -/
theorem C61_single_nodes_partial (store : List (Nat × TSeries)) (ns : List Nat) (h : ∀ n ∈ ns, ∃ s, store.lookup n = some s) :
    ∃ vs, aggregatePlain (ns.map fun n => [n]) store = .ok (store, vs) ∧ List.Forall₂ (fun n v => store.lookup n = some v) ns vs := by
  have : aggGroups (ns.map fun n => [n]) store = .ok (store, ns) := by
    induction ns with
    | nil => rfl
    | cons n ns ih =>
      obtain ⟨s, hs⟩ := h n (by simp)
      simp only [List.map_cons, aggGroups, hs, addInPlace, ih (fun m hm => h m (by simp [hm]))]
  refine ⟨ns.filterMap fun n => store.lookup n, by simp only [aggregatePlain, this], ?_⟩
  clear this
  induction ns with
  | nil => exact List.Forall₂.nil
  | cons n ns ih =>
    obtain ⟨s, hs⟩ := h n (by simp)
    simp only [List.filterMap_cons, hs]
    exact List.Forall₂.cons hs (ih (fun m hm => h m (by simp [hm])))

/-- a trigger with one row for each of two nodes -/
def aggTrig : TrigGen := fun n => if n = 0 then .ok [(5, some 1)] else if n = 1 then .ok [(7, some 2)] else .error .keyError

/-- **C61, refuted without an aggregation function**: the same call gives a different result the second time, since the sum is added in
place to the stored series; and what was `[[0], [1]]` is no longer the series of the nodes after a call for `[[0, 1]]`, as the
constructor of a correlator makes it. -/
theorem C61_repeat_refuted :
    AggObj.new.runPlain [5, 7] [0, 1] [aggTrig] [[[0, 1]], [[0, 1]]] =
      [.ok [[(5, some 1), (7, some 2)]], .ok [[(5, some 1), (7, some 4)]]] ∧
    AggObj.new.runPlain [5, 7] [0, 1] [aggTrig] [[[0], [1]], [[0, 1]], [[0], [1]]] =
      [.ok [[(5, some 1), (7, some 0)], [(5, some 0), (7, some 2)]], .ok [[(5, some 1), (7, some 2)]],
       .ok [[(5, some 1), (7, some 2)], [(5, some 0), (7, some 2)]]] := by
  refine ⟨?_, ?_⟩ <;> decide +kernel

/-- **C61, refuted**: with overlapping groups already the first call is wrong without an aggregation function. -/
theorem C61_overlap_refuted : (AggObj.new.callPlain [5, 7] [0, 1] [aggTrig] [[0, 1], [0]]).2 =
    .ok [[(5, some 1), (7, some 2)], [(5, some 1), (7, some 2)]] := by decide +kernel

theorem aggTrig_ok : TrigOk [5, 7] [0, 1] aggTrig := by
  intro n hn
  simp only [List.mem_cons, List.not_mem_nil, or_false] at hn
  rcases hn with rfl | rfl
  · exact ⟨[(5, some 1)], rfl, by decide, by decide⟩
  · exact ⟨[(7, some 2)], rfl, by decide, by decide⟩

/-- the hypotheses are met, with a function that takes the sum of a series -/
example : (∀ g ∈ [aggTrig], TrigOk [5, 7] [0, 1] g) ∧
    AggObj.new.runWith [5, 7] [0, 1] [aggTrig] (fun s => (s.filterMap Prod.snd).sum) (· + ·) [[[0, 1]], [[0], [1]], [[0, 1]]] =
      [.ok [3], .ok [1, 2], .ok [3]] := by
  refine ⟨by simpa using aggTrig_ok, by decide +kernel⟩

/-! ## C92 -/

/-- **C92, refuted**: a single trigger that is not in a list, which the documentation allows, always raises TypeError. -/
theorem C92_single_trigger_refuted (index nodes : List Nat) (g : TrigGen) :
    aggregateBaseArg index nodes (.one g) = .error .typeError := rfl

/-- **C92, partial**: a list with one trigger is accepted. -/
theorem C92_list_partial (index nodes : List Nat) (hnd : nodes.Nodup) (g : TrigGen) (hg : TrigOk index nodes g) :
    ∃ store, aggregateBaseArg index nodes (.many [g]) = .ok store ∧ ∀ n ∈ nodes, ∃ r s, store.lookup n = some r ∧ g n = .ok s ∧
      ∀ t ∈ index, r.lookup t = some (match s.lookup t with | some v => v | none => some 0) := by
  obtain ⟨store, h1, h2⟩ := C61_base index nodes hnd [g] (by simp) (by simpa using hg)
  refine ⟨store, h1, ?_⟩
  intro n hn
  obtain ⟨r, hr, _, hb2, hb3⟩ := h2 n hn
  obtain ⟨s, hs, _, _⟩ := hg n hn
  refine ⟨r, s, hr, hs, ?_⟩
  intro t ht
  cases hv : s.lookup t with
  | none =>
    refine hb2 t ht ?_
    intro g' hg' s' hs'
    simp only [List.mem_singleton] at hg'
    subst hg'
    rw [hs] at hs'; injection hs' with e; subst e; exact hv
  | some v =>
    refine hb3 t ht 0 g s v rfl hs hv ?_
    intro j g' s' hj hgj
    cases j with
    | zero => omega
    | succ j => simp at hgj

example : ∃ store, aggregateBaseArg [5, 7] [0, 1] (.many [aggTrig]) = .ok store ∧ store.lookup 1 = some [(5, some 0), (7, some 2)] :=
  ⟨_, rfl, by decide +kernel⟩

end Trappy
