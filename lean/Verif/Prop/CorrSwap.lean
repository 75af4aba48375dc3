import Verif.Model.FileCorr
import Verif.Prop.Correlator
import Verif.Prop.CorrObj
import Verif.Prop.FileCorr
/-!
# C172: the correlation does not depend on the order of the traces, and of a trace with itself
-/

namespace Trappy

/-! ## Specification -/

/-- **Specification**: a coefficient that does not depend on the order of the series, as that of Pearson -/
def SymmetricCoef (corr : List (Option Rat) → List (Option Rat) → Option Rat) : Prop := ∀ x y, corr x y = corr y x

/-- **Specification**: two known samples of the series are different -/
def Varies (x : List (Option Rat)) : Prop := ∃ a b : Rat, some a ∈ x ∧ some b ∈ x ∧ a ≠ b

/-- **Specification**: the coefficient of a series with itself is 1, and not defined if the series does not vary, as that of Pearson (`Series.corr`) -/
def PearsonSelf (corr : List (Option Rat) → List (Option Rat) → Option Rat) : Prop := ∀ x, (Varies x → corr x x = some 1) ∧ (¬ Varies x → corr x x = none)

/-- **Specification**: the number of samples that are not zero -/
def nonzeroSamples (x : List (Option Rat)) : Nat := x.countP fun v => v ≠ some 0

/-! ## Swapping -/

theorem shiftSeries_swap (x y : List (Option Rat)) (s : Int) : shiftSeries y x (-s) = ((shiftSeries x y s).2, (shiftSeries x y s).1) := by
  unfold shiftSeries
  rcases lt_trichotomy s 0 with h | h | h
  · rw [if_pos (by omega), if_neg (by omega)]
    simp
  · subst h
    simp [shiftRight]
  · rw [if_neg (by omega), if_pos h]
    simp

theorem alignSeries_swap (mode : AlignMode) (x y : List (Option Rat)) :
    alignSeries mode y x = ((alignSeries mode x y).2.1, (alignSeries mode x y).1, -(alignSeries mode x y).2.2) := by
  unfold alignSeries
  cases hx : pickPos mode (flatNonzero 0 x) with
  | none => cases hy : pickPos mode (flatNonzero 0 y) <;> simp
  | some px =>
    cases hy : pickPos mode (flatNonzero 0 y) with
    | none => simp
    | some py =>
      have : (py : Int) - (px : Int) = -((px : Int) - py) := by omega
      simp only [this, shiftSeries_swap]

theorem alignTop_swap {corr : List (Option Rat) → List (Option Rat) → Option Rat} (hc : SymmetricCoef corr) (x y : List (Option Rat)) : alignTop corr y x = -alignTop corr x y := by
  unfold alignTop
  simp only [alignSeries_swap _ x y]
  rw [hc (alignSeries .front x y).2.1, hc (alignSeries .back x y).2.1]
  simp only [chooseShift]
  exact (apply_ite Neg.neg _ _ _).symm

theorem correlateGroups_swap {corr : List (Option Rat) → List (Option Rat) → Option Rat} (hc : SymmetricCoef corr) (shift : Int) (ps : List (List (Option Rat) × List (Option Rat))) :
    correlateGroups corr (-shift) (ps.map Prod.swap) = correlateGroups corr shift ps := by
  unfold correlateGroups
  have h : ((ps.map Prod.swap).map fun g => shiftSeries g.1 g.2 (-shift)) = (ps.map fun g => shiftSeries g.1 g.2 shift).map Prod.swap := by
    rw [List.map_map, List.map_map]
    apply List.map_congr_left
    intro g _
    simp only [Function.comp, Prod.fst_swap, Prod.snd_swap, shiftSeries_swap g.1 g.2]
    rfl
  simp only [h, List.map_map]
  have e1 : ((fun g : List (Option Rat) × List (Option Rat) => corr g.1 g.2) ∘ Prod.swap) = fun g => corr g.1 g.2 := by funext g; exact hc _ _
  have e2 : ((fun g : List (Option Rat) × List (Option Rat) => countNonzero g.1 + countNonzero g.2) ∘ Prod.swap) = fun g => countNonzero g.1 + countNonzero g.2 := by
    funext g; exact Nat.add_comm _ _
  rw [← Function.comp_assoc, e1, ← Function.comp_assoc, e2]

theorem resampleGroups_swap (time : Nat → Rat) (index : List Nat) (delta : Rat) : ∀ (vs ws : List TSeries) (ps : List (List (Option Rat) × List (Option Rat))), vs.length = ws.length →
    resampleGroups time index delta vs ws = .ok ps → resampleGroups time index delta ws vs = .ok (ps.map Prod.swap)
  | [], [], ps, _, h => by
    simp only [resampleGroups, Except.ok.injEq] at h
    subst h
    rfl
  | v :: vs, w :: ws, ps, hl, h => by
    simp only [resampleGroups] at h ⊢
    cases hx : resampleSeries time index delta v with
    | none => simp [hx] at h
    | some x =>
      cases hy : resampleSeries time index delta w with
      | none => simp [hx, hy] at h
      | some y =>
        simp only [hx, hy] at h ⊢
        cases hr : resampleGroups time index delta vs ws with
        | error e => simp [hr] at h
        | ok l =>
          simp only [hr, Except.ok.injEq] at h
          subst h
          rw [resampleGroups_swap time index delta vs ws l (by simpa using hl) hr]
          rfl
  | [], _ :: _, _, hl, _ => by simp at hl
  | _ :: _, [], _, hl, _ => by simp at hl

theorem unified_swap {i j : List Nat} (hi : i.Pairwise (· < ·)) (hj : j.Pairwise (· < ·)) : unifiedIndexer [j, i] = unifiedIndexer [i, j] := by
  obtain ⟨u, h1, h2, h3⟩ := C59_unified_indexer [i, j] (by simp) (by simp [hi, hj])
  obtain ⟨u', h1', h2', h3'⟩ := C59_unified_indexer [j, i] (by simp) (by simp [hi, hj])
  rw [h1, h1']
  congr 1
  refine (List.Perm.eq_of_pairwise (fun a b _ _ h h' => by omega) h2' h2 ?_)
  rw [List.perm_ext_iff_of_nodup (h2'.imp Nat.ne_of_lt) (h2.imp Nat.ne_of_lt)]
  intro t
  rw [h3, h3']
  simp [or_comm]

theorem new_swap (time : Nat → Rat) {corr : List (Option Rat) → List (Option Rat) → Option Rat} (hc : SymmetricCoef corr) (delta : Rat) {s1 s2 : AggSetup} (h1 : s1.index.Pairwise (· < ·))
    (h2 : s2.index.Pairwise (· < ·)) {c : CorrObj} (h : CorrObj.new time corr delta s1 s2 = .ok c) : CorrObj.new time corr delta s2 s1 = .ok ⟨c.second, c.first, c.index, -c.shift⟩ := by
  unfold CorrObj.new at h ⊢
  rw [unified_swap h1 h2]
  cases hu : unifiedIndexer [s1.index, s2.index] with
  | none => simp [hu] at h
  | some u =>
    simp only [hu] at h ⊢
    rcases hv : s1.call AggObj.new [s1.nodes] with ⟨a1, _ | r1⟩
    · simp [hv] at h
    · rcases hw : s2.call AggObj.new [s2.nodes] with ⟨a2, _ | r2⟩
      · simp [hv, hw] at h
      · simp only [hv, hw] at h ⊢
        cases hr1 : r1.head? with
        | none => simp [hr1] at h
        | some v1 =>
          cases hr2 : r2.head? with
          | none => simp [hr1, hr2] at h
          | some v2 =>
            simp only [hr1, hr2] at h ⊢
            cases hx : resampleSeries time u delta v1 with
            | none => simp [hx] at h
            | some x =>
              cases hy : resampleSeries time u delta v2 with
              | none => simp [hx, hy] at h
              | some y =>
                simp only [hx, hy, Except.ok.injEq] at h ⊢
                subst h
                simp [alignTop_swap hc x y]

/-! ## The number of series that an aggregator gives -/

theorem nset_lookup_isSome {β : Type} (d : List (Nat × β)) (k n : Nat) (v : β) (h : (d.lookup n).isSome) : ((nset d k v).lookup n).isSome := by
  induction d with
  | nil => simp at h
  | cons a d ih =>
    obtain ⟨k', v'⟩ := a
    unfold nset
    by_cases hk : k' = k
    · subst hk
      rw [if_pos rfl]
      rw [List.lookup_cons] at h ⊢
      cases hn : n == k' <;> simp only [hn] at h ⊢
      · exact h
      · rfl
    · rw [if_neg hk]
      rw [List.lookup_cons] at h ⊢
      cases hn : n == k' <;> simp only [hn] at h ⊢
      · exact ih h
      · rfl

theorem addInPlace_isSome (g : Nat) (ns : List Nat) (store store' : List (Nat × TSeries)) (h : addInPlace g ns store = .ok store') (n : Nat) (hn : (store.lookup n).isSome) :
    (store'.lookup n).isSome := by
  induction ns generalizing store with
  | nil =>
    simp only [addInPlace, Except.ok.injEq] at h
    exact h ▸ hn
  | cons m ns ih =>
    unfold addInPlace at h
    split at h
    · exact ih _ h (nset_lookup_isSome _ _ _ _ hn)
    · cases h

theorem aggGroups_length (groups : List (List Nat)) : ∀ (store store' : List (Nat × TSeries)) (refs : List Nat), aggGroups groups store = .ok (store', refs) →
    refs.length = groups.length ∧ (∀ n ∈ refs, (store'.lookup n).isSome) ∧ ∀ n, (store.lookup n).isSome → (store'.lookup n).isSome := by
  induction groups with
  | nil =>
    intro store store' refs h
    simp only [aggGroups, Except.ok.injEq, Prod.mk.injEq] at h
    obtain ⟨rfl, rfl⟩ := h
    exact ⟨rfl, by simp, fun _ h => h⟩
  | cons g gs ih =>
    intro store store' refs h
    cases g with
    | nil => simp [aggGroups] at h
    | cons g ns =>
      unfold aggGroups at h
      cases hl : store.lookup g with
      | none => simp [hl] at h
      | some s =>
        simp only [hl] at h
        cases ha : addInPlace g ns store with
        | error e => simp [ha] at h
        | ok st =>
          simp only [ha] at h
          cases hr : aggGroups gs st with
          | error e => simp [hr] at h
          | ok p =>
            obtain ⟨st2, rs⟩ := p
            simp only [hr, Except.ok.injEq, Prod.mk.injEq] at h
            obtain ⟨rfl, rfl⟩ := h
            obtain ⟨i1, i2, i3⟩ := ih _ _ _ hr
            have keep : ∀ n, (store.lookup n).isSome → (st2.lookup n).isSome := fun n hn => i3 n (addInPlace_isSome _ _ _ _ ha n hn)
            refine ⟨by simp [i1], ?_, keep⟩
            intro n hn
            rcases List.mem_cons.1 hn with rfl | hn
            · exact keep _ (by simp [hl])
            · exact i2 n hn

theorem aggregateWith_length {γ : Type} (f : TSeries → γ) (add : γ → γ → γ) (store : List (Nat × TSeries)) (groups : List (List Nat)) :
    ∀ vs, aggregateWith f add store groups = .ok vs → vs.length = groups.length := by
  induction groups with
  | nil => intro vs h; simp only [aggregateWith, Except.ok.injEq] at h; subst h; rfl
  | cons g gs ih =>
    intro vs h
    cases g with
    | nil => simp [aggregateWith] at h
    | cons g ns =>
      unfold aggregateWith at h
      split at h
      · cases h
      · split at h
        · cases h
        · split at h
          · cases h
          · rename_i heq
            simp only [Except.ok.injEq] at h
            subst h
            simp [ih _ heq]

theorem call_length (s : AggSetup) (a : AggObj) (groups : List (List Nat)) (vs : List TSeries) (h : (s.call a groups).2 = .ok vs) : vs.length = groups.length := by
  unfold AggSetup.call at h
  cases hf : s.func with
  | some f =>
    simp only [hf, AggObj.callWith] at h
    cases hp : a.prepare s.index s.nodes s.gs with
    | error e => simp [hp] at h
    | ok a' =>
      simp only [hp] at h
      exact aggregateWith_length _ _ _ _ _ h
  | none =>
    simp only [hf, AggObj.callPlain] at h
    cases hp : a.prepare s.index s.nodes s.gs with
    | error e => simp [hp] at h
    | ok a' =>
      simp only [hp, aggregatePlain] at h
      cases hg : aggGroups groups a'.store with
      | error e => simp [hg] at h
      | ok p =>
        obtain ⟨st, refs⟩ := p
        simp only [hg, Except.ok.injEq] at h
        obtain ⟨h1, h2, -⟩ := aggGroups_length _ _ _ _ hg
        rw [← h, ← h1]
        clear h h1 hg
        induction refs with
        | nil => rfl
        | cons r rs ih =>
          obtain ⟨v, hv⟩ := Option.isSome_iff_exists.1 (h2 r List.mem_cons_self)
          rw [List.filterMap_cons, hv]
          simp [ih fun n hn => h2 n (List.mem_cons_of_mem _ hn)]

/-! ## C172 -/

/-- **C172, partial**: for all aggregators, functions, levels and coefficients that do not depend on the order: if the level has as many groups in both topologies, the correlator with the aggregators in the other order has the opposite
shift and gives the same coefficients and the same total. -/
theorem C172_swap_partial (time : Nat → Rat) (corr : List (Option Rat) → List (Option Rat) → Option Rat) (hc : SymmetricCoef corr) (delta : Rat) (s1 s2 : AggSetup) (h1 : s1.index.Pairwise (· < ·))
    (h2 : s2.index.Pairwise (· < ·)) (c : CorrObj) (h : CorrObj.new time corr delta s1 s2 = .ok c) (g1 g2 : List (List Nat)) (hlen : g1.length = g2.length)
    (r : List (Option Rat) × Option Rat) (hr : (c.correlate time corr delta s1 s2 g1 g2).2 = .ok r) :
    ∃ c', CorrObj.new time corr delta s2 s1 = .ok c' ∧ c'.index = c.index ∧ c'.shift = -c.shift ∧ (c'.correlate time corr delta s2 s1 g2 g1).2 = .ok r := by
  refine ⟨_, new_swap time hc delta h1 h2 h, rfl, rfl, ?_⟩
  unfold CorrObj.correlate at hr ⊢
  rcases hv : s1.call c.first g1 with ⟨a1, _ | vs⟩
  · simp [hv] at hr
  · rcases hw : s2.call c.second g2 with ⟨a2, _ | ws⟩
    · simp [hv, hw] at hr
    · have l1 := call_length s1 c.first g1 vs (by rw [hv])
      have l2 := call_length s2 c.second g2 ws (by rw [hw])
      simp only [hv, hw] at hr ⊢
      cases hp : resampleGroups time c.index delta vs ws with
      | error e => simp [hp] at hr
      | ok ps =>
        simp only [hp, Except.ok.injEq] at hr
        rw [resampleGroups_swap time c.index delta vs ws ps (by omega) hp]
        simp only [correlateGroups_swap hc, hr]

theorem new_index_ne {time : Nat → Rat} {corr : List (Option Rat) → List (Option Rat) → Option Rat} {delta : Rat} {s1 s2 : AggSetup} {c : CorrObj}
    (h : CorrObj.new time corr delta s1 s2 = .ok c) : c.index ≠ [] := by
  intro e
  unfold CorrObj.new at h
  split at h
  · cases h
  · split at h
    · cases h
    · cases h
    · split at h
      · split at h
        · rename_i hx _
          simp only [Except.ok.injEq] at h
          subst h
          simp only at e
          subst e
          simp [resampleSeries, resample, getUniform] at hx
        · cases h
      · cases h

theorem resampleGroups_short (time : Nat → Rat) (index : List Nat) (hne : index ≠ []) (delta : Rat) : ∀ vs ws : List TSeries,
    (ws.length < vs.length → resampleGroups time index delta vs ws = .error .indexError) ∧ (vs.length ≤ ws.length → ∃ ps, resampleGroups time index delta vs ws = .ok ps ∧ ps.length = vs.length)
  | [], ws => ⟨by simp, fun _ => ⟨[], rfl, rfl⟩⟩
  | v :: vs, [] => ⟨fun _ => rfl, by simp⟩
  | v :: vs, w :: ws => by
    obtain ⟨x, hx⟩ := resampleSeries_some time index hne delta v
    obtain ⟨y, hy⟩ := resampleSeries_some time index hne delta w
    obtain ⟨i1, i2⟩ := resampleGroups_short time index hne delta vs ws
    refine ⟨fun hl => ?_, fun hl => ?_⟩
    · simp only [resampleGroups, hx, hy, i1 (by simpa using hl)]
    · obtain ⟨ps, p1, p2⟩ := i2 (by simpa using hl)
      exact ⟨(x, y) :: ps, by simp only [resampleGroups, hx, hy, p1], by simp [p2]⟩

/-- **C172, refuted**: if the level has fewer groups in the topology of the second aggregator, `correlate` always raises an IndexError, while the correlator with the aggregators in the other order always gives a result, without the
groups that only one of them has. -/
theorem C172_levels_refuted (time : Nat → Rat) (corr : List (Option Rat) → List (Option Rat) → Option Rat) (delta : Rat) (s1 s2 : AggSetup) (c c' : CorrObj)
    (h : CorrObj.new time corr delta s1 s2 = .ok c) (h' : CorrObj.new time corr delta s2 s1 = .ok c') (g1 g2 : List (List Nat)) (hlen : g2.length < g1.length) (vs ws vs' ws' : List TSeries)
    (hv : (s1.call c.first g1).2 = .ok vs) (hw : (s2.call c.second g2).2 = .ok ws) (hw' : (s2.call c'.first g2).2 = .ok ws') (hv' : (s1.call c'.second g1).2 = .ok vs') :
    (c.correlate time corr delta s1 s2 g1 g2).2 = .error .indexError ∧ ∃ corrs tot, (c'.correlate time corr delta s2 s1 g2 g1).2 = .ok (corrs, tot) ∧ corrs.length = g2.length := by
  have l1 := call_length _ _ _ _ hv
  have l2 := call_length _ _ _ _ hw
  have l1' := call_length _ _ _ _ hv'
  have l2' := call_length _ _ _ _ hw'
  have q : ∀ {α : Type} {p : α × Except SError (List TSeries)} {x}, p.2 = x → p = (p.1, x) := fun hx => Prod.ext rfl hx
  constructor
  · unfold CorrObj.correlate
    rw [q hv, q hw]
    simp only [(resampleGroups_short time c.index (new_index_ne h) delta vs ws).1 (by omega)]
  · obtain ⟨ps, p1, p2⟩ := (resampleGroups_short time c'.index (new_index_ne h') delta ws' vs').2 (by omega)
    refine ⟨(correlateGroups corr c'.shift ps).1, (correlateGroups corr c'.shift ps).2, ?_, ?_⟩
    · unfold CorrObj.correlate
      rw [q hw', q hv']
      simp only [p1]
    · simp [correlateGroups, p2, l2']

/-! ## With itself -/

theorem self_new {time : Nat → Rat} {corr : List (Option Rat) → List (Option Rat) → Option Rat} {delta : Rat} {s : AggSetup} {c : CorrObj} (h : CorrObj.new time corr delta s s = .ok c) :
    c.second = c.first ∧ c.shift = 0 := by
  unfold CorrObj.new at h
  split at h
  · cases h
  · rename_i u hu
    rcases hv : s.call AggObj.new [s.nodes] with ⟨a1, _ | r1⟩
    · simp [hv] at h
    · simp only [hv] at h
      cases hr : r1.head? with
      | none => simp [hr] at h
      | some v =>
        simp only [hr] at h
        cases hx : resampleSeries time u delta v with
        | none => simp [hx] at h
        | some x =>
          simp only [hx, Except.ok.injEq] at h
          subst h
          refine ⟨rfl, ?_⟩
          have h0 : ∀ mode, (alignSeries mode x x).2.2 = 0 := by
            intro mode
            unfold alignSeries
            cases pickPos mode (flatNonzero 0 x) <;> simp
          simp only [alignTop, h0, chooseShift]
          split <;> split <;> split <;> rfl

theorem countNonzero_eq (x : List (Option Rat)) : countNonzero x = nonzeroSamples x := by
  unfold countNonzero nonzeroSamples
  rw [List.countP_eq_length_filter]

theorem resampleGroups_self (time : Nat → Rat) (index : List Nat) (delta : Rat) : ∀ (vs : List TSeries) (ps : List (List (Option Rat) × List (Option Rat))),
    resampleGroups time index delta vs vs = .ok ps → ∃ xs, ps = xs.map (fun x => (x, x)) ∧ List.Forall₂ (fun v x => resampleSeries time index delta v = some x) vs xs
  | [], ps, h => by
    simp only [resampleGroups, Except.ok.injEq] at h
    subst h
    exact ⟨[], rfl, .nil⟩
  | v :: vs, ps, h => by
    simp only [resampleGroups] at h
    cases hx : resampleSeries time index delta v with
    | none => simp [hx] at h
    | some x =>
      simp only [hx] at h
      cases hr : resampleGroups time index delta vs vs with
      | error e => simp [hr] at h
      | ok l =>
        simp only [hr, Except.ok.injEq] at h
        subst h
        obtain ⟨xs, rfl, h2⟩ := resampleGroups_self time index delta vs l hr
        exact ⟨x :: xs, rfl, .cons hx h2⟩

theorem resampleGroups_pairs (time : Nat → Rat) (index : List Nat) (delta : Rat) : ∀ (vs ws : List TSeries) (ps : List (List (Option Rat) × List (Option Rat))),
    resampleGroups time index delta vs ws = .ok ps → ps.length = vs.length ∧ ∀ (i : Nat) p, ps[i]? = some p →
      ∃ v w, vs[i]? = some v ∧ ws[i]? = some w ∧ resampleSeries time index delta v = some p.1 ∧ resampleSeries time index delta w = some p.2
  | [], ws, ps, h => by
    simp only [resampleGroups, Except.ok.injEq] at h
    subst h
    simp
  | v :: vs, [], ps, h => by simp [resampleGroups] at h
  | v :: vs, w :: ws, ps, h => by
    simp only [resampleGroups] at h
    cases hx : resampleSeries time index delta v with
    | none => simp [hx] at h
    | some x =>
      cases hy : resampleSeries time index delta w with
      | none => simp [hx, hy] at h
      | some y =>
        simp only [hx, hy] at h
        cases hr : resampleGroups time index delta vs ws with
        | error e => simp [hr] at h
        | ok l =>
          simp only [hr, Except.ok.injEq] at h
          subst h
          obtain ⟨h1, h2⟩ := resampleGroups_pairs time index delta vs ws l hr
          refine ⟨by simp [h1], fun i p hp => ?_⟩
          cases i with
          | zero =>
            simp only [List.getElem?_cons_zero, Option.some.injEq] at hp
            subst hp
            exact ⟨v, w, rfl, rfl, hx, hy⟩
          | succ i => exact h2 i p (by simpa using hp)

/-- **C138 (the total).** For all aggregators, levels and coefficients: the coefficient of each group is that of its two series, held on the uniform index and shifted. The total is the sum over the groups with a defined coefficient
of the coefficient times the number of samples other than zero (NaN counts) of both series, divided by the number of these samples in all groups. If there are none, it is 0 without a defined coefficient and a ZeroDivisionError
with one. -/
theorem C138_total (time : Nat → Rat) (corr : List (Option Rat) → List (Option Rat) → Option Rat) (delta : Rat) (s1 s2 : AggSetup) (c : CorrObj) (g1 g2 : List (List Nat)) (corrs : List (Option Rat)) (tot : Option Rat)
    (h : (c.correlate time corr delta s1 s2 g1 g2).2 = .ok (corrs, tot)) :
    ∃ (vs ws : List TSeries) (ps : List (List (Option Rat) × List (Option Rat))), (s1.call c.first g1).2 = .ok vs ∧ (s2.call c.second g2).2 = .ok ws ∧ ps.length = g1.length ∧
      (∀ (i : Nat) p, ps[i]? = some p → ∃ v w x y, vs[i]? = some v ∧ ws[i]? = some w ∧ resampleSeries time c.index delta v = some x ∧ resampleSeries time c.index delta w = some y ∧
        p = shiftSeries x y c.shift) ∧
      corrs = ps.map (fun p => corr p.1 p.2) ∧
      ((ps.map fun p => nonzeroSamples p.1 + nonzeroSamples p.2).sum ≠ 0 → tot = some ((ps.map fun p => match corr p.1 p.2 with
        | none => (0 : Rat)
        | some r => ((nonzeroSamples p.1 + nonzeroSamples p.2 : Nat) : Rat) * r).sum / (((ps.map fun p => nonzeroSamples p.1 + nonzeroSamples p.2).sum : Nat) : Rat))) ∧
      ((ps.map fun p => nonzeroSamples p.1 + nonzeroSamples p.2).sum = 0 → tot = if ∀ r ∈ corrs, r = none then some 0 else none) := by
  unfold CorrObj.correlate at h
  rcases hv : s1.call c.first g1 with ⟨a1, _ | vs⟩
  · simp [hv] at h
  · rcases hw : s2.call c.second g2 with ⟨a2, _ | ws⟩
    · simp [hv, hw] at h
    · simp only [hv, hw] at h
      cases hp : resampleGroups time c.index delta vs ws with
      | error e => simp [hp] at h
      | ok qs =>
        simp only [hp, Except.ok.injEq, correlateGroups, Prod.mk.injEq] at h
        obtain ⟨q1, q2⟩ := resampleGroups_pairs _ _ _ _ _ _ hp
        refine ⟨vs, ws, qs.map fun g => shiftSeries g.1 g.2 c.shift, rfl, rfl, ?_, ?_, h.1.symm, ?_, ?_⟩
        · rw [List.length_map, q1]
          exact call_length s1 c.first g1 vs (by rw [hv])
        · intro i p hip
          rw [List.getElem?_map, Option.map_eq_some_iff] at hip
          obtain ⟨q, hq, rfl⟩ := hip
          obtain ⟨v, w, e1, e2, e3, e4⟩ := q2 i q hq
          exact ⟨v, w, q.1, q.2, e1, e2, e3, e4, rfl⟩
        · intro h0
          rw [← h.2]
          simp only [countNonzero_eq]
          rw [(C84_total _ _ h0).1]
          congr 2
          generalize (qs.map fun g => shiftSeries g.1 g.2 c.shift) = ps
          induction ps with
          | nil => rfl
          | cons p ps ih =>
            simp only [List.map_cons, List.sum_cons]
            cases hc : corr p.1 p.2 with
            | none => simp only [weightedSum, ih, zero_add]
            | some r => simp only [weightedSum, ih]
        · intro h0
          rw [← h.2, ← h.1]
          simp only [countNonzero_eq]
          unfold corrTotal
          rw [h0]
          generalize (qs.map fun g => shiftSeries g.1 g.2 c.shift) = ps
          have : ∀ ps : List (List (Option Rat) × List (Option Rat)), corrLoop 0 ((ps.map fun p => nonzeroSamples p.1 + nonzeroSamples p.2).zip (ps.map fun p => corr p.1 p.2)) 0 =
              if ∀ r ∈ ps.map (fun p : List (Option Rat) × List (Option Rat) => corr p.1 p.2), r = none then some 0 else none := by
            intro ps
            induction ps with
            | nil => simp [corrLoop]
            | cons p ps ih =>
              simp only [List.map_cons, List.zip_cons_cons]
              cases hc : corr p.1 p.2 with
              | none =>
                simp only [corrLoop]
                rw [ih]
                refine if_congr ?_ rfl rfl
                simp only [List.mem_cons, forall_eq_or_imp, true_and]
              | some r => simp [corrLoop]
          exact this ps

open Classical in
/-- **C172 (with itself).** For all aggregators and all levels: a trace correlated with itself is not shifted, the coefficient of every group that varies is 1 and no other coefficient is defined; the total is the share of the
samples other than zero that are in groups that vary. -/
theorem C172_self (time : Nat → Rat) (corr : List (Option Rat) → List (Option Rat) → Option Rat) (hc : PearsonSelf corr) (delta : Rat) (s : AggSetup) (c : CorrObj)
    (h : CorrObj.new time corr delta s s = .ok c) (groups : List (List Nat)) (corrs : List (Option Rat)) (tot : Option Rat)
    (hr : (c.correlate time corr delta s s groups groups).2 = .ok (corrs, tot)) :
    c.shift = 0 ∧ ∃ (vs : List TSeries) (xs : List (List (Option Rat))), (s.call c.first groups).2 = .ok vs ∧ vs.length = groups.length ∧
      List.Forall₂ (fun v x => resampleSeries time c.index delta v = some x) vs xs ∧ corrs = xs.map (fun x => if Varies x then some 1 else none) ∧
      tot = some ((((xs.filter fun x => Varies x).map nonzeroSamples).sum : Rat) / ((xs.map nonzeroSamples).sum : Rat)) := by
  obtain ⟨e1, e2⟩ := self_new h
  refine ⟨e2, ?_⟩
  unfold CorrObj.correlate at hr
  rw [e1, e2] at hr
  rcases hv : s.call c.first groups with ⟨a1, _ | vs⟩
  · simp [hv] at hr
  · simp only [hv] at hr
    cases hp : resampleGroups time c.index delta vs vs with
    | error e => simp [hp] at hr
    | ok ps =>
      simp only [hp, Except.ok.injEq] at hr
      obtain ⟨xs, rfl, hx⟩ := resampleGroups_self _ _ _ _ _ hp
      refine ⟨vs, xs, rfl, call_length s c.first groups vs (by rw [hv]), hx, ?_⟩
      have hz : ∀ x : List (Option Rat), shiftSeries x x 0 = (x, x) := by intro x; simp [shiftSeries, shiftRight]
      simp only [correlateGroups, List.map_map] at hr
      have f1 : ((fun g : List (Option Rat) × List (Option Rat) => corr g.1 g.2) ∘ (fun g => shiftSeries g.1 g.2 0) ∘ fun x => (x, x)) = fun x => if Varies x then some 1 else none := by
        funext x
        simp only [Function.comp, hz]
        by_cases hvx : Varies x
        · rw [if_pos hvx, (hc x).1 hvx]
        · rw [if_neg hvx, (hc x).2 hvx]
      have f2 : ((fun g : List (Option Rat) × List (Option Rat) => countNonzero g.1 + countNonzero g.2) ∘ (fun g => shiftSeries g.1 g.2 0) ∘ fun x => (x, x)) = fun x => 2 * nonzeroSamples x := by
        funext x
        simp only [Function.comp, hz, countNonzero_eq]
        omega
      rw [f1, f2, Prod.mk.injEq] at hr
      refine ⟨hr.1.symm, ?_⟩
      rw [← hr.2]
      have hsum : ∀ xs : List (List (Option Rat)), (xs.map fun x => 2 * nonzeroSamples x).sum = 2 * (xs.map nonzeroSamples).sum := by
        intro xs
        induction xs with
        | nil => rfl
        | cons x xs ih => simp only [List.map_cons, List.sum_cons, ih]; omega
      have hw : ∀ xs : List (List (Option Rat)), weightedSum (xs.map fun x => 2 * nonzeroSamples x) (xs.map fun x => if Varies x then some 1 else none) =
          2 * (((xs.filter fun x => Varies x).map nonzeroSamples).sum : Nat) := by
        intro xs
        induction xs with
        | nil => simp [weightedSum]
        | cons x xs ih =>
          by_cases hvx : Varies x
          · simp only [List.map_cons, if_pos hvx, weightedSum, ih]
            rw [List.filter_cons_of_pos (by simpa using hvx)]
            simp only [List.map_cons, List.sum_cons]
            push_cast
            ring
          · simp only [List.map_cons, if_neg hvx, weightedSum, ih]
            rw [List.filter_cons_of_neg (by simpa using hvx)]
      by_cases h0 : (xs.map nonzeroSamples).sum = 0
      · have hall : ∀ x ∈ xs, ¬ Varies x := by
          rintro x hxm ⟨a, b, ha, hb, hab⟩
          have hx0 : nonzeroSamples x = 0 := List.sum_eq_zero_iff.1 h0 _ (List.mem_map_of_mem hxm)
          unfold nonzeroSamples at hx0
          rw [List.countP_eq_zero] at hx0
          have h1 := hx0 _ ha
          have h2 := hx0 _ hb
          simp only [ne_eq, decide_not, Bool.not_eq_true, Bool.not_eq_false', decide_eq_true_eq, Option.some.injEq] at h1 h2
          exact hab (h1.trans h2.symm)
        have hl : ∀ (W : Nat) (xs : List (List (Option Rat))) (ws : List Nat), (∀ x ∈ xs, ¬ Varies x) →
            corrLoop W (ws.zip (xs.map fun x => if Varies x then some 1 else none)) 0 = some 0 := by
          intro W xs
          induction xs with
          | nil => intro ws _; cases ws <;> simp [corrLoop]
          | cons x xs ih =>
            intro ws hn
            cases ws with
            | nil => simp [corrLoop]
            | cons w ws =>
              simp only [List.map_cons, if_neg (hn x List.mem_cons_self), List.zip_cons_cons, corrLoop]
              exact ih ws fun y hy => hn y (List.mem_cons_of_mem _ hy)
        unfold corrTotal
        rw [hl _ _ _ hall]
        have : xs.filter (fun x => Varies x) = [] := by
          rw [List.filter_eq_nil_iff]
          intro x hxm
          simpa using hall x hxm
        rw [this]
        simp
      · rw [(C84_total _ _ (by rw [hsum]; omega)).1, hsum, hw]
        congr 1
        push_cast
        rw [mul_div_mul_left _ _ (by norm_num)]

/-- **C172, refuted**: a trace does not correlate completely with itself if a group does not vary and has a sample other than zero: the total is always less than 1. -/
theorem C172_constant_refuted (time : Nat → Rat) (corr : List (Option Rat) → List (Option Rat) → Option Rat) (hc : PearsonSelf corr) (delta : Rat) (s : AggSetup) (c : CorrObj)
    (h : CorrObj.new time corr delta s s = .ok c) (groups : List (List Nat)) (corrs : List (Option Rat)) (tot : Option Rat)
    (hr : (c.correlate time corr delta s s groups groups).2 = .ok (corrs, tot)) (vs : List TSeries) (hv : (s.call c.first groups).2 = .ok vs) (v : TSeries) (hmem : v ∈ vs)
    (x : List (Option Rat)) (hx : resampleSeries time c.index delta v = some x) (hcon : ¬ Varies x) (hnz : nonzeroSamples x ≠ 0) : ∃ t, tot = some t ∧ t < 1 := by
  classical
  obtain ⟨-, vs', xs, e1, -, e2, -, e3⟩ := C172_self time corr hc delta s c h groups corrs tot hr
  obtain rfl : vs' = vs := by
    rw [e1] at hv
    exact Except.ok.inj hv
  refine ⟨_, e3, ?_⟩
  have hxs : x ∈ xs := by
    clear e3 hr hv e1
    induction e2 with
    | nil => simp at hmem
    | @cons a b _ _ hab _ ih =>
      rcases List.mem_cons.1 hmem with rfl | hm
      · rw [hx] at hab
        simp [Option.some.inj hab]
      · exact List.mem_cons_of_mem _ (ih hm)
  have hle : ∀ l : List (List (Option Rat)), ((l.filter fun x => Varies x).map nonzeroSamples).sum ≤ (l.map nonzeroSamples).sum := by
    intro l
    exact (List.Sublist.map nonzeroSamples List.filter_sublist).sum_le_sum (by simp)
  have hlt : ∀ l : List (List (Option Rat)), x ∈ l → ((l.filter fun x => Varies x).map nonzeroSamples).sum < (l.map nonzeroSamples).sum := by
    intro l
    induction l with
    | nil => simp
    | cons y l ih =>
      intro hm
      by_cases hy : x = y
      · subst hy
        rw [List.filter_cons_of_neg (by simpa using hcon)]
        have := hle l
        simp only [List.map_cons, List.sum_cons]
        omega
      · have := ih ((List.mem_cons.1 hm).resolve_left hy)
        by_cases hvy : Varies y
        · rw [List.filter_cons_of_pos (by simpa using hvy)]
          simp only [List.map_cons, List.sum_cons]
          omega
        · rw [List.filter_cons_of_neg (by simpa using hvy)]
          simp only [List.map_cons, List.sum_cons]
          omega
  have hlt' := hlt xs hxs
  rw [div_lt_one (by exact_mod_cast (by omega : 0 < (xs.map nonzeroSamples).sum))]
  exact_mod_cast hlt'

/-- **C172, partial**: if every group that has a sample other than zero varies, and there is one, a trace correlates completely with itself. -/
theorem C172_complete_partial (time : Nat → Rat) (corr : List (Option Rat) → List (Option Rat) → Option Rat) (hc : PearsonSelf corr) (delta : Rat) (s : AggSetup) (c : CorrObj)
    (h : CorrObj.new time corr delta s s = .ok c) (groups : List (List Nat)) (corrs : List (Option Rat)) (tot : Option Rat)
    (hr : (c.correlate time corr delta s s groups groups).2 = .ok (corrs, tot)) (vs : List TSeries) (hv : (s.call c.first groups).2 = .ok vs)
    (hvar : ∀ v ∈ vs, ∀ x, resampleSeries time c.index delta v = some x → nonzeroSamples x ≠ 0 → Varies x)
    (hsome : ∃ v ∈ vs, ∃ x, resampleSeries time c.index delta v = some x ∧ nonzeroSamples x ≠ 0) : tot = some 1 := by
  classical
  obtain ⟨-, vs', xs, e1, -, e2, -, e3⟩ := C172_self time corr hc delta s c h groups corrs tot hr
  obtain rfl : vs' = vs := by
    rw [e1] at hv
    exact Except.ok.inj hv
  have hxs : ∀ x ∈ xs, ∃ v ∈ vs', resampleSeries time c.index delta v = some x := by
    clear e3 hr hv e1 hvar hsome
    induction e2 with
    | nil => simp
    | @cons a b _ _ hab _ ih =>
      intro x hx
      rcases List.mem_cons.1 hx with rfl | hm
      · exact ⟨a, List.mem_cons_self, hab⟩
      · obtain ⟨v, hv, hvx⟩ := ih x hm
        exact ⟨v, List.mem_cons_of_mem _ hv, hvx⟩
  have hxs' : ∀ v ∈ vs', ∀ x, resampleSeries time c.index delta v = some x → x ∈ xs := by
    clear e3 hr hv e1 hvar hsome hxs
    induction e2 with
    | nil => simp
    | @cons a b _ _ hab _ ih =>
      intro v hv x hx
      rcases List.mem_cons.1 hv with rfl | hm
      · rw [hx] at hab
        simp [Option.some.inj hab]
      · exact List.mem_cons_of_mem _ (ih v hm x hx)
  have hsum : ∀ l : List (List (Option Rat)), (∀ x ∈ l, nonzeroSamples x ≠ 0 → Varies x) → ((l.filter fun x => Varies x).map nonzeroSamples).sum = (l.map nonzeroSamples).sum := by
    intro l
    induction l with
    | nil => simp
    | cons y l ih =>
      intro hl
      have i := ih fun x hx => hl x (List.mem_cons_of_mem _ hx)
      by_cases hvy : Varies y
      · rw [List.filter_cons_of_pos (by simpa using hvy)]
        simp [i]
      · rw [List.filter_cons_of_neg (by simpa using hvy)]
        have : nonzeroSamples y = 0 := by
          by_contra h0
          exact hvy (hl y List.mem_cons_self h0)
        simp [i, this]
  rw [e3, hsum xs fun x hx h0 => by
    obtain ⟨v, hv, hvx⟩ := hxs x hx
    exact hvar v hv x hvx h0]
  obtain ⟨v, hv, x, hvx, h0⟩ := hsome
  have hpos : (xs.map nonzeroSamples).sum ≠ 0 := by
    intro e
    exact h0 (List.sum_eq_zero_iff.1 e _ (List.mem_map_of_mem (hxs' v hv x hvx)))
  rw [div_self (by exact_mod_cast hpos)]

/-! ## Files -/

/-- **C172, partial (files)**: for the lines of any two files, in the same way: if the level has as many groups in both topologies, the result does not depend on the order of the traces. -/
theorem C172_files_partial (fuel : Nat) (ord : List Nat → List Nat) (corr : List (Option Rat) → List (Option Rat) → Option Rat) (hc : SymmetricCoef corr) (delta : Rat) (a b : FileAgg) (level : Str)
    (hlen : ∀ g1 g2, a.topo.getLevel ord level = some g1 → b.topo.getLevel ord level = some g2 → g1.length = g2.length) (r : List (Option Rat) × Option Rat)
    (h : fileCorrelate fuel ord corr delta a b level = .ok r) : fileCorrelate fuel ord corr delta b a level = .ok r := by
  have hsorted : ∀ (a : FileAgg) s, a.setup fuel ord = .ok s → s.index.Pairwise (· < ·) := by
    intro a s hs
    unfold FileAgg.setup at hs
    split at hs
    · split at hs
      · cases hs
      · simp only [Except.ok.injEq] at hs
        subst hs
        exact (C59_unified _).1
    · cases hs
  unfold fileCorrelate at h ⊢
  cases h1 : a.setup fuel ord with
  | error e => simp [h1] at h
  | ok s1 =>
    cases h2 : b.setup fuel ord with
    | error e => simp [h1, h2] at h
    | ok s2 =>
      simp only [h1, h2] at h ⊢
      cases hn : CorrObj.new floatTime corr delta s1 s2 with
      | error e => simp [hn] at h
      | ok c =>
        simp only [hn] at h
        cases hg1 : a.topo.getLevel ord level with
        | none => simp [hg1] at h
        | some g1 =>
          cases hg2 : b.topo.getLevel ord level with
          | none => simp [hg1, hg2] at h
          | some g2 =>
            simp only [hg1, hg2] at h
            cases hr : (c.correlate floatTime corr delta s1 s2 g1 g2).2 with
            | error e => simp [hr] at h
            | ok q =>
              simp only [hr, Except.ok.injEq] at h
              subst h
              obtain ⟨c', e1, -, -, e2⟩ := C172_swap_partial floatTime corr hc delta s1 s2 (hsorted a s1 h1) (hsorted b s2 h2) c hn g1 g2 (hlen g1 g2 (by first | rfl | assumption) (by first | rfl | assumption)) q hr
              simp only [e1, e2]

/-! ## Examples -/

/-- a stand-in for the coefficient of Pearson: 1 for the same series, -1 for others -/
def exCoef (x y : List (Option Rat)) : Option Rat :=
  if x = y then (if (x.filterMap id).any (fun a => (x.filterMap id).any fun b => a ≠ b) then some 1 else none) else some (-1)

example : SymmetricCoef exCoef ∧ PearsonSelf exCoef := by
  refine ⟨?_, ?_⟩
  · intro x y
    unfold exCoef
    by_cases h : x = y
    · subst h; rfl
    · rw [if_neg h, if_neg (fun e => h e.symm)]
  · intro x
    have hv : Varies x ↔ ((x.filterMap id).any fun a => (x.filterMap id).any fun b => a ≠ b) = true := by
      constructor
      · rintro ⟨a, b, ha, hb, hab⟩
        exact List.any_eq_true.2 ⟨a, List.mem_filterMap.2 ⟨_, ha, rfl⟩, List.any_eq_true.2 ⟨b, List.mem_filterMap.2 ⟨_, hb, rfl⟩, by simpa using hab⟩⟩
      · intro h
        obtain ⟨a, ha, h⟩ := List.any_eq_true.1 h
        obtain ⟨b, hb, h⟩ := List.any_eq_true.1 h
        obtain ⟨a', ha, rfl⟩ := List.mem_filterMap.1 ha
        obtain ⟨b', hb, rfl⟩ := List.mem_filterMap.1 hb
        exact ⟨a, b, ha, hb, by simpa using h⟩
    refine ⟨fun h => ?_, fun h => ?_⟩
    · unfold exCoef
      rw [if_pos rfl, if_pos (hv.1 h)]
    · unfold exCoef
      rw [if_pos rfl, if_neg (fun e => h (hv.2 e))]

/-- only the series of node 1 -/
def corrSetup3 : AggSetup := ⟨[1, 5, 7, 9], [1], [aggTrig], none⟩

/-- only the series of node 0 -/
def corrSetup4 : AggSetup := ⟨[1, 5, 7, 9], [0], [aggTrig], none⟩

/-- the shift, the coefficients and the total -/
def exSwapRun (s1 s2 : AggSetup) (g1 g2 : List (List Nat)) : Option (Int × List (Option Rat) × Option Rat) :=
  match CorrObj.new (fun t => t) exCoef 1 s1 s2 with
  | .error _ => none
  | .ok c =>
    match (c.correlate (fun t => t) exCoef 1 s1 s2 g1 g2).2 with
    | .error _ => none
    | .ok r => some (c.shift, r)

/-- the shift is 2 in one order and -2 in the other; with another group, there is a result in one order only -/
example : exSwapRun corrSetup3 corrSetup4 [[1]] [[0]] = some (2, [some (-1)], some (-1)) ∧ exSwapRun corrSetup4 corrSetup3 [[0]] [[1]] = some (-2, [some (-1)], some (-1)) ∧
    exSwapRun corrSetup3 corrSetup4 [[1], [1]] [[0]] = none ∧ exSwapRun corrSetup4 corrSetup3 [[0]] [[1], [1]] = some (-2, [some (-1)], some (-1)) := by decide +kernel

/-- node 0 by itself varies; a constant node takes away from the total -/
example : exSwapRun corrSetup4 corrSetup4 [[0]] [[0]] = some (0, [some 1], some 1) ∧
    exSwapRun ⟨[1, 2, 3, 4], [0, 1], [fun n => if n = 0 then .ok [(1, some 1), (2, some 1), (3, some 1), (4, some 1)] else .ok [(2, some 2), (4, some 0)]], some id⟩
      ⟨[1, 2, 3, 4], [0, 1], [fun n => if n = 0 then .ok [(1, some 1), (2, some 1), (3, some 1), (4, some 1)] else .ok [(2, some 2), (4, some 0)]], some id⟩ [[0], [1]] [[0], [1]] =
      some (0, [none, some 1], some (1 / 4)) := by decide +kernel

/-- two files -/
example : fileCorrelate 5 id exCoef (1 / 4) (exCorrAgg (some id)) (exCorrAgg none) cs!"cpu" = fileCorrelate 5 id exCoef (1 / 4) (exCorrAgg none) (exCorrAgg (some id)) cs!"cpu" ∧
    ((fileCorrelate 5 id exCoef (1 / 4) (exCorrAgg (some id)) (exCorrAgg none) cs!"cpu").toOption.map Prod.fst) = some [some (-1), some 1] := by decide +kernel

end Trappy
