import Verif.Prop.Correlator
import Verif.Model.Correlator
import Verif.Prop.Aggregate
import Verif.Prop.Topology
/-!
# C138, C139: the whole correlator
-/

namespace Trappy

/-- an aggregator with triggers on its index, for at least one node and one time -/
structure SetupOk (s : AggSetup) : Prop where
  distinct : s.nodes.Nodup
  nodes : s.nodes ≠ []
  trigs : s.gs ≠ []
  ok : ∀ g ∈ s.gs, TrigOk s.index s.nodes g
  sorted : s.index.Pairwise (· < ·)
  times : s.index ≠ []

/-- a level: groups of nodes, none of them in two groups -/
structure LevelOk (s : AggSetup) (groups : List (List Nat)) : Prop where
  within : ∀ g ∈ groups, g ≠ [] ∧ ∀ n ∈ g, n ∈ s.nodes
  disjoint : groups.flatten.Nodup

theorem seriesSum_congr {index : List Nat} {base base' : Nat → TSeries} {g : List Nat} {v : TSeries} (h : ∀ n ∈ g, base n = base' n)
    (hs : SeriesSum index base g v) : SeriesSum index base' g v := by
  refine ⟨hs.1, fun i vals hl hv hi => hs.2 i vals hl (fun j n x hj hx => ?_) hi⟩
  rw [h n (List.mem_of_getElem? hj)]
  exact hv j n x hj hx

theorem callPlain_ready (index nodes : List Nat) (gs : List TrigGen) (store : List (Nat × TSeries)) (base : Nat → TSeries)
    (hb : ∀ n ∈ nodes, store.lookup n = some (base n)) (hi : ∀ n ∈ nodes, (base n).map Prod.fst = index) (groups : List (List Nat))
    (hgr : ∀ g ∈ groups, g ≠ [] ∧ ∀ n ∈ g, n ∈ nodes) (hdis : groups.flatten.Nodup) :
    ∃ vs, (AggObj.callPlain index nodes gs ⟨store, true⟩ groups).2 = .ok vs ∧ List.Forall₂ (SeriesSum index base) groups vs := by
  obtain ⟨store', refs, e1, e2, -⟩ := aggGroups_ok base groups (fun g h => (hgr g h).1) store hdis
    (fun g h n hn => hb n ((hgr g h).2 n hn))
  refine ⟨refs.filterMap fun n => store'.lookup n, ?_, ?_⟩
  · simp only [AggObj.callPlain, AggObj.prepare, if_true, aggregatePlain, e1]
  · clear e1 hdis
    induction e2 with
    | nil => exact List.Forall₂.nil
    | @cons g _ _ _ h _ ih =>
      obtain ⟨s, hs, hsum⟩ := h
      simp only [List.filterMap_cons, hs]
      exact List.Forall₂.cons (seriesSum_of index base g s (fun n hn => hi n ((hgr g List.mem_cons_self).2 n hn)) hsum)
        (ih fun g hg => hgr g (List.mem_cons_of_mem _ hg))

/-- the aggregator after the call for all nodes that the constructor makes: the series of the first node is now the total -/
theorem callPlain_all (s : AggSetup) (hs : SetupOk s) : ∃ (base : Nat → TSeries) (total : TSeries) (store : List (Nat × TSeries)),
    (∀ n ∈ s.nodes, IsBase s.index s.gs n (base n)) ∧ SeriesSum s.index base s.nodes total ∧
    AggObj.new.callPlain s.index s.nodes s.gs [s.nodes] = (⟨store, true⟩, .ok [total]) ∧
    ∀ n ∈ s.nodes, store.lookup n = some (if s.nodes.head? = some n then total else base n) := by
  obtain ⟨store, h1, h2⟩ := C61_base s.index s.nodes hs.distinct s.gs hs.trigs hs.ok
  have hbase : ∀ n, ∃ r, n ∈ s.nodes → store.lookup n = some r ∧ IsBase s.index s.gs n r := by
    intro n
    by_cases hn : n ∈ s.nodes
    · obtain ⟨r, hr⟩ := h2 n hn; exact ⟨r, fun _ => hr⟩
    · exact ⟨[], fun h => absurd h hn⟩
  choose base hb using hbase
  have hp : AggObj.new.prepare s.index s.nodes s.gs = .ok ⟨store, true⟩ := by simp [AggObj.prepare, AggObj.new, h1]
  cases hn : s.nodes with
  | nil => exact absurd hn hs.nodes
  | cons n0 rest =>
    have hd := hs.distinct
    rw [hn, List.nodup_cons] at hd
    rw [hn] at hb hp
    obtain ⟨store', e1, e2, e3⟩ := addInPlace_ok n0 rest hd.1 base store (base n0) (hb n0 List.mem_cons_self).1
      (fun m hm => (hb m (List.mem_cons_of_mem _ hm)).1)
    refine ⟨base, rest.foldl (fun a m => saddVals a (base m)) (base n0), store', fun n h => (hb n h).2,
      seriesSum_of _ _ _ _ (fun n h => (hb n h).2.1) rfl, ?_, ?_⟩
    · simp only [AggObj.callPlain, hp, aggregatePlain, aggGroups, (hb n0 List.mem_cons_self).1, e1, List.filterMap_cons, e2,
        List.filterMap_nil]
    · intro n hm
      by_cases h : n0 = n
      · subst h
        simp [e2]
      · rw [e3 n (fun e => h e.symm), (hb n hm).1]
        simp [h]

theorem unified_two (i j : List Nat) (hi : i.Pairwise (· < ·)) (hj : j.Pairwise (· < ·)) (hne : i ≠ []) :
    ∃ u, unifiedIndexer [i, j] = some u ∧ u ≠ [] := by
  obtain ⟨u, h1, -, h3⟩ := C59_unified_indexer [i, j] (by simp) (by simp [hi, hj])
  refine ⟨u, h1, ?_⟩
  cases i with
  | nil => exact absurd rfl hne
  | cons a i => exact List.ne_nil_of_mem ((h3 a).2 ⟨_, List.mem_cons_self, List.mem_cons_self⟩)

theorem resampleSeries_some (time : Nat → Rat) (index : List Nat) (hne : index ≠ []) (delta : Rat) (v : TSeries) : ∃ x, resampleSeries time index delta v = some x := by
  unfold resampleSeries resample getUniform
  cases index with
  | nil => exact absurd rfl hne
  | cons a l =>
    rw [List.map_cons, List.head?_cons, List.getLast?_cons]
    exact ⟨_, rfl⟩

theorem resampleGroups_ok (time : Nat → Rat) (index : List Nat) (hne : index ≠ []) (delta : Rat) (vs ws : List TSeries) (h : vs.length = ws.length) :
    ∃ ps, resampleGroups time index delta vs ws = .ok ps ∧ ps.length = vs.length ∧ ∀ (i : Nat) v w, vs[i]? = some v → ws[i]? = some w →
      ∃ x y, ps[i]? = some (x, y) ∧ resampleSeries time index delta v = some x ∧ resampleSeries time index delta w = some y := by
  induction vs generalizing ws with
  | nil => exact ⟨[], rfl, rfl, by simp⟩
  | cons v vs ih =>
    cases ws with
    | nil => simp at h
    | cons w ws =>
      obtain ⟨ps, h1, h2, h3⟩ := ih ws (by simpa using h)
      obtain ⟨x, hx⟩ := resampleSeries_some time index hne delta v
      obtain ⟨y, hy⟩ := resampleSeries_some time index hne delta w
      refine ⟨(x, y) :: ps, by simp only [resampleGroups, hx, hy, h1], by simp [h2], ?_⟩
      intro i v' w' hv hw
      cases i with
      | zero =>
        simp only [List.getElem?_cons_zero, Option.some.injEq] at hv hw
        subst hv hw
        exact ⟨x, y, rfl, hx, hy⟩
      | succ i => exact h3 i v' w' (by simpa using hv) (by simpa using hw)

/-- The coefficient reported for two groups is the one of these two series: put on the uniform index (C85) and shifted (C62). -/
def CoefficientOf (time : Nat → Rat) (corr : List (Option Rat) → List (Option Rat) → Option Rat) (delta : Rat) (c : CorrObj) (v w : TSeries) (r : Option Rat) : Prop :=
  ∃ x y, resampleSeries time c.index delta v = some x ∧ resampleSeries time c.index delta w = some y ∧
    r = corr (shiftSeries x y c.shift).1 (shiftSeries x y c.shift).2

theorem correlate_of (time : Nat → Rat) (corr : List (Option Rat) → List (Option Rat) → Option Rat) (delta : Rat) (s1 s2 : AggSetup) (c : CorrObj) (hc : c.index ≠ [])
    (g1 g2 : List (List Nat)) (P1 P2 : List Nat → TSeries → Prop) (vs ws : List TSeries) (h1 : (s1.call c.first g1).2 = .ok vs)
    (h2 : (s2.call c.second g2).2 = .ok ws) (hv : List.Forall₂ P1 g1 vs) (hw : List.Forall₂ P2 g2 ws) (hlen : g1.length = g2.length) :
    ∃ corrs tot, (c.correlate time corr delta s1 s2 g1 g2).2 = .ok (corrs, tot) ∧ corrs.length = g1.length ∧
      ∀ (i : Nat) g h, g1[i]? = some g → g2[i]? = some h → ∃ v w r, P1 g v ∧ P2 h w ∧ corrs[i]? = some r ∧ CoefficientOf time corr delta c v w r := by
  obtain ⟨ps, e1, e2, e3⟩ := resampleGroups_ok time c.index hc delta vs ws (by rw [← hv.length_eq, ← hw.length_eq, hlen])
  refine ⟨(ps.map fun g => shiftSeries g.1 g.2 c.shift).map fun g => corr g.1 g.2, (correlateGroups corr c.shift ps).2, ?_, ?_, ?_⟩
  · unfold CorrObj.correlate
    have hq1 : s1.call c.first g1 = ((s1.call c.first g1).1, .ok vs) := Prod.ext rfl h1
    have hq2 : s2.call c.second g2 = ((s2.call c.second g2).1, .ok ws) := Prod.ext rfl h2
    rw [hq1, hq2]
    simp only [e1]
    rfl
  · rw [List.length_map, List.length_map, e2, hv.length_eq]
  · intro i g h hg hh
    have hi1 := (List.getElem?_eq_some_iff.1 hg).1
    have hi2 := (List.getElem?_eq_some_iff.1 hh).1
    have hv' : vs[i]? = some (vs[i]'(by rw [← hv.length_eq]; exact hi1)) := List.getElem?_eq_getElem _
    have hw' : ws[i]? = some (ws[i]'(by rw [← hw.length_eq]; exact hi2)) := List.getElem?_eq_getElem _
    obtain ⟨x, y, hp, hx, hy⟩ := e3 i _ _ hv' hw'
    have hP1 := (List.forall₂_iff_get.1 hv).2 i hi1 (by rw [← hv.length_eq]; exact hi1)
    have hP2 := (List.forall₂_iff_get.1 hw).2 i hi2 (by rw [← hw.length_eq]; exact hi2)
    refine ⟨_, _, _, ?_, ?_, by rw [List.getElem?_map, List.getElem?_map, hp]; rfl, ⟨x, y, hx, hy, rfl⟩⟩
    · rw [List.getElem?_eq_some_iff] at hg
      obtain ⟨_, rfl⟩ := hg
      exact hP1
    · rw [List.getElem?_eq_some_iff] at hh
      obtain ⟨_, rfl⟩ := hh
      exact hP2

/-- what `correlate` compares if the aggregators have no function -/
theorem correlate_plain (time : Nat → Rat) (corr : List (Option Rat) → List (Option Rat) → Option Rat) (delta : Rat) (s1 s2 : AggSetup) (h1 : SetupOk s1) (h2 : SetupOk s2)
    (hf1 : s1.func = none) (hf2 : s2.func = none) :
    ∃ (c : CorrObj) (base1 base2 : Nat → TSeries) (total1 total2 : TSeries), CorrObj.new time corr delta s1 s2 = .ok c ∧ (∀ n ∈ s1.nodes, IsBase s1.index s1.gs n (base1 n)) ∧
      (∀ n ∈ s2.nodes, IsBase s2.index s2.gs n (base2 n)) ∧ SeriesSum s1.index base1 s1.nodes total1 ∧ SeriesSum s2.index base2 s2.nodes total2 ∧
      ∀ g1 g2, LevelOk s1 g1 → LevelOk s2 g2 → g1.length = g2.length →
        ∃ corrs tot, (c.correlate time corr delta s1 s2 g1 g2).2 = .ok (corrs, tot) ∧ corrs.length = g1.length ∧
          ∀ (i : Nat) g h, g1[i]? = some g → g2[i]? = some h → ∃ v w r,
            SeriesSum s1.index (fun n => if s1.nodes.head? = some n then total1 else base1 n) g v ∧
            SeriesSum s2.index (fun n => if s2.nodes.head? = some n then total2 else base2 n) h w ∧
            corrs[i]? = some r ∧ CoefficientOf time corr delta c v w r := by
  obtain ⟨base1, total1, store1, a1, b1, c1, d1⟩ := callPlain_all s1 h1
  obtain ⟨base2, total2, store2, a2, b2, c2, d2⟩ := callPlain_all s2 h2
  obtain ⟨u, hu, hne⟩ := unified_two s1.index s2.index h1.sorted h2.sorted h1.times
  obtain ⟨x, hx⟩ := resampleSeries_some time u hne delta total1
  obtain ⟨y, hy⟩ := resampleSeries_some time u hne delta total2
  refine ⟨⟨⟨store1, true⟩, ⟨store2, true⟩, u, alignTop corr x y⟩, base1, base2, total1, total2, ?_, a1, a2, b1, b2, ?_⟩
  · simp only [CorrObj.new, hu, AggSetup.call, hf1, hf2, c1, c2, List.head?_cons, hx, hy]
  · intro g1 g2 l1 l2 hlen
    obtain ⟨vs, v1, v2⟩ := callPlain_ready s1.index s1.nodes s1.gs store1 _ d1 (by
      intro n hn
      by_cases h : s1.nodes.head? = some n
      · rw [if_pos h]; exact b1.1
      · rw [if_neg h]; exact (a1 n hn).1) g1 l1.within l1.disjoint
    obtain ⟨ws, w1, w2⟩ := callPlain_ready s2.index s2.nodes s2.gs store2 _ d2 (by
      intro n hn
      by_cases h : s2.nodes.head? = some n
      · rw [if_pos h]; exact b2.1
      · rw [if_neg h]; exact (a2 n hn).1) g2 l2.within l2.disjoint
    refine correlate_of time corr delta s1 s2 ⟨⟨store1, true⟩, ⟨store2, true⟩, u, alignTop corr x y⟩ hne g1 g2 _ _ vs ws ?_ ?_ v2 w2 hlen
    · simp only [AggSetup.call, hf1]; exact v1
    · simp only [AggSetup.call, hf2]; exact w1

/-- **C138, partial**: two aggregators without aggregation function, correlated at any level: the coefficient of a group is the one of the
sums of the series of its nodes, if the first node of the topology is not in the group. -/
theorem C138_groups_partial (time : Nat → Rat) (corr : List (Option Rat) → List (Option Rat) → Option Rat) (delta : Rat) (s1 s2 : AggSetup) (h1 : SetupOk s1)
    (h2 : SetupOk s2) (hf1 : s1.func = none) (hf2 : s2.func = none) :
    ∃ (c : CorrObj) (base1 base2 : Nat → TSeries), CorrObj.new time corr delta s1 s2 = .ok c ∧ (∀ n ∈ s1.nodes, IsBase s1.index s1.gs n (base1 n)) ∧
      (∀ n ∈ s2.nodes, IsBase s2.index s2.gs n (base2 n)) ∧
      ∀ g1 g2, LevelOk s1 g1 → LevelOk s2 g2 → g1.length = g2.length →
        ∃ corrs tot, (c.correlate time corr delta s1 s2 g1 g2).2 = .ok (corrs, tot) ∧ corrs.length = g1.length ∧
          ∀ (i : Nat) g h, g1[i]? = some g → g2[i]? = some h → (∀ n ∈ g, s1.nodes.head? ≠ some n) → (∀ n ∈ h, s2.nodes.head? ≠ some n) →
            ∃ v w r, SeriesSum s1.index base1 g v ∧ SeriesSum s2.index base2 h w ∧ corrs[i]? = some r ∧ CoefficientOf time corr delta c v w r := by
  obtain ⟨c, base1, base2, total1, total2, e1, e2, e3, -, -, e4⟩ := correlate_plain time corr delta s1 s2 h1 h2 hf1 hf2
  refine ⟨c, base1, base2, e1, e2, e3, fun g1 g2 l1 l2 hlen => ?_⟩
  obtain ⟨corrs, tot, f1, f2, f3⟩ := e4 g1 g2 l1 l2 hlen
  refine ⟨corrs, tot, f1, f2, fun i g h hg hh n1 n2 => ?_⟩
  obtain ⟨v, w, r, p1, p2, p3, p4⟩ := f3 i g h hg hh
  exact ⟨v, w, r, seriesSum_congr (fun n hn => if_neg (n1 n hn)) p1, seriesSum_congr (fun n hn => if_neg (n2 n hn)) p2, p3, p4⟩

/-- **C138, refuted**: the coefficient reported for the first node by itself is not the one of its own series, but always the one of the
sums over all nodes. -/
theorem C138_first_node_refuted (time : Nat → Rat) (corr : List (Option Rat) → List (Option Rat) → Option Rat) (delta : Rat) (s1 s2 : AggSetup) (h1 : SetupOk s1)
    (h2 : SetupOk s2) (hf1 : s1.func = none) (hf2 : s2.func = none) :
    ∃ (c : CorrObj) (base1 base2 : Nat → TSeries), CorrObj.new time corr delta s1 s2 = .ok c ∧ (∀ n ∈ s1.nodes, IsBase s1.index s1.gs n (base1 n)) ∧
      (∀ n ∈ s2.nodes, IsBase s2.index s2.gs n (base2 n)) ∧
      ∀ g1 g2, LevelOk s1 g1 → LevelOk s2 g2 → g1.length = g2.length →
        ∃ corrs tot, (c.correlate time corr delta s1 s2 g1 g2).2 = .ok (corrs, tot) ∧
          ∀ (i : Nat) n m, g1[i]? = some [n] → g2[i]? = some [m] → s1.nodes.head? = some n → s2.nodes.head? = some m →
            ∃ v w r, SeriesSum s1.index base1 s1.nodes v ∧ SeriesSum s2.index base2 s2.nodes w ∧ corrs[i]? = some r ∧
              CoefficientOf time corr delta c v w r := by
  obtain ⟨c, base1, base2, total1, total2, e1, e2, e3, t1, t2, e4⟩ := correlate_plain time corr delta s1 s2 h1 h2 hf1 hf2
  refine ⟨c, base1, base2, e1, e2, e3, fun g1 g2 l1 l2 hlen => ?_⟩
  obtain ⟨corrs, tot, f1, f2, f3⟩ := e4 g1 g2 l1 l2 hlen
  have hsingle : ∀ (index : List Nat) (total : TSeries) (f : Nat → TSeries) (n : Nat) (v : TSeries), f n = total → total.map Prod.fst = index →
      SeriesSum index f [n] v → v = total := by
    intro index total f n v hf ht hv
    have hfst : v.map Prod.fst = total.map Prod.fst := by rw [hv.1, ht]
    have hlen : v.length = total.length := by simpa using congrArg List.length hfst
    have hil : index.length = total.length := by rw [← ht, List.length_map]
    have hsnd : v.map Prod.snd = total.map Prod.snd := by
      apply List.ext_getElem?
      intro i
      by_cases hi : i < total.length
      · have hx : (total.map Prod.snd)[i]? = some (total[i]).2 := by simp [hi]
        obtain ⟨r, hr1, hr2⟩ := hv.2 i [(total[i]).2] rfl (by
          intro j m x hj hxx
          match j with
          | 0 =>
            simp only [List.getElem?_cons_zero, Option.some.injEq] at hj hxx
            subst hj hxx
            rw [hf]
            exact hx
          | j + 1 => simp at hj) (by omega)
        rw [hr1, hx]
        rcases hr2 with ⟨qs, hq, rfl⟩ | ⟨hq, rfl⟩
        · match qs, hq with
          | _ :: _ :: _, hq => simp at hq
          | [q], hq => simp only [List.map_cons, List.map_nil, List.cons.injEq, and_true] at hq; rw [hq]; simp
        · simp only [List.mem_singleton] at hq; rw [hq]
      · rw [List.getElem?_eq_none (by simp; omega), List.getElem?_eq_none (by simp; omega)]
    exact List.ext_getElem hlen (fun i h1 h2 => Prod.ext
      (by have := congrArg (·[i]?) hfst; simpa [h1, h2] using this) (by have := congrArg (·[i]?) hsnd; simpa [h1, h2] using this))
  refine ⟨corrs, tot, f1, fun i n m hg hh hn hm => ?_⟩
  obtain ⟨v, w, r, p1, p2, p3, p4⟩ := f3 i _ _ hg hh
  have hv := hsingle _ total1 _ n v (if_pos hn) t1.1 p1
  have hw := hsingle _ total2 _ m w (if_pos hm) t2.1 p2
  subst hv hw
  exact ⟨_, _, r, t1, t2, p3, p4⟩

/-- the aggregator with a function after the call for all nodes that the constructor makes -/
theorem callWith_all (s : AggSetup) (f : TSeries → TSeries) (hs : SetupOk s) (hf : s.func = some f) (hk : ∀ t, (f t).map Prod.fst = t.map Prod.fst) :
    ∃ (base : Nat → TSeries) (store : List (Nat × TSeries)), (∀ n ∈ s.nodes, IsBase s.index s.gs n (base n)) ∧
      (∃ v, s.call AggObj.new [s.nodes] = (⟨store, true⟩, .ok [v]) ∧ SeriesSum s.index (fun n => f (base n)) s.nodes v) ∧
      ∀ groups, (∀ g ∈ groups, g ≠ [] ∧ ∀ n ∈ g, n ∈ s.nodes) → ∃ vs, s.call ⟨store, true⟩ groups = (⟨store, true⟩, .ok vs) ∧
        List.Forall₂ (SeriesSum s.index fun n => f (base n)) groups vs := by
  obtain ⟨store, e1, e2⟩ := C61_base s.index s.nodes hs.distinct s.gs hs.trigs hs.ok
  have hbase : ∀ n, ∃ r, n ∈ s.nodes → store.lookup n = some r ∧ IsBase s.index s.gs n r := by
    intro n
    by_cases hn : n ∈ s.nodes
    · obtain ⟨r, hr⟩ := e2 n hn; exact ⟨r, fun _ => hr⟩
    · exact ⟨[], fun h => absurd h hn⟩
  choose base hb using hbase
  have hp : AggObj.new.prepare s.index s.nodes s.gs = .ok ⟨store, true⟩ := by simp [AggObj.prepare, AggObj.new, e1]
  refine ⟨base, store, fun n hn => (hb n hn).2, ?_, ?_⟩
  · obtain ⟨r, r1, r2⟩ := aggregateWith_ok f saddVals store base [s.nodes] (by simpa using hs.nodes) (by simpa using fun n hn => (hb n hn).1)
    cases r2 with
    | @cons _ v _ _ hr hnil =>
      cases hnil
      refine ⟨v, by simp only [AggSetup.call, hf, AggObj.callWith, hp, r1], seriesSum_of _ _ _ _ (fun n hn => by rw [hk]; exact (hb n hn).2.1) ?_⟩
      cases hn : s.nodes with
      | nil => rw [hn] at hr; exact hr
      | cons a g => rw [hn] at hr; exact hr
  · intro groups hgr
    obtain ⟨vs, r1, r2⟩ := aggregateWith_ok f saddVals store base groups (fun g hg => (hgr g hg).1) (fun g hg n hn => (hb n ((hgr g hg).2 n hn)).1)
    refine ⟨vs, by simp only [AggSetup.call, hf, AggObj.callWith, AggObj.prepare, if_true, r1], ?_⟩
    clear r1
    induction r2 with
    | nil => exact .nil
    | @cons g v gs _ h _ ih =>
      refine .cons (seriesSum_of _ _ _ _ (fun n hn => by rw [hk]; exact (hb n ((hgr g List.mem_cons_self).2 n hn)).2.1) ?_)
        (ih fun g hg => hgr g (List.mem_cons_of_mem _ hg))
      cases g with
      | nil => exact h
      | cons a g => exact h

/-- **C138, partial**: with aggregation functions that return a new series on the same index, the correlator stays as it is at every call, and the
coefficient of every group, at every level, is the one of the sums over its nodes of what the functions give. -/
theorem C138_functions_partial (time : Nat → Rat) (corr : List (Option Rat) → List (Option Rat) → Option Rat) (delta : Rat) (s1 s2 : AggSetup) (h1 : SetupOk s1)
    (h2 : SetupOk s2) (f1 f2 : TSeries → TSeries) (hf1 : s1.func = some f1) (hf2 : s2.func = some f2)
    (hk1 : ∀ s, (f1 s).map Prod.fst = s.map Prod.fst) (hk2 : ∀ s, (f2 s).map Prod.fst = s.map Prod.fst) :
    ∃ (c : CorrObj) (base1 base2 : Nat → TSeries), CorrObj.new time corr delta s1 s2 = .ok c ∧ (∀ n ∈ s1.nodes, IsBase s1.index s1.gs n (base1 n)) ∧
      (∀ n ∈ s2.nodes, IsBase s2.index s2.gs n (base2 n)) ∧
      ∀ g1 g2, (∀ g ∈ g1, g ≠ [] ∧ ∀ n ∈ g, n ∈ s1.nodes) → (∀ g ∈ g2, g ≠ [] ∧ ∀ n ∈ g, n ∈ s2.nodes) → g1.length = g2.length →
        (c.correlate time corr delta s1 s2 g1 g2).1 = c ∧
        ∃ corrs tot, (c.correlate time corr delta s1 s2 g1 g2).2 = .ok (corrs, tot) ∧ corrs.length = g1.length ∧
          ∀ (i : Nat) g h, g1[i]? = some g → g2[i]? = some h →
            ∃ v w r, SeriesSum s1.index (fun n => f1 (base1 n)) g v ∧ SeriesSum s2.index (fun n => f2 (base2 n)) h w ∧ corrs[i]? = some r ∧
              CoefficientOf time corr delta c v w r := by
  obtain ⟨base1, store1, a1, ⟨v1, b1, -⟩, c1⟩ := callWith_all s1 f1 h1 hf1 hk1
  obtain ⟨base2, store2, a2, ⟨v2, b2, -⟩, c2⟩ := callWith_all s2 f2 h2 hf2 hk2
  obtain ⟨u, hu, hne⟩ := unified_two s1.index s2.index h1.sorted h2.sorted h1.times
  obtain ⟨x, hx⟩ := resampleSeries_some time u hne delta v1
  obtain ⟨y, hy⟩ := resampleSeries_some time u hne delta v2
  refine ⟨⟨⟨store1, true⟩, ⟨store2, true⟩, u, alignTop corr x y⟩, base1, base2, ?_, a1, a2, ?_⟩
  · simp only [CorrObj.new, hu, b1, b2, List.head?_cons, hx, hy]
  · intro g1 g2 l1 l2 hlen
    obtain ⟨vs, d1, d2⟩ := c1 g1 l1
    obtain ⟨ws, d3, d4⟩ := c2 g2 l2
    refine ⟨?_, correlate_of time corr delta s1 s2 ⟨⟨store1, true⟩, ⟨store2, true⟩, u, alignTop corr x y⟩ hne g1 g2 _ _ vs ws (by rw [d1]) (by rw [d3]) d2 d4 hlen⟩
    simp only [CorrObj.correlate, d1, d3]

/-- the series of a node that the constructor adds up: what the function gives of it, if there is one -/
def AggSetup.applied (s : AggSetup) (t : TSeries) : TSeries :=
  match s.func with
  | none => t
  | some f => f t

/-- **C138 (the correlator).** The correlator of two aggregators, with functions that keep the index or without, has the times of both in order, and its shift is the one chosen (C139) for the sums over all nodes, put on the
uniform index. -/
theorem C138_correlator (time : Nat → Rat) (corr : List (Option Rat) → List (Option Rat) → Option Rat) (delta : Rat) (s1 s2 : AggSetup) (h1 : SetupOk s1) (h2 : SetupOk s2)
    (hk1 : ∀ f, s1.func = some f → ∀ s, (f s).map Prod.fst = s.map Prod.fst) (hk2 : ∀ f, s2.func = some f → ∀ s, (f s).map Prod.fst = s.map Prod.fst) :
    ∃ (c : CorrObj) (base1 base2 : Nat → TSeries) (total1 total2 : TSeries) (x y : List (Option Rat)), CorrObj.new time corr delta s1 s2 = .ok c ∧
      (∀ n ∈ s1.nodes, IsBase s1.index s1.gs n (base1 n)) ∧ (∀ n ∈ s2.nodes, IsBase s2.index s2.gs n (base2 n)) ∧
      SeriesSum s1.index (fun n => s1.applied (base1 n)) s1.nodes total1 ∧ SeriesSum s2.index (fun n => s2.applied (base2 n)) s2.nodes total2 ∧
      c.index.Pairwise (· < ·) ∧ (∀ t, t ∈ c.index ↔ t ∈ s1.index ∨ t ∈ s2.index) ∧
      resampleSeries time c.index delta total1 = some x ∧ resampleSeries time c.index delta total2 = some y ∧ c.shift = alignTop corr x y := by
  have key : ∀ s : AggSetup, SetupOk s → (∀ f, s.func = some f → ∀ t, (f t).map Prod.fst = t.map Prod.fst) → ∃ (base : Nat → TSeries) (total : TSeries) (store : List (Nat × TSeries)),
      (∀ n ∈ s.nodes, IsBase s.index s.gs n (base n)) ∧ SeriesSum s.index (fun n => s.applied (base n)) s.nodes total ∧ s.call AggObj.new [s.nodes] = (⟨store, true⟩, .ok [total]) := by
    intro s hs hk
    cases hf : s.func with
    | none =>
      obtain ⟨base, total, store, a, b, c, -⟩ := callPlain_all s hs
      refine ⟨base, total, store, a, ?_, ?_⟩
      · simp only [AggSetup.applied, hf]; exact b
      · simp only [AggSetup.call, hf]; exact c
    | some f =>
      obtain ⟨base, store, a, ⟨v, b, c⟩, -⟩ := callWith_all s f hs hf (hk f hf)
      refine ⟨base, v, store, a, ?_, b⟩
      simp only [AggSetup.applied, hf]; exact c
  obtain ⟨base1, total1, store1, a1, b1, c1⟩ := key s1 h1 hk1
  obtain ⟨base2, total2, store2, a2, b2, c2⟩ := key s2 h2 hk2
  obtain ⟨u, hu, hne⟩ := unified_two s1.index s2.index h1.sorted h2.sorted h1.times
  obtain ⟨u', hu', hs', hm'⟩ := C59_unified_indexer [s1.index, s2.index] (by simp) (by simp [h1.sorted, h2.sorted])
  obtain rfl : u' = u := Option.some.inj (hu'.symm.trans hu)
  obtain ⟨x, hx⟩ := resampleSeries_some time u' hne delta total1
  obtain ⟨y, hy⟩ := resampleSeries_some time u' hne delta total2
  refine ⟨⟨⟨store1, true⟩, ⟨store2, true⟩, u', alignTop corr x y⟩, base1, base2, total1, total2, x, y, ?_, a1, a2, b1, b2, hs', ?_, hx, hy, rfl⟩
  · simp only [CorrObj.new, hu, c1, c2, List.head?_cons, hx, hy]
  · intro t
    rw [hm']
    simp

/-- **Specification**: the series on the uniform index: a sample every `delta` from the first time of the index on, below its last time; each has the value that the series had last, NaN before its first time. -/
def HeldOn (time : Nat → Rat) (index : List Nat) (delta : Rat) (v : TSeries) (x : List (Option Rat)) : Prop :=
  ∃ a b, index.head? = some a ∧ index.getLast? = some b ∧ ∀ i : Nat,
    (time b ≤ time a + i * delta → x[i]? = none) ∧
    (time a + i * delta < time b → ∃ c, x[i]? = some c ∧ ((∀ p ∈ v, time a + i * delta < time p.1) → c = none) ∧
      ∀ p ∈ v, time p.1 ≤ time a + i * delta → (∀ q ∈ v, time q.1 ≤ time a + i * delta → time q.1 ≤ time p.1) → c = p.2)

/-- **C138 (samples).** For all series with increasing times and every positive step: what is compared is the series held on the uniform index. -/
theorem C138_held (time : Nat → Rat) (index : List Nat) (delta : Rat) (hd : 0 < delta) (v : TSeries) (hv : (v.map fun p => time p.1).Pairwise (· < ·)) (x : List (Option Rat))
    (h : resampleSeries time index delta v = some x) : HeldOn time index delta v x := by
  cases index with
  | nil => simp [resampleSeries, resample, getUniform] at h
  | cons a l =>
    have hlast : (a :: l).getLast? = some ((a :: l).getLast (by simp)) := List.getLast?_eq_some_getLast (by simp)
    refine ⟨a, (a :: l).getLast (by simp), rfl, hlast, ?_⟩
    obtain ⟨r, r1, r2, -⟩ := C85_resample ((a :: l).map time) (time a) (time ((a :: l).getLast (by simp))) delta hd rfl (by rw [List.getLast?_map, hlast]; rfl)
      (v.map fun p => (time p.1, p.2))
    unfold resampleSeries at h
    rw [r1, Option.map_some, Option.some.injEq] at h
    subst h
    intro i
    rw [List.getElem?_map, r2 i]
    refine ⟨fun hi => by rw [if_neg (not_lt.2 hi)]; rfl, fun hi => ?_⟩
    rw [if_pos hi]
    obtain ⟨p1, p2⟩ := C85_pad (time a + i * delta) (v.map fun p => (time p.1, p.2)) (by rw [List.map_map]; exact hv)
    refine ⟨_, rfl, fun hall => p2 ?_, fun p hp hle hmax => p1 (time p.1) p.2 (List.mem_map_of_mem hp) hle ?_⟩
    · intro y hy
      obtain ⟨q, hq, rfl⟩ := List.mem_map.1 hy
      exact hall q hq
    · intro y hy hy'
      obtain ⟨q, hq, rfl⟩ := List.mem_map.1 hy
      exact hmax q hq hy'

/-- half seconds: every second time is sampled -/
example : resampleSeries (fun t => (t : Rat) / 2) [1, 4, 6] 1 [(2, some 5), (4, some 7), (6, some 8)] = some [none, some 5, some 7] := by decide +kernel

/-- two nodes, each with a sample of its own -/
def corrSetup : AggSetup := ⟨[5, 7], [0, 1], [aggTrig], none⟩

theorem corrSetup_ok : SetupOk corrSetup where
  distinct := by decide
  nodes := by decide
  trigs := by simp [corrSetup]
  ok := by simpa [corrSetup] using aggTrig_ok
  sorted := by decide
  times := by decide

/-- a stand-in for the coefficient: the value of the last sample of the first series -/
def lastOf (x _y : List (Option Rat)) : Option Rat := x.getLast?.join

/-- the second aggregator has one more sample, so that the index ends later -/
def corrSetup2 : AggSetup := ⟨[5, 7, 9], [0, 1], [aggTrig], none⟩

example : SetupOk corrSetup2 ∧ LevelOk corrSetup [[0], [1]] ∧ LevelOk corrSetup2 [[0], [1]] := by
  refine ⟨⟨by decide, by decide, by simp [corrSetup2], ?_, by decide, by decide⟩, ⟨by decide, by decide⟩, ⟨by decide, by decide⟩⟩
  intro g hg n hn
  simp only [corrSetup2, List.mem_singleton] at hg
  subst hg
  simp only [corrSetup2, List.mem_cons, List.not_mem_nil, or_false] at hn
  rcases hn with rfl | rfl
  · exact ⟨[(5, some 1)], rfl, by decide, by decide⟩
  · exact ⟨[(7, some 2)], rfl, by decide, by decide⟩

/-- the last sample of node 0 is 0, but 2 is found, which is the one of the total -/
example : (match CorrObj.new (fun t => t) lastOf 1 corrSetup corrSetup2 with
    | .ok c => match (c.correlate (fun t => t) lastOf 1 corrSetup corrSetup2 [[0], [1]] [[0], [1]]).2 with
      | .ok r => r.1
      | .error _ => []
    | .error _ => []) = [some 2, some 2] := by decide +kernel

/-- the times of both, and no shift -/
example : (match CorrObj.new (fun t => t) lastOf 1 corrSetup corrSetup2 with
    | .ok c => (c.index, c.shift)
    | .error _ => ([], 7)) = ([5, 7, 9], 0) := by decide +kernel

/-! ## C139 -/

/-- **C139, partial**: if both coefficients are defined, the shift chosen is the one of an alignment that is at least as good as the other. -/
theorem C139_better_partial (corr : List (Option Rat) → List (Option Rat) → Option Rat) (x y fx fy bx by' : List (Option Rat)) (fs bs : Int) (f b : Rat)
    (h1 : alignSeries .front x y = (fx, fy, fs)) (h2 : alignSeries .back x y = (bx, by', bs)) (hf : corr fx fy = some f) (hb : corr bx by' = some b) :
    (b ≤ f → alignTop corr x y = fs) ∧ (f < b → alignTop corr x y = bs) := by
  simp only [alignTop, h1, h2, hf, hb, chooseShift]
  exact ⟨fun h => if_pos h, fun h => if_neg (not_le.2 h)⟩

/-- **C139, refuted**: an alignment without a correlation coefficient is chosen before one with a coefficient below zero, and two coefficients of which
one is undefined are compared as if it were zero. -/
theorem C139_undefined_refuted (corr : List (Option Rat) → List (Option Rat) → Option Rat) (x y fx fy bx by' : List (Option Rat)) (fs bs : Int) (q : Rat)
    (hq : q < 0) (h1 : alignSeries .front x y = (fx, fy, fs)) (h2 : alignSeries .back x y = (bx, by', bs)) :
    (corr fx fy = none → corr bx by' = some q → alignTop corr x y = fs) ∧ (corr fx fy = some q → corr bx by' = none → alignTop corr x y = bs) := by
  simp only [alignTop, h1, h2, chooseShift]
  refine ⟨fun a b => ?_, fun a b => ?_⟩
  · rw [a, b]; exact if_pos hq.le
  · rw [a, b]; exact if_neg (not_le.2 hq)

/-- both alignments have a coefficient; and one of them is undefined, the other below zero -/
example : alignSeries .front [some 0, some 1, some 1, some 0] [some 1, some 1, some 1, some 0] =
      ([some 0, some 1, some 1, some 0], [none, some 1, some 1, some 1], 1) ∧
    alignSeries .back [some 0, some 1, some 1, some 0] [some 1, some 1, some 1, some 0] =
      ([some 0, some 1, some 1, some 0], [some 1, some 1, some 1, some 0], 0) ∧
    alignTop (fun _ y => if y.head? = some none then none else some (-1)) [some 0, some 1, some 1, some 0] [some 1, some 1, some 1, some 0] = 1 := by
  decide +kernel

end Trappy
