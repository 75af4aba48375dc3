import Verif.Model.FileCorr
import Verif.Prop.FileStats
import Verif.Prop.CorrObj
/-!
# C171: from the files of two traces to their correlation
-/

namespace Trappy
open F64 Py

/-! ## Specification -/

/-- the file of a trace: its lines before and from the first event on, and the cells of each event -/
structure FileText where
  header : List Str
  items : List TraceItem
  cells : ParserClass → TraceEvent → List (Str × Val)
  ops : List (Str × List (List Nat))

/-- **Specification**: the lines of the aggregator are those of the file, which its parsers can read; the triggers are for these parsers, and the topology is made by adding levels to an empty one. -/
structure FileReads (fuel : Nat) (ord : List Nat → List Nat) (a : FileAgg) (t : FileText) : Prop where
  builtin : ∀ p ∈ a.ps, p ∈ builtins
  distinct : a.ps.Nodup
  file : TraceFile a.ps t.header t.items
  short : t.items.length < 2 ^ 32
  cells : ∀ p ∈ a.ps, ClassReads fuel p.name (TraceItem.eventsOf p.event t.items) (t.cells p)
  masks : ∀ p ∈ a.ps, EvenMasks p.name (TraceItem.eventsOf p.event t.items) (t.cells p)
  window : a.user.window.hi = none → a.user.absWindow.hi ≠ some 0
  trigs : a.trigs ≠ []
  parsed : ∀ t ∈ a.trigs, t.event ∈ a.ps.map ParserClass.name
  lines : a.lines = t.header ++ t.items.map TraceItem.text
  topo : a.topo = Topo.empty.run t.ops
  nodes : a.topo.flatten ord ≠ []
  func : ∀ f, a.func = some f → ∀ s, (f s).map Prod.fst = s.map Prod.fst

/-- **Specification**: the lines of the events of the triggers that the user asks for, with the times the user sees: strictly increasing times as near as possible to those of the file, minus the first one if they are
normalised. The normalised times of two lines are different; there is a line, and the triggers can be applied. -/
structure FileLinesAre (a : FileAgg) (t : FileText) (out : List Nat) (shift : Nat → Nat) (lines : List EventLine) : Prop where
  are : lines = TraceItem.calls a.ps (a.trigs.map UserTrigger.event) t.cells (AskedTime a.user (firstTime out)) shift 0 t.items out
  times : a.user.normalize = true → (out.map shift).Pairwise (· < ·)
  fits : ∀ t ∈ a.trigs, TriggerFits lines t

/-- **Specification**: the times of a file -/
def FileTimes (a : FileAgg) (t : FileText) (out : List Nat) (shift : Nat → Nat) : Prop :=
  MinimalTimes 0 (TraceItem.times t.items) out ∧ ∀ t ∈ out, if a.user.normalize then NearestEven (val t - val (firstTime out)) (shift t) else shift t = t

/-- **Specification**: the series of a node: what `aggfunc` gives of the values of the lines -/
noncomputable def fileSeries (a : FileAgg) (lines : List EventLine) (n : Nat) : TSeries :=
  match a.func with
  | none => nodeSeries lines a.trigs n
  | some f => f (nodeSeries lines a.trigs n)

/-! ## Lemmas -/

theorem setup_lines {fuel : Nat} {ord : List Nat → List Nat} (hord : ∀ l, (ord l).Perm l) {a : FileAgg} {t : FileText} (h : FileReads fuel ord a t) :
    ∃ out shift, FileTimes a t out shift ∧ ∀ lines, FileLinesAre a t out shift lines →
      ∃ s, a.setup fuel ord = .ok s ∧ SetupOk s ∧ s.index = lines.map (fun c => c.2.2.1) ∧ s.nodes = a.topo.flatten ord ∧ s.func = a.func ∧
        ∀ n base, IsBase s.index s.gs n base → base = nodeSeries lines a.trigs n := by
  classical
  obtain ⟨out, shift, o1, o2, o3⟩ := C134_object fuel a.ps h.builtin h.distinct t.header t.items h.file t.cells h.cells h.masks a.user h.window
  refine ⟨out, shift, ⟨o1, o2⟩, ?_⟩
  rintro lines ⟨hlines, htimes, hfit⟩
  have hord' : (out.map shift).Pairwise (· < ·) := by
    by_cases hn : a.user.normalize = true
    · exact htimes hn
    · have : out.map shift = out := by
        conv_rhs => rw [← List.map_id out]
        refine List.map_congr_left fun t ht => ?_
        have := o2 t ht
        rw [if_neg hn] at this
        exact this
      rw [this]
      exact o1.pairwise.1
  have hs : (lines.map fun c => c.2.2.1).Pairwise (· < ·) := by
    rw [hlines]
    exact hord'.sublist (TraceItem.calls_times 0 t.items out)
  have hnames : ∀ c ∈ lines, c.1 ∈ a.trigs.map UserTrigger.event := by
    rw [hlines]
    exact TraceItem.calls_names 0 t.items out
  have ht : ∀ x ∈ a.trigs, (namedTables a.ps (a.ps.map fun p => (fileRows (t.cells p) p t.items a.user out).map fun r => (shift r.1, r.2))).get x.event = some (linesOf lines x.event) := by
    intro x hx
    obtain ⟨p, hp, he⟩ := List.mem_map.1 (h.parsed x hx)
    rw [← he, namedTables_get _ h.builtin hp, hlines, fileRows_lines h.builtin t.cells t.items h.short a.user out shift hp (he ▸ List.mem_map.2 ⟨x, hx, rfl⟩)]
  have e := eventIndices_lines ht
  refine ⟨⟨lines.map (fun c => c.2.2.1), a.topo.flatten ord, a.trigs.map (userGen (namedTables a.ps (a.ps.map fun p => (fileRows (t.cells p) p t.items a.user out).map fun r => (shift r.1, r.2)))), a.func⟩, ?_, ?_, rfl, rfl, rfl, ?_⟩
  · unfold FileAgg.setup
    rw [h.lines, o3]
    simp only [fileRows] at e ⊢
    rw [e]
    simp only
    rw [unify_lines hnames hs]
  · refine ⟨?_, h.nodes, by simpa using h.trigs, ?_, hs, ?_⟩
    · show (a.topo.flatten ord).Nodup
      rw [h.topo]
      exact (C58_levels ord hord t.ops).2.2.1
    · intro g hg n _
      obtain ⟨x, hx, rfl⟩ := List.mem_map.1 hg
      have hsub : (((lines.filter fun c => decide (LineHit lines n c x)).map fun c => (c.2.2.1, some x.value)).map Prod.fst).Sublist (lines.map fun c => c.2.2.1) := by
        rw [List.map_map]
        exact List.Sublist.map _ List.filter_sublist
      exact ⟨_, userGen_lines (ht x hx) (hfit x hx) n, hsub.nodup (hs.imp fun h => Nat.ne_of_lt h), fun x hx => hsub.subset hx⟩
    · obtain ⟨x, hx⟩ := List.exists_mem_of_ne_nil _ h.trigs
      obtain ⟨c, hc, -⟩ := (hfit x hx).pivot
      exact List.ne_nil_of_mem (List.mem_map.2 ⟨c, hc, rfl⟩)
  · intro n base hb
    exact isBase_lines ht hfit hs hb

/-! ## Properties -/

/-- **C171, partial.** The correlation at a level of two traces that are read from files. Both aggregators have a function, that keeps the times, or both have none. The uniform index is made of the times of all lines of both
files, and the shift is the one chosen (C139) for the sums over all nodes. The coefficient of each pair of groups of the level is that of the sums of the series of their nodes, put on this index and shifted. The series of a
node is what the function gives of the values of the lines of its file. For all files, parsers, windows, triggers, topologies and functions. Without functions it is only claimed for groups without the first node of their
topology. -/
theorem C171_correlation_partial (fuel : Nat) (ord : List Nat → List Nat) (hord : ∀ l, (ord l).Perm l) (corr : List (Option Rat) → List (Option Rat) → Option Rat) (delta : Rat)
    (first second : FileAgg) (t1 t2 : FileText) (h1 : FileReads fuel ord first t1) (h2 : FileReads fuel ord second t2) (hfun : first.func.isSome = second.func.isSome)
    (level : Str) (g1 g2 : List (List Nat)) (hl1 : first.topo.getLevel ord level = some g1) (hl2 : second.topo.getLevel ord level = some g2)
    (hne1 : ∀ g ∈ g1, g ≠ []) (hne2 : ∀ g ∈ g2, g ≠ []) (hlen : g1.length = g2.length) (hdis : first.func = none → g1.flatten.Nodup ∧ g2.flatten.Nodup) :
    ∃ out1 shift1 out2 shift2, FileTimes first t1 out1 shift1 ∧ FileTimes second t2 out2 shift2 ∧
      ∀ l1 l2, FileLinesAre first t1 out1 shift1 l1 → FileLinesAre second t2 out2 shift2 l2 →
        ∃ (index : List Nat) (total1 total2 : TSeries) (x y : List (Option Rat)) (corrs : List (Option Rat)) (tot : Option Rat),
          fileCorrelate fuel ord corr delta first second level = .ok (corrs, tot) ∧
          index.Pairwise (· < ·) ∧ (∀ t, t ∈ index ↔ (∃ c ∈ l1, c.2.2.1 = t) ∨ ∃ c ∈ l2, c.2.2.1 = t) ∧
          SeriesSum (l1.map fun c => c.2.2.1) (fileSeries first l1) (first.topo.flatten ord) total1 ∧ SeriesSum (l2.map fun c => c.2.2.1) (fileSeries second l2) (second.topo.flatten ord) total2 ∧
          resampleSeries val index delta total1 = some x ∧ resampleSeries val index delta total2 = some y ∧
          corrs.length = g1.length ∧ ∀ (i : Nat) g h, g1[i]? = some g → g2[i]? = some h →
            (first.func = none → (∀ n ∈ g, (first.topo.flatten ord).head? ≠ some n) ∧ ∀ n ∈ h, (second.topo.flatten ord).head? ≠ some n) →
            ∃ v w a b, SeriesSum (l1.map fun c => c.2.2.1) (fileSeries first l1) g v ∧ SeriesSum (l2.map fun c => c.2.2.1) (fileSeries second l2) h w ∧
              resampleSeries val index delta v = some a ∧ resampleSeries val index delta w = some b ∧
              corrs[i]? = some (corr (shiftSeries a b (alignTop corr x y)).1 (shiftSeries a b (alignTop corr x y)).2) := by
  obtain ⟨out1, shift1, ft1, k1⟩ := setup_lines hord h1
  obtain ⟨out2, shift2, ft2, k2⟩ := setup_lines hord h2
  refine ⟨out1, shift1, out2, shift2, ft1, ft2, fun l1 l2 hl1' hl2' => ?_⟩
  obtain ⟨s1, e1, ok1, i1, n1, f1, b1⟩ := k1 l1 hl1'
  obtain ⟨s2, e2, ok2, i2, n2, f2, b2⟩ := k2 l2 hl2'
  have hgr1 : ∀ g ∈ g1, g ≠ [] ∧ ∀ n ∈ g, n ∈ s1.nodes := fun g hg => ⟨hne1 g hg, by rw [n1, h1.topo]; exact level_groups hord (h1.topo ▸ hl1) g hg⟩
  have hgr2 : ∀ g ∈ g2, g ≠ [] ∧ ∀ n ∈ g, n ∈ s2.nodes := fun g hg => ⟨hne2 g hg, by rw [n2, h2.topo]; exact level_groups hord (h2.topo ▸ hl2) g hg⟩
  obtain ⟨c, base1, base2, total1, total2, x, y, c1, c2, c3, c4, c5, c6, c7, c8, c9, c10⟩ :=
    C138_correlator floatTime corr delta s1 s2 ok1 ok2 (by rw [f1]; exact h1.func) (by rw [f2]; exact h2.func)
  have happ1 : ∀ n ∈ s1.nodes, s1.applied (base1 n) = fileSeries first l1 n := by
    intro n hn
    rw [b1 n _ (c2 n hn)]
    unfold AggSetup.applied fileSeries
    rw [f1]
    cases first.func <;> rfl
  have happ2 : ∀ n ∈ s2.nodes, s2.applied (base2 n) = fileSeries second l2 n := by
    intro n hn
    rw [b2 n _ (c3 n hn)]
    unfold AggSetup.applied fileSeries
    rw [f2]
    cases second.func <;> rfl
  have htime : floatTime = val := rfl
  have main : ∃ corrs tot, (c.correlate floatTime corr delta s1 s2 g1 g2).2 = .ok (corrs, tot) ∧ corrs.length = g1.length ∧ ∀ (i : Nat) g h, g1[i]? = some g → g2[i]? = some h →
      (first.func = none → (∀ n ∈ g, (first.topo.flatten ord).head? ≠ some n) ∧ ∀ n ∈ h, (second.topo.flatten ord).head? ≠ some n) →
      ∃ v w r, SeriesSum (l1.map fun c => c.2.2.1) (fileSeries first l1) g v ∧ SeriesSum (l2.map fun c => c.2.2.1) (fileSeries second l2) h w ∧ corrs[i]? = some r ∧ CoefficientOf floatTime corr delta c v w r := by
    cases hf1 : first.func with
    | none =>
      have hf2 : second.func = none := by
        rw [hf1] at hfun
        cases h : second.func with
        | none => rfl
        | some f => rw [h] at hfun; cases hfun
      obtain ⟨c', p1, p2, q1, q2, q3, q4⟩ := C138_groups_partial floatTime corr delta s1 s2 ok1 ok2 (f1.trans hf1) (f2.trans hf2)
      obtain rfl : c = c' := by rw [c1] at q1; exact Except.ok.inj q1
      obtain ⟨corrs, tot, r1, r2, r3⟩ := q4 g1 g2 ⟨hgr1, (hdis hf1).1⟩ ⟨hgr2, (hdis hf1).2⟩ hlen
      refine ⟨corrs, tot, r1, r2, fun i g h hg hh hfirst => ?_⟩
      obtain ⟨hx, hy⟩ := hfirst rfl
      obtain ⟨v, w, r, u1, u2, u3, u4⟩ := r3 i g h hg hh (by rw [n1]; exact hx) (by rw [n2]; exact hy)
      refine ⟨v, w, r, ?_, ?_, u3, u4⟩
      · rw [← i1]
        refine seriesSum_congr (fun n hn => ?_) u1
        rw [b1 n _ (q2 n ((hgr1 g (List.mem_of_getElem? hg)).2 n hn)), fileSeries, hf1]
      · rw [← i2]
        refine seriesSum_congr (fun n hn => ?_) u2
        rw [b2 n _ (q3 n ((hgr2 h (List.mem_of_getElem? hh)).2 n hn)), fileSeries, hf2]
    | some f =>
      obtain ⟨f', hf2⟩ : ∃ f', second.func = some f' := by
        rw [hf1] at hfun
        cases h : second.func with
        | none => rw [h] at hfun; cases hfun
        | some f' => exact ⟨f', rfl⟩
      obtain ⟨c', p1, p2, q1, q2, q3, q4⟩ := C138_functions_partial floatTime corr delta s1 s2 ok1 ok2 f f' (f1.trans hf1) (f2.trans hf2) (h1.func f hf1) (h2.func f' hf2)
      obtain rfl : c = c' := by rw [c1] at q1; exact Except.ok.inj q1
      obtain ⟨-, corrs, tot, r1, r2, r3⟩ := q4 g1 g2 hgr1 hgr2 hlen
      refine ⟨corrs, tot, r1, r2, fun i g h hg hh _ => ?_⟩
      obtain ⟨v, w, r, u1, u2, u3, u4⟩ := r3 i g h hg hh
      refine ⟨v, w, r, ?_, ?_, u3, u4⟩
      · rw [← i1]
        refine seriesSum_congr (fun n hn => ?_) u1
        rw [b1 n _ (q2 n ((hgr1 g (List.mem_of_getElem? hg)).2 n hn)), fileSeries, hf1]
      · rw [← i2]
        refine seriesSum_congr (fun n hn => ?_) u2
        rw [b2 n _ (q3 n ((hgr2 h (List.mem_of_getElem? hh)).2 n hn)), fileSeries, hf2]
  obtain ⟨corrs, tot, m1, m2, m3⟩ := main
  refine ⟨c.index, total1, total2, x, y, corrs, tot, ?_, c6, ?_, ?_, ?_, c8, c9, m2, ?_⟩
  · simp only [fileCorrelate, e1, e2, c1, hl1, hl2, m1]
  · intro t
    rw [c7, i1, i2, List.mem_map, List.mem_map]
  · rw [← i1, ← n1]
    exact seriesSum_congr happ1 c4
  · rw [← i2, ← n2]
    exact seriesSum_congr happ2 c5
  · intro i g h hg hh hfirst
    obtain ⟨v, w, r, u1, u2, u3, ⟨a, b, u4, u5, rfl⟩⟩ := m3 i g h hg hh hfirst
    exact ⟨v, w, a, b, u1, u2, u4, u5, by rw [u3, c10]⟩

/-- **C171 (refuted).** Without functions the groups of the first nodes are compared by the sums of all nodes, whatever the lines of the files are: the constructor of the correlator has added the series of all nodes to that of
the first one. -/
theorem C171_first_node_refuted (fuel : Nat) (ord : List Nat → List Nat) (hord : ∀ l, (ord l).Perm l) (corr : List (Option Rat) → List (Option Rat) → Option Rat) (delta : Rat)
    (first second : FileAgg) (t1 t2 : FileText) (h1 : FileReads fuel ord first t1) (h2 : FileReads fuel ord second t2) (hf1 : first.func = none) (hf2 : second.func = none)
    (level : Str) (g1 g2 : List (List Nat)) (hl1 : first.topo.getLevel ord level = some g1) (hl2 : second.topo.getLevel ord level = some g2)
    (hne1 : ∀ g ∈ g1, g ≠ []) (hne2 : ∀ g ∈ g2, g ≠ []) (hlen : g1.length = g2.length) (hdis : g1.flatten.Nodup ∧ g2.flatten.Nodup) :
    ∃ out1 shift1 out2 shift2, FileTimes first t1 out1 shift1 ∧ FileTimes second t2 out2 shift2 ∧
      ∀ l1 l2, FileLinesAre first t1 out1 shift1 l1 → FileLinesAre second t2 out2 shift2 l2 →
        ∃ (index : List Nat) (shift : Int) (corrs : List (Option Rat)) (tot : Option Rat), fileCorrelate fuel ord corr delta first second level = .ok (corrs, tot) ∧
          ∀ (i : Nat) n m, g1[i]? = some [n] → g2[i]? = some [m] → (first.topo.flatten ord).head? = some n → (second.topo.flatten ord).head? = some m →
            ∃ v w a b, SeriesSum (l1.map fun c => c.2.2.1) (fileSeries first l1) (first.topo.flatten ord) v ∧ SeriesSum (l2.map fun c => c.2.2.1) (fileSeries second l2) (second.topo.flatten ord) w ∧
              resampleSeries val index delta v = some a ∧ resampleSeries val index delta w = some b ∧ corrs[i]? = some (corr (shiftSeries a b shift).1 (shiftSeries a b shift).2) := by
  obtain ⟨out1, shift1, ft1, k1⟩ := setup_lines hord h1
  obtain ⟨out2, shift2, ft2, k2⟩ := setup_lines hord h2
  refine ⟨out1, shift1, out2, shift2, ft1, ft2, fun l1 l2 hl1' hl2' => ?_⟩
  obtain ⟨s1, e1, ok1, i1, n1, f1, b1⟩ := k1 l1 hl1'
  obtain ⟨s2, e2, ok2, i2, n2, f2, b2⟩ := k2 l2 hl2'
  have hgr1 : ∀ g ∈ g1, g ≠ [] ∧ ∀ n ∈ g, n ∈ s1.nodes := fun g hg => ⟨hne1 g hg, by rw [n1, h1.topo]; exact level_groups hord (h1.topo ▸ hl1) g hg⟩
  have hgr2 : ∀ g ∈ g2, g ≠ [] ∧ ∀ n ∈ g, n ∈ s2.nodes := fun g hg => ⟨hne2 g hg, by rw [n2, h2.topo]; exact level_groups hord (h2.topo ▸ hl2) g hg⟩
  obtain ⟨c, p1, p2, q1, q2, q3, q4⟩ := C138_first_node_refuted floatTime corr delta s1 s2 ok1 ok2 (f1.trans hf1) (f2.trans hf2)
  obtain ⟨corrs, tot, r1, r2⟩ := q4 g1 g2 ⟨hgr1, hdis.1⟩ ⟨hgr2, hdis.2⟩ hlen
  refine ⟨c.index, c.shift, corrs, tot, ?_, ?_⟩
  · simp only [fileCorrelate, e1, e2, q1, hl1, hl2, r1]
  · intro i n m hg hh hn hm
    obtain ⟨v, w, r, u1, u2, u3, ⟨a, b, u4, u5, rfl⟩⟩ := r2 i n m hg hh (by rw [n1]; exact hn) (by rw [n2]; exact hm)
    refine ⟨v, w, a, b, ?_, ?_, u4, u5, u3⟩
    · rw [← i1, ← n1]
      refine seriesSum_congr (fun n hn => ?_) u1
      rw [b1 n _ (q2 n hn), fileSeries, hf1]
    · rw [← i2, ← n2]
      refine seriesSum_congr (fun n hn => ?_) u2
      rw [b2 n _ (q3 n hn), fileSeries, hf2]

/-- **C171.** A trigger of one of the aggregators on an event that is not parsed: AttributeError before anything is compared, whatever the level and the other aggregator are, if that can be made. For all files, parsers and windows. -/
theorem C171_missing (fuel : Nat) (ord : List Nat → List Nat) (corr : List (Option Rat) → List (Option Rat) → Option Rat) (delta : Rat) (a : FileAgg) (t : FileText)
    (hps : ∀ p ∈ a.ps, p ∈ builtins) (hnd : a.ps.Nodup) (h : TraceFile a.ps t.header t.items) (hc : ∀ p ∈ a.ps, ClassReads fuel p.name (TraceItem.eventsOf p.event t.items) (t.cells p))
    (hm : ∀ p ∈ a.ps, EvenMasks p.name (TraceItem.eventsOf p.event t.items) (t.cells p)) (hw : a.user.window.hi = none → a.user.absWindow.hi ≠ some 0)
    (hl : a.lines = t.header ++ t.items.map TraceItem.text) (hno : ∃ g ∈ a.trigs, g.event ∉ a.ps.map ParserClass.name) (level : Str) :
    (∀ b, fileCorrelate fuel ord corr delta a b level = .error .noEvent) ∧ ∀ b s, b.setup fuel ord = .ok s → fileCorrelate fuel ord corr delta b a level = .error .noEvent := by
  have key : a.setup fuel ord = .error .noEvent := by
    obtain ⟨out, shift, o1, o2, o3⟩ := C134_object fuel a.ps hps hnd t.header t.items h t.cells hc hm a.user hw
    obtain ⟨g, hg, hgn⟩ := hno
    unfold FileAgg.setup
    rw [hl, o3]
    simp only
    rw [eventIndices_none ⟨g, hg, namedTables_none _ hgn⟩]
  refine ⟨fun b => ?_, fun b s hb => ?_⟩
  · simp only [fileCorrelate, key]
  · simp only [fileCorrelate, key, hb]

/-- the switches of the example, each CPU by itself, with and without a function -/
def exCorrAgg (func : Option (TSeries → TSeries)) : FileAgg := ⟨exWholeParsers, UserParams.full true, exStatLines, exStatTriggers, Topo.empty.run [(cs!"cpu", [[0], [1]])], func⟩

/-- the last value of the first series on the uniform index stands for the coefficient: with functions that of each CPU, at 2.25 seconds; without them, that of both for the first CPU -/
example : fileCorrelate 5 id lastOf (1 / 4) (exCorrAgg (some id)) (exCorrAgg (some id)) cs!"cpu" = .ok ([some 0, some 10], some (10 / 3)) ∧
    fileCorrelate 5 id lastOf (1 / 4) (exCorrAgg none) (exCorrAgg none) cs!"cpu" = .ok ([some 10, some 10], some 10) ∧
    fileCorrelate 5 id lastOf (1 / 4) (exCorrAgg none) (exCorrAgg none) cs!"cluster" = .error .noLevel ∧
    fileCorrelate 5 id lastOf (1 / 4) (exCorrAgg none) { exCorrAgg none with trigs := [⟨cs!"thermal_power", [], 1, cs!"__cpu"⟩] } cs!"cpu" = .error .noEvent := by
  refine ⟨?_, ?_, ?_, ?_⟩ <;> decide +kernel

/-- the hypotheses -/
example : FileReads 5 id ⟨exParsers, UserParams.full true, exHeader ++ exItems.map TraceItem.text, [⟨cs!"sched_wakeup", [], 1, cs!"__cpu"⟩], Topo.empty.run [(cs!"cpu", [[0], [1]])], some id⟩
    ⟨exHeader, exItems, fun _ => exCells, [(cs!"cpu", [[0], [1]])]⟩ where
  builtin := by decide +kernel
  distinct := by decide +kernel
  file := exFile_ok
  short := by decide
  cells := exTrace_reads.1
  masks := exTrace_reads.2
  window := by simp [UserParams.full]
  trigs := by simp
  parsed := by
    intro t ht
    simp only [List.mem_singleton] at ht
    subst ht
    decide +kernel
  lines := rfl
  topo := rfl
  nodes := by decide +kernel
  func := by
    intro f hf s
    simp only [Option.some.injEq] at hf
    subst hf
    rfl

end Trappy
