import Verif.Model.PlotTrace
import Verif.Prop.Whole
import Verif.Prop.Residency
import Verif.Prop.EventPlotJs
import Verif.Prop.Header
import Verif.Prop.EndToEnd
/-!
# C156: from the file of a trace to the lines of `plot_trace` in the browser
-/

namespace Trappy
open F64 Py

/-! ## Specification -/

/-- **Specification**: the row of the table is the switch `s` -/
structure IsSwitch (r : Nat × Dict Val) (s : SwitchRow) : Prop where
  time : s.time = r.1
  prev : r.2.get cs!"prev_pid" = some (.int (s.prevPid : Int))
  next : r.2.get cs!"next_pid" = some (.int (s.nextPid : Int))
  comm : r.2.get cs!"next_comm" = some (.str s.nextComm)
  cpu : r.2.get cs!"__cpu" = some (.int (s.cpu : Int))

/-- **Specification**: the run as a line from its start to its end in the lane of its CPU -/
def runEvent (iv : Interval) : LaneEvent := ⟨val iv.start, val iv.stop, .int (iv.cpu : Int)⟩

/-! ## Lemmas -/

theorem F64.NearestEven.mono {q q' : ℚ} {x y : Nat} (h : q ≤ q') (hx : NearestEven q x) (hy : NearestEven q' y) : x ≤ y := by
  by_contra hlt
  have hv : val y < val x := val_lt_iff.mpr (by omega)
  have h1 := (hx.2 y hy.1).1
  have h2 := (hy.2 x hx.1).1
  have e : q = q' := by
    rcases abs_cases (val x - q) with ⟨a1, _⟩ | ⟨a1, _⟩ <;> rcases abs_cases (val y - q) with ⟨a2, _⟩ | ⟨a2, _⟩ <;>
      rcases abs_cases (val x - q') with ⟨a3, _⟩ | ⟨a3, _⟩ <;> rcases abs_cases (val y - q') with ⟨a4, _⟩ | ⟨a4, _⟩ <;>
      rw [a1, a2] at h1 <;> rw [a3, a4] at h2 <;> linarith
  subst e
  exact hlt (le_of_eq (hx.unique hy))

theorem switchRowOf_is {r : Nat × Dict Val} {s : SwitchRow} (h : IsSwitch r s) : switchRowOf r = some s := by
  unfold switchRowOf
  rw [h.prev, h.next, h.cpu, h.comm]
  have e : ∀ n : Nat, natCell (some (.int (n : Int))) = some n := fun n => rfl
  rw [e, e, e]
  simp [commCell, ← h.time]

theorem switchRows_is {t : Table (Dict Val)} {sw : List SwitchRow} (h : List.Forall₂ IsSwitch t sw) : switchRows t = some sw := by
  induction h with
  | nil => rfl
  | cons h _ ih =>
    rw [switchRows, switchRowOf_is h, ih]

theorem namedTables_get (f : ParserClass → Table (Dict Val)) : ∀ {ps : List ParserClass}, (∀ p ∈ ps, p ∈ builtins) → ∀ {p : ParserClass}, p ∈ ps →
    (namedTables ps (ps.map f)).get p.name = some (f p)
  | q :: qs, hps, p, hp => by
    rw [List.map_cons, namedTables]
    by_cases hq : q.name = p.name
    · have := builtins_sameName q (hps q (by simp)) p (hps p hp) hq
      subst this
      simp [Dict.get]
    · rcases List.mem_cons.1 hp with rfl | hp
      · exact absurd rfl hq
      · have := namedTables_get f (fun p hp => hps p (by simp [hp])) hp
        rw [Dict.get, if_neg hq]
        exact this

/-- every name in the state is the name of a task -/
structure RNames (st : RState) : Prop where
  nodup : (st.data.map Prod.fst).Nodup
  keys : ∀ k ∈ st.data.map Prod.fst, ∃ c p, k = procName c p
  pmap : ∀ e ∈ st.pmap, ∃ c p, e.2 = procName c p

theorem lookup_mem_nat {ν : Type} {l : List (Nat × ν)} {k : Nat} {v : ν} (h : l.lookup k = some v) : (k, v) ∈ l := by
  induction l with
  | nil => cases h
  | cons a l ih =>
    obtain ⟨k', v'⟩ := a
    rw [List.lookup_cons] at h
    by_cases hk : k = k'
    · subst hk
      simp at h
      simp [h]
    · have : (k == k') = false := by simpa using hk
      rw [this] at h
      exact List.mem_cons_of_mem _ (ih h)

theorem Dict.mem_keys_set {α : Type} {d : Dict α} {k k' : Str} {v : α} (h : k' ∈ (d.set k v).map Prod.fst) : k' = k ∨ k' ∈ d.map Prod.fst := by
  rw [← Dict.get_isSome, Dict.get_set] at h
  by_cases e : k = k'
  · exact .inl e.symm
  · rw [if_neg e] at h
    exact .inr ((Dict.get_isSome ..).1 h)

theorem RNames.step {execnames : List Str} {pids : List Nat} {endIdx : Nat} {st st' : RState} {r : SwitchRow} (h : RNames st)
    (hs : switchStep execnames pids endIdx st r = some st') : RNames st' := by
  have hset : ∀ (st : RState) n l (pm : List (Nat × Str)) pr, RNames st → (∃ c p, n = procName c p) → (∀ e ∈ pm, e ∈ st.pmap ∨ ∃ c p, e.2 = procName c p) →
      RNames ⟨st.data.set n l, pm, pr⟩ := by
    intro st n l pm pr h hn hpm
    refine ⟨Dict.nodup_set h.nodup _ _, fun k hk => ?_, fun e he => ?_⟩
    · rcases Dict.mem_keys_set hk with rfl | hk
      · exact hn
      · exact h.keys k hk
    · rcases hpm e he with he | he
      · exact h.pmap e he
      · exact he
  unfold switchStep at hs
  split at hs
  · cases hs
  rename_i st1 h1
  split at hs
  · cases hs
  rename_i st2 h2
  cases hs
  have r1 : RNames st1 := by
    unfold closePrev at h1
    split at h1
    · cases h1; exact h
    · rename_i name hl
      split at h1
      · cases h1
      · cases h1
        exact hset st _ _ _ _ h (h.pmap _ (lookup_mem_nat hl)) fun e he => .inl (List.mem_filter.1 he).1
  have r2 : RNames st2 := by
    unfold dropStale at h2
    split at h2
    · cases h2; exact r1
    · split at h2
      · cases h2
      · cases h2
        exact hset st1 _ _ _ _ r1 ⟨_, _, rfl⟩ fun e he => .inl (List.mem_filter.1 he).1
  unfold openNext
  split
  · refine hset st2 _ _ _ _ r2 ⟨_, _, rfl⟩ fun e he => ?_
    rcases List.mem_cons.1 he with rfl | he
    · exact .inr ⟨_, _, rfl⟩
    · exact .inl (List.mem_filter.1 he).1
  · exact r2

theorem RNames.loop {execnames : List Str} {pids : List Nat} {endIdx : Nat} {rows : List SwitchRow} {st st' : RState} (h : RNames st)
    (hs : switchLoop execnames pids endIdx st rows = some st') : RNames st' := by
  induction rows generalizing st with
  | nil => cases hs; exact h
  | cons r rs ih =>
    unfold switchLoop at hs
    split at hs
    · cases hs
    · rename_i st1 h1
      exact ih (h.step h1) hs

theorem residency_names {execnames : List Str} {pids : List Nat} {rows : List SwitchRow} {R : Residency} (h : residency execnames pids rows = some R) :
    (R.data.map Prod.fst).Nodup ∧ ∀ k ∈ R.data.map Prod.fst, ∃ c p, k = procName c p := by
  unfold residency at h
  split at h
  · cases h
  · simp only at h
    split at h
    · cases h
    · rename_i st hst
      cases h
      have : RNames st := RNames.loop ⟨by simp, by simp, by simp⟩ hst
      exact ⟨this.nodup, this.keys⟩

theorem laneData_get (d : Dict (List Interval)) (k : Str) : (laneData d).get k = (d.get k).map (List.map laneEvent) := by
  induction d with
  | nil => rfl
  | cons a d ih =>
    obtain ⟨k', es⟩ := a
    unfold laneData at ih ⊢
    rw [List.map_cons]
    unfold Dict.get
    by_cases h : k' = k
    · simp [h]
    · simp only [if_neg h]; exact ih

theorem sum_pos_iff {l : List Interval} (h : ∀ iv ∈ l, iv.start ≤ iv.stop) :
    ((l.map runEvent).map fun e => e.stop - e.start).sum ≠ 0 ↔ ∃ iv ∈ l, iv.start < iv.stop := by
  have key : ∀ l : List Interval, (∀ iv ∈ l, iv.start ≤ iv.stop) → 0 ≤ ((l.map runEvent).map fun e => e.stop - e.start).sum ∧
      (((l.map runEvent).map fun e => e.stop - e.start).sum ≠ 0 ↔ ∃ iv ∈ l, iv.start < iv.stop) := by
    intro l
    induction l with
    | nil => intro _; simp
    | cons a l ih =>
      intro h
      obtain ⟨i1, i2⟩ := ih fun iv hiv => h iv (by simp [hiv])
      have ha : val a.start ≤ val a.stop := val_le_iff.2 (h a (by simp))
      simp only [List.map_cons, List.sum_cons]
      have e1 : (runEvent a).stop - (runEvent a).start = val a.stop - val a.start := rfl
      rw [e1]
      refine ⟨by linarith, ?_⟩
      rw [List.exists_mem_cons_iff, ← i2, ← val_lt_iff (a := a.start)]
      constructor
      · intro hs
        by_cases hlt : val a.start < val a.stop
        · exact .inl hlt
        · refine .inr fun h0 => hs ?_
          rw [h0]
          linarith
      · rintro (hlt | hne)
        · intro h0
          linarith
        · intro h0
          have : 0 < ((l.map runEvent).map fun e => e.stop - e.start).sum := lt_of_le_of_ne i1 (Ne.symm hne)
          linarith
  exact (key l h).2

theorem runs_inOrder {l : List Interval} (h1 : l.Pairwise fun a b => a.stop ≤ b.start) (h2 : ∀ iv ∈ l, iv.start ≤ iv.stop) : InOrder (l.map runEvent) := by
  unfold InOrder
  rw [List.pairwise_map]
  refine h1.imp_of_mem fun {a b} ha hb hab _ => ?_
  have h3 := h2 a ha
  have h4 := h2 b hb
  exact ⟨val_le_iff.2 (by omega), val_le_iff.2 (by omega)⟩

theorem wide_positive {x : Rat → Rat} (hx : ∀ u v, u ≤ v → x u ≤ x v) {a b : Rat} {iv : Interval} (h : WideEnough x a b (runEvent iv)) : iv.start < iv.stop := by
  by_contra hn
  have hv : val iv.stop ≤ val iv.start := val_le_iff.2 (by omega)
  have : x (min (val iv.stop) b) ≤ x (max (val iv.start) a) := hx _ _ ((min_le_left _ _).trans (hv.trans (le_max_left _ _)))
  have h' : 1 / 100 ≤ x (min (val iv.stop) b) - x (max (val iv.start) a) := h
  linarith

theorem fileRows_times {cells : TraceEvent → List (Str × Val)} {p : ParserClass} {items : List TraceItem} {u : UserParams} {out : List Nat} (ho : out.Pairwise (· < ·)) :
    ((fileRows cells p items u out).Pairwise fun a b => a.1 < b.1) ∧ ∀ r ∈ fileRows cells p items u out, r.1 ∈ out := by
  constructor
  · unfold fileRows asked within
    refine List.Pairwise.filter _ ?_
    rw [List.pairwise_map]
    exact tableWith_sorted ho
  · intro r hr
    obtain ⟨r', hr', rfl⟩ := List.mem_map.1 (within_mem hr)
    exact (mem_tableWith hr').1

theorem switches_sorted {t : Table (Dict Val)} {sw : List SwitchRow} (h : List.Forall₂ IsSwitch t sw) (ht : t.Pairwise fun a b => a.1 ≤ b.1) :
    sw.Pairwise fun a b => a.time ≤ b.time := by
  induction h with
  | nil => exact .nil
  | @cons r s t sw hr hts ih =>
    rw [List.pairwise_cons] at ht ⊢
    refine ⟨fun s' hs' => ?_, ih ht.2⟩
    obtain ⟨r', hr', hrs⟩ := forall₂_exists_left hts hs'
    rw [hr.time, hrs.time]
    exact ht.1 r' hr'

/-- the plot of the residency data -/
theorem plot_runs {execnames : List Str} {pids : List Nat} {sw : List SwitchRow} {f l : SwitchRow} (hf : sw.head? = some f) (hl : sw.getLast? = some l)
    (hs : Steady execnames pids sw) (ht : sw.Pairwise fun a b => a.time ≤ b.time) {n : Nat} (hn : n ≠ 0) :
    ∃ R labels keys items, residency execnames pids sw = some R ∧ R.first = f.time ∧ R.last = l.time ∧
      eventPlot [] cs!"CPU :" n (laneData R.data) = some (labels, keys, items) ∧ labels = (List.range n).map (.numbered cs!"CPU :") ∧ keys.Nodup ∧
      (∀ k, k ∈ keys ↔ ∃ c q, k = c ++ '-' :: natStr q ∧ ∃ iv ∈ runsOf execnames pids l.time c q sw, iv.start < iv.stop) ∧
      ∀ x : Rat → Rat, (∀ u v, u ≤ v → x u ≤ x v) → ∀ a b : Rat, ∃ ps, getPaths x a b items keys = some ps ∧ (ps.map Prod.fst).Sublist keys ∧
        (∀ c q, ∀ iv ∈ runsOf execnames pids l.time c q sw, WideEnough x a b (runEvent iv) → ∃ path, (c ++ '-' :: natStr q, path) ∈ ps ∧ ∃ s ∈ path, ShownAs x a b (runEvent iv) s) ∧
        (∀ path ∈ ps, path.2 ≠ [] ∧ ∃ c q, path.1 = c ++ '-' :: natStr q ∧ ∀ s ∈ path.2, ∃ iv ∈ runsOf execnames pids l.time c q sw,
          (WideEnough x a b (runEvent iv) ∧ ShownAs x a b (runEvent iv) s) ∨
          (max (val iv.start) a < min (val iv.stop) b ∧ ShownExactly x a b (runEvent iv) s)) := by
  obtain ⟨R, r1, r2, r3, _, r5⟩ := C72_intervals_partial hf hl hs
  obtain ⟨n1, n2⟩ := residency_names r1
  have hle : ∀ c q, (laneData R.data).get (procName c q) = none ∨ (laneData R.data).get (procName c q) = some ((runsOf execnames pids l.time c q sw).map runEvent) := by
    intro c q
    rw [laneData_get]
    cases hg : R.data.get (procName c q) with
    | none => exact .inl rfl
    | some ivs =>
      rw [(r5 c q).1 ivs hg]
      exact .inr rfl
  have hruns : ∀ c q iv, iv ∈ runsOf execnames pids l.time c q sw → (laneData R.data).get (procName c q) = some ((runsOf execnames pids l.time c q sw).map runEvent) := by
    intro c q iv hiv
    rcases hle c q with h | h
    · rw [laneData_get] at h
      have h := (r5 c q).2 (by simpa using h)
      rw [h] at hiv
      cases hiv
    · exact h
  have hkeys : ((laneData R.data).map Prod.fst).Nodup := by
    simpa [laneData, Function.comp_def] using n1
  have hname : ∀ k es, (laneData R.data).get k = some es → ∃ c q, k = procName c q ∧ es = (runsOf execnames pids l.time c q sw).map runEvent := by
    intro k es hk
    have hk' := hk
    rw [laneData_get, Option.map_eq_some_iff] at hk'
    obtain ⟨ivs, h1, _⟩ := hk'
    obtain ⟨c, q, rfl⟩ := n2 k (Dict.get_keys h1)
    refine ⟨c, q, rfl, ?_⟩
    rcases hle c q with h | h
    · rw [h] at hk; cases hk
    · rw [h] at hk; exact (Option.some.inj hk).symm
  obtain ⟨k1, k2, _⟩ := C74_keys hkeys
  have hord := fun c q => C72_order_partial (execnames := execnames) (pids := pids) hl ht c q
  have hk : ∀ k, k ∈ plotKeys (laneData R.data) ↔ ∃ c q, k = c ++ '-' :: natStr q ∧ ∃ iv ∈ runsOf execnames pids l.time c q sw, iv.start < iv.stop := by
    intro k
    rw [k2]
    constructor
    · rintro ⟨es, h1, h2⟩
      obtain ⟨c, q, rfl, rfl⟩ := hname k es h1
      exact ⟨c, q, rfl, (sum_pos_iff (hord c q).2).1 h2⟩
    · rintro ⟨c, q, rfl, iv, hiv, hlt⟩
      exact ⟨_, hruns c q iv hiv, (sum_pos_iff (hord c q).2).2 ⟨iv, hiv, hlt⟩⟩
  refine ⟨R, (List.range n).map (.numbered cs!"CPU :"), plotKeys (laneData R.data), groupByLanes (laneData R.data), r1, r2, r3, ?_, rfl, k1, hk, ?_⟩
  · unfold eventPlot
    rw [(C74_numbered _ n _).2 hn]
  · intro x hx a b
    obtain ⟨ps, p1, p2, p3, p4⟩ := C128_drawn_partial x hx a b (laneData R.data) (by
      intro k es hm
      obtain ⟨c, q, rfl, rfl⟩ := hname k es (Dict.get_of_mem hkeys hm)
      exact runs_inOrder (hord c q).1 (hord c q).2) (plotKeys (laneData R.data)) false
    refine ⟨ps, p1, p2, ?_, ?_⟩
    · intro c q iv hiv hw
      exact p3 _ ((hk _).2 ⟨c, q, rfl, iv, hiv, wide_positive hx hw⟩) _ (hruns c q iv hiv) _ (List.mem_map.2 ⟨iv, hiv, rfl⟩) hw
    · intro path hp
      obtain ⟨h1, h2⟩ := p4 path hp
      refine ⟨h1, ?_⟩
      obtain ⟨c, q, hq, _⟩ := (hk path.1).1 (p2.subset (List.mem_map.2 ⟨path, hp, rfl⟩))
      refine ⟨c, q, hq, fun s hs => ?_⟩
      obtain ⟨es, e, h3, h4, h5⟩ := h2 s hs
      obtain ⟨c', q', e1, rfl⟩ := hname _ _ h3
      obtain ⟨rfl, rfl⟩ := procName_inj (hq.symm.trans e1)
      obtain ⟨iv, hiv, rfl⟩ := List.mem_map.1 h4
      exact ⟨iv, hiv, h5⟩

/-! ## C156 -/

/-- C156, and the intervals that the data are made of -/
theorem plotTrace_drawn (fuel : Nat) (ps : List ParserClass) (hps : ∀ p ∈ ps, p ∈ builtins) (hnd : ps.Nodup)
    (header : List Str) (items : List TraceItem) (h : TraceFile ps header items)
    (cells : ParserClass → TraceEvent → List (Str × Val))
    (hc : ∀ p ∈ ps, ClassReads fuel p.name (TraceItem.eventsOf p.event items) (cells p))
    (hm : ∀ p ∈ ps, EvenMasks p.name (TraceItem.eventsOf p.event items) (cells p))
    (u : UserParams) (hw : u.window.hi = none → u.absWindow.hi ≠ some 0)
    {p : ParserClass} (hp : p ∈ ps) (hname : p.name = cs!"sched_switch")
    {v : Str} {n : Nat} (hv : FirstHeader cs!"cpus" v (header ++ items.map TraceItem.text)) (hvn : IsDecimal v n) (hn : n ≠ 0) (execnames : List Str) (pids : List Nat) :
    ∃ (out : List Nat) (shift : Nat → Nat), MinimalTimes 0 (TraceItem.times items) out ∧
      (∀ t ∈ out, if u.normalize then NearestEven (val t - val (firstTime out)) (shift t) else shift t = t) ∧
      ∀ (sw : List SwitchRow) (f l : SwitchRow), List.Forall₂ IsSwitch ((fileRows (cells p) p items u out).map fun r => (shift r.1, r.2)) sw →
        sw.head? = some f → sw.getLast? = some l → Steady execnames pids sw →
        ∃ P, plotTrace fuel ps u (header ++ items.map TraceItem.text) execnames pids = .ok P ∧
          (∃ R, residency execnames pids sw = some R ∧ P.items = groupByLanes (laneData R.data) ∧ P.keys = plotKeys (laneData R.data)) ∧
          P.lanes = (List.range n).map (.numbered cs!"CPU :") ∧ P.domain = (val f.time, val l.time) ∧ P.keys.Nodup ∧
          (∀ k, k ∈ P.keys ↔ ∃ c q, k = c ++ '-' :: natStr q ∧ ∃ iv ∈ runsOf execnames pids l.time c q sw, iv.start < iv.stop) ∧
          ∀ x : Rat → Rat, (∀ u v, u ≤ v → x u ≤ x v) → ∀ a b : Rat, ∃ paths, getPaths x a b P.items P.keys = some paths ∧ (paths.map Prod.fst).Sublist P.keys ∧
            (∀ c q, ∀ iv ∈ runsOf execnames pids l.time c q sw, WideEnough x a b (runEvent iv) →
              ∃ path, (c ++ '-' :: natStr q, path) ∈ paths ∧ ∃ s ∈ path, ShownAs x a b (runEvent iv) s) ∧
            (∀ path ∈ paths, path.2 ≠ [] ∧ ∃ c q, path.1 = c ++ '-' :: natStr q ∧ ∀ s ∈ path.2, ∃ iv ∈ runsOf execnames pids l.time c q sw,
              (WideEnough x a b (runEvent iv) ∧ ShownAs x a b (runEvent iv) s) ∨
              (max (val iv.start) a < min (val iv.stop) b ∧ ShownExactly x a b (runEvent iv) s)) := by
  obtain ⟨out, shift, o1, o2, o3⟩ := C134_object fuel ps hps hnd header items h cells hc hm u hw
  refine ⟨out, shift, o1, o2, fun sw f l hsw hf hl hs => ?_⟩
  obtain ⟨t1, t2⟩ := fileRows_times (cells := cells p) (p := p) (items := items) (u := u) o1.pairwise.1
  have hmono : ∀ a ∈ out, ∀ b ∈ out, a < b → shift a ≤ shift b := by
    intro a ha b hb hab
    have ha' := o2 a ha
    have hb' := o2 b hb
    split at ha'
    · rename_i hno
      rw [if_pos hno] at hb'
      refine F64.NearestEven.mono ?_ ha' hb'
      have := val_lt_iff.2 hab
      linarith
    · rename_i hno
      rw [if_neg hno] at hb'
      omega
  have hsorted : sw.Pairwise fun a b => a.time ≤ b.time := by
    refine switches_sorted hsw ?_
    rw [List.pairwise_map]
    exact t1.imp_of_mem fun {a b} ha hb hab => hmono _ (t2 a ha) _ (t2 b hb) hab
  obtain ⟨R, labels, keys, its, e1, e2, e3, e4, e5, e6, e7, e8⟩ := plot_runs hf hl hs hsorted hn
  refine ⟨⟨labels, keys, its, (val f.time, val l.time)⟩, ?_, ⟨R, e1, ?_⟩, e5, rfl, e6, e7, e8⟩
  case refine_2 =>
    unfold eventPlot at e4
    rw [(C74_numbered _ n _).2 hn] at e4
    simp only [Option.some.injEq, Prod.mk.injEq] at e4
    exact ⟨e4.2.2.symm, e4.2.1.symm⟩
  have hget := namedTables_get (fun p => (fileRows (cells p) p items u out).map fun r => (shift r.1, r.2)) hps hp
  rw [hname] at hget
  unfold plotTrace
  rw [o3]
  simp only
  simp only [fileRows] at hget hsw
  rw [hget]
  simp only
  rw [switchRows_is hsw]
  simp only
  rw [e1]
  simp only
  rw [(C43_header _ _ (.inr rfl) v).2 hv]
  simp only
  rw [natVal_decimal hvn, e4, e2, e3]

/-- **C156, partial.** `plot_trace` of a file: one lane for each CPU of the header, the domain from the first to the last switch asked for; and in every window of every
monotone scale, every run of a task that the user asks for, from a line of the file that switches to it to the next line that switches from it (or the last switch), is drawn in the lane of its CPU
under the name and the pid of the task if it is at least a hundredth of a pixel wide, and nothing else is drawn. For all files, parsers, windows, tasks and scales. If the end of a run was lost, the task must have
the same name when it is switched to again. -/
theorem C156_plot_trace_partial (fuel : Nat) (ps : List ParserClass) (hps : ∀ p ∈ ps, p ∈ builtins) (hnd : ps.Nodup)
    (header : List Str) (items : List TraceItem) (h : TraceFile ps header items)
    (cells : ParserClass → TraceEvent → List (Str × Val))
    (hc : ∀ p ∈ ps, ClassReads fuel p.name (TraceItem.eventsOf p.event items) (cells p))
    (hm : ∀ p ∈ ps, EvenMasks p.name (TraceItem.eventsOf p.event items) (cells p))
    (u : UserParams) (hw : u.window.hi = none → u.absWindow.hi ≠ some 0)
    {p : ParserClass} (hp : p ∈ ps) (hname : p.name = cs!"sched_switch")
    {v : Str} {n : Nat} (hv : FirstHeader cs!"cpus" v (header ++ items.map TraceItem.text)) (hvn : IsDecimal v n) (hn : n ≠ 0) (execnames : List Str) (pids : List Nat) :
    ∃ (out : List Nat) (shift : Nat → Nat), MinimalTimes 0 (TraceItem.times items) out ∧
      (∀ t ∈ out, if u.normalize then NearestEven (val t - val (firstTime out)) (shift t) else shift t = t) ∧
      ∀ (sw : List SwitchRow) (f l : SwitchRow), List.Forall₂ IsSwitch ((fileRows (cells p) p items u out).map fun r => (shift r.1, r.2)) sw →
        sw.head? = some f → sw.getLast? = some l → Steady execnames pids sw →
        ∃ P, plotTrace fuel ps u (header ++ items.map TraceItem.text) execnames pids = .ok P ∧
          P.lanes = (List.range n).map (.numbered cs!"CPU :") ∧ P.domain = (val f.time, val l.time) ∧ P.keys.Nodup ∧
          (∀ k, k ∈ P.keys ↔ ∃ c q, k = c ++ '-' :: natStr q ∧ ∃ iv ∈ runsOf execnames pids l.time c q sw, iv.start < iv.stop) ∧
          ∀ x : Rat → Rat, (∀ u v, u ≤ v → x u ≤ x v) → ∀ a b : Rat, ∃ paths, getPaths x a b P.items P.keys = some paths ∧ (paths.map Prod.fst).Sublist P.keys ∧
            (∀ c q, ∀ iv ∈ runsOf execnames pids l.time c q sw, WideEnough x a b (runEvent iv) →
              ∃ path, (c ++ '-' :: natStr q, path) ∈ paths ∧ ∃ s ∈ path, ShownAs x a b (runEvent iv) s) ∧
            (∀ path ∈ paths, path.2 ≠ [] ∧ ∃ c q, path.1 = c ++ '-' :: natStr q ∧ ∀ s ∈ path.2, ∃ iv ∈ runsOf execnames pids l.time c q sw,
              (WideEnough x a b (runEvent iv) ∧ ShownAs x a b (runEvent iv) s) ∨
              (max (val iv.start) a < min (val iv.stop) b ∧ ShownExactly x a b (runEvent iv) s)) := by
  obtain ⟨out, shift, o1, o2, o3⟩ := plotTrace_drawn fuel ps hps hnd header items h cells hc hm u hw hp hname hv hvn hn execnames pids
  refine ⟨out, shift, o1, o2, fun sw f l hsw hf hl hs => ?_⟩
  obtain ⟨P, p1, _, p2⟩ := o3 sw f l hsw hf hl hs
  exact ⟨P, p1, p2⟩

/-- **C156, refuted.** A trace whose header does not give the number of CPUs before the first event, as a trace from `/sys/kernel/tracing`, is never plotted. -/
theorem C156_cpus_refuted (fuel : Nat) (ps : List ParserClass) (u : UserParams) (lines : List Str) (execnames : List Str) (pids : List Nat)
    (h : ∀ v, ¬ FirstHeader cs!"cpus" v lines) : ∀ P, plotTrace fuel ps u lines execnames pids ≠ .ok P := by
  intro P hP
  unfold plotTrace at hP
  split at hP
  · split at hP
    · cases hP
    · split at hP
      · cases hP
      · split at hP
        · cases hP
        · split at hP
          · cases hP
          · rename_i v hv
            exact h v ((C43_header _ _ (.inr rfl) v).1 hv)
  · cases hP

/-- **Specification**: some switch is to a task with a name that is a number -/
def NumberTask (t : Table (Dict Val)) : Prop :=
  ∃ r ∈ t, (∃ i, r.2.get cs!"next_comm" = some (.int i)) ∧ r.2.get cs!"next_pid" ≠ some (.int 0)

theorem switchRows_number {t : Table (Dict Val)} (h : NumberTask t) : switchRows t = none := by
  obtain ⟨r, hr, ⟨i, hi⟩, h0⟩ := h
  induction t with
  | nil => cases hr
  | cons a t ih =>
    rw [switchRows]
    rcases List.mem_cons.1 hr with rfl | hr
    · have : switchRowOf r = none := by
        unfold switchRowOf
        rw [hi]
        cases h1 : natCell (r.2.get cs!"prev_pid") with
        | none => rfl
        | some x =>
          cases h2 : natCell (r.2.get cs!"next_pid") with
          | none => rfl
          | some b =>
            cases h3 : natCell (r.2.get cs!"__cpu") with
            | none => rfl
            | some k =>
              have hb : b ≠ 0 := by
                rintro rfl
                unfold natCell at h2
                split at h2
                · rename_i m hm
                  simp only [Option.some.injEq] at h2
                  subst h2
                  exact h0 hm
                · cases h2
              simp [commCell, hb]
      rw [this]
    · rw [ih hr]
      cases switchRowOf a <;> rfl

/-- **C156, refuted.** One switch to a task whose name is a number is enough: the name becomes an integer and has no `startswith`, and no task of the trace is plotted. For all such traces, whatever tasks the user asks for. -/
theorem C156_number_refuted (fuel : Nat) (ps : List ParserClass) (u : UserParams) (lines : List Str) (execnames : List Str) (pids : List Nat) {o : TraceObj} {t : Table (Dict Val)}
    (h : buildTrace fuel ps u lines = .object o) (ht : (namedTables ps o.tables).get cs!"sched_switch" = some t) (hn : NumberTask t) :
    plotTrace fuel ps u lines execnames pids = .error .cells := by
  unfold plotTrace
  rw [h]
  simp only
  rw [ht]
  simp only
  rw [switchRows_number hn]

/-- lines of switches -/
def exSwitchLines : List Str :=
  [cs!"version = 6\n", cs!"cpus=2\n",
   cs!"a-1 [000] 1.0: sched_switch: prev_comm=swapper prev_pid=0 next_comm=work next_pid=5\n",
   cs!"a-1 [000] 2.0: sched_switch: prev_comm=work prev_pid=5 next_comm=sh next_pid=6\n",
   cs!"a-1 [001] 2.5: sched_switch: prev_comm=swapper prev_pid=0 next_comm=work next_pid=5\n",
   cs!"a-1 [000] 4.0: sched_switch: prev_comm=sh prev_pid=6 next_comm=swapper next_pid=0\n"]

/-- Two lanes; `work` has two runs, the second to the end of the trace, and comes after `sh`, whose run is longer on average. -/
example : plotTrace 5 exWholeParsers (UserParams.full false) exSwitchLines [] [] = .ok
    { lanes := [.numbered cs!"CPU :" 0, .numbered cs!"CPU :" 1]
      keys := [cs!"sh-6", cs!"work-5"]
      items := [(cs!"work-5", [(.int 0, [(1, 2)]), (.int 1, [(5/2, 4)])]), (cs!"sh-6", [(.int 0, [(2, 4)])])]
      domain := (1, 4) } := by
  decide +kernel

/-- the hypotheses about the switches -/
example : Steady [] [] [⟨ofRat 1 1, 0, 5, cs!"work", 0⟩, ⟨ofRat 2 1, 5, 6, cs!"sh", 0⟩, ⟨ofRat 5 2, 0, 5, cs!"work", 1⟩, ⟨ofRat 4 1, 6, 0, cs!"swapper", 0⟩] ∧
    FirstHeader cs!"cpus" cs!"2" exSwitchLines ∧ IsDecimal cs!"2" 2 ∧
    (match buildTrace 5 exWholeParsers (UserParams.full false) exSwitchLines with
      | .object o => (namedTables exWholeParsers o.tables).get cs!"sched_switch" |>.map fun t => (switchRows t)
      | _ => none) = some (some [⟨ofRat 1 1, 0, 5, cs!"work", 0⟩, ⟨ofRat 2 1, 5, 6, cs!"sh", 0⟩, ⟨ofRat 5 2, 0, 5, cs!"work", 1⟩, ⟨ofRat 4 1, 6, 0, cs!"swapper", 0⟩]) := by
  refine ⟨?_, (C43_header _ _ (.inr rfl) _).1 (by decide +kernel), ⟨0, by decide +kernel⟩, by decide +kernel⟩
  refine ⟨?_, ?_, ?_, ?_, trivial⟩ <;> intro _ s hs <;> revert hs <;> simp [touches] <;> intro e <;> subst e <;> simp

/-- Only one task -/
example : (match plotTrace 5 exWholeParsers (UserParams.full false) exSwitchLines [cs!"sh"] [] with
    | .ok P => some P.keys
    | .error _ => none) = some [cs!"sh-6"] := by
  decide +kernel

/-- The same switches without the line `cpus=2`: `TypeError` -/
example : plotTrace 5 exWholeParsers (UserParams.full false) (exSwitchLines.drop 2) [] [] = .error .noCpus := by decide +kernel

/-- A task with the name `42`: `AttributeError` -/
example : plotTrace 5 exWholeParsers (UserParams.full false) (exSwitchLines ++ [cs!"a-1 [001] 5.0: sched_switch: prev_comm=work prev_pid=5 next_comm=42 next_pid=7\n"]) [cs!"sh"] [] = .error .cells ∧
    (match buildTrace 5 exWholeParsers (UserParams.full false) (exSwitchLines ++ [cs!"a-1 [001] 5.0: sched_switch: prev_comm=work prev_pid=5 next_comm=42 next_pid=7\n"]) with
      | .object o => ((namedTables exWholeParsers o.tables).get cs!"sched_switch").map fun t => t.any fun r => r.2.get cs!"next_comm" == some (.int 42) && r.2.get cs!"next_pid" != some (.int 0)
      | _ => none) = some true := by
  decide +kernel

/-- A file without switches: `IndexError` -/
example : plotTrace 5 exWholeParsers (UserParams.full false) [cs!"version = 6\n", cs!"cpus=2\n", cs!"a-1 [000] 2.5: cpu_frequency: state=900000 cpu_id=3\n"] [] [] = .error .index := by decide +kernel

end Trappy
