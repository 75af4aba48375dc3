import Verif.Model.EndToEnd
import Verif.Prop.Whole
import Verif.Prop.Construct
import Verif.Prop.Pivots
import Verif.Prop.IPage
/-!
# C151: from the file of a trace to the figures in the browser
-/

namespace Trappy
open F64 Py

/-! ## Specification -/

/-- **Specification**: the rows of an event that the user asks for, in the order of the file -/
def fileRows (cells : TraceEvent → List (Str × Val)) (p : ParserClass) (items : List TraceItem) (u : UserParams) (out : List Nat) : Table (Dict Val) :=
  asked u (firstTime out) ((TraceItem.tableWith cells p.event 0 items out).map fun r => (r.time, shownCells p.name r.cells))

/-- **Specification**: every event of the class has an integer in the column -/
def IntColumn (cells : TraceEvent → List (Str × Val)) (p : ParserClass) (items : List TraceItem) (col : Str) : Prop :=
  ∀ e ∈ TraceItem.eventsOf p.event items, ∀ k t : Nat, ∃ i : Int, (shownCells p.name (e.rowWith (cells e) k t).cells).get col = some (.int i)

/-- **Specification**: what the browser shows in the figure of the pivot value `j`: its title, the names of the axes, and a point for each of `rows` with this value, at its time -/
structure FigureShows (timeText : Nat → Str) (label column pivot : Str) (rows : Table (Dict Val)) (j : Int) (g : DyGraph) : Prop where
  title : g.title = some (.str (utf16 (pivot ++ cs!": " ++ intStr j)))
  labels : g.labels = some (.arr [.str (utf16 cs!"index"), .str (utf16 label)])
  points : ∃ vs : List Int, List.Forall₂ (fun (r : Nat × Dict Val) v => r.2.get column = some (.int v)) (rows.filter fun r => r.2.get pivot == some (.int j)) vs ∧
    g.rows = some (.arr ((rows.filter fun r => r.2.get pivot == some (.int j)).zipWith (fun r v => .arr [.num (timeText r.1), .num (intStr v)]) vs))

/-! ## Lemmas -/

theorem within_mem {α : Type} {lo : Nat} {hi : Option Nat} {t : Table α} {r : Nat × α} (h : r ∈ within lo hi t) : r ∈ t := by
  exact (List.mem_filter.1 h).1

theorem fileRows_int {cells : TraceEvent → List (Str × Val)} {p : ParserClass} {items : List TraceItem} {u : UserParams} {out : List Nat} {col : Str}
    (h : IntColumn cells p items col) : ∀ r ∈ fileRows cells p items u out, ∃ i : Int, r.2.get col = some (.int i) := by
  intro r hr
  obtain ⟨r', hr', rfl⟩ := List.mem_map.1 (within_mem hr)
  obtain ⟨-, e, he, n, hre⟩ := mem_tableWith hr'
  rw [hre]
  exact h e he n r'.time

theorem builtins_sameName : ∀ p ∈ builtins, ∀ q ∈ builtins, p.name = q.name → p = q := by decide +kernel

theorem builtins_decolonize : ∀ p ∈ builtins, decolonize p.name = p.name := by decide +kernel

theorem plotAttrs_get (f : ParserClass → Table (Dict Val)) : ∀ {ps : List ParserClass}, (∀ p ∈ ps, p ∈ builtins) → ∀ {p : ParserClass}, p ∈ ps →
    (plotAttrs ps (ps.map f)).get p.name = some (plotTable (f p))
  | q :: qs, hps, p, hp => by
    rw [List.map_cons, plotAttrs]
    by_cases hq : q.name = p.name
    · have := builtins_sameName q (hps q (by simp)) p (hps p hp) hq
      subst this
      simp [Dict.get]
    · rcases List.mem_cons.1 hp with rfl | hp
      · exact absurd rfl hq
      · have := plotAttrs_get f (fun p hp => hps p (by simp [hp])) hp
        rw [Dict.get, if_neg hq]
        exact this

theorem newPlot_one (enum : List Val → List Val) (nan : NanSlice) {defs : Dict PlotEvent} {attrs : Dict CTable} {k : PlotEvent} {t : CTable} (column pivot : Str)
    (h : attrs.get (decolonize k.name) = some t) :
    newPlot enum nan ⟨.one (.trace defs attrs), .one (some k), some (.one column), none, false, pivot, [], none⟩ =
      .ok [⟨⟨.trace defs attrs, column, some k, 0⟩, plotApply enum pivot [] column t⟩] := by
  simp [newPlot, resolveArgs, checkedPlot, checkData, OneOrMany.list, PlotItem.isFrame, templatesTrue, makeLines, constraintArgs, expandLists, zipConstraints, newConstraints, newConstraint,
    constraintTable, h, plotWindow]

theorem rowColumns_mem {t : Table (Dict Val)} {c : Str} : c ∈ rowColumns t ↔ ∃ r ∈ t, c ∈ r.2.map Prod.fst := by
  unfold rowColumns
  rw [List.mem_eraseDups, List.mem_flatMap]

theorem Dict.get_keys {α : Type} {d : Dict α} {k : Str} {v : α} (h : d.get k = some v) : k ∈ d.map Prod.fst :=
  List.mem_map.2 ⟨_, Dict.get_mem h, rfl⟩

/-- the rows of a table with the value `j` of the pivot -/
def pivotRows (pivot : Str) (t : Table (Dict Val)) (j : Int) : Table (Dict Val) := t.filter fun r => r.2.get pivot == some (.int j)

theorem plotApply_int {enum : List Val → List Val} (he : Enumerates enum) {pivot column : Str} (hp : pivot ≠ pivotName) {t : Table (Dict Val)}
    (h1 : ∀ r ∈ t, ∃ i : Int, r.2.get column = some (.int i)) (h2 : ∀ r ∈ t, ∃ i : Int, r.2.get pivot = some (.int i)) (j : Int) (s : PSeries) :
    (.int j, s) ∈ plotApply enum pivot [] column (plotTable t) ↔ s ≠ [] ∧ s = (pivotRows pivot t j).map fun r => (r.1, r.2.get column) := by
  rw [C66_series he hp (by simp) column (plotTable t) (by intro h; cases h)]
  have hs : columnSeries column ((plotTable t).rows.filter fun r => decide (Passes (plotTable t).columns [] r ∧ r.cells.get pivot = some (.int j))) =
      (pivotRows pivot t j).map fun r => (r.1, r.2.get column) := by
    unfold columnSeries plotTable pivotRows
    simp only [List.filter_map, List.map_map]
    congr 1
    apply List.filter_congr
    intro r _
    rw [Bool.eq_iff_iff]
    simp [Passes]
  rw [hs]
  constructor
  · rintro ⟨_, _, h3, h4⟩
    exact ⟨h3, h4⟩
  · rintro ⟨h3, h4⟩
    have hne : t ≠ [] := by
      rintro rfl
      exact h3 (by rw [h4]; rfl)
    obtain ⟨r, hr⟩ := List.exists_mem_of_ne_nil _ hne
    obtain ⟨i, hi⟩ := h1 r hr
    obtain ⟨i', hi'⟩ := h2 r hr
    exact ⟨rowColumns_mem.2 ⟨r, hr, Dict.get_keys hi⟩, rowColumns_mem.2 ⟨r, hr, Dict.get_keys hi'⟩, h3, h4⟩

theorem plotApply_keys_int {enum : List Val → List Val} (he : Enumerates enum) {pivot column : Str} (hp : pivot ≠ pivotName) {t : Table (Dict Val)}
    (h2 : ∀ r ∈ t, ∃ i : Int, r.2.get pivot = some (.int i)) {v : Val} {s : PSeries} (h : (v, s) ∈ plotApply enum pivot [] column (plotTable t)) : ∃ j, v = .int j := by
  by_cases hv : v = pivotMark
  · subst hv
    unfold plotApply at h
    split at h
    · have hk := (plotLoop_sublist pivot [] column (plotTable t) (pivotVals enum pivot [] (plotTable t))).subset (List.mem_map.2 ⟨_, h, rfl⟩)
      unfold pivotVals at hk
      split at hk
      · simp only [Dict.get] at hk
        have hk := ((he _).2 _).1 hk
        obtain ⟨r, hr, hg⟩ := List.mem_filterMap.1 hk
        simp only [plotTable, List.mem_map] at hr
        obtain ⟨r', hr', rfl⟩ := hr
        obtain ⟨i, hi⟩ := h2 r' hr'
        rw [hi] at hg
        cases hg
      · cases hk
    · cases h
  · rw [C66_series he hp (by simp) column (plotTable t) hv] at h
    obtain ⟨_, _, h3, h4⟩ := h
    rw [h4] at h3
    unfold columnSeries at h3
    obtain ⟨x, hx⟩ := List.exists_mem_of_ne_nil _ h3
    obtain ⟨r, hr, rfl⟩ := List.mem_map.1 hx
    obtain ⟨hr1, hr2⟩ := List.mem_filter.1 hr
    simp only [plotTable, List.mem_map] at hr1
    obtain ⟨r', hr', rfl⟩ := hr1
    obtain ⟨i, hi⟩ := h2 r' hr'
    have := (of_decide_eq_true hr2).2
    simp only [hi, Option.some.injEq] at this
    exact ⟨i, this.symm⟩

theorem pivots_ints {enum : List Val → List Val} (he : Enumerates enum) {pivot column : Str} (hp : pivot ≠ pivotName) {t : Table (Dict Val)}
    (h1 : ∀ r ∈ t, ∃ i : Int, r.2.get column = some (.int i)) (h2 : ∀ r ∈ t, ∃ i : Int, r.2.get pivot = some (.int i)) :
    ∃ js : List Int, generatePivots enum [plotApply enum pivot [] column (plotTable t)] = some (js.map Val.int, js.length) ∧ js.Pairwise (· < ·) ∧
      ∀ j, j ∈ js ↔ ∃ r ∈ t, r.2.get pivot = some (.int j) := by
  cases hg : generatePivots enum [plotApply enum pivot [] column (plotTable t)] with
  | none =>
    obtain ⟨_, v, ⟨r, hr, s, hs⟩, hd⟩ := (C68_fails he _).1 hg
    rw [List.mem_singleton.1 hr] at hs
    obtain ⟨j, rfl⟩ := plotApply_keys_int he hp h2 hs
    exact absurd (.int j) (hd j)
  | some l =>
    obtain ⟨l, n⟩ := l
    obtain ⟨c1, c2, c3, c4⟩ := C68_pivots he hg
    have hall : ∀ v ∈ l, ∃ j, v = Val.int j := by
      intro v hv
      obtain ⟨r, hr, s, hs⟩ := (c2 v).1 hv
      rw [List.mem_singleton.1 hr] at hs
      exact plotApply_keys_int he hp h2 hs
    have hjs : ∃ js : List Int, l = js.map Val.int := by
      clear c1 c2 c3 c4 hg
      induction l with
      | nil => exact ⟨[], rfl⟩
      | cons v l ih =>
        obtain ⟨j, rfl⟩ := hall v (by simp)
        obtain ⟨js, rfl⟩ := ih fun v hv => hall v (by simp [hv])
        exact ⟨j :: js, rfl⟩
    obtain ⟨js, rfl⟩ := hjs
    refine ⟨js, by rw [c4, List.length_map], ?_, ?_⟩
    · have ha := c3.1 fun v hv => by
        obtain ⟨j, rfl⟩ := hall v hv
        exact ⟨j, .int j⟩
      have hn : js.Nodup := List.Nodup.of_map _ c1
      rw [List.pairwise_map] at ha
      exact (ha.and hn).imp fun ⟨hab, hne⟩ => by
        have := hab _ _ (.int _) (.int _)
        omega
    · intro j
      have := c2 (.int j)
      rw [List.mem_map] at this
      have e : (∃ a ∈ js, Val.int a = Val.int j) ↔ j ∈ js := by simp
      rw [e] at this
      rw [this]
      constructor
      · rintro ⟨r, hr, s, hs⟩
        rw [List.mem_singleton.1 hr] at hs
        obtain ⟨h3, h4⟩ := (plotApply_int he hp h1 h2 j s).1 hs
        rw [h4] at h3
        obtain ⟨x, hx⟩ := List.exists_mem_of_ne_nil _ h3
        obtain ⟨r, hr, rfl⟩ := List.mem_map.1 hx
        obtain ⟨hr1, hr2⟩ := List.mem_filter.1 hr
        exact ⟨r, hr1, by simpa using hr2⟩
      · rintro ⟨r, hr, hj⟩
        refine ⟨_, List.mem_singleton.2 rfl, _, (plotApply_int he hp h1 h2 j _).2 ⟨?_, rfl⟩⟩
        intro h0
        have : r ∈ pivotRows pivot t j := List.mem_filter.2 ⟨hr, by simp [hj]⟩
        rw [List.map_eq_nil_iff.1 h0] at this
        cases this

theorem lookup_of_mem {σ : Type} {l : List (Val × σ)} (hn : (l.map Prod.fst).Nodup) {v : Val} {s : σ} (h : (v, s) ∈ l) : l.lookup v = some s := by
  induction l with
  | nil => cases h
  | cons x l ih =>
    obtain ⟨v', s'⟩ := x
    rw [List.map_cons, List.nodup_cons] at hn
    rw [List.lookup_cons]
    rcases List.mem_cons.1 h with e | hl
    · cases e
      simp
    · have : v ≠ v' := by
        intro e
        exact hn.1 (List.mem_map.2 ⟨_, hl, e⟩)
      rw [beq_false_of_ne this]
      exact ih hn.2 hl

/-- the frame of a pivot value -/
def intFrame (timeText : Nat → Str) (label column pivot : Str) (t : Table (Dict Val)) (j : Int) : IFrame :=
  lineFrame timeText (pivot ++ cs!": " ++ intStr j) label ((pivotRows pivot t j).map fun r => (r.1, r.2.get column))

theorem pivotFrames_int {enum : List Val → List Val} (he : Enumerates enum) {pivot column : Str} (hp : pivot ≠ pivotName) {t : Table (Dict Val)}
    (h1 : ∀ r ∈ t, ∃ i : Int, r.2.get column = some (.int i)) (h2 : ∀ r ∈ t, ∃ i : Int, r.2.get pivot = some (.int i)) (timeText : Nat → Str)
    (merge : Str → Dict PSeries → Option IFrame) (c : IConstraint PSeries) (hc : c.result = plotApply enum pivot [] column (plotTable t)) (js : List Int)
    (hjs : ∀ j ∈ js, ∃ r ∈ t, r.2.get pivot = some (.int j)) :
    pivotFrames timeText merge ⟨pivot, [], column⟩ [c] (js.map Val.int) = some (js.map (intFrame timeText c.label column pivot t)) := by
  induction js with
  | nil => rfl
  | cons j js ih =>
    obtain ⟨r, hr, hj⟩ := hjs j (by simp)
    have hmem : (.int j, (pivotRows pivot t j).map fun r => (r.1, r.2.get column)) ∈ plotApply enum pivot [] column (plotTable t) := by
      refine (plotApply_int he hp h1 h2 j _).2 ⟨?_, rfl⟩
      intro h0
      have : r ∈ pivotRows pivot t j := List.mem_filter.2 ⟨hr, by simp [hj]⟩
      rw [List.map_eq_nil_iff.1 h0] at this
      cases this
    have hl : c.result.lookup (.int j) = some ((pivotRows pivot t j).map fun r => (r.1, r.2.get column)) := by
      rw [hc]; exact lookup_of_mem (C66_keys he _ _ _ _).1 hmem
    have hf : pivotFrame timeText merge ⟨pivot, [], column⟩ [c] (.int j) = some (intFrame timeText c.label column pivot t j) := by
      unfold pivotFrame
      simp only [plotData, hl, Dict.set]
      unfold intFrame figTitle pivotLabel
      simp [pivotMark, Val.text]
    rw [List.map_cons, pivotFrames, hf, ih fun j hj => hjs j (by simp [hj])]
    rfl

theorem forall₂_ints {column : Str} {t : Table (Dict Val)} (h : ∀ r ∈ t, ∃ i : Int, r.2.get column = some (.int i)) :
    ∃ vs : List Int, List.Forall₂ (fun (r : Nat × Dict Val) v => r.2.get column = some (.int v)) t vs := by
  induction t with
  | nil => exact ⟨[], .nil⟩
  | cons r t ih =>
    obtain ⟨i, hi⟩ := h r (by simp)
    obtain ⟨vs, hvs⟩ := ih fun r hr => h r (by simp [hr])
    exact ⟨i :: vs, .cons hi hvs⟩

theorem zip_ints {timeText : Nat → Str} {column : Str} {t : Table (Dict Val)} {vs : List Int} (h : List.Forall₂ (fun (r : Nat × Dict Val) v => r.2.get column = some (.int v)) t vs) :
    ((t.map fun r => (r.1, r.2.get column)).map fun x : Nat × Option Val => PyJson.float (timeText x.1)).zipWith (fun x vs => JsLit.arr (seen x :: vs.map seen))
      ((t.map fun r => (r.1, r.2.get column)).map fun x => [cellJson x.2]) = t.zipWith (fun r v => .arr [.num (timeText r.1), .num (intStr v)]) vs := by
  induction h with
  | nil => rfl
  | cons h1 _ ih =>
    simp only [List.map_cons, List.zipWith_cons_cons, ih]
    rw [h1]
    simp [cellJson, seen]

theorem intStr_lt (i : Int) : '<' ∉ intStr i := by
  intro h
  unfold intStr natStr at h
  split at h
  · rcases List.mem_cons.mp h with h | h
    · cases h
    · exact absurd (dec_isDigit _ h) (by decide)
  · exact absurd (dec_isDigit _ h) (by decide)

theorem intFrame_ok {timeText : Nat → Str} (ht : ∀ t, NumberText (timeText t)) {label column pivot : Str} (hl : ¬ EndsScript label) (hp : '<' ∉ pivot) {t : Table (Dict Val)}
    (h1 : ∀ r ∈ t, ∃ i : Int, r.2.get column = some (.int i)) (j : Int) : FrameOk (intFrame timeText label column pivot t j) where
  title := endsScript_lt (by
    have hj := intStr_lt j
    simp only [intFrame, lineFrame, List.mem_append, not_or]
    exact ⟨⟨hp, by decide⟩, hj⟩)
  columns := by
    intro c hc
    rw [List.mem_singleton.1 hc]
    exact hl
  index := by
    intro x hx
    simp only [intFrame, lineFrame, List.mem_map] at hx
    obtain ⟨y, _, rfl⟩ := hx
    exact ⟨ht _, trivial⟩
  values := by
    intro r hr x hx
    simp only [intFrame, lineFrame, List.mem_map] at hr
    obtain ⟨y, ⟨z, hz, rfl⟩, rfl⟩ := hr
    obtain ⟨i, hi⟩ := h1 z (List.mem_filter.1 hz).1
    rw [List.mem_singleton.1 hx]
    simp only [hi, cellJson]
    exact ⟨trivial, trivial⟩

/-- **Specification**: the arguments of the page can be written to a page -/
structure PageOk (g : PageArgs) : Prop where
  kw : KwOk g.kw
  perLine : 0 < perLineAsked g.kw
  hash : ¬ EndsScript g.hash
  unique : ∀ a b, g.uuid a = g.uuid b → a = b
  plain : ∀ i, '<' ∉ g.uuid i
  colours : ∀ c ∈ g.colours, PlainText c

theorem forall₂_mapIdx {α β γ : Type} {R : α → γ → Prop} (k : α → β) (l : List α) (f : Nat → β → γ) (h : ∀ i, ∀ a ∈ l, R a (f i (k a))) : List.Forall₂ R l ((l.map k).mapIdx f) := by
  induction l generalizing f with
  | nil => exact .nil
  | cons a l ih =>
    rw [List.map_cons, List.mapIdx_cons]
    exact .cons (h 0 a (by simp)) (ih _ fun i a ha => h (i + 1) a (by simp [ha]))

/-- the page of a plot of one event -/
theorem viewPlot_int {enum : List Val → List Val} (he : Enumerates enum) {timeText : Nat → Str} (ht : ∀ t, NumberText (timeText t)) (merge : Str → Dict PSeries → Option IFrame)
    {g : PageArgs} (hg : PageOk g) (name event : Str) {column pivot : Str} (hp : pivot ≠ pivotName) (hlt : '<' ∉ pivot) (hl : ¬ EndsScript (constraintStr name 0 event column)) {t : Table (Dict Val)}
    (h1 : ∀ r ∈ t, ∃ i : Int, r.2.get column = some (.int i)) (h2 : ∀ r ∈ t, ∃ i : Int, r.2.get pivot = some (.int i)) (hne : t ≠ []) (hmax : t.length ≤ g.maxPoints)
    (item : PlotItem) :
    ∃ page js, viewPlot enum timeText merge name ⟨pivot, [], column⟩ g [⟨⟨item, column, some ⟨event⟩, 0⟩, plotApply enum pivot [] column (plotTable t)⟩] = .ok page ∧
      js.Pairwise (· < ·) ∧ (∀ j, j ∈ js ↔ ∃ r ∈ t, r.2.get pivot = some (.int j)) ∧
      List.Forall₂ (FigureShows timeText (constraintStr name 0 event column) column pivot t) js (showPage page).graphs := by
  obtain ⟨js, e1, e2, e3⟩ := pivots_ints he hp h1 h2
  have e4 := pivotFrames_int he hp h1 h2 timeText merge (lineConstraint name ⟨⟨item, column, some ⟨event⟩, 0⟩, plotApply enum pivot [] column (plotTable t)⟩) rfl js fun j hj => (e3 j).1 hj
  have hjs : js.map (intFrame timeText (constraintStr name 0 event column) column pivot t) ≠ [] := by
    obtain ⟨r, hr⟩ := List.exists_mem_of_ne_nil _ hne
    obtain ⟨j, hj⟩ := h2 r hr
    have := (e3 j).2 ⟨r, hr, hj⟩
    intro h
    rw [List.map_eq_nil_iff.1 h] at this
    cases this
  obtain ⟨page, rows, f1, _, _, f4, _, _⟩ := C147_figures (uuid := g.uuid) (hash := g.hash) (kw := g.kw) (maxPoints := g.maxPoints) (colours := g.colours) hg.kw hg.perLine hjs
    (by
      intro f hf
      obtain ⟨j, _, rfl⟩ := List.mem_map.1 hf
      exact intFrame_ok ht hl hlt h1 j)
    (by
      intro f hf
      obtain ⟨j, _, rfl⟩ := List.mem_map.1 hf
      have : (((intFrame timeText (constraintStr name 0 event column) column pivot t j).values).map List.length).sum = (pivotRows pivot t j).length := by
        simp only [intFrame, lineFrame, List.map_map]
        induction pivotRows pivot t j with
        | nil => rfl
        | cons r l ih => simp only [List.map_cons, List.sum_cons, ih, List.length_cons, Function.comp_apply, List.length_nil]; omega
      rw [this]
      exact Nat.le_trans (List.length_filter_le _ _) hmax)
    hg.hash hg.unique hg.plain hg.colours
  refine ⟨page, js, ?_, e2, e3, ?_⟩
  · unfold viewPlot
    simp only [List.map_cons, List.map_nil, e1]
    have e4' : pivotFrames timeText merge ⟨pivot, [], column⟩ [lineConstraint name ⟨⟨item, column, some ⟨event⟩, 0⟩, plotApply enum pivot [] column (plotTable t)⟩] (js.map Val.int) =
      some (js.map (intFrame timeText (constraintStr name 0 event column) column pivot t)) := e4
    rw [e4']
    simp only [f1]
  · rw [f4]
    refine forall₂_mapIdx _ _ _ fun i j _ => ?_
    obtain ⟨vs, hvs⟩ := forall₂_ints (column := column) (t := pivotRows pivot t j) fun r hr => h1 r (List.mem_filter.1 hr).1
    refine ⟨rfl, rfl, vs, hvs, ?_⟩
    exact congrArg (fun l => some (JsLit.arr l)) (zip_ints hvs)

/-! ## C151 -/

/-- **C151.** The file of a trace is read, and an interactive plot of a column of an event is made and shown: the browser shows one figure for each value of the pivot, in ascending order, and in it
one point for each line of the event in the file with this value and a time the user asked for, in the order of the file, with the value and the time of the line. For all files, parsers, windows, columns
and pivots with integers, plots per line and page options. -/
theorem C151_file_to_browser (fuel : Nat) (ps : List ParserClass) (hps : ∀ p ∈ ps, p ∈ builtins) (hnd : ps.Nodup)
    (header : List Str) (items : List TraceItem) (h : TraceFile ps header items)
    (cells : ParserClass → TraceEvent → List (Str × Val))
    (hc : ∀ p ∈ ps, ClassReads fuel p.name (TraceItem.eventsOf p.event items) (cells p))
    (hm : ∀ p ∈ ps, EvenMasks p.name (TraceItem.eventsOf p.event items) (cells p))
    (u : UserParams) (hw : u.window.hi = none → u.absWindow.hi ≠ some 0)
    {enum : List Val → List Val} (he : Enumerates enum) (nan : NanSlice) {timeText : Nat → Str} (ht : ∀ t, NumberText (timeText t)) (merge : Str → Dict PSeries → Option IFrame)
    {g : PageArgs} (hg : PageOk g) (name : Str) {p : ParserClass} (hp : p ∈ ps) {column pivot : Str} (hpivot : pivot ≠ pivotName) (hlt : '<' ∉ pivot)
    (hl : ¬ EndsScript (constraintStr name 0 p.name column)) (h1 : IntColumn (cells p) p items column) (h2 : IntColumn (cells p) p items pivot) :
    ∃ (out : List Nat) (shift : Nat → Nat), MinimalTimes 0 (TraceItem.times items) out ∧
      (∀ t ∈ out, if u.normalize then NearestEven (val t - val (firstTime out)) (shift t) else shift t = t) ∧
      (fileRows (cells p) p items u out ≠ [] → (fileRows (cells p) p items u out).length ≤ g.maxPoints → ∃ page js,
        showFile enum nan timeText merge fuel ps u (header ++ items.map TraceItem.text) name ⟨p.name⟩ column pivot g = .ok page ∧
        js.Pairwise (· < ·) ∧ (∀ j, j ∈ js ↔ ∃ r ∈ fileRows (cells p) p items u out, r.2.get pivot = some (.int j)) ∧
        List.Forall₂ (FigureShows timeText (constraintStr name 0 p.name column) column pivot ((fileRows (cells p) p items u out).map fun r => (shift r.1, r.2))) js (showPage page).graphs) := by
  obtain ⟨out, shift, o1, o2, o3⟩ := C134_object fuel ps hps hnd header items h cells hc hm u hw
  refine ⟨out, shift, o1, o2, fun hne hmax => ?_⟩
  have r1 := fileRows_int (u := u) (out := out) h1
  have r2 := fileRows_int (u := u) (out := out) h2
  have hget := plotAttrs_get (fun p => (fileRows (cells p) p items u out).map fun r => (shift r.1, r.2)) hps hp
  rw [← builtins_decolonize p (hps p hp)] at hget
  have hnew := newPlot_one enum nan (defs := ps.map fun p => (p.name, ⟨p.name⟩)) (k := ⟨p.name⟩) column pivot hget
  obtain ⟨page, js, v1, v2, v3, v4⟩ := viewPlot_int he ht merge hg name p.name hpivot hlt hl (t := (fileRows (cells p) p items u out).map fun r => (shift r.1, r.2))
    (by
      intro r hr
      obtain ⟨r', hr', rfl⟩ := List.mem_map.1 hr
      exact r1 r' hr')
    (by
      intro r hr
      obtain ⟨r', hr', rfl⟩ := List.mem_map.1 hr
      exact r2 r' hr')
    (by simpa using hne) (by simpa using hmax)
    (.trace (ps.map fun p => (p.name, ⟨p.name⟩)) (plotAttrs ps (ps.map fun p => (fileRows (cells p) p items u out).map fun r => (shift r.1, r.2))))
  refine ⟨page, js, ?_, v2, ?_, v4⟩
  · unfold showFile
    rw [o3]
    simp only [plotItem]
    have hnew' := hnew
    simp only [fileRows] at hnew'
    rw [hnew']
    exact v1
  · intro j
    rw [v3]
    constructor
    · rintro ⟨r, hr, hj⟩
      obtain ⟨r', hr', rfl⟩ := List.mem_map.1 hr
      exact ⟨r', hr', hj⟩
    · rintro ⟨r, hr, hj⟩
      exact ⟨_, List.mem_map.2 ⟨r, hr, rfl⟩, hj⟩

/-- events that have integers in the columns `pid` and `__cpu` -/
example : IntColumn exCells (dynamicClass cs!"SchedWakeup" cs!"sched_wakeup:" true) exItems cs!"pid" ∧
    IntColumn exCells (dynamicClass cs!"SchedWakeup" cs!"sched_wakeup:" true) exItems cs!"__cpu" ∧
    (TraceItem.eventsOf (dynamicClass cs!"SchedWakeup" cs!"sched_wakeup:" true).event exItems).length = 2 := by
  have h : TraceItem.eventsOf (dynamicClass cs!"SchedWakeup" cs!"sched_wakeup:" true).event exItems = [exEvent 3 cs!"sched_wakeup", exEvent 5 cs!"sched_wakeup"] := by
    simp only [exItems, TraceItem.eventsOf]
    rfl
  refine ⟨?_, ?_, by rw [h]; rfl⟩
  · intro e he k t
    rw [h] at he
    simp only [List.mem_cons, List.not_mem_nil, or_false] at he
    rcases he with rfl | rfl <;> exact ⟨-12, rfl⟩
  · intro e he k t
    rw [h] at he
    simp only [List.mem_cons, List.not_mem_nil, or_false] at he
    rcases he with rfl | rfl <;> exact ⟨3, rfl⟩

/-- a page with all defaults -/
def exPage : PageArgs := ⟨fun i => List.replicate i 'f', cs!"8745", [], 100, []⟩

example : PageOk exPage where
  kw := ⟨by decide, by simp [exPage]⟩
  perLine := by decide
  hash := endsScript_lt (by decide)
  unique := fun a b e => by simpa [exPage] using congrArg List.length e
  plain := fun i => by
    show '<' ∉ List.replicate i 'f'
    rw [List.mem_replicate]; rintro ⟨_, e⟩; cases e
  colours := by simp [exPage]

/-- a file with events of two CPUs -/
def exTwoCpus : List Str :=
  [cs!"version = 6\n",
   cs!"a-1 [000] 2.5: cpu_frequency: state=900000 cpu_id=3\n",
   cs!"a-1 [000] 2.75: cpu_idle: state=4294967295 cpu_id=3\n",
   cs!"a-1 [000] 3.5: cpu_frequency: state=800000 cpu_id=1\n",
   cs!"a-1 [000] 4.5: cpu_frequency: state=700000 cpu_id=3\n"]

/-- the points of a figure, as texts -/
def figPoints : Option JsLit → List (Str × Str)
  | some (.arr l) => l.filterMap fun
    | .arr [.num a, .num b] => some (a, b)
    | _ => none
  | _ => []

/-- the title of a figure -/
def figTitleUnits : Option JsLit → List Nat
  | some (.str u) => u
  | _ => []

/-- Two figures, the first of CPU 1, and what is drawn in them -/
example : (match showFile uniqVals .raises natStr (fun _ _ => none) 5 exWholeParsers (UserParams.full true) exTwoCpus cs!"t" ⟨cs!"cpu_frequency"⟩ cs!"frequency" cs!"cpu" exPage with
    | .ok page => (showPage page).graphs.map fun g => (figTitleUnits g.title, figPoints g.rows)
    | .error _ => []) =
    [(utf16 cs!"cpu: 1", [(natStr (ofRat 1 1), cs!"800000")]), (utf16 cs!"cpu: 3", [(cs!"0", cs!"900000"), (natStr (ofRat 2 1), cs!"700000")])] := by
  decide +kernel

/-- a file with an event that has no frequency -/
def exNoFrequency : List Str :=
  [cs!"version = 6\n",
   cs!"a-1 [000] 2.5: cpu_frequency: state=900000 cpu_id=3\n",
   cs!"a-1 [000] 3.5: cpu_frequency: other=1 cpu_id=3\n"]

/-- **C151**, a missing value. The point of an event that does not have the column is shown as `NaN`, at its time. -/
theorem C151_missing : (match showFile uniqVals .raises natStr (fun _ _ => none) 5 exWholeParsers (UserParams.full true) exNoFrequency cs!"t" ⟨cs!"cpu_frequency"⟩ cs!"frequency" cs!"cpu" exPage with
    | .ok page => (showPage page).graphs.map fun g => (figTitleUnits g.title, figPoints g.rows)
    | .error _ => []) =
    [(utf16 cs!"cpu: 3", [(cs!"0", cs!"900000"), (natStr (ofRat 1 1), cs!"NaN")])] := by
  decide +kernel

end Trappy
