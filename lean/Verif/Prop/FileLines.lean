import Verif.Model.FileLines
import Verif.Prop.EndToEnd
import Verif.Prop.StaticPlot
/-!
# C162: from the files of traces to a static plot
-/

namespace Trappy
open F64 Py

/-! ## Specification -/

/-- **Specification**: a file: its name, the lines before the events, the events, and what the parsers read of an event -/
structure ReadText where
  name : Str
  header : List Str
  items : List TraceItem
  cells : ParserClass → TraceEvent → List (Str × Val)

/-- the lines of a file -/
def ReadText.lines (f : ReadText) : List Str := f.header ++ f.items.map TraceItem.text

/-- **Specification**: the file can be read by the parsers -/
structure ReadText.Ok (fuel : Nat) (ps : List ParserClass) (f : ReadText) : Prop where
  file : TraceFile ps f.header f.items
  reads : ∀ p ∈ ps, ClassReads fuel p.name (TraceItem.eventsOf p.event f.items) (f.cells p)
  masks : ∀ p ∈ ps, EvenMasks p.name (TraceItem.eventsOf p.event f.items) (f.cells p)

/-- **Specification**: the rows of an event in a file that the user asks for, with the times the trace shows -/
def TableOf (p : ParserClass) (u : UserParams) (f : ReadText) (t : Table (Dict Val)) : Prop :=
  ∃ (out : List Nat) (shift : Nat → Nat), MinimalTimes 0 (TraceItem.times f.items) out ∧
    (∀ t ∈ out, if u.normalize then NearestEven (val t - val (firstTime out)) (shift t) else shift t = t) ∧
    t = (fileRows (f.cells p) p f.items u out).map fun r => (shift r.1, r.2)

/-- **Specification**: a row has one of the wanted values in every column with a filter, filters on columns that the table does not have are ignored -/
def PassesRow (t : Table (Dict Val)) (filters : Dict (List Val)) (cells : Dict Val) : Prop :=
  ∀ f ∈ filters, (∃ r ∈ t, ∃ w, r.2.get f.1 = some w) → ∃ v, cells.get f.1 = some v ∧ v ∈ f.2

open Classical in
/-- **Specification**: the rows that pass the filters, in the order of the table -/
noncomputable def passingRows (filters : Dict (List Val)) (t : Table (Dict Val)) : Table (Dict Val) := t.filter fun r => decide (PassesRow t filters r.2)

/-- **Specification**: the rows that pass the filters and have the pivot value `j`, in the order of the table -/
noncomputable def chosenRows (filters : Dict (List Val)) (pivot : Str) (t : Table (Dict Val)) (j : Int) : Table (Dict Val) :=
  (passingRows filters t).filter fun r => r.2.get pivot == some (.int j)

/-- **Specification**: a point for each row: its time and its value in the column -/
def pointsOf (column : Str) (t : Table (Dict Val)) : PSeries := t.map fun r => (r.1, r.2.get column)

/-! ## Lemmas -/

theorem Dict.get_of_key {α : Type} {d : Dict α} {k : Str} (h : k ∈ d.map Prod.fst) : ∃ v, d.get k = some v := by
  induction d with
  | nil => cases h
  | cons x d ih =>
    obtain ⟨k', v⟩ := x
    rw [Dict.get]
    by_cases e : k' = k
    · exact ⟨v, if_pos e⟩
    · rw [if_neg e]
      rcases List.mem_cons.1 h with h | h
      · exact absurd h.symm e
      · exact ih h

theorem passes_row (t : Table (Dict Val)) (filters : Dict (List Val)) (r : Nat × Dict Val) :
    Passes (plotTable t).columns filters ⟨r.1, r.2⟩ ↔ PassesRow t filters r.2 := by
  unfold Passes PassesRow
  have : ∀ c, c ∈ (plotTable t).columns ↔ ∃ r ∈ t, ∃ w, r.2.get c = some w := by
    intro c
    refine rowColumns_mem.trans ⟨?_, ?_⟩
    · rintro ⟨r, hr, h⟩
      exact ⟨r, hr, Dict.get_of_key h⟩
    · rintro ⟨r, hr, w, h⟩
      exact ⟨r, hr, Dict.get_keys h⟩
  simp only [this]

theorem passing_eq (filters : Dict (List Val)) (column : Str) (t : Table (Dict Val)) :
    columnSeries column ((plotTable t).rows.filter fun r => decide (Passes (plotTable t).columns filters r)) = pointsOf column (passingRows filters t) := by
  classical
  unfold columnSeries pointsOf passingRows
  have : (plotTable t).rows = t.map fun r => ⟨r.1, r.2⟩ := rfl
  rw [this, List.filter_map, List.map_map]
  have e : (t.filter ((fun r => decide (Passes (plotTable t).columns filters r)) ∘ fun r => (⟨r.1, r.2⟩ : CRow))) = t.filter fun r => decide (PassesRow t filters r.2) := by
    apply List.filter_congr
    intro r _
    simp only [Function.comp_apply, decide_eq_decide]
    exact passes_row t filters r
  rw [e]
  apply congrArg₂
  · rfl
  · congr

theorem chosen_eq (filters : Dict (List Val)) (pivot column : Str) (t : Table (Dict Val)) (j : Int) :
    columnSeries column ((plotTable t).rows.filter fun r => decide (Passes (plotTable t).columns filters r ∧ r.cells.get pivot = some (.int j))) =
      pointsOf column (chosenRows filters pivot t j) := by
  classical
  unfold columnSeries pointsOf chosenRows passingRows
  have : (plotTable t).rows = t.map fun r => ⟨r.1, r.2⟩ := rfl
  rw [this, List.filter_map, List.map_map, List.filter_filter]
  apply congrArg₂
  · rfl
  · apply List.filter_congr
    intro r _
    rw [Bool.eq_iff_iff]
    simp only [Function.comp_apply, decide_eq_true_eq, Bool.and_eq_true, beq_iff_eq]
    rw [passes_row t filters r]
    exact and_comm

theorem apply_ints {enum : List Val → List Val} (he : Enumerates enum) {pivot column : Str} (hp : pivot ≠ pivotName) {filters : Dict (List Val)} (hf : (filters.map Prod.fst).Nodup)
    {t : Table (Dict Val)} (h1 : ∀ r ∈ t, ∃ v, r.2.get column = some v) (h2 : ∀ r ∈ t, ∃ i : Int, r.2.get pivot = some (.int i)) (v : Val) (s : PSeries) :
    (v, s) ∈ plotApply enum pivot filters column (plotTable t) ↔ ∃ j : Int, v = .int j ∧ chosenRows filters pivot t j ≠ [] ∧ s = pointsOf column (chosenRows filters pivot t j) := by
  constructor
  · intro h
    have hv : ∃ j : Int, v = .int j := by
      unfold plotApply at h
      split at h
      · have hk := (plotLoop_sublist pivot filters column (plotTable t) _).subset (List.mem_map.2 ⟨_, h, rfl⟩)
        rw [mem_pivotVals he] at hk
        obtain ⟨_, ⟨r, hr, hg⟩, _⟩ := hk
        simp only [plotTable, List.mem_map] at hr
        obtain ⟨r', hr', rfl⟩ := hr
        obtain ⟨i, hi⟩ := h2 r' hr'
        simp only [hi, Option.some.injEq] at hg
        exact ⟨i, hg.symm⟩
      · cases h
    obtain ⟨j, rfl⟩ := hv
    rw [C66_series he hp hf column (plotTable t) (by intro h; cases h), chosen_eq] at h
    obtain ⟨_, _, h3, h4⟩ := h
    exact ⟨j, rfl, fun h0 => h3 (by rw [h4, h0]; rfl), h4⟩
  · rintro ⟨j, rfl, h3, h4⟩
    rw [C66_series he hp hf column (plotTable t) (by intro h; cases h), chosen_eq]
    obtain ⟨r, hr⟩ := List.exists_mem_of_ne_nil _ h3
    have hr := (List.mem_filter.1 (List.mem_filter.1 hr).1).1
    obtain ⟨i, hi⟩ := h1 r hr
    obtain ⟨i', hi'⟩ := h2 r hr
    refine ⟨rowColumns_mem.2 ⟨r, hr, Dict.get_keys hi⟩, rowColumns_mem.2 ⟨r, hr, Dict.get_keys hi'⟩, ?_, h4⟩
    rw [h4]
    exact fun h0 => h3 (List.map_eq_nil_iff.1 h0)

theorem pivots_of_tables {enum : List Val → List Val} (he : Enumerates enum) {pivot column : Str} (hp : pivot ≠ pivotName) {filters : Dict (List Val)} (hf : (filters.map Prod.fst).Nodup)
    {ts : List (Table (Dict Val))} (h1 : ∀ t ∈ ts, ∀ r ∈ t, ∃ v, r.2.get column = some v) (h2 : ∀ t ∈ ts, ∀ r ∈ t, ∃ i : Int, r.2.get pivot = some (.int i)) :
    ∃ js : List Int, generatePivots enum (ts.map fun t => plotApply enum pivot filters column (plotTable t)) = some (js.map Val.int, js.length) ∧ js.Pairwise (· < ·) ∧
      ∀ j, j ∈ js ↔ ∃ t ∈ ts, chosenRows filters pivot t j ≠ [] := by
  have hkey : ∀ v, (∃ r ∈ ts.map fun t => plotApply enum pivot filters column (plotTable t), ∃ s, (v, s) ∈ r) ↔ ∃ j : Int, v = .int j ∧ ∃ t ∈ ts, chosenRows filters pivot t j ≠ [] := by
    intro v
    constructor
    · rintro ⟨r, hr, s, hs⟩
      obtain ⟨t, ht, rfl⟩ := List.mem_map.1 hr
      obtain ⟨j, e, h3, _⟩ := (apply_ints he hp hf (h1 t ht) (h2 t ht) v s).1 hs
      exact ⟨j, e, t, ht, h3⟩
    · rintro ⟨j, e, t, ht, h3⟩
      exact ⟨_, List.mem_map.2 ⟨t, ht, rfl⟩, _, (apply_ints he hp hf (h1 t ht) (h2 t ht) v _).2 ⟨j, e, h3, rfl⟩⟩
  cases hg : generatePivots enum (ts.map fun t => plotApply enum pivot filters column (plotTable t)) with
  | none =>
    obtain ⟨_, v, hv, hd⟩ := (C68_fails he _).1 hg
    obtain ⟨j, rfl, _⟩ := (hkey v).1 hv
    exact absurd (.int j) (hd j)
  | some l =>
    obtain ⟨l, n⟩ := l
    obtain ⟨c1, c2, c3, c4⟩ := C68_pivots he hg
    have hall : ∀ v ∈ l, ∃ j, v = Val.int j := by
      intro v hv
      obtain ⟨j, e, _⟩ := (hkey v).1 ((c2 v).1 hv)
      exact ⟨j, e⟩
    have hjs : ∃ js : List Int, l = js.map Val.int := by
      clear c1 c2 c3 c4 hg
      induction l with
      | nil => exact ⟨[], rfl⟩
      | cons v l ih =>
        obtain ⟨j, rfl⟩ := hall v (by simp)
        obtain ⟨js, rfl⟩ := ih fun v hv => hall v (by simp [hv])
        exact ⟨j :: js, rfl⟩
    obtain ⟨js, rfl⟩ := hjs
    refine ⟨js, by rw [c4, List.length_map], ?_, ?_⟩
    · have ha := c3.1 fun v hv => by
        obtain ⟨j, rfl⟩ := hall v hv
        exact ⟨j, .int j⟩
      have hn : js.Nodup := List.Nodup.of_map _ c1
      rw [List.pairwise_map] at ha
      exact (ha.and hn).imp fun ⟨hab, hne⟩ => by
        have := hab _ _ (.int _) (.int _)
        omega
    · intro j
      have e : (∃ a ∈ js, Val.int a = Val.int j) ↔ j ∈ js := by simp
      rw [← e, ← List.mem_map, c2, hkey]
      simp

theorem pivots_whole {enum : List Val → List Val} (he : Enumerates enum) {rs : List (List (Val × PSeries))} (hne : rs ≠ []) (h : ∀ r ∈ rs, ∃ s, r = [(pivotMark, s)]) :
    generatePivots enum rs = some ([pivotMark], 1) := by
  have hkey : ∀ v, (∃ r ∈ rs, ∃ s, (v, s) ∈ r) ↔ v = pivotMark := by
    intro v
    constructor
    · rintro ⟨r, hr, s, hs⟩
      obtain ⟨s', rfl⟩ := h r hr
      cases List.mem_singleton.1 hs
      rfl
    · rintro rfl
      obtain ⟨r, hr⟩ := List.exists_mem_of_ne_nil _ hne
      obtain ⟨s', rfl⟩ := h r hr
      exact ⟨_, hr, s', by simp⟩
  cases hg : generatePivots enum rs with
  | none =>
    obtain ⟨⟨i, hi⟩, _⟩ := (C68_fails he _).1 hg
    cases (hkey _).1 hi
  | some l =>
    obtain ⟨l, n⟩ := l
    obtain ⟨c1, c2, _, c4⟩ := C68_pivots he hg
    have hl : l = [pivotMark] := by
      have hm : ∀ v, v ∈ l ↔ v = pivotMark := fun v => (c2 v).trans (hkey v)
      match l, c1, hm with
      | [], _, hm => exact absurd ((hm pivotMark).2 rfl) (by simp)
      | [a], _, hm => rw [(hm a).1 (by simp)]
      | a :: b :: l, c1, hm =>
        have ha := (hm a).1 (by simp)
        have hb := (hm b).1 (by simp)
        rw [ha, hb] at c1
        exact absurd c1 (by simp)
    rw [c4, hl]
    rfl

/-- the lines of a plot of one event of several traces -/
structure LaidOut (enum : List Val → List Val) (pivot column : Str) (filters : Dict (List Val)) (event : Str) (ts : List (Table (Dict Val))) (ls : List PlotLine) : Prop where
  length : ls.length = ts.length
  idx : ∀ (k : Nat) (h : k < ls.length), ls[k].args.traceIdx = k
  args : ∀ l ∈ ls, l.args.template = some ⟨event⟩ ∧ l.args.column = column
  results : ls.map PlotLine.result = ts.map fun t => plotApply enum pivot filters column (plotTable t)

theorem buildAll_ok (fuel : Nat) (ps : List ParserClass) (hps : ∀ p ∈ ps, p ∈ builtins) (hnd : ps.Nodup) (u : UserParams) (hw : u.window.hi = none → u.absWindow.hi ≠ some 0)
    {p : ParserClass} (hp : p ∈ ps) (files : List ReadText) (h : ∀ f ∈ files, f.Ok fuel ps) :
    ∃ os ts, buildAll fuel ps u (files.map ReadText.lines) = some os ∧ List.Forall₂ (TableOf p u) files ts ∧
      List.Forall₂ (fun (o : TraceObj) t => (plotAttrs ps o.tables).get (decolonize p.name) = some (plotTable t)) os ts := by
  induction files with
  | nil => exact ⟨[], [], rfl, .nil, .nil⟩
  | cons f files ih =>
    obtain ⟨os, ts, i1, i2, i3⟩ := ih fun f hf => h f (by simp [hf])
    have hf := h f (by simp)
    obtain ⟨out, shift, o1, o2, o3⟩ := C134_object fuel ps hps hnd f.header f.items hf.file f.cells hf.reads hf.masks u hw
    obtain ⟨o, ho, ht⟩ : ∃ o, buildTrace fuel ps u f.lines = .object o ∧ o.tables = ps.map fun p => (fileRows (f.cells p) p f.items u out).map fun r => (shift r.1, r.2) := ⟨_, o3, rfl⟩
    refine ⟨o :: os, (fileRows (f.cells p) p f.items u out).map (fun r => (shift r.1, r.2)) :: ts, ?_, .cons ⟨out, shift, o1, o2, rfl⟩ i2, .cons ?_ i3⟩
    · rw [List.map_cons, buildAll, i1, ho]
    · rw [ht]
      have := plotAttrs_get (fun p => (fileRows (f.cells p) p f.items u out).map fun r => (shift r.1, r.2)) hps hp
      rw [← builtins_decolonize p (hps p hp)] at this
      exact this

theorem newPlot_many (enum : List Val → List Val) (nan : NanSlice) (ps : List ParserClass) (k : PlotEvent) (column pivot : Str) (filters : Dict (List Val))
    {os : List TraceObj} {ts : List (Table (Dict Val))} (hne : os ≠ []) (h : List.Forall₂ (fun (o : TraceObj) t => (plotAttrs ps o.tables).get (decolonize k.name) = some (plotTable t)) os ts) :
    ∃ ls, newPlot enum nan ⟨.many (os.map (plotItem ps)), .one (some k), some (.one column), none, false, pivot, filters, none⟩ = .ok ls ∧
      LaidOut enum pivot column filters k.name ts ls := by
  have hlen := h.length_eq
  have hpos : 0 < os.length := List.length_pos_iff.2 hne
  have hlong : longest (os.map (plotItem ps)) [column] [some k] = os.length := by
    simp only [longest, List.length_map, List.length_cons, List.length_nil]
    omega
  have hget := (List.forall₂_iff_get.1 h).2
  refine ⟨(os.zip ts).mapIdx fun i x => ⟨⟨plotItem ps x.1, column, some k, i⟩, plotApply enum pivot filters column (plotTable x.2)⟩, ?_, ?_, ?_, ?_, ?_⟩
  · rw [C150_lines enum nan rfl]
    refine ⟨os.map (plotItem ps), [some k], [column], .many _, by simpa using hne, .given rfl rfl (.one _) (.one _), ?_, ?_, ?_⟩
    · unfold Expandable
      simp only [hlong]
      simp
    · rw [hlong]; simp [← hlen]
    · rw [hlong]
      intro i hi
      have hi' : i < ts.length := by omega
      refine ⟨plotItem ps os[i], column, some k, plotTable ts[i], plotTable ts[i], .inl ⟨by simp, by simp [hi]⟩, ?_, ?_, ?_, rfl, ?_⟩
      · unfold NthOf
        by_cases h1 : os.length = 1
        · exact .inl ⟨by simp [h1], by have : i = 0 := by omega
                                       subst this; rfl⟩
        · exact .inr ⟨by simpa using fun h => h1 h.symm, rfl⟩
      · unfold NthOf
        by_cases h1 : os.length = 1
        · exact .inl ⟨by simp [h1], by have : i = 0 := by omega
                                       subst this; rfl⟩
        · exact .inr ⟨by simpa using fun h => h1 h.symm, rfl⟩
      · exact .trace _ _ _ _ _ ((withoutColons_iff _ _).2 rfl) (hget i hi hi')
      · simp [hi, hi']
  · simp [hlen]
  · intro i hi
    simp
  · intro l hl
    obtain ⟨i, hi, rfl⟩ := List.mem_mapIdx.1 hl
    exact ⟨rfl, rfl⟩
  · apply List.ext_getElem
    · simp [hlen]
    · intro i h1 h2
      simp

theorem traceTitle_get {names : List Str} {k : Nat} {n : Str} (h : names[k]? = some n) (event column : Str) :
    traceTitle names k ++ cs!":" ++ (event ++ cs!":") ++ column = constraintStr n k event column := by
  unfold traceTitle constraintStr
  rw [h]
  simp

theorem shownLine_get {names : List Str} {ls : List PlotLine} (hidx : ∀ (k : Nat) (h : k < ls.length), ls[k].args.traceIdx = k) {k : Nat} (h : k < ls.length) {v : Val} {s : PSeries}
    (hl : ls[k].result.lookup v = some s) : shownLine names ls ⟨staticConstraint names ls[k], v⟩ = s := by
  have hf : (ls.find? fun l => decide (staticConstraint names l = staticConstraint names ls[k])) = some ls[k] := by
    rw [List.find?_eq_some_iff_getElem]
    refine ⟨by simp, k, h, rfl, fun j hj => ?_⟩
    have hne : staticConstraint names ls[j] ≠ staticConstraint names ls[k] := by
      intro e
      have := congrArg LConstraint.traceIdx e
      simp only [staticConstraint, hidx] at this
      omega
    simpa using hne
  unfold shownLine
  simp only [hf, hl]

theorem lookup_key {σ : Type} {l : List (Val × σ)} {v : Val} {s : σ} (h : l.lookup v = some s) : v ∈ l.map Prod.fst := by
  induction l with
  | nil => cases h
  | cons x l ih =>
    obtain ⟨v', s'⟩ := x
    rw [List.lookup_cons] at h
    by_cases e : v = v'
    · simp [e]
    · rw [beq_false_of_ne e] at h
      exact List.mem_cons_of_mem _ (ih h)

/-- the concatenated plots of the lines -/
theorem draw_concat {names : List Str} {ls : List PlotLine} (hls : ls ≠ []) (hidx : ∀ (k : Nat) (h : k < ls.length), ls[k].args.traceIdx = k) (hn : names.length = ls.length)
    {event column : Str} (hargs : ∀ l ∈ ls, l.args.template = some ⟨event⟩ ∧ l.args.column = column) {pivots : List Val} (hp : pivots ≠ []) (S : PlotLine → Val → PSeries)
    (hS : ∀ l ∈ ls, ∀ v ∈ pivots, l.result.lookup v = some (S l v)) {perLine : Nat} (hl : 0 < perLine) (a : PlotLabels) (m n : Nat) :
    ∃ axes, linePlot perLine .concat a m n (ls.map (staticConstraint names)) pivots =
        .ok (axes, pivots.map fun p => some (if p = .str cs!"__TRAPPY_DEFAULT_PIVOT_VAL" then a.column else shownPivot a p)) ∧
      axes.map (showAxis names ls) = (names.zip ls).mapIdx fun k x =>
        ⟨(k / min perLine ls.length, k % min perLine ls.length), constraintStr x.1 k event column, pivots.mapIdx fun i v => (i, S x.2 v)⟩ := by
  have h := C142_concat_partial hl a m n (cs := ls.map (staticConstraint names)) (by simpa using hls)
    (by intro k hk; simp only [List.getElem_map, staticConstraint]; exact hidx k (by simpa using hk)) hp
    (by
      intro x hx p hp'
      obtain ⟨l, hl, rfl⟩ := List.mem_map.1 hx
      exact lookup_key (hS l hl p hp'))
  refine ⟨_, h, ?_⟩
  apply List.ext_getElem
  · simp [hn]
  · intro k h1 h2
    have hk : k < ls.length := by simpa using h1
    have hmem : ls[k] ∈ ls := List.getElem_mem hk
    obtain ⟨ht, hc⟩ := hargs _ hmem
    simp only [List.getElem_map, List.getElem_mapIdx, List.getElem_zip, showAxis, List.length_map, ShownAxis.mk.injEq, true_and]
    constructor
    · simp only [staticConstraint, ht, hc, hidx k hk]
      exact traceTitle_get (List.getElem?_eq_getElem (by omega)) _ _
    · apply List.ext_getElem
      · simp
      · intro i g1 g2
        simp only [List.getElem_mapIdx, List.getElem_map, Prod.mk.injEq, true_and]
        exact shownLine_get hidx hk (hS _ hmem _ (List.getElem_mem _))

/-- the plots by pivot of the lines -/
theorem draw_plain {names : List Str} {ls : List PlotLine} (hls : ls ≠ []) (hidx : ∀ (k : Nat) (h : k < ls.length), ls[k].args.traceIdx = k) (hn : names.length = ls.length)
    {event column : Str} (hargs : ∀ l ∈ ls, l.args.template = some ⟨event⟩ ∧ l.args.column = column) {pivots : List Val} (hp : pivots ≠ []) (S : PlotLine → Val → PSeries)
    (hS : ∀ l ∈ ls, ∀ v ∈ pivots, l.result.lookup v = some (S l v)) {perLine : Nat} (hl : 0 < perLine) (hone : ls.length ≤ 1 ∨ pivots.length ≤ perLine ∨ perLine = 1) (a : PlotLabels) (m n : Nat) :
    ∃ axes, linePlot perLine .plain a m n (ls.map (staticConstraint names)) pivots =
        .ok (axes, names.mapIdx fun k name => some (constraintStr name k event column)) ∧
      axes.map (showAxis names ls) = pivots.mapIdx fun i v =>
        ⟨(i / min perLine pivots.length, i % min perLine pivots.length), if v = .str cs!"__TRAPPY_DEFAULT_PIVOT_VAL" then [] else shownPivot a v, ls.mapIdx fun k l => (k, S l v)⟩ := by
  have h := C142_plain_partial hl a m n (cs := ls.map (staticConstraint names)) (by simpa using hls) hp
    (by
      intro x hx p hp'
      obtain ⟨l, hl, rfl⟩ := List.mem_map.1 hx
      exact lookup_key (hS l hl p hp')) (by simpa using hone)
  have e : (ls.map (staticConstraint names)).map (fun x => some x.text) = names.mapIdx fun k name => some (constraintStr name k event column) := by
    apply List.ext_getElem
    · simp [hn]
    · intro k h1 h2
      have hk : k < ls.length := by simpa using h1
      obtain ⟨ht, hc⟩ := hargs _ (List.getElem_mem hk)
      simp only [List.getElem_map, List.getElem_mapIdx, staticConstraint, ht, hc, hidx k hk, Option.some.injEq]
      exact traceTitle_get (List.getElem?_eq_getElem (by omega)) _ _
  rw [e] at h
  refine ⟨_, h, ?_⟩
  apply List.ext_getElem
  · simp
  · intro i h1 h2
    simp only [List.getElem_map, List.getElem_mapIdx, showAxis, ShownAxis.mk.injEq, true_and]
    apply List.ext_getElem
    · simp
    · intro k g1 g2
      have hk : k < ls.length := by simpa using g1
      simp only [List.getElem_mapIdx, List.getElem_map, Prod.mk.injEq, true_and]
      exact shownLine_get hidx hk (hS _ (List.getElem_mem hk) _ (List.getElem_mem _))

/-! ## C162 -/

/-- the arguments of a plot by a pivot -/
structure PivotPlot (a : StaticArgs) (p : ParserClass) (ts : List (Table (Dict Val))) : Prop where
  event : a.event = ⟨p.name⟩
  perLine : 0 < a.perLine
  filters : (a.filters.map Prod.fst).Nodup
  /-- every row has the column -/
  column : ∀ t ∈ ts, ∀ r ∈ t, ∃ v, r.2.get a.column = some v
  /-- the pivot is an integer in every row -/
  pivot : ∀ t ∈ ts, ∀ r ∈ t, ∃ i : Int, r.2.get a.pivot = some (.int i)
  /-- something is drawn -/
  some : ∃ t ∈ ts, ∃ j, chosenRows a.filters a.pivot t j ≠ []
  /-- every file has every pivot value -/
  all : ∀ t ∈ ts, ∀ t' ∈ ts, ∀ j, chosenRows a.filters a.pivot t j ≠ [] → chosenRows a.filters a.pivot t' j ≠ []

theorem apply_lookup {enum : List Val → List Val} (he : Enumerates enum) {pivot column : Str} (hp : pivot ≠ pivotName) {filters : Dict (List Val)} (hf : (filters.map Prod.fst).Nodup)
    {t : Table (Dict Val)} (h1 : ∀ r ∈ t, ∃ v, r.2.get column = some v) (h2 : ∀ r ∈ t, ∃ i : Int, r.2.get pivot = some (.int i)) {j : Int} (h : chosenRows filters pivot t j ≠ []) :
    (plotApply enum pivot filters column (plotTable t)).lookup (.int j) = some (pointsOf column (chosenRows filters pivot t j)) :=
  lookup_of_mem (C66_keys he _ _ _ _).1 ((apply_ints he hp hf h1 h2 _ _).2 ⟨j, rfl, h, rfl⟩)

/-- the series of a result -/
def resultSeries (l : PlotLine) (v : Val) : PSeries :=
  match l.result.lookup v with
  | some s => s
  | none => []

theorem resultSeries_lookup {l : PlotLine} {v : Val} {s : PSeries} (h : l.result.lookup v = some s) : l.result.lookup v = some (resultSeries l v) ∧ resultSeries l v = s := by
  unfold resultSeries
  rw [h]
  exact ⟨rfl, rfl⟩

theorem LaidOut.get {enum : List Val → List Val} {pivot column : Str} {filters : Dict (List Val)} {event : Str} {ts : List (Table (Dict Val))} {ls : List PlotLine}
    (h : LaidOut enum pivot column filters event ts ls) {k : Nat} (h1 : k < ls.length) (h2 : k < ts.length) : ls[k].result = plotApply enum pivot filters column (plotTable ts[k]) := by
  have := congrArg (fun l => l[k]?) h.results
  simpa [h1, h2] using this

/-- what is drawn of tables that are given -/
theorem drawFiles_eq {enum : List Val → List Val} {nan : NanSlice} {fuel : Nat} {ps : List ParserClass} {u : UserParams} {files : List ReadText} {a : StaticArgs} {os : List TraceObj}
    {ls : List PlotLine} {pivots : List Val} {n : Nat} {axes : List DrawnAxis} {legend : List (Option Str)}
    (h1 : buildAll fuel ps u (files.map ReadText.lines) = some os)
    (h2 : newPlot enum nan ⟨.many (os.map (plotItem ps)), .one (some a.event), some (.one a.column), none, false, a.pivot, a.filters, none⟩ = .ok ls)
    (h3 : generatePivots enum (ls.map PlotLine.result) = some (pivots, n))
    (h4 : linePlot a.perLine (if a.concat then .concat else .plain) ⟨a.pivot, [], a.column⟩ files.length files.length (ls.map (staticConstraint (files.map ReadText.name))) pivots = .ok (axes, legend)) :
    drawFiles enum nan fuel ps u (files.map fun f => (f.name, f.lines)) a = .ok (axes.map (showAxis (files.map ReadText.name) ls), legend) := by
  unfold drawFiles
  simp only [List.map_map, Function.comp_def, List.length_map]
  have e1 : (files.map fun f => f.lines) = files.map ReadText.lines := rfl
  have e2 : (files.map fun f => f.name) = files.map ReadText.name := rfl
  rw [e1, e2, h1]
  simp only [h2, h3, h4]

/-- **C162, part proved**, concatenated plots. The files of traces are read and a static plot of a column of an event, with a pivot, filters and `concat`, is made and drawn: there is one plot for each file,
in the order of the files, titled by the file, the event and the column, and on it one line for each pivot value of the files, ascending. A line has one point for each line of the file with the event, this
pivot value and a time the user asked for that passes the filters, in the order of the file, with its time and its value of the column. Line number i has colour number i on every plot and the legend has the
pivot values in this order. -/
theorem C162_concat_partial (fuel : Nat) (ps : List ParserClass) (hps : ∀ p ∈ ps, p ∈ builtins) (hnd : ps.Nodup) (u : UserParams) (hw : u.window.hi = none → u.absWindow.hi ≠ some 0)
    {p : ParserClass} (hp : p ∈ ps) (files : List ReadText) (h : ∀ f ∈ files, f.Ok fuel ps) {enum : List Val → List Val} (he : Enumerates enum) (nan : NanSlice)
    {a : StaticArgs} (hc : a.concat = true) (hpivot : a.pivot ≠ cs!"__TRAPPY_PIVOT_DEFAULT") :
    ∃ ts, List.Forall₂ (TableOf p u) files ts ∧ (PivotPlot a p ts → ∃ js : List Int, js.Pairwise (· < ·) ∧ (∀ j, j ∈ js ↔ ∃ t ∈ ts, chosenRows a.filters a.pivot t j ≠ []) ∧
      drawFiles enum nan fuel ps u (files.map fun f => (f.name, f.lines)) a = .ok
        ((files.zip ts).mapIdx fun k x =>
          ⟨(k / min a.perLine files.length, k % min a.perLine files.length), constraintStr x.1.name k p.name a.column,
            js.mapIdx fun i j => (i, pointsOf a.column (chosenRows a.filters a.pivot x.2 j))⟩,
        js.map fun j => some (a.pivot ++ cs!": " ++ intStr j))) := by
  obtain ⟨os, ts, b1, b2, b3⟩ := buildAll_ok fuel ps hps hnd u hw hp files h
  refine ⟨ts, b2, fun hq => ?_⟩
  have hpn : a.pivot ≠ pivotName := hpivot
  have hlen := b2.length_eq
  have hne : ts ≠ [] := by
    obtain ⟨t, ht, _⟩ := hq.some
    rintro rfl
    cases ht
  have hpos := List.length_pos_iff.2 hne
  obtain ⟨ls, n1, n2⟩ := newPlot_many enum nan ps ⟨p.name⟩ a.column a.pivot a.filters (os := os) (ts := ts) (by rintro rfl; cases b3; exact hne rfl) b3
  obtain ⟨js, j1, j2, j3⟩ := pivots_of_tables he hpn hq.filters hq.column hq.pivot
  have hjs : js ≠ [] := by
    obtain ⟨t, ht, j, hj⟩ := hq.some
    rintro rfl
    exact absurd ((j3 j).2 ⟨t, ht, hj⟩) (by simp)
  have hS : ∀ (k : Nat) (h1 : k < ls.length) (h2 : k < ts.length), ∀ j ∈ js, ls[k].result.lookup (.int j) = some (pointsOf a.column (chosenRows a.filters a.pivot ts[k] j)) := by
    intro k h1 h2 j hj
    rw [n2.get h1 h2]
    obtain ⟨t, ht, hj'⟩ := (j3 j).1 hj
    have hm : ts[k] ∈ ts := List.getElem_mem h2
    exact apply_lookup he hpn hq.filters (hq.column _ hm) (hq.pivot _ hm) (hq.all t ht _ hm j hj')
  obtain ⟨axes, d1, d2⟩ := draw_concat (names := files.map ReadText.name) (ls := ls) (by rintro rfl; rw [← n2.length] at hpos; simp at hpos) n2.idx (by simp [n2.length, hlen]) n2.args
    (pivots := js.map Val.int) (by simpa using hjs) resultSeries
    (by
      intro l hl v hv
      obtain ⟨k, hk, rfl⟩ := List.mem_iff_getElem.1 hl
      obtain ⟨j, hj, rfl⟩ := List.mem_map.1 hv
      exact (resultSeries_lookup (hS k hk (by rw [← n2.length]; exact hk) j hj)).1) hq.perLine ⟨a.pivot, [], a.column⟩ files.length files.length
  refine ⟨js, j2, j3, ?_⟩
  rw [drawFiles_eq (n := js.length) b1 (by rw [hq.event]; exact n1) (by rw [n2.results]; exact j1) (by rw [hc]; exact d1), d2]
  congr 2
  · apply List.ext_getElem
    · simp [n2.length, hlen]
    · intro k h1 h2
      have hk : k < ts.length := by
        simp only [List.length_mapIdx, List.length_zip] at h2
        omega
      have hk' : k < ls.length := by rw [n2.length]; exact hk
      simp only [List.getElem_mapIdx, List.getElem_zip, List.getElem_map, n2.length, hlen, ShownAxis.mk.injEq, true_and]
      apply List.ext_getElem
      · simp
      · intro i g1 g2
        simp only [List.getElem_mapIdx, List.getElem_map, Prod.mk.injEq, true_and]
        exact (resultSeries_lookup (hS k hk' hk _ (List.getElem_mem _))).2
  · rw [List.map_map]
    apply List.map_congr_left
    intro j _
    simp [shownPivot, Val.text]

/-- **C162, part proved**, plots by pivot. Without `concat` there is one plot for each pivot value of the files, ascending, titled by it, and on it one line for each file, in the order of the files, with the
points of the file with this pivot value; line number i has colour number i on every plot, and the legend has the files in this order. -/
theorem C162_plain_partial (fuel : Nat) (ps : List ParserClass) (hps : ∀ p ∈ ps, p ∈ builtins) (hnd : ps.Nodup) (u : UserParams) (hw : u.window.hi = none → u.absWindow.hi ≠ some 0)
    {p : ParserClass} (hp : p ∈ ps) (files : List ReadText) (h : ∀ f ∈ files, f.Ok fuel ps) {enum : List Val → List Val} (he : Enumerates enum) (nan : NanSlice)
    {a : StaticArgs} (hc : a.concat = false) (hpivot : a.pivot ≠ cs!"__TRAPPY_PIVOT_DEFAULT") :
    ∃ ts, List.Forall₂ (TableOf p u) files ts ∧ (PivotPlot a p ts → ∃ js : List Int, js.Pairwise (· < ·) ∧ (∀ j, j ∈ js ↔ ∃ t ∈ ts, chosenRows a.filters a.pivot t j ≠ []) ∧
      (files.length ≤ 1 ∨ js.length ≤ a.perLine ∨ a.perLine = 1 →
      drawFiles enum nan fuel ps u (files.map fun f => (f.name, f.lines)) a = .ok
        (js.mapIdx fun i j =>
          ⟨(i / min a.perLine js.length, i % min a.perLine js.length), a.pivot ++ cs!": " ++ intStr j,
            ts.mapIdx fun k t => (k, pointsOf a.column (chosenRows a.filters a.pivot t j))⟩,
        files.mapIdx fun k f => some (constraintStr f.name k p.name a.column)))) := by
  obtain ⟨os, ts, b1, b2, b3⟩ := buildAll_ok fuel ps hps hnd u hw hp files h
  refine ⟨ts, b2, fun hq => ?_⟩
  have hpn : a.pivot ≠ pivotName := hpivot
  have hlen := b2.length_eq
  have hne : ts ≠ [] := by
    obtain ⟨t, ht, _⟩ := hq.some
    rintro rfl
    cases ht
  have hpos := List.length_pos_iff.2 hne
  obtain ⟨ls, n1, n2⟩ := newPlot_many enum nan ps ⟨p.name⟩ a.column a.pivot a.filters (os := os) (ts := ts) (by rintro rfl; cases b3; exact hne rfl) b3
  obtain ⟨js, j1, j2, j3⟩ := pivots_of_tables he hpn hq.filters hq.column hq.pivot
  have hjs : js ≠ [] := by
    obtain ⟨t, ht, j, hj⟩ := hq.some
    rintro rfl
    exact absurd ((j3 j).2 ⟨t, ht, hj⟩) (by simp)
  have hS : ∀ (k : Nat) (h1 : k < ls.length) (h2 : k < ts.length), ∀ j ∈ js, ls[k].result.lookup (.int j) = some (pointsOf a.column (chosenRows a.filters a.pivot ts[k] j)) := by
    intro k h1 h2 j hj
    rw [n2.get h1 h2]
    obtain ⟨t, ht, hj'⟩ := (j3 j).1 hj
    have hm : ts[k] ∈ ts := List.getElem_mem h2
    exact apply_lookup he hpn hq.filters (hq.column _ hm) (hq.pivot _ hm) (hq.all t ht _ hm j hj')
  refine ⟨js, j2, j3, fun hone => ?_⟩
  obtain ⟨axes, d1, d2⟩ := draw_plain (names := files.map ReadText.name) (ls := ls) (by rintro rfl; rw [← n2.length] at hpos; simp at hpos) n2.idx (by simp [n2.length, hlen]) n2.args
    (pivots := js.map Val.int) (by simpa using hjs) resultSeries
    (by
      intro l hl v hv
      obtain ⟨k, hk, rfl⟩ := List.mem_iff_getElem.1 hl
      obtain ⟨j, hj, rfl⟩ := List.mem_map.1 hv
      exact (resultSeries_lookup (hS k hk (by rw [← n2.length]; exact hk) j hj)).1) hq.perLine (by simpa [n2.length, ← hlen] using hone) ⟨a.pivot, [], a.column⟩ files.length files.length
  rw [drawFiles_eq (n := js.length) b1 (by rw [hq.event]; exact n1) (by rw [n2.results]; exact j1) (by rw [hc]; exact d1), d2]
  congr 2
  · apply List.ext_getElem
    · simp
    · intro i h1 h2
      have hi : i < js.length := by simpa using h2
      simp only [List.getElem_mapIdx, List.getElem_map, List.length_map, ShownAxis.mk.injEq, true_and]
      refine ⟨by simp [shownPivot, Val.text], ?_⟩
      apply List.ext_getElem
      · simp [n2.length]
      · intro k g1 g2
        have hk : k < ts.length := by simpa using g2
        simp only [List.getElem_mapIdx, Prod.mk.injEq, true_and]
        exact (resultSeries_lookup (hS k (by rw [n2.length]; exact hk) hk _ (List.getElem_mem _))).2
  · apply List.ext_getElem
    · simp
    · intro k g1 g2
      simp

/-- the arguments of a plot without a pivot -/
structure WholePlot (a : StaticArgs) (p : ParserClass) (ts : List (Table (Dict Val))) : Prop where
  event : a.event = ⟨p.name⟩
  perLine : 0 < a.perLine
  pivot : a.pivot = cs!"__TRAPPY_PIVOT_DEFAULT"
  /-- every row has the column -/
  column : ∀ t ∈ ts, ∀ r ∈ t, ∃ v, r.2.get a.column = some v
  /-- no row has a column with the name that stands for no pivot -/
  clean : ∀ t ∈ ts, ∀ r ∈ t, r.2.get cs!"__TRAPPY_PIVOT_DEFAULT" = none
  /-- every file has something to draw -/
  all : ∀ t ∈ ts, passingRows a.filters t ≠ []

/-- **C162**, plots without a pivot. There is a single plot without a title (with `concat`: one for each file, titled by it), and on it one line for each file, in the order of the files, with a point for
each line of the file with the event and a time the user asked for that passes the filters, in the order of the file. -/
theorem C162_whole (fuel : Nat) (ps : List ParserClass) (hps : ∀ p ∈ ps, p ∈ builtins) (hnd : ps.Nodup) (u : UserParams) (hw : u.window.hi = none → u.absWindow.hi ≠ some 0)
    {p : ParserClass} (hp : p ∈ ps) (files : List ReadText) (hfiles : files ≠ []) (h : ∀ f ∈ files, f.Ok fuel ps) {enum : List Val → List Val} (he : Enumerates enum) (nan : NanSlice) (a : StaticArgs) :
    ∃ ts, List.Forall₂ (TableOf p u) files ts ∧ (WholePlot a p ts →
      drawFiles enum nan fuel ps u (files.map fun f => (f.name, f.lines)) a = .ok
        (if a.concat then
          ((files.zip ts).mapIdx fun k x =>
            ⟨(k / min a.perLine files.length, k % min a.perLine files.length), constraintStr x.1.name k p.name a.column, [(0, pointsOf a.column (passingRows a.filters x.2))]⟩,
          [some a.column])
        else
          ([⟨(0, 0), [], ts.mapIdx fun k t => (k, pointsOf a.column (passingRows a.filters t))⟩],
          files.mapIdx fun k f => some (constraintStr f.name k p.name a.column)))) := by
  obtain ⟨os, ts, b1, b2, b3⟩ := buildAll_ok fuel ps hps hnd u hw hp files h
  refine ⟨ts, b2, fun hq => ?_⟩
  have hlen := b2.length_eq
  have hpos : 0 < ts.length := by rw [← hlen]; exact List.length_pos_iff.2 hfiles
  have hpn : a.pivot = pivotName := hq.pivot
  obtain ⟨ls, n1, n2⟩ := newPlot_many enum nan ps ⟨p.name⟩ a.column a.pivot a.filters (os := os) (ts := ts) (by rintro rfl; cases b3; simp at hpos) b3
  have hres : ∀ t ∈ ts, plotApply enum a.pivot a.filters a.column (plotTable t) = [(pivotMark, pointsOf a.column (passingRows a.filters t))] := by
    intro t ht
    have hall := hq.all t ht
    obtain ⟨r, hr⟩ := List.exists_mem_of_ne_nil _ hall
    have hr := (List.mem_filter.1 hr).1
    obtain ⟨v, hv⟩ := hq.column t ht r hr
    rw [hpn, C66_whole enum a.filters (rowColumns_mem.2 ⟨r, hr, Dict.get_keys hv⟩) ?_, passing_eq, if_neg]
    · intro h0
      have := passing_eq a.filters a.column t
      rw [h0] at this
      exact hall (List.map_eq_nil_iff.1 this.symm)
    · intro hm
      obtain ⟨r, hr, hk⟩ := rowColumns_mem.1 hm
      obtain ⟨v, hv⟩ := Dict.get_of_key hk
      have := hq.clean t ht r hr
      rw [show pivotName = cs!"__TRAPPY_PIVOT_DEFAULT" from rfl, this] at hv
      cases hv
  have j1 : generatePivots enum (ls.map PlotLine.result) = some ([pivotMark], 1) := by
    rw [n2.results]
    refine pivots_whole he (by rw [Ne, List.map_eq_nil_iff]; exact List.length_pos_iff.1 hpos) fun r hr => ?_
    obtain ⟨t, ht, rfl⟩ := List.mem_map.1 hr
    exact ⟨_, hres t ht⟩
  have hls : ls ≠ [] := by rw [← List.length_pos_iff, n2.length]; exact hpos
  have hS : ∀ (k : Nat) (h1 : k < ls.length) (h2 : k < ts.length), ls[k].result.lookup pivotMark = some (pointsOf a.column (passingRows a.filters ts[k])) := by
    intro k h1 h2
    rw [n2.get h1 h2, hres _ (List.getElem_mem h2)]
    simp
  have hS' : ∀ l ∈ ls, ∀ v ∈ [pivotMark], l.result.lookup v = some (resultSeries l v) := by
    intro l hl v hv
    obtain ⟨k, hk, rfl⟩ := List.mem_iff_getElem.1 hl
    rw [List.mem_singleton.1 hv]
    exact (resultSeries_lookup (hS k hk (by rw [← n2.length]; exact hk))).1
  cases hc : a.concat with
  | true =>
    obtain ⟨axes, d1, d2⟩ := draw_concat (names := files.map ReadText.name) hls n2.idx (by simp [n2.length, hlen]) n2.args (pivots := [pivotMark]) (by simp) resultSeries hS' hq.perLine
      ⟨a.pivot, [], a.column⟩ files.length files.length
    rw [drawFiles_eq (n := 1) b1 (by rw [hq.event]; exact n1) j1 (by rw [hc]; exact d1), d2]
    simp only [if_true]
    congr 2
    apply List.ext_getElem
    · simp [n2.length, hlen]
    · intro k h1 h2
      have hk : k < ts.length := by
        simp only [List.length_mapIdx, List.length_zip] at h2
        omega
      simp only [List.getElem_mapIdx, List.getElem_zip, List.getElem_map, n2.length, hlen, ShownAxis.mk.injEq, true_and, List.mapIdx_cons, List.mapIdx_nil]
      rw [(resultSeries_lookup (hS k (by rw [n2.length]; exact hk) hk)).2]
  | false =>
    obtain ⟨axes, d1, d2⟩ := draw_plain (names := files.map ReadText.name) hls n2.idx (by simp [n2.length, hlen]) n2.args (pivots := [pivotMark]) (by simp) resultSeries hS' hq.perLine
      (.inr (.inl hq.perLine)) ⟨a.pivot, [], a.column⟩ files.length files.length
    rw [drawFiles_eq (n := 1) b1 (by rw [hq.event]; exact n1) j1 (by rw [hc]; exact d1), d2]
    simp only [Bool.false_eq_true, if_false]
    congr 2
    · simp only [List.mapIdx_cons, List.mapIdx_nil, List.length_cons, List.length_nil, Nat.zero_div, Nat.zero_mod, List.cons.injEq, and_true, ShownAxis.mk.injEq, true_and]
      refine ⟨if_pos rfl, ?_⟩
      apply List.ext_getElem
      · simp [n2.length]
      · intro k g1 g2
        have hk : k < ts.length := by simpa using g2
        simp only [List.getElem_mapIdx, Prod.mk.injEq, true_and]
        exact (resultSeries_lookup (hS k (by rw [n2.length]; exact hk) hk)).2
    · apply List.ext_getElem
      · simp
      · intro k g1 g2
        simp

/-! ## Examples -/

/-- a file with the events of one CPU -/
def exOneCpu : List Str :=
  [cs!"version = 6\n",
   cs!"a-1 [000] 1.5: cpu_frequency: state=500000 cpu_id=3\n",
   cs!"a-1 [000] 2.5: cpu_frequency: state=600000 cpu_id=3\n"]

/-- a plot of frequencies -/
def exFreqPlot (pivot : Str) (filters : Dict (List Val)) (concat : Bool) : StaticArgs := ⟨⟨cs!"cpu_frequency"⟩, cs!"frequency", pivot, filters, concat, 2⟩

/-- the series of the two CPUs of `exTwoCpus` -/
def exCpu1 : PSeries := [(ofRat 1 1, some (.int 800000))]
/-- the same of CPU 3 -/
def exCpu3 : PSeries := [(0, some (.int 900000)), (ofRat 2 1, some (.int 700000))]
/-- the series of `exOneCpu` -/
def exCpu3' : PSeries := [(0, some (.int 500000)), (ofRat 1 1, some (.int 600000))]

/-- **C162, refuted.** Two files, and the second has no events of the first pivot value. The plot with the frequencies of CPU 1 of the first file and CPU 3 of the second is titled `cpu: 3`, as is the plot of CPU 3
of the first file; no plot is titled `cpu: 1`. With `concat`, both entries of the legend are `cpu: 3`. -/
theorem C162_missing_refuted :
    drawFiles uniqVals .raises 5 exWholeParsers (UserParams.full true) [(cs!"a", exTwoCpus), (cs!"b", exOneCpu)] (exFreqPlot cs!"cpu" [] false) =
      .ok ([⟨(0, 0), cs!"cpu: 3", [(0, exCpu1), (1, exCpu3')]⟩, ⟨(0, 1), cs!"cpu: 3", [(0, exCpu3)]⟩], [some cs!"a:cpu_frequency:frequency", some cs!"b:cpu_frequency:frequency"]) ∧
    drawFiles uniqVals .raises 5 exWholeParsers (UserParams.full true) [(cs!"a", exTwoCpus), (cs!"b", exOneCpu)] (exFreqPlot cs!"cpu" [] true) =
      .ok ([⟨(0, 0), cs!"a:cpu_frequency:frequency", [(0, exCpu1), (1, exCpu3)]⟩, ⟨(0, 1), cs!"b:cpu_frequency:frequency", [(0, exCpu3')]⟩], [some cs!"cpu: 3", some cs!"cpu: 3"]) := by
  decide +kernel

/-- two files with the same CPUs: one plot for each CPU, or one for each file -/
example :
    drawFiles uniqVals .raises 5 exWholeParsers (UserParams.full true) [(cs!"a", exTwoCpus), (cs!"", exTwoCpus)] (exFreqPlot cs!"cpu" [] false) =
      .ok ([⟨(0, 0), cs!"cpu: 1", [(0, exCpu1), (1, exCpu1)]⟩, ⟨(0, 1), cs!"cpu: 3", [(0, exCpu3), (1, exCpu3)]⟩], [some cs!"a:cpu_frequency:frequency", some cs!"Trace 1:cpu_frequency:frequency"]) ∧
    drawFiles uniqVals .raises 5 exWholeParsers (UserParams.full true) [(cs!"a", exTwoCpus), (cs!"", exTwoCpus)] (exFreqPlot cs!"cpu" [] true) =
      .ok ([⟨(0, 0), cs!"a:cpu_frequency:frequency", [(0, exCpu1), (1, exCpu3)]⟩, ⟨(0, 1), cs!"Trace 1:cpu_frequency:frequency", [(0, exCpu1), (1, exCpu3)]⟩], [some cs!"cpu: 1", some cs!"cpu: 3"]) := by
  decide +kernel

/-- a filter and no pivot -/
example : drawFiles uniqVals .raises 5 exWholeParsers (UserParams.full true) [(cs!"a", exTwoCpus), (cs!"b", exOneCpu)] (exFreqPlot cs!"__TRAPPY_PIVOT_DEFAULT" [(cs!"cpu", [.int 3])] false) =
    .ok ([⟨(0, 0), [], [(0, exCpu3), (1, exCpu3')]⟩], [some cs!"a:cpu_frequency:frequency", some cs!"b:cpu_frequency:frequency"]) := by
  decide +kernel

/-- files that can be read -/
example : ∀ f ∈ [(⟨cs!"a", exHeader, exItems, fun _ => exCells⟩ : ReadText), ⟨cs!"b", exHeader, exItems, fun _ => exCells⟩], f.Ok 5 exParsers := by
  intro f hf
  simp only [List.mem_cons, List.not_mem_nil, or_false] at hf
  have h := exTrace_reads
  rcases hf with rfl | rfl <;> exact ⟨exFile_ok, h.1, h.2⟩

/-- tables of two files; in the first, one row does not pass the filter -/
def exTables : List (Table (Dict Val)) :=
  [[(1, [(cs!"cpu", .int 3), (cs!"frequency", .int 5)]), (2, [(cs!"cpu", .int 4), (cs!"frequency", .int 5)])], [(7, [(cs!"cpu", .int 3), (cs!"frequency", .int 6)])]]

/-- a filter on the CPUs -/
def exCpuFilter : Dict (List Val) := [(cs!"cpu", [.int 1, .int 3])]

theorem passingRows_dec (filters : Dict (List Val)) (t : Table (Dict Val)) :
    passingRows filters t = t.filter fun r => decide (Passes (plotTable t).columns filters ⟨r.1, r.2⟩) := by
  classical
  unfold passingRows
  apply List.filter_congr
  intro r _
  rw [Bool.eq_iff_iff, decide_eq_true_iff, decide_eq_true_iff]
  exact (passes_row t filters r).symm

theorem exPassing : exTables.map (passingRows exCpuFilter) = [[(1, [(cs!"cpu", .int 3), (cs!"frequency", .int 5)])], [(7, [(cs!"cpu", .int 3), (cs!"frequency", .int 6)])]] := by
  have : passingRows exCpuFilter = fun t => t.filter fun r => decide (Passes (plotTable t).columns exCpuFilter ⟨r.1, r.2⟩) := funext (passingRows_dec exCpuFilter)
  rw [this]
  decide +kernel

theorem exPassing_mem : ∀ t ∈ exTables, ∃ n k : Nat, passingRows exCpuFilter t = [(n, [(cs!"cpu", .int 3), (cs!"frequency", .int (k : Int))])] := by
  intro t ht
  have : passingRows exCpuFilter t ∈ exTables.map (passingRows exCpuFilter) := List.mem_map.2 ⟨t, ht, rfl⟩
  rw [exPassing] at this
  rcases List.mem_cons.1 this with h | h
  · exact ⟨1, 5, h⟩
  · exact ⟨7, 6, List.mem_singleton.1 h⟩

theorem exChosen_mem : ∀ t ∈ exTables, ∀ j : Int, chosenRows exCpuFilter cs!"cpu" t j ≠ [] ↔ j = 3 := by
  intro t ht j
  obtain ⟨n, k, h⟩ := exPassing_mem t ht
  have hg : Dict.get [(cs!"cpu", Val.int 3), (cs!"frequency", .int (k : Int))] cs!"cpu" = some (.int 3) := rfl
  unfold chosenRows
  rw [h, List.filter_cons, hg, List.filter_nil]
  constructor
  · intro h
    by_contra hj
    refine h (if_neg fun e => hj ?_)
    have := eq_of_beq e
    cases this
    rfl
  · rintro rfl
    rw [if_pos (by decide)]
    exact List.cons_ne_nil _ _

example : PivotPlot (exFreqPlot cs!"cpu" exCpuFilter false) (unnamed cs!"cpu_frequency:") exTables where
  event := by decide +kernel
  perLine := by decide
  filters := by decide
  column := by
    intro t ht r hr
    simp only [exTables, List.mem_cons, List.not_mem_nil, or_false] at ht
    rcases ht with rfl | rfl
    · simp only [List.mem_cons, List.not_mem_nil, or_false] at hr
      rcases hr with rfl | rfl <;> exact ⟨.int 5, by decide⟩
    · cases List.mem_singleton.1 hr
      exact ⟨.int 6, by decide⟩
  pivot := by
    intro t ht r hr
    simp only [exTables, List.mem_cons, List.not_mem_nil, or_false] at ht
    rcases ht with rfl | rfl
    · simp only [List.mem_cons, List.not_mem_nil, or_false] at hr
      rcases hr with rfl | rfl
      · exact ⟨3, by decide⟩
      · exact ⟨4, by decide⟩
    · cases List.mem_singleton.1 hr
      exact ⟨3, by decide⟩
  some := ⟨_, List.mem_cons_self, 3, (exChosen_mem _ List.mem_cons_self 3).2 rfl⟩
  all := fun t ht t' ht' j h => (exChosen_mem t' ht' j).2 ((exChosen_mem t ht j).1 h)

example : WholePlot (exFreqPlot cs!"__TRAPPY_PIVOT_DEFAULT" exCpuFilter true) (unnamed cs!"cpu_frequency:") exTables where
  event := by decide +kernel
  perLine := by decide
  pivot := rfl
  column := by
    intro t ht r hr
    simp only [exTables, List.mem_cons, List.not_mem_nil, or_false] at ht
    rcases ht with rfl | rfl
    · simp only [List.mem_cons, List.not_mem_nil, or_false] at hr
      rcases hr with rfl | rfl <;> exact ⟨.int 5, by decide⟩
    · cases List.mem_singleton.1 hr
      exact ⟨.int 6, by decide⟩
  clean := by decide
  all := by
    intro t ht
    obtain ⟨n, k, h⟩ := exPassing_mem t ht
    rw [show (exFreqPlot cs!"__TRAPPY_PIVOT_DEFAULT" exCpuFilter true).filters = exCpuFilter from rfl, h]
    simp

end Trappy
