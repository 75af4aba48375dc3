import Verif.Model.IPage
import Verif.Prop.Json
import Verif.Prop.Layout
import Verif.Model.Merge
import Verif.Lemma.Registry
/-!
# C147: the page of an interactive plot
-/

namespace Trappy

/-! ## Specification -/

/-- **Specification**: an argument, or its default -/
def kwOr (kw : Dict PyJson) (k : Str) (d : PyJson) : PyJson :=
  match kw.get k with
  | some v => v
  | none => d

/-- **Specification**: the `drawstyle` asked for is one of steps -/
def stepsAsked (kw : Dict PyJson) : Bool :=
  match kw.get cs!"drawstyle" with
  | some (.str s) => s.take 5 == cs!"steps"
  | _ => false

/-- **Specification**: the values that Python takes for false: `None`, `False`, zero, and what is empty -/
inductive PyFalse : PyJson → Prop where
  | null : PyFalse .null
  | bool : PyFalse (.bool false)
  | int : PyFalse (.int 0)
  | float : PyFalse (.float cs!"0.0")
  | negative : PyFalse (.float cs!"-0.0")
  | str : PyFalse (.str [])
  | arr : PyFalse (.arr [])
  | obj : PyFalse (.obj [])

theorem pyTruthy_iff (v : PyJson) : pyTruthy v = false ↔ PyFalse v := by
  constructor
  · intro h
    cases v with
    | null => exact .null
    | bool b => cases b with
      | false => exact .bool
      | true => cases h
    | int i =>
      have : i = 0 := by simpa [pyTruthy] using h
      subst this
      exact .int
    | float t =>
      simp only [pyTruthy, Bool.and_eq_false_iff, bne_eq_false_iff_eq] at h
      rcases h with rfl | rfl
      · exact .float
      · exact .negative
    | str s =>
      have : s = [] := by simpa [pyTruthy] using h
      subst this
      exact .str
    | arr l =>
      have : l = [] := by simpa [pyTruthy] using h
      subst this
      exact .arr
    | obj l =>
      have : l = [] := by simpa [pyTruthy] using h
      subst this
      exact .obj
  · intro h
    cases h <;> rfl

instance (v : PyJson) : Decidable (PyFalse v) := decidable_of_iff _ (pyTruthy_iff v)

/-- **Specification**: whether points are asked for -/
def pointsAsked (kw : Dict PyJson) : Bool := decide (¬ PyFalse (kwOr kw cs!"scatter" (.bool false)))

theorem pointsAsked_eq (kw : Dict PyJson) : pointsAsked kw = pyTruthy (kwOr kw cs!"scatter" (.bool false)) := by
  unfold pointsAsked
  rw [Bool.eq_iff_iff, decide_eq_true_iff, ← pyTruthy_iff]
  simp

/-- **Specification**: the graph that figure `fig` is to be: the frame, under the options asked for -/
def wantedGraph (hash : Str) (kw : Dict PyJson) (perLine : Nat) (colours : List Str) (fig : Str) (f : IFrame) : DyGraph where
  div := fig
  rows := some (.arr (f.index.zipWith (fun x vs => .arr (seen x :: vs.map seen)) f.values))
  labels := some (.arr ((cs!"index" :: f.columns).map fun c => .str (utf16 c)))
  title := some (.str (utf16 f.title))
  rangeSelector := some (.bool false)
  stepPlot := some (if stepsAsked kw then .bool true else seen (kwOr kw cs!"step_plot" (.bool false)))
  logscale := some (.bool false)
  fillGraph := some (if (kw.get cs!"fill_alpha").isSome then .bool true else seen (kwOr kw cs!"fill" (.bool false)))
  fillAlpha := (kw.get cs!"fill_alpha").map seen
  legendDiv := fig ++ cs!"_legend"
  valueRange := (kw.get cs!"ylim").map seen
  dateWindow := (kw.get cs!"xlim").map seen
  drawPoints := some (.bool (pointsAsked kw))
  strokeWidth := some (.num (if pointsAsked kw then cs!"0.0" else cs!"1.0"))
  pointSize := some (seen (kwOr kw cs!"point_size" (.int 2)))
  colours := if colours = [] then none else some (.arr (colours.map fun c => .str (utf16 c)))
  perLine := some (.num (Py.intStr perLine))
  height := some (.num cs!"400")
  group := some (seen (kwOr kw cs!"group" (.str hash)))
  syncZoom := some (seen (kwOr kw cs!"sync_zoom" (.bool false)))

/-- **Specification**: a frame that can be written to a page -/
structure FrameOk (f : IFrame) : Prop where
  title : ¬ EndsScript f.title
  columns : ∀ c ∈ f.columns, ¬ EndsScript c
  index : ∀ x ∈ f.index, Readable x ∧ NoScriptEnd x
  values : ∀ r ∈ f.values, ∀ x ∈ r, Readable x ∧ NoScriptEnd x

/-- **Specification**: arguments that can be written to a page; they are keywords, so no two have the same name -/
structure KwOk (kw : Dict PyJson) : Prop where
  nodup : (kw.map Prod.fst).Nodup
  values : ∀ p ∈ kw, Readable p.2 ∧ NoScriptEnd p.2

/-- **Specification**: the text of a colour: printable, without quotes and backslashes -/
def PlainText (s : Str) : Prop := ∀ c ∈ s, 32 ≤ c.toNat ∧ c.toNat ≤ 126 ∧ c ≠ '"' ∧ c ≠ '\\'

/-- **Specification**: plots per line -/
def perLineAsked (kw : Dict PyJson) : Nat :=
  match kw.get cs!"per_line" with
  | some (.int p) => p.toNat
  | some _ => 0
  | none => 2

/-! ## Attributes -/

theorem iAttr_get {kw : Dict PyJson} (h : KwOk kw) (k : Str) (hk : k ≠ cs!"step_plot") : (iAttr kw).get k = (kw.get k).or (iDefaults.get k) := by
  have h1 := Dict.get_update_nodup iDefaults h.nodup k
  unfold iAttr
  simp only
  split
  · split
    · rw [Dict.get_set, if_neg (Ne.symm hk), h1]
    · exact h1
  · exact h1

theorem iAttr_step {kw : Dict PyJson} (h : KwOk kw) :
    (iAttr kw).get cs!"step_plot" = some (if stepsAsked kw then .bool true else kwOr kw cs!"step_plot" (.bool false)) := by
  have h1 := Dict.get_update_nodup iDefaults h.nodup cs!"step_plot"
  have h2 := Dict.get_update_nodup iDefaults h.nodup cs!"drawstyle"
  have e1 : iDefaults.get cs!"step_plot" = some (.bool false) := rfl
  have e2 : iDefaults.get cs!"drawstyle" = some .null := rfl
  have hb : ∀ b : PyJson, ((kw.get cs!"step_plot").or (some b)) = some (kwOr kw cs!"step_plot" b) := by
    intro b; unfold kwOr; cases kw.get cs!"step_plot" <;> rfl
  rw [e1, hb] at h1
  rw [e2] at h2
  have hs : ∀ s : Str, (s ≠ [] ∧ Py.startsWith s cs!"steps" = true) ↔ (s.take 5 == cs!"steps") = true := by
    intro s
    unfold Py.startsWith
    rw [List.isPrefixOf_iff_prefix, beq_iff_eq]
    constructor
    · rintro ⟨_, t, rfl⟩; rfl
    · intro e
      refine ⟨?_, ?_⟩
      · rintro rfl; cases e
      · rw [← e]; exact List.take_prefix _ _
  unfold iAttr stepsAsked
  simp only [h2]
  cases hd : kw.get cs!"drawstyle" with
  | none => simpa using h1
  | some v =>
    simp only [Option.some_or]
    cases v with
    | str s =>
      simp only
      by_cases hc : s ≠ [] ∧ Py.startsWith s cs!"steps" = true
      · rw [if_pos hc, Dict.get_set, if_pos rfl, if_pos ((hs s).1 hc)]
      · rw [if_neg hc, h1, if_neg (fun hh => hc ((hs s).2 hh))]
    | _ => simpa using h1

/-! ## Reading an object -/

theorem member_seen (l : List (Val × PyJson)) (k : Str) :
    jsMember (seen (.obj l)) k = (l.find? fun p => decide (p.1.text = k)).map fun p => seen p.2 := by
  rw [seen]
  unfold jsMember
  simp only
  induction l with
  | nil => rfl
  | cons p l ih =>
    obtain ⟨a, v⟩ := p
    rw [seenPairs, List.findSome?_cons, List.find?_cons]
    by_cases h : a.text = k
    · simp [h]
    · have : utf16 a.text ≠ utf16 k := fun e => h (utf16_inj e)
      simp only [if_neg this, h, decide_false]
      exact ih

theorem seenList_map (l : List PyJson) : seenList l = l.map seen := by
  induction l with
  | nil => rfl
  | cons x l ih => rw [seenList, ih]; rfl

theorem readableList_iff (l : List PyJson) : ReadableList l ↔ ∀ x ∈ l, Readable x := by
  induction l with
  | nil => simp [ReadableList]
  | cons x l ih => rw [ReadableList, ih]; simp

theorem noScriptEndList_iff (l : List PyJson) : NoScriptEndList l ↔ ∀ x ∈ l, NoScriptEnd x := by
  induction l with
  | nil => simp [NoScriptEndList]
  | cons x l ih => rw [NoScriptEndList, ih]; simp

theorem readablePairs_iff (l : List (Val × PyJson)) : ReadablePairs l ↔ ∀ x ∈ l, Readable x.2 := by
  induction l with
  | nil => simp [ReadablePairs]
  | cons x l ih => obtain ⟨a, b⟩ := x; rw [ReadablePairs, ih]; simp

theorem noScriptEndPairs_iff (l : List (Val × PyJson)) : NoScriptEndPairs l ↔ ∀ x ∈ l, ¬ EndsScript x.1.text ∧ NoScriptEnd x.2 := by
  induction l with
  | nil => simp [NoScriptEndPairs]
  | cons x l ih => obtain ⟨a, b⟩ := x; rw [NoScriptEndPairs, ih]; simp [and_assoc]

theorem endsScript_lt {s : Str} (h : '<' ∉ s) : ¬ EndsScript s := by
  rintro ⟨x, _, a, b, e⟩
  have : '<' ∈ s.map Char.toLower := by rw [← e]; simp
  obtain ⟨c, hc, e⟩ := List.mem_map.1 this
  exact h (toLower_lt e ▸ hc)

theorem zip_mem {α β γ : Type} (f : α → β → γ) : ∀ (a : List α) (b : List β) (x : γ), x ∈ a.zipWith f b → ∃ u ∈ a, ∃ v ∈ b, x = f u v
  | [], _, x, h => by simp at h
  | _ :: _, [], x, h => by simp at h
  | u :: a, v :: b, x, h => by
    rw [List.zipWith_cons_cons, List.mem_cons] at h
    rcases h with rfl | h
    · exact ⟨u, by simp, v, by simp, rfl⟩
    · obtain ⟨u', h1, v', h2, e⟩ := zip_mem f a b x h
      exact ⟨u', List.mem_cons_of_mem _ h1, v', List.mem_cons_of_mem _ h2, e⟩

theorem frameJson_ok {f : IFrame} (h : FrameOk f) : Readable (frameJson f) ∧ NoScriptEnd (frameJson f) := by
  unfold frameJson dfToDygraph
  simp only
  have hr : ∀ x ∈ f.index.zipWith (fun x vs => x :: vs) f.values, ∀ y ∈ x, Readable y ∧ NoScriptEnd y := by
    intro x hx y hy
    obtain ⟨u, hu, v, hv, rfl⟩ := zip_mem _ _ _ _ hx
    rcases List.mem_cons.1 hy with rfl | hy
    · exact h.index _ hu
    · exact h.values _ hv _ hy
  constructor
  · rw [Readable]
    refine ⟨by simp [Val.text], by simp [Val.text], (readablePairs_iff _).2 ?_⟩
    intro x hx
    rcases List.mem_cons.1 hx with rfl | hx
    · rw [Readable, readableList_iff]
      intro y hy
      obtain ⟨r, hr', rfl⟩ := List.mem_map.1 hy
      rw [Readable, readableList_iff]
      exact fun z hz => (hr r hr' z hz).1
    · rcases List.mem_cons.1 hx with rfl | hx
      · rw [Readable, readableList_iff]
        intro y hy
        obtain ⟨r, _, rfl⟩ := List.mem_map.1 hy
        rw [Readable]; trivial
      · simp at hx
  · rw [NoScriptEnd]
    refine (noScriptEndPairs_iff _).2 ?_
    intro x hx
    rcases List.mem_cons.1 hx with rfl | hx
    · refine ⟨endsScript_lt (by simp [Val.text]), ?_⟩
      rw [NoScriptEnd, noScriptEndList_iff]
      intro y hy
      obtain ⟨r, hr', rfl⟩ := List.mem_map.1 hy
      rw [NoScriptEnd, noScriptEndList_iff]
      exact fun z hz => (hr r hr' z hz).2
    · rcases List.mem_cons.1 hx with rfl | hx
      · refine ⟨endsScript_lt (by simp [Val.text]), ?_⟩
        rw [NoScriptEnd, noScriptEndList_iff]
        intro y hy
        obtain ⟨r, hr', rfl⟩ := List.mem_map.1 hy
        rw [NoScriptEnd]
        rcases List.mem_cons.1 hr' with rfl | hr'
        · exact endsScript_lt (by decide)
        · exact h.columns r hr'
      · simp at hx

theorem kwOr_ok {kw : Dict PyJson} (h : KwOk kw) (k : Str) {d : PyJson} (hd : Readable d ∧ NoScriptEnd d) : Readable (kwOr kw k d) ∧ NoScriptEnd (kwOr kw k d) := by
  unfold kwOr
  cases hg : kw.get k with
  | none => exact hd
  | some v => exact h.values _ (Dict.get_mem hg)

/-- the attributes of the page -/
def pageAttr (kw : Dict PyJson) (perLine : Nat) : Dict PyJson := ((iAttr kw).set cs!"per_line" (.int perLine)).set cs!"height" (.int 400)

/-- what `fig_params` is, written by the arguments -/
def wantedParams (kw : Dict PyJson) (perLine : Nat) (hash fig : Str) (f : IFrame) : List (Val × PyJson) :=
  [(.str cs!"data", frameJson f), (.str cs!"name", .str fig), (.str cs!"rangesel", .bool false), (.str cs!"logscale", .bool false), (.str cs!"title", .str f.title),
    (.str cs!"step_plot", if stepsAsked kw then .bool true else kwOr kw cs!"step_plot" (.bool false))] ++
  (match kw.get cs!"fill_alpha" with
    | some alpha => [(.str cs!"fill_graph", .bool true), (.str cs!"fill_alpha", alpha)]
    | none => [(.str cs!"fill_graph", kwOr kw cs!"fill" (.bool false))]) ++
  [(.str cs!"per_line", .int perLine), (.str cs!"height", .int 400), (.str cs!"drawPoints", .bool (pointsAsked kw)),
    (.str cs!"strokeWidth", .float (if pointsAsked kw then cs!"0.0" else cs!"1.0")), (.str cs!"pointSize", kwOr kw cs!"point_size" (.int 2)),
    (.str cs!"syncGroup", kwOr kw cs!"group" (.str hash)),
    (.str cs!"syncZoom", kwOr kw cs!"sync_zoom" (.bool false))] ++
  (match kw.get cs!"ylim" with | some y => [(.str cs!"valueRange", y)] | none => []) ++
  (match kw.get cs!"xlim" with | some x => [(.str cs!"dateWindow", x)] | none => [])

theorem pageAttr_get {kw : Dict PyJson} (h : KwOk kw) (p : Nat) (k : Str) (h1 : k ≠ cs!"step_plot") (h2 : k ≠ cs!"per_line") (h3 : k ≠ cs!"height") :
    (pageAttr kw p).get k = (kw.get k).or (iDefaults.get k) := by
  unfold pageAttr
  rw [Dict.get_set, if_neg (Ne.symm h3), Dict.get_set, if_neg (Ne.symm h2), iAttr_get h k h1]

theorem or_kwOr (kw : Dict PyJson) (k : Str) (d : PyJson) : (kw.get k).or (some d) = some (kwOr kw k d) := by
  unfold kwOr; cases kw.get k <;> rfl

theorem figParams_eq {kw : Dict PyJson} (h : KwOk kw) (p : Nat) (hash fig : Str) (f : IFrame) :
    figParams (pageAttr kw p) hash fig f = some (.obj (wantedParams kw p hash fig f)) := by
  have g1 : (pageAttr kw p).get cs!"step_plot" = some (if stepsAsked kw then .bool true else kwOr kw cs!"step_plot" (.bool false)) := by
    unfold pageAttr
    rw [Dict.get_set, if_neg (by decide), Dict.get_set, if_neg (by decide), iAttr_step h]
  have g2 : (pageAttr kw p).get cs!"fill" = some (kwOr kw cs!"fill" (.bool false)) := by
    rw [pageAttr_get h p _ (by decide) (by decide) (by decide), ← or_kwOr]; rfl
  have g3 : (pageAttr kw p).get cs!"per_line" = some (.int p) := by
    unfold pageAttr
    rw [Dict.get_set, if_neg (by decide), Dict.get_set, if_pos rfl]
  have g4 : (pageAttr kw p).get cs!"height" = some (.int 400) := by
    unfold pageAttr
    rw [Dict.get_set, if_pos rfl]
  have g5 : (pageAttr kw p).get cs!"scatter" = some (kwOr kw cs!"scatter" (.bool false)) := by
    rw [pageAttr_get h p _ (by decide) (by decide) (by decide), ← or_kwOr]; rfl
  have g6 : (pageAttr kw p).get cs!"point_size" = some (kwOr kw cs!"point_size" (.int 2)) := by
    rw [pageAttr_get h p _ (by decide) (by decide) (by decide), ← or_kwOr]; rfl
  have gn : ∀ k, iDefaults.get k = none → k ≠ cs!"step_plot" → k ≠ cs!"per_line" → k ≠ cs!"height" → (pageAttr kw p).get k = kw.get k := by
    intro k hk h1 h2 h3
    rw [pageAttr_get h p _ h1 h2 h3, hk, Option.or_none]
  unfold figParams wantedParams
  rw [g1, g2, g3, g4, g5, g6]
  simp only [gn cs!"fill_alpha" rfl (by decide) (by decide) (by decide), gn cs!"group" rfl (by decide) (by decide) (by decide),
    gn cs!"sync_zoom" rfl (by decide) (by decide) (by decide), gn cs!"ylim" rfl (by decide) (by decide) (by decide), gn cs!"xlim" rfl (by decide) (by decide) (by decide)]
  rw [pointsAsked_eq]
  rfl

theorem wantedParams_ok {kw : Dict PyJson} (h : KwOk kw) (p : Nat) {hash fig : Str} {f : IFrame} (hf : FrameOk f) (hh : ¬ EndsScript hash) (hg : '<' ∉ fig) :
    Readable (.obj (wantedParams kw p hash fig f)) ∧ NoScriptEnd (.obj (wantedParams kw p hash fig f)) := by
  obtain ⟨f1, f2⟩ := frameJson_ok hf
  have hb : ∀ b : Bool, Readable (.bool b) ∧ NoScriptEnd (.bool b) := fun b => ⟨by rw [Readable]; trivial, by rw [NoScriptEnd]; trivial⟩
  have hi : ∀ b : Int, Readable (.int b) ∧ NoScriptEnd (.int b) := fun b => ⟨by rw [Readable]; trivial, by rw [NoScriptEnd]; trivial⟩
  have hs : ∀ s : Str, ¬ EndsScript s → Readable (.str s) ∧ NoScriptEnd (.str s) := fun s h => ⟨by rw [Readable]; trivial, by rw [NoScriptEnd]; exact h⟩
  have hall : ∀ x ∈ wantedParams kw p hash fig f, '<' ∉ x.1.text ∧ Readable x.2 ∧ NoScriptEnd x.2 := by
    unfold wantedParams
    intro x hx
    simp only [List.mem_append] at hx
    rcases hx with (((hx | hx) | hx) | hx) | hx
    · simp only [List.mem_cons, List.not_mem_nil, or_false] at hx
      rcases hx with rfl | rfl | rfl | rfl | rfl | rfl
      · exact ⟨by simp [Val.text], f1, f2⟩
      · exact ⟨by simp [Val.text], hs _ (endsScript_lt hg)⟩
      · exact ⟨by simp [Val.text], hb _⟩
      · exact ⟨by simp [Val.text], hb _⟩
      · exact ⟨by simp [Val.text], hs _ hf.title⟩
      · refine ⟨by simp [Val.text], ?_⟩
        simp only
        split
        · exact hb _
        · exact kwOr_ok h _ (hb _)
    · cases ha : kw.get cs!"fill_alpha" with
      | some a =>
        rw [ha] at hx
        simp only [List.mem_cons, List.not_mem_nil, or_false] at hx
        rcases hx with rfl | rfl
        · exact ⟨by simp [Val.text], hb _⟩
        · exact ⟨by simp [Val.text], h.values _ (Dict.get_mem ha)⟩
      | none =>
        rw [ha] at hx
        simp only [List.mem_cons, List.not_mem_nil, or_false] at hx
        subst hx
        exact ⟨by simp [Val.text], kwOr_ok h _ (hb _)⟩
    · simp only [List.mem_cons, List.not_mem_nil, or_false] at hx
      rcases hx with rfl | rfl | rfl | rfl | rfl | rfl | rfl
      · exact ⟨by simp [Val.text], hi _⟩
      · exact ⟨by simp [Val.text], hi _⟩
      · exact ⟨by simp [Val.text], hb _⟩
      · refine ⟨by simp [Val.text], ?_, by rw [NoScriptEnd]; trivial⟩
        rw [Readable]
        split
        · exact ⟨by decide, by decide, by decide, by decide, by decide⟩
        · exact ⟨by decide, by decide, by decide, by decide, by decide⟩
      · exact ⟨by simp [Val.text], kwOr_ok h _ (hi _)⟩
      · exact ⟨by simp [Val.text], kwOr_ok h _ (hs _ hh)⟩
      · exact ⟨by simp [Val.text], kwOr_ok h _ (hb _)⟩
    · cases ha : kw.get cs!"ylim" with
      | some a =>
        rw [ha] at hx
        simp only [List.mem_cons, List.not_mem_nil, or_false] at hx
        subst hx
        exact ⟨by simp [Val.text], h.values _ (Dict.get_mem ha)⟩
      | none => rw [ha] at hx; simp at hx
    · cases ha : kw.get cs!"xlim" with
      | some a =>
        rw [ha] at hx
        simp only [List.mem_cons, List.not_mem_nil, or_false] at hx
        subst hx
        exact ⟨by simp [Val.text], h.values _ (Dict.get_mem ha)⟩
      | none => rw [ha] at hx; simp at hx
  constructor
  · rw [Readable]
    refine ⟨?_, ?_, (readablePairs_iff _).2 fun x hx => (hall x hx).2.1⟩
    · unfold wantedParams
      cases kw.get cs!"fill_alpha" <;> cases kw.get cs!"ylim" <;> cases kw.get cs!"xlim" <;>
        (simp only [List.cons_append, List.nil_append, List.map_cons, List.map_nil, Val.text]; decide)
    · unfold wantedParams
      cases kw.get cs!"fill_alpha" <;> cases kw.get cs!"ylim" <;> cases kw.get cs!"xlim" <;>
        (simp only [List.cons_append, List.nil_append, List.map_cons, List.map_nil, Val.text]; decide)
  · rw [NoScriptEnd, noScriptEndPairs_iff]
    exact fun x hx => ⟨endsScript_lt (hall x hx).1, (hall x hx).2.2⟩

theorem find_div {fig : Str} {divs : List Str} (h : fig ∈ divs) : (divs.find? fun d => decide (utf16 d = utf16 fig)) = some fig := by
  induction divs with
  | nil => simp at h
  | cons d divs ih =>
    rw [List.find?_cons]
    by_cases e : d = fig
    · subst e; simp
    · have : utf16 d ≠ utf16 fig := fun h => e (utf16_inj h)
      simp only [this, decide_false]
      rcases List.mem_cons.1 h with h | h
      · exact absurd h.symm e
      · exact ih h

theorem createGraph_eq (kw : Dict PyJson) (p : Nat) (hash fig : Str) (f : IFrame) (cols : List Str) {divs : List Str} (hd : fig ∈ divs) :
    createGraph divs (seen (.obj (wantedParams kw p hash fig f))) (if cols = [] then none else some (.arr (cols.map fun c => .str (utf16 c)))) =
      some (wantedGraph hash kw p cols fig f) := by
  have hm := member_seen (wantedParams kw p hash fig f)
  have m1 : jsMember (seen (.obj (wantedParams kw p hash fig f))) cs!"name" = some (.str (utf16 fig)) := by rw [hm]; rfl
  have m2 : jsMember (seen (.obj (wantedParams kw p hash fig f))) cs!"data" = some (seen (frameJson f)) := by rw [hm]; rfl
  have hf := member_seen [(.str cs!"data", .arr ((f.index.zipWith (fun x vs => x :: vs) f.values).map PyJson.arr)), (.str cs!"labels", .arr ((cs!"index" :: f.columns).map PyJson.str))]
  have f1 : jsMember (seen (frameJson f)) cs!"data" = some (.arr (f.index.zipWith (fun x vs => .arr (seen x :: vs.map seen)) f.values)) := by
    have e := hf cs!"data"
    have : jsMember (seen (frameJson f)) cs!"data" = some (seen (.arr ((f.index.zipWith (fun x vs => x :: vs) f.values).map PyJson.arr))) := e.trans rfl
    rw [this, seen, seenList_map, List.map_map, List.map_zipWith]
    congr 3
    funext x vs
    simp only [Function.comp, seen, seenList_map, List.map_cons]
  have f2 : jsMember (seen (frameJson f)) cs!"labels" = some (.arr ((cs!"index" :: f.columns).map fun c => .str (utf16 c))) := by
    have e := hf cs!"labels"
    have : jsMember (seen (frameJson f)) cs!"labels" = some (seen (.arr ((cs!"index" :: f.columns).map PyJson.str))) := e.trans rfl
    rw [this, seen, seenList_map, List.map_map]
    congr 3
  unfold createGraph
  rw [m1, m2]
  simp only [find_div hd, f1, f2, hm]
  unfold wantedGraph
  have h400 : Py.intStr 400 = cs!"400" := by decide
  have hif : ∀ (b : Bool) (x y : PyJson), seen (if b then x else y) = if b then seen x else seen y := by intro b x y; cases b <;> rfl
  unfold wantedParams
  cases ha : kw.get cs!"fill_alpha" <;> cases hy : kw.get cs!"ylim" <;> cases hx : kw.get cs!"xlim" <;>
    simp [List.find?_cons, Val.text, hif, seen, h400]

/-! ## Colours -/

theorem jsonStr_plain {s : Str} (h : PlainText s) : jsonStr s = '"' :: (s ++ ['"']) := by
  unfold jsonStr
  congr 2
  induction s with
  | nil => rfl
  | cons c s ih =>
    obtain ⟨h1, h2, h3, h4⟩ := h c List.mem_cons_self
    have hc : jsonChar c = [c] := by
      unfold jsonChar
      rw [if_neg h3, if_neg h4, if_neg (by rintro rfl; revert h1; decide), if_neg (by rintro rfl; revert h1; decide), if_neg (by rintro rfl; revert h1; decide),
        if_neg (by omega), if_neg (by omega), if_pos ⟨h1, h2⟩]
    rw [List.flatMap_cons, hc, ih fun x hx => h x (List.mem_cons_of_mem _ hx)]
    rfl

theorem coloursText_dumps {l : List Str} (hne : l ≠ []) (h : ∀ c ∈ l, PlainText c) : coloursText l = dumps (.arr (l.map PyJson.str)) := by
  have key : ∀ l : List Str, l ≠ [] → (∀ c ∈ l, PlainText c) → '"' :: (joinWith cs!"\", \"" l ++ ['"']) = dumpsList (l.map PyJson.str) := by
    intro l
    induction l with
    | nil => intro h; exact absurd rfl h
    | cons c l ih =>
      intro _ h
      rw [List.map_cons, dumpsList, dumps, jsonStr_plain (h c List.mem_cons_self)]
      cases l with
      | nil => simp [joinWith]
      | cons d l =>
        have := ih (by simp) fun x hx => h x (List.mem_cons_of_mem _ hx)
        rw [← this, joinWith]
        · simp
        · simp
  unfold coloursText
  rw [dumps, ← key l hne h]
  simp

theorem colours_read {l : List Str} (hne : l ≠ []) (h : ∀ c ∈ l, PlainText c) :
    (jsValue ((coloursText l).length + 1) (coloursText l)).map Prod.fst = some (.arr (l.map fun c => .str (utf16 c))) := by
  have hr : Readable (.arr (l.map PyJson.str)) := by
    rw [Readable, readableList_iff]
    intro x hx
    obtain ⟨c, _, rfl⟩ := List.mem_map.1 hx
    rw [Readable]; trivial
  have := jsValue_dumps (.arr (l.map PyJson.str)) hr (n := (coloursText l).length + 1) (r := []) (by rw [coloursText_dumps hne h]; omega) (by intro c s e; cases e)
  rw [List.append_nil, ← coloursText_dumps hne h] at this
  rw [this, Option.map_some, seen, seenList_map, List.map_map]
  congr 3

/-! ## The page -/

/-- the elements of the table -/
def divId : HElem → Option Str
  | .graph fig => some fig
  | .legend fig => some (fig ++ cs!"_legend")
  | _ => none

theorem show_cells (html : List HElem) (b : Browser) : (html.map cellElem).foldl pageStep b = { b with divs := b.divs ++ html.filterMap divId } := by
  induction html generalizing b with
  | nil => simp
  | cons h html ih =>
    rw [List.map_cons, List.foldl_cons, ih]
    cases h <;> simp [cellElem, pageStep, divId, List.filterMap_cons]

/-- the scripts with data -/
def dataElems (kw : Dict PyJson) (p : Nat) (hash : Str) (uuid : Nat → Str) : Nat → List IFrame → List PageElem
  | _, [] => []
  | i, f :: fs => .data (figName uuid i) (jsonPage (plotPre (figName uuid i)) (.obj (wantedParams kw p hash (figName uuid i) f)) plotPost []) :: dataElems kw p hash uuid (i + 1) fs

theorem addPlots_ok {kw : Dict PyJson} (h : KwOk kw) (p : Nat) (hash : Str) (uuid : Nat → Str) (maxPoints : Nat) (figMap : List (Nat × Str)) (i : Nat) (fs : List IFrame)
    (hm : ∀ j < fs.length, figMap.lookup (i + j) = some (figName uuid (i + j))) (hs : ∀ f ∈ fs, (f.values.map List.length).sum ≤ maxPoints) :
    addPlots (pageAttr kw p) hash maxPoints figMap i fs = .ok (dataElems kw p hash uuid i fs) := by
  induction fs generalizing i with
  | nil => rfl
  | cons f fs ih =>
    have h0 := hm 0 (by simp)
    rw [Nat.add_zero] at h0
    rw [addPlots]
    rw [if_neg (by have := hs f List.mem_cons_self; omega), h0]
    simp only [figParams_eq h]
    rw [ih (i + 1) (fun j hj => by have := hm (j + 1) (by simpa using hj); rwa [show i + (j + 1) = i + 1 + j by omega] at this) fun x hx => hs x (List.mem_cons_of_mem _ hx)]
    rfl

/-- the variable of a figure -/
def figVar (uuid : Nat → Str) (j : Nat) : Str := figName uuid j ++ cs!"_data"

theorem figName_inj {uuid : Nat → Str} (hu : ∀ a b, uuid a = uuid b → a = b) {i j : Nat} (e : figName uuid i = figName uuid j) : i = j := by
  unfold figName at e
  exact hu _ _ (List.append_cancel_left e)

theorem figVar_inj {uuid : Nat → Str} (hu : ∀ a b, uuid a = uuid b → a = b) {i j : Nat} (e : figVar uuid i = figVar uuid j) : i = j := by
  unfold figVar at e
  exact figName_inj hu (List.append_cancel_right e)

theorem show_data {kw : Dict PyJson} (h : KwOk kw) (p : Nat) {hash : Str} {uuid : Nat → Str} (hh : ¬ EndsScript hash) (hu : ∀ a b, uuid a = uuid b → a = b) (hlt : ∀ i, '<' ∉ uuid i)
    (i : Nat) (fs : List IFrame) (hf : ∀ f ∈ fs, FrameOk f) (b : Browser) :
    ∃ vars, (dataElems kw p hash uuid i fs).foldl pageStep b = { b with vars := vars } ∧
      ∀ j, vars.get (figVar uuid j) = if i ≤ j ∧ j < i + fs.length then (fs[j - i]?).map fun f => seen (.obj (wantedParams kw p hash (figName uuid j) f)) else b.vars.get (figVar uuid j) := by
  induction fs generalizing i b with
  | nil =>
    refine ⟨b.vars, rfl, fun j => ?_⟩
    rw [if_neg (by simp)]
  | cons f fs ih =>
    have hfig : ∀ i, '<' ∉ figName uuid i := by
      intro i; unfold figName
      simp [hlt i]
    obtain ⟨r1, r2⟩ := wantedParams_ok h p (hf f List.mem_cons_self) hh (hfig i)
    have hp := C146_seen_partial (plotPre (figName uuid i)) plotPost [] _ (by unfold plotPre; simp [hfig i]) (by decide) (by intro c s e; cases e; decide) r1 r2
    rw [dataElems, List.foldl_cons]
    have hstep : pageStep b (.data (figName uuid i) (jsonPage (plotPre (figName uuid i)) (.obj (wantedParams kw p hash (figName uuid i) f)) plotPost [])) =
        { b with vars := b.vars.set (figVar uuid i) (seen (.obj (wantedParams kw p hash (figName uuid i) f))) } := by
      unfold pageStep
      simp only [hp]
      rfl
    rw [hstep]
    obtain ⟨vars, e, hv⟩ := ih (i + 1) (fun x hx => hf x (List.mem_cons_of_mem _ hx)) { b with vars := b.vars.set (figVar uuid i) (seen (.obj (wantedParams kw p hash (figName uuid i) f))) }
    refine ⟨vars, by rw [e], fun j => ?_⟩
    rw [hv j]
    simp only [List.length_cons]
    by_cases hj : j = i
    · subst hj
      rw [if_neg (by omega), Dict.get_set, if_pos rfl, if_pos (by omega), Nat.sub_self]
      rfl
    · by_cases h1 : i + 1 ≤ j ∧ j < i + 1 + fs.length
      · rw [if_pos h1, if_pos (by omega), show j - i = (j - (i + 1)) + 1 by omega, List.getElem?_cons_succ]
      · rw [if_neg h1, if_neg (by omega), Dict.get_set, if_neg (fun e => hj (figVar_inj hu e).symm)]

theorem show_scripts (kw : Dict PyJson) (p : Nat) (hash : Str) (uuid : Nat → Str) (frames : List IFrame) (cols : List Str) (hc : ∀ c ∈ cols, PlainText c) (s n : Nat) (b : Browser)
    (hv : ∀ j, b.vars.get (figVar uuid j) = (frames[j]?).map fun f => seen (.obj (wantedParams kw p hash (figName uuid j) f)))
    (hd : ∀ j, j < s + n → figName uuid j ∈ b.divs) :
    ((List.range' s n).map fun j => PageElem.generate (figName uuid j) (if cols = [] then none else some (coloursText cols))).foldl pageStep b =
      { b with graphs := b.graphs ++ (List.range' s n).filterMap fun j => (frames[j]?).map fun f => wantedGraph hash kw p cols (figName uuid j) f,
               failed := b.failed ++ ((List.range' s n).filter fun j => decide (frames.length ≤ j)).map (figName uuid) } := by
  induction n generalizing s b with
  | zero => simp
  | succ n ih =>
    rw [List.range'_succ, List.map_cons, List.foldl_cons]
    have hvs := hv s
    unfold figVar at hvs
    by_cases hs : s < frames.length
    · rw [List.getElem?_eq_getElem hs, Option.map_some] at hvs
      have hstep : pageStep b (.generate (figName uuid s) (if cols = [] then none else some (coloursText cols))) =
          { b with graphs := b.graphs ++ [wantedGraph hash kw p cols (figName uuid s) frames[s]] } := by
        unfold pageStep
        simp only [hvs]
        have hcols : coloursArg (if cols = [] then none else some (coloursText cols)) = (if cols = [] then none else some (.arr (cols.map fun c => .str (utf16 c)))) := by
          by_cases hne : cols = []
          · simp [hne, coloursArg]
          · simp only [if_neg hne]
            exact colours_read hne hc
        rw [hcols, createGraph_eq kw p hash (figName uuid s) frames[s] cols (hd s (by omega))]
      rw [hstep, ih (s + 1) { b with graphs := b.graphs ++ [wantedGraph hash kw p cols (figName uuid s) frames[s]] } hv (fun j hj => hd j (by omega))]
      simp [List.getElem?_eq_getElem hs, Nat.not_le.2 hs]
    · rw [List.getElem?_eq_none (by omega), Option.map_none] at hvs
      have hstep : pageStep b (.generate (figName uuid s) (if cols = [] then none else some (coloursText cols))) = { b with failed := b.failed ++ [figName uuid s] } := by
        unfold pageStep
        simp only [hvs]
      rw [hstep, ih (s + 1) { b with failed := b.failed ++ [figName uuid s] } hv (fun j hj => hd j (by omega))]
      simp [List.getElem?_eq_none (show frames.length ≤ s by omega), Nat.not_lt.1 hs]

theorem rows_range {α : Type} (g : Nat → α) (p rows : Nat) : (List.range rows).flatMap (fun r => (List.range' (r * p) p).map g) = (List.range (rows * p)).map g := by
  induction rows with
  | zero => simp
  | succ n ih =>
    rw [List.range_succ, List.flatMap_append, ih, List.flatMap_singleton, ← List.map_append, Nat.succ_mul, List.range_eq_range', List.range_eq_range']
    have := List.range'_append_1 (s := 0) (m := n * p) (n := p)
    rw [Nat.zero_add] at this
    rw [this]

theorem filterMap_flatMap' {α β γ : Type} (l : List α) (f : α → List β) (g : β → Option γ) : (l.flatMap f).filterMap g = l.flatMap fun x => (f x).filterMap g := by
  induction l with
  | nil => rfl
  | cons x l ih => rw [List.flatMap_cons, List.filterMap_append, ih, List.flatMap_cons]

theorem perLine_eq {kw : Dict PyJson} (h : KwOk kw) : perLineOf (iAttr kw) = perLineAsked kw := by
  unfold perLineOf perLineAsked
  rw [iAttr_get h _ (by decide)]
  cases kw.get cs!"per_line" with
  | none => rfl
  | some v => cases v <;> rfl

theorem getElem_filterMap {α β : Type} (l : List α) (g : Nat → α → β) (m : Nat) (h : l.length ≤ m) :
    (List.range' 0 m).filterMap (fun j => (l[j]?).map (g j)) = l.mapIdx g := by
  have key : ∀ (l : List α) (i : Nat) (g : Nat → α → β) (m : Nat), l.length ≤ m → (List.range' i m).filterMap (fun j => (l[j - i]?).map (g (j - i))) = l.mapIdx g := by
    intro l
    induction l with
    | nil => intro i g m _; simp
    | cons x l ih =>
      intro i g m hm
      cases m with
      | zero => simp at hm
      | succ m =>
        rw [List.range'_succ, List.filterMap_cons]
        simp only [Nat.sub_self, List.getElem?_cons_zero, Option.map_some, List.mapIdx_cons]
        congr 1
        rw [← ih (i + 1) (fun j => g (j + 1)) m (by simpa using hm)]
        apply List.filterMap_congr
        intro j hj
        have := (List.mem_range'_1.1 hj).1
        rw [show j - i = (j - (i + 1)) + 1 by omega, List.getElem?_cons_succ]
  exact key l 0 g m h

/-- **C147 (figures).** Whatever the arguments and the frames, every figure is drawn once, in its own cell, with its own rows, labels and title, under the options that were asked
for. The scripts of the cells after the last figure fail. -/
theorem C147_figures {uuid : Nat → Str} {hash : Str} {kw : Dict PyJson} {maxPoints : Nat} {colours : List Str} {frames : List IFrame} (hk : KwOk kw) (hp : 0 < perLineAsked kw)
    (hne : frames ≠ []) (hf : ∀ f ∈ frames, FrameOk f) (hs : ∀ f ∈ frames, (f.values.map List.length).sum ≤ maxPoints) (hh : ¬ EndsScript hash)
    (hu : ∀ a b, uuid a = uuid b → a = b) (hlt : ∀ i, '<' ∉ uuid i) (hc : ∀ c ∈ colours, PlainText c) :
    ∃ page rows, iPage uuid hash kw maxPoints colours frames = .ok page ∧
      frames.length ≤ rows * min (perLineAsked kw) frames.length ∧ rows * min (perLineAsked kw) frames.length < frames.length + min (perLineAsked kw) frames.length ∧
      (showPage page).graphs = frames.mapIdx (fun i f => wantedGraph hash kw (min (perLineAsked kw) frames.length) colours (figName uuid i) f) ∧
      (∀ g ∈ (showPage page).graphs, g.legendDiv ∈ (showPage page).divs) ∧
      (showPage page).failed = (List.range' frames.length (rows * min (perLineAsked kw) frames.length - frames.length)).map (figName uuid) := by
  have hnum : 0 < frames.length := List.length_pos_of_ne_nil hne
  obtain ⟨st, rows, h1, h2, h3, h4, h5⟩ := C71_table uuid (perLineAsked kw) frames.length hp hnum
  have hpl : linePlots (perLineAsked kw) frames.length = min (perLineAsked kw) frames.length := by unfold linePlots; split <;> omega
  generalize hP : min (perLineAsked kw) frames.length = P at *
  have hadd := addPlots_ok hk P hash uuid maxPoints st.figMap 0 frames
    (fun j hj => by rw [Nat.zero_add]; exact (C71_figures h1).1 j hj) hs
  have hscripts : st.html.filterMap (scriptElem (if colours = [] then none else some (coloursText colours))) =
      (List.range' 0 (rows * P)).map fun j => PageElem.generate (figName uuid j) (if colours = [] then none else some (coloursText colours)) := by
    rw [h4, List.filterMap_append, List.filterMap_append, filterMap_flatMap', ← List.range_eq_range', ← rows_range]
    have hrow : ∀ r : Nat, (rowHtml uuid P (r * P)).filterMap (scriptElem (if colours = [] then none else some (coloursText colours))) =
        (List.range' (r * P) P).map fun j => PageElem.generate (figName uuid j) (if colours = [] then none else some (coloursText colours)) := by
      intro r
      unfold rowHtml
      simp only [List.filterMap_append, List.filterMap_map]
      have e1 : ∀ l : List Nat, l.filterMap (scriptElem (if colours = [] then none else some (coloursText colours)) ∘ fun i => HElem.graph (figName uuid i)) =
          l.map fun j => PageElem.generate (figName uuid j) (if colours = [] then none else some (coloursText colours)) := by
        intro l; rw [← List.filterMap_eq_map]; rfl
      have e2 : ∀ l : List Nat, l.filterMap (scriptElem (if colours = [] then none else some (coloursText colours)) ∘ fun i => HElem.legend (figName uuid i)) = [] := by
        intro l; rw [List.filterMap_eq_nil_iff]; intro a _; rfl
      rw [e1, e2]
      simp [scriptElem, List.filterMap_cons]
    simp only [hrow]
    simp [scriptElem, List.filterMap_cons]
  have hdivs : ∀ j, j < 0 + rows * P → figName uuid j ∈ ([] : List Str) ++ st.html.filterMap divId ∧ figName uuid j ++ cs!"_legend" ∈ ([] : List Str) ++ st.html.filterMap divId := by
    intro j hj
    rw [Nat.zero_add] at hj
    have hP0 : 0 < P := by omega
    have hm : ∀ x, x ∈ rowHtml uuid P (j / P * P) → x ∈ st.html := by
      intro x hx
      rw [h4]
      simp only [List.mem_append, List.mem_flatMap, List.mem_range]
      exact .inl (.inr ⟨j / P, (Nat.div_lt_iff_lt_mul hP0).2 hj, hx⟩)
    have hj' : j ∈ List.range' (j / P * P) P := by
      rw [List.mem_range'_1]
      have h1 := Nat.div_add_mod j P
      have h2 := Nat.mod_lt j hP0
      rw [Nat.mul_comm] at h1
      omega
    rw [List.nil_append]
    constructor
    · refine List.mem_filterMap.2 ⟨.graph (figName uuid j), hm _ ?_, rfl⟩
      unfold rowHtml
      simp only [List.mem_append, List.mem_map]
      exact .inl (.inl (.inl (.inl (.inr ⟨j, hj', rfl⟩))))
    · refine List.mem_filterMap.2 ⟨.legend (figName uuid j), hm _ ?_, rfl⟩
      unfold rowHtml
      simp only [List.mem_append, List.mem_map]
      exact .inl (.inr ⟨j, hj', rfl⟩)
  have hpage : iPage uuid hash kw maxPoints colours frames = .ok (st.html.map cellElem ++ dataElems kw P hash uuid 0 frames ++
      (List.range' 0 (rows * P)).map fun j => PageElem.generate (figName uuid j) (if colours = [] then none else some (coloursText colours))) := by
    unfold iPage
    simp only [perLine_eq hk, h1, hpl]
    have : addPlots (((iAttr kw).set cs!"per_line" (.int P)).set cs!"height" (.int 400)) hash maxPoints st.figMap 0 frames = .ok (dataElems kw P hash uuid 0 frames) := hadd
    rw [this]
    simp only [hscripts]
  obtain ⟨vars, e1, e2⟩ := show_data hk P hh hu hlt 0 frames hf ⟨[] ++ st.html.filterMap divId, [], [], []⟩
  have hshow : showPage (st.html.map cellElem ++ dataElems kw P hash uuid 0 frames ++
      (List.range' 0 (rows * P)).map fun j => PageElem.generate (figName uuid j) (if colours = [] then none else some (coloursText colours))) =
      ⟨[] ++ st.html.filterMap divId, vars, (List.range' 0 (rows * P)).filterMap fun j => (frames[j]?).map fun f => wantedGraph hash kw P colours (figName uuid j) f,
        ((List.range' 0 (rows * P)).filter fun j => decide (frames.length ≤ j)).map (figName uuid)⟩ := by
    unfold showPage
    rw [List.foldl_append, List.foldl_append, show_cells]
    simp only
    rw [e1]
    simp only
    rw [show_scripts kw P hash uuid frames colours hc 0 (rows * P)]
    · simp
    · intro j
      rw [e2 j]
      by_cases hj : j < frames.length
      · rw [if_pos (by omega), Nat.sub_zero]
      · rw [if_neg (by omega), List.getElem?_eq_none (by omega)]
        rfl
    · exact fun j hj => (hdivs j hj).1
  refine ⟨_, rows, hpage, h2, h3, ?_, ?_, ?_⟩
  · rw [hshow]
    exact getElem_filterMap frames (fun j f => wantedGraph hash kw P colours (figName uuid j) f) (rows * P) h2
  · rw [hshow]
    intro g hg
    simp only at hg ⊢
    obtain ⟨j, hj, e⟩ := List.mem_filterMap.1 hg
    have hj' := (List.mem_range'_1.1 hj).2
    cases hfj : frames[j]? with
    | none => rw [hfj] at e; cases e
    | some f =>
      rw [hfj] at e
      cases e
      exact (hdivs j hj').2
  · rw [hshow]
    simp only
    congr 1
    have e : List.range' 0 (rows * P) = List.range' 0 frames.length ++ List.range' frames.length (rows * P - frames.length) := by
      have := List.range'_append_1 (s := 0) (m := frames.length) (n := rows * P - frames.length)
      rw [Nat.zero_add] at this
      rw [this]
      congr 1
      omega
    rw [e, List.filter_append, List.filter_eq_nil_iff.2, List.filter_eq_self.2]
    · rfl
    · intro a ha
      simpa using (List.mem_range'_1.1 ha).1
    · intro a ha
      have := (List.mem_range'_1.1 ha).2
      simp; omega

/-- **C147 (scripts, refuted in general).** No script of the page fails exactly if the figures fit in one line or fill all lines. Otherwise the scripts of the cells left over
refer to variables that do not exist. -/
theorem C147_failing_refuted {uuid : Nat → Str} {hash : Str} {kw : Dict PyJson} {maxPoints : Nat} {colours : List Str} {frames : List IFrame} (hk : KwOk kw)
    (hp : 0 < perLineAsked kw) (hne : frames ≠ []) (hf : ∀ f ∈ frames, FrameOk f) (hs : ∀ f ∈ frames, (f.values.map List.length).sum ≤ maxPoints) (hh : ¬ EndsScript hash)
    (hu : ∀ a b, uuid a = uuid b → a = b) (hlt : ∀ i, '<' ∉ uuid i) (hc : ∀ c ∈ colours, PlainText c) :
    ∃ page, iPage uuid hash kw maxPoints colours frames = .ok page ∧
      ((showPage page).failed = [] ↔ frames.length ≤ perLineAsked kw ∨ perLineAsked kw ∣ frames.length) := by
  obtain ⟨page, rows, h1, h2, h3, _, _, h6⟩ := C147_figures hk hp hne hf hs hh hu hlt hc
  refine ⟨page, h1, ?_⟩
  rw [h6]
  simp only [List.map_eq_nil_iff, List.range'_eq_nil_iff]
  have hnum : 0 < frames.length := List.length_pos_of_ne_nil hne
  constructor
  · intro h
    by_cases hle : frames.length ≤ perLineAsked kw
    · exact .inl hle
    · rw [Nat.min_eq_left (by omega)] at h2 h
      exact .inr ⟨rows, by rw [Nat.mul_comm]; omega⟩
  · intro h
    have hd : min (perLineAsked kw) frames.length ∣ frames.length := by
      rcases h with h | h
      · rw [Nat.min_eq_right h]
      · rw [Nat.min_eq_left (Nat.le_of_dvd hnum h)]
        exact h
    obtain ⟨k, hk'⟩ := hd
    generalize min (perLineAsked kw) frames.length = P at *
    rw [Nat.mul_comm P k] at hk'
    have hlt' : rows * P < (k + 1) * P := by rw [Nat.succ_mul]; omega
    have := Nat.lt_of_mul_lt_mul_right hlt'
    have := Nat.mul_le_mul_right P (Nat.lt_succ_iff.1 this)
    omega

/-- **C147 (limit).** The plot is refused if one of its frames has more points than the limit; the number that the message says to pass is above the points of the first such
frame. -/
theorem C147_limit {uuid : Nat → Str} {hash : Str} {kw : Dict PyJson} {maxPoints : Nat} {colours : List Str} {before after : List IFrame} {f : IFrame} (hk : KwOk kw)
    (hp : 0 < perLineAsked kw) (hb : ∀ f ∈ before, (f.values.map List.length).sum ≤ maxPoints) (hf : maxPoints < (f.values.map List.length).sum) :
    iPage uuid hash kw maxPoints colours (before ++ f :: after) = .error (.tooBig ((f.values.map List.length).sum + 1)) := by
  obtain ⟨st, rows, h1, h2, h3, h4, h5⟩ := C71_table uuid (perLineAsked kw) (before ++ f :: after).length hp (by simp)
  have key : ∀ (P i : Nat) (fs : List IFrame), (∀ f ∈ fs, (f.values.map List.length).sum ≤ maxPoints) →
      (∀ j < fs.length, st.figMap.lookup (i + j) = some (figName uuid (i + j))) →
      addPlots (pageAttr kw P) hash maxPoints st.figMap i (fs ++ f :: after) = .error (.tooBig ((f.values.map List.length).sum + 1)) := by
    intro P i fs
    induction fs generalizing i with
    | nil =>
      intro _ _
      rw [List.nil_append, addPlots, if_pos hf]
    | cons g fs ih =>
      intro h1 h2
      have h0 := h2 0 (by simp)
      rw [Nat.add_zero] at h0
      rw [List.cons_append, addPlots, if_neg (by have := h1 g List.mem_cons_self; omega), h0]
      simp only [figParams_eq hk]
      rw [ih (i + 1) (fun x hx => h1 x (List.mem_cons_of_mem _ hx)) fun j hj => by
        have := h2 (j + 1) (by simpa using hj); rwa [show i + (j + 1) = i + 1 + j by omega] at this]
  unfold iPage
  simp only [perLine_eq hk, h1]
  have := key (linePlots (perLineAsked kw) (before ++ f :: after).length) 0 before hb
    (fun j hj => by rw [Nat.zero_add]; exact (C71_figures h1).1 j (by rw [List.length_append]; omega))
  unfold pageAttr at this
  rw [this]

/-! ## Examples -/

/-- two columns at two times -/
def sampleFrame : IFrame := ⟨cs!"cpu: 0", [cs!"a", cs!"b"], [.float cs!"0.5", .float cs!"1.0"], [[.int 1, .float cs!"nan"], [.int (-2), .int 7]]⟩

theorem sampleFrame_ok : FrameOk sampleFrame where
  title := endsScript_lt (by decide)
  columns := by intro c hc; simp [sampleFrame] at hc; rcases hc with rfl | rfl <;> exact endsScript_lt (by decide)
  index := by
    intro x hx; simp [sampleFrame] at hx
    rcases hx with rfl | rfl <;> exact ⟨by rw [Readable]; exact ⟨by decide, by decide, by decide, by decide, by decide⟩, by rw [NoScriptEnd]; trivial⟩
  values := by
    intro r hr x hx
    simp [sampleFrame] at hr
    rcases hr with rfl | rfl
    · simp at hx
      rcases hx with rfl | rfl
      · exact ⟨by rw [Readable]; trivial, by rw [NoScriptEnd]; trivial⟩
      · exact ⟨by rw [Readable]; exact ⟨by decide, by decide, by decide, by decide, by decide⟩, by rw [NoScriptEnd]; trivial⟩
    · simp at hx
      rcases hx with rfl | rfl <;> exact ⟨by rw [Readable]; trivial, by rw [NoScriptEnd]; trivial⟩

/-- arguments -/
def sampleKw : Dict PyJson :=
  [(cs!"drawstyle", .str cs!"steps-post"), (cs!"scatter", .bool true), (cs!"ylim", .arr [.int 0, .int 10]), (cs!"fill_alpha", .float cs!"0.3"), (cs!"column", .arr [.str cs!"a"])]

theorem sampleKw_ok : KwOk sampleKw where
  nodup := by decide
  values := by
    intro p hp
    simp [sampleKw] at hp
    rcases hp with rfl | rfl | rfl | rfl | rfl
    · exact ⟨by rw [Readable]; trivial, by rw [NoScriptEnd]; exact endsScript_lt (by decide)⟩
    · exact ⟨by rw [Readable]; trivial, by rw [NoScriptEnd]; trivial⟩
    · refine ⟨?_, ?_⟩
      · rw [Readable, readableList_iff]
        intro x hx; simp at hx; rcases hx with rfl | rfl <;> (rw [Readable]; trivial)
      · rw [NoScriptEnd, noScriptEndList_iff]
        intro x hx; simp at hx; rcases hx with rfl | rfl <;> (rw [NoScriptEnd]; trivial)
    · exact ⟨by rw [Readable]; exact ⟨by decide, by decide, by decide, by decide, by decide⟩, by rw [NoScriptEnd]; trivial⟩
    · refine ⟨?_, ?_⟩
      · rw [Readable, readableList_iff]
        intro x hx; simp at hx; subst hx; rw [Readable]; trivial
      · rw [NoScriptEnd, noScriptEndList_iff]
        intro x hx; simp at hx; subst hx; rw [NoScriptEnd]; exact endsScript_lt (by decide)

/-- the hypotheses of `C147_figures` and `C147_failing_refuted` with three figures, two per line: the fourth cell has no data -/
example : ∃ page, iPage (fun i => List.replicate i 'f') cs!"8745" sampleKw 100 [cs!"rgb(255, 0, 0)"] [sampleFrame, sampleFrame, sampleFrame] = .ok page ∧
    (showPage page).graphs.length = 3 ∧ (showPage page).failed = [cs!"fig_fff"] ∧ (showPage page).graphs.map (·.stepPlot.isSome) = [true, true, true] := by
  obtain ⟨page, rows, h1, h2, h3, h4, _, h6⟩ := C147_figures (uuid := fun i => List.replicate i 'f') (hash := cs!"8745") (maxPoints := 100) (colours := [cs!"rgb(255, 0, 0)"])
    (frames := [sampleFrame, sampleFrame, sampleFrame]) sampleKw_ok (by decide) (by simp) (by intro f hf; simp at hf; subst hf; exact sampleFrame_ok)
    (by intro f hf; simp at hf; subst hf; decide) (endsScript_lt (by decide)) (fun a b e => by simpa using congrArg List.length e)
    (fun i => by rw [List.mem_replicate]; rintro ⟨_, e⟩; cases e) (by unfold PlainText; decide)
  have hr : rows = 2 := by
    have : min (perLineAsked sampleKw) ([sampleFrame, sampleFrame, sampleFrame] : List IFrame).length = 2 := rfl
    rw [this] at h2 h3
    simp at h2 h3
    omega
  refine ⟨page, h1, by rw [h4]; rfl, by rw [h6, hr]; rfl, by rw [h4]; rfl⟩

/-- the hypotheses of `C147_limit` -/
example : iPage (fun i => List.replicate i 'f') cs!"8745" sampleKw 3 [] [sampleFrame] = .error (.tooBig 5) :=
  C147_limit (before := []) (after := []) sampleKw_ok (by decide) (by simp) (by decide)

/-! ## C148: the colour of a signal -/

theorem plotLines_eq {σ : Type} (pivot : Val) (cs : List (IConstraint σ)) (hn : (cs.map (·.label)).Nodup) :
    plotLines pivot cs = (cs.filter fun c => (c.result.lookup pivot).isSome).map (·.label) := by
  unfold plotLines
  rw [C98_data_partial]
  · clear hn
    induction cs with
    | nil => rfl
    | cons c cs ih =>
      rw [List.filterMap_cons, List.filter_cons]
      cases h : c.result.lookup pivot <;> simp [ih]
  · exact hn.sublist ((List.filter_sublist).map _)

/-- **C148 (exactly when).** If there is one colour for each constraint and they are all different, the line of a constraint has the colour of its signal exactly if all constraints before it
have data for the pivot of the plot. -/
theorem C148_colour_partial {σ : Type} {pivot : Val} {cs : List (IConstraint σ)} {colours : List Str} (hn : (cs.map (·.label)).Nodup) (hl : colours.length = cs.length)
    (hc : colours.Nodup) {k : Nat} {c : IConstraint σ} (hk : cs[k]? = some c) (hp : (c.result.lookup pivot).isSome) :
    ∃ j, (plotLines pivot cs)[j]? = some c.label ∧
      (lineColour colours j = colours[k]? ↔ ∀ i < k, ∀ c', cs[i]? = some c' → (c'.result.lookup pivot).isSome) := by
  obtain ⟨hklt, hkc⟩ := List.getElem?_eq_some_iff.1 hk
  have hsplit : cs = cs.take k ++ c :: cs.drop (k + 1) := by
    rw [← hkc, ← List.drop_eq_getElem_cons hklt, List.take_append_drop]
  have hj : ((cs.take k).filter fun c => (c.result.lookup pivot).isSome).length ≤ k := by
    refine Nat.le_trans (List.length_filter_le _ _) ?_
    rw [List.length_take]; omega
  refine ⟨((cs.take k).filter fun c => (c.result.lookup pivot).isSome).length, ?_, ?_⟩
  · rw [plotLines_eq pivot cs hn]
    have e : cs.filter (fun c => (c.result.lookup pivot).isSome) =
        (cs.take k).filter (fun c => (c.result.lookup pivot).isSome) ++ c :: (cs.drop (k + 1)).filter fun c => (c.result.lookup pivot).isSome := by
      conv => lhs; rw [hsplit]
      rw [List.filter_append, List.filter_cons, if_pos hp]
    rw [e, List.map_append, List.getElem?_append_right (by simp), List.length_map, Nat.sub_self]
    rfl
  · unfold lineColour
    rw [Nat.mod_eq_of_lt (by omega)]
    have h1 : colours[((cs.take k).filter fun c => (c.result.lookup pivot).isSome).length]? = colours[k]? ↔
        ((cs.take k).filter fun c => (c.result.lookup pivot).isSome).length = k := by
      constructor
      · intro e
        exact (List.getElem?_inj (by omega) hc).1 e
      · intro e; rw [e]
    rw [h1]
    constructor
    · intro e i hi c' hc'
      have hlen : ((cs.take k).filter fun c => (c.result.lookup pivot).isSome).length = (cs.take k).length := by
        rw [e, List.length_take]; omega
      have := List.length_filter_eq_length_iff.1 hlen
      refine this c' (List.mem_of_getElem? (i := i) ?_)
      rw [List.getElem?_take_of_lt hi]
      exact hc'
    · intro h
      rw [List.filter_eq_self.2, List.length_take]
      · omega
      · intro c' hc'
        obtain ⟨i, hi⟩ := List.getElem?_of_mem hc'
        have hik : i < k := by
          have := (List.getElem?_eq_some_iff.1 hi).1
          rw [List.length_take] at this; omega
        rw [List.getElem?_take_of_lt hik] at hi
        exact h i hik c' hi

/-- **C148 refuted.** If the first signal has no data for a pivot, the second one is drawn in the colour of the first in the plot of this pivot, whatever the signals, their data and
colours. -/
theorem C148_colour_refuted {σ : Type} {pivot : Val} {a b : IConstraint σ} {rest : List (IConstraint σ)} (colours : List Str) (hn : ((a :: b :: rest).map (·.label)).Nodup)
    (ha : a.result.lookup pivot = none) (hb : (b.result.lookup pivot).isSome) :
    (plotLines pivot (a :: b :: rest))[0]? = some b.label ∧ lineColour colours 0 = colours[0]? := by
  constructor
  · rw [plotLines_eq _ _ hn]
    simp [ha, hb]
  · unfold lineColour
    rw [Nat.zero_mod]

/-- **C148 (concat), refuted.** With `concat=True` every signal has a plot of its own, and its line, the first of the plot, is drawn in the colour of the first signal. -/
theorem C148_concat_refuted {σ : Type} {colours : List Str} (hc : colours.Nodup) {k : Nat} (h0 : 0 < k) (hk : k < colours.length) (key : Val → Str) (s : σ) :
    (concatData key [(pivotMark, s)] [pivotMark] []).map Prod.fst = [key pivotMark] ∧ lineColour colours 0 = colours[0]? ∧ lineColour colours 0 ≠ colours[k]? := by
  refine ⟨by simp [concatData, Dict.set], by unfold lineColour; rw [Nat.zero_mod], ?_⟩
  unfold lineColour
  rw [Nat.zero_mod]
  intro e
  have := (List.getElem?_inj (by omega) hc).1 e
  omega

/-- three signals, of which the first has no data for the pivot 4 -/
example : plotLines (.int 4) [⟨cs!"a", cs!"a", 0, [(.int 0, ())]⟩, ⟨cs!"b", cs!"b", 0, [(.int 0, ()), (.int 4, ())]⟩, ⟨cs!"c", cs!"c", 0, [(.int 4, ())]⟩] = [cs!"b", cs!"c"] := rfl

end Trappy
