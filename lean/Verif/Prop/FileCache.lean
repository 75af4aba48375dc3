import Verif.Model.FileCache
import Verif.Prop.FileLines
import Verif.Prop.Cache
import Verif.Prop.Csv
import Verif.Prop.SysTrace
/-!
# C163: a trace that is opened again and again
-/

namespace Trappy
open F64 Py

/-! ## Specification -/

/-- **Specification**: what is assumed of the external functions: JSON gives back what was written, so do `repr` and `float` for times, and floats in tables are read as C39 assumes -/
structure CacheWorld.Ok {F : Type} (W : CacheWorld F) : Prop where
  json : ∀ md, W.loadMeta (W.dumpMeta md) = some md
  times : ∀ t, W.timeOf (W.timeText t) = some t
  shown : ∀ t, W.timeText t ≠ []
  floats : FloatOk W.floats

/-- **Specification**: all lines of an event, as rows with the names and values shown to the user -/
def fullRows (f : ReadText) (p : ParserClass) (out : List Nat) : Table (Dict Val) :=
  (TraceItem.tableWith (f.cells p) p.event 0 f.items out).map fun r => (r.time, shownCells p.name r.cells)

/-- **Specification**: a cell of a column; NaN where the row has no such column -/
def columnCell {F : Type} (k : Str) (cells : Dict Val) : CsvCell F :=
  match cells.get k with
  | some (.int i) => .int i
  | some (.str s) => .str s
  | none => .nan

/-- **Specification**: a table has the column in some row -/
def HasColumn (t : Table (Dict Val)) (k : Str) : Prop := ∃ r ∈ t, ∃ v, r.2.get k = some v

/-- **Specification**: the row of a table: a cell for each column of the table, NaN where the line has no such field -/
def ShownRow {F : Type} (full : Table (Dict Val)) (cells : Dict Val) (row : Dict (CsvCell F)) : Prop :=
  ∀ k, (HasColumn full k → row.get k = some (columnCell k cells)) ∧ (¬ HasColumn full k → row.get k = none)

/-- **Specification**: the trace of the file with the parsers and the window that were asked for -/
def Opened {F : Type} (f : ReadText) (q : List ParserClass × UserParams) (res : Result (Dict (CsvCell F))) : Prop :=
  ∃ (out : List Nat) (shift : Nat → Nat), MinimalTimes 0 (TraceItem.times f.items) out ∧
    (∀ t ∈ out, if q.2.normalize then NearestEven (val t - val (firstTime out)) (shift t) else shift t = t) ∧
    res.basetime = firstTime out ∧ res.endtime = finalTime out ∧ res.header = traceMetadata f.lines ∧
    List.Forall₂ (fun p t => List.Forall₂ (fun (r : Nat × Dict Val) (row : Nat × Dict (CsvCell F)) => row.1 = shift r.1 ∧ ShownRow (fullRows f p out) r.2 row.2)
      (fileRows (f.cells p) p f.items q.2 out) t) q.1 res.tables

/-- **Specification**: CSV keeps the columns of the event -/
def ColumnsKept {F : Type} (W : CacheWorld F) (f : ReadText) (p : ParserClass) : Prop :=
  ∀ out, MinimalTimes 0 (TraceItem.times f.items) out → ∀ k, HasColumn (fullRows f p out) k →
    ColumnOk W.floats ((fullRows f p out).map fun r => columnCell k r.2)

/-- **Specification**: the calls that are considered: some built-in parsers, each once, that can read the file -/
structure Askable (fuel : Nat) (f : ReadText) (q : List ParserClass × UserParams) : Prop where
  builtin : ∀ p ∈ q.1, p ∈ builtins
  nodup : q.1.Nodup
  nonempty : q.1 ≠ []
  file : f.Ok fuel q.1
  window : q.2.window.hi = none → q.2.absWindow.hi ≠ some 0

/-- **Specification**: no line of the file has the words of two of the parsers in use -/
def WordsApart (f : ReadText) (qs : List (List ParserClass × UserParams)) : Prop :=
  ∀ q ∈ qs, ∀ q' ∈ qs, ∀ p ∈ q.1, ∀ p' ∈ q'.1, ∀ l ∈ f.lines, p.word <:+: l → p'.word <:+: l → p = p'

/-! ## Lemmas -/

section
variable {F : Type}

theorem columnCell_eq (k : Str) (cells : Dict Val) : (columnCell k cells : CsvCell F) = ((cells.get k).map valCell).getD .nan := by
  unfold columnCell
  cases cells.get k with
  | none => rfl
  | some v => cases v <;> rfl

theorem hasColumn_iff (t : Table (Dict Val)) (k : Str) : HasColumn t k ↔ k ∈ rowColumns t := by
  rw [rowColumns_mem]
  constructor
  · rintro ⟨r, hr, v, hv⟩
    exact ⟨r, hr, Dict.get_keys hv⟩
  · rintro ⟨r, hr, h⟩
    exact ⟨r, hr, Dict.get_of_key h⟩

theorem nodup_eraseDups' (l : List Str) : l.eraseDups.Nodup := by
  generalize hn : l.length = n
  induction n using Nat.strong_induction_on generalizing l with
  | _ n ih =>
    cases l with
    | nil => simp [List.eraseDups_nil]
    | cons a l =>
      rw [List.eraseDups_cons, List.nodup_cons]
      constructor
      · rw [List.mem_eraseDups, List.mem_filter]
        simp
      · subst hn
        exact ih _ (by simp only [List.length_cons]; exact Nat.lt_succ_of_le (List.length_filter_le _ _)) _ rfl

theorem rowColumns_nodup (t : Table (Dict Val)) : (rowColumns t).Nodup := nodup_eraseDups' _

theorem get_filterMap_keys {β : Type} (h : Str → Option β) (names : List Str) (hnd : names.Nodup) (k : Str) :
    Dict.get (names.filterMap fun k => (h k).map fun x => (k, x)) k = if k ∈ names then h k else none := by
  induction names with
  | nil => rfl
  | cons a names ih =>
    rw [List.nodup_cons] at hnd
    rw [List.filterMap_cons]
    cases ha : h a with
    | none =>
      simp only [Option.map_none]
      rw [ih hnd.2]
      by_cases hk : k = a
      · subst hk; simp [hnd.1, ha]
      · simp [hk]
    | some x =>
      simp only [Option.map_some]
      rw [Dict.get]
      by_cases hk : a = k
      · subst hk; simp [ha]
      · rw [if_neg hk, ih hnd.2]
        have : k ≠ a := fun e => hk e.symm
        simp [this]

theorem get_map_keys {β : Type} (h : Str → β) (names : List Str) (k : Str) :
    Dict.get (names.map fun k => (k, h k)) k = if k ∈ names then some (h k) else none := by
  induction names with
  | nil => rfl
  | cons a names ih =>
    rw [List.map_cons, Dict.get]
    by_cases hk : a = k
    · subst hk; simp
    · rw [if_neg hk, ih]
      have : k ≠ a := fun e => hk e.symm
      simp [this]

theorem fill_shown (full : Table (Dict Val)) (cells : Dict Val) :
    ShownRow full cells ((rowColumns full).map fun k => (k, ((cells.get k).map valCell).getD (.nan : CsvCell F))) := by
  intro k
  rw [get_map_keys, hasColumn_iff, columnCell_eq]
  exact ⟨fun h => if_pos h, fun h => if_neg h⟩

theorem tableNames_fill (t : Table (Dict Val)) : tableNames (fillTable t : Table (Dict (CsvCell F))) = rowColumns t := by
  cases t with
  | nil => rfl
  | cons r t =>
    unfold fillTable tableNames
    simp [Function.comp_def]

theorem csvFrameOf_fill (W : CacheWorld F) (t : Table (Dict Val)) :
    csvFrameOf W.timeText (fillTable t : Table (Dict (CsvCell F))) =
      ⟨t.map fun r => W.timeText r.1, (rowColumns t).map fun k => (k, t.map fun r => columnCell k r.2)⟩ := by
  unfold csvFrameOf
  rw [tableNames_fill]
  congr 1
  · unfold fillTable; rw [List.map_map]; rfl
  · refine List.map_congr_left fun k hk => ?_
    unfold fillTable
    rw [List.map_map]
    congr 1
    refine List.map_congr_left fun r hr => ?_
    simp only [Function.comp_apply]
    rw [get_map_keys, if_pos hk, columnCell_eq]
    rfl

theorem convertAll_length {f : Str → Option (CsvCell F)} {ts : List Str} {cs : List (CsvCell F)} (h : convertAll f ts = some cs) : cs.length = ts.length := by
  induction ts generalizing cs with
  | nil => cases h; rfl
  | cons t ts ih =>
    unfold convertAll at h
    split at h
    · rename_i h2
      cases h
      simp [ih h2]
    · cases h

theorem inferColumn_length (ft : FloatText F) (ts : List Str) : (inferColumn ft ts).length = ts.length := by
  unfold inferColumn
  simp only
  split
  · simp
  · split
    · rename_i h
      split
      · cases h2 : convertAll (fun t => (ft.parse t).map CsvCell.float) ts with
        | none => simp
        | some cs => simpa using convertAll_length h2
      · split
        · exact convertAll_length h
        · simp
    · split
      · rename_i h; exact convertAll_length h
      · split
        · rename_i h; exact convertAll_length h
        · simp

/-- the table that is read: the column `k` is that of the texts of the column that was written -/
def readTable (W : CacheWorld F) (t : Table (Dict Val)) : Table (Dict (CsvCell F)) :=
  t.mapIdx fun i r => (r.1, (rowColumns t).filterMap fun k =>
    ((inferColumn W.floats (t.map fun r => cellText W.floats (columnCell k r.2)))[i]?).map fun x => (k, x))

theorem csvRows_all {W : CacheWorld F} (hW : W.Ok) (cols : List (Str × List (CsvCell F))) (ts : List Nat) (i : Nat) :
    csvRows W.timeOf cols i (ts.map W.timeText) = some (ts.mapIdx fun j t => (t, cols.filterMap fun c => (c.2[i + j]?).map fun x => (c.1, x))) := by
  induction ts generalizing i with
  | nil => rfl
  | cons t ts ih =>
    rw [List.map_cons, csvRows, hW.times, ih, List.mapIdx_cons]
    simp only [Nat.add_zero]
    have : ∀ j, i + 1 + j = i + (j + 1) := by omega
    simp only [this]

theorem read_fill {W : CacheWorld F} (hW : W.Ok) (fuel : Nat) (t : Table (Dict Val)) :
    (W.env fuel).readCsv ((W.env fuel).toCsv (fillTable t)) = some (readTable W t) := by
  show (readFrame W.floats (writeFrame W.floats (csvFrameOf W.timeText (fillTable t)))).bind _ = _
  rw [csvFrameOf_fill]
  rw [(read_write (ft := W.floats) (by
    intro c hc
    obtain ⟨k, hk, rfl⟩ := List.mem_map.1 hc
    simp) (by
    intro s hs
    obtain ⟨r, hr, rfl⟩ := List.mem_map.1 hs
    exact hW.shown _)).2]
  simp only [Option.bind_some, List.map_map]
  have := csvRows_all hW ((rowColumns t).map fun k => (k, inferColumn W.floats (t.map fun r => cellText W.floats (columnCell k r.2)))) (t.map Prod.fst) 0
  rw [List.map_map] at this
  simp only [Function.comp_def, List.map_map] at this ⊢
  rw [this]
  congr 1
  unfold readTable
  apply List.ext_getElem?
  intro i
  simp [List.getElem?_mapIdx, List.filterMap_map, Function.comp_def]

/-- the columns of the table that is read -/
theorem readTable_eq_iff {W : CacheWorld F} (hW : W.Ok) (t : Table (Dict Val)) :
    readTable W t = fillTable t ↔ ∀ k, HasColumn t k → ColumnOk W.floats (t.map fun r => columnCell k r.2) := by
  constructor
  · intro h k hk
    apply infer_only hW.floats
    rw [List.map_map]
    rw [hasColumn_iff] at hk
    apply List.ext_getElem?
    intro i
    by_cases hi : i < t.length
    · have h1 := congrArg (fun l : Table (Dict (CsvCell F)) => (l[i]?).map fun r => r.2.get k) h
      simp only [readTable, fillTable, List.getElem?_mapIdx, List.getElem?_map, List.getElem?_eq_getElem hi, Option.map_some, Option.some.injEq] at h1
      rw [get_filterMap_keys _ _ (rowColumns_nodup t), if_pos hk, get_map_keys, if_pos hk] at h1
      simp only [Function.comp_def]
      rw [h1, List.getElem?_map, List.getElem?_eq_getElem hi, Option.map_some, columnCell_eq]
    · rw [List.getElem?_eq_none (by rw [inferColumn_length]; simpa using hi), List.getElem?_eq_none (by simpa using hi)]
  · intro h
    unfold readTable fillTable
    apply List.ext_getElem?
    intro i
    rw [List.getElem?_mapIdx, List.getElem?_map]
    cases hi : t[i]? with
    | none => rfl
    | some r =>
      simp only [Option.map_some]
      congr 2
      rw [← List.filterMap_eq_map]
      apply List.filterMap_congr
      intro k hk
      have := infer_ok hW.floats (h k ((hasColumn_iff t k).2 hk))
      rw [List.map_map] at this
      simp only [Function.comp_def] at this ⊢
      rw [this, List.getElem?_map, hi, Option.map_some, Option.map_some, columnCell_eq]

theorem classFrame_nil (fuel : Nat) (name : Str) : classFrame fuel name [] = .rows [] := by
  unfold classFrame
  simp only [List.map_nil, ownTexts]
  have : explodeTable fuel [] = some (some []) := by
    unfold explodeTable
    split <;> rfl
  rw [this]
  rfl

theorem finalizeTable_nil (name : Str) : finalizeTable name [] = [] := by
  unfold finalizeTable
  simp

theorem CacheWorld.Ok.basic {W : CacheWorld F} (hW : W.Ok) (fuel : Nat) : (W.env fuel).Basic where
  json := hW.json
  create_nil := by
    intro k c
    show cacheCreate fuel c.pyName [] = some []
    unfold cacheCreate
    rw [classFrame_nil]
    rfl
  finalize_nil := by
    intro c
    show cacheFinalize c.pyName [] = []
    unfold cacheFinalize
    rw [List.map_nil, finalizeTable_nil]
    rfl

theorem cellVals_back (cells : Dict Val) :
    ((cells.map fun x => (x.1, (valCell x.2 : CsvCell F))).filterMap fun x => (cellVal x.2).map fun v => (x.1, v)) = cells := by
  induction cells with
  | nil => rfl
  | cons x cells ih =>
    obtain ⟨k, v⟩ := x
    rw [List.map_cons, List.filterMap_cons, ih]
    cases v <;> rfl

/-- the class builds and finalises its table as `buildTrace` does -/
theorem build_cached (W : CacheWorld F) (fuel : Nat) (kind : Kind) (c : CClass) {rs : List Rec} {rows : List TRow} (h : classFrame fuel c.pyName rs = .rows rows) :
    ((W.env fuel).create kind c rs).map ((W.env fuel).finalize c) = some (fillTable ((finalizeTable c.pyName rows).map fun r => (r.time, r.cells))) := by
  show (cacheCreate fuel c.pyName rs).map (cacheFinalize c.pyName) = _
  unfold cacheCreate
  rw [h]
  simp only [Option.map_some, cacheFinalize, List.map_map]
  congr 3
  conv_rhs => rw [← List.map_id rows]
  congr 1
  refine List.map_congr_left fun r _ => ?_
  simp only [Function.comp_apply, cellVals_back, id]

/-- the classes in use -/
def usedBy (qs : List (List ParserClass × UserParams)) (c : CClass) : Prop := ∃ q ∈ qs, ∃ p ∈ q.1, c = p.cached

theorem cached_inj {p p' : ParserClass} (hp : p ∈ builtins) (hp' : p' ∈ builtins) (h : p.name = p'.name) : p = p' :=
  builtins_sameName p hp p' hp' h

theorem used_fit {fuel : Nat} {f : ReadText} {qs : List (List ParserClass × UserParams)} (hq : ∀ q ∈ qs, Askable fuel f q) (hw : WordsApart f qs) :
    Fit (usedBy qs) .ftrace f.lines where
  names := by
    rintro c c' ⟨q, hqm, p, hp, rfl⟩ ⟨q', hqm', p', hp', rfl⟩ h
    rw [cached_inj ((hq q hqm).builtin p hp) ((hq q' hqm').builtin p' hp') h]
  unamb := by
    rintro l hl c c' ⟨q, hqm, p, hp, rfl⟩ ⟨q', hqm', p', hp', rfl⟩ h1 h2
    rw [hw q hqm q' hqm' p hp p' hp' l ((List.dropWhile_sublist _).subset hl) h1 h2]

theorem fileReq_ok {fuel : Nat} {f : ReadText} {qs : List (List ParserClass × UserParams)} (hq : ∀ q ∈ qs, Askable fuel f q) {q : List ParserClass × UserParams} (h : q ∈ qs) :
    (fileReq q.1 q.2).kind = .ftrace ∧ (fileReq q.1 q.2).Ok (usedBy qs) ∧ (fileReq q.1 q.2).classes ≠ [] := by
  refine ⟨rfl, ⟨?_, ?_⟩, ?_⟩
  · intro c hc
    obtain ⟨p, hp, rfl⟩ := List.mem_map.1 hc
    exact ⟨q, h, p, hp, rfl⟩
  · refine List.Nodup.map_on ?_ (hq q h).nodup
    intro p hp p' hp' e
    exact cached_inj ((hq q h).builtin p hp) ((hq q h).builtin p' hp') (congrArg CClass.pyName e)
  · simpa [fileReq] using (hq q h).nonempty

/-- the parts of the file for one call -/
theorem cached_tables {W : CacheWorld F} {fuel : Nat} {f : ReadText} {qs : List (List ParserClass × UserParams)} (hq : ∀ q ∈ qs, Askable fuel f q) (hw : WordsApart f qs)
    {q : List ParserClass × UserParams} (h : q ∈ qs) :
    ∃ out : List Nat, MinimalTimes 0 (TraceItem.times f.items) out ∧ baseOf .ftrace f.lines = firstTime out ∧ endOf .ftrace f.lines = finalTime out ∧
      (out.Pairwise (· < ·) ∧ ∀ t ∈ out, 0 < t) ∧ (∀ t ∈ out, firstTime out ≤ t ∧ t < inf) ∧
      ∀ p ∈ q.1, tableOf (W.env fuel) .ftrace f.lines p.cached = some (fillTable (fullRows f p out)) := by
  have ha := hq q h
  obtain ⟨out, h1, h2, h3, h4, h5, h6⟩ := file_parts fuel q.1 ha.builtin ha.nodup f.header f.items ha.file.file f.cells ha.file.reads ha.file.masks
  refine ⟨out, h1, ?_, ?_, h4, h5, ?_⟩
  · rw [← h2]
    exact body_base [] (q.1.map ParserClass.toCls) (ftraceBody f.lines) 0 (Or.inl rfl)
  · rw [← h3]
    exact body_end _ _ _ _ _
  · intro p hp
    obtain ⟨i, hi⟩ := List.mem_iff_getElem?.1 hp
    obtain ⟨g1, g2⟩ := h6 i p hi
    unfold tableOf
    have hok := fileReq_ok hq h
    have := rows_single (used_fit hq hw) hok.2.1.mem hok.2.1.nodup (i := i) (c := p.cached) (by simp [fileReq, hi]) 0
    rw [← this]
    have e : (populateBody ((fileReq q.1 q.2).classes.map CClass.cls) 0 (bodyOf .ftrace f.lines)) = populate (q.1.map ParserClass.toCls) 0 (f.header ++ f.items.map TraceItem.text) := by
      unfold populate fileReq
      rw [List.map_map]
      rfl
    rw [e]
    rw [build_cached (c := p.cached) W fuel .ftrace (rows := TraceItem.tableWith (f.cells p) p.event 0 f.items out) g1]
    show some (fillTable ((finalizeTable p.name _).map _)) = _
    rw [g2, List.map_map]
    rfl

theorem allTables_map {α : Type} {E : Env α} {kind : Kind} {lines : List Str} {ps : List ParserClass} {t : ParserClass → Table α}
    (h : ∀ p ∈ ps, tableOf E kind lines p.cached = some (t p)) : allTables E kind lines (ps.map ParserClass.cached) = some (ps.map t) := by
  induction ps with
  | nil => rfl
  | cons p ps ih =>
    rw [List.map_cons, allTables, h p (by simp), ih fun p' hp' => h p' (by simp [hp'])]
    rfl

theorem insertRow_map {α β : Type} (g : α → β) (r : Nat × α) (t : Table α) :
    insertRow (r.1, g r.2) (t.map fun r => (r.1, g r.2)) = (insertRow r t).map fun r => (r.1, g r.2) := by
  induction t with
  | nil => rfl
  | cons x t ih =>
    rw [List.map_cons, insertRow, insertRow]
    simp only
    split
    · rfl
    · rw [List.map_cons, ih]

theorem sortIndex_map {α β : Type} (g : α → β) (t : Table α) : sortIndex (t.map fun r => (r.1, g r.2)) = (sortIndex t).map fun r => (r.1, g r.2) := by
  induction t with
  | nil => rfl
  | cons x t ih => rw [List.map_cons, sortIndex, sortIndex, ih, insertRow_map]

theorem windowify_map {α β : Type} (g : α → β) (w : Win) (t : Table α) : windowify w (t.map fun r => (r.1, g r.2)) = (windowify w t).map fun r => (r.1, g r.2) := by
  have h1 : ∀ lo (t : Table α), sliceFrom lo (t.map fun r => (r.1, g r.2)) = (sliceFrom lo t).map fun r => (r.1, g r.2) := by
    intro lo t
    unfold sliceFrom
    rw [List.dropWhile_map]
    rfl
  have h2 : ∀ hi (t : Table α), sliceTo hi (t.map fun r => (r.1, g r.2)) = (sliceTo hi t).map fun r => (r.1, g r.2) := by
    intro hi t
    unfold sliceTo
    rw [List.takeWhile_map]
    rfl
  unfold windowify
  simp only [List.isEmpty_map, sortIndex_map]
  split
  · rfl
  · split
    · rw [h1, h2]
    · split
      · rw [h1]
      · rfl

theorem applyUser_map {α β : Type} (g : α → β) (base : Nat) (u : UserParams) (t : Table α) :
    applyUser base u (t.map fun r => (r.1, g r.2)) = (applyUser base u t).map fun r => (r.1, g r.2) := by
  unfold applyUser applyWith normalizeTable
  rw [windowify_map]
  simp only
  split
  · split
    · rfl
    · rw [List.map_map, List.map_map]; rfl
  · rfl

theorem fullRows_window {f : ReadText} {p : ParserClass} {out : List Nat} (hpw : out.Pairwise (· < ·) ∧ ∀ t ∈ out, 0 < t) (hall : ∀ t ∈ out, firstTime out ≤ t ∧ t < inf)
    (u : UserParams) (hw : u.window.hi = none → u.absWindow.hi ≠ some 0) :
    applyUser (firstTime out) u (fullRows f p out) =
      (fileRows (f.cells p) p f.items u out).map fun r => (if u.normalize then sub r.1 (firstTime out) else r.1, r.2) := by
  unfold fullRows fileRows
  rw [applyUser_asked _ _ _ _ _ hw]
  · rw [List.pairwise_map]
    exact tableWith_sorted hpw.1
  · cases ho : out with
    | nil =>
      right
      rw [List.map_eq_nil_iff]
      cases ht : TraceItem.tableWith (f.cells p) p.event 0 f.items [] with
      | nil => rfl
      | cons r rs =>
        have := (mem_tableWith (r := r) (by rw [ht]; simp)).1
        cases this
    | cons o os =>
      left
      subst ho
      exact ⟨by have := hpw.2 o (by simp); simp only [firstTime]; omega, (hall o (by simp)).2.le⟩

theorem expected_opened {W : CacheWorld F} {fuel : Nat} {f : ReadText} {qs : List (List ParserClass × UserParams)} (hq : ∀ q ∈ qs, Askable fuel f q) (hw : WordsApart f qs)
    {q : List ParserClass × UserParams} (h : q ∈ qs) : ∃ res, expected (W.env fuel) (fileReq q.1 q.2) f.lines = .ok res ∧ Opened f q res := by
  obtain ⟨out, h1, h2, h3, h4, h5, h6⟩ := cached_tables (W := W) hq hw h
  unfold expected
  have e : allTables (W.env fuel) (fileReq q.1 q.2).kind f.lines (fileReq q.1 q.2).classes = some (q.1.map fun p => fillTable (fullRows f p out)) := allTables_map h6
  rw [e]
  refine ⟨_, rfl, out, fun t => if q.2.normalize then sub t (firstTime out) else t, h1, ?_, h2, h3, rfl, ?_⟩
  · intro t ht
    cases hn : q.2.normalize with
    | false => simp
    | true =>
      simp only [if_true]
      exact sub_nearestEven (h5 t ht).1 (by have := sub_le (b := firstTime out) (h5 t ht).2.le; have := (h5 t ht).2; omega)
  · rw [List.map_map, List.forall₂_map_right_iff]
    have : ∀ l : List ParserClass, List.Forall₂ (fun p p' => List.Forall₂ (fun (r : Nat × Dict Val) (row : Nat × Dict (CsvCell F)) =>
        row.1 = (if q.2.normalize then sub r.1 (firstTime out) else r.1) ∧ ShownRow (fullRows f p out) r.2 row.2) (fileRows (f.cells p) p f.items q.2 out)
        ((userApply false (baseOf (fileReq q.1 q.2).kind f.lines) (fileReq q.1 q.2).user ∘ fun p => fillTable (fullRows f p out)) p')) l l := by
      intro l
      rw [List.forall₂_same]
      intro p _
      have hb : baseOf (fileReq q.1 q.2).kind f.lines = firstTime out := h2
      rw [hb]
      show List.Forall₂ _ _ (applyUser (firstTime out) q.2 (fillTable (fullRows f p out)))
      have hf : applyUser (firstTime out) q.2 (fillTable (fullRows f p out) : Table (Dict (CsvCell F))) = _ :=
        applyUser_map (fun c : Dict Val => (rowColumns (fullRows f p out)).map fun k => (k, ((c.get k).map valCell).getD (.nan : CsvCell F))) _ _ _
      rw [hf, fullRows_window h4 h5 q.2 (hq q h).window, List.map_map, List.forall₂_map_right_iff, List.forall₂_same]
      intro r _
      exact ⟨rfl, fill_shown _ _⟩
    exact this q.1

theorem openings_history (W : CacheWorld F) (fuel : Nat) (disable : Bool) (qs : List (List ParserClass × UserParams)) (fs : FS) :
    openings W fuel disable qs fs = (history (W.env fuel) disable (qs.map fun q => .parse (fileReq q.1 q.2)) fs).1 := by
  induction qs generalizing fs with
  | nil => rfl
  | cons q qs ih => rw [openings, ih]; rfl

theorem contents_parses (rs : List Req) (lines : List Str) : contents (rs.map Act.parse) lines = [lines] := by
  induction rs with
  | nil => rfl
  | cons r rs ih => exact ih

theorem openings_disabled {W : CacheWorld F} (hW : W.Ok) {fuel : Nat} {f : ReadText} {qs : List (List ParserClass × UserParams)} (hq : ∀ q ∈ qs, Askable fuel f q)
    (hw : WordsApart f qs) (c : Option (Dict Str)) : ∀ ps : List (List ParserClass × UserParams), (∀ q ∈ ps, q ∈ qs) →
      openings W fuel true ps ⟨f.lines, c⟩ = ps.map fun q => expected (W.env fuel) (fileReq q.1 q.2) f.lines
  | [], _ => rfl
  | q :: ps, h => by
    have := run_disabled (hW.basic fuel) (fileReq_ok hq (h q (by simp))).2.1 (fs := ⟨f.lines, c⟩) (used_fit hq hw)
    rw [openings, this, List.map_cons, openings_disabled hW hq hw c ps fun q' hq' => h q' (by simp [hq'])]

end

/-- **C163 (partial).** A text file is opened time after time, each time with some of the built-in parsers, a window and normalisation. If CSV keeps the columns of all events in use and no line has the words of
two of the parsers, every one of the calls gives the trace of the file: all lines of each event in the window, with the times and cells that stand in the file, though all but the first may read the tables from the
cache that others have written, also with other parsers, windows and normalisation. -/
theorem C163_cached_partial {F : Type} (W : CacheWorld F) (hW : W.Ok) (fuel : Nat) (f : ReadText) (qs : List (List ParserClass × UserParams)) (hq : ∀ q ∈ qs, Askable fuel f q)
    (hw : WordsApart f qs) (hcols : ∀ q ∈ qs, ∀ p ∈ q.1, ColumnsKept W f p) :
    List.Forall₂ (fun q o => ∃ res, o = .ok res ∧ Opened f q res) qs (openings W fuel false qs ⟨f.lines, none⟩) := by
  have hfit := used_fit hq hw
  have hback : (W.env fuel).ReadsBack (usedBy qs) .ftrace f.lines := by
    rintro c ⟨q, hqm, p, hp, rfl⟩ t ht
    obtain ⟨out, h1, h2, h3, h4, h5, h6⟩ := cached_tables (W := W) hq hw hqm
    rw [h6 p hp] at ht
    cases ht
    rw [read_fill hW, (readTable_eq_iff hW _).2 (hcols q hqm p hp out h1)]
  have hc : contents (qs.map fun q => .parse (fileReq q.1 q.2)) f.lines = [f.lines] := by
    have := contents_parses (qs.map fun q => fileReq q.1 q.2) f.lines
    rwa [List.map_map] at this
  have hh := history_gen (hW.basic fuel) (U := usedBy qs) (kind := .ftrace) (qs.map fun q => .parse (fileReq q.1 q.2)) ⟨f.lines, none⟩ ⟨f.lines, none⟩ [f.lines] rfl
    (by rw [hc]; exact fun x hx => hx) (by intro a ha b hb _; simp at ha hb; rw [ha, hb]) (by rw [hc]; intro l hl; simp at hl; subst hl; exact ⟨hfit, hback⟩)
    (by intro d hd; simp at hd) (by
      intro req hr
      obtain ⟨q, hqm, e⟩ := List.mem_map.1 hr
      cases e
      exact fileReq_ok hq hqm)
  rw [openings_history, hh, ← openings_history, openings_disabled hW hq hw none qs fun _ h => h, List.forall₂_map_right_iff, List.forall₂_same]
  intro q hqm
  exact expected_opened hq hw hqm

/-! ## Files that change -/

section
variable {F : Type}

/-- the steps as a history -/
def reopenActs (steps : List (List Str × List ParserClass × UserParams)) : List Act :=
  steps.flatMap fun s => [.edit s.1, .parse (fileReq s.2.1 s.2.2)]

theorem reopenings_history (W : CacheWorld F) (fuel : Nat) (disable : Bool) (steps : List (List Str × List ParserClass × UserParams)) (fs : FS) :
    reopenings W fuel disable steps fs.cache = (history (W.env fuel) disable (reopenActs steps) fs).1 := by
  induction steps generalizing fs with
  | nil => rfl
  | cons s steps ih =>
    obtain ⟨lines, q⟩ := s
    rw [reopenings]
    simp only [reopenActs, List.flatMap_cons, List.cons_append, List.nil_append, history]
    rw [ih]
    rfl

theorem reopen_contents (steps : List (List Str × List ParserClass × UserParams)) (lines : List Str) :
    contents (reopenActs steps) lines = lines :: steps.map Prod.fst := by
  induction steps generalizing lines with
  | nil => rfl
  | cons s steps ih =>
    simp only [reopenActs, List.flatMap_cons, List.cons_append, List.nil_append, contents, List.map_cons]
    exact congrArg _ (ih _)

theorem reopenings_disabled {W : CacheWorld F} (hW : W.Ok) {fuel : Nat} {fs : List (ReadText × List ParserClass × UserParams)} (hq : ∀ s ∈ fs, ∀ s' ∈ fs, Askable fuel s.1 s'.2)
    (hw : ∀ s ∈ fs, WordsApart s.1 (fs.map Prod.snd)) (c : Option (Dict Str)) : ∀ ps : List (ReadText × List ParserClass × UserParams), (∀ s ∈ ps, s ∈ fs) →
      reopenings W fuel true (ps.map fun s => (s.1.lines, s.2)) c = ps.map fun s => expected (W.env fuel) (fileReq s.2.1 s.2.2) s.1.lines
  | [], _ => rfl
  | s :: ps, h => by
    have hs := h s (by simp)
    have hq' : ∀ q ∈ fs.map Prod.snd, Askable fuel s.1 q := by
      intro q hq'
      obtain ⟨s', hs', rfl⟩ := List.mem_map.1 hq'
      exact hq s hs s' hs'
    have := run_disabled (hW.basic fuel) (fileReq_ok hq' (List.mem_map_of_mem hs)).2.1 (fs := ⟨s.1.lines, c⟩) (used_fit hq' (hw s hs))
    rw [List.map_cons, reopenings, this, List.map_cons]
    exact congrArg _ (reopenings_disabled hW hq hw c ps fun s' hs' => h s' (by simp [hs']))

end

/-- **C163 (partial, the file is replaced).** Before each of the calls the file may be replaced by another one, and the cache of the old one is still there. Every call gives the trace of the file as it is at the time of the call,
if the digests of the files differ and CSV keeps the columns of all of them. -/
theorem C163_replaced_partial {F : Type} (W : CacheWorld F) (hW : W.Ok) (fuel : Nat) (steps : List (ReadText × List ParserClass × UserParams))
    (hmd5 : ∀ s ∈ steps, ∀ s' ∈ steps, W.md5 s.1.lines = W.md5 s'.1.lines → s.1.lines = s'.1.lines)
    (hq : ∀ s ∈ steps, ∀ s' ∈ steps, Askable fuel s.1 s'.2) (hw : ∀ s ∈ steps, WordsApart s.1 (steps.map Prod.snd))
    (hcols : ∀ s ∈ steps, ∀ s' ∈ steps, ∀ p ∈ s'.2.1, ColumnsKept W s.1 p) :
    List.Forall₂ (fun s o => ∃ res, o = .ok res ∧ Opened s.1 s.2 res) steps (reopenings W fuel false (steps.map fun s => (s.1.lines, s.2)) none) := by
  cases hst : steps with
  | nil => exact .nil
  | cons s0 rest =>
  rw [← hst]
  have hs0 : s0 ∈ steps := by rw [hst]; simp
  have hq' : ∀ s ∈ steps, ∀ q ∈ steps.map Prod.snd, Askable fuel s.1 q := by
    intro s hs q hq'
    obtain ⟨s', hs', rfl⟩ := List.mem_map.1 hq'
    exact hq s hs s' hs'
  have hall : ∀ s ∈ steps, Fit (usedBy (steps.map Prod.snd)) .ftrace s.1.lines ∧ (W.env fuel).ReadsBack (usedBy (steps.map Prod.snd)) .ftrace s.1.lines := by
    intro s hs
    refine ⟨used_fit (hq' s hs) (hw s hs), ?_⟩
    rintro c ⟨q, hqm, p, hp, rfl⟩ t ht
    obtain ⟨out, h1, h2, h3, h4, h5, h6⟩ := cached_tables (W := W) (hq' s hs) (hw s hs) hqm
    rw [h6 p hp] at ht
    cases ht
    obtain ⟨s', hs', rfl⟩ := List.mem_map.1 hqm
    rw [read_fill hW, (readTable_eq_iff hW _).2 (hcols s hs s' hs' p hp out h1)]
  have hc : ∀ x ∈ contents (reopenActs (steps.map fun s => (s.1.lines, s.2))) s0.1.lines, ∃ s ∈ steps, x = s.1.lines := by
    intro x hx
    rw [reopen_contents, List.map_map] at hx
    rcases List.mem_cons.1 hx with rfl | hx
    · exact ⟨s0, hs0, rfl⟩
    · obtain ⟨s, hs, rfl⟩ := List.mem_map.1 hx
      exact ⟨s, hs, rfl⟩
  have hh := history_gen (hW.basic fuel) (U := usedBy (steps.map Prod.snd)) (kind := .ftrace) (reopenActs (steps.map fun s => (s.1.lines, s.2))) ⟨s0.1.lines, none⟩ ⟨s0.1.lines, none⟩
    (steps.map fun s => s.1.lines) rfl
    (by intro x hx; obtain ⟨s, hs, rfl⟩ := hc x hx; exact List.mem_map_of_mem hs)
    (by
      intro a ha b hb h
      obtain ⟨s, hs, rfl⟩ := List.mem_map.1 ha
      obtain ⟨s', hs', rfl⟩ := List.mem_map.1 hb
      exact hmd5 s hs s' hs' h)
    (by intro l hl; obtain ⟨s, hs, rfl⟩ := hc l hl; exact hall s hs)
    (by intro d hd; simp at hd) (by
      intro req hr
      obtain ⟨x, hx, he⟩ := List.mem_flatMap.1 hr
      obtain ⟨s, hs, rfl⟩ := List.mem_map.1 hx
      simp only [List.mem_cons, reduceCtorEq, List.not_mem_nil, or_false, false_or, Act.parse.injEq] at he
      subst he
      exact fileReq_ok (hq' s hs) (List.mem_map_of_mem hs))
  rw [reopenings_history W fuel false _ ⟨s0.1.lines, none⟩, hh, ← reopenings_history W fuel true _ ⟨s0.1.lines, none⟩, reopenings_disabled hW hq hw none steps fun _ h => h, List.forall₂_map_right_iff, List.forall₂_same]
  intro s hs
  exact expected_opened (hq' s hs) (hw s hs) (List.mem_map_of_mem hs)

/-! ## What is read from the cache -/

theorem addTables_found {α : Type} (E : Env α) (d : Dict Str) (cs : List CClass) (hn : (cs.map csvName).Nodup) {ts ts' : List (Table α)}
    (hr : List.Forall₂ (fun t t' => E.readCsv (E.toCsv t) = some t') ts ts') (hl : ts.length = cs.length) :
    cs.map (found E (some (addTables E d (((cs.zip (cs.map fun _ => (none : Option (Table α)))).zip ts).map fun x => (x.1.1, x.1.2.isSome, x.2))))) = ts'.map some := by
  induction hr generalizing d cs with
  | nil =>
    cases cs with
    | nil => rfl
    | cons c cs => simp at hl
  | cons h hr ih =>
    rename_i t t' ts ts'
    cases cs with
    | nil => simp at hl
    | cons c cs =>
      rw [List.map_cons, List.nodup_cons] at hn
      simp only [List.map_cons, List.zip_cons_cons, Option.isSome_none, addTables]
      rw [ih _ cs hn.2 (by simpa using hl)]
      congr 1
      unfold found
      simp only [Option.bind_some]
      rw [addTables_get, Dict.get_set, if_pos rfl]
      · exact h
      · intro e he _ hcon
        obtain ⟨x, hx, rfl⟩ := List.mem_map.1 he
        have := (List.of_mem_zip (a := x.1) (b := x.2) hx).1
        have := (List.of_mem_zip (a := x.1.1) (b := x.1.2) this).1
        exact hn.1 (hcon ▸ List.mem_map_of_mem this)

/-- a second parse for the same classes: the tables are those that are read -/
theorem second_parse {α : Type} {E : Env α} (hE : E.Basic) {U : CClass → Prop} {req : Req} (hreq : req.Ok U) {lines : List Str} (hf : Fit U req.kind lines) (hne : req.classes ≠ [])
    {ts ts' : List (Table α)} (ht : allTables E req.kind lines req.classes = some ts) (hr : List.Forall₂ (fun t t' => E.readCsv (E.toCsv t) = some t') ts ts') :
    ((doParse E false req).run ((doParse E false req).run ⟨lines, none⟩).2).1 =
      .ok ⟨baseOf req.kind lines, endOf req.kind lines, headerOf req.kind lines, ts'.map (userApply true (baseOf req.kind lines) req.user)⟩ := by
  have h1 := (run_cold hE hreq (fs := ⟨lines, none⟩) hf hne).2
  rw [trace_unchanged_cold (fs := ⟨lines, none⟩) rfl, h1, ht]
  simp only
  generalize hd : addTables E [(metaName, E.dumpMeta (goodMeta E req.kind lines))] (((req.classes.zip (req.classes.map fun _ => (none : Option (Table α)))).zip ts).map
    fun x => (x.1.1, x.1.2.isSome, x.2)) = d
  have hcons : Consistent E U req.kind lines d := by
    rw [← hd]
    exact addTables_consistent hf.names _ _ fresh_consistent fun e he =>
      have := entries_right ht _ (by simp) e he
      ⟨hreq.mem _ this.1, this.2⟩
  have hnames : (req.classes.map csvName).Nodup := by
    refine List.Nodup.map_on ?_ hreq.nodup
    intro c hc c' hc' e
    exact hf.names c c' (hreq.mem c hc) (hreq.mem c' hc') (csvName_inj e)
  have hfound := addTables_found E [(metaName, E.dumpMeta (goodMeta E req.kind lines))] req.classes hnames hr (allTables_length ht)
  rw [hd] at hfound
  simp only [doParse, Bool.false_eq_true, if_false]
  rw [run_bind, run_loadCache_valid hE req ⟨lines, some d⟩ d rfl hcons, hfound]
  unfold afterLoad
  have hall : (ts'.map some).all Option.isSome = true := by simp
  simp only [hall, Bool.not_false, Bool.and_true, if_true, Prog.run]
  congr 2
  rw [List.filterMap_map]
  simp only [Function.comp_def, Option.map_some]
  exact congrFun List.filterMap_eq_map ts'

theorem add_zero_left {b : Nat} (h : b ≤ inf) : add 0 b = b := by
  unfold add
  rw [show uval 0 + uval b = uval b by simp [uval]]
  exact round1_exact h

theorem window_all {α : Type} {base : Nat} (hb : base ≤ inf) (t : Table α) (hs : t.Pairwise fun a b => a.1 < b.1) (h : ∀ r ∈ t, base ≤ r.1) (valid : Bool) :
    userApply valid base (UserParams.full false) t = t := by
  have hw : ∀ w : Win, w.hi = none → w.lo ≤ base → windowify w t = t := by
    intro w h1 h2
    rw [(C20_window_exact_partial w (by rw [h1]; simp) t).2 (hs.imp fun h => val_le_iff.2 h.le), within_eq, List.filter_eq_self]
    intro r hr
    have := h r hr
    simp [h1]
    omega
  unfold userApply applyWith UserParams.full
  simp only [Bool.false_eq_true, if_false]
  apply hw
  · unfold maxWindow calcMaxWindow
    split
    · rfl
    · split <;> rfl
  · unfold maxWindow calcMaxWindow
    simp only [add_zero_left hb]
    split
    · simp
    · split
      · simp
      · simp

theorem fullRows_times {f : ReadText} {p : ParserClass} {out : List Nat} (hpw : out.Pairwise (· < ·)) (hall : ∀ t ∈ out, firstTime out ≤ t ∧ t < inf) :
    ((fullRows f p out).map Prod.fst).Pairwise (· < ·) ∧ ∀ t ∈ (fullRows f p out).map Prod.fst, firstTime out ≤ t := by
  unfold fullRows
  rw [List.map_map]
  constructor
  · rw [List.pairwise_map]
    exact tableWith_sorted hpw
  · intro t ht
    obtain ⟨r, hr, rfl⟩ := List.mem_map.1 ht
    exact (hall _ (mem_tableWith hr).1).1

theorem window_same {α : Type} {f : ReadText} {p : ParserClass} {out : List Nat} (hpw : out.Pairwise (· < ·)) (hall : ∀ t ∈ out, firstTime out ≤ t ∧ t < inf) (t : Table α)
    (h : t.map Prod.fst = (fullRows f p out).map Prod.fst) (valid : Bool) : userApply valid (firstTime out) (UserParams.full false) t = t := by
  have hb : firstTime out ≤ inf := by
    cases out with
    | nil => exact Nat.zero_le _
    | cons o os => exact (hall o (by simp)).2.le
  obtain ⟨h1, h2⟩ := fullRows_times (f := f) (p := p) hpw hall
  refine window_all hb t ?_ ?_ valid
  · rw [← h, List.pairwise_map] at h1
    exact h1
  · intro r hr
    exact h2 _ (h ▸ List.mem_map_of_mem hr)

/-- **C163 (again).** Open the file twice with the same parsers, without a window and normalisation. The two traces are the same if and only if CSV keeps the columns of all the events: a single column that it does
not keep makes them different. -/
theorem C163_same_iff {F : Type} (W : CacheWorld F) (hW : W.Ok) (fuel : Nat) (f : ReadText) (ps : List ParserClass) (hq : Askable fuel f (ps, UserParams.full false))
    (hw : WordsApart f [(ps, UserParams.full false)]) :
    ∃ first again, openings W fuel false [(ps, UserParams.full false), (ps, UserParams.full false)] ⟨f.lines, none⟩ = [.ok first, .ok again] ∧
      Opened f (ps, UserParams.full false) first ∧ (again = first ↔ ∀ p ∈ ps, ColumnsKept W f p) := by
  have hq' : ∀ q ∈ [(ps, UserParams.full false)], Askable fuel f q := by
    intro q h
    rw [List.mem_singleton.1 h]
    exact hq
  have hm : (ps, UserParams.full false) ∈ [(ps, UserParams.full false)] := List.mem_singleton.2 rfl
  obtain ⟨out, h1, h2, h3, h4, h5, h6⟩ := cached_tables (W := W) hq' hw hm
  have hall : allTables (W.env fuel) .ftrace f.lines (ps.map ParserClass.cached) = some (ps.map fun p => fillTable (fullRows f p out)) := allTables_map h6
  obtain ⟨-, hok, hne⟩ := fileReq_ok hq' hm
  have hfit := used_fit hq' hw
  have s1 := (run_cold (hW.basic fuel) hok (fs := ⟨f.lines, none⟩) hfit hne).1
  rw [← trace_unchanged_cold rfl] at s1
  obtain ⟨first, e1, ho⟩ := expected_opened (W := W) hq' hw hm
  have s2 := second_parse (hW.basic fuel) hok hfit hne hall (ts' := ps.map fun p => readTable W (fullRows f p out)) (by
    rw [List.forall₂_map_left_iff, List.forall₂_map_right_iff, List.forall₂_same]
    intro p _
    exact read_fill hW fuel _)
  refine ⟨first, ⟨baseOf (fileReq ps (UserParams.full false)).kind f.lines, endOf (fileReq ps (UserParams.full false)).kind f.lines, headerOf (fileReq ps (UserParams.full false)).kind f.lines,
    (ps.map fun p => readTable W (fullRows f p out)).map (userApply true (baseOf (fileReq ps (UserParams.full false)).kind f.lines) (fileReq ps (UserParams.full false)).user)⟩, ?_, ho, ?_⟩
  · rw [openings, openings, openings]
    simp only
    rw [s1, e1, s2]
  · have e2 : first = ⟨firstTime out, finalTime out, headerOf .ftrace f.lines, ps.map fun p => fillTable (fullRows f p out)⟩ := by
      unfold expected at e1
      have hall' : allTables (W.env fuel) (fileReq ps (UserParams.full false)).kind f.lines (fileReq ps (UserParams.full false)).classes = _ := hall
      rw [hall'] at e1
      cases e1
      have hb : baseOf (fileReq ps (UserParams.full false)).kind f.lines = firstTime out := h2
      have he : endOf (fileReq ps (UserParams.full false)).kind f.lines = finalTime out := h3
      rw [hb, he, List.map_map]
      congr 1
      refine List.map_congr_left fun p _ => ?_
      exact window_same (f := f) (p := p) h4.1 h5 _ (by simp [fillTable, Function.comp_def]) _
    have e3 : (ps.map fun p => readTable W (fullRows f p out)).map (userApply true (baseOf (fileReq ps (UserParams.full false)).kind f.lines) (fileReq ps (UserParams.full false)).user) =
        ps.map fun p => readTable W (fullRows f p out) := by
      have hb : baseOf (fileReq ps (UserParams.full false)).kind f.lines = firstTime out := h2
      rw [hb, List.map_map]
      refine List.map_congr_left fun p _ => ?_
      refine window_same (f := f) (p := p) h4.1 h5 _ ?_ _
      unfold readTable
      apply List.ext_getElem?
      intro i
      simp [List.getElem?_mapIdx, Function.comp_def]
    have hb : baseOf (fileReq ps (UserParams.full false)).kind f.lines = firstTime out := h2
    have he : endOf (fileReq ps (UserParams.full false)).kind f.lines = finalTime out := h3
    rw [e3, e2, hb, he]
    have hiff : (∀ p ∈ ps, ColumnsKept W f p) ↔ ∀ p ∈ ps, readTable W (fullRows f p out) = fillTable (fullRows f p out) := by
      constructor
      · intro h p hp
        exact (readTable_eq_iff hW _).2 (h p hp out h1)
      · intro h p hp out' ho'
        rw [ho'.unique h1]
        exact (readTable_eq_iff hW _).1 (h p hp)
    rw [hiff, Result.mk.injEq, ← List.map_inj_left]
    simp [fileReq]

/-- **Specification**: the texts that pandas takes for a missing value -/
def missingTexts : List Str :=
  [cs!"null", cs!"NULL", cs!"nan", cs!"NaN", cs!"NA", cs!"N/A", cs!"n/a", cs!"-nan", cs!"-NaN", cs!"#NA", cs!"#N/A"]

theorem tableWith_mem {cells : TraceEvent → List (Str × Val)} {ev : Str} {e : TraceEvent} : ∀ {is : List TraceItem} {k : Nat} {ts : List Nat},
    e ∈ TraceItem.eventsOf ev is → ts.length = (TraceItem.times is).length → ∃ n t, e.rowWith (cells e) n t ∈ TraceItem.tableWith cells ev k is ts
  | [], _, ts, h, _ => by cases h
  | .other l :: is, k, ts, h, hl => tableWith_mem (is := is) h hl
  | .event e' :: is, k, [], h, hl => by simp [TraceItem.times] at hl
  | .event e' :: is, k, t :: ts, h, hl => by
    have hl' : ts.length = (TraceItem.times is).length := by simpa [TraceItem.times] using hl
    unfold TraceItem.eventsOf at h
    unfold TraceItem.tableWith
    split at h
    · rename_i he
      rw [if_pos he]
      rcases List.mem_cons.1 h with rfl | h
      · exact ⟨k, t, by simp⟩
      · obtain ⟨n, t', h⟩ := tableWith_mem (k := k + 1) (ts := ts) h hl'
        exact ⟨n, t', List.mem_cons_of_mem _ h⟩
    · rename_i he
      rw [if_neg he]
      exact tableWith_mem h hl'

theorem shown_comm (name : Str) (e : TraceEvent) (cells : List (Str × Val)) (n t : Nat) :
    (shownCells name (e.rowWith cells n t).cells).get cs!"__comm" = some (.str e.line.comm) := by
  have h1 : shownColumn name cs!"__comm" = cs!"__comm" := by
    unfold shownColumn
    split
    · rfl
    · split
      · rfl
      · split
        · rfl
        · split <;> rfl
  have h2 : shownValue name cs!"__comm" (.str e.line.comm) = .str e.line.comm := by
    unfold shownValue
    rw [if_neg (by rintro ⟨_, h⟩; cases h), if_neg (by rintro ⟨_, h⟩; revert h; decide)]
  unfold shownCells TraceEvent.rowWith
  simp only [List.cons_append, List.map_cons, h1, h2]
  rw [Dict.get, if_pos rfl]

theorem natVal_small {s : Str} (h : s.length ≤ 15) (hd : ∀ c ∈ s, isDigit c = true) : natVal s < 2 ^ 63 := by
  have key : ∀ (s : Str) (a : Nat), (∀ c ∈ s, isDigit c = true) → Nat.ofDigitChars 10 s a < (a + 1) * 10 ^ s.length := by
    intro s
    induction s with
    | nil => intro a _; simp
    | cons c s ih =>
      intro a hc
      rw [Nat.ofDigitChars_cons]
      have h1 := ih (10 * a + (c.toNat - '0'.toNat)) fun c hc' => hc c (by simp [hc'])
      have h2 : c.toNat - '0'.toNat ≤ 9 := by
        have := hc c (by simp)
        unfold isDigit at this
        simp only [Char.isDigit, Bool.and_eq_true, decide_eq_true_eq, ge_iff_le, UInt32.le_iff_toNat_le] at this
        have h3 : c.toNat ≤ 57 := this.2
        have h4 : '0'.toNat = 48 := rfl
        omega
      calc _ < (10 * a + (c.toNat - '0'.toNat) + 1) * 10 ^ s.length := h1
        _ ≤ (10 * (a + 1)) * 10 ^ s.length := Nat.mul_le_mul_right _ (by omega)
        _ = _ := by rw [List.length_cons, pow_succ]; ring
  rw [natVal_eq]
  have h1 := key s 0 hd
  have h2 : (10 : Nat) ^ s.length ≤ 10 ^ 15 := Nat.pow_le_pow_right (by omega) h
  omega

/-- **C163 (refuted).** The trace is not the same when it is opened again if one of the tasks in the lines of an event has a name that pandas takes for a missing value, like `null`, or if all of them have names of
digits, like `007`. For all files and whatever else is in them. -/
theorem C163_names_refuted {F : Type} (W : CacheWorld F) (hW : W.Ok) (fuel : Nat) (f : ReadText) (ps : List ParserClass) (hq : Askable fuel f (ps, UserParams.full false))
    (hw : WordsApart f [(ps, UserParams.full false)]) (p : ParserClass) (hp : p ∈ ps)
    (h : (∃ e ∈ TraceItem.eventsOf p.event f.items, e.line.comm ∈ missingTexts) ∨
      (TraceItem.eventsOf p.event f.items ≠ [] ∧ ∀ e ∈ TraceItem.eventsOf p.event f.items, e.line.comm ≠ [] ∧ (∀ c ∈ e.line.comm, isDigit c = true) ∧ e.line.comm.length ≤ 15)) :
    ∃ first again, openings W fuel false [(ps, UserParams.full false), (ps, UserParams.full false)] ⟨f.lines, none⟩ = [.ok first, .ok again] ∧
      Opened f (ps, UserParams.full false) first ∧ again ≠ first := by
  obtain ⟨first, again, h1, h2, h3⟩ := C163_same_iff W hW fuel f ps hq hw
  refine ⟨first, again, h1, h2, fun he => ?_⟩
  have hk := h3.1 he p hp
  obtain ⟨out, hout, -⟩ := file_parts fuel ps hq.builtin hq.nodup f.header f.items hq.file.file f.cells hq.file.reads hq.file.masks
  have hcell : ∀ e ∈ TraceItem.eventsOf p.event f.items, (.str e.line.comm : CsvCell F) ∈ (fullRows f p out).map fun r => columnCell cs!"__comm" r.2 := by
    intro e hem
    obtain ⟨n, t, hmem⟩ := tableWith_mem (cells := f.cells p) (k := 0) hem hout.length
    refine List.mem_map.2 ⟨(t, shownCells p.name (e.rowWith (f.cells p e) n t).cells), List.mem_map.2 ⟨_, hmem, rfl⟩, ?_⟩
    simp only [columnCell, shown_comm]
  have hrow : ∀ c ∈ (fullRows f p out).map (fun r => (columnCell cs!"__comm" r.2 : CsvCell F)), ∃ e ∈ TraceItem.eventsOf p.event f.items, c = .str e.line.comm := by
    intro c hc
    obtain ⟨r', hr', rfl⟩ := List.mem_map.1 hc
    obtain ⟨r, hr, rfl⟩ := List.mem_map.1 hr'
    obtain ⟨-, e, hem, n, hre⟩ := mem_tableWith hr
    refine ⟨e, hem, ?_⟩
    rw [hre]
    simp only [columnCell, shown_comm]
  obtain ⟨e0, he0⟩ : ∃ e, e ∈ TraceItem.eventsOf p.event f.items := by
    rcases h with ⟨e, he, _⟩ | ⟨h, _⟩
    · exact ⟨e, he⟩
    · exact List.exists_mem_of_ne_nil _ h
  have hcol : HasColumn (fullRows f p out) cs!"__comm" := by
    obtain ⟨n, t, hmem⟩ := tableWith_mem (cells := f.cells p) (k := 0) he0 hout.length
    exact ⟨_, List.mem_map.2 ⟨_, hmem, rfl⟩, _, shown_comm p.name e0 (f.cells p e0) n t⟩
  have hok := hk out hout _ hcol
  have hm0 := hcell e0 he0
  have hdig : ∀ e ∈ TraceItem.eventsOf p.event f.items, (e.line.comm ≠ [] ∧ (∀ c ∈ e.line.comm, isDigit c = true) ∧ e.line.comm.length ≤ 15) →
      intCsv e.line.comm = some (natVal e.line.comm : Int) := by
    intro e _ hd
    unfold intCsv
    rw [strip_nospace fun c hc => digit_nospace (hd.2.1 c hc)]
    have hall : e.line.comm.all isDigit = true := by
      rw [List.all_eq_true]
      exact hd.2.1
    split
    · rename_i heq
      exact absurd (hd.2.1 '-' (by rw [heq]; simp)) (by decide)
    · rename_i heq
      exact absurd (hd.2.1 '+' (by rw [heq]; simp)) (by decide)
    · rw [if_pos ⟨hd.1, hall⟩]
  have hmiss : ∀ s ∈ missingTexts, s ∈ naTexts := by decide
  rcases hok with a | ⟨a, -⟩ | a | ⟨a, ⟨s, b1, b2⟩, -⟩ | ⟨a, -⟩ | ⟨a, s, i, b1, b2, b3⟩
  · obtain ⟨i, hi, -⟩ := a _ hm0
    cases hi
  · rcases a _ hm0 with hi | ⟨x, hi⟩ <;> cases hi
  · cases a _ hm0
  · rcases h with ⟨e, hem, hn⟩ | ⟨-, hd⟩
    · rcases a _ (hcell e hem) with hi | ⟨s', hi, hs⟩
      · cases hi
      · cases hi
        exact hs (hmiss _ hn)
    · obtain ⟨e, hem, hs⟩ := hrow _ b1
      cases hs
      rw [hdig e hem (hd e hem)] at b2
      cases b2
  · rcases a _ hm0 with hi | ⟨x, hi⟩ <;> cases hi
  · rcases h with ⟨e, hem, hn⟩ | ⟨-, hd⟩
    · obtain ⟨s', i', hi, hs, -⟩ := a _ (hcell e hem)
      cases hi
      exact hs (hmiss _ hn)
    · obtain ⟨e, hem, hs⟩ := hrow _ b1
      cases hs
      rw [hdig e hem (hd e hem)] at b2
      cases b2
      have := natVal_small (hd e hem).2.2 (hd e hem).2.1
      apply b3
      constructor
      · have : (0 : Int) ≤ (natVal e.line.comm : Int) := Int.natCast_nonneg _
        have h0 : (-2 ^ 63 : Int) ≤ 0 := by decide
        exact h0.trans this
      · exact_mod_cast this

/-! ## Examples -/

/-- external functions: times are written as numbers -/
def exWorld : CacheWorld Nat where
  md5 lines := lines.flatten
  dumpMeta := exDump
  loadMeta := exLoad
  floats := wholeFloats
  timeText := natStr
  timeOf s := some (natVal s)

theorem exWorld_ok : exWorld.Ok where
  json := exLoad_dump
  times t := congrArg some (natVal_natStr t)
  shown t := (nat_all_digits t).1
  floats := wholeFloats_ok

/-- the file of the examples -/
def exRead : ReadText := ⟨cs!"trace.txt", exHeader, exItems, fun _ => exCells⟩

theorem exRead_ask (u : UserParams) (hu : u.window.hi = none → u.absWindow.hi ≠ some 0) : Askable 5 exRead (exParsers, u) where
  builtin := (by decide +kernel : ∀ p ∈ exParsers, p ∈ builtins)
  nodup := (by decide +kernel : exParsers.Nodup)
  nonempty := (by decide : exParsers ≠ [])
  file := ⟨exFile_ok, exTrace_reads.1, exTrace_reads.2⟩
  window := hu

theorem exRead_words (us : List UserParams) : WordsApart exRead (us.map fun u => (exParsers, u)) := by
  intro q hq q' hq' p hp p' hp' l hl h1 h2
  obtain ⟨u, -, rfl⟩ := List.mem_map.1 hq
  obtain ⟨u', -, rfl⟩ := List.mem_map.1 hq'
  have key : ∀ l ∈ exRead.lines, ∀ p ∈ exParsers, ∀ p' ∈ exParsers, Py.contains p.word l = true → Py.contains p'.word l = true → p = p' := by decide +kernel
  exact key l hl p hp p' hp' ((contains_iff _ _).2 h1) ((contains_iff _ _).2 h2)

/-- if the traces of two openings are seen to be the same, the columns are kept -/
theorem kept_of_same (f : ReadText) (ps : List ParserClass) (hq : Askable 5 f (ps, UserParams.full false)) (hw : WordsApart f [(ps, UserParams.full false)])
    (h : (openings exWorld 5 false [(ps, UserParams.full false), (ps, UserParams.full false)] ⟨f.lines, none⟩)[0]? =
        (openings exWorld 5 false [(ps, UserParams.full false), (ps, UserParams.full false)] ⟨f.lines, none⟩)[1]?) : ∀ p ∈ ps, ColumnsKept exWorld f p := by
  obtain ⟨first, again, h1, h2, h3⟩ := C163_same_iff exWorld exWorld_ok 5 f ps hq hw
  rw [h1] at h
  have : (Outcome.ok first) = Outcome.ok again := by simpa using h
  cases this
  exact h3.1 rfl

theorem exRead_kept : ∀ p ∈ exParsers, ColumnsKept exWorld exRead p :=
  kept_of_same exRead exParsers (exRead_ask _ (by decide)) (exRead_words [UserParams.full false]) (by decide +kernel)

/-- C163: opened three times, with windows and normalisation; the columns are kept, since the trace is the same when it is opened again -/
example : ∃ qs : List (List ParserClass × UserParams), qs = [⟨true, ⟨0, none⟩, ⟨0, none⟩⟩, ⟨false, ⟨0, some (F64.ofRat 1 1)⟩, ⟨0, none⟩⟩, UserParams.full false].map (fun u => (exParsers, u)) ∧
    (∀ q ∈ qs, Askable 5 exRead q) ∧ WordsApart exRead qs ∧ ∀ q ∈ qs, ∀ p ∈ q.1, ColumnsKept exWorld exRead p := by
  refine ⟨_, rfl, ?_, exRead_words _, ?_⟩
  · intro q hq
    simp only [List.map_cons, List.map_nil, List.mem_cons, List.not_mem_nil, or_false] at hq
    rcases hq with rfl | rfl | rfl
    · exact exRead_ask _ (by decide)
    · exact exRead_ask _ (by decide)
    · exact exRead_ask _ (by decide)
  · intro q hq p hp
    refine exRead_kept p ?_
    simp only [List.map_cons, List.map_nil, List.mem_cons, List.not_mem_nil, or_false] at hq
    rcases hq with rfl | rfl | rfl <;> exact hp

/-- another file -/
def exReplaced : ReadText := ⟨cs!"trace.txt", [cs!"version = 7\n"], [.event (exEvent 4 cs!"cpu_frequency"), .event (exEvent 6 cs!"sched_wakeup")], fun _ => exCells⟩

theorem exReplaced_events {ev : Str} {e : TraceEvent} (he : e ∈ TraceItem.eventsOf ev exReplaced.items) : e = exEvent 4 cs!"cpu_frequency" ∨ e = exEvent 6 cs!"sched_wakeup" := by
  simp only [exReplaced, TraceItem.eventsOf] at he
  split at he <;> split at he <;> simp_all

theorem exReplaced_ask (u : UserParams) (hu : u.window.hi = none → u.absWindow.hi ≠ some 0) : Askable 5 exReplaced (exParsers, u) where
  builtin := (by decide +kernel : ∀ p ∈ exParsers, p ∈ builtins)
  nodup := (by decide +kernel : exParsers.Nodup)
  nonempty := (by decide : exParsers ≠ [])
  file := by
    refine ⟨⟨(by decide +kernel : ∀ l ∈ [cs!"version = 7\n"], _), ?_, ?_, by decide +kernel, by decide +kernel⟩, ?_, ?_⟩
    · intro i hi
      cases hi
      exact ⟨_, rfl⟩
    · intro i hi
      simp only [exReplaced, List.mem_cons, List.not_mem_nil, or_false] at hi
      rcases hi with rfl | rfl
      · exact ⟨exEvent_head _ _ (by decide +kernel) (by decide +kernel), exEvent_readable _ _ (Or.inl (by decide +kernel))⟩
      · exact ⟨exEvent_head _ _ (by decide +kernel) (by decide +kernel), exEvent_readable _ _ (Or.inl (by decide +kernel))⟩
    · intro p hp
      have hn : ∀ p ∈ exParsers, p.name ∉ ownParsing ∨ (TraceItem.eventsOf p.event exReplaced.items).length = 0 := by decide +kernel
      refine .plain fun e he => ?_
      rcases hn p hp with hn | hn
      · have key : ∀ secs ev, (exEvent secs ev).PlainRead p.name (exCells (exEvent secs ev)) := by
          intro secs ev
          have wf := exEvent_wf secs ev
          exact ⟨.fields (exEvent secs ev).fields (exEvent secs ev).value (exEvent secs ev).line.data hn wf.fields wf.keys wf.value wf.data, wf.brace,
            by simpa [exCells, Function.comp_def] using wf.keys, by
              intro x hx
              obtain ⟨f, hf, rfl⟩ := List.mem_map.mp hx
              exact wf.header f hf⟩
        rcases exReplaced_events he with rfl | rfl <;> exact key _ _
      · rw [List.length_eq_zero_iff.mp hn] at he
        cases he
    · intro p hp hsg
      have : ∀ p ∈ exParsers, p.name ≠ cs!"sched_load_avg_sg" := by decide +kernel
      exact absurd hsg (this p hp)
  window := hu

theorem exReplaced_words (us : List UserParams) : WordsApart exReplaced (us.map fun u => (exParsers, u)) := by
  intro q hq q' hq' p hp p' hp' l hl h1 h2
  obtain ⟨u, -, rfl⟩ := List.mem_map.1 hq
  obtain ⟨u', -, rfl⟩ := List.mem_map.1 hq'
  have key : ∀ l ∈ exReplaced.lines, ∀ p ∈ exParsers, ∀ p' ∈ exParsers, Py.contains p.word l = true → Py.contains p'.word l = true → p = p' := by decide +kernel
  exact key l hl p hp p' hp' ((contains_iff _ _).2 h1) ((contains_iff _ _).2 h2)

/-- C163: the file is replaced by another one, and back again -/
example : ∃ steps : List (ReadText × List ParserClass × UserParams),
    steps = [(exRead, exParsers, UserParams.full false), (exReplaced, exParsers, UserParams.full true), (exRead, exParsers, UserParams.full true)] ∧
    (∀ s ∈ steps, ∀ s' ∈ steps, exWorld.md5 s.1.lines = exWorld.md5 s'.1.lines → s.1.lines = s'.1.lines) ∧
    (∀ s ∈ steps, ∀ s' ∈ steps, Askable 5 s.1 s'.2) ∧ (∀ s ∈ steps, WordsApart s.1 (steps.map Prod.snd)) ∧
    (∀ s ∈ steps, ∀ s' ∈ steps, ∀ p ∈ s'.2.1, ColumnsKept exWorld s.1 p) := by
  have hother : ∀ p ∈ exParsers, ColumnsKept exWorld exReplaced p :=
    kept_of_same exReplaced exParsers (exReplaced_ask _ (by decide)) (exReplaced_words [UserParams.full false]) (by decide +kernel)
  refine ⟨_, rfl, ?_, ?_, ?_, ?_⟩
  · intro s hs s' hs'
    simp only [List.mem_cons, List.not_mem_nil, or_false] at hs hs'
    rcases hs with rfl | rfl | rfl <;> rcases hs' with rfl | rfl | rfl
    · exact fun _ => rfl
    · exact fun h => absurd h (by decide +kernel)
    · exact fun _ => rfl
    · exact fun h => absurd h (by decide +kernel)
    · exact fun _ => rfl
    · exact fun h => absurd h (by decide +kernel)
    · exact fun _ => rfl
    · exact fun h => absurd h (by decide +kernel)
    · exact fun _ => rfl
  · intro s hs s' hs'
    simp only [List.mem_cons, List.not_mem_nil, or_false] at hs hs'
    rcases hs with rfl | rfl | rfl <;> rcases hs' with rfl | rfl | rfl <;> first | exact exRead_ask _ (by decide) | exact exReplaced_ask _ (by decide)
  · intro s hs
    simp only [List.mem_cons, List.not_mem_nil, or_false] at hs
    rcases hs with rfl | rfl | rfl
    · exact exRead_words [UserParams.full false, UserParams.full true, UserParams.full true]
    · exact exReplaced_words [UserParams.full false, UserParams.full true, UserParams.full true]
    · exact exRead_words [UserParams.full false, UserParams.full true, UserParams.full true]
  · intro s hs s' hs'
    simp only [List.mem_cons, List.not_mem_nil, or_false] at hs hs'
    rcases hs with rfl | rfl | rfl <;> rcases hs' with rfl | rfl | rfl
    · exact exRead_kept
    · exact exRead_kept
    · exact exRead_kept
    · exact hother
    · exact hother
    · exact hother
    · exact exRead_kept
    · exact exRead_kept
    · exact exRead_kept

/-- an event of a task with a name of digits -/
def exNamed (secs : Nat) : TraceEvent := { exEvent secs cs!"sched_wakeup" with line := { (exEvent secs cs!"sched_wakeup").line with comm := cs!"007" } }

/-- two lines of the task, and one that is no event -/
def exNamedRead : ReadText := ⟨cs!"trace.txt", exHeader, [.event (exNamed 3), .other cs!"CPU 2 is empty\n", .event (exNamed 4)], fun _ => exCells⟩

/-- the parser that reads them -/
def exNamedParsers : List ParserClass := [dynamicClass cs!"SchedWakeup" cs!"sched_wakeup:" true]

theorem exNamed_head (secs : Nat) (hw : (exNamed secs).line.wfB = true) (hb : (secs : ℚ) + (567891 : Nat) / 10 ^ 6 ≤ val (inf - 1)) (hw' : (exEvent secs cs!"sched_wakeup").line.wfB = true) :
    (exNamed secs).Head := by
  have h := exEvent_head secs cs!"sched_wakeup" hw' hb
  exact ⟨PrintedLine.wf_of_wfB hw, h.pid, h.cpu, h.time, h.trail, h.last, h.bracket, h.plain⟩

theorem exNamed_readable (secs : Nat) : (exNamed secs).Readable exNamedParsers where
  comm := by
    intro p hp hc
    rw [← contains_iff] at hc
    have : ∀ p ∈ exNamedParsers, Py.contains p.word cs!"007" = false := by decide +kernel
    exact absurd hc (by rw [show (exNamed secs).line.comm = cs!"007" from rfl, this p hp]; decide)
  data := by
    intro p hp hc
    rw [← contains_iff] at hc
    have : ∀ p ∈ exNamedParsers, Py.contains p.word (exEvent 0 []).line.data = false := by decide +kernel
    exact absurd hc (by rw [show (exNamed secs).line.data = (exEvent 0 []).line.data from rfl, this p hp]; decide)
  event := Or.inl ⟨_, List.mem_singleton.2 rfl, by
    show cs!"sched_wakeup" = _
    decide +kernel⟩

theorem exNamed_events {ev : Str} {e : TraceEvent} (he : e ∈ TraceItem.eventsOf ev exNamedRead.items) : e = exNamed 3 ∨ e = exNamed 4 := by
  simp only [exNamedRead, TraceItem.eventsOf] at he
  split at he <;> split at he <;> simp_all

theorem exNamed_ask (u : UserParams) (hu : u.window.hi = none → u.absWindow.hi ≠ some 0) : Askable 5 exNamedRead (exNamedParsers, u) where
  builtin := (by decide +kernel : ∀ p ∈ exNamedParsers, p ∈ builtins)
  nodup := (by decide +kernel : exNamedParsers.Nodup)
  nonempty := (by decide : exNamedParsers ≠ [])
  file := by
    refine ⟨⟨(by decide +kernel : ∀ l ∈ exHeader, _), ?_, ?_, ?_, ?_⟩, ?_, ?_⟩
    · intro i hi
      cases hi
      exact ⟨_, rfl⟩
    · intro i hi
      simp only [exNamedRead, List.mem_cons, List.not_mem_nil, or_false] at hi
      rcases hi with rfl | rfl | rfl
      · exact ⟨exNamed_head _ (by decide +kernel) (by decide +kernel) (by decide +kernel), exNamed_readable _⟩
      · show parseLine _ = none
        decide +kernel
      · exact ⟨exNamed_head _ (by decide +kernel) (by decide +kernel) (by decide +kernel), exNamed_readable _⟩
    · decide +kernel
    · decide +kernel
    · intro p hp
      rw [List.mem_singleton.1 hp]
      refine .plain fun e he => ?_
      have hn : (dynamicClass cs!"SchedWakeup" cs!"sched_wakeup:" true).name ∉ ownParsing := by decide +kernel
      have key : ∀ secs, (exNamed secs).PlainRead (dynamicClass cs!"SchedWakeup" cs!"sched_wakeup:" true).name (exCells (exNamed secs)) := by
        intro secs
        have wf := exEvent_wf secs cs!"sched_wakeup"
        exact ⟨.fields (exNamed secs).fields (exNamed secs).value (exNamed secs).line.data hn wf.fields wf.keys wf.value wf.data, wf.brace,
          by simpa [exCells, Function.comp_def] using (show ((exNamed secs).fields.map Field.key).Nodup from wf.keys), by
            intro x hx
            obtain ⟨f, hf, rfl⟩ := List.mem_map.mp hx
            exact wf.header f hf⟩
      rcases exNamed_events he with rfl | rfl <;> exact key _
    · intro p hp hsg
      rw [List.mem_singleton.1 hp] at hsg
      exact absurd hsg (by decide +kernel)
  window := hu

/-- C163: the task `007` -/
example : Askable 5 exNamedRead (exNamedParsers, UserParams.full false) ∧ WordsApart exNamedRead [(exNamedParsers, UserParams.full false)] ∧
    (∀ p ∈ exNamedParsers, TraceItem.eventsOf p.event exNamedRead.items ≠ [] ∧
      ∀ e ∈ TraceItem.eventsOf p.event exNamedRead.items, e.line.comm ≠ [] ∧ (∀ c ∈ e.line.comm, isDigit c = true) ∧ e.line.comm.length ≤ 15) ∧
    ((openings exWorld 5 false [(exNamedParsers, UserParams.full false), (exNamedParsers, UserParams.full false)] ⟨exNamedRead.lines, none⟩).map fun o =>
      match o with
      | .ok res => some (res.tables.map fun t => t.map fun r => r.2.get cs!"__comm")
      | _ => none) = [some [[some (.str cs!"007"), some (.str cs!"007")]], some [[some (.int 7), some (.int 7)]]] := by
  refine ⟨exNamed_ask _ (by decide), ?_, ?_, by decide +kernel⟩
  · intro q hq q' hq' p hp p' hp' l hl h1 h2
    rw [List.mem_singleton.1 hq] at hp
    rw [List.mem_singleton.1 hq'] at hp'
    rw [List.mem_singleton.1 hp, List.mem_singleton.1 hp']
  · intro p hp
    rw [List.mem_singleton.1 hp]
    refine ⟨?_, ?_⟩
    · have : (TraceItem.eventsOf (dynamicClass cs!"SchedWakeup" cs!"sched_wakeup:" true).event exNamedRead.items).length = 2 := by decide +kernel
      intro h
      rw [h] at this
      cases this
    · intro e he
      rcases exNamed_events he with rfl | rfl <;> exact ⟨by decide, by decide, by decide⟩

end Trappy
