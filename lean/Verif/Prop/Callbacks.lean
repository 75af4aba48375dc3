import Verif.Model.Callbacks
import Verif.Lemma.Data
/-!
# C41: callbacks
-/

namespace Trappy

/-- the rows left, each with the name of its event -/
def CbIter.rows {β : Type} (e : CbIter β) : List (Nat × β) := e.next :: e.rest

/-- number of rows left -/
def cbCount {β : Type} (es : List (CbIter β)) : Nat := (es.map fun e => e.rows.length).sum

theorem cbMin_spec {β : Type} (es : List (CbIter β)) (b : CbIter β) :
    cbMin b es ∈ b :: es ∧ ∀ e ∈ b :: es, (cbMin b es).next.1 ≤ e.next.1 := by
  induction es generalizing b with
  | nil => simp [cbMin]
  | cons x xs ih =>
    unfold cbMin
    split
    · rename_i h
      obtain ⟨h1, h2⟩ := ih x
      refine ⟨List.mem_cons_of_mem _ h1, ?_⟩
      intro e he
      rcases List.mem_cons.mp he with rfl | he
      · exact Nat.le_trans (h2 x (by simp)) (Nat.le_of_lt h)
      · exact h2 e he
    · rename_i h
      obtain ⟨h1, h2⟩ := ih b
      refine ⟨?_, ?_⟩
      · rcases List.mem_cons.mp h1 with h1 | h1
        · rw [h1]; simp
        · simp [h1]
      · intro e he
        rcases List.mem_cons.mp he with rfl | he
        · exact h2 e (by simp)
        · rcases List.mem_cons.mp he with rfl | he
          · exact Nat.le_trans (h2 b (by simp)) (by omega)
          · exact h2 e (by simp [he])

/-- the rows left of an event, by name -/
def rowsOf {β : Type} (n : Str) (es : List (CbIter β)) : List (Nat × β) :=
  (es.filter fun e => e.name = n).flatMap CbIter.rows

theorem rowsOf_none {β : Type} (n : Str) (es : List (CbIter β)) (h : n ∉ es.map CbIter.name) : rowsOf n es = [] := by
  unfold rowsOf
  have : (es.filter fun e => e.name = n) = [] := by
    rw [List.filter_eq_nil_iff]
    intro e he
    simp only [decide_eq_true_eq]
    rintro rfl
    exact h (List.mem_map.mpr ⟨e, he, rfl⟩)
  rw [this]; rfl

theorem rowsOf_mem {β : Type} (es : List (CbIter β)) (hn : (es.map CbIter.name).Nodup) (b : CbIter β) (hb : b ∈ es) :
    rowsOf b.name es = b.rows := by
  induction es with
  | nil => simp at hb
  | cons e es ih =>
    rw [List.map_cons, List.nodup_cons] at hn
    by_cases h : e.name = b.name
    · have hbe : b = e := by
        rcases List.mem_cons.mp hb with rfl | hb
        · rfl
        · exact absurd (h ▸ List.mem_map.mpr ⟨b, hb, rfl⟩) hn.1
      subst hbe
      have := rowsOf_none b.name es hn.1
      unfold rowsOf at this ⊢
      rw [List.filter_cons_of_pos (by simp), List.flatMap_cons, this]
      simp
    · rcases List.mem_cons.mp hb with rfl | hb
      · exact absurd rfl h
      · unfold rowsOf
        rw [List.filter_cons_of_neg (by simpa using h)]
        exact ih hn.2 hb

theorem cbAdvance_names {β : Type} (n : Str) (es : List (CbIter β)) : ((cbAdvance n es).map CbIter.name).Sublist (es.map CbIter.name) := by
  induction es with
  | nil => simp [cbAdvance]
  | cons e es ih =>
    unfold cbAdvance
    split
    · split
      · simp
      · simp
    · simp only [List.map_cons]; exact ih.cons_cons _

theorem cbAdvance_other {β : Type} (n k : Str) (es : List (CbIter β)) (h : k ≠ n) : rowsOf k (cbAdvance n es) = rowsOf k es := by
  induction es with
  | nil => rfl
  | cons e es ih =>
    unfold cbAdvance
    split
    · rename_i he
      have hk : ¬ e.name = k := by rw [he]; exact fun h' => h h'.symm
      split
      · unfold rowsOf; rw [List.filter_cons_of_neg (by simpa using hk)]
      · unfold rowsOf
        rw [List.filter_cons_of_neg (by simpa using hk), List.filter_cons_of_neg (by simpa using hk)]
    · unfold rowsOf at ih ⊢
      rw [List.filter_cons, List.filter_cons]
      split
      · rw [List.flatMap_cons, List.flatMap_cons, ih]
      · exact ih

theorem cbAdvance_same {β : Type} (es : List (CbIter β)) (hn : (es.map CbIter.name).Nodup) (b : CbIter β) (hb : b ∈ es) :
    rowsOf b.name (cbAdvance b.name es) = b.rest ∧ cbCount (cbAdvance b.name es) + 1 = cbCount es := by
  induction es with
  | nil => simp at hb
  | cons e es ih =>
    rw [List.map_cons, List.nodup_cons] at hn
    by_cases h : e.name = b.name
    · have hbe : b = e := by
        rcases List.mem_cons.mp hb with rfl | hb
        · rfl
        · exact absurd (h ▸ List.mem_map.mpr ⟨b, hb, rfl⟩) hn.1
      subst hbe
      have h0 := rowsOf_none b.name es hn.1
      unfold cbAdvance
      rw [if_pos rfl]
      cases hr : b.rest with
      | nil =>
        refine ⟨h0, ?_⟩
        simp [cbCount, CbIter.rows, hr]; omega
      | cons r rs =>
        refine ⟨?_, ?_⟩
        · unfold rowsOf at h0 ⊢
          rw [List.filter_cons_of_pos (by simp), List.flatMap_cons, h0]
          simp [CbIter.rows]
        · simp [cbCount, CbIter.rows, hr]; omega
    · rcases List.mem_cons.mp hb with rfl | hb
      · exact absurd rfl h
      · obtain ⟨i1, i2⟩ := ih hn.2 hb
        unfold cbAdvance
        rw [if_neg h]
        refine ⟨?_, ?_⟩
        · unfold rowsOf at i1 ⊢
          rw [List.filter_cons_of_neg (by simpa using h)]
          exact i1
        · simp only [cbCount, List.map_cons, List.sum_cons] at i2 ⊢
          omega

theorem cbAdvance_mem {β : Type} (n : Str) (es : List (CbIter β)) (e : CbIter β) (he : e ∈ cbAdvance n es) :
    ∃ e0 ∈ es, ∀ r ∈ e.rows, r ∈ e0.rows := by
  induction es with
  | nil => simp [cbAdvance] at he
  | cons x xs ih =>
    unfold cbAdvance at he
    split at he
    · split at he
      · exact ⟨e, by simp [he], fun r h => h⟩
      · rename_i r rs hr
        rcases List.mem_cons.mp he with rfl | he
        · exact ⟨x, by simp, fun r' h => by simp [CbIter.rows] at h ⊢; rw [hr]; right; simpa using h⟩
        · exact ⟨e, by simp [he], fun r h => h⟩
    · rcases List.mem_cons.mp he with rfl | he
      · exact ⟨e, by simp, fun r h => h⟩
      · obtain ⟨e0, h0, h⟩ := ih he
        exact ⟨e0, by simp [h0], h⟩

theorem cbAdvance_sorted {β : Type} (n : Str) (es : List (CbIter β)) (h : ∀ e ∈ es, (e.rows.map Prod.fst).Pairwise (· ≤ ·)) :
    ∀ e ∈ cbAdvance n es, (e.rows.map Prod.fst).Pairwise (· ≤ ·) := by
  induction es with
  | nil => simp [cbAdvance]
  | cons x xs ih =>
    intro e he
    unfold cbAdvance at he
    split at he
    · split at he
      · exact h e (by simp [he])
      · rename_i r rs hr
        rcases List.mem_cons.mp he with rfl | he
        · have := h x (by simp)
          rw [CbIter.rows, hr, List.map_cons, List.pairwise_cons] at this
          exact this.2
        · exact h e (by simp [he])
    · rcases List.mem_cons.mp he with rfl | he
      · exact h e (by simp)
      · exact ih (fun e he => h e (by simp [he])) e he

/-- the loop visits all rows of each event in their order -/
theorem cbLoop_rows {β : Type} (n : Str) (fuel : Nat) : ∀ es : List (CbIter β), (es.map CbIter.name).Nodup → cbCount es ≤ fuel →
    ((cbLoop fuel es).filter fun c => c.1 = n).map Prod.snd = rowsOf n es := by
  induction fuel with
  | zero =>
    intro es hn hc
    cases es with
    | nil => rfl
    | cons e es => simp [cbCount, CbIter.rows] at hc
  | succ fuel ih =>
    intro es hn hc
    cases es with
    | nil => rfl
    | cons e es =>
      obtain ⟨hmem, _⟩ := cbMin_spec es e
      generalize hb : cbMin e es = b at hmem
      simp only [cbLoop, hb]
      obtain ⟨h1, h2⟩ := cbAdvance_same (e :: es) hn b hmem
      have hih := ih (cbAdvance b.name (e :: es)) (hn.sublist (cbAdvance_names _ _)) (by omega)
      by_cases h : b.name = n
      · rw [List.filter_cons_of_pos (by simpa using h), List.map_cons, hih]
        subst h
        rw [h1, rowsOf_mem (e :: es) hn b hmem]
        rfl
      · rw [List.filter_cons_of_neg (by simpa using h), hih]
        exact cbAdvance_other b.name n (e :: es) (fun h' => h h'.symm)

theorem cbLoop_names {β : Type} (fuel : Nat) : ∀ es : List (CbIter β), ∀ c ∈ cbLoop fuel es, ∃ e ∈ es, c.1 = e.name ∧ c.2 ∈ e.rows := by
  induction fuel with
  | zero => intro es c hc; simp [cbLoop] at hc
  | succ fuel ih =>
    intro es c hc
    cases es with
    | nil => simp [cbLoop] at hc
    | cons e es =>
      simp only [cbLoop, List.mem_cons] at hc
      rcases hc with rfl | hc
      · exact ⟨cbMin e es, (cbMin_spec es e).1, rfl, by simp [CbIter.rows]⟩
      · obtain ⟨e1, h1, h2, h3⟩ := ih _ c hc
        have : ∀ (n : Str) (es : List (CbIter β)), ∀ e1 ∈ cbAdvance n es, ∃ e0 ∈ es, e1.name = e0.name ∧ ∀ r ∈ e1.rows, r ∈ e0.rows := by
          intro n es
          induction es with
          | nil => intro e1 h; simp [cbAdvance] at h
          | cons x xs ihx =>
            intro e1 he
            unfold cbAdvance at he
            split at he
            · split at he
              · exact ⟨e1, by simp [he], rfl, fun r h => h⟩
              · rename_i r rs hr
                rcases List.mem_cons.mp he with rfl | he
                · exact ⟨x, by simp, rfl, fun r' h => by simp [CbIter.rows] at h ⊢; rw [hr]; right; simpa using h⟩
                · exact ⟨e1, by simp [he], rfl, fun r h => h⟩
            · rcases List.mem_cons.mp he with rfl | he
              · exact ⟨e1, by simp, rfl, fun r h => h⟩
              · obtain ⟨e0, h0, h⟩ := ihx e1 he
                exact ⟨e0, by simp [h0], h⟩
        obtain ⟨e0, g1, g2, g3⟩ := this _ _ e1 h1
        exact ⟨e0, g1, h2.trans g2, g3 _ h3⟩

theorem cbLoop_sorted {β : Type} (fuel : Nat) : ∀ es : List (CbIter β), (∀ e ∈ es, (e.rows.map Prod.fst).Pairwise (· ≤ ·)) →
    ((cbLoop fuel es).map fun c => c.2.1).Pairwise (· ≤ ·) := by
  induction fuel with
  | zero => intro es _; simp [cbLoop]
  | succ fuel ih =>
    intro es hs
    cases es with
    | nil => simp [cbLoop]
    | cons e es =>
      obtain ⟨hmem, hmin⟩ := cbMin_spec es e
      simp only [cbLoop, List.map_cons, List.pairwise_cons]
      refine ⟨?_, ih _ (cbAdvance_sorted _ _ hs)⟩
      intro l hl
      obtain ⟨c, hc, rfl⟩ := List.mem_map.mp hl
      obtain ⟨e1, he1, _, hr⟩ := cbLoop_names _ _ c hc
      obtain ⟨e0, he0, hsub⟩ := cbAdvance_mem _ _ e1 he1
      have hle := hmin e0 he0
      have hin := hsub _ hr
      have hsort := hs e0 he0
      rw [CbIter.rows, List.map_cons, List.pairwise_cons] at hsort
      rcases List.mem_cons.mp hin with h | h
      · rw [h]; exact hle
      · exact Nat.le_trans hle (hsort.1 _ (List.mem_map.mpr ⟨_, h, rfl⟩))

theorem cbStart_names {β : Type} (ts : List (Str × List (Nat × β))) : ((cbStart ts).map CbIter.name).Sublist (ts.map Prod.fst) := by
  induction ts with
  | nil => simp [cbStart]
  | cons t ts ih =>
    obtain ⟨n, rs⟩ := t
    cases rs with
    | nil => simp only [cbStart, List.map_cons]; exact ih.cons _
    | cons r rs => simp only [cbStart, List.map_cons]; exact ih.cons_cons _

theorem cbStart_count {β : Type} (ts : List (Str × List (Nat × β))) : cbCount (cbStart ts) = (ts.map fun t => t.2.length).sum := by
  induction ts with
  | nil => rfl
  | cons t ts ih =>
    obtain ⟨n, rs⟩ := t
    cases rs with
    | nil => simpa [cbStart] using ih
    | cons r rs =>
      simp only [cbStart, cbCount, List.map_cons, List.sum_cons] at ih ⊢
      rw [ih]
      simp [CbIter.rows]

theorem cbStart_rows {β : Type} (ts : List (Str × List (Nat × β))) (hn : (ts.map Prod.fst).Nodup) (n : Str) (rows : List (Nat × β))
    (h : (n, rows) ∈ ts) : rowsOf n (cbStart ts) = rows := by
  induction ts with
  | nil => simp at h
  | cons t ts ih =>
    obtain ⟨k, rs⟩ := t
    rw [List.map_cons, List.nodup_cons] at hn
    rcases List.mem_cons.mp h with h | h
    · simp only [Prod.mk.injEq] at h
      obtain ⟨rfl, rfl⟩ := h
      have h0 : rowsOf n (cbStart ts) = [] := rowsOf_none _ _ (fun hm => hn.1 ((cbStart_names ts).subset hm))
      cases rows with
      | nil => exact h0
      | cons r rs =>
        unfold rowsOf at h0 ⊢
        rw [cbStart, List.filter_cons_of_pos (by simp), List.flatMap_cons, h0]
        simp [CbIter.rows]
    · have hk : k ≠ n := by rintro rfl; exact hn.1 (List.mem_map.mpr ⟨_, h, rfl⟩)
      have := ih hn.2 h
      cases rs with
      | nil => exact this
      | cons r rs =>
        unfold rowsOf at this ⊢
        rw [cbStart, List.filter_cons_of_neg (by simpa using hk)]
        exact this

/-- **C41.** For every set of tables: the callback of each selected event is called exactly once for each row of its table,
in the order of the table; no other callback is called; and if each table is in the order of its lines, so are all calls. -/
theorem C41_callbacks {β : Type} (tables : List (Str × List (Nat × β))) (hn : (tables.map Prod.fst).Nodup) :
    (∀ n rows, (n, rows) ∈ tables → ((applyCallbacks tables).filter fun c => c.1 = n).map Prod.snd = rows) ∧
    (∀ c ∈ applyCallbacks tables, c.1 ∈ tables.map Prod.fst) ∧
    ((∀ t ∈ tables, (t.2.map Prod.fst).Pairwise (· ≤ ·)) → ((applyCallbacks tables).map fun c => c.2.1).Pairwise (· ≤ ·)) := by
  refine ⟨?_, ?_, ?_⟩
  · intro n rows h
    unfold applyCallbacks
    rw [cbLoop_rows n _ _ (hn.sublist (cbStart_names tables)) (by rw [cbStart_count]; exact Nat.le_refl _)]
    exact cbStart_rows tables hn n rows h
  · intro c hc
    obtain ⟨e, he, h1, _⟩ := cbLoop_names _ _ c hc
    rw [h1]
    exact (cbStart_names tables).subset (List.mem_map.mpr ⟨e, he, rfl⟩)
  · intro hs
    apply cbLoop_sorted
    clear hn
    induction tables with
    | nil => simp [cbStart]
    | cons t ts ih =>
      obtain ⟨k, rs⟩ := t
      intro e he
      have ih := ih (fun t ht => hs t (by simp [ht]))
      cases rs with
      | nil => exact ih e he
      | cons r rs =>
        simp only [cbStart, List.mem_cons] at he
        rcases he with rfl | he
        · exact hs (k, r :: rs) (by simp)
        · exact ih e he

/-- **C41.** The calls are as many as there are rows: nothing is called twice. -/
theorem C41_count {β : Type} (tables : List (Str × List (Nat × β))) (hn : (tables.map Prod.fst).Nodup) :
    (applyCallbacks tables).length = (tables.map fun t => t.2.length).sum := by
  have : ∀ (fuel : Nat) (es : List (CbIter β)), (es.map CbIter.name).Nodup → cbCount es = fuel → (cbLoop fuel es).length = fuel := by
    intro fuel
    induction fuel with
    | zero => intro es _ _; rfl
    | succ fuel ih =>
      intro es hn hc
      cases es with
      | nil => simp [cbCount] at hc
      | cons e es =>
        obtain ⟨_, h2⟩ := cbAdvance_same (e :: es) hn (cbMin e es) (cbMin_spec es e).1
        simp only [cbLoop, List.length_cons]
        rw [ih _ (hn.sublist (cbAdvance_names _ _)) (by omega)]
  exact this _ _ (hn.sublist (cbStart_names tables)) (cbStart_count tables)

theorem colIdxs_eq (cols : List Str) (h : (cs!"Index" :: cols).Nodup) : colIdxs cols = (cs!"Index" :: cols).zipIdx := by
  have : ∀ (l : List (Str × Nat)) (d : Dict Nat), (d.map Prod.fst ++ l.map Prod.fst).Nodup →
      l.foldl (fun d x => d.set x.1 x.2) d = d ++ l := by
    intro l
    induction l with
    | nil => intro d _; simp
    | cons x l ih =>
      intro d hd
      have hx : x.1 ∉ d.map Prod.fst := by
        intro hm
        rw [List.nodup_append] at hd
        exact hd.2.2 x.1 hm x.1 (by simp) rfl
      have hset : d.set x.1 x.2 = d ++ [(x.1, x.2)] := by
        clear hd ih
        induction d with
        | nil => rfl
        | cons y d ih =>
          obtain ⟨k', v'⟩ := y
          simp only [List.map_cons, List.mem_cons, not_or] at hx
          simp only [Dict.set, List.cons_append]
          rw [if_neg (fun e => hx.1 e.symm), ih hx.2]
      rw [List.foldl_cons, hset, ih]
      · simp
      · simpa using hd
  unfold colIdxs
  rw [this _ [] ?_]
  · simp
  · simpa using h

/-- **C41.** The dictionary given to a callback: the index and every column with the cell of the row. -/
theorem C41_dict {α : Type} (cols : List Str) (index : α) (cells : List α) (hlen : cells.length = cols.length)
    (h : (cs!"Index" :: cols).Nodup) : eventDict cols (index :: cells) = (cs!"Index" :: cols).zip ((index :: cells).map some) := by
  unfold eventDict
  rw [colIdxs_eq cols h]
  have : ∀ (names : List Str) (vals pre : List α), vals.length = names.length →
      ((names.zipIdx pre.length).map fun x => (x.1, (pre ++ vals)[x.2]?)) = names.zip (vals.map some) := by
    intro names
    induction names with
    | nil => intro vals pre _; simp
    | cons n names ih =>
      intro vals pre hl
      cases vals with
      | nil => simp at hl
      | cons v vals =>
        have := ih vals (pre ++ [v]) (by simpa using hl)
        simp only [List.length_append, List.length_cons, List.length_nil, List.append_assoc, List.cons_append, List.nil_append] at this
        simp only [List.zipIdx_cons, List.map_cons, List.zip_cons_cons]
        rw [this]
        simp
  exact this (cs!"Index" :: cols) (index :: cells) [] (by simp [hlen])

/-- three tables, one of them empty -/
example : applyCallbacks [(cs!"a", [(0, 10), (3, 11), (4, 12)]), (cs!"b", []), (cs!"c", [(1, 20), (2, 21), (7, 22)])] =
    [(cs!"a", 0, 10), (cs!"c", 1, 20), (cs!"c", 2, 21), (cs!"a", 3, 11), (cs!"a", 4, 12), (cs!"c", 7, 22)] ∧
    eventDict [cs!"__line", cs!"cpu"] [100, 0, 3] = [(cs!"Index", some 100), (cs!"__line", some 0), (cs!"cpu", some 3)] := by
  decide +kernel

end Trappy
