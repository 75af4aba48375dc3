import Verif.Spec.Whole
/-!
# C134: a whole trace
-/

namespace Trappy
open F64 Py

/-! ## Payloads -/

theorem intStr_brace (i : Int) : ∀ c ∈ intStr i, c ≠ '{' ∧ c ≠ '}' := by
  intro c hc
  have hd : ∀ c, isDigit c = true → c ≠ '{' ∧ c ≠ '}' := by
    intro c h
    constructor <;> (rintro rfl; revert h; decide)
  unfold intStr natStr at hc
  split at hc
  · rcases List.mem_cons.mp hc with rfl | hc
    · decide
    · exact hd _ (dec_isDigit c hc)
  · exact hd _ (dec_isDigit c hc)

theorem bind_result {α β : Type} {o : Option α} {f : α → Option β} {P : β → Prop} {t : β}
    (h : o.bind f = some t) (hf : ∀ a t, f a = some t → P t) : P t := by
  cases o with
  | none => cases h
  | some a => exact hf a t h

theorem sysEnter_brace {data t : Str} (h : sysEnterExplode data = some t) : ∀ c ∈ t, c ≠ '{' ∧ c ≠ '}' := by
  unfold sysEnterExplode at h
  simp only [bind] at h
  refine bind_result (P := fun t : Str => ∀ c ∈ t, c ≠ '{' ∧ c ≠ '}') h fun x t h => ?_
  iterate 14 refine bind_result (P := fun t : Str => ∀ c ∈ t, c ≠ '{' ∧ c ≠ '}') h fun x t h => ?_
  cases h
  intro c hc
  simp only [List.mem_append] at hc
  rcases hc with ((((((((((((hc | hc) | hc) | hc) | hc) | hc) | hc) | hc) | hc) | hc) | hc) | hc) | hc) | hc
  all_goals first
    | exact intStr_brace _ c hc
    | (revert c; decide)

theorem sysExit_brace {data t : Str} (h : sysExitExplode data = some t) : ∀ c ∈ t, c ≠ '{' ∧ c ≠ '}' := by
  unfold sysExitExplode at h
  simp only [bind] at h
  refine bind_result (P := fun t : Str => ∀ c ∈ t, c ≠ '{' ∧ c ≠ '}') h fun x t h => ?_
  iterate 4 refine bind_result (P := fun t : Str => ∀ c ∈ t, c ≠ '{' ∧ c ≠ '}') h fun x t h => ?_
  cases h
  intro c hc
  simp only [List.mem_append] at hc
  rcases hc with ((hc | hc) | hc) | hc
  all_goals first
    | exact intStr_brace _ c hc
    | (revert c; decide)

theorem mem_replaceAux (old new : Str) (fuel : Nat) (k : Option Nat) (s : Str) :
    ∀ c ∈ replaceAux old new fuel k s, c ∈ s ∨ c ∈ new := by
  induction fuel generalizing k s with
  | zero => intro c hc; exact Or.inl hc
  | succ fuel ih =>
    intro c hc
    unfold replaceAux at hc
    split at hc
    · exact Or.inl hc
    · exact Or.inl hc
    · exact Or.inl hc
    · rename_i n d s hn hne
      cases hn
      split at hc
      · rcases List.mem_append.mp hc with hc | hc
        · exact Or.inr hc
        · rcases ih _ _ c hc with h | h
          · exact Or.inl (List.mem_of_mem_drop h)
          · exact Or.inr h
      · rcases List.mem_cons.mp hc with rfl | hc
        · simp
        · rcases ih _ _ c hc with h | h
          · exact Or.inl (by simp [h])
          · exact Or.inr h

theorem ownText_other {name : Str} (h : name ∉ ownParsing) (data : Str) : ownText name data = some data := by
  simp only [ownParsing, List.mem_cons, List.not_mem_nil, or_false, not_or] at h
  unfold ownText
  rw [if_neg h.1, if_neg h.2.1, if_neg h.2.2.2.2.2.2.2.2.2.2.2.2.2.2]

theorem ownDict_other {name : Str} (h : name ∉ ownParsing) (data : Str) : ownDict name data = generateDataDict data := by
  simp only [ownParsing, List.mem_cons, List.not_mem_nil, or_false, not_or] at h
  unfold ownDict clockNames ext4Names f2fsNames
  simp only [List.mem_cons, List.not_mem_nil, or_false, h, if_false]

theorem Reads.own {name data : Str} {cells : List (Str × Val)} (h : Reads name data cells)
    (hb : ∀ c ∈ data, c ≠ '{' ∧ c ≠ '}') :
    ∃ t, ownText name data = some t ∧ (∀ c ∈ t, c ≠ '{' ∧ c ≠ '}') ∧ ownDict name t = some cells := by
  cases h with
  | fields fs val data hname wf keys means text =>
    exact ⟨data, ownText_other hname data, hb, by
      rw [ownDict_other hname]; exact C12_payload_roundtrip fs val data wf keys means text⟩
  | switch fs gs val hname hfs hgs wf hne keys means =>
    subst hname
    have := C47_arrow fs gs val hfs hgs wf hne keys means
    refine ⟨_, rfl, ?_, this⟩
    intro c hc
    rcases mem_replaceAux _ _ _ _ _ c hc with h | h
    · exact hb c h
    · rw [List.mem_singleton.mp h]; decide
  | enter nr a0 a1 a2 a3 a4 a5 lead trail hname hl =>
    subst hname
    have := C46_sys_enter_partial nr a0 a1 a2 a3 a4 a5 lead trail hl
    unfold sysEnterDict at this
    obtain ⟨t, h1, h2⟩ := Option.bind_eq_some_iff.mp this
    exact ⟨t, h1, sysEnter_brace h1, h2⟩
  | exit nr ret lead trail hname hl ht =>
    subst hname
    have := C46_sys_exit nr ret lead trail hl ht
    unfold sysExitDict at this
    obtain ⟨t, h1, h2⟩ := Option.bind_eq_some_iff.mp this
    exact ⟨t, h1, sysExit_brace h1, h2⟩
  | marker data hname => subst hname; exact ⟨data, rfl, hb, rfl⟩
  | clock clk fs val data hname hclk wf keys means text hnew =>
    have := C55_clock clk fs val data hclk wf keys means text hnew
    simp only [List.mem_cons, List.not_mem_nil, or_false] at hname
    rcases hname with rfl | rfl | rfl <;> exact ⟨_, rfl, hb, this⟩
  | ext4 ps odd hname ho h hodd =>
    have := C53_ext4 ps odd ho h hodd
    simp only [List.mem_cons, List.not_mem_nil, or_false] at hname
    rcases hname with rfl | rfl | rfl | rfl <;> exact ⟨_, rfl, hb, congrArg some this⟩
  | f2fs fs val hname h keys means =>
    have := C54_f2fs_words_partial fs val h keys means
    simp only [List.mem_cons, List.not_mem_nil, or_false] at hname
    rcases hname with rfl | rfl | rfl <;> exact ⟨_, rfl, hb, this⟩
  | f2fsExit pre post f val hname hc h keys means h1 h2 =>
    subst hname
    exact ⟨_, rfl, hb, C54_sync_exit_partial pre post f val hc h keys means h1 h2⟩

/-! ## The tables of the classes -/

namespace TraceItem

theorem picked_with (cells : TraceEvent → List (Str × Val)) (ev : Str) (is : List TraceItem) (n : Nat) (ts : List Nat) :
    tableWith cells ev n is ts = (picked ev n is ts).map fun x => x.1.rowWith (cells x.1) x.2.1 x.2.2 := by
  induction is generalizing n ts with
  | nil => rfl
  | cons i is ih =>
    cases i with
    | other l => exact ih _ _
    | event e =>
      cases ts with
      | nil => rfl
      | cons t ts =>
        simp only [tableWith, picked]
        split
        · rw [ih]; rfl
        · exact ih _ _

end TraceItem

theorem ownTexts_some {name : Str} (f : Str → Str) : ∀ ds : List Str, (∀ d ∈ ds, ownText name d = some (f d)) →
    ownTexts name ds = some (ds.map f)
  | [], _ => rfl
  | d :: ds, h => by
    unfold ownTexts
    rw [h d (by simp), ownTexts_some f ds fun x hx => h x (by simp [hx])]
    rfl

theorem explode_braceless (fuel : Nat) (ts : List Str) (h : ∀ t ∈ ts, ∀ c ∈ t, c ≠ '{' ∧ c ≠ '}') :
    explodeTable fuel ts = some (some ts) := by
  cases ts with
  | nil => rfl
  | cons t ts =>
    apply C18_no_array_first
    exact brace_free_none (fun x hx => by obtain ⟨u, v, h, _⟩ := matches_patArray hx; exact ⟨u, v, h⟩) (h t (by simp))

theorem parsedRow_with (e : TraceEvent) (cells : List (Str × Val)) (k t : Nat) (h1 : (cells.map Prod.fst).Nodup)
    (h2 : ∀ x ∈ cells, x.1 ∉ headerColumns) :
    ({ time := t, cells := parsedRow e.line.comm e.pid e.cpu k cells } : TRow) = e.rowWith cells k t := by
  unfold parsedRow TraceEvent.rowWith
  rw [update_new _ _ h1]
  intro x hx
  have := h2 x hx
  simpa [headerColumns] using this

theorem classFrame_plain (fuel : Nat) (name : Str) (cells : TraceEvent → List (Str × Val)) (xs : List (TraceEvent × Nat × Nat))
    (h : ∀ x ∈ xs, x.1.PlainRead name (cells x.1)) :
    classFrame fuel name (xs.map TraceItem.recOf) = .rows (xs.map fun x => x.1.rowWith (cells x.1) x.2.1 x.2.2) := by
  have hdata : (xs.map TraceItem.recOf).map Rec.data = xs.map fun x => x.1.line.data := by
    rw [List.map_map]
    exact List.map_congr_left fun x hx => no_empty_array (h x hx).brace
  have hown : ∀ x ∈ xs, ownText name x.1.line.data = some ((ownText name x.1.line.data).getD []) ∧
      (∀ c ∈ (ownText name x.1.line.data).getD [], c ≠ '{' ∧ c ≠ '}') ∧
      ownDict name ((ownText name x.1.line.data).getD []) = some (cells x.1) := by
    intro x hx
    obtain ⟨t, h1, h2, h3⟩ := (h x hx).reads.own (h x hx).brace
    simp only [h1, Option.getD_some]
    exact ⟨trivial, h2, h3⟩
  unfold classFrame
  rw [hdata, ownTexts_some (fun d => (ownText name d).getD []) _ (by
    intro d hd
    obtain ⟨x, hx, rfl⟩ := List.mem_map.mp hd
    exact (hown x hx).1)]
  simp only
  rw [explode_braceless _ _ (by
    intro t ht
    obtain ⟨d, hd, rfl⟩ := List.mem_map.mp ht
    obtain ⟨x, hx, rfl⟩ := List.mem_map.mp hd
    exact (hown x hx).2.1)]
  have hrows : rowsBy (ownDict name) (xs.map TraceItem.recOf)
      ((xs.map fun x => x.1.line.data).map fun d => (ownText name d).getD []) =
      some (xs.map fun x => x.1.rowWith (cells x.1) x.2.1 x.2.2) := by
    clear hdata
    induction xs with
    | nil => rfl
    | cons x xs ih =>
      simp only [List.map_cons, rowsBy, (hown x (by simp)).2.2]
      rw [ih (fun y hy => h y (by simp [hy])) (fun y hy => hown y (by simp [hy]))]
      simp only [Option.some.injEq, List.cons.injEq, and_true]
      exact parsedRow_with _ _ _ _ (h x (by simp)).keys (h x (by simp)).header
  simp only [hrows]

theorem rowsBy_other {name : Str} (h : name ∉ ownParsing) : ∀ (rs : List Rec) (ds : List Str),
    rowsBy (ownDict name) rs ds = parsedRows rs ds
  | [], _ => rfl
  | _ :: _, [] => rfl
  | r :: rs, d :: ds => by
    unfold rowsBy parsedRows
    rw [ownDict_other h, rowsBy_other h rs ds]
    rfl

theorem classFrame_other {name : Str} (h : name ∉ ownParsing) (fuel : Nat) (rs : List Rec) :
    classFrame fuel name rs = createFrame fuel rs := by
  unfold classFrame createFrame
  rw [ownTexts_some id _ fun d _ => ownText_other h d, List.map_id]
  simp only [rowsBy_other h]
  rfl

theorem classFrame_reads {fuel : Nat} {name : Str} {ev : Str} {cells : TraceEvent → List (Str × Val)} {items : List TraceItem}
    {out : List Nat} (h : ClassReads fuel name (TraceItem.eventsOf ev items) cells) (hlen : out.length = (TraceItem.times items).length) :
    classFrame fuel name (TraceItem.recs ev 0 items out) = .rows (TraceItem.tableWith cells ev 0 items out) := by
  obtain ⟨a1, -, a3⟩ := TraceItem.picked_spec TraceEvent.fields ev items 0 out
  have a3 := a3 hlen
  rw [a1, TraceItem.picked_with]
  cases h with
  | plain h =>
    apply classFrame_plain
    intro x hx
    exact h _ (a3 ▸ List.mem_map_of_mem hx)
  | arrays hname M hM hfirst h =>
    rw [← a3] at hM hfirst h
    rw [classFrame_other hname, createFrame_arrays fuel M]
    · congr 1
      refine List.map_congr_left fun x hx => ?_
      have := (h _ (List.mem_map_of_mem hx)).2.2.2
      simp only [TraceEvent.rowWith, TraceEvent.rowOf, this]
    · intro x hx
      have := h _ (List.mem_map_of_mem hx)
      exact ⟨this.1, this.2.1⟩
    · simpa [Function.comp_def] using hM
    · intro x hx
      exact hfirst x.1 (by rw [List.head?_map, hx]; rfl)
    · intro x hx
      exact (h _ (List.mem_map_of_mem hx)).2.2.1

/-! ## The shown tables -/

theorem renameCol_map {a b : Str} (cells : Dict Val) :
    renameCol a b cells = cells.map fun x => (if x.1 = a then b else x.1, x.2) := by
  unfold renameCol
  refine List.map_congr_left fun x _ => ?_
  split <;> rfl

theorem shown_other {name : Str} (hn : name ≠ cs!"cpu_idle") (hs : name ≠ cs!"sched_load_avg_sg") (cells : Dict Val) :
    shownCells name cells = cells.map fun x => (shownColumn name x.1, x.2) := by
  unfold shownCells
  refine List.map_congr_left fun x _ => ?_
  simp [shownValue, hn, hs]

theorem shown_id {name : Str} (cells : Dict Val) (h : ∀ x ∈ cells, shownColumn name x.1 = x.1 ∧ shownValue name x.1 x.2 = x.2) :
    shownCells name cells = cells := by
  unfold shownCells
  conv_rhs => rw [← List.map_id cells]
  refine List.map_congr_left fun x hx => ?_
  rw [(h x hx).1, (h x hx).2]; rfl

theorem padCpus_shown {cells : Dict Val} (hnd : (cells.map Prod.fst).Nodup) (hc : cs!"cpus" ∈ cells.map Prod.fst) :
    padCpus cells = shownCells cs!"sched_load_avg_sg" cells := by
  have key : ∀ x : Str × Val, shownColumn cs!"sched_load_avg_sg" x.1 = x.1 := fun x => rfl
  have hsome := (Dict.get_isSome cells cs!"cpus").mpr hc
  obtain ⟨v, hv⟩ := Option.isSome_iff_exists.mp hsome
  unfold padCpus shownCells
  rw [hv, Option.getD_some]
  clear hsome
  induction cells with
  | nil => cases hc
  | cons x cells ih =>
    obtain ⟨k, w⟩ := x
    simp only [List.map_cons, List.nodup_cons] at hnd
    by_cases hk : k = cs!"cpus"
    · subst hk
      simp only [Dict.get, if_true, Option.some.injEq] at hv
      subst hv
      simp only [Dict.set, if_true, List.map_cons, key]
      have h1 : shownValue cs!"sched_load_avg_sg" cs!"cpus" w = .str (pad8 w) := by
        simp [shownValue, pad8]
      rw [h1]
      congr 1
      conv_lhs => rw [← List.map_id cells]
      refine List.map_congr_left fun y hy => ?_
      have hy : y.1 ≠ cs!"cpus" := fun e => hnd.1 (e ▸ List.mem_map_of_mem hy)
      simp [shownValue, hy]
    · simp only [Dict.get, if_neg hk] at hv
      simp only [Dict.set, if_neg hk, List.map_cons, key]
      have hc' : cs!"cpus" ∈ cells.map Prod.fst := by
        rcases List.mem_cons.mp hc with h | h
        · exact absurd h.symm hk
        · exact h
      rw [ih hnd.2 hc' hv]
      simp [shownValue, hk, key]

theorem finalize_shown {name : Str} (rows : List TRow) (hnd : ∀ r ∈ rows, (r.cells.map Prod.fst).Nodup)
    (hm : name = cs!"sched_load_avg_sg" →
      (∀ r ∈ rows, cs!"cpus" ∈ r.cells.map Prod.fst) ∨ (∀ r ∈ rows, cs!"cpus" ∉ r.cells.map Prod.fst)) :
    finalizeTable name rows = rows.map fun r => { r with cells := shownCells name r.cells } := by
  have rowsEq : ∀ f : Dict Val → Dict Val, (∀ r ∈ rows, f r.cells = shownCells name r.cells) →
      (rows.map fun r => { r with cells := f r.cells }) = rows.map fun r => { r with cells := shownCells name r.cells } := by
    intro f hf
    refine List.map_congr_left fun r hr => ?_
    rw [hf r hr]
  have idEq : (∀ r ∈ rows, shownCells name r.cells = r.cells) →
      rows = rows.map fun r => { r with cells := shownCells name r.cells } := by
    intro hf
    conv_lhs => rw [← List.map_id rows]
    refine List.map_congr_left fun r hr => ?_
    rw [hf r hr]; rfl
  unfold finalizeTable
  simp only
  split
  · rename_i h; subst h
    apply rowsEq
    intro r _
    rw [shown_other (by decide) (by decide)]
    unfold finalizeCpuFrequency
    rw [renameCol_map, renameCol_map, List.map_map]
    refine List.map_congr_left fun x _ => ?_
    by_cases h1 : x.1 = cs!"cpu_id"
    · simp [shownColumn, h1]
    · simp [shownColumn, h1]
  split
  · rename_i h; subst h
    apply rowsEq
    intro r _
    rw [shown_other (by decide) (by decide)]
    unfold finalizeCpuCapacity
    rw [renameCol_map, renameCol_map, List.map_map]
    refine List.map_congr_left fun x _ => ?_
    by_cases h1 : x.1 = cs!"cpu_id"
    · simp [shownColumn, h1]
    · simp [shownColumn, h1]
  split
  · rename_i h; subst h
    apply rowsEq
    intro r _
    rw [shown_other (by decide) (by decide)]
    unfold finalizeClkSetRate
    rw [renameCol_map]
    refine List.map_congr_left fun x _ => ?_
    simp [shownColumn]
  split
  · rename_i h
    have h : name ∈ ext4Names ++ f2fsNames ++ [cs!"f2fs_sync_file_exit"] := by
      rcases h with h | h | h
      · simp [h]
      · simp [h]
      · simp [h]
    simp only [ext4Names, f2fsNames, List.cons_append, List.nil_append, List.mem_cons, List.not_mem_nil, or_false] at h
    apply rowsEq
    intro r _
    unfold finalizeFs
    rw [renameCol_map]
    rcases h with rfl | rfl | rfl | rfl | rfl | rfl | rfl | rfl <;>
    · rw [shown_other (by decide) (by decide)]
      refine List.map_congr_left fun x _ => ?_
      simp [shownColumn]
  rename_i n1 n2 n3 n4
  have hcol : ∀ col, shownColumn name col = col := by
    intro col
    unfold shownColumn
    rw [if_neg n1, if_neg n2, if_neg n3, if_neg]
    intro h
    apply n4
    simp only [List.mem_cons, List.not_mem_nil, or_false] at h
    rcases h with rfl | rfl | rfl | rfl | rfl | rfl | rfl | rfl <;> decide
  split
  · rename_i h; subst h
    apply rowsEq
    intro r _
    unfold shownCells
    refine List.map_congr_left fun x _ => ?_
    obtain ⟨k, v⟩ := x
    cases v with
    | int i =>
      by_cases hi : i = 4294967295
      · subst hi; simp [hcol, shownValue]
      · have : (Val.int i = Val.int (2 ^ 32 - 1)) ↔ False := by simp [hi]
        simp [hcol, shownValue, hi]
    | str s => simp [hcol, shownValue]
  split
  · rename_i hidle h; subst h
    rcases hm rfl with hm | hm
    · split
      · apply rowsEq
        intro r hr
        exact padCpus_shown (hnd r hr) (hm r hr)
      · rename_i hany
        cases rows with
        | nil => rfl
        | cons r rs =>
          exfalso; apply hany
          simp [(Dict.get_isSome r.cells cs!"cpus").mpr (hm r (by simp))]
    · rw [if_neg]
      · apply idEq
        intro r hr
        apply shown_id
        intro x hx
        refine ⟨hcol _, ?_⟩
        have : x.1 ≠ cs!"cpus" := fun e => hm r hr (e ▸ List.mem_map_of_mem hx)
        simp [shownValue, this]
      · simp only [List.any_eq_true, not_exists, not_and]
        intro r hr
        rw [Dict.get_isSome]
        exact hm r hr
  · rename_i hidle hsg
    apply idEq
    intro r _
    apply shown_id
    intro x _
    exact ⟨hcol _, by simp [shownValue, hidle, hsg]⟩

/-! ## The object -/

theorem builtins_words : ∀ p ∈ builtins, ∀ q ∈ builtins, p ≠ q → Py.contains p.word q.word = false := by decide +kernel

theorem wordsOk_builtin : ∀ ps : List ParserClass, (∀ p ∈ ps, p ∈ builtins) → ps.Nodup → wordsOk ps = true
  | [], _, _ => rfl
  | p :: ps, h, hnd => by
    have hnd := List.nodup_cons.mp hnd
    unfold wordsOk
    rw [wordsOk_builtin ps (fun q hq => h q (by simp [hq])) hnd.2, Bool.and_true, List.all_eq_true]
    intro q hq
    have hpq : p ≠ q := fun e => hnd.1 (e ▸ hq)
    rw [builtins_words p (h p (by simp)) q (h q (by simp [hq])) hpq, builtins_words q (h q (by simp [hq])) p (h p (by simp)) hpq.symm]
    rfl

theorem wordsOk_iff : ∀ ps : List ParserClass, wordsOk ps = true ↔ ps.Pairwise fun p q => ¬ p.word <:+: q.word ∧ ¬ q.word <:+: p.word
  | [] => by simp [wordsOk]
  | p :: ps => by
    unfold wordsOk
    rw [Bool.and_eq_true, wordsOk_iff ps, List.pairwise_cons, List.all_eq_true]
    simp [← contains_iff]

/-- **C28, for the constructor.** It raises, whatever the file and the parameters are, if the unique word of a requested event is part
of that of another one. -/
theorem C28_constructor (fuel : Nat) (ps : List ParserClass) (u : UserParams) (lines : List Str) (i j : Nat) (p q : ParserClass)
    (hi : ps[i]? = some p) (hj : ps[j]? = some q) (hij : i ≠ j) (h : p.word <:+: q.word) : buildTrace fuel ps u lines = .raises := by
  have : wordsOk ps = false := by
    rw [← Bool.not_eq_true, wordsOk_iff, List.pairwise_iff_getElem]
    intro hp
    obtain ⟨hi', rfl⟩ := List.getElem?_eq_some_iff.mp hi
    obtain ⟨hj', rfl⟩ := List.getElem?_eq_some_iff.mp hj
    rcases Nat.lt_or_gt_of_ne hij with hlt | hlt
    · exact (hp i j hi' hj' hlt).1 h
    · exact (hp j i hj' hi' hlt).2 h
  unfold buildTrace
  rw [this]
  rfl

example : [unnamed cs!"sys_enter", unnamed cs!"cpu_idle", unnamed cs!"sys_enter_openat:"][0]? = some (unnamed cs!"sys_enter") ∧
    (unnamed cs!"sys_enter").word <:+: (unnamed cs!"sys_enter_openat:").word := by
  refine ⟨rfl, ?_⟩
  rw [← contains_iff]
  decide +kernel

theorem finalizeObjects_rows {β : Type} (fuel : Nat) (name : β → Str) (recs : β → List Rec) (rows : β → List TRow) : ∀ xs : List β,
    (∀ x ∈ xs, classFrame fuel (name x) (recs x) = .rows (rows x)) →
    finalizeObjects fuel (xs.map fun x => (name x, recs x)) = some (some (xs.map fun x => finalizeTable (name x) (rows x)))
  | [], _ => rfl
  | x :: xs, h => by
    simp only [List.map_cons, finalizeObjects, h x (by simp)]
    rw [finalizeObjects_rows fuel name recs rows xs fun y hy => h y (by simp [hy])]

theorem mem_tableWith {cells : TraceEvent → List (Str × Val)} {ev : Str} {r : TRow} : ∀ {is : List TraceItem} {k : Nat} {ts : List Nat},
    r ∈ TraceItem.tableWith cells ev k is ts → r.time ∈ ts ∧ ∃ e ∈ TraceItem.eventsOf ev is, ∃ n, r = e.rowWith (cells e) n r.time
  | [], _, ts, h => by cases ts <;> cases h
  | .other l :: is, k, ts, h => mem_tableWith (is := is) h
  | .event e :: is, k, [], h => by cases h
  | .event e :: is, k, t :: ts, h => by
    unfold TraceItem.tableWith at h
    unfold TraceItem.eventsOf
    split at h
    · rename_i hev
      rw [if_pos hev]
      rcases List.mem_cons.mp h with rfl | h
      · exact ⟨by simp [TraceEvent.rowWith], e, by simp, k, rfl⟩
      · obtain ⟨h1, e', h2, h3⟩ := mem_tableWith h
        exact ⟨by simp [h1], e', by simp [h2], h3⟩
    · rename_i hev
      rw [if_neg hev]
      obtain ⟨h1, h2⟩ := mem_tableWith h
      exact ⟨by simp [h1], h2⟩

theorem tableWith_sorted {cells : TraceEvent → List (Str × Val)} {ev : Str} : ∀ {is : List TraceItem} {k : Nat} {ts : List Nat},
    ts.Pairwise (· < ·) → (TraceItem.tableWith cells ev k is ts).Pairwise fun a b => a.time < b.time
  | [], _, ts, _ => by cases ts <;> exact List.Pairwise.nil
  | .other l :: is, k, ts, h => tableWith_sorted (is := is) h
  | .event e :: is, k, [], h => List.Pairwise.nil
  | .event e :: is, k, t :: ts, h => by
    have h' := List.pairwise_cons.mp h
    unfold TraceItem.tableWith
    split
    · rw [List.pairwise_cons]
      exact ⟨fun r hr => h'.1 _ (mem_tableWith hr).1, tableWith_sorted h'.2⟩
    · exact tableWith_sorted h'.2

theorem ClassReads.rows_ok {fuel : Nat} {name ev : Str} {items : List TraceItem} {cells : TraceEvent → List (Str × Val)}
    (h : ClassReads fuel name (TraceItem.eventsOf ev items) cells) : ∀ e ∈ TraceItem.eventsOf ev items,
      ((cells e).map Prod.fst).Nodup ∧ ∀ x ∈ cells e, x.1 ∉ headerColumns := by
  intro e he
  cases h with
  | plain h => exact ⟨(h e he).keys, (h e he).header⟩
  | arrays hname M hM hfirst h =>
    obtain ⟨-, h2, -, h4⟩ := h e he
    rw [h4]
    refine ⟨by simpa [Function.comp_def] using h2.keys, ?_⟩
    intro x hx
    obtain ⟨f, hf, rfl⟩ := List.mem_map.mp hx
    exact h2.header f hf

theorem rowWith_nodup {e : TraceEvent} {cells : List (Str × Val)} {k t : Nat} (h1 : (cells.map Prod.fst).Nodup)
    (h2 : ∀ x ∈ cells, x.1 ∉ headerColumns) : ((e.rowWith cells k t).cells.map Prod.fst).Nodup := by
  have : (e.rowWith cells k t).cells.map Prod.fst = headerColumns ++ cells.map Prod.fst := rfl
  rw [this, List.nodup_append]
  refine ⟨by decide, h1, ?_⟩
  intro a ha b hb
  rintro rfl
  obtain ⟨x, hx, rfl⟩ := List.mem_map.mp hb
  exact h2 x hx ha

theorem applyUser_asked (u : UserParams) (base : Nat) (t : Table (Dict Val)) (hs : t.Pairwise fun a b => a.1 < b.1)
    (hb : base ≠ 0 ∧ base ≤ inf ∨ t = []) (hw : u.window.hi = none → u.absWindow.hi ≠ some 0) :
    applyUser base u t = (asked u base t).map fun r => (if u.normalize then sub r.1 base else r.1, r.2) := by
  rcases hb with ⟨hb, hbi⟩ | rfl
  · have hwin : windowify (maxWindow base u) t = asked u base t := by
      unfold maxWindow
      rw [if_neg hb]
      have hend : (calcMaxWindow base u.window u.absWindow).hi ≠ some 0 := by
        unfold calcMaxWindow
        cases h1 : u.window.hi with
        | none =>
          cases h2 : u.absWindow.hi with
          | none => simp
          | some b => simpa [h2] using hw h1
        | some a =>
          have := add_ne_zero (a := a) hb hbi
          cases h2 : u.absWindow.hi with
          | none => simpa using this
          | some b =>
            simp only [ne_eq, Option.some.injEq]
            omega
      rw [(C20_window_exact_partial _ hend t).2 (hs.imp fun h => val_le_iff.mpr h.le)]
      unfold asked calcMaxWindow
      cases h1 : u.window.hi <;> cases h2 : u.absWindow.hi <;> rfl
    unfold applyUser applyWith
    simp only [hwin]
    cases u.normalize with
    | false => simp
    | true => simp [normalizeTable, hb]
  · unfold applyUser applyWith asked within
    cases u.normalize with
    | false => simp [windowify_nil]
    | true => by_cases hb : base = 0 <;> simp [windowify_nil, normalizeTable, hb]

/-- a file in parts: the times of its events, base and end time, the frames of the classes and what is shown of them -/
theorem file_parts (fuel : Nat) (ps : List ParserClass) (hps : ∀ p ∈ ps, p ∈ builtins) (hnd : ps.Nodup)
    (header : List Str) (items : List TraceItem) (h : TraceFile ps header items)
    (cells : ParserClass → TraceEvent → List (Str × Val))
    (hc : ∀ p ∈ ps, ClassReads fuel p.name (TraceItem.eventsOf p.event items) (cells p))
    (hm : ∀ p ∈ ps, EvenMasks p.name (TraceItem.eventsOf p.event items) (cells p)) :
    ∃ out : List Nat, MinimalTimes 0 (TraceItem.times items) out ∧
      (populate (ps.map ParserClass.toCls) 0 (header ++ items.map TraceItem.text)).basetime = firstTime out ∧
      (populate (ps.map ParserClass.toCls) 0 (header ++ items.map TraceItem.text)).endtime = finalTime out ∧
      (out.Pairwise (· < ·) ∧ ∀ t ∈ out, 0 < t) ∧ (∀ t ∈ out, firstTime out ≤ t ∧ t < inf) ∧
      ∀ i p, ps[i]? = some p →
        classFrame fuel p.name ((populate (ps.map ParserClass.toCls) 0 (header ++ items.map TraceItem.text)).tables i) =
          .rows (TraceItem.tableWith (cells p) p.event 0 items out) ∧
        finalizeTable p.name (TraceItem.tableWith (cells p) p.event 0 items out) =
          (TraceItem.tableWith (cells p) p.event 0 items out).map fun r => { r with cells := shownCells p.name r.cells } := by
  obtain ⟨out, h1, h2, h3, h4, h5⟩ := file_populate hps hnd h
  have hbase : firstTime out = out.head?.getD 0 := by cases out <;> rfl
  have hpw := h1.pairwise
  have hall : ∀ t ∈ out, firstTime out ≤ t ∧ t < inf := by
    intro t ht
    constructor
    · cases out with
      | nil => cases ht
      | cons o os =>
        rcases List.mem_cons.mp ht with rfl | ht
        · exact Nat.le_refl _
        · exact ((List.pairwise_cons.mp hpw.1).1 t ht).le
    · rw [h4] at h5
      have : t ≤ lastTime 0 out := by
        clear * - hpw ht
        have hp := hpw.1
        unfold lastTime
        induction out with
        | nil => cases ht
        | cons o os ih =>
          rw [List.getLast?_cons]
          have hp' := List.pairwise_cons.mp hp
          cases os with
          | nil => simp at ht ⊢; omega
          | cons o' os =>
            rcases List.mem_cons.mp ht with rfl | ht
            · have hl : ((o' :: os).getLast (by simp)) ∈ o' :: os := List.getLast_mem _
              have := hp'.1 _ hl
              simp only [List.getLast?_eq_some_getLast (l := o' :: os) (by simp), Option.getD_some]
              omega
            · have := ih ⟨hp'.2, fun x hx => hpw.2 x (by simp [hx])⟩ ht hp'.2
              simpa [List.getLast?_eq_some_getLast (l := o' :: os) (by simp)] using this
      omega
  refine ⟨out, h1, h3.trans hbase.symm, h4, ⟨hpw.1, fun t ht => by have := hpw.2 t ht; omega⟩, hall, ?_⟩
  intro i p hp
  have hx : p ∈ ps := List.mem_of_getElem? hp
  have hrows := hc p hx
  refine ⟨by rw [h2 i p hp]; exact classFrame_reads hrows h1.length, ?_⟩
  apply finalize_shown
  · intro r hr
    obtain ⟨-, e, he, n, hre⟩ := mem_tableWith hr
    rw [hre]
    exact rowWith_nodup (hrows.rows_ok e he).1 (hrows.rows_ok e he).2
  · intro hsg
    have hkey : ∀ r ∈ TraceItem.tableWith (cells p) p.event 0 items out, ∃ e ∈ TraceItem.eventsOf p.event items,
        (cs!"cpus" ∈ r.cells.map Prod.fst ↔ cs!"cpus" ∈ (cells p e).map Prod.fst) := by
      intro r hr
      obtain ⟨-, e, he, n, hre⟩ := mem_tableWith hr
      refine ⟨e, he, ?_⟩
      rw [hre]
      simp [TraceEvent.rowWith]
    rcases hm p hx hsg with hm | hm
    · left
      intro r hr
      obtain ⟨e, he, hiff⟩ := hkey r hr
      exact hiff.mpr (hm e he)
    · right
      intro r hr
      obtain ⟨e, he, hiff⟩ := hkey r hr
      exact fun hcon => hm e he (hiff.mp hcon)

/-- **C134.** The constructor on a printed trace: for every choice of built-in parsers in any order and all windows, it gives an
object whose base and end times are those of the first and the last event of the file, and for each parser the table with one row for
each line of its event in the window and no others, in the order of the file, with the task name, pid, CPU and line number and the
columns the payload stands for, under the names and with the values they are shown with; the times are the least ones that increase
and are not before the printed ones, with the first time subtracted if the user asks for normalised times. Only an absolute window
that ends at 0 is left out, see C20. -/
theorem C134_object (fuel : Nat) (ps : List ParserClass) (hps : ∀ p ∈ ps, p ∈ builtins) (hnd : ps.Nodup)
    (header : List Str) (items : List TraceItem) (h : TraceFile ps header items)
    (cells : ParserClass → TraceEvent → List (Str × Val))
    (hc : ∀ p ∈ ps, ClassReads fuel p.name (TraceItem.eventsOf p.event items) (cells p))
    (hm : ∀ p ∈ ps, EvenMasks p.name (TraceItem.eventsOf p.event items) (cells p))
    (u : UserParams) (hw : u.window.hi = none → u.absWindow.hi ≠ some 0) :
    ∃ (out : List Nat) (shift : Nat → Nat), MinimalTimes 0 (TraceItem.times items) out ∧
      (∀ t ∈ out, if u.normalize then NearestEven (val t - val (firstTime out)) (shift t) else shift t = t) ∧
      buildTrace fuel ps u (header ++ items.map TraceItem.text) = .object
        { basetime := firstTime out
          endtime := finalTime out
          tables := ps.map fun p => (asked u (firstTime out) ((TraceItem.tableWith (cells p) p.event 0 items out).map
            fun r => (r.time, shownCells p.name r.cells))).map fun r => (shift r.1, r.2) } := by
  obtain ⟨out, h1, h3, h4, hpw, hall, hparts⟩ := file_parts fuel ps hps hnd header items h cells hc hm
  refine ⟨out, fun t => if u.normalize then sub t (firstTime out) else t, h1, ?_, ?_⟩
  · intro t ht
    cases hn : u.normalize with
    | false => simp
    | true =>
      simp only [if_true]
      exact sub_nearestEven (hall t ht).1 (by have := sub_le (b := firstTime out) (hall t ht).2.le; have := (hall t ht).2; omega)
  · unfold buildTrace
    rw [wordsOk_builtin ps hps hnd]
    simp only [if_true]
    have hfin := finalizeObjects_rows fuel (fun x : ParserClass × Nat => x.1.name)
      (fun x => (populate (ps.map ParserClass.toCls) 0 (header ++ items.map TraceItem.text)).tables x.2)
      (fun x => TraceItem.tableWith (cells x.1) x.1.event 0 items out) ps.zipIdx (by
        intro x hx
        exact (hparts x.2 x.1 (by simpa using List.mem_zipIdx_iff_getElem?.mp hx)).1)
    rw [hfin]
    simp only [h3, h4]
    congr 1
    congr 1
    rw [List.map_map]
    have hzip : ∀ f : ParserClass → Table (Dict Val), (ps.zipIdx.map fun x => f x.1) = ps.map f := by
      intro f
      conv_rhs => rw [← List.zipIdx_map_fst 0 ps]
      rw [List.map_map]; rfl
    rw [← hzip]
    refine List.map_congr_left fun x hx => ?_
    simp only [Function.comp_apply]
    rw [(hparts x.2 x.1 (by simpa using List.mem_zipIdx_iff_getElem?.mp hx)).2, List.map_map]
    rw [applyUser_asked]
    · rfl
    · rw [List.pairwise_map]
      exact tableWith_sorted hpw.1
    · cases ho : out with
      | nil =>
        right
        rw [List.map_eq_nil_iff]
        cases ht : TraceItem.tableWith (cells x.1) x.1.event 0 items [] with
        | nil => rfl
        | cons r rs =>
          have := (mem_tableWith (r := r) (by rw [ht]; simp)).1
          cases this
      | cons o os =>
        left
        subst ho
        exact ⟨by have := hpw.2 o (by simp); simp only [firstTime]; omega, (hall o (by simp)).2.le⟩
    · exact hw

/-- the columns of the events of the example -/
def exCells (e : TraceEvent) : List (Str × Val) := e.fields.map fun f => (f.key, e.value f)

/-- the events of the example can be read -/
theorem exTrace_reads : (∀ p ∈ exParsers, ClassReads 5 p.name (TraceItem.eventsOf p.event exItems) exCells) ∧
    (∀ p ∈ exParsers, EvenMasks p.name (TraceItem.eventsOf p.event exItems) exCells) := by
  refine ⟨?_, ?_⟩
  · have : ∀ name ev : Str, name ∉ ownParsing → ClassReads 5 name (TraceItem.eventsOf ev exItems) exCells := by
      intro name ev hn
      refine .plain fun e he => ?_
      have wf := exItems_wf ev e he
      exact ⟨.fields e.fields e.value e.line.data hn wf.fields wf.keys wf.value wf.data, wf.brace,
        by simpa [exCells, Function.comp_def] using wf.keys, by
          intro x hx
          obtain ⟨f, hf, rfl⟩ := List.mem_map.mp hx
          exact wf.header f hf⟩
    intro p hp
    simp only [exParsers, List.mem_cons, List.not_mem_nil, or_false] at hp
    rcases hp with rfl | rfl | rfl
    · exact this _ _ (by decide +kernel)
    · exact this _ _ (by decide +kernel)
    · refine .plain fun e he => ?_
      have hnil : (TraceItem.eventsOf (unnamed cs!"sys_enter").event exItems).length = 0 := by decide +kernel
      rw [List.length_eq_zero_iff.mp hnil] at he
      cases he
  · intro p hp hsg
    exfalso
    have : ∀ p ∈ exParsers, p.name ≠ cs!"sched_load_avg_sg" := by decide +kernel
    exact this p hp hsg

example : (∀ p ∈ exParsers, p ∈ builtins) ∧ exParsers.Nodup ∧ TraceFile exParsers exHeader exItems ∧
    (∀ p ∈ exParsers, ClassReads 5 p.name (TraceItem.eventsOf p.event exItems) exCells) ∧
    (∀ p ∈ exParsers, EvenMasks p.name (TraceItem.eventsOf p.event exItems) exCells) :=
  ⟨by decide +kernel, by decide +kernel, exFile_ok, exTrace_reads.1, exTrace_reads.2⟩

/-- a file with events of five parsers -/
def exWhole : List Str :=
  [cs!"version = 6\n",
   cs!"a-1 [000] 1.5: sched_switch: prev_comm=x y prev_pid=1 ==> next_comm=z next_pid=2\n",
   cs!"a-1 [000] 2.5: cpu_frequency: state=900000 cpu_id=3\n",
   cs!"a-1 [000] 2.5: cpu_idle: state=4294967295 cpu_id=3\n",
   cs!"a-1 [000] 3.5: sys_enter: NR 64 (1, -7f, 0, 0, 0, 4)\n",
   cs!"a-1 [000] 4.5: tracing_mark_write: hello world\n",
   cs!"a-1 [000] 5.5: sched_switch: prev_comm=z prev_pid=2 ==> next_comm=x y next_pid=1\n"]

def exWholeParsers : List ParserClass :=
  [unnamed cs!"sched_switch:" true, unnamed cs!"cpu_frequency:", unnamed cs!"cpu_idle", unnamed cs!"sys_enter",
   unnamed cs!"tracing_mark_write:" false true]

/-- With a window of three seconds and normalised times. -/
example : buildTrace 5 exWholeParsers { normalize := true, window := ⟨ofRat 1 2, some (ofRat 3 1)⟩, absWindow := ⟨0, none⟩ } exWhole =
    .object { basetime := ofRat 3 2, endtime := ofRat 11 2, tables :=
      [[],
       [(ofRat 1 1, [(cs!"__comm", .str cs!"a"), (cs!"__pid", .int 1), (cs!"__cpu", .int 0), (cs!"__line", .int 1),
          (cs!"frequency", .int 900000), (cs!"cpu", .int 3)])],
       [(sub (ofRat 5 2 + 1) (ofRat 3 2), [(cs!"__comm", .str cs!"a"), (cs!"__pid", .int 1), (cs!"__cpu", .int 0), (cs!"__line", .int 2),
          (cs!"state", .int (-1)), (cs!"cpu_id", .int 3)])],
       [(ofRat 2 1, [(cs!"__comm", .str cs!"a"), (cs!"__pid", .int 1), (cs!"__cpu", .int 0), (cs!"__line", .int 3),
          (cs!"nr", .int 64), (cs!"arg0", .int 1), (cs!"arg1", .int (-127)), (cs!"arg2", .int 0), (cs!"arg3", .int 0),
          (cs!"arg4", .int 0), (cs!"arg5", .int 4)])],
       [(ofRat 3 1, [(cs!"__comm", .str cs!"a"), (cs!"__pid", .int 1), (cs!"__cpu", .int 0), (cs!"__line", .int 4),
          (cs!"string", .str cs!"hello world")])]] } := by
  decide +kernel

/-! ## C135: no line is lost -/

theorem rowsBy_times {dict : Str → Option (List (Str × Val))} : ∀ {rs : List Rec} {ds : List Str} {rows : List TRow},
    rs.length = ds.length → rowsBy dict rs ds = some rows →
      rows.map TRow.time = rs.map Rec.time
  | [], ds, rows, _, h => by
    cases ds <;> (simp only [rowsBy, Option.some.injEq] at h; subst h; rfl)
  | r :: rs, [], rows, hl, h => by simp at hl
  | r :: rs, d :: ds, rows, hl, h => by
    simp only [rowsBy] at h
    split at h
    · cases h
    split at h
    · cases h
    · rename_i rows' h'
      cases h
      simp only [List.map_cons]
      rw [rowsBy_times (by simpa using hl) h']

theorem ownTexts_length {name : Str} : ∀ {ds xs : List Str}, ownTexts name ds = some xs → xs.length = ds.length
  | [], xs, h => by cases h; rfl
  | d :: ds, xs, h => by
    unfold ownTexts at h
    split at h
    · rename_i x xs' _ h'
      cases h
      simp [ownTexts_length h']
    · cases h

theorem classFrame_times {fuel : Nat} {name : Str} {rs : List Rec} {rows : List TRow} (h : classFrame fuel name rs = .rows rows) :
    rows.map TRow.time = rs.map Rec.time := by
  unfold classFrame at h
  split at h
  · cases h
  · rename_i texts h1
    split at h
    · cases h
    · cases h
    · rename_i ds h2
      split at h
      · cases h
      · rename_i rows' h3
        cases h
        refine rowsBy_times ?_ h3
        rw [explodeTable_length _ _ _ h2, ownTexts_length h1, List.length_map]

theorem finalizeTable_times (name : Str) (rows : List TRow) : (finalizeTable name rows).map TRow.time = rows.map TRow.time := by
  unfold finalizeTable
  simp only
  repeat' split
  all_goals first
    | rfl
    | (rw [List.map_map]; rfl)

theorem finalizeObjects_times {fuel : Nat} : ∀ {cs : List (Str × List Rec)} {ts : List (List TRow)},
    finalizeObjects fuel cs = some (some ts) → ts.map (fun t => t.map TRow.time) = cs.map fun c => c.2.map Rec.time
  | [], ts, h => by cases h; rfl
  | (name, rs) :: cs, ts, h => by
    simp only [finalizeObjects] at h
    split at h
    · cases h
    · rename_i rows hr
      split at h
      · rename_i ts' h'
        cases h
        simp only [List.map_cons, finalizeTable_times, classFrame_times hr, finalizeObjects_times h']
      · rename_i hne
        exact absurd h (hne ts)
    · cases h

/-- **C135.** For every file, whatever is in its lines: if the constructor succeeds without a window, the table of each parser has one
row for each line that goes to the parser, in the order of the file and with the times of the lines. -/
theorem C135_no_line_lost (fuel : Nat) (ps : List ParserClass) (lines : List Str) (o : TraceObj)
    (hfin : (populate (ps.map ParserClass.toCls) 0 lines).endtime < inf)
    (h : buildTrace fuel ps (UserParams.full false) lines = .object o) :
    o.tables.length = ps.length ∧ ∀ i t, o.tables[i]? = some t →
      t.map Prod.fst = ((populate (ps.map ParserClass.toCls) 0 lines).tables i).map Rec.time ∧
      t.length = ((fileEvents (ps.map ParserClass.toCls) lines).filter fun e => e.dest = some i).length := by
  unfold buildTrace at h
  split at h
  swap
  · cases h
  simp only at h
  split at h
  · cases h
  · cases h
  rename_i ts hts
  cases h
  have htimes := finalizeObjects_times hts
  rw [List.map_map] at htimes
  have hlen : ts.length = ps.length := by
    have := congrArg List.length htimes
    simpa using this
  refine ⟨by simpa using hlen, ?_⟩
  intro i t hi
  rw [List.getElem?_map, Option.map_eq_some_iff] at hi
  obtain ⟨rows, hrows, rfl⟩ := hi
  have htab : rows.map TRow.time = ((populate (ps.map ParserClass.toCls) 0 lines).tables i).map Rec.time := by
    have h1 := congrArg (·[i]?) htimes
    simp only [List.getElem?_map, hrows, Option.map_some] at h1
    have hlt : i < ps.length := by
      have := (List.getElem?_eq_some_iff.mp hrows).1
      omega
    rw [List.getElem?_zipIdx, List.getElem?_eq_getElem hlt] at h1
    simpa using h1
  have hself : applyUser (populate (ps.map ParserClass.toCls) 0 lines).basetime (UserParams.full false) (rows.map fun r => (r.time, r.cells)) =
      rows.map fun r => (r.time, r.cells) := by
    by_cases hne : rawTable (ps.map ParserClass.toCls) lines i = []
    · have : rows = [] := by
        unfold rawTable at hne
        rw [List.map_eq_nil_iff] at hne
        rw [hne, List.map_nil, List.map_eq_nil_iff] at htab
        exact htab
      subst this
      rfl
    · obtain ⟨hb, hall⟩ := rawTable_base hfin i hne
      have hbi : (populate (ps.map ParserClass.toCls) 0 lines).basetime ≤ inf := by
        obtain ⟨r, hr⟩ := List.exists_mem_of_ne_nil _ hne
        have := hall r hr; omega
      have hsort := rawTable_sorted hfin i
      have hmem : ∀ r ∈ rows, (populate (ps.map ParserClass.toCls) 0 lines).basetime ≤ r.time := by
        intro r hr
        have : r.time ∈ ((populate (ps.map ParserClass.toCls) 0 lines).tables i).map Rec.time := htab ▸ List.mem_map_of_mem hr
        obtain ⟨q, hq, hqt⟩ := List.mem_map.mp this
        have := hall (q.time, q) (List.mem_map.mpr ⟨q, hq, rfl⟩)
        simp only at this
        omega
      rw [applyUser_asked _ _ _ _ (Or.inl ⟨hb, hbi⟩) (by simp [UserParams.full])]
      · have hz : add 0 (populate (ps.map ParserClass.toCls) 0 lines).basetime = (populate (ps.map ParserClass.toCls) 0 lines).basetime := by
          unfold add; rw [uval_zero, Nat.zero_add, round1_exact hbi]
        simp only [asked, UserParams.full, within_eq, hz, Bool.false_eq_true, if_false]
        rw [List.filter_eq_self.mpr]
        · simp
        · intro r hr
          obtain ⟨q, hq, rfl⟩ := List.mem_map.mp hr
          have := hmem q hq
          simpa using this
      · have : (rows.map TRow.time).Pairwise (· < ·) := by
          rw [htab, List.pairwise_map]
          unfold rawTable at hsort
          rw [List.pairwise_map] at hsort
          exact hsort.imp fun h => val_lt_iff.mp h
        rw [List.pairwise_map] at this ⊢
        exact this
  rw [hself]
  refine ⟨by simpa [Function.comp_def] using htab, ?_⟩
  have h1 := congrArg List.length htab
  rw [List.length_map, List.length_map] at h1
  rw [List.length_map, h1, (populate_spec _ 0 lines).2.1 i]
  have hout : (assign 0 ((fileEvents (ps.map ParserClass.toCls) lines).map fun e => tsValue e.fields)).length =
      (fileEvents (ps.map ParserClass.toCls) lines).length := by
    rw [assign_length, List.length_map]
  clear * - hout
  generalize assign 0 ((fileEvents (ps.map ParserClass.toCls) lines).map fun e => tsValue e.fields) = out at hout
  generalize fileEvents (ps.map ParserClass.toCls) lines = evs at hout
  induction evs generalizing out with
  | nil => cases out <;> rfl
  | cons e evs ih =>
    cases out with
    | nil => simp at hout
    | cons o out =>
      have := ih out (by simpa using hout)
      simp only [rowsFor, List.filter_cons]
      by_cases hd : e.dest = some i <;> simp [hd, this]

example : ∃ o, buildTrace 5 exWholeParsers (UserParams.full false) exWhole = .object o ∧
    (populate (exWholeParsers.map ParserClass.toCls) 0 exWhole).endtime < inf ∧ o.tables.map List.length = [2, 1, 1, 1, 1] := by
  have : (match buildTrace 5 exWholeParsers (UserParams.full false) exWhole with
    | .object o => o.tables.map List.length == [2, 1, 1, 1, 1]
    | _ => false) = true := by decide +kernel
  split at this
  · rename_i o ho
    exact ⟨o, ho, by decide +kernel, by simpa using this⟩
  · cases this

/-! ## C136: markers -/

/-- the parser of markers -/
def markerParser : ParserClass := unnamed cs!"tracing_mark_write:" false true

/-- a line with a marker -/
def markerLine (text : Str) : Str := cs!"a-1 [000] 1.5: tracing_mark_write: " ++ text ++ cs!"\n"

/-- **C136 (refuted, arrays).** A text that looks like an array is rewritten; an empty array is removed. -/
theorem C136_marker_array_refuted :
    buildTrace 5 [markerParser] (UserParams.full false) [markerLine cs!"load={1 2} x={} y"] = .object
      { basetime := ofRat 3 2, endtime := ofRat 3 2, tables := [[(ofRat 3 2,
        [(cs!"__comm", .str cs!"a"), (cs!"__pid", .int 1), (cs!"__cpu", .int 0), (cs!"__line", .int 0),
          (cs!"string", .str cs!"load0=1 load1=2 y")])]] } := by
  decide +kernel

/-- **C136 (refuted, never ends).** A program that writes two unfortunate texts to the trace makes it unreadable: the constructor never
returns. -/
theorem C136_marker_hangs_refuted (fuel : Nat) (u : UserParams) :
    buildTrace fuel [markerParser] u [markerLine cs!"x={1}", markerLine cs!"a{}={c d}"] = .unfinished := by
  have hd : ((populate ([markerParser].map ParserClass.toCls) 0 [markerLine cs!"x={1}", markerLine cs!"a{}={c d}"]).tables 0).map Rec.data =
      [cs!"x={1}", cs!"a{}={c d}"] := by decide +kernel
  have hw : wordsOk [markerParser] = true := by decide +kernel
  unfold buildTrace
  rw [hw]
  simp only [if_true, List.zipIdx_cons, List.zipIdx_nil, List.map_cons, List.map_nil, finalizeObjects]
  have hn : markerParser.name = cs!"tracing_mark_write" := by decide +kernel
  have hf : classFrame fuel markerParser.name ((populate ([markerParser].map ParserClass.toCls) 0
      [markerLine cs!"x={1}", markerLine cs!"a{}={c d}"]).tables 0) = .unfinished := by
    unfold classFrame
    rw [hd, hn]
    have : ownTexts cs!"tracing_mark_write" [cs!"x={1}", cs!"a{}={c d}"] = some [cs!"x={1}", cs!"a{}={c d}"] := rfl
    rw [this]
    simp only [(C17_table_never_built_refuted fuel).1]
  simp only [List.map_cons, List.map_nil] at hf
  rw [hf]

/-- **C136 (refuted, raises).** So does a text with two equals signs before the brace. -/
theorem C136_marker_raises_refuted :
    buildTrace 5 [markerParser] (UserParams.full false) [markerLine cs!"x={1} =={2}"] = .raises := by
  decide +kernel

/-- **C136, part proved.** Texts without braces reach the table unchanged, among any other lines and parsers. -/
theorem C136_marker_partial (fuel : Nat) (ps : List ParserClass) (hps : ∀ p ∈ ps, p ∈ builtins) (hnd : ps.Nodup) (i : Nat)
    (hi : ps[i]? = some markerParser) (header : List Str) (items : List TraceItem) (h : TraceFile ps header items)
    (hb : ∀ e ∈ TraceItem.eventsOf cs!"tracing_mark_write" items, ∀ c ∈ e.line.data, c ≠ '{' ∧ c ≠ '}') :
    ∃ out, MinimalTimes 0 (TraceItem.times items) out ∧
      classFrame fuel markerParser.name
          ((populate (ps.map ParserClass.toCls) 0 (header ++ items.map TraceItem.text)).tables i) =
        .rows (TraceItem.tableWith (fun e => [(cs!"string", .str e.line.data)]) cs!"tracing_mark_write" 0 items out) := by
  obtain ⟨out, h1, h2⟩ := file_tables hps hnd h
  refine ⟨out, h1, ?_⟩
  have hev : markerParser.event = cs!"tracing_mark_write" := by decide +kernel
  have hn : markerParser.name = cs!"tracing_mark_write" := by decide +kernel
  rw [h2 i _ hi, hev]
  refine classFrame_reads (.plain fun e he => ?_) h1.length
  exact ⟨.marker _ hn, hb e he, by simp, by simp [headerColumns]⟩

/-- two markers, with a line that is no event between them -/
def exMarkers : List TraceItem :=
  [.event (exEvent 3 cs!"tracing_mark_write"), .other cs!"CPU 2 is empty\n", .event (exEvent 4 cs!"tracing_mark_write")]

theorem exMarker_readable (secs : Nat) : (exEvent secs cs!"tracing_mark_write").Readable [markerParser] where
  comm := by
    intro p hp hc
    rw [← contains_iff] at hc
    have : ∀ p ∈ [markerParser], Py.contains p.word (exEvent 0 []).line.comm = false := by decide +kernel
    have := this p hp
    rw [show (exEvent 0 []).line.comm = (exEvent secs cs!"tracing_mark_write").line.comm from rfl, hc] at this
    cases this
  data := by
    intro p hp hc
    rw [← contains_iff] at hc
    have : ∀ p ∈ [markerParser], Py.contains p.word (exEvent 0 []).line.data = false := by decide +kernel
    have := this p hp
    rw [show (exEvent 0 []).line.data = (exEvent secs cs!"tracing_mark_write").line.data from rfl, hc] at this
    cases this
  event := Or.inl ⟨markerParser, by simp, by show cs!"tracing_mark_write" = markerParser.event; decide +kernel⟩

example : (∀ p ∈ [markerParser], p ∈ builtins) ∧ TraceFile [markerParser] exHeader exMarkers ∧
    (∀ e ∈ TraceItem.eventsOf cs!"tracing_mark_write" exMarkers, ∀ c ∈ e.line.data, c ≠ '{' ∧ c ≠ '}') ∧
    (TraceItem.eventsOf cs!"tracing_mark_write" exMarkers).length = 2 := by
  refine ⟨by decide +kernel, ⟨by decide +kernel, ?_, ?_, by decide +kernel, by decide +kernel⟩, ?_, by decide +kernel⟩
  · intro i hi
    cases hi
    exact ⟨_, rfl⟩
  · intro i hi
    simp only [exMarkers, List.mem_cons, List.not_mem_nil, or_false] at hi
    rcases hi with rfl | rfl | rfl
    · exact ⟨exEvent_head _ _ (by decide +kernel) (by decide +kernel), exMarker_readable _⟩
    · show parseLine _ = none
      decide +kernel
    · exact ⟨exEvent_head _ _ (by decide +kernel) (by decide +kernel), exMarker_readable _⟩
  · have : ∀ e ∈ TraceItem.eventsOf cs!"tracing_mark_write" exMarkers, e.line.data = (exEvent 0 []).line.data := by
      have h : TraceItem.eventsOf cs!"tracing_mark_write" exMarkers =
          [exEvent 3 cs!"tracing_mark_write", exEvent 4 cs!"tracing_mark_write"] := by
        simp only [exMarkers, TraceItem.eventsOf]
        rfl
      rw [h]
      intro e he
      simp only [List.mem_cons, List.not_mem_nil, or_false] at he
      rcases he with rfl | rfl <;> rfl
    intro e he
    rw [this e he]
    decide +kernel

end Trappy
