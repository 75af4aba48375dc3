import Verif.Prop.Populate
/-!
# C07 – C11: base and end time, dispatching of lines to tables, line numbers
-/

namespace Trappy
open F64

/-! ## C07 -/

theorem lastTime_eq {prev : Nat} {out : List Nat} (h : out ≠ []) : out.getLast? = some (lastTime prev out) := by
  unfold lastTime
  rw [List.getLast?_eq_some_getLast h]; rfl

/-- **C07**: with at least one event line, basetime is the (positive) time of the first event line, endtime that of
the last one, and every row of every table lies between them; none of this depends on the requested parsers. -/
theorem C07_base_and_end (cls : List Cls) (lines : List Str) (hne : fileEvents cls lines ≠ [])
    (hfin : (populate cls 0 lines).endtime < inf) :
    ∃ out : List Nat, out.length = (fileEvents cls lines).length ∧
      (∀ i, (populate cls 0 lines).tables i = rowsFor i (fileEvents cls lines) out) ∧
      out.head? = some (populate cls 0 lines).basetime ∧ (populate cls 0 lines).basetime ≠ 0 ∧
      out.getLast? = some (populate cls 0 lines).endtime ∧
      ∀ i, ∀ r ∈ (populate cls 0 lines).tables i,
        (populate cls 0 lines).basetime ≤ r.time ∧ r.time ≤ (populate cls 0 lines).endtime := by
  have hs := populate_spec cls 0 lines
  have hm := hs.2.2.2 hfin
  have hpw := hm.pairwise
  have hne' : assign 0 ((fileEvents cls lines).map fun e => tsValue e.fields) ≠ [] := by
    intro h
    have := assign_length 0 ((fileEvents cls lines).map fun e => tsValue e.fields)
    rw [h] at this
    simp at this
    exact hne (List.length_eq_zero_iff.mp (by omega))
  obtain ⟨o, os, hout⟩ := List.exists_cons_of_ne_nil hne'
  have hb : (populate cls 0 lines).basetime = o := by rw [hs.2.2.1, if_pos rfl, hout]; rfl
  refine ⟨_, by simp [assign_length], hs.2.1, by rw [hb, hout]; rfl, ?_, ?_, ?_⟩
  · rw [hb]
    have := hpw.2 o (by rw [hout]; simp)
    omega
  · rw [hs.1]; exact lastTime_eq hne'
  · intro i r hr
    rw [hs.2.1] at hr
    obtain ⟨k, e, t, _, h2, _, rfl⟩ := rowsFor_mem hr
    have hlast := lastTime_eq (prev := 0) hne'
    rw [← hs.1] at hlast
    constructor
    · rw [hb]
      rw [hout] at h2 hpw
      cases k with
      | zero => simp at h2; subst h2; exact Nat.le_refl _
      | succ k =>
        simp at h2
        have := (List.pairwise_cons.mp hpw.1).1 t (List.mem_of_getElem? h2)
        simp only [Ev.row]; omega
    · rw [List.getLast?_eq_getElem?] at hlast
      obtain ⟨h1a, h1b⟩ := List.getElem?_eq_some_iff.mp hlast
      obtain ⟨h2a, h2b⟩ := List.getElem?_eq_some_iff.mp h2
      show t ≤ _
      rcases Nat.lt_or_ge k ((assign 0 ((fileEvents cls lines).map fun e => tsValue e.fields)).length - 1) with h | h
      · have := (List.pairwise_iff_getElem.mp hpw.1) k _ h2a h1a h
        rw [← h1b, ← h2b]; omega
      · have e : k = (assign 0 ((fileEvents cls lines).map fun e => tsValue e.fields)).length - 1 := by omega
        subst e
        rw [h1b] at h2b; omega

theorem events_fields_indep (cls cls' : List Cls) (body : List Str) (n : Nat) :
    ((eventsFrom (fun l => getTraceClass l cls) n body).map fun e => (e.line, e.fields)) =
      (eventsFrom (fun l => getTraceClass l cls') n body).map fun e => (e.line, e.fields) := by
  induction body generalizing n with
  | nil => rfl
  | cons l ls ih =>
    simp only [eventsFrom]
    split
    · exact ih _
    · simp [ih]

theorem events_ts_indep (cls cls' : List Cls) (lines : List Str) :
    ((fileEvents cls lines).map fun e => tsValue e.fields) = (fileEvents cls' lines).map fun e => tsValue e.fields := by
  have := events_fields_indep cls cls' (lines.dropWhile fun l => (parseLine l).isNone) 0
  have := congrArg (List.map fun p : Nat × Fields => tsValue p.2) this
  simpa [fileEvents, List.map_map, Function.comp_def] using this

/-- **C07**: base and end time do not depend on which parsers are requested. -/
theorem C07_independent_of_events (cls cls' : List Cls) (lines : List Str) :
    (populate cls 0 lines).basetime = (populate cls' 0 lines).basetime ∧
    (populate cls 0 lines).endtime = (populate cls' 0 lines).endtime := by
  have h1 := populate_spec cls 0 lines
  have h2 := populate_spec cls' 0 lines
  rw [h1.1, h2.1, h1.2.2.1, h2.2.2.1, events_ts_indep cls cls' lines]
  exact ⟨rfl, rfl⟩

example : fileEvents exCls exFile ≠ [] ∧ (populate exCls 0 exFile).endtime < inf ∧
    (populate exCls 0 exFile).basetime = ofRat 105 10 ∧ (populate exCls 0 exFile).endtime = ofRat 11 1 := by
  refine ⟨?_, by decide +kernel⟩
  intro h
  have : (fileEvents exCls exFile).length = 0 := by rw [h]; rfl
  revert this; decide +kernel

/-! ## C09 -/

theorem getTraceClassAux_spec (l : Str) (cls : List Cls) (n : Nat) (acc : Option Nat) :
    match getTraceClassAux l cls n acc with
    | none => acc = none ∧ ∀ c ∈ cls, ¬ c.word <:+: l
    | some i =>
      (∃ c, n ≤ i ∧ cls[i - n]? = some c ∧ c.word <:+: l ∧ c.fallback = false ∧
        ∀ j c', j < i - n → cls[j]? = some c' → c'.word <:+: l → c'.fallback = true) ∨
      ((∀ c ∈ cls, c.word <:+: l → c.fallback = true) ∧
        ((∃ c, n ≤ i ∧ cls[i - n]? = some c ∧ c.word <:+: l ∧ c.fallback = true ∧
          ∀ j c', i - n < j → cls[j]? = some c' → ¬ c'.word <:+: l) ∨
         (acc = some i ∧ ∀ c ∈ cls, ¬ c.word <:+: l))) := by
  induction cls generalizing n acc with
  | nil =>
    simp only [getTraceClassAux]
    cases acc with
    | none => simp
    | some i => right; simp
  | cons c cs ih =>
    simp only [getTraceClassAux]
    by_cases hc : Py.contains c.word l = true
    · rw [if_pos hc]
      rw [contains_iff] at hc
      cases hf : c.fallback with
      | false =>
        simp only [Bool.not_false, if_true]
        left
        exact ⟨c, Nat.le_refl _, by simp, hc, hf, by omega⟩
      | true =>
        simp only [Bool.not_true, Bool.false_eq_true, if_false]
        have := ih (n + 1) (some n)
        split at this
        · simp at this
        · rename_i i hi
          rcases this with ⟨c', h1, h2, h3, h4, h5⟩ | ⟨h1, h2⟩
          · left
            refine ⟨c', by omega, ?_, h3, h4, ?_⟩
            · rw [show i - n = (i - (n + 1)) + 1 by omega]; simpa using h2
            · intro j c'' hj hc'' hw
              cases j with
              | zero => simp at hc''; subst hc''; exact hf
              | succ j => exact h5 j c'' (by omega) (by simpa using hc'') hw
          · right
            refine ⟨?_, ?_⟩
            · intro c' hc' hw
              rcases List.mem_cons.mp hc' with rfl | hc'
              · exact hf
              · exact h1 c' hc' hw
            · left
              rcases h2 with ⟨c', g1, g2, g3, g4, g5⟩ | ⟨g1, g2⟩
              · refine ⟨c', by omega, ?_, g3, g4, ?_⟩
                · rw [show i - n = (i - (n + 1)) + 1 by omega]; simpa using g2
                · intro j c'' hj hc''
                  cases j with
                  | zero => omega
                  | succ j => exact g5 j c'' (by omega) (by simpa using hc'')
              · cases g1
                refine ⟨c, Nat.le_refl _, by simp, hc, hf, ?_⟩
                intro j c'' hj hc''
                cases j with
                | zero => omega
                | succ j => exact g2 c'' (List.mem_of_getElem? (by simpa using hc''))
    · rw [if_neg hc]
      have hc' : ¬ c.word <:+: l := by rw [← contains_iff]; exact hc
      have := ih (n + 1) acc
      split at this
      · rename_i hi
        refine ⟨this.1, ?_⟩
        intro c'' h''
        rcases List.mem_cons.mp h'' with rfl | h''
        · exact hc'
        · exact this.2 c'' h''
      · rename_i i hi
        rcases this with ⟨c', h1, h2, h3, h4, h5⟩ | ⟨h1, h2⟩
        · left
          refine ⟨c', by omega, ?_, h3, h4, ?_⟩
          · rw [show i - n = (i - (n + 1)) + 1 by omega]; simpa using h2
          · intro j c'' hj hc'' hw
            cases j with
            | zero => simp at hc''; subst hc''; exact absurd hw hc'
            | succ j => exact h5 j c'' (by omega) (by simpa using hc'') hw
        · right
          refine ⟨?_, ?_⟩
          · intro c'' hc'' hw
            rcases List.mem_cons.mp hc'' with rfl | hc''
            · exact absurd hw hc'
            · exact h1 c'' hc'' hw
          · rcases h2 with ⟨c', g1, g2, g3, g4, g5⟩ | ⟨g1, g2⟩
            · left
              refine ⟨c', by omega, ?_, g3, g4, ?_⟩
              · rw [show i - n = (i - (n + 1)) + 1 by omega]; simpa using g2
              · intro j c'' hj hc''
                cases j with
                | zero => omega
                | succ j => exact g5 j c'' (by omega) (by simpa using hc'')
            · right
              refine ⟨g1, ?_⟩
              intro c'' hc''
              rcases List.mem_cons.mp hc'' with rfl | hc''
              · exact hc'
              · exact g2 c'' hc''

/-- **C09**: a line goes to the first non-fallback parser whose word it contains; only when there is none does it go
to a fallback parser, the last one whose word it contains; it goes nowhere exactly when no word matches. -/
theorem C09_dispatch (l : Str) (cls : List Cls) :
    (getTraceClass l cls = none ↔ ∀ c ∈ cls, ¬ c.word <:+: l) ∧
    ∀ i, getTraceClass l cls = some i → ∃ c, cls[i]? = some c ∧ c.word <:+: l ∧
      (c.fallback = false → ∀ j c', j < i → cls[j]? = some c' → c'.word <:+: l → c'.fallback = true) ∧
      (c.fallback = true → (∀ c' ∈ cls, c'.word <:+: l → c'.fallback = true) ∧
        ∀ j c', i < j → cls[j]? = some c' → ¬ c'.word <:+: l) := by
  have h := getTraceClassAux_spec l cls 0 none
  unfold getTraceClass
  split at h
  · rename_i hi
    refine ⟨⟨fun _ => h.2, fun _ => hi⟩, ?_⟩
    intro i h'; rw [hi] at h'; cases h'
  · rename_i i hi
    simp only [Nat.sub_zero, Nat.zero_le, true_and] at h
    constructor
    · constructor
      · intro h'; rw [hi] at h'; cases h'
      · intro hno
        rcases h with ⟨c, h1, h2, _⟩ | ⟨_, ⟨c, h1, h2, _⟩ | ⟨h1, _⟩⟩
        · exact absurd h2 (hno c (List.mem_of_getElem? h1))
        · exact absurd h2 (hno c (List.mem_of_getElem? h1))
        · cases h1
    · intro i' h'
      rw [hi] at h'; cases h'
      rcases h with ⟨c, h1, h2, h3, h4⟩ | ⟨h0, ⟨c, h1, h2, h3, h4⟩ | ⟨h1, _⟩⟩
      · exact ⟨c, h1, h2, fun _ => h4, fun h => by rw [h3] at h; cases h⟩
      · exact ⟨c, h1, h2, (fun h => by rw [h3] at h; cases h), fun _ => ⟨h0, h4⟩⟩
      · cases h1

/-- **C09**: if some requested non-fallback parser matches, the line goes to a non-fallback parser. -/
theorem C09_nonfallback_wins (l : Str) (cls : List Cls) (c : Cls) (hc : c ∈ cls) (hw : c.word <:+: l)
    (hf : c.fallback = false) : ∃ i c', getTraceClass l cls = some i ∧ cls[i]? = some c' ∧ c'.fallback = false := by
  have h := C09_dispatch l cls
  cases hi : getTraceClass l cls with
  | none => exact absurd hw (h.1.mp hi c hc)
  | some i =>
    obtain ⟨c', h1, h2, h3, h4⟩ := h.2 i hi
    refine ⟨i, c', rfl, h1, ?_⟩
    cases hf' : c'.fallback with
    | false => rfl
    | true => have := (h4 hf').1 c hc hw; rw [hf] at this; cases this

example : getTraceClass cs!"a-1 [0] 1.0: print: sched_switch: x" [{ word := cs!"print:", fallback := true }, { word := cs!"sched_switch:", fallback := false }] = some 1 := by
  decide +kernel

/-! ## C08 -/

/-- **C08**: every row of table `i` comes from an event line of the file that is dispatched to parser `i`, and
carries its header fields and (cleaned) data. -/
theorem C08_rows_come_from_lines (cls : List Cls) (lines : List Str) (i : Nat) (r : Rec)
    (hr : r ∈ (populate cls 0 lines).tables i) :
    ∃ l f, (lines.dropWhile fun l => (parseLine l).isNone)[r.line]? = some l ∧
      parseLine (Py.rstrip l) = some f ∧ getTraceClass l cls = some i ∧
      r.comm = f.comm ∧ r.pid = f.pid ∧ r.cpu = f.cpu ∧ r.data = cleanData f.data := by
  have hs := populate_spec cls 0 lines
  rw [hs.2.1] at hr
  obtain ⟨k, e, t, h1, h2, h3, rfl⟩ := rowsFor_mem hr
  obtain ⟨l, g1, _, g3, g4⟩ := eventsFrom_mem _ _ _ e (List.mem_of_getElem? h1)
  exact ⟨l, e.fields, by simpa [Ev.row] using g1, g3, by rw [← g4]; exact h3, rfl, rfl, rfl, rfl⟩

theorem eventsFrom_of_line (d : Str → Option Nat) (A : List Str) (n m : Nat) (l : Str) (f : Fields)
    (h : A[m]? = some l) (hf : parseLine (Py.rstrip l) = some f) :
    ({ line := n + m, dest := d l, fields := f } : Ev) ∈ eventsFrom d n A := by
  induction A generalizing n m with
  | nil => simp at h
  | cons a A ih =>
    cases m with
    | zero =>
      simp at h; subst h
      simp [eventsFrom, hf]
    | succ m =>
      simp at h
      have := ih (n + 1) m h
      rw [show n + 1 + m = n + (m + 1) by omega] at this
      simp only [eventsFrom]
      split
      · exact this
      · exact List.mem_cons_of_mem _ this

/-- **C08**: every event line of the trace body that is dispatched to a parser contributes exactly one row, to that
parser's table; no other table has a row with that line number. -/
theorem C08_each_line_once (cls : List Cls) (lines : List Str) (m : Nat) (l : Str) (f : Fields) (i : Nat)
    (hl : (lines.dropWhile fun l => (parseLine l).isNone)[m]? = some l)
    (hf : parseLine (Py.rstrip l) = some f) (hd : getTraceClass l cls = some i)
    (hfin : (populate cls 0 lines).endtime < inf) :
    ((populate cls 0 lines).tables i).countP (fun r => r.line == m) = 1 ∧
    ∀ j, j ≠ i → ∀ r ∈ (populate cls 0 lines).tables j, r.line ≠ m := by
  have hs := populate_spec cls 0 lines
  have hmem := eventsFrom_of_line (fun l => getTraceClass l cls) _ 0 m l f hl hf
  obtain ⟨k, hk⟩ := List.mem_iff_getElem?.mp hmem
  have hlen := assign_length 0 ((fileEvents cls lines).map fun e => tsValue e.fields)
  have hk' : k < (assign 0 ((fileEvents cls lines).map fun e => tsValue e.fields)).length := by
    rw [hlen, List.length_map]
    exact (List.getElem?_eq_some_iff.mp hk).1
  have hin := rowsFor_intro (i := i) (es := fileEvents cls lines)
    (ts := assign 0 ((fileEvents cls lines).map fun e => tsValue e.fields)) hk (List.getElem?_eq_getElem hk') hd
  rw [← hs.2.1] at hin
  obtain ⟨r0, hr0, hline⟩ : ∃ r0 ∈ (populate cls 0 lines).tables i, r0.line = m := ⟨_, hin, by simp [Ev.row]⟩
  refine ⟨?_, ?_⟩
  · have hpw := (C04_times_strictly_increase cls lines hfin).2 i
    generalize (populate cls 0 lines).tables i = T at hr0 hpw
    clear hin hs
    induction T with
    | nil => simp at hr0
    | cons a T ih =>
      have hp := List.pairwise_cons.mp hpw
      rcases List.mem_cons.mp hr0 with rfl | hr
      · rw [List.countP_cons_of_pos (by simp [hline])]
        have : T.countP (fun r => r.line == m) = 0 := by
          rw [List.countP_eq_zero]
          intro b hb
          have := (hp.1 b hb).1
          simp; omega
        omega
      · have := (hp.1 r0 hr).1
        rw [List.countP_cons_of_neg (by simp; omega)]
        exact ih hr hp.2
  · intro j hj r hr he
    have := (rows_order hfin hr hr0).2 (by omega)
    exact hj this.1

example : (exFile.dropWhile fun l => (parseLine l).isNone)[2]? = some cs!"b c-2 [001] 10.5: print: hello\n" ∧
    (parseLine (Py.rstrip cs!"b c-2 [001] 10.5: print: hello\n")).isSome ∧
    getTraceClass cs!"b c-2 [001] 10.5: print: hello\n" exCls = some 1 := by decide +kernel

/-! ## C10 -/

/-- **C10** (general form): if parser `i` of one parse and parser `j` of another are given the same lines, their
tables are equal. -/
theorem C10_same_dispatch_same_table (cls cls' : List Cls) (lines : List Str) (i j : Nat)
    (h : ∀ l ∈ lines, getTraceClass l cls = some i ↔ getTraceClass l cls' = some j) :
    (populate cls 0 lines).tables i = (populate cls' 0 lines).tables j := by
  have h1 := populate_spec cls 0 lines
  have h2 := populate_spec cls' 0 lines
  rw [h1.2.1, h2.2.1, ← events_ts_indep cls cls' lines]
  generalize assign 0 ((fileEvents cls lines).map fun e => tsValue e.fields) = out
  unfold fileEvents
  have hb : ∀ l ∈ (lines.dropWhile fun l => (parseLine l).isNone),
      (getTraceClass l cls = some i ↔ getTraceClass l cls' = some j) :=
    fun l hl => h l ((List.dropWhile_suffix _).subset hl)
  generalize (lines.dropWhile fun l => (parseLine l).isNone) = body at hb
  have gen : ∀ (body : List Str) (n : Nat) (out : List Nat),
      (∀ l ∈ body, (getTraceClass l cls = some i ↔ getTraceClass l cls' = some j)) →
      rowsFor i (eventsFrom (fun l => getTraceClass l cls) n body) out =
        rowsFor j (eventsFrom (fun l => getTraceClass l cls') n body) out := by
    intro body
    induction body with
    | nil => intro n out _; simp [eventsFrom, rowsFor]
    | cons l ls ih =>
      intro n out hb
      simp only [eventsFrom]
      split
      · exact ih _ _ fun l hl => hb l (by simp [hl])
      · cases out with
        | nil => simp [rowsFor]
        | cons t out =>
          have hl := hb l (by simp)
          simp only [rowsFor]
          rw [ih _ _ fun l hl => hb l (by simp [hl])]
          by_cases hi : getTraceClass l cls = some i
          · rw [if_pos hi, if_pos (hl.mp hi)]; rfl
          · rw [if_neg hi, if_neg (fun h => hi (hl.mpr h))]
  exact gen body 0 out hb

theorem dispatch_unrivalled {l : Str} {cls : List Cls} {i : Nat} {c : Cls} (hi : cls[i]? = some c)
    (hno : c.word <:+: l → ∀ k c', k ≠ i → cls[k]? = some c' → ¬ c'.word <:+: l) :
    getTraceClass l cls = some i ↔ c.word <:+: l := by
  have h := C09_dispatch l cls
  constructor
  · intro hg
    obtain ⟨c', h1, h2, _⟩ := h.2 i hg
    rw [hi] at h1; cases h1; exact h2
  · intro hw
    cases hg : getTraceClass l cls with
    | none => exact absurd hw (h.1.mp hg c (List.mem_of_getElem? hi))
    | some k =>
      obtain ⟨c', h1, h2, _⟩ := h.2 k hg
      by_cases hk : k = i
      · rw [hk]
      · exact absurd h2 (hno hw k c' hk h1)

/-- **C10**: the table of a parser with no rival on any line of the file is the same in every parse that requests it,
whatever else is requested. -/
theorem C10_other_events_irrelevant (cls cls' : List Cls) (lines : List Str) (i j : Nat) (c c' : Cls)
    (hi : cls[i]? = some c) (hj : cls'[j]? = some c') (hword : c.word = c'.word)
    (hno : ∀ l ∈ lines, c.word <:+: l → ∀ k d, k ≠ i → cls[k]? = some d → ¬ d.word <:+: l)
    (hno' : ∀ l ∈ lines, c.word <:+: l → ∀ k d, k ≠ j → cls'[k]? = some d → ¬ d.word <:+: l) :
    (populate cls 0 lines).tables i = (populate cls' 0 lines).tables j := by
  apply C10_same_dispatch_same_table
  intro l hl
  rw [dispatch_unrivalled hi (hno l hl), dispatch_unrivalled hj (by rw [← hword]; exact hno' l hl), hword]

/-- the hypothesis holds for the example file: `print:` alone, or together with `sched_switch:` -/
example : ∀ l ∈ exFile, cs!"print:" <:+: l → ∀ k d, k ≠ 1 → exCls[k]? = some d → ¬ d.word <:+: l := by
  have : ∀ l ∈ exFile, Py.contains cs!"print:" l = true → Py.contains cs!"sched_switch:" l = false := by decide +kernel
  intro l hl hw k d hk hd
  rw [← contains_iff] at hw
  have h2 := this l hl hw
  match k, hk with
  | 0, _ =>
    simp [exCls] at hd
    subst hd
    rw [← contains_iff, h2]; simp
  | k + 2, _ => simp [exCls] at hd

/-! ## C11 -/

/-- **C11**: line numbers are positions in the trace body (counted from its first line) and order the rows, within a
table and across tables, exactly as the times do. -/
theorem C11_line_order (cls : List Cls) (lines : List Str) (hfin : (populate cls 0 lines).endtime < inf) :
    (∀ i, ((populate cls 0 lines).tables i).Pairwise fun a b => a.line < b.line) ∧
    (∀ i j a b, a ∈ (populate cls 0 lines).tables i → b ∈ (populate cls 0 lines).tables j →
      (a.line < b.line ↔ val a.time < val b.time)) ∧
    (∀ i, ∀ a ∈ (populate cls 0 lines).tables i,
      a.line < (lines.dropWhile fun l => (parseLine l).isNone).length) := by
  have h := C04_times_strictly_increase cls lines hfin
  refine ⟨fun i => (h.2 i).imp fun h => h.1, ?_, ?_⟩
  · intro i j a b ha hb
    refine ⟨(h.1 i j a b ha hb).1, ?_⟩
    intro ht
    rcases Nat.lt_trichotomy a.line b.line with h' | h' | h'
    · exact h'
    · have := ((h.1 i j a b ha hb).2 h').2
      subst this; exact absurd ht (lt_irrefl _)
    · have := (h.1 j i b a hb ha).1 h'
      exact absurd ht (not_lt.mpr this.le)
  · intro i a ha
    obtain ⟨l, f, h1, _⟩ := C08_rows_come_from_lines cls lines i a ha
    exact (List.getElem?_eq_some_iff.mp h1).1

end Trappy
