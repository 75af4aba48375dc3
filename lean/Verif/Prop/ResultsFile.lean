import Verif.Model.ResultsFile
import Verif.Prop.Wa
import Verif.Prop.Wa2
import Verif.Prop.Csv
/-!
# C165: from the results files to the bars
-/

namespace Trappy
open Py

/-! ## Reading -/

theorem read_plain {w : Str} {f : Str} {r : List Str} {s : Str} (h : w.any csvSpecial = false) : csvRead .plain f r (w ++ s) = csvRead .plain (f ++ w) r s := by
  induction w generalizing f with
  | nil => simp
  | cons c w ih =>
    simp only [List.any_cons, Bool.or_eq_false_iff] at h
    obtain ⟨hc, hw⟩ := h
    simp only [csvSpecial, Bool.or_eq_false_iff, beq_eq_false_iff_ne] at hc
    rw [List.cons_append, csvRead.eq_def]
    simp only [hc.2, hc.1.1, if_false]
    rw [ih hw]
    simp

theorem read_quoted {w : Str} {f : Str} {r : List Str} {s : Str} : csvRead .quoted f r (csvEscape w ++ s) = csvRead .quoted (f ++ w) r s := by
  induction w generalizing f with
  | nil => simp [csvEscape]
  | cons c w ih =>
    unfold csvEscape
    by_cases hc : c = '"'
    · subst hc
      simp only [if_true, List.cons_append]
      rw [csvRead.eq_def]
      simp only [if_true]
      rw [csvRead.eq_def]
      simp only [if_true]
      rw [ih]
      simp
    · simp only [if_neg hc, List.cons_append]
      rw [csvRead.eq_def]
      simp only [if_neg hc]
      rw [ih]
      simp

/-- a field and the comma after it -/
theorem read_field_comma {w : Str} {r : List Str} {s : Str} : csvRead .startField [] r (csvField w ++ ',' :: s) = csvRead .startField [] (r ++ [w]) s := by
  unfold csvField
  by_cases h : w.any csvSpecial = true
  · rw [if_pos h, List.cons_append, csvRead.eq_def]
    simp only [show ('"' : Char) ≠ '\n' by decide, if_false, if_true]
    rw [List.append_assoc, read_quoted, List.nil_append]
    rw [show ['"'] ++ ',' :: s = '"' :: ',' :: s from rfl, csvRead.eq_def]
    simp only [if_true]
    rw [csvRead.eq_def]
    simp [show (',' : Char) ≠ '"' by decide, show (',' : Char) ≠ '\n' by decide]
  · rw [if_neg h]
    rw [Bool.not_eq_true] at h
    cases w with
    | nil =>
      rw [List.nil_append, csvRead.eq_def]
      simp [show (',' : Char) ≠ '"' by decide, show (',' : Char) ≠ '\n' by decide]
    | cons c w =>
      simp only [List.any_cons, Bool.or_eq_false_iff] at h
      obtain ⟨hc, hw⟩ := h
      simp only [csvSpecial, Bool.or_eq_false_iff, beq_eq_false_iff_ne] at hc
      rw [List.cons_append, csvRead.eq_def]
      simp only [hc.2, hc.1.1, hc.1.2, if_false]
      rw [read_plain hw, csvRead.eq_def]
      simp [show (',' : Char) ≠ '\n' by decide]

/-- the last field of a row -/
theorem read_field_nl {w : Str} {r : List Str} {s : Str} : csvRead .startField [] r (csvField w ++ '\n' :: s) = (r ++ [w]) :: csvRead .startRow [] [] s := by
  unfold csvField
  by_cases h : w.any csvSpecial = true
  · rw [if_pos h, List.cons_append, csvRead.eq_def]
    simp only [show ('"' : Char) ≠ '\n' by decide, if_false, if_true]
    rw [List.append_assoc, read_quoted, List.nil_append]
    rw [show ['"'] ++ '\n' :: s = '"' :: '\n' :: s from rfl, csvRead.eq_def]
    simp only [if_true]
    rw [csvRead.eq_def]
    simp [show ('\n' : Char) ≠ '"' by decide]
  · rw [if_neg h]
    rw [Bool.not_eq_true] at h
    cases w with
    | nil =>
      rw [List.nil_append, csvRead.eq_def]
      simp
    | cons c w =>
      simp only [List.any_cons, Bool.or_eq_false_iff] at h
      obtain ⟨hc, hw⟩ := h
      simp only [csvSpecial, Bool.or_eq_false_iff, beq_eq_false_iff_ne] at hc
      rw [List.cons_append, csvRead.eq_def]
      simp only [hc.2, hc.1.1, hc.1.2, if_false]
      rw [read_plain hw, csvRead.eq_def]
      simp

/-- the rest of a row -/
theorem read_fields {ws : List Str} {r : List Str} {s : Str} (hne : ws ≠ []) :
    csvRead .startField [] r (joinC ',' (ws.map csvField) ++ '\n' :: s) = (r ++ ws) :: csvRead .startRow [] [] s := by
  induction ws generalizing r with
  | nil => exact absurd rfl hne
  | cons w ws ih =>
    cases ws with
    | nil =>
      simp only [List.map_cons, List.map_nil, joinC]
      exact read_field_nl
    | cons w' ws =>
      simp only [List.map_cons, joinC, List.append_assoc, List.cons_append] at ih ⊢
      rw [read_field_comma, ih (by simp)]
      simp

/-- the start of a row is that of a field, except for an empty line -/
theorem read_start {s : Str} (h : ∀ t, s ≠ '\n' :: t) (hne : s ≠ []) : csvRead .startRow [] [] s = csvRead .startField [] [] s := by
  cases s with
  | nil => exact absurd rfl hne
  | cons c s =>
    have hc : c ≠ '\n' := by rintro rfl; exact h s rfl
    rw [csvRead.eq_def, csvRead.eq_def]
    simp only [if_neg hc, List.nil_append]

/-- a row of the file, and what follows -/
theorem read_row {r : List Str} {s : Str} (h1 : r ≠ []) (h2 : r ≠ [[]]) : csvRead .startRow [] [] (csvRow r ++ s) = r :: csvRead .startRow [] [] s := by
  unfold csvRow
  rw [List.append_assoc, List.singleton_append, read_start, read_fields h1, List.nil_append]
  · intro t e
    cases r with
    | nil => exact h1 rfl
    | cons w ws =>
      have hf : ∀ u, csvField w ≠ '\n' :: u := by
        intro u
        unfold csvField
        split
        · intro e
          exact absurd (List.cons.inj e).1 (by decide)
        next h =>
          rintro rfl
          simp [csvSpecial] at h
      cases hw : csvField w with
      | nil =>
        have hw' : w = [] := by
          unfold csvField at hw
          split at hw
          · cases hw
          · exact hw
        cases ws with
        | nil => exact h2 (by rw [hw'])
        | cons w' ws =>
          simp only [List.map_cons, joinC, hw, List.nil_append, List.cons_append] at e
          exact absurd (List.cons.inj e).1 (by decide)
      | cons c u =>
        cases ws with
        | nil =>
          simp only [List.map_cons, List.map_nil, joinC, hw, List.cons_append] at e
          exact hf u (by rw [hw, (List.cons.inj e).1])
        | cons w' ws =>
          simp only [List.map_cons, joinC, hw, List.cons_append] at e
          exact hf u (by rw [hw, (List.cons.inj e).1])
  · simp

/-- **C165 (reading).** The rows of a file are read back, whatever is in their fields, and what follows is read by itself; an empty line is an empty row. For all rows. -/
theorem C165_reader {rows : List (List Str)} (h : ∀ r ∈ rows, r ≠ [] ∧ r ≠ [[]]) (s : Str) :
    csvRead .startRow [] [] (csvText rows ++ s) = rows ++ csvRead .startRow [] [] s ∧ csvRead .startRow [] [] ('\n' :: s) = [] :: csvRead .startRow [] [] s := by
  refine ⟨?_, by rw [csvRead.eq_def]; simp⟩
  induction rows with
  | nil => rfl
  | cons r rows ih =>
    obtain ⟨h1, h2⟩ := h r List.mem_cons_self
    unfold csvText
    rw [List.map_cons, List.flatten_cons, List.append_assoc, read_row h1 h2]
    exact congrArg _ (ih fun x hx => h x (List.mem_cons_of_mem _ hx))

/-! ## Titles -/

/-- **Specification**: the title of a benchmark: blanks for underscores; a letter is a capital exactly if no letter precedes it -/
def TitleFor (bench title : Str) : Prop :=
  ∃ s : Str, s.length = bench.length ∧ title.length = bench.length ∧ (∀ (i : Nat) c, bench[i]? = some c → s[i]? = some (if c = '_' then ' ' else c)) ∧
    (∀ c, s[0]? = some c → title[0]? = some c.toUpper) ∧
    ∀ (i : Nat) c p, s[i + 1]? = some c → s[i]? = some p → title[i + 1]? = some (if isUpper p || isLower p then c.toLower else c.toUpper)

theorem titleCase_length (p : Bool) (s : Str) : (titleCase p s).length = s.length := by
  induction s generalizing p with
  | nil => rfl
  | cons c s ih => simp [titleCase, ih]

theorem titleCase_next (q : Bool) (s : Str) (i : Nat) (c p : Char) (h1 : s[i + 1]? = some c) (h2 : s[i]? = some p) :
    (titleCase q s)[i + 1]? = some (if isUpper p || isLower p then c.toLower else c.toUpper) := by
  induction s generalizing q i with
  | nil => cases h1
  | cons x s ih =>
    cases i with
    | zero =>
      cases s with
      | nil => cases h1
      | cons y s =>
        simp only [List.getElem?_cons_succ, List.getElem?_cons_zero, Option.some.injEq] at h1 h2
        subst h1 h2
        simp [titleCase]
    | succ i =>
      simp only [List.getElem?_cons_succ] at h1 h2
      simp only [titleCase, List.getElem?_cons_succ]
      exact ih _ i h1 h2

theorem benchTitle_spec (b : Str) : TitleFor b (benchTitle b) := by
  have e : replace cs!"_" cs!" " b = b.map fun c => if c = '_' then ' ' else c := by
    rw [show cs!"_" = ['_'] from rfl, replace_char]
    induction b with
    | nil => rfl
    | cons c b ih =>
      rw [List.flatMap_cons, ih, List.map_cons]
      split <;> rfl
  refine ⟨b.map fun c => if c = '_' then ' ' else c, by simp, ?_, ?_, ?_, ?_⟩
  · unfold benchTitle
    rw [titleCase_length, e, List.length_map]
  · intro i c h
    rw [List.getElem?_map, h]
    rfl
  · intro c h
    unfold benchTitle
    rw [e]
    cases hs : b.map fun c => if c = '_' then ' ' else c with
    | nil => rw [hs] at h; cases h
    | cons x s =>
      rw [hs] at h
      simp only [List.getElem?_cons_zero, Option.some.injEq] at h
      subst h
      simp [titleCase]
  · intro i c p h1 h2
    unfold benchTitle
    rw [e]
    exact titleCase_next _ _ _ _ _ h1 h2

/-! ## Tables -/

/-- each run id and each run number once -/
def KeysOnce {ν : Type} (d : BenchDict ν) : Prop := ∀ b x, d.get b = some x → (x.map Prod.fst).Nodup ∧ ∀ id rs, x.get id = some rs → (rs.map Prod.fst).Nodup

theorem keysOnce_add {ν : Type} {d : BenchDict ν} (h : KeysOnce d) (b id : Str) (n : Int) (v : ν) : KeysOnce (addScore d b id n v) := by
  have hset : ∀ (x : Dict (RunScores ν)) (rs : RunScores ν), (x.map Prod.fst).Nodup → (∀ id rs, x.get id = some rs → (rs.map Prod.fst).Nodup) → (rs.map Prod.fst).Nodup → KeysOnce (d.set b (x.set id rs)) := by
    intro x rs h1 h2 h3 b' x' hg
    rw [Dict.get_set] at hg
    split at hg
    · cases hg
      refine ⟨Dict.nodup_set h1 _ _, ?_⟩
      intro id' rs' hg'
      rw [Dict.get_set] at hg'
      split at hg'
      · cases hg'
        exact h3
      · exact h2 _ _ hg'
    · exact h _ _ hg
  unfold addScore
  cases hb : d.get b with
  | none => exact hset [] [(n, v)] (by simp) (by intro _ _ h; cases h) (by simp)
  | some x =>
    obtain ⟨h1, h2⟩ := h b x hb
    simp only
    cases hi : x.get id with
    | none => exact hset x _ h1 h2 (by simp)
    | some rs =>
      simp only
      split
      · exact h
      next hn =>
        refine hset x _ h1 h2 ?_
        rw [List.map_append, List.nodup_append]
        refine ⟨h2 _ _ hi, by simp, ?_⟩
        intro a ha c hc e
        simp only [List.map_cons, List.map_nil, List.mem_singleton] at hc
        exact hn (hc ▸ e ▸ ha)

theorem keysOnce_rows {F : Type} {rf : Str → Option F} {name : Option Str} {rows : List (List Str)} {d d' : BenchDict (Int ⊕ F)} (h : KeysOnce d) (hr : resultRows rf name d rows = .ok d') :
    KeysOnce d' := by
  induction rows generalizing d with
  | nil =>
    simp only [resultRows, Except.ok.injEq] at hr
    exact hr ▸ h
  | cons r rows ih =>
    simp only [resultRows] at hr
    cases hrow : resultRow rf name d r with
    | error e => rw [hrow] at hr; cases hr
    | ok d1 =>
      rw [hrow] at hr
      refine ih ?_ hr
      rcases resultRow_spec rf name d d1 r hrow with ⟨_, rfl⟩ | ⟨b, id, n, v, _, rfl, _⟩
      · exact h
      · exact keysOnce_add h b id n v

/-- **Specification**: a run: the path given, the name given and the rows of its file -/
structure ResultRun where
  path : Str
  name : Option Str
  rows : List (List Str)

/-- **Specification**: the file of the run: the one given or, of a directory, that named `results.csv` -/
def RunFile (fs : WaFs) (r : ResultRun) : Prop :=
  (r.path ∉ fs.dirs ∧ fs.files.get r.path = some (csvText r.rows)) ∨
  (r.path ∈ fs.dirs ∧ r.path ≠ [] ∧ ¬ ['/'] <:+ r.path ∧ fs.files.get (r.path ++ '/' :: cs!"results.csv") = some (csvText r.rows))

/-- **Specification**: the bars of a run for a benchmark: for each run id and run number the first score in its file, each once -/
def BarsOf {F : Type} (rf : Str → Option F) (r : ResultRun) (b : Str) (bars : List (Str × RunScores (Int ⊕ F))) : Prop :=
  (∀ id n v, (∃ rs, (id, rs) ∈ bars ∧ (n, v) ∈ rs) ↔ FirstScore rf r.name r.rows b id n v) ∧ (bars.map Prod.fst).Nodup ∧ ∀ id rs, (id, rs) ∈ bars → (rs.map Prod.fst).Nodup

theorem path_of_file {fs : WaFs} {r : ResultRun} (h : RunFile fs r) : fs.files.get (resultsPath fs r.path) = some (csvText r.rows) := by
  unfold resultsPath
  rcases h with ⟨h1, h2⟩ | ⟨h1, h2, h3, h4⟩
  · rw [if_neg h1, h2]
  · rw [if_pos h1]
    unfold pathJoin
    have e1 : r.path.isEmpty = false := by simpa using h2
    have e2 : endsWith r.path ['/'] = false := by
      rw [← Bool.not_eq_true]
      intro h
      exact h3 (by simpa [endsWith] using h)
    rw [e1, e2]
    simpa using h4

/-- what `get_results` gives for a file that can be read -/
theorem getResults_file {F : Type} {rf : Str → Option F} {fs : WaFs} {r : ResultRun} (h : RunFile fs r) (hrows : ∀ x ∈ r.rows, RowFine rf x) :
    ∃ d, resultRows rf r.name [] r.rows = .ok d ∧ getResults rf fs r.path r.name = (if d = [] then .error .value else .ok d) := by
  obtain ⟨d, hd⟩ := (C76_readable rf r.name r.rows []).2 hrows
  refine ⟨d, hd, ?_⟩
  have hread : csvRead .startRow [] [] (csvText r.rows) = r.rows := by
    have := (C165_reader (rows := r.rows) (fun x hx => by
      obtain ⟨_, _, _, _, _, rfl, _⟩ := hrows x hx
      exact ⟨by simp, by simp⟩) []).1
    rw [List.append_nil] at this
    rw [this]
    simp [csvRead]
  unfold getResults
  rw [path_of_file h]
  simp only [hread, hd]
  cases d <;> simp

theorem bars_of_dict {F : Type} {rf : Str → Option F} {r : ResultRun} {d : BenchDict (Int ⊕ F)} (h : resultRows rf r.name [] r.rows = .ok d) {b : Str} {x : Dict (RunScores (Int ⊕ F))} (hx : d.get b = some x) :
    BarsOf rf r b x := by
  have hk := keysOnce_rows (d := []) (fun b x h => by cases h) h
  obtain ⟨k1, k2⟩ := hk b x hx
  refine ⟨?_, k1, fun id rs hm => k2 id rs (Dict.get_of_mem k1 hm)⟩
  intro id n v
  rw [← (C76_first h).1 b id n v]
  constructor
  · rintro ⟨rs, h1, h2⟩
    exact ⟨x, rs, hx, Dict.get_of_mem k1 h1, h2⟩
  · rintro ⟨x', rs, h1, h2, h3⟩
    rw [hx] at h1
    cases h1
    exact ⟨rs, Dict.get_mem h2, h3⟩

theorem getAll_ok {F : Type} {rf : Str → Option F} {fs : WaFs} {runs : List ResultRun} (h : ∀ r ∈ runs, RunFile fs r) (hrows : ∀ r ∈ runs, ∀ x ∈ r.rows, RowFine rf x)
    (ds : List (BenchDict (Int ⊕ F))) :
    getAllResults rf fs (runs.map fun r => (r.path, r.name)) = .ok ds ↔ List.Forall₂ (fun (r : ResultRun) d => resultRows rf r.name [] r.rows = .ok d ∧ d ≠ []) runs ds := by
  induction runs generalizing ds with
  | nil =>
    simp only [List.map_nil, getAllResults, Except.ok.injEq, List.forall₂_nil_left_iff]
    exact eq_comm
  | cons r runs ih =>
    obtain ⟨d, hd, hg⟩ := getResults_file (h r List.mem_cons_self) (hrows r List.mem_cons_self)
    have ih := ih (fun x hx => h x (List.mem_cons_of_mem _ hx)) (fun x hx => hrows x (List.mem_cons_of_mem _ hx))
    simp only [List.map_cons, getAllResults, hg]
    by_cases hde : d = []
    · rw [if_pos hde]
      simp only [reduceCtorEq, false_iff]
      intro h'
      cases h' with
      | cons h1 h2 =>
        rw [hd] at h1
        cases h1.1
        exact h1.2 hde
    · rw [if_neg hde]
      simp only
      constructor
      · intro h'
        cases hgs : getAllResults rf fs (runs.map fun r => (r.path, r.name)) with
        | error e => rw [hgs] at h'; cases h'
        | ok ds' =>
          rw [hgs] at h'
          simp only [Except.ok.injEq] at h'
          subst h'
          exact .cons ⟨hd, hde⟩ ((ih ds').1 hgs)
      · intro h'
        cases h' with
        | cons h1 h2 =>
          rw [hd] at h1
          cases h1.1
          rw [(ih _).2 h2]

/-- **C165 (partial).** The results of files that can be read are combined exactly if there is a run, each file has a score, and each benchmark with a score in the first file has one in every other; then there
is one figure for each benchmark of the first file, in the order of their first scores, with its title, and on it for each run, in order, a bar for each run id and run number of the run's file, whose value is
the first one there. For all files, whatever is in their fields. -/
theorem C165_results_partial {F : Type} (rf : Str → Option F) (fs : WaFs) (r : ResultRun) (runs : List ResultRun) (h : ∀ x ∈ r :: runs, RunFile fs x) (hrows : ∀ x ∈ r :: runs, ∀ row ∈ x.rows, RowFine rf row) :
    ((∃ t, combinedResults rf fs ((r :: runs).map fun x => (x.path, x.name)) = .ok t) ↔
      (∀ x ∈ r :: runs, ∃ b, HasScore rf x.name x.rows b) ∧ ∀ b, HasScore rf r.name r.rows b → ∀ x ∈ runs, HasScore rf x.name x.rows b) ∧
    ∀ t, combinedResults rf fs ((r :: runs).map fun x => (x.path, x.name)) = .ok t →
      ∃ benches : List Str, benches.Nodup ∧ (∀ b, b ∈ benches ↔ HasScore rf r.name r.rows b) ∧
        benches.Pairwise (fun b b' => ∃ pre post, r.rows = pre ++ post ∧ HasScore rf r.name pre b ∧ ¬ HasScore rf r.name pre b') ∧
        List.Forall₂ (fun b (c : ResultChart (Int ⊕ F)) => TitleFor b c.title ∧ ∃ bars, List.Forall₂ (fun x => BarsOf rf x b) (r :: runs) bars ∧ c.bars = bars.flatten) benches (plotResults false t) := by
  -- the tables of the runs
  have hall : ∀ l : List ResultRun, (∀ x ∈ l, ∀ row ∈ x.rows, RowFine rf row) → ∃ ds, List.Forall₂ (fun (x : ResultRun) (d : BenchDict (Int ⊕ F)) => resultRows rf x.name [] x.rows = .ok d) l ds := by
    intro l hl
    induction l with
    | nil => exact ⟨[], .nil⟩
    | cons x l ih =>
      obtain ⟨ds, hds⟩ := ih fun y hy => hl y (List.mem_cons_of_mem _ hy)
      obtain ⟨d, hd⟩ := (C76_readable rf x.name x.rows []).2 (hl x List.mem_cons_self)
      exact ⟨d :: ds, .cons hd hds⟩
  have hkeys : ∀ (x : ResultRun) (d : BenchDict (Int ⊕ F)), resultRows rf x.name [] x.rows = .ok d → ∀ b, HasBench d b ↔ HasScore rf x.name x.rows b := by
    intro x d hd b
    rw [← (C76_first hd).2.2.1 b]
    unfold HasBench
    rw [List.mem_map]
    constructor
    · rintro ⟨t, ht⟩
      exact ⟨_, ht, rfl⟩
    · rintro ⟨⟨b', t⟩, ht, rfl⟩
      exact ⟨t, ht⟩
  have hne : ∀ (x : ResultRun) (d : BenchDict (Int ⊕ F)), resultRows rf x.name [] x.rows = .ok d → (d ≠ [] ↔ ∃ b, HasScore rf x.name x.rows b) := by
    intro x d hd
    constructor
    · intro h
      cases d with
      | nil => exact absurd rfl h
      | cons p d => exact ⟨p.1, (hkeys x _ hd p.1).1 ⟨p.2, List.mem_cons_self⟩⟩
    · rintro ⟨b, hb⟩ rfl
      obtain ⟨t, ht⟩ := (hkeys x _ hd b).2 hb
      cases ht
  have hcomb : ∀ t, combinedResults rf fs ((r :: runs).map fun x => (x.path, x.name)) = .ok t ↔
      ∃ d ds, getAllResults rf fs ((r :: runs).map fun x => (x.path, x.name)) = .ok (d :: ds) ∧ combineResults (d :: ds) = some t := by
    intro t
    unfold combinedResults
    cases hg : getAllResults rf fs ((r :: runs).map fun x => (x.path, x.name)) with
    | error e => simp
    | ok l =>
      cases l with
      | nil => simp
      | cons d ds =>
        simp only [Except.ok.injEq, List.cons.injEq]
        cases hc : combineResults (d :: ds) with
        | none =>
          simp only [reduceCtorEq, false_iff]
          rintro ⟨d', ds', ⟨rfl, rfl⟩, h⟩
          rw [hc] at h
          cases h
        | some t' =>
          simp only [Except.ok.injEq]
          constructor
          · rintro rfl
            exact ⟨d, ds, ⟨rfl, rfl⟩, hc⟩
          · rintro ⟨d', ds', ⟨rfl, rfl⟩, h⟩
            rw [hc] at h
            cases h
            rfl
  have hget := getAll_ok (rf := rf) (runs := r :: runs) h hrows
  refine ⟨?_, ?_⟩
  · constructor
    · rintro ⟨t, ht⟩
      obtain ⟨d, ds, h1, h2⟩ := (hcomb t).1 ht
      replace h1 := (hget _).1 h1
      have hb := ((C107_combine_partial d ds).2.1 ⟨t, h2⟩).2
      cases h1 with
      | cons hd hds =>
        have hmem : ∀ x ∈ runs, ∃ dx ∈ ds, resultRows rf x.name [] x.rows = .ok dx ∧ dx ≠ [] := by
          clear hb h2 ht hget hcomb h hrows
          induction hds with
          | nil => intro x hx; cases hx
          | cons hd' _ ih =>
            intro x hx
            rcases List.mem_cons.1 hx with rfl | hx
            · exact ⟨_, List.mem_cons_self, hd'⟩
            · obtain ⟨dx, h3, h4⟩ := ih x hx
              exact ⟨dx, List.mem_cons_of_mem _ h3, h4⟩
        refine ⟨?_, ?_⟩
        · intro x hx
          rcases List.mem_cons.1 hx with rfl | hx
          · exact (hne _ _ hd.1).1 hd.2
          · obtain ⟨dx, _, h4, h5⟩ := hmem x hx
            exact (hne _ _ h4).1 h5
        · intro b hsb x hx
          obtain ⟨dx, h3, h4, _⟩ := hmem x hx
          exact (hkeys _ _ h4 b).1 (hb b ((hkeys _ _ hd.1 b).2 hsb) dx h3)
    · rintro ⟨h1, h2⟩
      obtain ⟨l, hl⟩ := hall (r :: runs) hrows
      cases hl with
      | @cons _ d _ ds hd hds =>
        have hmem : ∀ dx ∈ ds, ∃ x ∈ runs, resultRows rf x.name [] x.rows = .ok dx := by
          clear h1 h2 hget hcomb h hrows
          induction hds with
          | nil => intro x hx; cases hx
          | cons hd' _ ih =>
            intro x hx
            rcases List.mem_cons.1 hx with rfl | hx
            · exact ⟨_, List.mem_cons_self, hd'⟩
            · obtain ⟨dx, h3, h4⟩ := ih x hx
              exact ⟨dx, List.mem_cons_of_mem _ h3, h4⟩
        have hf : List.Forall₂ (fun (x : ResultRun) d => resultRows rf x.name [] x.rows = .ok d ∧ d ≠ []) (r :: runs) (d :: ds) := by
          have hfl : ∀ (l : List ResultRun) (es : List (BenchDict (Int ⊕ F))), (∀ x ∈ l, ∃ b, HasScore rf x.name x.rows b) → List.Forall₂ (fun (x : ResultRun) d => resultRows rf x.name [] x.rows = .ok d) l es →
              List.Forall₂ (fun (x : ResultRun) d => resultRows rf x.name [] x.rows = .ok d ∧ d ≠ []) l es := by
            intro l es hl hf
            induction hf with
            | nil => exact .nil
            | cons h3 _ ih => exact .cons ⟨h3, (hne _ _ h3).2 (hl _ List.mem_cons_self)⟩ (ih fun x hx => hl x (List.mem_cons_of_mem _ hx))
          exact hfl _ _ h1 (.cons hd hds)
        obtain ⟨t, ht⟩ := (C107_combine_partial d ds).2.2 ⟨(hne _ _ hd).2 (h1 r List.mem_cons_self), fun b hb dx hdx => by
          obtain ⟨x, hx, hx2⟩ := hmem dx hdx
          exact (hkeys _ _ hx2 b).2 (h2 b ((hkeys _ _ hd b).1 hb) x hx)⟩
        exact ⟨t, (hcomb t).2 ⟨d, ds, (hget _).2 hf, ht⟩⟩
  · intro t ht
    obtain ⟨d, ds, h1, h2⟩ := (hcomb t).1 ht
    replace h1 := (hget _).1 h1
    obtain ⟨hk, hcols⟩ := (C107_combine_partial d ds).1 t h2
    have hd : resultRows rf r.name [] r.rows = .ok d := by
      cases h1 with
      | cons hd _ => exact hd.1
    obtain ⟨_, f2, f3, f4⟩ := C76_first hd
    refine ⟨t.map Prod.fst, hk ▸ f2, by rw [hk]; exact f3, hk ▸ f4, ?_⟩
    have hbars : ∀ b cols, (b, cols) ∈ t → ∃ bars, List.Forall₂ (fun x => BarsOf rf x b) (r :: runs) bars ∧ cols = bars.flatten := by
      intro b cols hm
      obtain ⟨ts, hts, rfl⟩ := hcols b cols hm
      refine ⟨ts, ?_, rfl⟩
      clear hcols hm hk h2 ht hget hcomb h hrows f2 f3 f4
      generalize r :: runs = l at h1
      generalize d :: ds = es at h1 hts
      induction h1 generalizing ts with
      | nil => cases hts; exact .nil
      | cons h3 _ ih =>
        cases hts with
        | cons h5 h6 => exact .cons (bars_of_dict h3.1 h5) (ih _ h6)
    unfold plotResults
    simp only [Bool.false_eq_true, if_false]
    clear hcols hk h2 ht h1
    induction t with
    | nil => exact .nil
    | cons p t ih =>
      obtain ⟨bars, hb1, hb2⟩ := hbars p.1 p.2 List.mem_cons_self
      refine .cons ⟨benchTitle_spec p.1, bars, hb1, ?_⟩ (ih fun b cols hm => hbars b cols (List.mem_cons_of_mem _ hm))
      simpa [drawBench] using hb2

theorem resultRows_append {F : Type} {rf : Str → Option F} {name : Option Str} {d d' : BenchDict (Int ⊕ F)} {pre : List (List Str)} (h : resultRows rf name d pre = .ok d') (l : List (List Str)) :
    resultRows rf name d (pre ++ l) = resultRows rf name d' l := by
  induction pre generalizing d with
  | nil =>
    simp only [resultRows, Except.ok.injEq] at h
    rw [h, List.nil_append]
  | cons r pre ih =>
    simp only [resultRows] at h
    rw [List.cons_append, resultRows]
    cases hr : resultRow rf name d r with
    | error e => rw [hr] at h; cases h
    | ok d1 =>
      rw [hr] at h
      exact ih h

/-- **C165 (refuted).** A file with an empty line after rows that can be read is not read at all, whatever follows: `IndexError`. For all such files. -/
theorem C165_blank_refuted {F : Type} (rf : Str → Option F) (fs : WaFs) (path : Str) (name : Option Str) (rows : List (List Str)) (s : Str) (hrows : ∀ x ∈ rows, RowFine rf x) (hd : path ∉ fs.dirs)
    (hf : fs.files.get path = some (csvText rows ++ '\n' :: s)) : getResults rf fs path name = .error .index := by
  obtain ⟨d, hok⟩ := (C76_readable rf name rows []).2 hrows
  have hread := (C165_reader (rows := rows) (fun x hx => by
    obtain ⟨_, _, _, _, _, rfl, _⟩ := hrows x hx
    exact ⟨by simp, by simp⟩) ('\n' :: s)).1
  rw [(C165_reader (rows := []) (by simp) s).2] at hread
  unfold getResults resultsPath
  rw [if_neg hd, hf]
  simp only [hread]
  rw [resultRows_append hok]
  rfl

/-- **C165 (refuted).** With `init_fig` the bars of all benchmarks are on one axis, whose title is that of the last. For all results. -/
theorem C165_axis_refuted {ν : Type} (t : BenchDict ν) (b : Str) (cols : Dict (RunScores ν)) :
    ∃ c, plotResults true (t ++ [(b, cols)]) = [c] ∧ TitleFor b c.title ∧ c.bars = (t.map Prod.snd).flatten ++ cols := by
  refine ⟨_, rfl, ?_, ?_⟩
  · rw [List.foldl_append]
    exact benchTitle_spec b
  · have key : ∀ (t : BenchDict ν) (c : ResultChart ν), (t.foldl drawBench c).bars = c.bars ++ (t.map Prod.snd).flatten := by
      intro t
      induction t with
      | nil => simp
      | cons p t ih =>
        intro c
        rw [List.foldl_cons, ih]
        simp [drawBench]
    rw [key]
    simp

/-- **C165 (refuted).** Figures of different benchmarks can have the same title. -/
theorem C165_title_refuted : ∃ b b' title, b ≠ b' ∧ TitleFor b title ∧ TitleFor b' title :=
  ⟨cs!"gl_bench", cs!"GL bench", benchTitle cs!"gl_bench", by decide +kernel, benchTitle_spec _, by
    rw [show benchTitle cs!"gl_bench" = benchTitle cs!"GL bench" by decide +kernel]
    exact benchTitle_spec _⟩

/-! ## Examples -/

/-- rows of a run, the second with a comma and quotes in a field -/
def exampleResults (id : Str) (a b : Str) : List (List Str) :=
  [[cs!"id", cs!"workload", cs!"iteration", cs!"metric", cs!"value", cs!"units"],
   [id ++ cs!"_1", cs!"gl_bench", cs!"1", cs!"FPS", a, cs!"\"frames\", per second"],
   [id ++ cs!"_1", cs!"gl_bench", cs!"1", cs!"execution_time", cs!"none", []],
   [id ++ cs!"_2", cs!"gl_bench", cs!"2", cs!"FPS_1", b, []],
   [id ++ cs!"_2", cs!"3dmark", cs!"2", cs!"score", cs!"7", []]]

/-- two runs: the directory of the first and the file of the second -/
def exampleResultFs : WaFs :=
  { dirs := [cs!"/run/a"], files := [(cs!"/run/a/results.csv", csvText (exampleResults cs!"ipa" cs!"12" cs!"13")), (cs!"b.csv", csvText (exampleResults cs!"step" cs!"14" cs!"15"))] }

def exampleRuns : List ResultRun :=
  [⟨cs!"/run/a", none, exampleResults cs!"ipa" cs!"12" cs!"13"⟩, ⟨cs!"b.csv", some cs!"other", exampleResults cs!"step" cs!"14" cs!"15"⟩]

def exampleCharts : List (ResultChart (Int ⊕ Unit)) :=
  [⟨cs!"Gl Bench", [(cs!"ipa", [(0, .inl 12), (1, .inl 13)]), (cs!"other", [(0, .inl 14), (1, .inl 15)])]⟩, ⟨cs!"3Dmark", [(cs!"ipa", [(0, .inl 7)]), (cs!"other", [(0, .inl 7)])]⟩]

/-- `C165_results_partial`: files that can be read, and what is drawn -/
example : (∀ x ∈ exampleRuns, RunFile exampleResultFs x) ∧ (∀ x ∈ exampleRuns, ∀ row ∈ x.rows, RowFine (fun _ => (none : Option Unit)) row) ∧
    (match combinedResults (fun _ => (none : Option Unit)) exampleResultFs (exampleRuns.map fun x => (x.path, x.name)) with
      | .ok t => decide (plotResults false t = exampleCharts)
      | .error _ => false) = true := by
  refine ⟨?_, ?_, by decide +kernel⟩
  · intro x hx
    rcases List.mem_cons.1 hx with rfl | hx
    · exact Or.inr ⟨by decide +kernel, by decide +kernel, by decide +kernel, by decide +kernel⟩
    · rw [List.mem_singleton] at hx
      subst hx
      exact Or.inl ⟨by decide +kernel, by decide +kernel⟩
  · intro x hx
    rw [← C76_readable (fun _ => (none : Option Unit)) none x.rows []]
    rcases List.mem_cons.1 hx with rfl | hx
    · exact ⟨_, rfl⟩
    · rw [List.mem_singleton] at hx
      subst hx
      exact ⟨_, rfl⟩

/-- `C165_reader`: fields with commas, quotes and newlines, a row that begins with an empty field -/
example : (∀ r ∈ [[cs!"a,b", cs!"\"", cs!"x\ny"], [[], []]], r ≠ [] ∧ r ≠ ([[]] : List Str)) ∧
    csvRead .startRow [] [] (csvText [[cs!"a,b", cs!"\"", cs!"x\ny"], [[], []]]) = [[cs!"a,b", cs!"\"", cs!"x\ny"], [[], []]] := by
  refine ⟨?_, by decide +kernel⟩
  intro r hr
  rcases List.mem_cons.1 hr with rfl | hr
  · exact ⟨by simp, by simp⟩
  · rw [List.mem_singleton] at hr
    subst hr
    exact ⟨by simp, by simp⟩

/-- `C165_blank_refuted`: an empty line at the end -/
example : getResults (fun _ => (none : Option Unit)) { dirs := [], files := [(cs!"r.csv", csvText (exampleResults cs!"ipa" cs!"12" cs!"13") ++ ['\n'])] } cs!"r.csv" none = .error .index ∧
    ∀ x ∈ exampleResults cs!"ipa" cs!"12" cs!"13", RowFine (fun _ => (none : Option Unit)) x := by
  have h : ∀ x ∈ exampleResults cs!"ipa" cs!"12" cs!"13", RowFine (fun _ => (none : Option Unit)) x := by
    rw [← C76_readable (fun _ => (none : Option Unit)) none _ []]
    exact ⟨_, rfl⟩
  exact ⟨C165_blank_refuted _ _ _ _ (exampleResults cs!"ipa" cs!"12" cs!"13") [] h (by decide +kernel) (by decide +kernel), h⟩

/-- `C165_axis_refuted` -/
example : plotResults true [(cs!"a_b", [(cs!"x", [(0, 1)])]), (cs!"c", [(cs!"x", [(0, 2)])])] = [(⟨cs!"C", [(cs!"x", [(0, 1)]), (cs!"x", [(0, 2)])]⟩ : ResultChart Nat)] := by decide +kernel

end Trappy
