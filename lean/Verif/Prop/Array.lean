import Verif.Lemma.Array2
import Verif.Lemma.Array3
import Verif.Prop.Data
/-!
# Properties of array payloads (C15-C19)
-/

namespace Trappy
open Py

/-! ## C15 -/

/-- **C15.** In a payload printed as plain text and arrays `name={v0 v1 …}`, every array is replaced by its elements
`name0=v0 name1=v1 …` padded with zeros up to the expected length, and the text between the arrays is unchanged, for
every table of expected lengths; the loop needs at most one pass more than there are arrays. -/
theorem C15_arrays_exploded (lens : Str → Nat) (p : ArrPayload) (h : p.WF) (fuel : Nat) (hf : p.tail.length < fuel) :
    explode lens fuel (p.textWith Arr.text) = some (some (p.textWith fun a => a.exploded (lens a.name))) :=
  explode_payload lens p h fuel hf

/-- **C15.** The k-th word of an exploded array is `name`, the number k, `=` and the k-th value, or 0 beyond the last
value; there are as many as values, or as expected if that is more. -/
theorem C15_elements (a : Arr) (len : Nat) :
    ∃ ws : List Str, a.exploded len = joinC ' ' ws ∧ ws.length = max a.vals.length len ∧
      ∀ k w, ws[k]? = some w → w = a.name ++ Nat.toDigits 10 k ++ '=' :: (a.vals[k]?.getD ['0']) := by
  refine ⟨_, rfl, ?_, ?_⟩
  · have : ∀ (n : Str) (vs : List Str) (i : Nat), (Arr.elems n i vs).length = vs.length := by
      intro n vs
      induction vs with
      | nil => intro i; rfl
      | cons v vs ih => intro i; simp [Arr.elems, ih]
    rw [this]; simp; omega
  · have : ∀ (n : Str) (vs : List Str) (i k : Nat) (w : Str), (Arr.elems n i vs)[k]? = some w →
        ∃ v, vs[k]? = some v ∧ w = n ++ Nat.toDigits 10 (i + k) ++ '=' :: v := by
      intro n vs
      induction vs with
      | nil => intro i k w h; simp [Arr.elems] at h
      | cons v vs ih =>
        intro i k w h
        cases k with
        | zero => simp only [Arr.elems, List.getElem?_cons_zero, Option.some.injEq] at h; exact ⟨v, rfl, h.symm⟩
        | succ k =>
          simp only [Arr.elems, List.getElem?_cons_succ] at h
          obtain ⟨v', h1, h2⟩ := ih (i + 1) k w h
          exact ⟨v', by simpa using h1, by rw [h2, show i + 1 + k = i + (k + 1) from by omega]⟩
    intro k w hw
    obtain ⟨v, h1, h2⟩ := this _ _ _ _ _ hw
    rw [h2, Nat.zero_add]
    congr 2
    rw [List.getElem?_append] at h1
    split at h1
    · rename_i hk; simp [h1]
    · rename_i hk
      rw [List.getElem?_eq_none (by omega)]
      have := (List.mem_replicate.mp (List.mem_of_getElem? h1)).2
      simp [this]

/-- A payload that meets the hypotheses: two arrays with text around them. -/
def exPayload : ArrPayload :=
  { lead := cs!"cpus=0x3 ", tail := [(⟨cs!"load", [cs!"1", cs!"20"]⟩, cs!" freq=4 "), (⟨cs!"req", [cs!"7"]⟩, cs!" x=y")] }

theorem exPayload_wf : exPayload.WF := by
  refine ⟨by simp only [exPayload]; exact ⟨by decide, by decide⟩, ?_, by decide, by decide⟩
  intro x hx
  simp only [exPayload, List.mem_cons, List.not_mem_nil, or_false] at hx
  rcases hx with rfl | rfl <;> exact ⟨by decide, by decide, by decide, by decide, by decide⟩

example : exPayload.textWith Arr.text = cs!"cpus=0x3 load={1 20} freq=4 req={7} x=y" := by decide +kernel

example : explode (fun _ => 3) 5 cs!"cpus=0x3 load={1 20} freq=4 req={7} x=y" =
    some (some cs!"cpus=0x3 load0=1 load1=20 load2=0 freq=4 req0=7 req1=0 req2=0 x=y") := by
  decide +kernel

/-! ## C16 -/

/-- `M` maps every array name to the largest number of elements of an array of that name in the table. -/
structure MaxLens (ps : List ArrPayload) (M : Str → Nat) : Prop where
  upper : ∀ p ∈ ps, ∀ x ∈ p.tail, x.1.vals.length ≤ M x.1.name
  attained : ∀ k, M k = 0 ∨ ∃ p ∈ ps, ∃ x ∈ p.tail, x.1.name = k ∧ x.1.vals.length = M k

theorem explodeTable_foldr (lens : Str → Nat) (fuel : Nat) (ps : List ArrPayload) (h : ∀ p ∈ ps, p.WF)
    (hf : ∀ p ∈ ps, p.tail.length < fuel) :
    (ps.map (·.textWith Arr.text)).foldr (fun l acc =>
      match explode lens fuel l, acc with
      | some (some x), some (some xs) => some (some (x :: xs))
      | none, _ => none
      | _, none => none
      | _, _ => some none) (some (some [])) =
    some (some (ps.map fun p => p.textWith fun a => a.exploded (lens a.name))) := by
  induction ps with
  | nil => rfl
  | cons p ps ih =>
    rw [List.map_cons, List.foldr_cons, ih (fun q hq => h q (by simp [hq])) (fun q hq => hf q (by simp [hq])),
      explode_payload lens p (h p (by simp)) fuel (hf p (by simp))]
    rfl

/-- **C16.** In a table whose first payload has an array, every array of every payload is exploded to the same length:
the largest number of elements of an array of that name anywhere in the table.  Text outside of arrays is unchanged. -/
theorem C16_equal_columns (p : ArrPayload) (ps : List ArrPayload) (h : ∀ q ∈ p :: ps, q.WF)
    (hw : ∀ q ∈ p :: ps, ∀ x ∈ q.tail, ∀ c ∈ x.1.name, Py.isWord c = true) (hne : p.tail ≠ [])
    (fuel : Nat) (hf : ∀ q ∈ p :: ps, q.tail.length < fuel) :
    ∃ M, MaxLens (p :: ps) M ∧
      explodeTable fuel ((p :: ps).map (·.textWith Arr.text)) =
        some (some ((p :: ps).map fun q => q.textWith fun a => a.exploded (M a.name))) := by
  refine ⟨fun k => ((((p :: ps).flatMap (·.tail)).foldl (fun r x => bump r x.1) fun _ => none) k).getD 0, ?_, ?_⟩
  rotate_left
  · unfold explodeTable
    rw [arrayLengths_payloads p ps h hw hne]
    exact explodeTable_foldr _ fuel _ h hf
  · constructor
    · intro q hq x hx
      exact (bump_fold_max _ (fun _ => none) x.1.name).2.1 x (List.mem_flatMap.mpr ⟨q, hq, hx⟩) rfl
    · intro k
      rcases (bump_fold_max ((p :: ps).flatMap (·.tail)) (fun _ => none) k).2.2 with h1 | ⟨x, hx, h1⟩
      · left; simpa using h1
      · right
        obtain ⟨q, hq, hx⟩ := List.mem_flatMap.mp hx
        exact ⟨q, hq, x, hx, h1.1, h1.2⟩

theorem split_append_space (a b : Str) (sp : Char) (hsp : isSpace sp = true) :
    split (a ++ sp :: b) = split a ++ split b := by
  unfold split
  suffices ∀ cur, splitAux cur (a ++ sp :: b) = splitAux cur a ++ splitAux [] b from this []
  intro cur
  induction a generalizing cur with
  | nil =>
    simp only [List.nil_append, splitAux, hsp, if_true]
    split <;> rfl
  | cons c a ih =>
    simp only [List.cons_append, splitAux]
    split
    · split
      · exact ih _
      · rw [List.cons_append]; congr 1; exact ih _
    · exact ih _

/-- **C16.** The words of an exploded payload: those of the text before, the elements of the arrays, those of the
texts between, in order, for arrays followed by a blank whose names and values have no blanks of any kind.  Together
with C12 this gives the columns of the row: `name0 … name(M-1)` for each array. -/
theorem C16_words (M : Str → Nat) (p : ArrPayload) (h : p.WF)
    (hs : ∀ x ∈ p.tail, (∀ c ∈ x.1.name, isSpace c = false) ∧ (∀ v ∈ x.1.vals, ∀ c ∈ v, isSpace c = false) ∧
      (x.2 = [] ∨ x.2.head? = some ' ')) :
    split (p.textWith fun a => a.exploded (M a.name)) =
      split p.lead ++ p.tail.flatMap fun x =>
        Arr.elems x.1.name 0 (x.1.vals ++ List.replicate (M x.1.name - x.1.vals.length) ['0']) ++ split x.2 := by
  obtain ⟨lead, tail⟩ := p
  -- the arrays and texts after the lead
  have hel : ∀ x ∈ tail, split (x.1.exploded (M x.1.name)) =
      Arr.elems x.1.name 0 (x.1.vals ++ List.replicate (M x.1.name - x.1.vals.length) ['0']) := by
    intro x hx
    apply split_spaced
    apply spaced_join
    intro w hw
    obtain ⟨j, v, hv, rfl⟩ := elems_mem hw
    refine ⟨by simp, ?_⟩
    intro c hc
    simp only [List.append_assoc, List.mem_append, List.mem_cons] at hc
    rcases hc with hc | hc | hc | hc
    · exact (hs x hx).1 c hc
    · have := natStr_digits hc
      cases hsp : isSpace c with
      | false => rfl
      | true =>
        exfalso
        unfold isDigit at this
        unfold isSpace at hsp
        simp only [Bool.and_eq_true, Bool.or_eq_true, decide_eq_true_eq, beq_iff_eq] at this hsp
        omega
    · subst hc; decide
    · rcases List.mem_append.mp hv with hv | hv
      · exact (hs x hx).2.1 v hv c hc
      · have := (List.mem_replicate.mp hv).2; subst this; simp at hc; subst hc; decide
  have htail : ∀ l : List (Arr × Str), (∀ x ∈ l, x ∈ tail) → (∀ x ∈ l.dropLast, x.2.getLast? = some ' ') →
      split ((l.map fun x => x.1.exploded (M x.1.name) ++ x.2).flatten) = l.flatMap fun x =>
        Arr.elems x.1.name 0 (x.1.vals ++ List.replicate (M x.1.name - x.1.vals.length) ['0']) ++ split x.2 := by
    intro l
    induction l with
    | nil => intro _ _; rfl
    | cons x l ih =>
      intro hl hb
      have hx := hl x (by simp)
      rw [List.map_cons, List.flatten_cons, List.flatMap_cons]
      have ih' := ih (fun y hy => hl y (by simp [hy])) (by
        intro y hy; apply hb
        cases l with
        | nil => simp at hy
        | cons z l => simp only [List.dropLast_cons_cons]; exact List.mem_cons_of_mem _ hy)
      rw [← ih']
      -- the text after the array
      have h2 : ∀ Q, (Q = [] ∨ x.2.getLast? = some ' ') →
          split (x.1.exploded (M x.1.name) ++ x.2 ++ Q) =
          Arr.elems x.1.name 0 (x.1.vals ++ List.replicate (M x.1.name - x.1.vals.length) ['0']) ++ split x.2 ++ split Q := by
        intro Q hQ
        rw [← hel x hx]
        rcases (hs x hx).2.2 with h3 | h3
        · rcases hQ with hQ | hQ
          · subst hQ; rw [h3]; simp [split, splitAux]
          · rw [h3] at hQ; simp at hQ
        · rcases hQ with hQ | hQ
          · subst hQ
            obtain ⟨t, ht⟩ : ∃ t, x.2 = ' ' :: t := by
              cases hx2 : x.2 with
              | nil => rw [hx2] at h3; simp at h3
              | cons y t => rw [hx2] at h3; simp at h3; exact ⟨t, by rw [h3]⟩
            rw [ht, List.append_nil, split_append_space _ _ _ (by decide)]
            have := split_append_space [] t ' ' (by decide)
            simp only [List.nil_append] at this
            rw [this]
            simp [split, splitAux]
          · obtain ⟨t, ht⟩ : ∃ t, x.2 = ' ' :: t := by
              cases hx2 : x.2 with
              | nil => rw [hx2] at h3; simp at h3
              | cons y t => rw [hx2] at h3; simp at h3; exact ⟨t, by rw [h3]⟩
            obtain ⟨t2, ht2⟩ := List.getLast?_eq_some_iff.mp hQ
            rw [ht2, List.append_assoc, List.append_assoc, List.singleton_append, ← List.append_assoc,
              split_append_space _ _ _ (by decide)]
            have h4 : split (t2 ++ [' ']) = split t2 := by
              rw [split_append_space _ _ _ (by decide)]; simp [split, splitAux]
            rw [h4]
            cases t2 with
            | nil => simp [split, splitAux]
            | cons z t2 =>
              rw [ht2] at ht
              simp at ht
              obtain ⟨rfl, _⟩ := ht
              rw [split_append_space _ _ _ (by decide)]
              have := split_append_space [] t2 ' ' (by decide)
              simp only [List.nil_append] at this
              rw [this]
              simp [split, splitAux]
      apply h2
      cases l with
      | nil => left; rfl
      | cons y l => right; exact hb x (by simp)
  have hT := htail tail (fun _ hx => hx) h.blank
  simp only [ArrPayload.textWith]
  rw [← hT]
  by_cases ht : tail = []
  · subst ht; simp [split, splitAux]
  · have hl := h.lead
    simp only [ht, if_false] at hl
    rcases hl.2 with h1 | h1
    · subst h1; simp [split, splitAux]
    · obtain ⟨t2, ht2⟩ := List.getLast?_eq_some_iff.mp h1
      subst ht2
      rw [List.append_assoc, List.singleton_append, split_append_space _ _ _ (by decide),
        split_append_space t2 [] ' ' (by decide)]
      simp [split, splitAux]

/-- The hypotheses of C16 are met, with arrays of different lengths in two payloads. -/
def exPayload2 : ArrPayload := { lead := [], tail := [(⟨cs!"load", [cs!"5"]⟩, [])] }

theorem exPayload2_wf : exPayload2.WF := by
  refine ⟨by simp only [exPayload2]; exact ⟨by decide, by decide⟩, ?_, by decide, by decide⟩
  intro x hx
  simp only [exPayload2, List.mem_cons, List.not_mem_nil, or_false] at hx
  subst hx
  exact ⟨by decide, by decide, by decide, by decide, by decide⟩

example : (∀ q ∈ [exPayload, exPayload2], q.WF) ∧
    (∀ q ∈ [exPayload, exPayload2], ∀ x ∈ q.tail, ∀ c ∈ x.1.name, Py.isWord c = true) ∧ exPayload.tail ≠ [] ∧
    (∀ x ∈ exPayload.tail, (∀ c ∈ x.1.name, isSpace c = false) ∧ (∀ v ∈ x.1.vals, ∀ c ∈ v, isSpace c = false) ∧
      (x.2 = [] ∨ x.2.head? = some ' ')) := by
  refine ⟨?_, by decide +kernel, by decide, by decide +kernel⟩
  intro q hq
  simp only [List.mem_cons, List.not_mem_nil, or_false] at hq
  rcases hq with rfl | rfl
  · exact exPayload_wf
  · exact exPayload2_wf

example : explodeTable 5 [cs!"cpus=0x3 load={1 20} freq=4 req={7} x=y", cs!"load={5}"] =
    some (some [cs!"cpus=0x3 load0=1 load1=20 freq=4 req0=7 x=y", cs!"load0=5 load1=0"]) := by decide +kernel

/-! ## C17 -/

/-- **C17 refuted.** The array loop does not end on the payload `p{}={c d}`, whatever the words `p`, `c` and `d` and the expected lengths: the string
grows for ever. -/
theorem C17_nontermination_refuted (lens : Str → Nat) (p c d : Str) (hne : p ≠ []) (hp : ∀ x ∈ p, x ≠ ' ' ∧ x ≠ '=' ∧ x ≠ '\n' ∧ x ≠ '{' ∧ x ≠ '}')
    (hc : ∀ x ∈ c, x ≠ ' ' ∧ x ≠ '=' ∧ x ≠ '\n' ∧ x ≠ '}') (hd : ∀ x ∈ d, x ≠ ' ' ∧ x ≠ '\n' ∧ x ≠ '}') (fuel : Nat) :
    explode lens fuel (p ++ cs!"{}={" ++ c ++ ' ' :: d ++ cs!"}") = none := by
  cases fuel with
  | zero => rfl
  | succ fuel =>
    have hn : LoopName p c := ⟨hne, hp, hc⟩
    have h1 := loop_pass lens (V := d) (R := []) (D := []) (X := []) hn (by simp) (by simp) (by simp) (by simp) (by simp) hd [] (.inl rfl)
    have e : p ++ cs!"{}={" ++ c ++ ' ' :: d ++ cs!"}" = p ++ cs!"{}" ++ [] ++ [] ++ cs!"={" ++ c ++ ' ' :: d ++ '}' :: [] := by simp
    rw [e]
    simp only [explode, h1]
    exact loops_forever lens hn _ (loop_next lens (by simp) (by simp) (by simp) (by simp) (by simp))

/-- **C17 refuted**, for a whole table: with an array in the first payload the table is never built, and the payload
reaches this point unchanged (`cleanData`). -/
theorem C17_table_never_built_refuted (fuel : Nat) :
    explodeTable fuel [cs!"x={1}", cs!"a{}={c d}"] = none ∧ cleanData cs!"a{}={c d}" = cs!"a{}={c d}" := by
  constructor
  · unfold explodeTable
    have : ∃ lens, arrayLengths [cs!"x={1}", cs!"a{}={c d}"] = some lens := by
      cases h : arrayLengths [cs!"x={1}", cs!"a{}={c d}"] with
      | some l => exact ⟨l, rfl⟩
      | none =>
        have : (arrayLengths [cs!"x={1}", cs!"a{}={c d}"]).isSome = true := by decide +kernel
        rw [h] at this; cases this
    obtain ⟨lens, hl⟩ := this
    rw [hl]
    have h := C17_nontermination_refuted lens cs!"a" cs!"c" cs!"d" (by decide) (by decide) (by decide) (by decide) fuel
    simp only [List.cons_append, List.nil_append] at h
    simp only [List.foldr_cons, List.foldr_nil, h]
    cases explode lens fuel cs!"x={1}" with
    | none => rfl
    | some x => cases x <;> rfl
  · decide +kernel

/-- **C17, the part that holds.** If no word of the payload has a closing brace before its first equals sign, or none has an opening one there, the loop ends
(with a result or an exception).  Missing: payloads with both kinds of braces in names; on `p{}={c d}` it does not end (above). -/
theorem C17_terminates_partial (lens : Str → Nat) (s : Str) (h : NamesWithout '}' s ∨ NamesWithout '{' s) :
    ∃ r, ∀ fuel, s.length < fuel → explode lens fuel s = some r := by
  rcases h with h | h
  · exact explode_terminates_names lens (.inr rfl) s.length s h List.count_le_length
  · exact explode_terminates_names lens (.inl rfl) s.length s h List.count_le_length

/-- **C17**, for a whole table: if all payloads are so, all arrays of the table are exploded. -/
theorem C17_table_terminates_partial (data : List Str) (h : ∀ s ∈ data, NamesWithout '}' s ∨ NamesWithout '{' s) :
    ∃ fuel r, explodeTable fuel data = some r := by
  refine ⟨(data.map List.length).sum + 1, ?_⟩
  have hl : ∀ s ∈ data, s.length < (data.map List.length).sum + 1 := fun s hs =>
    Nat.lt_succ_of_le (List.le_sum_of_mem (List.mem_map_of_mem hs))
  generalize (data.map List.length).sum + 1 = fuel at hl
  unfold explodeTable
  split
  · exact ⟨_, rfl⟩
  · next lens _ =>
    clear * - h hl
    induction data with
    | nil => exact ⟨_, rfl⟩
    | cons s rest ih =>
      obtain ⟨r1, h1⟩ := ih (fun x hx => h x (List.mem_cons_of_mem _ hx)) (fun x hx => hl x (List.mem_cons_of_mem _ hx))
      obtain ⟨r2, h2⟩ := C17_terminates_partial lens s (h s List.mem_cons_self)
      rw [List.foldr_cons, h1, h2 fuel (hl s List.mem_cons_self)]
      cases r2 <;> cases r1 <;> exact ⟨_, rfl⟩

/-- braces in names, text after a closing brace -/
example : NamesWithout '}' cs!"a={1}x b{c={3}y d" := namesWithout_words (by decide)

/-! ## C18 -/

/-- **C18 refuted.** When the first payload of a table has no array, arrays in later payloads are not exploded: their
text stays a single value. -/
theorem C18_later_arrays_refuted (fuel : Nat) :
    explodeTable fuel [cs!"x=1", cs!"x=1 a={1 2}"] = some (some [cs!"x=1", cs!"x=1 a={1 2}"]) ∧
    generateDataDict cs!"x=1 a={1 2}" = some [(cs!"x", .int 1), (cs!"a", .str cs!"{1 2}")] := by
  constructor
  · unfold explodeTable
    have h : arrayLengths [cs!"x=1", cs!"x=1 a={1 2}"] = none := by
      have : (arrayLengths [cs!"x=1", cs!"x=1 a={1 2}"]).isNone = true := by decide +kernel
      simpa using this
    rw [h]
  · decide +kernel

/-- **C18, general form of the failure.** Whenever the first payload has no array, no payload of the table is changed. -/
theorem C18_no_array_first (first : Str) (rest : List Str) (fuel : Nat) (h : Re.search patArray first = none) :
    explodeTable fuel (first :: rest) = some (some (first :: rest)) := by
  unfold explodeTable arrayLengths
  simp only [arrayLengthsFrom, h, Option.isNone_none, Bool.true_and, if_true]

/-- **C18, the part that holds.** If the first payload has an array, all arrays of all payloads are exploded (no brace
is left).  Missing: tables whose first payload has none (refuted above). -/
theorem C18_all_exploded_partial (p : ArrPayload) (ps : List ArrPayload) (h : ∀ q ∈ p :: ps, q.WF)
    (hw : ∀ q ∈ p :: ps, ∀ x ∈ q.tail, ∀ c ∈ x.1.name, Py.isWord c = true) (hne : p.tail ≠ [])
    (fuel : Nat) (hf : ∀ q ∈ p :: ps, q.tail.length < fuel) :
    ∃ out, explodeTable fuel ((p :: ps).map (·.textWith Arr.text)) = some (some out) ∧
      out.length = ps.length + 1 ∧ ∀ t ∈ out, '{' ∉ t ∧ '}' ∉ t := by
  obtain ⟨M, _, hM⟩ := C16_equal_columns p ps h hw hne fuel hf
  refine ⟨_, hM, by simp, ?_⟩
  intro t ht
  obtain ⟨q, hq, rfl⟩ := List.mem_map.mp ht
  have hq' := h q hq
  have key : ∀ c ∈ q.textWith fun a => a.exploded (M a.name), c ≠ '{' ∧ c ≠ '}' := by
    intro c hc
    unfold ArrPayload.textWith at hc
    rcases List.mem_append.mp hc with hc | hc
    · have hl := hq'.lead
      split at hl
      · exact hl c hc
      · exact hl.1 c hc
    · obtain ⟨w, hw1, hc⟩ := List.mem_flatten.mp hc
      obtain ⟨x, hx, rfl⟩ := List.mem_map.mp hw1
      rcases List.mem_append.mp hc with hc | hc
      · exact exploded_brace_free (hq'.arr x hx) _ c hc
      · exact hq'.plain x hx c hc
  exact ⟨fun hc => (key _ hc).1 rfl, fun hc => (key _ hc).2 rfl⟩

/-! ## C19 -/

/-- **C19 refuted.** An empty array at the end of a payload is not removed and becomes a column holding `{}`. -/
theorem C19_trailing_empty_array_refuted :
    cleanData cs!"x=1 a={}" = cs!"x=1 a={}" ∧
    generateDataDict (cleanData cs!"x=1 a={}") = some [(cs!"x", .int 1), (cs!"a", .str cs!"{}")] := by
  constructor <;> decide +kernel

/-- **C19, the part that holds.** All empty arrays `name={}` that are followed by a blank are removed together with the
blank and nothing else changes, if the text before each of them does not end in a word character and the text between
them has no `={}`.  Missing: an empty array at the end of the payload (refuted above). -/
theorem C19_empty_arrays_removed_partial (segs : List (Str × Str)) (last : Str)
    (hs : ∀ x ∈ segs, Before x.1 ∧ x.2 ≠ [] ∧ ∀ c ∈ x.2, Py.isWord c = true) (hl : ¬ (cs!"={}" <:+: last)) :
    cleanData ((segs.map fun x => x.1 ++ (x.2 ++ cs!"={} ")).flatten ++ last) = (segs.map Prod.fst).flatten ++ last := by
  have hl' : ¬ (cs!"={} " <:+: last) := by
    rintro ⟨a, b, e⟩; exact hl ⟨a, ' ' :: b, by rw [← e]; simp⟩
  unfold cleanData
  split
  · exact sub_segments segs last hs hl' _ (by omega)
  · rename_i hc
    cases segs with
    | nil => rfl
    | cons x segs =>
      exfalso
      apply hc
      rw [contains_iff]
      exact ⟨x.1 ++ x.2, ' ' :: ((segs.map fun x => x.1 ++ (x.2 ++ cs!"={} ")).flatten ++ last), by simp⟩

/-- **C19.** Payloads without `={}` are not changed. -/
theorem C19_no_empty_array (data : Str) (h : ¬ (cs!"={}" <:+: data)) : cleanData data = data := by
  unfold cleanData
  split
  · rename_i hc; exact absurd ((contains_iff _ _).mp hc) h
  · rfl

example : (∀ x ∈ [(cs!"a={1} ", cs!"b"), ([], cs!"c_1")], Before x.1 ∧ x.2 ≠ [] ∧ ∀ c ∈ x.2, Py.isWord c = true) ∧
    ¬ (cs!"={}" <:+: cs!"d=2") ∧ cleanData cs!"a={1} b={} c_1={} d=2" = cs!"a={1} d=2" := by
  have hb : ∀ t : Str, Py.contains cs!"={}" t = false → ¬ (cs!"={}" <:+: t) := by
    intro t h hi; rw [(contains_iff _ _).mpr hi] at h; cases h
  refine ⟨?_, hb _ (by decide +kernel), by decide +kernel⟩
  intro x hx
  simp only [List.mem_cons, List.not_mem_nil, or_false] at hx
  rcases hx with rfl | rfl
  · exact ⟨⟨hb _ (by decide +kernel), by decide⟩, by decide, by decide⟩
  · exact ⟨⟨hb _ (by decide +kernel), by decide⟩, by decide, by decide⟩

end Trappy
