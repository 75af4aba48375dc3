import Verif.Prop.Whole
import Verif.Lemma.Array3
import Verif.Lemma.LineExact
/-!
# C18, C136: exactly which texts are left alone by the explosion of arrays
-/

namespace Trappy

open Re Py F64

/-! ## Specification -/

/-- **Specification**: somewhere in the text there is a name of characters that `p` allows, an equals sign, and a list in braces that is not empty. -/
def HasArray (p : Char → Prop) (t : Str) : Prop :=
  ∃ before name list after, t = before ++ name ++ cs!"={" ++ list ++ '}' :: after ∧ name ≠ [] ∧ (∀ c ∈ name, p c) ∧ list ≠ [] ∧ '}' ∉ list

/-! ## Searching -/

theorem searchFrom_none_iff {r : Re} (s : Str) (n : Nat) : searchFrom r n s = none ↔ ∀ a b, s = a ++ b → matchPrefix r b = none := by
  induction s generalizing n with
  | nil =>
    simp only [searchFrom, Option.map_eq_none_iff]
    constructor
    · intro h a b e
      rw [List.append_eq_nil_iff.1 e.symm |>.2]
      exact h
    · exact fun h => h [] [] rfl
  | cons x s ih =>
    unfold searchFrom
    constructor
    · intro h a b e
      split at h
      · cases h
      · next hm =>
        cases a with
        | nil => rw [← List.nil_append b, ← e]; exact hm
        | cons y a =>
          cases e
          exact (ih _).1 h a b rfl
    · intro h
      rw [h [] (x :: s) rfl]
      exact (ih _).2 fun a b e => h (x :: a) b (by rw [e]; rfl)

theorem search_none_iff {r : Re} (hs : r.Simple) (s : Str) : search r s = none ↔ ∀ a x b, s = a ++ x ++ b → ¬ Matches r x := by
  unfold search
  rw [searchFrom_none_iff]
  constructor
  · intro h a x b e hm
    have := h a (x ++ b) (by rw [e, List.append_assoc])
    have h2 := (matchPrefix_isSome hs (x ++ b)).2 ⟨x, b, rfl, hm⟩
    rw [this] at h2
    cases h2
  · intro h a b e
    cases hm : matchPrefix r b with
    | none => rfl
    | some v =>
      obtain ⟨x, y, e2, hx⟩ := (matchPrefix_isSome hs b).1 (by rw [hm]; rfl)
      exact absurd hx (h a x y (by rw [e, e2, List.append_assoc]))

theorem arrayLike_of {a b : Re} {u v : Str} (ha : Matches a u) (hb : Matches b v) :
    Matches (cat [a, str cs!"={", b, lit '}']) (u ++ ('=' :: '{' :: v) ++ ['}']) := by
  have h2 : Matches (str cs!"={") cs!"={" := by
    have := Matches.seq (Matches.chr (p := (· == '=')) (x := '=') (by decide))
      (Matches.seq (Matches.chr (p := (· == '{')) (x := '{') (by decide)) Matches.eps)
    simpa [str, lit] using this
  have := Matches.seq ha (Matches.seq h2 (Matches.seq hb (matches_lit_of '}')))
  simpa [cat] using this

theorem search_arrayRe (t : Str) : search arrayRe t = none ↔ ¬ HasArray (· ≠ ' ') t := by
  rw [search_none_iff arrayRe_simple]
  constructor
  · rintro h ⟨a, n, l, b, rfl, h1, h2, h3, h4⟩
    refine h a (n ++ ('=' :: '{' :: l) ++ ['}']) b (by simp) (arrayLike_of ?_ ?_)
    · exact matches_plus_of h1 fun c hc => by simpa using h2 c hc
    · exact matches_plus_of h3 fun c hc => by simpa using fun e : c = '}' => h4 (e ▸ hc)
  · intro h a x b e hm
    obtain ⟨u, v, rfl, h1, h2, h3, h4⟩ := matches_arrayRe hm
    exact h ⟨a, u, v, b, by rw [e]; simp, h1, fun c hc => by simpa using h3 c hc, h2, fun hc => by simpa using h4 _ hc⟩

theorem search_patArray (t : Str) : search patArray t = none ↔ ¬ HasArray (fun c => isWord c = true) t := by
  rw [search_none_iff (by simp [patArray, Re.cat, Re.Simple, Re.plus, Re.lit, Re.str])]
  constructor
  · rintro h ⟨a, n, l, b, rfl, h1, h2, h3, h4⟩
    refine h a (n ++ ('=' :: '{' :: l) ++ ['}']) b (by simp) (arrayLike_of ?_ ?_)
    · exact .group (matches_plus_of h1 h2)
    · exact .group (matches_plus_of h3 fun c hc => by simpa using fun e : c = '}' => h4 (e ▸ hc))
  · intro h a x b e hm
    obtain ⟨u, v, rfl, h1, h2, h3, h4⟩ := matches_patArray hm
    exact h ⟨a, u, v, b, by rw [e]; simp, h1, h3, h2, fun hc => by simpa using h4 _ hc⟩

/-! ## C18 -/

theorem explode_leaves_none (lens : Str → Nat) (fuel : Nat) (s t : Str) (h : explode lens fuel s = some (some t)) : search arrayRe t = none := by
  induction fuel generalizing s with
  | zero => cases h
  | succ fuel ih =>
    unfold explode at h
    cases hs : explodeStep lens s with
    | done =>
      rw [hs] at h
      cases h
      unfold explodeStep at hs
      split at hs
      · next h0 => exact h0
      · dsimp only at hs
        split at hs <;> cases hs
    | error => rw [hs] at h; cases h
    | next s' => rw [hs] at h; exact ih s' h

theorem explode_none_left (lens : Str → Nat) {fuel : Nat} (hf : 0 < fuel) (s : Str) (h : search arrayRe s = none) : explode lens fuel s = some (some s) := by
  obtain ⟨n, rfl⟩ := Nat.exists_eq_succ_of_ne_zero (Nat.pos_iff_ne_zero.1 hf)
  unfold explode explodeStep
  rw [h]

theorem arrayLengthsFrom_found (ls : List Str) (ret : Str → Option Nat) : (arrayLengthsFrom ls ret false).2 = false := by
  induction ls generalizing ret with
  | nil => rfl
  | cons l ls ih => unfold arrayLengthsFrom; simp [ih]

theorem arrayLengths_found (t : Str) (ts : List Str) (h : (search patArray t).isNone = false) : ∃ lens, arrayLengths (t :: ts) = some lens := by
  unfold arrayLengths
  have : (arrayLengthsFrom (t :: ts) (fun _ => none) true).2 = false := by
    unfold arrayLengthsFrom
    simp [h, arrayLengthsFrom_found]
  split
  · next h0 => rw [h0] at this; cases this
  · exact ⟨_, rfl⟩

/-- **C18 (exact).** A table whose arrays are exploded is left as it is exactly if its first payload has no array whose name is a word, or no payload of it has any array. For all payloads. -/
theorem C18_unchanged_exact (fuel : Nat) (hf : 0 < fuel) (t : Str) (ts : List Str) :
    explodeTable fuel (t :: ts) = some (some (t :: ts)) ↔ ¬ HasArray (fun c => isWord c = true) t ∨ ∀ x ∈ t :: ts, ¬ HasArray (· ≠ ' ') x := by
  have key : ∀ (lens : Str → Nat) (ls out : List Str), ls.foldr (fun l acc =>
      match explode lens fuel l, acc with
      | some (some x), some (some xs) => some (some (x :: xs))
      | none, _ => none
      | _, none => none
      | _, _ => some none) (some (some [])) = some (some out) ↔ List.Forall₂ (fun l x => explode lens fuel l = some (some x)) ls out := by
    intro lens ls
    induction ls with
    | nil =>
      intro out
      constructor
      · intro h; cases h; exact .nil
      · intro h; cases h; rfl
    | cons l ls ih =>
      intro out
      rw [List.foldr_cons]
      constructor
      · intro h
        split at h
        · next x xs h1 h2 =>
          cases h
          exact .cons h1 ((ih xs).1 h2)
        · cases h
        · cases h
        · cases h
      · intro h
        cases h with
        | cons h1 h2 =>
          rw [(ih _).2 h2, h1]
  constructor
  · intro h
    by_cases h0 : search patArray t = none
    · exact .inl ((search_patArray t).1 h0)
    · obtain ⟨lens, hl⟩ := arrayLengths_found t ts (by cases h1 : search patArray t with | none => exact absurd h1 h0 | some _ => rfl)
      unfold explodeTable at h
      rw [hl] at h
      have h2 := (key lens _ _).1 h
      refine .inr fun x hx => (search_arrayRe x).1 ?_
      obtain ⟨i, hi, rfl⟩ := List.getElem_of_mem hx
      exact explode_leaves_none lens fuel _ _ ((List.forall₂_iff_get.1 h2).2 i hi hi)
  · rintro (h | h)
    · exact C18_no_array_first t ts fuel ((search_patArray t).2 h)
    · unfold explodeTable
      cases hl : arrayLengths (t :: ts) with
      | none => rfl
      | some lens =>
        refine (key lens _ _).2 (List.forall₂_iff_get.2 ⟨rfl, fun i hi _ => ?_⟩)
        exact explode_none_left lens hf _ ((search_arrayRe _).2 (h _ (List.get_mem _ _)))

/-- A text without arrays, one with an array whose name is not a word, and one with an array whose name ends with a word -/
example : ¬ HasArray (fun c => isWord c = true) cs!"x {1}" ∧ HasArray (· ≠ ' ') cs!"-={1 2}" ∧ HasArray (fun c => isWord c = true) cs!"-a={1 2}" := by
  refine ⟨(search_patArray _).1 ?_, ⟨[], cs!"-", cs!"1 2", [], rfl, by decide, by decide, by decide, by decide⟩, ⟨cs!"-", cs!"a", cs!"1 2", [], rfl, by decide, by decide, by decide, by decide⟩⟩
  have : (search patArray cs!"x {1}").isNone = true := by decide +kernel
  simpa using this

/-- The first text has no array: nothing is touched. In the other order the arrays are exploded, also that whose name is no word. -/
example : explodeTable 5 [cs!"x {1}", cs!"-={1 2}", cs!"a={1 2}"] = some (some [cs!"x {1}", cs!"-={1 2}", cs!"a={1 2}"]) ∧
    explodeTable 5 [cs!"a={1 2}", cs!"-={1 2}", cs!"x {1}"] = some (some [cs!"a0=1 a1=2", cs!"-0=1 -1=2", cs!"x {1}"]) := by
  decide +kernel

/-! ## C136 -/

theorem rowsBy_marker : ∀ (xs : List (TraceEvent × Nat × Nat)) (ds : List Str), ds.length = xs.length →
    (rowsBy (ownDict cs!"tracing_mark_write") (xs.map TraceItem.recOf) ds = some (xs.map fun x => x.1.rowWith [(cs!"string", .str x.1.line.data)] x.2.1 x.2.2) ↔
      ds = xs.map fun x => x.1.line.data) ∧ ∃ rows, rowsBy (ownDict cs!"tracing_mark_write") (xs.map TraceItem.recOf) ds = some rows
  | [], ds, h => by
    cases ds with
    | nil => exact ⟨⟨fun _ => rfl, fun _ => rfl⟩, _, rfl⟩
    | cons => cases h
  | x :: xs, ds, h => by
    cases ds with
    | nil => cases h
    | cons d ds =>
      obtain ⟨h1, rows, h2⟩ := rowsBy_marker xs ds (by simpa using h)
      have e : rowsBy (ownDict cs!"tracing_mark_write") ((x :: xs).map TraceItem.recOf) (d :: ds) =
          some (x.1.rowWith [(cs!"string", .str d)] x.2.1 x.2.2 :: rows) := by
        rw [List.map_cons, rowsBy, h2, ← parsedRow_with _ _ _ _ (by simp) (by simp [headerColumns])]
        rfl
      refine ⟨?_, _, e⟩
      rw [e]
      rw [h2] at h1
      simp only [List.map_cons, Option.some.injEq, List.cons.injEq] at h1 ⊢
      rw [h1]
      constructor
      · rintro ⟨a, b⟩
        refine ⟨?_, b⟩
        have := congrArg (fun r : TRow => r.cells.get cs!"string") a
        simpa [TraceEvent.rowWith, Dict.get] using this
      · rintro ⟨a, b⟩
        exact ⟨by rw [a], b⟩

/-- **C136 (exact).** The texts of all markers of a file reach the table unchanged exactly if the first of them has no array whose name is a word, or none of them has any array. For all files, parsers and places of the parser
among them, and texts without `={} `, which are rewritten before (C19). -/
theorem C136_marker_exact (fuel : Nat) (hf : 0 < fuel) (ps : List ParserClass) (hps : ∀ p ∈ ps, p ∈ builtins) (hnd : ps.Nodup) (i : Nat)
    (hi : ps[i]? = some markerParser) (header : List Str) (items : List TraceItem) (h : TraceFile ps header items)
    (hb : ∀ e ∈ TraceItem.eventsOf cs!"tracing_mark_write" items, ¬ cs!"={} " <:+: e.line.data) :
    ∃ out, MinimalTimes 0 (TraceItem.times items) out ∧
      (classFrame fuel markerParser.name
          ((populate (ps.map ParserClass.toCls) 0 (header ++ items.map TraceItem.text)).tables i) =
        .rows (TraceItem.tableWith (fun e => [(cs!"string", .str e.line.data)]) cs!"tracing_mark_write" 0 items out) ↔
      (∀ e, (TraceItem.eventsOf cs!"tracing_mark_write" items).head? = some e → ¬ HasArray (fun c => isWord c = true) e.line.data) ∨
      ∀ e ∈ TraceItem.eventsOf cs!"tracing_mark_write" items, ¬ HasArray (· ≠ ' ') e.line.data) := by
  obtain ⟨out, h1, h2⟩ := file_tables hps hnd h
  refine ⟨out, h1, ?_⟩
  have hev : markerParser.event = cs!"tracing_mark_write" := by decide +kernel
  have hn : markerParser.name = cs!"tracing_mark_write" := by decide +kernel
  rw [h2 i _ hi, hev, hn]
  obtain ⟨a1, -, a3⟩ := TraceItem.picked_spec TraceEvent.fields cs!"tracing_mark_write" items 0 out
  have a3 := a3 h1.length
  rw [a1, TraceItem.picked_with]
  rw [← a3] at hb ⊢
  generalize TraceItem.picked cs!"tracing_mark_write" 0 items out = xs at hb ⊢
  have hdata : (xs.map TraceItem.recOf).map Rec.data = xs.map fun x => x.1.line.data := by
    rw [List.map_map]
    refine List.map_congr_left fun x hx => ?_
    have := sub_last (hb x.1 (List.mem_map_of_mem hx))
    show cleanData _ = _
    unfold cleanData
    split
    · exact this _
    · rfl
  have hframe : classFrame fuel cs!"tracing_mark_write" (xs.map TraceItem.recOf) =
      .rows (xs.map fun x => x.1.rowWith [(cs!"string", .str x.1.line.data)] x.2.1 x.2.2) ↔
      explodeTable fuel (xs.map fun x => x.1.line.data) = some (some (xs.map fun x => x.1.line.data)) := by
    unfold classFrame
    rw [hdata, ownTexts_some (fun d => d) _ (fun d _ => rfl), List.map_id']
    dsimp only
    constructor
    · intro hr
      split at hr
      · cases hr
      · cases hr
      · next ds hds =>
        have hl : ds.length = xs.length := by rw [explodeTable_length fuel _ ds hds, List.length_map]
        obtain ⟨b1, rows, b2⟩ := rowsBy_marker xs ds hl
        rw [b2] at hr b1
        dsimp only at hr
        have : rows = _ := Frame.rows.inj hr
        rw [hds, b1.1 (by rw [this])]
    · intro hr
      rw [hr]
      dsimp only
      rw [(rowsBy_marker xs _ (by simp)).1.2 rfl]
  rw [hframe]
  cases xs with
  | nil =>
    constructor
    · intro _; exact .inr fun e he => by cases he
    · intro _; rfl
  | cons x xs =>
    refine (C18_unchanged_exact fuel hf _ _).trans (or_congr ?_ ?_)
    · simp
    · constructor
      · rintro h3 e he
        obtain ⟨y, hy, rfl⟩ := List.mem_map.1 he
        exact h3 _ ((List.mem_map (f := fun x : TraceEvent × Nat × Nat => x.1.line.data) (l := x :: xs)).2 ⟨y, hy, rfl⟩)
      · rintro h3 t ht
        obtain ⟨y, hy, rfl⟩ := (List.mem_map (f := fun x : TraceEvent × Nat × Nat => x.1.line.data) (l := x :: xs)).1 ht
        exact h3 _ (List.mem_map_of_mem hy)

/-- Two markers of which the first has no array: both reach the table unchanged; in the other order the array is rewritten. -/
example : (match buildTrace 5 [markerParser] (UserParams.full false) [markerLine cs!"x {1}", markerLine cs!"load={1 2}"] with
      | .object o => o.tables.map fun t => t.map fun r => r.2.get cs!"string"
      | _ => []) = [[some (.str cs!"x {1}"), some (.str cs!"load={1 2}")]] ∧
    (match buildTrace 5 [markerParser] (UserParams.full false) [markerLine cs!"load={1 2}", markerLine cs!"x {1}"] with
      | .object o => o.tables.map fun t => t.map fun r => r.2.get cs!"string"
      | _ => []) = [[some (.str cs!"load0=1 load1=2"), some (.str cs!"x {1}")]] := by
  decide +kernel

/-- the file of `exMarkers` is one of those of the theorem (`TraceFile` is shown in `Whole`) -/
example : ∀ e ∈ TraceItem.eventsOf cs!"tracing_mark_write" exMarkers, ¬ cs!"={} " <:+: e.line.data := by
  have h : (TraceItem.eventsOf cs!"tracing_mark_write" exMarkers).map (fun e => Py.contains cs!"={} " e.line.data) = [false, false] := by decide +kernel
  intro e he hc
  have := h ▸ List.mem_map_of_mem (f := fun e : TraceEvent => Py.contains cs!"={} " e.line.data) he
  rw [(contains_iff _ _).2 hc] at this
  revert this
  decide

end Trappy
