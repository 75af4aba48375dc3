import Verif.Prop.Builtin
import Verif.Prop.Constraint
import Verif.Prop.Names
import Verif.Prop.Signals
import Verif.Prop.StaticOpts
/-!
# Exact conditions for C95, C100, C108, C119, C120 and C153
-/

namespace Trappy

open Re Py

/-! ## C95 -/

theorem earliest_row (rows : List CRow) (h : rows ≠ []) : ∃ r ∈ rows, ∀ r' ∈ rows, r.time ≤ r'.time := by
  induction rows with
  | nil => exact absurd rfl h
  | cons r rows ih =>
    by_cases h0 : rows = []
    · subst h0
      exact ⟨r, by simp, by simp⟩
    · obtain ⟨m, hm, hmin⟩ := ih h0
      by_cases hle : r.time ≤ m.time
      · refine ⟨r, by simp, fun r' hr' => ?_⟩
        rcases List.mem_cons.1 hr' with rfl | hr'
        · exact Nat.le_refl _
        · exact Nat.le_trans hle (hmin r' hr')
      · refine ⟨m, by simp [hm], fun r' hr' => ?_⟩
        rcases List.mem_cons.1 hr' with rfl | hr'
        · omega
        · exact hmin r' hr'

/-- **C95 (exact).** The data of a constraint with a window are the rows inside it, the last ones up to its start and the first ones from its end, exactly if there is a row up to its start and, with releases of pandas that raise
for NaN, a row from its end on; with the other releases also if there are no rows at all. For all tables and windows. -/
theorem C95_window_exact (nan : NanSlice) (t : CTable) (a b : Nat) :
    (∃ t', plotWindow nan (some (a, b)) t = some t' ∧ t'.columns = t.columns ∧ t'.rows.Sublist t.rows ∧
      ∀ r, r ∈ t'.rows ↔ r ∈ t.rows ∧ (∀ r' ∈ t.rows, r'.time ≤ a → r'.time ≤ r.time) ∧ (∀ r' ∈ t.rows, b ≤ r'.time → r.time ≤ r'.time)) ↔
    ((∃ r ∈ t.rows, r.time ≤ a) ∧ ((∃ r ∈ t.rows, b ≤ r.time) ∨ nan = .sortsLast)) ∨ (t.rows = [] ∧ nan = .sortsLast) := by
  constructor
  · rintro ⟨t', h1, _, _, h4⟩
    by_cases ha : ∃ r ∈ t.rows, r.time ≤ a
    · refine .inl ⟨ha, ?_⟩
      by_cases hb : ∃ r ∈ t.rows, b ≤ r.time
      · exact .inl hb
      · right
        cases nan with
        | sortsLast => rfl
        | raises =>
          rw [C95_end_refuted t a b fun r hr => Nat.lt_of_not_le fun h => hb ⟨r, hr, h⟩] at h1
          cases h1
    · right
      rw [C95_start_refuted nan t a b fun r hr => Nat.lt_of_not_le fun h => ha ⟨r, hr, h⟩] at h1
      cases nan with
      | raises => cases h1
      | sortsLast =>
        cases h1
        refine ⟨Decidable.byContradiction fun hne => ?_, rfl⟩
        obtain ⟨r, hr, hmin⟩ := earliest_row t.rows hne
        exact absurd ((h4 r).2 ⟨hr, fun r' hr' h' => absurd ⟨r', hr', h'⟩ ha, fun r' hr' _ => hmin r' hr'⟩) (by simp)
  · rintro (⟨ha, hb⟩ | ⟨h, rfl⟩)
    · exact C95_window_partial ha hb
    · refine ⟨⟨t.columns, []⟩, ?_, rfl, by simp, by simp [h]⟩
      rw [C95_start_refuted .sortsLast t a b (by simp [h])]

/-- a window that starts before the first of three rows, and one that does not -/
example : plotWindow .sortsLast (some (5, 25)) ⟨[cs!"x"], [⟨10, []⟩, ⟨20, []⟩, ⟨30, []⟩]⟩ = some ⟨[cs!"x"], []⟩ ∧
    plotWindow .sortsLast (some (10, 25)) ⟨[cs!"x"], [⟨10, []⟩, ⟨20, []⟩, ⟨30, []⟩]⟩ = some ⟨[cs!"x"], [⟨10, []⟩, ⟨20, []⟩, ⟨30, []⟩]⟩ := by decide +kernel

/-! ## C100 -/

theorem colours_some_iff (cs : List (Option (List Int))) : ((rgbCmap cs).isSome ↔ none ∉ cs) ∧ ((dygraphColours cs).isSome ↔ none ∉ cs) := by
  induction cs with
  | nil => simp [rgbCmap, dygraphColours]
  | cons c cs ih =>
    cases c with
    | none => simp [rgbCmap, dygraphColours]
    | some l => simp [rgbCmap, dygraphColours, ih.1, ih.2]

/-- **C100 (exact).** Signals are drawn, by either kind of plot, exactly if all of them have a colour or none has. For all signals. -/
theorem C100_colours_exact {κ : Type} (rs : List (κ × Str × Option (List Int))) (hne : ∀ r ∈ rs, r.2.2 ≠ some []) :
    ((∀ colours, signalColours rs = some colours → (rgbCmap colours).isSome) ↔ (∀ r ∈ rs, r.2.2 ≠ none) ∨ ∀ r ∈ rs, r.2.2 = none) ∧
    ((∀ colours, signalColours rs = some colours → (dygraphColours colours).isSome) ↔ (∀ r ∈ rs, r.2.2 ≠ none) ∨ ∀ r ∈ rs, r.2.2 = none) := by
  have hs : signalColours rs = none ∧ (∀ r ∈ rs, r.2.2 = none) ∨ signalColours rs = some (rs.map fun r => r.2.2) ∧ ∃ r ∈ rs, r.2.2 ≠ none := by
    by_cases h : ∀ r ∈ rs, r.2.2 = none
    · exact .inl ⟨C100_none_partial h, h⟩
    · right
      obtain ⟨r, hr, h⟩ : ∃ r ∈ rs, r.2.2 ≠ none := by
        by_contra hc
        exact h fun r hr => by_contra fun h' => hc ⟨r, hr, h'⟩
      refine ⟨?_, r, hr, h⟩
      unfold signalColours
      rw [if_pos]
      rw [List.any_eq_true]
      refine ⟨r, hr, ?_⟩
      cases hc : r.2.2 with
      | none => exact absurd hc h
      | some l =>
        cases l with
        | nil => exact absurd hc (hne r hr)
        | cons => rfl
  have key : none ∉ rs.map (fun r => r.2.2) ↔ ∀ r ∈ rs, r.2.2 ≠ none := by
    constructor
    · intro h r hr e
      exact h (List.mem_map.2 ⟨r, hr, e⟩)
    · intro h hm
      obtain ⟨r, hr, e⟩ := List.mem_map.1 hm
      exact h r hr e
  rcases hs with ⟨h1, h2⟩ | ⟨h1, r, hr, h2⟩
  · rw [h1]
    exact ⟨⟨fun _ => .inr h2, fun _ c hc => by cases hc⟩, ⟨fun _ => .inr h2, fun _ c hc => by cases hc⟩⟩
  · rw [h1]
    have hor : ((∀ r ∈ rs, r.2.2 ≠ none) ∨ ∀ r ∈ rs, r.2.2 = none) ↔ ∀ r ∈ rs, r.2.2 ≠ none :=
      ⟨fun h => h.elim id fun h => absurd (h r hr) h2, .inl⟩
    rw [hor, ← key]
    constructor
    · exact ⟨fun h => (colours_some_iff _).1.1 (h _ rfl), fun h c hc => by cases hc; exact (colours_some_iff _).1.2 h⟩
    · exact ⟨fun h => (colours_some_iff _).2.1 (h _ rfl), fun h c hc => by cases hc; exact (colours_some_iff _).2.2 h⟩

/-- one signal with a colour, one without -/
example : let rs := [(0, cs!"a", some [255, 0, 0]), (1, cs!"b", none)]; (∀ r ∈ rs, r.2.2 ≠ some ([] : List Int)) ∧ signalColours rs = some [some [255, 0, 0], none] ∧ rgbCmap [some [255, 0, 0], none] = none := by decide +kernel

/-! ## C108 -/

/-- **C108 (exact).** Inspecting `event:column` of a known event gives an answer exactly if the event has no pivot or has the column of its pivot. For all events, columns, windows and filters. -/
theorem C108_inspect_exact (o : GOpts) (env : GEnv) {e c : Str} (he : DottedName e) (hc : Identifier c) {ev : GEvent} (hev : gClass env e = .ok ev) :
    ((∃ info, gInspect o env (e ++ ':' :: c) = .ok (ev, info)) ↔ ∀ p, ev.pivot = some p → p ∈ ev.columns) ∧
    ((∃ p, ev.pivot = some p ∧ p ∉ ev.columns) → gInspect o env (e ++ ':' :: c) = .error .pivot) := by
  have hbad : (∃ p, ev.pivot = some p ∧ p ∉ ev.columns) → gInspect o env (e ++ ':' :: c) = .error .pivot := by
    rintro ⟨p, h1, h2⟩
    unfold gInspect
    rw [lex_accessor he hc.1]
    simp [hev, h1, h2]
  refine ⟨⟨?_, ?_⟩, hbad⟩
  · rintro ⟨info, h⟩ p hp
    by_contra hn
    rw [hbad ⟨p, hp, hn⟩] at h
    cases h
  · intro h
    obtain ⟨info, h, _⟩ := C108_inspect_partial o env he hc hev h
    exact ⟨info, h⟩

/-- an event with rows that has lost the column of its pivot, and one that has it -/
example : gInspect ⟨0, none, [], true⟩ ⟨[], [(cs!"sched", ⟨[cs!"load"], some cs!"cpu", [⟨1, [(cs!"load", 7)]⟩]⟩)], []⟩ cs!"sched:load" = .error .pivot ∧
    gInspect ⟨0, none, [], true⟩ ⟨[], [(cs!"sched", ⟨[cs!"load", cs!"cpu"], some cs!"cpu", [⟨1, [(cs!"load", 7), (cs!"cpu", 2)]⟩]⟩)], []⟩ cs!"sched:load" =
      .ok (⟨[cs!"load", cs!"cpu"], some cs!"cpu", [⟨1, [(cs!"load", 7), (cs!"cpu", 2)]⟩]⟩, ⟨some cs!"cpu", some [2], 1, cs!"load", true⟩) := ⟨rfl, rfl⟩

/-! ## C119 -/

/-- **C119 (exact).** After a `.dat` file has been read, or the attempt has failed, there are the files there were before exactly if everything was in the cache or no step raised. For all steps and files. -/
theorem C119_no_leftovers_exact (cached : Bool) (fails : Option DatStep) (tmp : Str) (files : List Str) (hnew : tmp ∉ files) :
    (parseDat cached fails tmp files).2 = files ↔ cached = true ∨ fails = none := by
  constructor
  · intro h
    cases cached with
    | true => exact .inl rfl
    | false =>
      cases fails with
      | none => exact .inr rfl
      | some s =>
        have := (C119_no_leftovers_refuted s tmp files).2
        rw [h] at this
        exact absurd this hnew
  · rintro (rfl | rfl)
    · exact C119_no_leftovers_partial true fails tmp files hnew (.inr rfl)
    · cases cached with
      | true => exact C119_no_leftovers_partial true none tmp files hnew (.inr rfl)
      | false => exact C119_no_leftovers_partial false none tmp files hnew (.inl rfl)

example : (parseDat false (some .apply) cs!"tmp1" [cs!"trace.dat"]).2 = [cs!"trace.dat", cs!"tmp1"] ∧ (parseDat true (some .apply) cs!"tmp1" [cs!"trace.dat"]).2 = [cs!"trace.dat"] := by decide +kernel

/-! ## C120 -/

theorem like_underscores (key : Str) : Like key (key.map fun c => if c = '.' then '_' else c) := by
  induction key with
  | nil => exact .nil
  | cons c key ih =>
    rw [List.map_cons]
    by_cases h : c = '.'
    · subst h
      exact .dot (by decide) ih
    · rw [if_neg h]
      exact .same c ih

/-- **C120 (exact).** For a key of letters, digits, underscores and dots, `get_filters` gives the names that have the key in them, whatever the names are, exactly if there is no dot in the key. -/
theorem C120_filters_exact (key : Str) (hk : ∀ c ∈ key, isWord c = true ∨ c = '.') :
    (∀ names, getFilters key names = some (names.filter fun n => Py.contains key n)) ↔ '.' ∉ key := by
  constructor
  · intro h hd
    obtain ⟨out, h1, _, h3⟩ := C120_filters key [key.map fun c => if c = '.' then '_' else c] hk
    rw [h] at h1
    cases h1
    have := (h3 (key.map fun c => if c = '.' then '_' else c)).2 ⟨by simp, _, like_underscores key, List.infix_refl _⟩
    have hc := (List.mem_filter.1 this).2
    have hin : '.' ∈ key.map fun c => if c = '.' then '_' else c := ((contains_iff _ _).1 hc).subset hd
    obtain ⟨c, _, e⟩ := List.mem_map.1 hin
    split at e
    · exact absurd e (by decide)
    · next hne => exact hne e
  · intro h names
    exact C120_filters_literal_partial key names fun c hc => (hk c hc).resolve_right fun e => h (e ▸ hc)

example : getFilters cs!"d.w" [cs!"sched_wakeup", cs!"d.w"] = some [cs!"sched_wakeup", cs!"d.w"] ∧ getFilters cs!"d_w" [cs!"sched_wakeup", cs!"d.w"] = some [cs!"sched_wakeup"] := by decide +kernel

/-! ## C153 -/

theorem whole_between (q r : Rat) (hr : 0 ≤ r) : q ≤ (truncInt r : Rat) ↔ ∃ k : Nat, q ≤ k ∧ (k : Rat) ≤ r := by
  obtain ⟨h1, h2⟩ := truncInt_nonneg hr
  have h0 : 0 ≤ truncInt r := by
    by_contra hc
    have : truncInt r ≤ -1 := by omega
    have : (truncInt r : Rat) ≤ -1 := by exact_mod_cast this
    linarith
  constructor
  · intro h
    refine ⟨(truncInt r).toNat, ?_, ?_⟩
    · have : ((truncInt r).toNat : Rat) = truncInt r := by exact_mod_cast Int.toNat_of_nonneg h0
      rw [this]; exact h
    · have : ((truncInt r).toNat : Rat) = truncInt r := by exact_mod_cast Int.toNat_of_nonneg h0
      rw [this]; exact h1
  · rintro ⟨k, h3, h4⟩
    have : (k : Int) < truncInt r + 1 := by
      have : ((k : Int) : Rat) < ((truncInt r + 1 : Int) : Rat) := by push_cast; linarith
      exact_mod_cast this
    have : (k : Int) ≤ truncInt r := by omega
    have : ((k : Int) : Rat) ≤ (truncInt r : Rat) := by exact_mod_cast this
    push_cast at this
    linarith

/-- **C153 (exact).** With one plot in a row, the cell is at least as wide as asked for exactly if there is a whole number between the width and 2.5 times the width, and at least as long exactly if there is one between the length
and 1.25 times the length. For all numbers of plots and all sizes. -/
theorem C153_scaled_exact {perLine num : Nat} {w h : Rat} (hp : 0 < perLine) (hn : 0 < num) (hc : perLine = 1 ∨ num = 1) (hw : 0 ≤ w) (hh : 0 ≤ h) :
    ∃ l, ∃ W H : Rat, figSize perLine num (w, h) = .ok (l, W * l.cols, H * l.rows) ∧ l.cols = 1 ∧ l.rows = num ∧
      (w ≤ W ↔ ∃ k : Nat, w ≤ k ∧ (k : Rat) ≤ 5/2 * w) ∧ (h ≤ H ↔ ∃ k : Nat, h ≤ k ∧ (k : Rat) ≤ 5/4 * h) := by
  have hcols : (if num < perLine then num else perLine) = 1 := by split <;> omega
  have h0 : num ≠ 0 := by omega
  refine ⟨{ rows := num, cols := 1, single := num = 1, usecol := num ≠ 1 ∧ num = 1, userow := num ≠ 1 ∧ num ≠ 1 ∧ (1 : Nat) = 1 },
    truncInt (w * (5/2)), truncInt (h * (5/4)), ?_, rfl, rfl, ?_, ?_⟩
  · unfold figSize mkLayout
    simp only [h0, if_false, hcols, Nat.one_ne_zero, Nat.mod_one, ne_eq, not_true_eq_false, Nat.div_one]
    by_cases h1 : num = 1 <;> simp [h1, scaleSize]
  · rw [mul_comm (5/2) w]
    exact whole_between w _ (by linarith)
  · rw [mul_comm (5/4) h]
    exact whole_between h _ (by linarith)

/-- 2 is between 9/5 and 9/4, nothing is between 5/4 and 25/16 -/
example : (∃ l, figSize 2 1 (2, 9/5) = .ok (l, 5, 2)) ∧ (∃ l, figSize 2 1 (2, 5/4) = .ok (l, 5, 1)) :=
  ⟨⟨{ rows := 1, cols := 1, single := true, usecol := false, userow := false }, by decide +kernel⟩,
   ⟨{ rows := 1, cols := 1, single := true, usecol := false, userow := false }, by decide +kernel⟩⟩

end Trappy
