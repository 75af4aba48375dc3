import Verif.Lemma.Window
import Verif.Prop.Dispatch
/-!
# C20 – C25: windows, normalisation, duration
-/

namespace Trappy
open F64

variable {α : Type}

/-- The table of parser `i` of a freshly parsed trace, before windows and normalisation: rows by time. -/
def rawTable (cls : List Cls) (lines : List Str) (i : Nat) : Table Rec :=
  ((populate cls 0 lines).tables i).map fun r => (r.time, r)

/-- The table of parser `i` the user sees (ftrace.py:316-335 without a cache). -/
def userTable (cls : List Cls) (u : UserParams) (lines : List Str) (i : Nat) : Table Rec :=
  applyUser (populate cls 0 lines).basetime u (rawTable cls lines i)

theorem add_nearestEven {a b : Nat} (h : add a b < inf) : NearestEven (val a + val b) (add a b) := by
  have := round_nearestEven (n := uval a + uval b) (d := 1) (by omega) h
  have e : ((uval a + uval b : Nat) : ℚ) / ((1 : Nat) * 2 ^ 1074) = val a + val b := by
    unfold val; push_cast; rw [one_mul, add_div]
  rwa [e] at this

theorem sub_nearestEven {a b : Nat} (hb : b ≤ a) (h : sub a b < inf) : NearestEven (val a - val b) (sub a b) := by
  have := round_nearestEven (n := uval a - uval b) (d := 1) (by omega) h
  have e : ((uval a - uval b : Nat) : ℚ) / ((1 : Nat) * 2 ^ 1074) = val a - val b := by
    unfold val; rw [Nat.cast_sub (uval_le_of_le hb)]; push_cast; rw [one_mul, sub_div]
  rwa [e] at this

/-- A rational number has at most one correctly rounded value. -/
theorem F64.NearestEven.unique {q : ℚ} {x y : Nat} (hx : NearestEven q x) (hy : NearestEven q y) : x = y := by
  have key : ∀ {x y : Nat}, NearestEven q x → NearestEven q y → ¬ x < y := by
    intro x y hx hy hlt
    have e : |val x - q| = |val y - q| := le_antisymm (hx.2 y hy.1).1 (hy.2 x hx.1).1
    have p1 := (hx.2 y hy.1).2 (by omega) e
    have p2 := (hy.2 x hx.1).2 (by omega) e.symm
    have v1 := val_lt_iff.mpr hlt
    have hm := (hx.2 (x + 1) (by have := hy.1; omega)).1
    have v2 : val x < val (x + 1) := val_lt_iff.mpr (by omega)
    have v3 : val (x + 1) < val y := val_lt_iff.mpr (by omega)
    rcases abs_cases (val x - q) with ⟨h1, _⟩ | ⟨h1, _⟩ <;> rcases abs_cases (val y - q) with ⟨h2, _⟩ | ⟨h2, _⟩ <;>
      rcases abs_cases (val (x + 1) - q) with ⟨h3, _⟩ | ⟨h3, _⟩ <;> rw [h1] at e hm <;> rw [h2] at e <;> rw [h3] at hm <;>
      linarith
  rcases Nat.lt_trichotomy x y with h | h | h
  · exact absurd h (key hx hy)
  · exact h
  · exact absurd h (key hy hx)

/-! ## C20 -/

/-- A table restricted to the rows with `lo ≤ time ≤ hi`, as rational numbers. -/
def within (lo : Nat) (hi : Option Nat) (t : Table α) : Table α :=
  t.filter fun r => decide (val lo ≤ val r.1 ∧ ∀ h ∈ hi, val r.1 ≤ val h)

theorem within_eq (lo : Nat) (hi : Option Nat) (t : Table α) :
    within lo hi t = t.filter fun r => decide (lo ≤ r.1 ∧ ∀ h ∈ hi, r.1 ≤ h) := by
  unfold within; simp only [val_le_iff]

/-- **C20**, any table: windowing with a non-zero (or no) end puts the rows in time order and keeps exactly those
between the bounds, both included; a table in time order is only filtered. -/
theorem C20_window_exact_partial (w : Win) (hw : w.hi ≠ some 0) (t : Table α) :
    (∃ s : Table α, s.Perm t ∧ s.Pairwise (fun a b => val a.1 ≤ val b.1) ∧ windowify w t = within w.lo w.hi s) ∧
    (t.Pairwise (fun a b => val a.1 ≤ val b.1) → windowify w t = within w.lo w.hi t) := by
  have e := windowify_eq w hw t
  refine ⟨⟨sortIndex t, sortIndex_perm t, (sortIndex_sorted t).imp fun h => val_le_iff.mpr h, ?_⟩, ?_⟩
  · rw [e, within_eq]
  · intro hs
    rw [e, within_eq, sortIndex_of_sorted (hs.imp fun h => val_le_iff.mp h)]

theorem rawTable_sorted {cls : List Cls} {lines : List Str} (hfin : (populate cls 0 lines).endtime < inf) (i : Nat) :
    (rawTable cls lines i).Pairwise (fun a b => val a.1 < val b.1) := by
  have := (C04_times_strictly_increase cls lines hfin).2 i
  unfold rawTable
  rw [List.pairwise_map]
  exact this.imp fun h => h.2

theorem rawTable_base {cls : List Cls} {lines : List Str} (hfin : (populate cls 0 lines).endtime < inf) (i : Nat)
    (hne : rawTable cls lines i ≠ []) : (populate cls 0 lines).basetime ≠ 0 ∧
      ∀ r ∈ rawTable cls lines i, (populate cls 0 lines).basetime ≤ r.1 ∧ r.1 ≤ (populate cls 0 lines).endtime := by
  have hev : fileEvents cls lines ≠ [] := by
    intro h
    have hs := (populate_spec cls 0 lines).2.1 i
    rw [h] at hs
    apply hne
    unfold rawTable
    rw [hs]
    simp [rowsFor]
  obtain ⟨out, _, _, _, h4, _, h6⟩ := C07_base_and_end cls lines hev hfin
  refine ⟨h4, ?_⟩
  intro r hr
  unfold rawTable at hr
  obtain ⟨q, hq, rfl⟩ := List.mem_map.mp hr
  exact h6 i q hq

theorem windowify_nil (w : Win) : windowify w ([] : Table α) = [] := rfl

theorem add_ne_zero {a b : Nat} (hb : b ≠ 0) (hbi : b ≤ inf) : add a b ≠ 0 := by
  have : round (uval b) 1 ≤ add a b := by unfold add; exact round1_mono (by omega)
  rw [round1_exact hbi] at this
  omega

/-- **C20**, relative window on a whole file: the rows kept are those between the correctly rounded sums of the base
time and the bounds. -/
theorem C20_relative_window (cls : List Cls) (lines : List Str) (w : Win) (i : Nat)
    (hfin : (populate cls 0 lines).endtime < inf) :
    userTable cls { normalize := false, window := w, absWindow := ⟨0, none⟩ } lines i =
      within (add w.lo (populate cls 0 lines).basetime)
        (w.hi.map fun h => add h (populate cls 0 lines).basetime) (rawTable cls lines i) := by
  by_cases hne : rawTable cls lines i = []
  · unfold userTable applyUser applyWith; rw [hne]; rfl
  · obtain ⟨hb, hall⟩ := rawTable_base hfin i hne
    have hbi : (populate cls 0 lines).basetime ≤ inf := by
      obtain ⟨r, hr⟩ := List.exists_mem_of_ne_nil _ hne
      have := hall r hr; omega
    unfold userTable applyUser applyWith maxWindow
    simp only [hb, if_false, Bool.false_eq_true]
    have hcw : calcMaxWindow (populate cls 0 lines).basetime w ⟨0, none⟩ =
        ⟨add w.lo (populate cls 0 lines).basetime, w.hi.map fun h => add h (populate cls 0 lines).basetime⟩ := by
      unfold calcMaxWindow
      cases w.hi <;> simp
    rw [hcw]
    refine (C20_window_exact_partial _ ?_ _).2 ((rawTable_sorted hfin i).imp fun h => h.le)
    simp only
    cases w.hi with
    | none => simp
    | some h => simpa using add_ne_zero hb hbi

/-- **C20**, in exact arithmetic: a row whose time lies in `[base + lo, base + hi]` is kept; a row that is kept lies
in that interval or exactly on a bound that was rounded. -/
theorem C20_relative_window_real (cls : List Cls) (lines : List Str) (lo hi : Nat) (i : Nat)
    (hfin : (populate cls 0 lines).endtime < inf) (r : Nat × Rec) (hr : r ∈ rawTable cls lines i)
    (hovl : add lo (populate cls 0 lines).basetime < inf) (hovh : add hi (populate cls 0 lines).basetime < inf) :
    let base := (populate cls 0 lines).basetime
    (val base + val lo ≤ val r.1 → val r.1 ≤ val base + val hi →
      r ∈ userTable cls { normalize := false, window := ⟨lo, some hi⟩, absWindow := ⟨0, none⟩ } lines i) ∧
    (r ∈ userTable cls { normalize := false, window := ⟨lo, some hi⟩, absWindow := ⟨0, none⟩ } lines i →
      (val base + val lo ≤ val r.1 ∨ NearestEven (val base + val lo) r.1) ∧
      (val r.1 ≤ val base + val hi ∨ NearestEven (val base + val hi) r.1)) := by
  intro base
  rw [C20_relative_window cls lines _ i hfin, within_eq, List.mem_filter]
  have hne : rawTable cls lines i ≠ [] := List.ne_nil_of_mem hr
  have hri : r.1 ≤ inf := by have := ((rawTable_base hfin i hne).2 r hr); omega
  have hsum : ∀ x : Nat, val base + val x = ((uval x + uval base : Nat) : ℚ) / 2 ^ 1074 := by
    intro x; unfold val; push_cast; rw [add_comm (uval x : ℚ), add_div]
  have hp : (0 : ℚ) < 2 ^ 1074 := by positivity
  have hcmp1 : ∀ x : Nat, val base + val x ≤ val r.1 ↔ uval x + uval base ≤ uval r.1 := by
    intro x; rw [hsum]; unfold val; rw [div_le_div_iff_of_pos_right hp]; exact_mod_cast Iff.rfl
  have hcmp2 : ∀ x : Nat, val r.1 ≤ val base + val x ↔ uval r.1 ≤ uval x + uval base := by
    intro x; rw [hsum]; unfold val; rw [div_le_div_iff_of_pos_right hp]; exact_mod_cast Iff.rfl
  have hnl := add_nearestEven hovl
  have hnh := add_nearestEven hovh
  rw [add_comm] at hnl hnh
  simp only [hcmp1, hcmp2, Option.map_some, Option.mem_def, Option.some.injEq, forall_eq',
    decide_eq_true_eq]
  constructor
  · intro h1 h2
    refine ⟨hr, ?_, ?_⟩
    · have := round1_mono h1
      rwa [round1_exact hri] at this
    · have := round1_mono h2
      rwa [round1_exact hri] at this
  · rintro ⟨_, h1, h2⟩
    constructor
    · by_cases hc : uval lo + uval base ≤ uval r.1
      · exact Or.inl hc
      · right
        have := round1_mono (Nat.le_of_lt (Nat.lt_of_not_le hc))
        rw [round1_exact hri] at this
        have he : r.1 = add lo base := Nat.le_antisymm this h1
        rw [he]; exact hnl
    · by_cases hc : uval r.1 ≤ uval hi + uval base
      · exact Or.inl hc
      · right
        have := round1_mono (Nat.le_of_lt (Nat.lt_of_not_le hc))
        rw [round1_exact hri] at this
        have he : r.1 = add hi base := Nat.le_antisymm h2 this
        rw [he]; exact hnh

/-- **C20**, absolute window with a non-zero (or no) end on a whole file. -/
theorem C20_absolute_window_partial (cls : List Cls) (lines : List Str) (w : Win) (hw : w.hi ≠ some 0) (i : Nat)
    (hfin : (populate cls 0 lines).endtime < inf) :
    userTable cls { normalize := false, window := ⟨0, none⟩, absWindow := w } lines i =
      within w.lo w.hi (rawTable cls lines i) := by
  by_cases hne : rawTable cls lines i = []
  · unfold userTable applyUser applyWith; rw [hne]; rfl
  · obtain ⟨hb, hall⟩ := rawTable_base hfin i hne
    have hbi : (populate cls 0 lines).basetime ≤ inf := by
      obtain ⟨r, hr⟩ := List.exists_mem_of_ne_nil _ hne
      have := hall r hr; omega
    unfold userTable applyUser applyWith maxWindow
    simp only [hb, if_false, Bool.false_eq_true]
    have hz : add 0 (populate cls 0 lines).basetime = (populate cls 0 lines).basetime := by
      unfold add; rw [uval_zero, Nat.zero_add, round1_exact hbi]
    have hcw : calcMaxWindow (populate cls 0 lines).basetime ⟨0, none⟩ w =
        ⟨max (populate cls 0 lines).basetime w.lo, w.hi⟩ := by
      unfold calcMaxWindow
      rw [hz]
      cases w.hi <;> simp
    rw [hcw, (C20_window_exact_partial _ (by exact hw) _).2 ((rawTable_sorted hfin i).imp fun h => h.le), within_eq, within_eq]
    apply List.filter_congr
    intro r hr
    have := (hall r hr).1
    simp only [decide_eq_decide]
    constructor
    · rintro ⟨h1, h2⟩; exact ⟨by omega, h2⟩
    · rintro ⟨h1, h2⟩; exact ⟨by omega, h2⟩

/-- an event at 10.5, 10.6 and 11 -/
def exWin : List Str :=
  [cs!"a-1 [000] 10.5: print: x=1\n", cs!"a-1 [000] 10.625: print: x=2\n", cs!"a-1 [000] 11.0: print: x=3\n"]

def exWinCls : List Cls := [{ word := cs!"print:", fallback := false }]

/-- a window from 0.125 to 0.5 seconds after the first event keeps two of three events, the bounds included -/
example : (populate exWinCls 0 exWin).endtime < inf ∧ (rawTable exWinCls exWin 0).length = 3 ∧
    (userTable exWinCls { normalize := false, window := ⟨ofRat 1 8, some (ofRat 1 2)⟩, absWindow := ⟨0, none⟩ }
      exWin 0).map Prod.fst = [ofRat 85 8, ofRat 11 1] ∧
    (userTable exWinCls { normalize := false, window := ⟨0, none⟩, absWindow := ⟨ofRat 85 8, some (ofRat 85 8)⟩ }
      exWin 0).map Prod.fst = [ofRat 85 8] ∧
    add (ofRat 1 8) (populate exWinCls 0 exWin).basetime < inf := by decide +kernel

/-- a table out of order is put in order -/
example : windowify ⟨2, some 5⟩ [(7, 'a'), (5, 'b'), (1, 'c'), (2, 'd')] = [(2, 'd'), (5, 'b')] := by decide +kernel

/-- **C20 refuted** for an end of zero: no event can be at time 0 or before, but all are kept. -/
theorem C20_zero_end_refuted :
    ¬ ∀ (cls : List Cls) (lines : List Str) (w : Win) (i : Nat), (populate cls 0 lines).endtime < inf →
      userTable cls { normalize := false, window := ⟨0, none⟩, absWindow := w } lines i =
        within w.lo w.hi (rawTable cls lines i) := by
  intro h
  have := congrArg List.length (h exWinCls exWin ⟨0, some 0⟩ 0 (by decide +kernel))
  rw [within_eq] at this
  revert this
  decide +kernel

/-! ## C21 -/

/-- **C21 refuted**: with `window=(0, 0.125)` and `abs_window=(0, 11)` the event at 11, half a second after the
first one, is kept. -/
theorem C21_intersection_refuted :
    ¬ ∀ (cls : List Cls) (lines : List Str) (w aw : Win) (i : Nat), (populate cls 0 lines).endtime < inf →
      w.hi ≠ some 0 → aw.hi ≠ some 0 → ∀ r,
      (r ∈ userTable cls { normalize := false, window := w, absWindow := aw } lines i ↔
        r ∈ userTable cls { normalize := false, window := w, absWindow := ⟨0, none⟩ } lines i ∧
        r ∈ userTable cls { normalize := false, window := ⟨0, none⟩, absWindow := aw } lines i) := by
  intro h
  have := h exWinCls exWin ⟨0, some (ofRat 1 8)⟩ ⟨0, some (ofRat 11 1)⟩ 0 (by decide +kernel) (by decide +kernel)
    (by decide +kernel) (ofRat 11 1, { time := ofRat 11 1, comm := cs!"a", pid := 1, cpu := 0, line := 2, data := cs!"x=3" })
  revert this
  decide +kernel

/-- **C21, part proved**: when at most one of the two windows has an end (and it is not an absolute end of 0), exactly
the rows in both windows are kept, in the order they have. -/
theorem C21_intersection_partial (cls : List Cls) (lines : List Str) (w aw : Win) (i : Nat)
    (hfin : (populate cls 0 lines).endtime < inf) (haw : aw.hi ≠ some 0) (h1 : w.hi = none ∨ aw.hi = none) :
    userTable cls { normalize := false, window := w, absWindow := aw } lines i =
      (userTable cls { normalize := false, window := w, absWindow := ⟨0, none⟩ } lines i).filter (fun r =>
        decide (val aw.lo ≤ val r.1 ∧ ∀ h ∈ aw.hi, val r.1 ≤ val h)) := by
  rw [C20_relative_window cls lines w i hfin]
  by_cases hne : rawTable cls lines i = []
  · unfold userTable applyUser applyWith; rw [hne]; rfl
  · obtain ⟨hb, hall⟩ := rawTable_base hfin i hne
    have hbi : (populate cls 0 lines).basetime ≤ inf := by
      obtain ⟨r, hr⟩ := List.exists_mem_of_ne_nil _ hne
      have := hall r hr; omega
    unfold userTable applyUser applyWith maxWindow
    simp only [hb, if_false, Bool.false_eq_true]
    have hend : (calcMaxWindow (populate cls 0 lines).basetime w aw).hi ≠ some 0 := by
      unfold calcMaxWindow
      rcases h1 with h1 | h1
      · rw [h1]; cases h2 : aw.hi with
        | none => simp
        | some d => rw [h2] at haw; simpa using haw
      · rw [h1]; cases h2 : w.hi with
        | none => simp
        | some d => simpa using add_ne_zero hb hbi
    rw [(C20_window_exact_partial _ hend _).2 ((rawTable_sorted hfin i).imp fun h => h.le), within_eq, within_eq, List.filter_filter]
    simp only [val_le_iff]
    apply List.filter_congr
    intro r _
    unfold calcMaxWindow
    rcases h1 with h1 | h1
    · rw [h1]
      cases h2 : aw.hi with
      | none => simp [Bool.and_comm]
      | some d =>
        simp only [Option.mem_def, Option.some.injEq, forall_eq', Option.map_none, reduceCtorEq, false_implies,
          implies_true, and_true, ← Bool.decide_and, decide_eq_decide]
        constructor
        · rintro ⟨h3, h4⟩; omega
        · rintro ⟨⟨h3, h4⟩, h5⟩; omega
    · rw [h1]
      cases h2 : w.hi with
      | none => simp [Bool.and_comm]
      | some d =>
        simp only [Option.mem_def, Option.some.injEq, forall_eq', Option.map_some, reduceCtorEq, false_implies,
          implies_true, and_true, ← Bool.decide_and, decide_eq_decide]
        constructor
        · rintro ⟨h3, h4⟩; omega
        · rintro ⟨h3, h4, h5⟩; omega

/-- **C21, part proved**: the lower bounds always intersect, and no row in both windows is ever lost. -/
theorem C21_nothing_lost_partial (cls : List Cls) (lines : List Str) (w aw : Win) (i : Nat)
    (hfin : (populate cls 0 lines).endtime < inf) (haw : aw.hi ≠ some 0) (r : Nat × Rec) :
    (r ∈ userTable cls { normalize := false, window := w, absWindow := ⟨0, none⟩ } lines i →
      r ∈ userTable cls { normalize := false, window := ⟨0, none⟩, absWindow := aw } lines i →
      r ∈ userTable cls { normalize := false, window := w, absWindow := aw } lines i) ∧
    (r ∈ userTable cls { normalize := false, window := w, absWindow := aw } lines i →
      r ∈ rawTable cls lines i ∧ val aw.lo ≤ val r.1 ∧ val (add w.lo (populate cls 0 lines).basetime) ≤ val r.1 ∧
      ((∃ h, w.hi = some h) → (∃ h, aw.hi = some h) →
        (∃ h ∈ w.hi, val r.1 ≤ val (add h (populate cls 0 lines).basetime)) ∨ ∃ h ∈ aw.hi, val r.1 ≤ val h)) := by
  rw [C20_relative_window cls lines w i hfin, C20_absolute_window_partial cls lines aw haw i hfin]
  by_cases hne : rawTable cls lines i = []
  · unfold userTable applyUser applyWith; rw [hne]; simp [within, windowify_nil]
  · obtain ⟨hb, hall⟩ := rawTable_base hfin i hne
    have hbi : (populate cls 0 lines).basetime ≤ inf := by
      obtain ⟨r, hr⟩ := List.exists_mem_of_ne_nil _ hne
      have := hall r hr; omega
    unfold userTable applyUser applyWith maxWindow
    simp only [hb, if_false, Bool.false_eq_true]
    have hend : (calcMaxWindow (populate cls 0 lines).basetime w aw).hi ≠ some 0 := by
      unfold calcMaxWindow
      cases h2 : aw.hi with
      | none =>
        cases h1 : w.hi with
        | none => simp
        | some d => simpa using add_ne_zero hb hbi
      | some d =>
        rw [h2] at haw
        have hd : d ≠ 0 := by simpa using haw
        cases h1 : w.hi with
        | none => simpa using hd
        | some e => simp; omega
    rw [(C20_window_exact_partial _ hend _).2 ((rawTable_sorted hfin i).imp fun h => h.le)]
    simp only [within_eq, List.mem_filter, decide_eq_true_eq, val_le_iff]
    unfold calcMaxWindow
    cases h2 : aw.hi with
    | none =>
      cases h1 : w.hi with
      | none => simp; constructor <;> intros <;> simp_all
      | some d => simp; constructor <;> intros <;> simp_all
    | some d =>
      cases h1 : w.hi with
      | none => simp; constructor <;> intros <;> simp_all
      | some e => simp; constructor <;> intros <;> simp_all

example : (userTable exWinCls { normalize := false, window := ⟨ofRat 1 8, none⟩, absWindow := ⟨0, some (ofRat 107 10)⟩ }
    exWin 0).map Prod.fst = [ofRat 85 8] := by decide +kernel

/-! ## C22 -/

/-- without windows all rows are kept -/
theorem full_table (cls : List Cls) (lines : List Str) (i : Nat)
    (hfin : (populate cls 0 lines).endtime < inf) (n : Bool) :
    windowify (maxWindow (populate cls 0 lines).basetime ⟨n, ⟨0, none⟩, ⟨0, none⟩⟩) (rawTable cls lines i) =
      rawTable cls lines i := by
  by_cases hne : rawTable cls lines i = []
  · rw [hne]; rfl
  obtain ⟨hb, hr⟩ := rawTable_base hfin i hne
  have := C20_absolute_window_partial cls lines ⟨0, none⟩ (by simp) i hfin
  unfold userTable applyUser applyWith at this
  unfold maxWindow at this ⊢
  simp only [hb, if_false, Bool.false_eq_true] at this ⊢
  rw [this, within_eq]
  simp

/-- **C22**: the rows of a windowed trace are rows of the unwindowed trace with the same times, absolute or
normalised, in the same order. -/
theorem C22_times_unaffected (cls : List Cls) (lines : List Str) (u : UserParams) (i : Nat)
    (hfin : (populate cls 0 lines).endtime < inf) :
    List.Sublist (userTable cls u lines i)
      (userTable cls { u with window := ⟨0, none⟩, absWindow := ⟨0, none⟩ } lines i) := by
  have hs : (rawTable cls lines i).Pairwise (fun a b => a.1 ≤ b.1) :=
    (rawTable_sorted hfin i).imp fun h => (val_lt_iff.mp h).le
  by_cases hne : rawTable cls lines i = []
  · unfold userTable applyUser applyWith; rw [hne]; simp [windowify_nil]
  have hall := full_table cls lines i hfin u.normalize
  have hsub : List.Sublist (windowify (maxWindow (populate cls 0 lines).basetime u) (rawTable cls lines i))
      (rawTable cls lines i) := by
    generalize maxWindow (populate cls 0 lines).basetime u = w
    unfold windowify
    rw [sortIndex_of_sorted hs]
    split
    · exact List.Sublist.refl _
    · simp only
      split
      · exact (List.takeWhile_sublist _).trans (List.dropWhile_sublist _)
      · split
        · exact List.dropWhile_sublist _
        · exact List.Sublist.refl _
  unfold userTable applyUser applyWith
  rw [hall]
  simp only
  split
  · unfold normalizeTable
    split
    · exact hsub
    · exact hsub.map _
  · exact hsub

/-- **C22**: base and end time are found without looking at the windows, so the normalised rows of two traces of the
same file opened with different windows refer to the same origin: a row kept by both has the same time in both. -/
theorem C22_same_row_same_time (cls : List Cls) (lines : List Str) (u v : UserParams) (i : Nat)
    (hnorm : u.normalize = v.normalize) (hfin : (populate cls 0 lines).endtime < inf) (t t' : Nat) (r : Rec)
    (h1 : (t, r) ∈ userTable cls u lines i) (h2 : (t', r) ∈ userTable cls v lines i) : t = t' := by
  have s1 := (C22_times_unaffected cls lines u i hfin).subset h1
  have s2 := (C22_times_unaffected cls lines v i hfin).subset h2
  have key : ∀ (w : UserParams) (t : Nat), (t, r) ∈ userTable cls { w with window := ⟨0, none⟩, absWindow := ⟨0, none⟩ } lines i →
      t = if w.normalize then (if (populate cls 0 lines).basetime = 0 then r.time
        else sub r.time (populate cls 0 lines).basetime) else r.time := by
    intro w t h
    have hmem : ∀ q ∈ windowify (maxWindow (populate cls 0 lines).basetime
      { w with window := ⟨0, none⟩, absWindow := ⟨0, none⟩ }) (rawTable cls lines i), q.1 = q.2.time := by
      intro q hq
      have : q ∈ rawTable cls lines i := by
        generalize maxWindow (populate cls 0 lines).basetime _ = w' at hq
        unfold windowify at hq
        split at hq
        · exact hq
        · simp only at hq
          rw [← (sortIndex_perm _).mem_iff]
          split at hq
          · exact (List.dropWhile_sublist _).subset ((List.takeWhile_sublist _).subset hq)
          · split at hq
            · exact (List.dropWhile_sublist _).subset hq
            · exact hq
      unfold rawTable at this
      obtain ⟨r', _, rfl⟩ := List.mem_map.mp this
      rfl
    unfold userTable applyUser applyWith at h
    simp only at h
    split at h
    · rename_i hn
      rw [if_pos hn]
      unfold normalizeTable at h
      split at h
      · rename_i hb
        rw [if_pos hb]
        exact hmem _ h
      · rename_i hb
        rw [if_neg hb]
        obtain ⟨q, hq, he⟩ := List.mem_map.mp h
        have := hmem q hq
        cases he
        rw [this]
    · rename_i hn
      rw [if_neg hn]
      exact hmem _ h
  rw [key u t s1, key v t' s2, hnorm]

example : ((userTable exWinCls { normalize := true, window := ⟨ofRat 1 8, none⟩, absWindow := ⟨0, none⟩ }
    exWin 0).map Prod.fst) = [ofRat 1 8, ofRat 1 2] ∧
    ((userTable exWinCls (UserParams.full true) exWin 0).map Prod.fst) = [0, ofRat 1 8, ofRat 1 2] := by decide +kernel

/-! ## C23 -/

/-- **C23**: with normalisation the rows are those of the parse, in the same order, each moved by the time of the first
event of the file: the new time is the binary64 number nearest to the difference.  The first event of the file gets 0
and earlier events do not get later times. -/
theorem C23_normalised (cls : List Cls) (lines : List Str) (hne : fileEvents cls lines ≠ [])
    (hfin : (populate cls 0 lines).endtime < inf) :
    ∃ out : List Nat, out.length = (fileEvents cls lines).length ∧ out.Pairwise (fun a b => val a < val b) ∧
      (∀ i, rawTable cls lines i = (rowsFor i (fileEvents cls lines) out).map fun r => (r.time, r)) ∧
      ∃ base, out.head? = some base ∧
        ∃ shift : Nat → Nat,
          (∀ i, userTable cls (UserParams.full true) lines i = (rawTable cls lines i).map fun r => (shift r.1, r.2)) ∧
          (∀ t ∈ out, NearestEven (val t - val base) (shift t)) ∧ shift base = 0 ∧
          (∀ a b, val a ≤ val b → val (shift a) ≤ val (shift b)) := by
  have hs := populate_spec cls 0 lines
  have hm := hs.2.2.2 hfin
  have hpw := hm.pairwise
  have hne' : assign 0 ((fileEvents cls lines).map fun e => tsValue e.fields) ≠ [] := by
    intro h
    have := assign_length 0 ((fileEvents cls lines).map fun e => tsValue e.fields)
    rw [h] at this
    simp at this
    exact hne (List.length_eq_zero_iff.mp (by omega))
  have hlast := lastTime_eq (prev := 0) hne'
  rw [← hs.1] at hlast
  have hlen := assign_length 0 ((fileEvents cls lines).map fun e => tsValue e.fields)
  have hbase := hs.2.2.1
  rw [if_pos rfl] at hbase
  generalize hO : assign 0 ((fileEvents cls lines).map fun e => tsValue e.fields) = out at *
  obtain ⟨o, os, rfl⟩ := List.exists_cons_of_ne_nil hne'
  have hbo : (populate cls 0 lines).basetime = o := hbase
  have ho0 : o ≠ 0 := by have := hpw.2 o (by simp); omega
  have hfinall : ∀ t ∈ o :: os, o ≤ t ∧ t < inf := by
    intro t ht
    constructor
    · rcases List.mem_cons.mp ht with rfl | ht
      · exact Nat.le_refl _
      · exact ((List.pairwise_cons.mp hpw.1).1 t ht).le
    · obtain ⟨k, hk⟩ := List.mem_iff_getElem?.mp ht
      rw [List.getLast?_eq_getElem?] at hlast
      obtain ⟨h1a, h1b⟩ := List.getElem?_eq_some_iff.mp hlast
      obtain ⟨h2a, h2b⟩ := List.getElem?_eq_some_iff.mp hk
      rcases Nat.lt_or_ge k ((o :: os).length - 1) with h | h
      · have := (List.pairwise_iff_getElem.mp hpw.1) k _ h2a h1a h
        omega
      · have e : k = (o :: os).length - 1 := by omega
        subst e
        rw [h1b] at h2b; omega
  refine ⟨o :: os, by simpa using hlen, hpw.1.imp fun h => val_lt_iff.mpr h, ?_, o, rfl, fun t => sub t o, ?_, ?_, ?_, ?_⟩
  · intro i; unfold rawTable; rw [hs.2.1, hO]
  · intro i
    have := full_table cls lines i hfin
    unfold userTable applyUser applyWith UserParams.full
    simp only [if_true]
    rw [this true]
    unfold normalizeTable
    rw [hbo, if_neg ho0]
  · intro t ht
    have := hfinall t ht
    exact sub_nearestEven this.1 (lt_of_le_of_lt (sub_le this.2.le) this.2)
  · exact sub_self o
  · intro a b hab
    exact val_le_iff.mpr (sub_mono (val_le_iff.mp hab))

example : fileEvents exWinCls exWin ≠ [] := by
  intro h
  have := congrArg List.length h
  revert this
  decide +kernel

/-! ## C24 -/

/-- three events, the last two with the same timestamp -/
def exCollide : List Str :=
  [cs!"a-1 [000] 1.1: print: x=1\n", cs!"a-1 [000] 7.0: print: x=2\n", cs!"a-1 [000] 7.0: print: x=3\n"]

/-- **C24 refuted**: the two events get different times, but the same normalised time. -/
theorem C24_distinct_refuted :
    ¬ ∀ (cls : List Cls) (lines : List Str) (i : Nat), (populate cls 0 lines).endtime < inf →
      (userTable cls (UserParams.full true) lines i).Pairwise fun a b => a.1 ≠ b.1 := by
  intro h
  have := h exWinCls exCollide 0 (by decide +kernel)
  revert this
  decide +kernel

/-- **C24, part proved**: two rows of a table whose times are not neighbouring binary64 numbers keep different times, in
the same order.  (Neighbouring times only arise when timestamps are equal or decreasing in the file, or closer than
the resolution of binary64.) -/
theorem C24_distinct_partial (cls : List Cls) (lines : List Str) (i : Nat)
    (hfin : (populate cls 0 lines).endtime < inf)
    (hgap : (rawTable cls lines i).Pairwise fun a b => ∃ m, m < inf ∧ val a.1 < val m ∧ val m < val b.1) :
    (userTable cls (UserParams.full true) lines i).Pairwise fun a b => val a.1 < val b.1 := by
  by_cases hne : rawTable cls lines i = []
  · unfold userTable applyUser applyWith; rw [hne]; simp [windowify_nil, normalizeTable, UserParams.full]
  obtain ⟨hb, hr⟩ := rawTable_base hfin i hne
  have := full_table cls lines i hfin
  unfold userTable applyUser applyWith UserParams.full
  simp only [if_true]
  rw [this true]
  unfold normalizeTable
  rw [if_neg hb, List.pairwise_map]
  refine List.Pairwise.imp_of_mem ?_ hgap
  rintro a b ha hb' ⟨m, _, h1, h2⟩
  rw [val_lt_iff] at *
  have hra := hr a ha
  have hrb := hr b hb'
  exact sub_strict (by omega) (by omega) hra.1 (by omega)

/-- **C24, part proved**: no two events can be merged within the first base-time seconds: while times are at most twice
the base time the differences are exact. -/
theorem C24_exact_partial (cls : List Cls) (lines : List Str) (i : Nat)
    (hfin : (populate cls 0 lines).endtime < inf)
    (hsmall : ∀ r ∈ rawTable cls lines i, val r.1 ≤ 2 * val (populate cls 0 lines).basetime) :
    ((userTable cls (UserParams.full true) lines i).map fun r => val r.1) =
      (rawTable cls lines i).map (fun r => val r.1 - val (populate cls 0 lines).basetime) ∧
    (userTable cls (UserParams.full true) lines i).Pairwise fun a b => val a.1 < val b.1 := by
  by_cases hne : rawTable cls lines i = []
  · unfold userTable applyUser applyWith; rw [hne]; simp [windowify_nil, normalizeTable, UserParams.full]
  obtain ⟨hb, hr⟩ := rawTable_base hfin i hne
  have hex : ∀ r ∈ rawTable cls lines i, val (sub r.1 (populate cls 0 lines).basetime) =
      val r.1 - val (populate cls 0 lines).basetime := by
    intro r hr'
    have h1 := hr r hr'
    have h2 := hsmall r hr'
    have hp : (0 : ℚ) < 2 ^ 1074 := by positivity
    have h3 : uval r.1 ≤ 2 * uval (populate cls 0 lines).basetime := by
      unfold val at h2
      rw [← mul_div_assoc, div_le_div_iff_of_pos_right hp] at h2
      exact_mod_cast h2
    have := sub_exact (by omega) h1.1 h3
    unfold val
    rw [this, Nat.cast_sub (uval_le_of_le h1.1), sub_div]
  have := full_table cls lines i hfin
  unfold userTable applyUser applyWith UserParams.full
  simp only [if_true]
  rw [this true]
  unfold normalizeTable
  rw [if_neg hb, List.pairwise_map, List.map_map]
  refine ⟨List.map_congr_left hex, ?_⟩
  refine List.Pairwise.imp_of_mem ?_ (rawTable_sorted hfin i)
  intro a b ha hb' hab
  simp only
  rw [hex a ha, hex b hb']
  exact sub_lt_sub_right hab _

example : ((rawTable exWinCls exCollide 0).map Prod.fst) = [ofRat 11 10, ofRat 7 1, ofRat 7 1 + 1] ∧
    (∀ r ∈ rawTable exWinCls exWin 0, uval r.1 ≤ 2 * uval (populate exWinCls 0 exWin).basetime) ∧
    ((rawTable exWinCls exWin 0).Pairwise fun a b => a.1 + 1 < b.1) := by decide +kernel

/-! ## C25 -/

theorem foldl_max_le (a : Nat) (l : List Nat) : a ≤ l.foldl max a ∧ (∀ x ∈ l, x ≤ l.foldl max a) ∧
    (l.foldl max a = a ∨ l.foldl max a ∈ l) := by
  induction l generalizing a with
  | nil => simp
  | cons y l ih =>
    obtain ⟨h1, h2, h3⟩ := ih (max a y)
    simp only [List.foldl_cons, List.mem_cons]
    refine ⟨by omega, ?_, ?_⟩
    · rintro x (rfl | hx)
      · omega
      · exact h2 x hx
    · rcases h3 with h3 | h3
      · rw [h3]; omega
      · exact Or.inr (Or.inr h3)

theorem foldl_min_le (a : Nat) (l : List Nat) : l.foldl min a ≤ a ∧ (∀ x ∈ l, l.foldl min a ≤ x) ∧
    (l.foldl min a = a ∨ l.foldl min a ∈ l) := by
  induction l generalizing a with
  | nil => simp
  | cons y l ih =>
    obtain ⟨h1, h2, h3⟩ := ih (min a y)
    simp only [List.foldl_cons, List.mem_cons]
    refine ⟨by omega, ?_, ?_⟩
    · rintro x (rfl | hx)
      · omega
      · exact h2 x hx
    · rcases h3 with h3 | h3
      · rw [h3]; omega
      · exact Or.inr (Or.inr h3)

/-- **C25**: with tables in time order and at least one row, the duration is the binary64 number nearest to the
difference of the latest and the earliest time of all rows; without rows it is 0. -/
theorem C25_duration (ts : List (Table α)) (hsort : ∀ t ∈ ts, t.Pairwise fun a b => val a.1 ≤ val b.1)
    (hfin : ∀ t ∈ ts, ∀ r ∈ t, r.1 < inf) :
    ((∀ t ∈ ts, t = []) → getDuration ts = 0) ∧
    ((∃ t ∈ ts, t ≠ []) → ∃ first last : Nat,
      (∃ t ∈ ts, ∃ r ∈ t, r.1 = first) ∧ (∃ t ∈ ts, ∃ r ∈ t, r.1 = last) ∧
      (∀ t ∈ ts, ∀ r ∈ t, val first ≤ val r.1 ∧ val r.1 ≤ val last) ∧
      NearestEven (val last - val first) (getDuration ts)) ∧
    ∀ t ∈ ts, ∀ a ∈ t, ∀ b ∈ t, ∀ d, NearestEven (val b.1 - val a.1) d → val a.1 ≤ val b.1 → val d ≤ val (getDuration ts) := by
  have hdur : (∃ t ∈ ts, t ≠ []) → ∃ first last : Nat,
      (∃ t ∈ ts, ∃ r ∈ t, r.1 = first) ∧ (∃ t ∈ ts, ∃ r ∈ t, r.1 = last) ∧
      (∀ t ∈ ts, ∀ r ∈ t, first ≤ r.1 ∧ r.1 ≤ last) ∧ getDuration ts = sub last first := by
    rintro ⟨t0, ht0, hne0⟩
    have hl : ∀ x, x ∈ (ts.filterMap fun t => t.getLast?.map Prod.fst) ↔ ∃ t ∈ ts, ∃ r, t.getLast? = some r ∧ r.1 = x := by
      intro x; simp [List.mem_filterMap]
    have hf : ∀ x, x ∈ (ts.filterMap fun t => t.head?.map Prod.fst) ↔ ∃ t ∈ ts, ∃ r, t.head? = some r ∧ r.1 = x := by
      intro x; simp [List.mem_filterMap]
    unfold getDuration
    generalize (ts.filterMap fun t => t.getLast?.map Prod.fst) = L at hl
    generalize (ts.filterMap fun t => t.head?.map Prod.fst) = Fs at hf
    have hL : L ≠ [] := by
      obtain ⟨r, hr⟩ : ∃ r, t0.getLast? = some r := ⟨_, List.getLast?_eq_some_getLast hne0⟩
      exact List.ne_nil_of_mem ((hl r.1).mpr ⟨t0, ht0, r, hr, rfl⟩)
    have hF : Fs ≠ [] := by
      obtain ⟨r, hr⟩ := Option.isSome_iff_exists.mp (List.isSome_head?.mpr hne0)
      exact List.ne_nil_of_mem ((hf r.1).mpr ⟨t0, ht0, r, hr, rfl⟩)
    obtain ⟨l, ls, rfl⟩ := List.exists_cons_of_ne_nil hL
    obtain ⟨f, fs, rfl⟩ := List.exists_cons_of_ne_nil hF
    obtain ⟨a1, a2, a3⟩ := foldl_max_le l ls
    obtain ⟨b1, b2, b3⟩ := foldl_min_le f fs
    refine ⟨fs.foldl min f, ls.foldl max l, ?_, ?_, ?_, rfl⟩
    · have : fs.foldl min f ∈ f :: fs := by rcases b3 with h | h <;> simp [h]
      obtain ⟨t, ht, r, hr, he⟩ := (hf _).mp this
      exact ⟨t, ht, r, List.mem_of_mem_head? hr, he⟩
    · have : ls.foldl max l ∈ l :: ls := by rcases a3 with h | h <;> simp [h]
      obtain ⟨t, ht, r, hr, he⟩ := (hl _).mp this
      exact ⟨t, ht, r, List.mem_of_mem_getLast? hr, he⟩
    · intro t ht r hr
      have hs := hsort t ht
      constructor
      · cases t with
        | nil => simp at hr
        | cons x t =>
          have hx : fs.foldl min f ≤ x.1 := by
            rcases List.mem_cons.mp ((hf x.1).mpr ⟨_, ht, x, rfl, rfl⟩) with h | h
            · omega
            · exact b2 _ h
          rcases List.mem_cons.mp hr with rfl | hr
          · exact hx
          · have := val_le_iff.mp ((List.pairwise_cons.mp hs).1 r hr); omega
      · obtain ⟨y, hy⟩ : ∃ y, t.getLast? = some y := ⟨_, List.getLast?_eq_some_getLast (List.ne_nil_of_mem hr)⟩
        obtain ⟨t', rfl⟩ := List.getLast?_eq_some_iff.mp hy
        have hx : y.1 ≤ ls.foldl max l := by
          rcases List.mem_cons.mp ((hl y.1).mpr ⟨_, ht, y, hy, rfl⟩) with h | h
          · omega
          · exact a2 _ h
        rcases List.mem_append.mp hr with hr | hr
        · have := val_le_iff.mp ((List.pairwise_append.mp hs).2.2 r hr y (by simp)); omega
        · simp at hr; subst hr; exact hx
  refine ⟨?_, ?_, ?_⟩
  · intro h
    have : (ts.filterMap fun t => t.getLast?.map Prod.fst) = [] := by
      rw [List.filterMap_eq_nil_iff]
      intro t ht; rw [h t ht]; rfl
    unfold getDuration
    rw [this]
  · intro h
    obtain ⟨first, last, h1, h2, h3, h4⟩ := hdur h
    refine ⟨first, last, h1, h2, fun t ht r hr => ?_, ?_⟩
    · rw [val_le_iff, val_le_iff]; exact h3 t ht r hr
    · rw [h4]
      obtain ⟨t, ht, r, hr, rfl⟩ := h2
      have hi := hfin t ht r hr
      exact sub_nearestEven (h3 t ht r hr).1 (lt_of_le_of_lt (sub_le hi.le) hi)
  · intro t ht a ha b hb d hd hab
    obtain ⟨first, last, h1, h2, h3, h4⟩ := hdur ⟨t, ht, List.ne_nil_of_mem ha⟩
    have hi := hfin t ht b hb
    have := sub_nearestEven (val_le_iff.mp hab) (lt_of_le_of_lt (sub_le (b := a.1) hi.le) hi)
    rw [hd.unique this, h4, val_le_iff]
    exact le_trans (sub_mono (h3 t ht b hb).2) (sub_anti (h3 t ht a ha).1)

example : getDuration [[(ofRat 1 1, 'a'), (ofRat 3 1, 'b')], [], [(ofRat 2 1, 'c'), (ofRat 9 2, 'd')]] = ofRat 7 2 ∧
    getDuration ([[], []] : List (Table Char)) = 0 := by decide +kernel

end Trappy
