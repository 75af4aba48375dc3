import Verif.Prop.Window
import Verif.Prop.Layout
import Verif.Prop.Wa2
import Verif.Prop.Merge
import Verif.Prop.Array
/-!
# C18, C21, C70, C103, C113: exactly when they hold
-/

namespace Trappy
open Py F64

/-! ## C21 -/

/-- **C21 (exactly).** If both windows have an end, the rows kept are those after both beginnings and before the later end. For all traces. -/
theorem C21_ends (cls : List Cls) (lines : List Str) (w aw : Win) (i : Nat) (h h' : Nat) (hw : w.hi = some h) (haw : aw.hi = some h') (h0 : h' ≠ 0)
    (hfin : (populate cls 0 lines).endtime < inf) (r : Nat × Rec) :
    r ∈ userTable cls { normalize := false, window := w, absWindow := aw } lines i ↔
      r ∈ rawTable cls lines i ∧ val aw.lo ≤ val r.1 ∧ val (add w.lo (populate cls 0 lines).basetime) ≤ val r.1 ∧
        (val r.1 ≤ val (add h (populate cls 0 lines).basetime) ∨ val r.1 ≤ val h') := by
  by_cases hne : rawTable cls lines i = []
  · unfold userTable applyUser applyWith; rw [hne]; simp [windowify_nil]
  · obtain ⟨hb, hall⟩ := rawTable_base hfin i hne
    unfold userTable applyUser applyWith maxWindow
    simp only [hb, if_false, Bool.false_eq_true]
    have hend : (calcMaxWindow (populate cls 0 lines).basetime w aw).hi ≠ some 0 := by
      unfold calcMaxWindow
      rw [hw, haw]
      simp
      omega
    rw [(C20_window_exact_partial _ hend _).2 ((rawTable_sorted hfin i).imp fun h => h.le)]
    simp only [within_eq, List.mem_filter, decide_eq_true_eq, val_le_iff]
    unfold calcMaxWindow
    rw [hw, haw]
    simp only [Option.mem_def, Option.some.injEq, forall_eq', sup_le_iff, le_sup_iff]
    exact ⟨fun ⟨a, ⟨b, c⟩, d⟩ => ⟨a, c, b, d⟩, fun ⟨a, c, b, d⟩ => ⟨a, ⟨b, c⟩, d⟩⟩

/-- **C21 (exactly when).** If both windows have an end, exactly the rows in both are kept if and only if no row after both beginnings is between the two ends. -/
theorem C21_exact_partial (cls : List Cls) (lines : List Str) (w aw : Win) (i : Nat) (h h' : Nat) (hw : w.hi = some h) (haw : aw.hi = some h') (h0 : h' ≠ 0)
    (hfin : (populate cls 0 lines).endtime < inf) :
    (∀ r, r ∈ userTable cls { normalize := false, window := w, absWindow := aw } lines i ↔
      r ∈ rawTable cls lines i ∧ (val (add w.lo (populate cls 0 lines).basetime) ≤ val r.1 ∧ val r.1 ≤ val (add h (populate cls 0 lines).basetime)) ∧ val aw.lo ≤ val r.1 ∧ val r.1 ≤ val h') ↔
    ∀ r ∈ rawTable cls lines i, val aw.lo ≤ val r.1 → val (add w.lo (populate cls 0 lines).basetime) ≤ val r.1 →
      (val r.1 ≤ val (add h (populate cls 0 lines).basetime) ↔ val r.1 ≤ val h') := by
  constructor
  · intro hx r hr h1 h2
    have := (hx r).symm.trans (C21_ends cls lines w aw i h h' hw haw h0 hfin r)
    constructor
    · intro h3
      exact (this.2 ⟨hr, h1, h2, Or.inl h3⟩).2.2.2
    · intro h3
      exact (this.2 ⟨hr, h1, h2, Or.inr h3⟩).2.1.2
  · intro hx r
    rw [C21_ends cls lines w aw i h h' hw haw h0 hfin r]
    constructor
    · rintro ⟨hr, h1, h2, h3 | h3⟩
      · exact ⟨hr, ⟨h2, h3⟩, h1, (hx r hr h1 h2).1 h3⟩
      · exact ⟨hr, ⟨h2, (hx r hr h1 h2).2 h3⟩, h1, h3⟩
    · rintro ⟨hr, ⟨h2, h3⟩, h1, _⟩
      exact ⟨hr, h1, h2, Or.inl h3⟩

/-- C21: a row between the ends is kept although it is not in both windows; none is there in the second case -/
example : ((userTable exWinCls { normalize := false, window := ⟨0, some (ofRat 1 8)⟩, absWindow := ⟨0, some (ofRat 1000 1)⟩ } exWin 0).map Prod.fst).length = ((rawTable exWinCls exWin 0).map Prod.fst).length ∧
    (userTable exWinCls { normalize := false, window := ⟨0, some (ofRat 500 1)⟩, absWindow := ⟨0, some (ofRat 1000 1)⟩ } exWin 0).map Prod.fst = (rawTable exWinCls exWin 0).map Prod.fst := by decide +kernel

/-! ## C18 -/

/-- **C18 (exactly).** All arrays of all payloads are exploded exactly if the first payload has an array, or none has. -/
theorem C18_exact_partial (p : ArrPayload) (ps : List ArrPayload) (h : ∀ q ∈ p :: ps, q.WF)
    (hw : ∀ q ∈ p :: ps, ∀ x ∈ q.tail, ∀ c ∈ x.1.name, Py.isWord c = true) (fuel : Nat) (hf : ∀ q ∈ p :: ps, q.tail.length < fuel) :
    (∃ out, explodeTable fuel ((p :: ps).map (·.textWith Arr.text)) = some (some out) ∧ out.length = ps.length + 1 ∧ ∀ t ∈ out, '{' ∉ t ∧ '}' ∉ t) ↔
      p.tail ≠ [] ∨ ∀ q ∈ ps, q.tail = [] := by
  by_cases hp : p.tail = []
  · have hs : Re.search patArray (p.textWith Arr.text) = none := by
      have := search_patArray_isNone p (h p List.mem_cons_self) (hw p List.mem_cons_self)
      rw [hp] at this
      simpa using this
    rw [List.map_cons, C18_no_array_first _ _ fuel hs]
    simp only [hp, ne_eq, not_true_eq_false, false_or]
    constructor
    · rintro ⟨out, e, _, hout⟩ q hq
      simp only [Option.some.injEq] at e
      subst e
      cases ht : q.tail with
      | nil => rfl
      | cons x rest =>
        exfalso
        refine (hout (q.textWith Arr.text) (List.mem_cons_of_mem _ (List.mem_map.2 ⟨q, hq, rfl⟩))).1 ?_
        unfold ArrPayload.textWith
        rw [ht]
        simp [Arr.text]
    · intro hall
      refine ⟨_, rfl, by simp, ?_⟩
      intro t ht
      have hno : ∀ q ∈ p :: ps, q.tail = [] := by
        intro q hq
        rcases List.mem_cons.1 hq with rfl | hq
        · exact hp
        · exact hall q hq
      obtain ⟨q, hq, rfl⟩ : ∃ q ∈ p :: ps, q.textWith Arr.text = t := by
        rw [← List.map_cons (f := fun q => ArrPayload.textWith Arr.text q)] at ht
        exact List.mem_map.1 ht
      have hl := (h q hq).lead
      rw [if_pos (hno q hq)] at hl
      have e : q.textWith Arr.text = q.lead := by
        unfold ArrPayload.textWith
        rw [hno q hq]
        simp
      rw [e]
      exact ⟨fun hc => (hl _ hc).1 rfl, fun hc => (hl _ hc).2 rfl⟩
  · exact ⟨fun _ => Or.inl hp, fun _ => C18_all_exploded_partial p ps h hw hp fuel hf⟩

/-! ## C70 -/

/-- **C70 (exactly).** If all series exist, each is drawn on the axis of its pivot value exactly if there is at most one constraint, the pivot values fit in one line, or there is one plot per line. -/
theorem C70_exact_partial {perLine : Nat} (hl : 0 < perLine) {cs : List SConstraint} {pivots : List Val} (hp : pivots ≠ []) (hk : ∀ x ∈ cs, ∀ p ∈ pivots, p ∈ x.keys) :
    staticPlot perLine false cs pivots = .ok (pivotBlocks (min perLine pivots.length) pivots 0 cs) ↔ cs.length ≤ 1 ∨ pivots.length ≤ perLine ∨ perLine = 1 := by
  constructor
  · intro h
    by_cases h1 : cs.length ≤ 1
    · exact Or.inl h1
    · by_cases h2 : pivots.length ≤ perLine
      · exact Or.inr (Or.inl h2)
      · by_cases h3 : perLine = 1
        · exact Or.inr (Or.inr h3)
        · rw [C70_crash_refuted (by omega) (by omega) (by omega) hk] at h
          cases h
  · exact C70_axis_partial hl hp hk

/-! ## C103 -/

/-- **C103 (exactly).** For each name there is one curve: that of the last actor with this name. For all tables and weights. -/
theorem C103_last {columns req : List (Str × List Int)} {weights : List (Str × Int)} (hreq : ReqColumns columns req) :
    (∀ a ys, (weightedPower columns weights).get a = some ys ↔
      ∃ (i : Nat) (c : Str) (xs : List Int) (w : Int), req[i]? = some (c, xs) ∧ weights[i]? = some (a, w) ∧ ys = xs.map (fun (x : Int) => (x : Rat) * w / 1024) ∧
        ∀ j > i, j < req.length → ∀ w', weights[j]? ≠ some (a, w')) := by
  have key : ∀ (l : List ((Str × List Int) × (Str × Int))) (a : Str) (ys : List Rat),
      Dict.get (l.foldl (fun (d : Dict (List Rat)) (e : (Str × List Int) × (Str × Int)) => d.set e.2.1 (e.1.2.map fun (x : Int) => (x : Rat) * (e.2.2 : Rat) / 1024)) []) a = some ys ↔
      ∃ (i : Nat) (e : (Str × List Int) × (Str × Int)), l[i]? = some e ∧ e.2.1 = a ∧ ys = e.1.2.map (fun (x : Int) => (x : Rat) * (e.2.2 : Rat) / 1024) ∧ ∀ j > i, ∀ e', l[j]? = some e' → e'.2.1 ≠ a := by
    intro l
    induction l using List.reverseRecOn with
    | nil => simp [Dict.get]
    | append_singleton l e ih =>
      intro a ys
      rw [List.foldl_append, List.foldl_cons, List.foldl_nil, Dict.get_set]
      by_cases ha : e.2.1 = a
      · rw [if_pos ha]
        constructor
        · intro h
          refine ⟨l.length, e, by simp, ha, (Option.some.inj h).symm, ?_⟩
          intro j hj e' he'
          have := (List.getElem?_eq_some_iff.1 he').1
          simp at this
          omega
        · rintro ⟨i, e', h1, h2, h3, h4⟩
          by_cases hi : i = l.length
          · subst hi
            simp at h1
            subst h1
            rw [h3]
          · exfalso
            have := (List.getElem?_eq_some_iff.1 h1).1
            simp at this
            exact h4 l.length (by omega) e (by simp) ha
      · rw [if_neg ha, ih]
        constructor
        · rintro ⟨i, e', h1, h2, h3, h4⟩
          have hil := (List.getElem?_eq_some_iff.1 h1).1
          refine ⟨i, e', by rw [List.getElem?_append_left hil]; exact h1, h2, h3, ?_⟩
          intro j hj e'' he''
          by_cases hjl : j < l.length
          · rw [List.getElem?_append_left hjl] at he''
            exact h4 j hj e'' he''
          · have := (List.getElem?_eq_some_iff.1 he'').1
            simp at this
            have hj' : j = l.length := by omega
            subst hj'
            simp at he''
            rw [← he'']
            exact ha
        · rintro ⟨i, e', h1, h2, h3, h4⟩
          by_cases hi : i < l.length
          · rw [List.getElem?_append_left hi] at h1
            refine ⟨i, e', h1, h2, h3, ?_⟩
            intro j hj e'' he''
            have hjl := (List.getElem?_eq_some_iff.1 he'').1
            exact h4 j hj e'' (by rw [List.getElem?_append_left hjl]; exact he'')
          · exfalso
            have := (List.getElem?_eq_some_iff.1 h1).1
            simp at this
            have hj' : i = l.length := by omega
            subst hj'
            simp at h1
            rw [← h1] at h2
            exact ha h2
  intro a ys
  unfold weightedPower
  rw [reqColumns_filter columns req hreq, key]
  constructor
  · rintro ⟨i, ⟨⟨c, xs⟩, ⟨a', w⟩⟩, h1, h2, h3, h4⟩
    simp only at h2 h3
    subst h2
    obtain ⟨g1, g2⟩ := List.getElem?_zip_eq_some.1 h1
    refine ⟨i, c, xs, w, g1, g2, h3, ?_⟩
    intro j hj hjl w' hw'
    exact h4 j hj (req[j], (a', w')) (List.getElem?_zip_eq_some.2 ⟨by simp [hjl], hw'⟩) rfl
  · rintro ⟨i, c, xs, w, g1, g2, h3, h4⟩
    refine ⟨i, ((c, xs), (a, w)), List.getElem?_zip_eq_some.2 ⟨g1, g2⟩, rfl, h3, ?_⟩
    rintro j hj ⟨e1, ⟨a', w'⟩⟩ he ha
    simp only at ha
    subst ha
    obtain ⟨k1, k2⟩ := List.getElem?_zip_eq_some.1 he
    exact h4 j hj (List.getElem?_eq_some_iff.1 k1).1 w' k2

/-- C103: three actors, two of one name -/
example : weightedPower [(cs!"req_power0", [1024]), (cs!"x", [5]), (cs!"req_power1", [2048]), (cs!"req_power2", [512])] [(cs!"cpu", 1024), (cs!"gpu", 512), (cs!"cpu", 2048)] = [(cs!"cpu", [1024]), (cs!"gpu", [1024])] := by decide +kernel

/-! ## C113 -/

/-- **C113 (exactly).** The value at a time between two neighbouring samples is on the straight line through them exactly if both samples have the same value, or the time divides the interval
between theirs as its place among the merged times does. For all series that can be merged to strictly increasing times. -/
theorem C113_exact_partial (style : Option Str) (hst : NoSteps style) (d : Dict LineSeries)
    (index : List Rat) (cols : Dict (List (Option Rat))) (he : fixIndexes style d = .ok (index, cols)) (hsort : index.Pairwise (· < ·))
    (i : Nat) (l : Str) (s : LineSeries) (c : List (Option Rat)) (hi : d[i]? = some (l, s)) (hc : cols[i]? = some (l, c))
    (u a v b t : Rat) (hn : Neighbours (spread s) u a v b) (j m k : Nat) (hj : index[j]? = some t) (hm : index[m]? = some u) (hk : index[k]? = some v) (hu : u ≤ t) (hv : t ≤ v) :
    c[j]? = some (some (a + (b - a) * ((t - u) / (v - u)))) ↔ a = b ∨ ((j : Rat) - m) * (v - u) = ((k : Rat) - m) * (t - u) := by
  obtain ⟨m', k', hm', hk', hmk, hmj, hjk, e⟩ := line_positions hst he hsort hi hc hn hj hu hv
  obtain rfl : m = m' := by
    have h1 := (sorted_get hsort hm hm').2.mpr (le_refl u)
    have h2 := (sorted_get hsort hm' hm).2.mpr (le_refl u)
    omega
  obtain rfl : k = k' := by
    have h1 := (sorted_get hsort hk hk').2.mpr (le_refl v)
    have h2 := (sorted_get hsort hk' hk).2.mpr (le_refl v)
    omega
  rw [e, Option.some.injEq, Option.some.injEq, Nat.cast_sub hmj, Nat.cast_sub (le_of_lt hmk)]
  have hne : v - u ≠ 0 := ne_of_gt (sub_pos.mpr hn.lt)
  have hkm : (k : Rat) - m ≠ 0 := by
    have : (m : Rat) < k := by exact_mod_cast hmk
    exact ne_of_gt (sub_pos.mpr this)
  rw [mul_div_assoc, add_right_inj, mul_eq_mul_left_iff, div_eq_div_iff hkm hne, sub_eq_zero]
  constructor
  · rintro (h | h)
    · exact Or.inr (by rw [h]; ring)
    · exact Or.inl h.symm
  · rintro (h | h)
    · exact Or.inr h.symm
    · exact Or.inl (by rw [h]; ring)

end Trappy
