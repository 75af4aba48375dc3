import Verif.Prop.Wa2
import Verif.Prop.Merge
import Verif.Prop.EventPlotJs
/-!
# C104, C106, C114, C129, C130: exactly when they hold
-/

namespace Trappy

/-! ## C104 -/

/-- **C104 (exactly).** With only a width, the height of each row follows the golden ratio exactly if the width divided by it is a whole number; else it is too small. -/
theorem C104_exact (w : Rat) (nrows : Nat) : ∃ y : Rat, figureSize (some w) none nrows = (w, y * nrows) ∧
    (y * goldenRatio = w ↔ ∃ k : Int, w = k * goldenRatio) ∧ (y * goldenRatio ≠ w → y * goldenRatio < w) := by
  have hg : (0 : Rat) < goldenRatio := by decide +kernel
  refine ⟨((w / goldenRatio).floor : Rat), rfl, ⟨fun h => ⟨_, h.symm⟩, ?_⟩, fun h => lt_of_le_of_ne ?_ h⟩
  · rintro ⟨k, rfl⟩
    have : (k : Rat) * goldenRatio / goldenRatio = k := by field_simp
    rw [this]
    have : (k : Rat).floor = k := by simp
    rw [this]
  · rw [← le_div_iff₀ hg]
    exact Int.floor_le _

/-- C104: a width of 1618034 / 500000 has a height of 2 -/
example : figureSize (some (1618034 / 500000)) none 1 = (1618034 / 500000, 2) := by decide +kernel

/-! ## C106 -/

/-- **C106 (refuted).** The title of every histogram of input frequencies says that they are output frequencies. For all frequencies and axes. -/
theorem C106_titles_refuted {out inp : List (Str × List Int)} {ax : List Nat} (h1 : out.length ≤ ax.length / 2) (h2 : inp.length ≤ ax.length / 2)
    (i : Nat) (a : Str) (xs : List Int) (h : inp[i]? = some (a, xs)) :
    ∃ x, ax[ax.length / 2 + i]? = some x ∧ (freqHists out inp ax)[out.length + i]? = some ⟨x, cs!"freq out " ++ a, xs⟩ := by
  have ho : (freqHistsOf cs!"out" (ax.take (ax.length / 2)) out).length = out.length := by
    unfold freqHistsOf
    simp
    omega
  have hlt : i < inp.length := (List.getElem?_eq_some_iff.1 h).1
  have hax : ax.length / 2 + i < ax.length := by omega
  refine ⟨ax[ax.length / 2 + i], by simp [hax], ?_⟩
  simp only [freqHists]
  rw [List.getElem?_append_right (by omega), ho, Nat.add_sub_cancel_left]
  unfold freqHistsOf
  rw [List.getElem?_map, (List.getElem?_zip_eq_some (z := (ax[ax.length / 2 + i], (a, xs)))).2 ⟨?_, h⟩]
  · rfl
  · rw [List.getElem?_drop]
    simp [hax]

/-- C106: the second of two input histograms -/
example : (freqHists [(cs!"A7", [1000])] [(cs!"A7", [900]), (cs!"A15", [800])] [0, 1, 2, 3])[2]? = some ⟨3, cs!"freq out A15", [800]⟩ := by decide +kernel

/-! ## C114 -/

/-- the lines of the pivots with data -/
def pivotLinesOf {σ : Type} (key : Val → Str) (result : List (Val × σ)) (ps : List Val) : List (Str × σ) :=
  ps.filterMap fun p => (result.lookup p).map fun s => (key p, s)

theorem concatData_some {σ : Type} (key : Val → Str) (result : List (Val × σ)) (ps : List Val) : ∀ d : Dict σ,
    ((pivotLinesOf key result ps).map Prod.fst).Nodup → (∀ k ∈ (pivotLinesOf key result ps).map Prod.fst, k ∉ d.map Prod.fst) → concatData key result ps d = d ++ pivotLinesOf key result ps := by
  induction ps with
  | nil => intro d _ _; simp [concatData, pivotLinesOf]
  | cons p ps ih =>
    intro d hn hd
    unfold concatData
    cases h : result.lookup p with
    | none =>
      have e : pivotLinesOf key result (p :: ps) = pivotLinesOf key result ps := by simp [pivotLinesOf, h]
      rw [e] at hn hd ⊢
      exact ih d hn hd
    | some s =>
      have e : pivotLinesOf key result (p :: ps) = (key p, s) :: pivotLinesOf key result ps := by simp [pivotLinesOf, h]
      rw [e] at hn hd ⊢
      rw [List.map_cons, List.nodup_cons] at hn
      have e' : d.set (key p) s = d ++ [(key p, s)] := Dict.set_new d _ _ (hd _ (by simp))
      simp only
      rw [e', ih _ hn.2]
      · simp
      · intro k hk
        rw [List.map_append, List.mem_append, not_or]
        refine ⟨hd k (by rw [List.map_cons]; exact List.mem_cons_of_mem _ hk), ?_⟩
        simp only [List.map_cons, List.map_nil, List.mem_singleton]
        intro h'
        exact hn.1 (h' ▸ hk)

theorem concatData_nodup {σ : Type} (key : Val → Str) (result : List (Val × σ)) (ps : List Val) : ∀ d : Dict σ, (d.map Prod.fst).Nodup → ((concatData key result ps d).map Prod.fst).Nodup := by
  induction ps with
  | nil => intro d h; exact h
  | cons p ps ih =>
    intro d h
    unfold concatData
    cases result.lookup p with
    | none => exact ih d h
    | some s => exact ih _ (Dict.nodup_set h _ _)

/-- **C114 (exactly).** The plot of a constraint has a line for each pivot that it has data for, in their order and with this data, exactly if the labels of these pivots are different. -/
theorem C114_exact {σ : Type} (column : ColumnArg) (pivotName : Str) (labels : List (Val × Str)) (result : List (Val × σ)) (pivots : List Val) :
    (concatData (concatKey column pivotName labels) result pivots [] = pivots.filterMap fun p => (result.lookup p).map fun s => (concatKey column pivotName labels p, s)) ↔
      ((pivots.filter fun p => (result.lookup p).isSome).map (concatKey column pivotName labels)).Nodup := by
  have e : ((pivots.filter fun p => (result.lookup p).isSome).map (concatKey column pivotName labels)) = (pivotLinesOf (concatKey column pivotName labels) result pivots).map Prod.fst := by
    induction pivots with
    | nil => rfl
    | cons p ps ih =>
      unfold pivotLinesOf at ih ⊢
      cases h : result.lookup p with
      | none => simp [h, ih]
      | some s => simp [h, ih]
  rw [e]
  constructor
  · intro h
    have := concatData_nodup (concatKey column pivotName labels) result pivots [] (by simp)
    rw [h] at this
    exact this
  · intro h
    rw [concatData_some _ _ _ _ h (by simp)]
    rfl

/-- C114: two pivots with the same label, of which one has no data -/
example : concatData (concatKey (.list [cs!"load"]) cs!"cpu" [(.int 0, cs!"big"), (.int 1, cs!"big")]) [(.int 1, 7)] [.int 0, .int 1] [] = [(cs!"cpu: big", 7)] := by decide +kernel

/-! ## C129 -/

/-- **C129 (exactly).** If the user gives different colours, a name with a colour is drawn in it exactly if its position, modulo the number of names with colours, is the number of names with colours before it. -/
theorem C129_exact (pre post : List Str) (name : Str) (m : Dict Str) (c : Str) (hn : name ∉ pre) (hc : m.get name = some c)
    (hd : ((pre ++ name :: post).filterMap fun n => m.get n).Nodup) :
    colourOf (pre ++ name :: post) (userColours (pre ++ name :: post) m) name = some c ↔
      pre.length % ((pre ++ name :: post).filter fun n => (m.get n).isSome).length = (pre.filter fun n => (m.get n).isSome).length := by
  have hlen : ∀ l : List Str, (userColours l m).length = (l.filter fun n => (m.get n).isSome).length := by
    intro l
    induction l with
    | nil => rfl
    | cons x l ih =>
      unfold userColours at ih ⊢
      cases h : m.get x with
      | none => simp [h, ih]
      | some s => simp [h, ih]
  have hu : userColours (pre ++ name :: post) m = userColours pre m ++ c :: userColours post m := by
    rw [userColours_append]
    congr 1
    simp [userColours, hc]
  have hr : (userColours (pre ++ name :: post) m)[(userColours pre m).length]? = some c := by
    rw [hu, List.getElem?_append_right (Nat.le_refl _)]
    simp
  rw [← hlen, ← hlen]
  have hpos : 0 < (userColours (pre ++ name :: post) m).length := by rw [hu]; simp
  unfold colourOf
  rw [List.idxOf_append_of_notMem hn, List.idxOf_cons_self, Nat.add_zero]
  constructor
  · intro h
    have h' := h.trans hr.symm
    exact (List.getElem?_inj (Nat.mod_lt _ hpos) hd).1 h'
  · intro h
    rw [h]
    exact hr

/-- C129: the only colour is that of the second name, and both are drawn in it -/
example : colourOf [cs!"a", cs!"b"] (userColours [cs!"a", cs!"b"] [(cs!"b", cs!"#f00")]) cs!"b" = some cs!"#f00" ∧
    colourOf [cs!"a", cs!"b"] (userColours [cs!"a", cs!"b"] [(cs!"b", cs!"#f00")]) cs!"a" = some cs!"#f00" := by decide +kernel

/-- **C129 (refuted).** A name without a colour is drawn in the colour of another name, if any has one; and in none (black) otherwise. For all names and colours. -/
theorem C129_none_refuted (names : List Str) (m : Dict Str) (name : Str) (hc : m.get name = none) :
    ((∃ n ∈ names, (m.get n).isSome) → ∃ n ∈ names, n ≠ name ∧ ∃ c, m.get n = some c ∧ colourOf names (userColours names m) name = some c) ∧
    ((∀ n ∈ names, m.get n = none) → colourOf names (userColours names m) name = none) := by
  constructor
  · rintro ⟨n, hn, h⟩
    obtain ⟨c, hc'⟩ := Option.isSome_iff_exists.1 h
    have hpos : 0 < (userColours names m).length := List.length_pos_of_mem (List.mem_filterMap.2 ⟨n, hn, hc'⟩)
    have hlt : names.idxOf name % (userColours names m).length < (userColours names m).length := Nat.mod_lt _ hpos
    obtain ⟨n', hn', he⟩ := List.mem_filterMap.1 (List.getElem_mem hlt)
    refine ⟨n', hn', ?_, _, he, by unfold colourOf; rw [List.getElem?_eq_getElem hlt]⟩
    rintro rfl
    rw [hc] at he
    cases he
  · intro h
    have : userColours names m = [] := List.filterMap_eq_nil_iff.2 h
    rw [this]
    simp [colourOf]

/-- C129: `a` is drawn in the colour of `b` -/
example : colourOf [cs!"a", cs!"b", cs!"c"] (userColours [cs!"a", cs!"b", cs!"c"] [(cs!"b", cs!"#f00"), (cs!"c", cs!"#0f0")]) cs!"a" = some cs!"#f00" := by decide +kernel

/-! ## C130 -/

/-- **C130 (exactly).** The brush shows the window that is marked exactly if this is not narrower than a 4096th of the range. -/
theorem C130_exact (s : LinScale) (u v : Rat) (hw : 0 < s.w) (hau : s.a ≤ u) (huv : u < v) (hvb : v ≤ s.b) :
    zoomDomain s (brushed s u v) = (u, v) ↔ s.b - s.a ≤ 4096 * (v - u) := by
  refine ⟨fun h => ?_, C130_brush_partial s u v hw hau huv hvb⟩
  by_contra hlt
  rw [not_le] at hlt
  have hwne : s.w ≠ 0 := ne_of_gt hw
  have hba : 0 < s.b - s.a := by linarith
  have hbane : s.b - s.a ≠ 0 := ne_of_gt hba
  have hd : 0 < v - u := sub_pos.2 huv
  have hscale : s.w / s.app (s.a + v - u) = (s.b - s.a) / (v - u) := by
    unfold LinScale.app
    have : s.a + v - u - s.a = v - u := by ring
    rw [this]
    field_simp
  have hc : clampScale ((s.b - s.a) / (v - u)) = 4096 := by
    unfold clampScale
    have h1 : 4096 ≤ (s.b - s.a) / (v - u) := by rw [le_div_iff₀ hd]; exact le_of_lt hlt
    rw [min_eq_left h1]
    norm_num
  unfold brushed zoomDomain at h
  simp only [hscale, hc, Prod.mk.injEq] at h
  have hs := invert_sub s ((0 - (0 - s.app u * ((s.b - s.a) / (v - u)))) / 4096) ((s.w - (0 - s.app u * ((s.b - s.a) / (v - u)))) / 4096)
  rw [h.1, h.2] at hs
  have : (s.w - (0 - s.app u * ((s.b - s.a) / (v - u)))) / 4096 - (0 - (0 - s.app u * ((s.b - s.a) / (v - u)))) / 4096 = s.w / 4096 := by ring
  rw [this] at hs
  have : s.w / 4096 / s.w * (s.b - s.a) = (s.b - s.a) / 4096 := by field_simp
  rw [this] at hs
  linarith

/-- **C130 (refuted).** A narrower brush shows a 4096th of the range, further to the right the narrower it is: by the ratio of the two widths. For all ranges and brushes. -/
theorem C130_moved_refuted (s : LinScale) (u v : Rat) (hw : 0 < s.w) (huv : u < v) (hmin : 4096 * (v - u) < s.b - s.a) :
    zoomDomain s (brushed s u v) = (s.a + (u - s.a) * ((s.b - s.a) / 4096 / (v - u)), s.a + (u - s.a) * ((s.b - s.a) / 4096 / (v - u)) + (s.b - s.a) / 4096) := by
  have hwne : s.w ≠ 0 := ne_of_gt hw
  have hba : 0 < s.b - s.a := by linarith
  have hbane : s.b - s.a ≠ 0 := ne_of_gt hba
  have hd : 0 < v - u := sub_pos.2 huv
  have hdne : v - u ≠ 0 := ne_of_gt hd
  have hscale : s.w / s.app (s.a + v - u) = (s.b - s.a) / (v - u) := by
    unfold LinScale.app
    have : s.a + v - u - s.a = v - u := by ring
    rw [this]
    field_simp
  have hc : clampScale ((s.b - s.a) / (v - u)) = 4096 := by
    unfold clampScale
    have h1 : 4096 ≤ (s.b - s.a) / (v - u) := by rw [le_div_iff₀ hd]; exact le_of_lt hmin
    rw [min_eq_left h1]
    norm_num
  unfold brushed zoomDomain
  simp only [hscale, hc]
  unfold LinScale.app LinScale.invert
  rw [Prod.mk.injEq]
  constructor
  · field_simp
    ring
  · field_simp
    ring

/-- C130: of a range of 8192, a brush from 10 to 11 -/
example : zoomDomain ⟨0, 8192, 100⟩ (brushed ⟨0, 8192, 100⟩ 10 11) = (0 + (10 - 0) * ((8192 - 0) / 4096 / (11 - 10)), 22) := by decide +kernel

end Trappy
