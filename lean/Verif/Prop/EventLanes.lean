import Verif.Model.EventLanes
import Verif.Prop.EventPlotJs
import Mathlib.Data.Rat.Floor
/-!
# C176: lanes in the browser
-/

namespace Trappy

theorem foldl_min_range (n : Nat) (k : Int) (hk : k ≤ 0) : ((List.range n).map fun (i : Nat) => (i : Int)).foldl min k = k := by
  induction n with
  | zero => rfl
  | succ n ih =>
    rw [List.range_succ, List.map_append, List.foldl_append, ih]
    simp only [List.map_cons, List.map_nil, List.foldl_cons, List.foldl_nil]
    omega

theorem foldl_max_range (n : Nat) : ((List.range n).map fun (i : Nat) => (i : Int)).foldl max 0 = ((n - 1 : Nat) : Int) := by
  induction n with
  | zero => rfl
  | succ n ih =>
    rw [List.range_succ, List.map_append, List.foldl_append, ih]
    simp only [List.map_cons, List.map_nil, List.foldl_cons, List.foldl_nil]
    omega

theorem foldl_range_cons {f : Int → Int → Int} (hf : f 0 0 = 0) (n : Nat) :
    ((List.range (n + 1)).map fun (i : Nat) => (i : Int)).foldl f 0 =
      ((List.range (n + 1)).map fun (i : Nat) => (i : Int)).tail.foldl f 0 := by
  rw [List.range_succ_eq_map]
  simp only [List.map_cons, List.foldl_cons, List.tail_cons]
  rw [show ((0 : Nat) : Int) = 0 from rfl, hf]

/-- the scale of `n` lanes as `_get_lanes` numbers them -/
theorem yMain_lanes (labels : List LaneLabel) (h : labels ≠ []) :
    yMain (laneIds labels) = some ⟨0, labels.length, mainHeight labels.length⟩ := by
  obtain ⟨n, hn⟩ : ∃ n, labels.length = n + 1 := ⟨labels.length - 1, by
    have := List.length_pos_of_ne_nil h; omega⟩
  unfold yMain laneIds
  rw [hn]
  have e : ((List.range (n + 1)).map fun (i : Nat) => (i : Int)) = 0 :: ((List.range (n + 1)).map fun (i : Nat) => (i : Int)).tail := by
    rw [List.range_succ_eq_map]; rfl
  have h1 := foldl_min_range (n + 1) 0 (le_refl _)
  have h2 := foldl_max_range (n + 1)
  rw [foldl_range_cons (by rfl)] at h1 h2
  have : extent ((List.range (n + 1)).map fun (i : Nat) => (i : Int)) = some (0, (n : Int)) := by
    rw [e]
    show some (List.foldl min 0 _, List.foldl max 0 _) = _
    rw [h1, h2]
    simp
  rw [this]
  simp

/-- the height of a lane -/
theorem lane_height (n : Nat) (hn : 0 < n) (l : Rat) :
    LinScale.app ⟨0, n, mainHeight n⟩ l = l * (50 - 30 / n) ∧ 20 ≤ (50 : Rat) - 30 / n ∧ (50 : Rat) - 30 / n < 50 := by
  have hn' : (0 : Rat) < n := by exact_mod_cast hn
  have hne : (n : Rat) ≠ 0 := ne_of_gt hn'
  have h1 : (1 : Rat) ≤ n := by exact_mod_cast hn
  refine ⟨?_, ?_, ?_⟩
  · unfold LinScale.app mainHeight laneMargin
    simp only [sub_zero]
    field_simp
    ring
  · have : (30 : Rat) / n ≤ 30 := div_le_self (by norm_num) h1
    linarith
  · have : (0 : Rat) < 30 / n := div_pos (by norm_num) hn'
    linarith

/-- **C176 (lanes).** For every number of lanes that `_get_lanes` gives and every event in one of them: the bar is between the line
of its lane and that of the next and within the plot, the label of the lane is beside it, the rectangle around a clicked event is
the lane, and a click on the bar is a click on the lane. -/
theorem C176_lanes_partial (labels : List LaneLabel) (y : LinScale) (hy : yMain (laneIds labels) = some y) (l : Nat)
    (hl : l < labels.length) :
    0 ≤ y.app l ∧ y.app l < (laneBar y l).1 ∧ (laneBar y l).1 < (laneBar y l).2 ∧ (laneBar y l).2 < y.app (l + 1) ∧
    y.app (l + 1) ≤ mainHeight labels.length ∧
    (laneBar y l).1 ≤ laneLabelAt y l ∧ laneLabelAt y l ≤ (laneBar y l).2 ∧
    (contextRect y l).1 = y.app l ∧ (contextRect y l).1 + (contextRect y l).2 = y.app (l + 1) ∧
    ∀ p, (laneBar y l).1 ≤ p → p ≤ (laneBar y l).2 → clickedLane y p = l := by
  have hne : labels ≠ [] := by intro h; rw [h] at hl; simp at hl
  rw [yMain_lanes labels hne] at hy
  have hy' := (Option.some.inj hy).symm
  subst hy'
  have hn : 0 < labels.length := by omega
  generalize labels.length = n at *
  have hn' : (0 : Rat) < n := by exact_mod_cast hn
  have hnn : (n : Rat) ≠ 0 := ne_of_gt hn'
  obtain ⟨_, hh1, hh2⟩ := lane_height n hn 0
  have happ : ∀ x : Rat, LinScale.app ⟨0, n, mainHeight n⟩ x = x * (50 - 30 / n) := fun x => (lane_height n hn x).1
  have hmain : mainHeight n = n * (50 - 30 / n) := by
    unfold mainHeight laneMargin; field_simp; ring
  have hl0 : (0 : Rat) ≤ l := by exact_mod_cast Nat.zero_le l
  have hl1 : (l : Rat) + 1 ≤ n := by exact_mod_cast hl
  have hinv : ∀ p : Rat, LinScale.invert ⟨0, n, mainHeight n⟩ p = p / (50 - 30 / n) := by
    intro p
    have hpos : (50 : Rat) - 30 / n ≠ 0 := by linarith
    unfold LinScale.invert
    simp only [hmain, sub_zero, zero_add]
    field_simp
  unfold laneBar laneLabelAt contextRect clickedLane
  simp only [happ, hinv]
  generalize (50 : Rat) - 30 / n = h at *
  have hpos : 0 < h := by linarith
  push_cast
  refine ⟨mul_nonneg hl0 (le_of_lt hpos), ?_, ?_, ?_, ?_, ?_, ?_, rfl, ?_, ?_⟩
  · linarith
  · linarith
  · linarith
  · rw [hmain]; exact mul_le_mul_of_nonneg_right hl1 (le_of_lt hpos)
  · linarith
  · linarith
  · ring
  · intro p h1 h2
    show ⌊p / h⌋ = (l : Int)
    rw [Int.floor_eq_iff]
    push_cast
    rw [le_div_iff₀ hpos, div_lt_iff₀ hpos]
    constructor <;> linarith

/-- **C176 (apart).** The bars of different lanes do not touch: those of the lane with the smaller number are above. -/
theorem C176_apart_partial (labels : List LaneLabel) (y : LinScale) (hy : yMain (laneIds labels) = some y) (l m : Nat)
    (hlm : l < m) (hm : m < labels.length) : (laneBar y l).2 < (laneBar y m).1 := by
  obtain ⟨_, _, _, h4, _⟩ := C176_lanes_partial labels y hy l (by omega)
  obtain ⟨_, h2, _, _, _⟩ := C176_lanes_partial labels y hy m hm
  refine lt_of_lt_of_le h4 (le_trans ?_ (le_of_lt h2))
  have hne : labels ≠ [] := by intro h; rw [h] at hm; simp at hm
  rw [yMain_lanes labels hne] at hy
  have hy' := (Option.some.inj hy).symm
  subst hy'
  have hn : 0 < labels.length := by omega
  rw [(lane_height _ hn _).1, (lane_height _ hn _).1]
  have : (l : Rat) + 1 ≤ m := by exact_mod_cast hlm
  have hp := (lane_height _ hn 0).2.1
  exact mul_le_mul_of_nonneg_right this (by linarith)

/-- eight lanes, as for the trace of a machine with eight CPUs: the bar of the last one -/
example : yMain (laneIds ((List.range 8).map (.numbered cs!"CPU :"))) = some ⟨0, 8, 370⟩ ∧
    laneBar ⟨0, 8, 370⟩ 7 = (7 * 185 / 4 + 41 / 8, 7 * 185 / 4 + 169 / 4 - 1 / 8) ∧ clickedLane ⟨0, 8, 370⟩ 340 = 7 := by
  decide +kernel

theorem forall₂_right {α β : Type} {R : α → β → Prop} {l : List α} {m : List β} (h : List.Forall₂ R l m) (b : β) (hb : b ∈ m) :
    ∃ a ∈ l, R a b := by
  induction h with
  | nil => cases hb
  | cons h1 _ ih =>
    rcases List.mem_cons.1 hb with rfl | hb
    · exact ⟨_, List.mem_cons_self, h1⟩
    · obtain ⟨a, ha, hr⟩ := ih hb
      exact ⟨a, List.mem_cons_of_mem _ ha, hr⟩

/-- **C176 (explicit lanes).** With explicit lanes the bar of every event is in the plot, between the line of the lane that has the
event's lane as its label and the next line. -/
theorem C176_explicit_partial {lanes : List Val} (hl : lanes ≠ []) {pre : Str} {num : Nat} {data d : Dict (List LaneEvent)}
    {labels : List LaneLabel} (h : getLanes lanes pre num data = some (labels, d)) (name : Str) (es : List LaneEvent)
    (hes : (name, es) ∈ d) (e : LaneEvent) (he : e ∈ es) :
    ∃ (y : LinScale) (i : Nat) (orig : LaneEvent) (es' : List LaneEvent), yMain (laneIds labels) = some y ∧ e.lane = .int i ∧
      (name, es') ∈ data ∧ orig ∈ es' ∧ orig.start = e.start ∧ orig.stop = e.stop ∧ labels[i]? = some (.given orig.lane) ∧
      0 ≤ y.app i ∧ y.app i < (laneBar y i).1 ∧ (laneBar y i).2 < y.app (i + 1) ∧ y.app (i + 1) ≤ mainHeight labels.length := by
  obtain ⟨h1, h2⟩ := C74_lanes hl h
  obtain ⟨⟨name', es'⟩, ha, hn, hes2⟩ := forall₂_right h2 _ hes
  simp only at hn hes2
  subst hn
  obtain ⟨orig, ho, hm⟩ := forall₂_right hes2 e he
  obtain ⟨m1, m2, i, hi, m3⟩ := hm
  have hne : labels ≠ [] := by rw [h1]; simpa using hl
  have hget : labels[i]? = some (.given orig.lane) := by
    rw [h1, List.getElem?_map, hi.1]; rfl
  have hlt : i < labels.length := (List.getElem?_eq_some_iff.1 hget).1
  have hy := yMain_lanes labels hne
  obtain ⟨k1, k2, _, k4, k5, _⟩ := C176_lanes_partial labels _ hy i hlt
  exact ⟨_, i, orig, es', hy, m3, ha, ho, m1.symm, m2.symm, hget, k1, k2, k4, k5⟩

example : getLanes [.str cs!"b", .str cs!"a"] [] 0 [(cs!"x", [⟨1, 2, .str cs!"a"⟩, ⟨3, 4, .str cs!"b"⟩])] =
    some ([.given (.str cs!"b"), .given (.str cs!"a")], [(cs!"x", [⟨1, 2, .int 1⟩, ⟨3, 4, .int 0⟩])]) := by decide +kernel

/-- **C176 (refuted for lanes beyond their number).** `num_lanes` is not compared with the lanes of the events. The bar of an event in
lane `num_lanes` is below the plot, across the axis; those of higher lanes are below what can be seen of the chart, and those of
negative ones above the plot. -/
theorem C176_beyond_refuted (pre : Str) (num : Nat) (hn : num ≠ 0) (data : Dict (List LaneEvent)) (l : Int) :
    ∃ labels y, getLanes [] pre num data = some (labels, data) ∧ yMain (laneIds labels) = some y ∧
      (l = num → mainHeight num < (laneBar y l).1) ∧ (num < l → chartBottom num < (laneBar y l).1) ∧
      (l < 0 → (laneBar y l).2 < 0) := by
  have hpos : 0 < num := Nat.pos_of_ne_zero hn
  have hlen : ((List.range num).map (LaneLabel.numbered pre)).length = num := by simp
  have hy := yMain_lanes ((List.range num).map (LaneLabel.numbered pre)) (by
    intro h; rw [h] at hlen; simp at hlen; omega)
  rw [hlen] at hy
  refine ⟨_, _, (C74_numbered pre num data).2 hn, hy, ?_⟩
  have hn' : (0 : Rat) < num := by exact_mod_cast hpos
  have hnn : (num : Rat) ≠ 0 := ne_of_gt hn'
  obtain ⟨_, hh1, hh2⟩ := lane_height num hpos 0
  have happ : ∀ x : Rat, LinScale.app ⟨0, num, mainHeight num⟩ x = x * (50 - 30 / num) := fun x => (lane_height num hpos x).1
  have hmain : mainHeight num = num * (50 - 30 / num) := by
    unfold mainHeight laneMargin; field_simp; ring
  unfold laneBar chartBottom laneMargin
  simp only [happ]
  rw [hmain]
  generalize (50 : Rat) - 30 / num = h at *
  refine ⟨?_, ?_, ?_⟩
  · intro e
    have : (l : Rat) = num := by rw [e]; simp
    rw [this]; linarith
  · intro e
    have : (num : Rat) + 1 ≤ l := by exact_mod_cast e
    have := mul_le_mul_of_nonneg_right this (by linarith : (0 : Rat) ≤ h)
    linarith
  · intro e
    have : (l : Rat) ≤ -1 := by exact_mod_cast (by omega : l ≤ -1)
    have := mul_le_mul_of_nonneg_right this (by linarith : (0 : Rat) ≤ h)
    linarith

/-- CPUs 0 to 3 of a trace that says that there are two: the bars of CPU 3 start at 109, the chart ends at 90 -/
example : (laneBar ⟨0, 2, mainHeight 2⟩ 3).1 = 109 ∧ chartBottom 2 = 90 := by decide +kernel

end Trappy
