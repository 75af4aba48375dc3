import Verif.Prop.EventLanes
import Verif.Prop.PlotTrace
/-!
# C176: exactly which lanes are in the plot
-/

namespace Trappy

open Re Py

/-- **C176, exactly.** With numbered lanes the bars of a lane are within the plot if and only if it is one of them. -/
theorem C176_exact (pre : Str) (num : Nat) (data d : Dict (List LaneEvent)) (labels : List LaneLabel)
    (h : getLanes [] pre num data = some (labels, d)) (l : Int) :
    ∃ y, yMain (laneIds labels) = some y ∧
      ((0 ≤ (laneBar y l).1 ∧ (laneBar y l).2 ≤ mainHeight labels.length) ↔ 0 ≤ l ∧ l < num) := by
  have hn : num ≠ 0 := by
    rintro rfl
    rw [(C74_numbered pre 0 data).1 rfl] at h
    cases h
  obtain ⟨labels', y, h1, h2, h3, h4, h5⟩ := C176_beyond_refuted pre num hn data l
  rw [h] at h1
  cases h1
  have hlen : labels.length = num := by
    rw [(C74_numbered pre num data).2 hn] at h
    cases h
    simp
  refine ⟨y, h2, ?_⟩
  rw [hlen]
  constructor
  · rintro ⟨a, b⟩
    have hb : (laneBar y l).1 ≤ (laneBar y l).2 := by
      have hne : labels ≠ [] := by intro e; rw [e] at hlen; exact hn hlen.symm
      rw [yMain_lanes labels hne, hlen] at h2
      cases h2
      have hp := (lane_height num (Nat.pos_of_ne_zero hn) 1).1
      have hq := (lane_height num (Nat.pos_of_ne_zero hn) 0).2.1
      unfold laneBar
      simp only
      linarith
    constructor
    · by_contra hc
      have := h5 (by omega)
      linarith
    · by_contra hc
      rcases (show l = num ∨ (num : Int) < l by omega) with e | e
      · have := h3 e; linarith
      · have := h4 e
        unfold chartBottom laneMargin at this
        linarith
  · rintro ⟨a, b⟩
    obtain ⟨k, rfl⟩ : ∃ k : Nat, l = k := ⟨l.toNat, by omega⟩
    obtain ⟨k1, k2, _, k4, k5, _⟩ := C176_lanes_partial labels y h2 k (by omega)
    rw [hlen] at k5
    exact ⟨by linarith, by linarith⟩

/-- **C176, for a file.** If `plot_trace` plots a file, the runs of a CPU are drawn within the plot exactly if its number is less than
the one of the line `cpus=` of the header. -/
theorem C176_plot_trace_exact (fuel : Nat) (ps : List ParserClass) (u : UserParams) (lines execnames : List Str) (pids : List Nat)
    {P : TracePlot} (h : plotTrace fuel ps u lines execnames pids = .ok P) :
    ∃ v, FirstHeader cs!"cpus" v lines ∧ ∃ y, yMain (laneIds P.lanes) = some y ∧ ∀ (n : Nat), IsDecimal v n → ∀ cpu : Nat,
      ((0 ≤ (laneBar y cpu).1 ∧ (laneBar y cpu).2 ≤ mainHeight P.lanes.length) ↔ cpu < n) := by
  unfold plotTrace at h
  split at h
  · split at h
    · cases h
    · split at h
      · cases h
      · split at h
        · cases h
        · split at h
          · cases h
          · rename_i v hv
            split at h
            · cases h
            · rename_i labels keys items he
              cases h
              refine ⟨v, (C43_header _ _ (.inr rfl) v).1 hv, ?_⟩
              unfold eventPlot at he
              split at he
              · cases he
              · rename_i gl gd hg
                cases he
                obtain ⟨y, hy, _⟩ := C176_exact _ _ _ _ _ hg 0
                refine ⟨y, hy, fun n hn cpu => ?_⟩
                obtain ⟨y', hy', hi⟩ := C176_exact _ _ _ _ _ hg cpu
                rw [hy] at hy'
                cases hy'
                simp only
                rw [natVal_decimal hn] at hi
                rw [hi]
                omega
  · cases h

/-- a header with two CPUs and a run on the fourth one: it is sent to the browser in lane 3, with labels for two lanes -/
example : (plotTrace 5 exWholeParsers (UserParams.full false)
    [cs!"version = 6\n", cs!"cpus=2\n",
     cs!"a-1 [003] 1.0: sched_switch: prev_comm=swapper prev_pid=0 next_comm=work next_pid=5\n",
     cs!"a-1 [003] 2.0: sched_switch: prev_comm=work prev_pid=5 next_comm=swapper next_pid=0\n"] [] []) = .ok
    { lanes := [.numbered cs!"CPU :" 0, .numbered cs!"CPU :" 1]
      keys := [cs!"work-5"]
      items := [(cs!"work-5", [(.int 3, [(1, 2)])])]
      domain := (1, 2) } := by
  decide +kernel

end Trappy
