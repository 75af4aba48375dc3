import Verif.Prop.Layout
import Verif.Prop.Topology
import Verif.Prop.Wa2
import Verif.Prop.Thermal
import Verif.Prop.CorrObj
import Verif.Prop.Window
import Verif.Prop.Builtin
/-!
# C20, C90, C98, C107, C118, C127, C139: exactly when they hold
-/

namespace Trappy

/-! ## C20 -/

/-- **C20 (exactly).** With an absolute window that ends at 0 every event from its start on is kept; that is right exactly if there is none. For all files and tables. -/
theorem C20_zero_end_exact (cls : List Cls) (lines : List Str) (lo i : Nat) (hfin : (populate cls 0 lines).endtime < F64.inf) :
    userTable cls { normalize := false, window := ⟨0, none⟩, absWindow := ⟨lo, some 0⟩ } lines i = within lo none (rawTable cls lines i) ∧
    (userTable cls { normalize := false, window := ⟨0, none⟩, absWindow := ⟨lo, some 0⟩ } lines i = within lo (some 0) (rawTable cls lines i) ↔
      ∀ r ∈ rawTable cls lines i, F64.val r.1 < F64.val lo) := by
  have h1 : userTable cls { normalize := false, window := ⟨0, none⟩, absWindow := ⟨lo, some 0⟩ } lines i = within lo none (rawTable cls lines i) := by
    rw [← C20_absolute_window_partial cls lines ⟨lo, none⟩ (by simp) i hfin]
    unfold userTable applyUser applyWith maxWindow calcMaxWindow windowify
    simp only [Bool.false_eq_true, if_false]
    by_cases hb : (populate cls 0 lines).basetime = 0
    · simp only [hb, if_true]
    · simp only [hb, if_false]
  refine ⟨h1, ?_⟩
  rw [h1]
  by_cases hne : rawTable cls lines i = []
  · rw [hne]; simp [within]
  obtain ⟨hb, hall⟩ := rawTable_base hfin i hne
  have h0 : within lo (some 0) (rawTable cls lines i) = [] := by
    rw [within_eq, List.filter_eq_nil_iff]
    intro r hr
    have := (hall r hr).1
    simp
    intro _ h
    omega
  rw [h0]
  unfold within
  rw [List.filter_eq_nil_iff]
  simp

/-- C20: with the start at 11 one of the three events is kept, none with a start at 12 -/
example : (userTable exWinCls { normalize := false, window := ⟨0, none⟩, absWindow := ⟨F64.ofRat 11 1, some 0⟩ } exWin 0).map Prod.fst = [F64.ofRat 11 1] ∧
    userTable exWinCls { normalize := false, window := ⟨0, none⟩, absWindow := ⟨F64.ofRat 12 1, some 0⟩ } exWin 0 = [] := by decide +kernel

/-! ## C90 -/

/-- **C90 (exactly).** The span of the level `all` of any topology is the number of its nodes, and its level is one group: they agree exactly if there is one node. -/
theorem C90_all_exact (ord : List Nat → List Nat) (t : Topo) :
    (∃ g, t.getLevel ord cs!"all" = some [g]) ∧ t.levelSpan cs!"all" = some t.nodes.length ∧ (t.levelSpan cs!"all" = (t.getLevel ord cs!"all").map List.length ↔ t.nodes.length = 1) := by
  refine ⟨⟨_, rfl⟩, rfl, ?_⟩
  show some t.nodes.length = some 1 ↔ _
  simp

/-- C90: three nodes and one -/
example : (Topo.init id [[0, 1], [2]]).levelSpan cs!"all" = some 3 ∧ (Topo.init id [[0]]).levelSpan cs!"all" = some 1 := by decide +kernel

/-! ## C98 -/

theorem plotData_nodup {σ : Type} (pivot : Val) (cs : List (IConstraint σ)) : ∀ d : Dict σ, (d.map Prod.fst).Nodup → ((plotData pivot cs d).map Prod.fst).Nodup := by
  induction cs with
  | nil => intro d h; exact h
  | cons c cs ih =>
    intro d h
    unfold plotData
    cases c.result.lookup pivot with
    | none => exact ih d h
    | some s => exact ih _ (Dict.nodup_set h _ _)

theorem plotted_labels {σ : Type} (pivot : Val) (cs : List (IConstraint σ)) (label : IConstraint σ → Str) :
    (cs.filterMap fun c => (c.result.lookup pivot).map fun s => (label c, s)).map Prod.fst = (cs.filter fun c => (c.result.lookup pivot).isSome).map label := by
  induction cs with
  | nil => rfl
  | cons c cs ih =>
    cases h : c.result.lookup pivot with
    | none => simp [h, ih]
    | some s => simp [h, ih]

/-- **C98 (exactly).** The plot of a pivot shows the series of every constraint with data for it, under its label and in their order, exactly if these labels are different. For all constraints. -/
theorem C98_exact {σ : Type} (pivot : Val) (cs : List (IConstraint σ)) :
    (plotData pivot cs [] = cs.filterMap fun c => (c.result.lookup pivot).map fun s => (c.label, s)) ↔ ((cs.filter fun c => (c.result.lookup pivot).isSome).map (·.label)).Nodup := by
  refine ⟨fun h => ?_, C98_data_partial pivot cs⟩
  have := plotData_nodup pivot cs [] (by simp)
  rwa [h, plotted_labels] at this

/-- **C98 (exactly, permuted).** The same for the plot of a trace and a pivot, with the constraints of this trace. -/
theorem C98_perm_exact {σ : Type} (trace : Nat) (pivot : Val) (cs : List (IConstraint σ)) :
    (plotPermData trace pivot cs [] = (cs.filter fun c => c.traceIdx == trace).filterMap fun c => (c.result.lookup pivot).map fun s => (c.permLabel, s)) ↔
      ((cs.filter fun c => c.traceIdx == trace && (c.result.lookup pivot).isSome).map (·.permLabel)).Nodup := by
  refine ⟨fun h => ?_, C98_perm_partial trace pivot cs⟩
  have := plotData_nodup pivot ((cs.filter fun c => c.traceIdx == trace).map fun c => { c with label := c.permLabel }) [] (by simp)
  rw [← plotPermData_eq, h, plotted_labels, List.filter_filter] at this
  have e : (cs.filter fun c => c.traceIdx == trace && (c.result.lookup pivot).isSome) = cs.filter fun c => (c.result.lookup pivot).isSome && c.traceIdx == trace :=
    List.filter_congr fun c _ => Bool.and_comm _ _
  rw [e]
  exact this

/-- C98: the same label is harmless if one of the constraints has no data for the pivot -/
example : plotData (.int 1) [⟨cs!"run:f:x", [], 0, [(.int 0, "first")]⟩, ⟨cs!"run:f:x", [], 1, [(.int 1, "second")]⟩] [] = [(cs!"run:f:x", "second")] := rfl

/-! ## C107 -/

/-- **C107 (exactly).** Whatever is combined: a benchmark that the first result does not have is left out. All benchmarks of all results are in the combined result exactly if the first result has them all. -/
theorem C107_exact {ν : Type} (d : BenchDict ν) (ds : List (BenchDict ν)) (r : List (Str × List (Str × RunScores ν))) (h : combineResults (d :: ds) = some r) :
    (∀ b, b ∈ r.map Prod.fst ↔ HasBench d b) ∧
    ((∀ x ∈ d :: ds, ∀ b, HasBench x b → b ∈ r.map Prod.fst) ↔ ∀ x ∈ ds, ∀ b, HasBench x b → HasBench d b) := by
  have h1 := ((C107_combine_partial d ds).1 r h).1
  have h2 : ∀ b, b ∈ r.map Prod.fst ↔ HasBench d b := by
    intro b
    rw [h1, List.mem_map]
    constructor
    · rintro ⟨⟨_, t⟩, ht, rfl⟩; exact ⟨t, ht⟩
    · rintro ⟨t, ht⟩; exact ⟨_, ht, rfl⟩
  refine ⟨h2, ?_⟩
  simp only [h2, List.forall_mem_cons]
  exact ⟨fun h => h.2, fun h => ⟨fun _ h => h, h⟩⟩

/-- C107: two results with the same benchmarks in another order -/
example : combineResults (ν := Nat) [[(cs!"geek", [(cs!"a", [(0, 1)])]), (cs!"antutu", [(cs!"a", [(0, 4)])])], [(cs!"antutu", [(cs!"b", [(0, 3)])]), (cs!"geek", [(cs!"b", [(0, 2)])])]] =
    some [(cs!"geek", [(cs!"a", [(0, 1)]), (cs!"b", [(0, 2)])]), (cs!"antutu", [(cs!"a", [(0, 4)]), (cs!"b", [(0, 3)])])] := rfl

/-! ## C118 -/

/-- **C118 (exactly).** For all registered parsers: the event of a raw parser is asked for in raw form exactly if a raw parser, this or another, has its name. -/
theorem C118_exact (thermal sched dynamic : List ParserClass) (c : ParserClass) (he : c.event ≠ []) :
    c.event ∈ rawEventList thermal sched dynamic ↔ ∃ c' ∈ thermal ++ sched ++ dynamic, c'.raw = true ∧ c'.name = c.event := by
  rw [mem_rawEventList]
  simp only [List.mem_append, or_assoc]
  exact ⟨fun ⟨c', h1, h2, h3, _⟩ => ⟨c', h1, h2, h3⟩, fun ⟨c', h1, h2, h3⟩ => ⟨c', h1, h2, h3, he⟩⟩

/-- C118: a second parser with the name of the event of the first -/
example : (dynamicClass cs!"IrqEntry" cs!"irq_handler_entry:" true).event ∈ rawEventList [] [] [dynamicClass cs!"IrqEntry" cs!"irq_handler_entry:" true, dynamicClass cs!"IrqHandlerEntry" cs!"other:" true] := by decide +kernel

/-! ## C127 -/

/-- **C127 (exactly).** The number of axes is that of the tables exactly if this run has input and output rows of the GPU, or no run has input rows; else one axis stays empty. -/
theorem C127_exact (gpuIns : List (List (Nat × Rat))) (oin oout : List Str) (inRows outRows : List (PRow Rat)) (gpuIn gpuOut : List (Nat × Rat))
    (mapping : Dict Str) (ts : List (Str × PTable Rat)) (hrun : gpuIn ∈ gpuIns)
    (h : getAllFreqsData oin oout inRows outRows gpuIn gpuOut mapping = .ok ts) :
    (ts.length = numberFreqPlots gpuIns mapping ↔ (gpuIn ≠ [] ∧ gpuOut ≠ []) ∨ ∀ g ∈ gpuIns, g = []) ∧
    (ts.length ≠ numberFreqPlots gpuIns mapping → ts.length + 1 = numberFreqPlots gpuIns mapping) := by
  have key : ¬ ((gpuIn ≠ [] ∧ gpuOut ≠ []) ∨ ∀ g ∈ gpuIns, g = []) → ts.length + 1 = numberFreqPlots gpuIns mapping := by
    intro hn
    rw [not_or] at hn
    have hany : (gpuIns.any fun rows => decide (0 < rows.length)) = true := by
      rw [List.any_eq_true]
      by_contra hc
      refine hn.2 fun g hg => ?_
      by_contra hg'
      exact hc ⟨g, hg, by simpa [List.length_pos_iff] using hg'⟩
    unfold getAllFreqsData at h
    split at h
    · cases h
    split at h
    · cases h
    split at h
    · cases h
    rename_i ts' hts
    have hlen := freqTables_length _ _ _ _ hts
    rw [List.length_map] at hlen
    unfold numberFreqPlots
    rw [if_pos hany]
    split at h
    · rename_i i o hi ho
      exfalso
      refine hn.1 ⟨?_, ?_⟩
      · rintro rfl; simp [devFreqs] at hi
      · rintro rfl; simp [devFreqs] at ho
    · cases h
      rw [hlen]
  have key2 := (C127_axes_partial gpuIns oin oout inRows outRows gpuIn gpuOut mapping ts hrun h).2
  refine ⟨⟨fun e => ?_, key2⟩, fun e => ?_⟩
  · by_contra hn
    have := key hn
    omega
  · by_contra hn
    exact hn (key fun hc => e (key2 hc))

/-- C127: a second run without input rows has an axis too many -/
example : numberFreqPlots [[(1, 600000000)], []] exLabels = 3 ∧
    (match getAllFreqsData [cs!"f0", cs!"0f"] [cs!"0f", cs!"f0"] exFreqIn exFreqOut [] [(2, 350000000)] exLabels with
      | .ok ts => ts.length | .error _ => 0) = 2 := by
  constructor <;> decide +kernel

/-! ## C139 -/

/-- **C139 (exactly).** With a missing coefficient, the alignment that has one is chosen exactly if it is good enough: at the front if its coefficient is not below zero, at the back if it is above zero. Without any coefficient
the front is chosen. For all series. -/
theorem C139_undefined_exact (corr : List (Option Rat) → List (Option Rat) → Option Rat) (x y fx fy bx by' : List (Option Rat)) (fs bs : Int)
    (h1 : alignSeries .front x y = (fx, fy, fs)) (h2 : alignSeries .back x y = (bx, by', bs)) (hne : fs ≠ bs) :
    (∀ q, corr fx fy = some q → corr bx by' = none → (alignTop corr x y = fs ↔ 0 ≤ q)) ∧
    (∀ q, corr fx fy = none → corr bx by' = some q → (alignTop corr x y = bs ↔ 0 < q)) ∧
    (corr fx fy = none → corr bx by' = none → alignTop corr x y = fs) := by
  simp only [alignTop, h1, h2, chooseShift]
  refine ⟨fun q a b => ?_, fun q a b => ?_, fun a b => ?_⟩
  · rw [a, b]
    simp only [ge_iff_le]
    split
    · rename_i h; exact ⟨fun _ => h, fun _ => rfl⟩
    · rename_i h; exact ⟨fun e => absurd e.symm hne, fun h' => absurd h' h⟩
  · rw [a, b]
    simp only [ge_iff_le]
    split
    · rename_i h; exact ⟨fun e => absurd e hne, fun h' => absurd h (not_le.2 h')⟩
    · rename_i h; exact ⟨fun _ => not_le.1 h, fun _ => rfl⟩
  · rw [a, b]; exact if_pos le_rfl

/-- C139: the shifts differ, the coefficient at the front is missing and the other one is above zero -/
example : alignTop (fun _ y => if y.head? = some none then none else some 1) [some 0, some 1, some 1, some 0] [some 1, some 1, some 1, some 0] = 0 := by decide +kernel

end Trappy
