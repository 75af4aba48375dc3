import Verif.Model.Layout
import Verif.Lemma.Data
/-!
# C69, C70, C71, C97, C98, C99: layout of plots
-/

namespace Trappy

/-! ## C69: the grid -/

theorem ceil_div (n c : Nat) (hc : 0 < c) :
    n ≤ (if n % c ≠ 0 then n / c + 1 else n / c) * c ∧ (if n % c ≠ 0 then n / c + 1 else n / c) * c < n + c := by
  have h := Nat.div_add_mod n c
  have hm := Nat.mod_lt n hc
  rw [Nat.mul_comm c] at h
  split
  · rw [Nat.add_mul, Nat.one_mul]; omega
  · omega

/-- **C69 (when).** A grid is made exactly if there is a plot and at least one plot per line is allowed. -/
theorem C69_when (cols num : Nat) : (∃ l, mkLayout cols num = .ok l) ↔ 0 < num ∧ 0 < cols := by
  have hc : (if num < cols then num else cols) = min cols num := by split <;> omega
  unfold mkLayout
  rw [hc]
  by_cases h : num = 0
  · simp [h]
  · rw [if_neg h]
    simp only
    by_cases h' : min cols num = 0
    · rw [if_pos h']
      constructor
      · rintro ⟨l, e⟩; cases e
      · intro _; omega
    · rw [if_neg h']
      exact ⟨fun _ => by omega, fun _ => ⟨_, rfl⟩⟩

theorem mkLayout_spec {cols num : Nat} {l : Layout} (h : mkLayout cols num = .ok l) :
    0 < num ∧ 0 < cols ∧ l.cols = min cols num ∧ num ≤ l.rows * l.cols ∧ l.rows * l.cols < num + l.cols ∧
    (l.single = true ↔ num = 1) ∧ (l.usecol = true ↔ num ≠ 1 ∧ l.rows = 1) ∧ (l.userow = true ↔ num ≠ 1 ∧ l.rows ≠ 1 ∧ l.cols = 1) := by
  obtain ⟨h1, h2⟩ := (C69_when cols num).1 ⟨l, h⟩
  unfold mkLayout at h
  rw [if_neg (by omega)] at h
  simp only at h
  have hc : (if num < cols then num else cols) = min cols num := by split <;> omega
  rw [hc, if_neg (by omega)] at h
  cases h
  obtain ⟨h3, h4⟩ := ceil_div num (min cols num) (by omega)
  exact ⟨h1, h2, rfl, h3, h4, by simp, by simp, by simp⟩

/-- **C69 (room).** The grid has at least as many cells as plots and less than one spare row; it has as many columns as allowed, or as there are plots if that is less.
For all numbers of plots and columns. -/
theorem C69_room {cols num : Nat} {l : Layout} (h : mkLayout cols num = .ok l) :
    num ≤ l.rows * l.cols ∧ l.rows * l.cols < num + l.cols ∧ l.cols = min cols num := by
  obtain ⟨_, _, h1, h2, h3, _⟩ := mkLayout_spec h
  exact ⟨h2, h3, h1⟩

theorem row_of_one {a b n c : Nat} (h1 : n ≤ a * b) (h2 : a * b < n + b) (hc : b = min c n) (ha : a = 1) : b = n := by
  subst ha
  omega

/-- the cell of an index below the number of cells -/
theorem axisOf_cell {cols num : Nat} {l : Layout} (h : mkLayout cols num = .ok l) {i : Nat} (hi : i < l.rows * l.cols) :
    axisOf l i = some (i / l.cols, i % l.cols) := by
  obtain ⟨h1, h2, h3, h4, h5, h6, h7, h8⟩ := mkLayout_spec h
  have hc0 : 0 < l.cols := by omega
  unfold axisOf
  split
  next hs =>
    have := h6.1 hs
    subst this
    have e1 : l.cols = 1 := by omega
    rw [e1] at h5 hi ⊢
    have : i = 0 := by omega
    subst this
    rfl
  next hs =>
    split
    next hu =>
      obtain ⟨_, hr⟩ := h7.1 hu
      rw [hr, Nat.one_mul] at hi
      rw [Nat.div_eq_of_lt hi]
    next hu =>
      split
      next hw =>
        obtain ⟨_, _, hc⟩ := h8.1 hw
        rw [hc, Nat.mul_one] at hi
        rw [hc, Nat.mod_eq_of_lt hi, Nat.div_one, Nat.mod_one]
      next hw =>
        rw [if_pos]
        exact ⟨(Nat.div_lt_iff_lt_mul hc0).2 hi, Nat.mod_lt _ hc0⟩

/-- **C69 (cells).** Every plot has a cell inside the grid, and the cells are numbered row by row; so distinct plots have distinct cells.
For all numbers of plots and columns. -/
theorem C69_cells {cols num : Nat} {l : Layout} (h : mkLayout cols num = .ok l) {i : Nat} (hi : i < num) :
    ∃ r c, axisOf l i = some (r, c) ∧ r < l.rows ∧ c < l.cols ∧ i = r * l.cols + c := by
  obtain ⟨h1, h2, h3, h4, h5, _⟩ := mkLayout_spec h
  have hc0 : 0 < l.cols := by omega
  have hi' : i < l.rows * l.cols := by omega
  refine ⟨_, _, axisOf_cell h hi', (Nat.div_lt_iff_lt_mul hc0).2 hi', Nat.mod_lt _ hc0, ?_⟩
  rw [Nat.mul_comm, Nat.div_add_mod]

/-- **C69 (distinct).** Distinct plots have distinct cells. -/
theorem C69_distinct {cols num : Nat} {l : Layout} (h : mkLayout cols num = .ok l) {i j : Nat} (hi : i < num) (hj : j < num)
    (e : axisOf l i = axisOf l j) : i = j := by
  obtain ⟨r, c, h1, _, _, h2⟩ := C69_cells h hi
  obtain ⟨r', c', h3, _, _, h4⟩ := C69_cells h hj
  rw [h1, h3] at e
  cases e
  omega

theorem finishLoop_spec {cols num : Nat} {l : Layout} (h : mkLayout cols num = .ok l) (fuel i : Nat) (hf : l.rows * l.cols - i ≤ fuel) :
    finishLoop l fuel i = (List.range' i (l.rows * l.cols - i)).map fun k => some (k / l.cols, k % l.cols) := by
  induction fuel generalizing i with
  | zero =>
    have : l.rows * l.cols - i = 0 := by omega
    rw [this]
    rfl
  | succ fuel ih =>
    unfold finishLoop
    split
    next hi =>
      have e : l.rows * l.cols - i = (l.rows * l.cols - (i + 1)) + 1 := by omega
      rw [e, List.range'_succ, List.map_cons, axisOf_cell h hi, ih (i + 1) (by omega)]
    next hi =>
      have : l.rows * l.cols - i = 0 := by omega
      rw [this]
      rfl

/-- **C69 (spare cells).** At the end exactly the cells after the last plot are removed, each once. -/
theorem C69_finish {cols num : Nat} {l : Layout} (h : mkLayout cols num = .ok l) :
    finishLayout l num = (List.range' num (l.rows * l.cols - num)).map fun k => some (k / l.cols, k % l.cols) :=
  finishLoop_spec h _ num (Nat.sub_le _ _)

/-- C69: five plots, two per line: three rows; the last plot is at (2, 0) and the spare cell (2, 1) is removed. -/
example : ∃ l, mkLayout 2 5 = .ok l ∧ l.rows = 3 ∧ l.cols = 2 ∧ axisOf l 4 = some (2, 0) ∧ finishLayout l 5 = [some (2, 1)] :=
  ⟨⟨3, 2, false, false, false⟩, rfl, rfl, rfl, rfl, rfl⟩

/-- C69: three plots, one per line -/
example : ∃ l, mkLayout 1 3 = .ok l ∧ axisOf l 2 = some (2, 0) ∧ finishLayout l 3 = [] := ⟨⟨3, 1, false, false, true⟩, rfl, rfl, rfl⟩

/-! ## C70: axes of static plots -/

/-- **Specification**: the series of constraint number `k` on the cells of their pivots, from pivot number `j`, for a grid with `c` columns -/
def pivotBlock (c k t : Nat) : Nat → List Val → List (SSeries × (Nat × Nat))
  | _, [] => []
  | j, p :: ps => (⟨k, t, p⟩, (j / c, j % c)) :: pivotBlock c k t (j + 1) ps

/-- **Specification**: the series of all constraints, from number `k`, on the cells of their pivots -/
def pivotBlocks (c : Nat) (pivots : List Val) : Nat → List SConstraint → List (SSeries × (Nat × Nat))
  | _, [] => []
  | k, x :: xs => pivotBlock c k x.traceIdx 0 pivots ++ pivotBlocks c pivots (k + 1) xs

theorem filter_all_keys {pivots : List Val} {c : SConstraint} (h : ∀ p ∈ pivots, p ∈ c.keys) :
    (pivots.filter fun p => decide (p ∈ c.keys)) = pivots := by
  rw [List.filter_eq_self]
  intro p hp
  simpa using h p hp

theorem placeAll_block (l : Layout) (c k t n : Nat) (rest : List SSeries) (ps : List Val) (i j : Nat) (hn : j + ps.length = n)
    (h : ∀ j', j ≤ j' → j' < n → axisOf l (i + (j' - j)) = some (j' / c, j' % c)) :
    placeAll l false i (ps.map (fun p => (⟨k, t, p⟩ : SSeries)) ++ rest) =
      (placeAll l false (i + ps.length) rest).map fun r => pivotBlock c k t j ps ++ r := by
  induction ps generalizing i j with
  | nil => simp [pivotBlock]
  | cons p ps ih =>
    rw [List.map_cons, List.cons_append]
    rw [placeAll]
    simp only [Bool.false_eq_true, if_false]
    have h0 := h j (Nat.le_refl _) (by simp at hn; omega)
    rw [Nat.sub_self, Nat.add_zero] at h0
    rw [h0, ih (i + 1) (j + 1) (by simp at hn; omega)]
    · have e : i + (p :: ps).length = i + 1 + ps.length := by simp; omega
      rw [e]
      cases placeAll l false (i + 1 + ps.length) rest with
      | none => rfl
      | some r => simp [pivotBlock]
    · intro j' hj' hn'
      have := h j' (by omega) hn'
      have e : i + 1 + (j' - (j + 1)) = i + (j' - j) := by omega
      rw [e]
      exact this

theorem placeAll_blocks (l : Layout) (c : Nat) (pivots : List Val) (cs : List SConstraint) (k m : Nat) (hm : k + cs.length = m)
    (hk : ∀ x ∈ cs, ∀ p ∈ pivots, p ∈ x.keys)
    (h : ∀ k', k' < m → ∀ j, j < pivots.length → axisOf l (k' * pivots.length + j) = some (j / c, j % c)) :
    placeAll l false (k * pivots.length) (cpPairs pivots k cs) = some (pivotBlocks c pivots k cs) := by
  induction cs generalizing k with
  | nil => rfl
  | cons x xs ih =>
    simp only [List.length_cons] at hm
    unfold cpPairs
    rw [filter_all_keys (hk x List.mem_cons_self), placeAll_block l c k x.traceIdx pivots.length _ _ _ 0 (by simp)]
    · have e : k * pivots.length + pivots.length = (k + 1) * pivots.length := by rw [Nat.succ_mul]
      rw [e, ih (k + 1) (by omega) fun y hy => hk y (List.mem_cons_of_mem _ hy)]
      rfl
    · intro j _ hj
      rw [Nat.sub_zero]
      exact h k (by omega) j hj

theorem pivotBlock_snd (c k t j : Nat) (ps : List Val) :
    (pivotBlock c k t j ps).map Prod.snd = (List.range' j ps.length).map fun i => (i / c, i % c) := by
  induction ps generalizing j with
  | nil => rfl
  | cons p ps ih => simp [pivotBlock, ih, List.range'_succ]

theorem cell_inj {c i j : Nat} (h : (i / c, i % c) = (j / c, j % c)) : i = j := by
  rw [Prod.mk.injEq] at h
  rw [← Nat.div_add_mod i c, ← Nat.div_add_mod j c, h.1, h.2]

theorem nodup_filter_le {β : Type} [BEq β] [LawfulBEq β] (a : β) {γ : Type} (l : List (γ × β)) (h : (l.map Prod.snd).Nodup) :
    (l.filter fun q => q.2 == a).length ≤ 1 := by
  induction l with
  | nil => simp
  | cons x l ih =>
    rw [List.map_cons, List.nodup_cons] at h
    rw [List.filter_cons]
    split
    next hx =>
      have : (l.filter fun q => q.2 == a) = [] := by
        rw [List.filter_eq_nil_iff]
        intro q hq
        simp only [beq_iff_eq] at hx ⊢
        rintro e
        exact h.1 (by rw [hx, ← e]; exact List.mem_map_of_mem hq)
      simp [this]
    next hx => exact ih h.2

theorem pivotBlock_count (c k t : Nat) (ps : List Val) (a : Nat × Nat) :
    ((pivotBlock c k t 0 ps).filter fun q => q.2 == a).length ≤ 1 := by
  apply nodup_filter_le
  rw [pivotBlock_snd]
  apply List.Pairwise.map (R := fun a b => a ≠ b)
  · intro i j hij e
    exact hij (cell_inj e)
  · exact List.nodup_range'

theorem pivotBlocks_count (c : Nat) (pivots : List Val) (k : Nat) (cs : List SConstraint) (a : Nat × Nat) :
    ((pivotBlocks c pivots k cs).filter fun q => q.2 == a).length ≤ cs.length := by
  induction cs generalizing k with
  | nil => simp [pivotBlocks]
  | cons x xs ih =>
    unfold pivotBlocks
    rw [List.filter_append, List.length_append, List.length_cons]
    have := pivotBlock_count c k x.traceIdx pivots a
    have := ih (k + 1)
    omega

/-- **C70, partial.** If every constraint has a series for every pivot value, and there is one constraint only or the plots form one row or one column,
every series is drawn on the axis of its pivot: pivot number j on cell j of the grid, counted row by row. The series are drawn constraint by
constraint and pivot by pivot, none is left out. For all constraints, pivots and numbers of plots per line. -/
theorem C70_axis_partial {perLine : Nat} (hl : 0 < perLine) {cs : List SConstraint} {pivots : List Val} (hp : pivots ≠ [])
    (hk : ∀ x ∈ cs, ∀ p ∈ pivots, p ∈ x.keys) (hone : cs.length ≤ 1 ∨ pivots.length ≤ perLine ∨ perLine = 1) :
    staticPlot perLine false cs pivots = .ok (pivotBlocks (min perLine pivots.length) pivots 0 cs) := by
  have hn : 0 < pivots.length := List.length_pos_iff.2 hp
  obtain ⟨l, h⟩ := (C69_when perLine pivots.length).2 ⟨hn, hl⟩
  obtain ⟨_, _, h3, h4, h5, h6, h7, h8⟩ := mkLayout_spec h
  unfold staticPlot
  simp only [Bool.false_eq_true, if_false]
  rw [h]
  simp only
  have hax : ∀ k', k' < cs.length → ∀ j, j < pivots.length → axisOf l (k' * pivots.length + j) = some (j / l.cols, j % l.cols) := by
    intro k' hk' j hj
    by_cases hk0 : k' = 0
    · subst hk0
      rw [Nat.zero_mul, Nat.zero_add]
      exact axisOf_cell h (by omega)
    have hone : pivots.length ≤ perLine ∨ perLine = 1 := by
      rcases hone with h' | h'
      · omega
      · exact h'
    by_cases h1 : pivots.length = 1
    · unfold axisOf
      rw [if_pos (h6.2 h1)]
      have : j = 0 := by omega
      subst this
      have : l.cols = 1 := by omega
      rw [this]
    · have hns : ¬ l.single = true := fun h' => h1 (h6.1 h')
      rcases hone with h' | h'
      · have ec : l.cols = pivots.length := by omega
        have er : l.rows = 1 := by
          rw [ec] at h4 h5
          have : l.rows * pivots.length < 2 * pivots.length := by omega
          have := Nat.lt_of_mul_lt_mul_right this
          have : 0 < l.rows := by
            rcases Nat.eq_zero_or_pos l.rows with h0 | h0
            · rw [h0] at h4; omega
            · exact h0
          omega
        unfold axisOf
        rw [if_neg hns, if_pos (h7.2 ⟨h1, er⟩), ec, Nat.add_comm, Nat.add_mul_mod_self_right, Nat.div_eq_of_lt hj]
      · have ec : l.cols = 1 := by omega
        have er : l.rows = pivots.length := by
          rw [ec] at h4 h5
          omega
        have hnu : ¬ l.usecol = true := by
          intro h'
          have := (h7.1 h').2
          omega
        unfold axisOf
        rw [if_neg hns, if_neg hnu, if_pos (h8.2 ⟨h1, by omega, ec⟩), er, ec, Nat.add_comm, Nat.add_mul_mod_self_right, Nat.mod_eq_of_lt hj,
          Nat.div_one, Nat.mod_one]
  have := placeAll_blocks l l.cols pivots cs 0 cs.length (by simp) hk hax
  rw [Nat.zero_mul] at this
  rw [this]
  simp only
  rw [if_pos]
  · rw [h3]
  · unfold legendFits
    rw [List.all_eq_true]
    intro q _
    rw [decide_eq_true_iff]
    exact pivotBlocks_count _ _ _ _ _

/-- `C70_axis_partial`: two constraints, two pivots in one row -/
example : staticPlot 2 false [⟨[.int 0, .int 1], 0⟩, ⟨[.int 1, .int 0], 0⟩] [.int 0, .int 1] =
    .ok [(⟨0, 0, .int 0⟩, (0, 0)), (⟨0, 0, .int 1⟩, (0, 1)), (⟨1, 0, .int 0⟩, (0, 0)), (⟨1, 0, .int 1⟩, (0, 1))] := rfl

/-- `C70_axis_partial`: one constraint, three pivots in two rows -/
example : staticPlot 2 false [⟨[.int 0, .int 1, .int 2], 0⟩] [.int 0, .int 1, .int 2] =
    .ok [(⟨0, 0, .int 0⟩, (0, 0)), (⟨0, 0, .int 1⟩, (0, 1)), (⟨0, 0, .int 2⟩, (1, 0))] := rfl

theorem placeAll_none (l : Layout) (ss : List SSeries) (i k : Nat) (hk : k < ss.length) (h : axisOf l (i + k) = none) :
    placeAll l false i ss = none := by
  induction ss generalizing i k with
  | nil => simp at hk
  | cons s ss ih =>
    unfold placeAll
    simp only [Bool.false_eq_true, if_false]
    cases k with
    | zero =>
      rw [Nat.add_zero] at h
      rw [h]
    | succ k =>
      have := ih (i + 1) k (by simpa using hk) (by rw [Nat.add_assoc, Nat.add_comm 1]; exact h)
      rw [this]
      split <;> simp_all

theorem cpPairs_length (pivots : List Val) (cs : List SConstraint) (k : Nat) (hk : ∀ x ∈ cs, ∀ p ∈ pivots, p ∈ x.keys) :
    (cpPairs pivots k cs).length = cs.length * pivots.length := by
  induction cs generalizing k with
  | nil => simp [cpPairs]
  | cons x xs ih =>
    unfold cpPairs
    rw [filter_all_keys (hk x List.mem_cons_self), List.length_append, ih (k + 1) fun y hy => hk y (List.mem_cons_of_mem _ hy),
      List.length_cons, Nat.succ_mul, List.length_map]
    omega

/-- **C70, refuted.** With two or more constraints and more pivots than fit in one line of two or more plots, the plot is never drawn: `IndexError` is raised. For all
such constraints and pivots. -/
theorem C70_crash_refuted {perLine : Nat} (hl : 2 ≤ perLine) {cs : List SConstraint} (hc : 2 ≤ cs.length) {pivots : List Val}
    (hp : perLine < pivots.length) (hk : ∀ x ∈ cs, ∀ p ∈ pivots, p ∈ x.keys) : staticPlot perLine false cs pivots = .error .indexError := by
  obtain ⟨l, h⟩ := (C69_when perLine pivots.length).2 ⟨by omega, by omega⟩
  obtain ⟨_, _, h3, h4, h5, h6, h7, h8⟩ := mkLayout_spec h
  unfold staticPlot
  simp only [Bool.false_eq_true, if_false]
  rw [h]
  simp only
  rw [placeAll_none l _ 0 (2 * pivots.length - 1)]
  · rw [cpPairs_length _ _ _ hk]
    have : 2 * pivots.length ≤ cs.length * pivots.length := Nat.mul_le_mul_right _ hc
    omega
  · rw [Nat.zero_add]
    unfold axisOf
    have ec : l.cols = perLine := by omega
    have hr : l.rows ≠ 1 := by
      intro hr
      rw [hr] at h4
      omega
    rw [if_neg (fun h' => by have := h6.1 h'; omega), if_neg (fun h' => hr (h7.1 h').2), if_neg (fun h' => by have := (h8.1 h').2.2; omega), if_neg]
    rintro ⟨h', _⟩
    rw [Nat.div_lt_iff_lt_mul (by omega)] at h'
    omega

/-- `C70_crash_refuted`: two signals, three cpus, the default of two plots per line -/
example : staticPlot 2 false [⟨[.int 0, .int 1, .int 2], 0⟩, ⟨[.int 0, .int 1, .int 2], 0⟩] [.int 0, .int 1, .int 2] = .error .indexError := rfl

/-- **C70 (missing series), refuted.** If a constraint lacks a pivot value the series of later ones move: here the series of pivot 0 of the second constraint
is drawn on the axis of pivot 1, and the series of pivot 1 on that of pivot 0. -/
theorem C70_missing_refuted : staticPlot 2 false [⟨[.int 0], 0⟩, ⟨[.int 0, .int 1], 0⟩] [.int 0, .int 1] =
    .ok [(⟨0, 0, .int 0⟩, (0, 0)), (⟨1, 0, .int 0⟩, (0, 1)), (⟨1, 0, .int 1⟩, (0, 0))] := rfl

/-! ## C97: concatenated plots -/

/-- **Specification**: the series of all constraints, from number `k`, each constraint on its own cell -/
def ownBlocks (c : Nat) (pivots : List Val) : Nat → List SConstraint → List (SSeries × (Nat × Nat))
  | _, [] => []
  | k, x :: xs => (pivots.filter fun p => decide (p ∈ x.keys)).map (fun p => (⟨k, x.traceIdx, p⟩, (k / c, k % c))) ++ ownBlocks c pivots (k + 1) xs

theorem placeAll_own (l : Layout) (c k t : Nat) (rest : List SSeries) (ps : List Val) (i : Nat) (h : axisOf l t = some (k / c, k % c)) (i' : Nat) :
    placeAll l true i rest = placeAll l true i' rest ∧
    placeAll l true i (ps.map (fun p => (⟨k, t, p⟩ : SSeries)) ++ rest) =
      (placeAll l true i rest).map fun r => ps.map (fun p => ((⟨k, t, p⟩ : SSeries), (k / c, k % c))) ++ r := by
  have h0 : ∀ (rest : List SSeries) (i i' : Nat), placeAll l true i rest = placeAll l true i' rest := by
    intro rest
    induction rest with
    | nil => intro i i'; rfl
    | cons s ss ih =>
      intro i i'
      unfold placeAll
      simp only [if_true]
      rw [ih (i + 1) (i' + 1)]
  refine ⟨h0 rest i i', ?_⟩
  induction ps generalizing i with
  | nil => simp
  | cons p ps ih =>
    rw [List.map_cons, List.cons_append, placeAll]
    simp only [if_true]
    rw [h, ih (i + 1), h0 rest (i + 1) i]
    cases placeAll l true i rest with
    | none => rfl
    | some r => simp

theorem placeAll_ownBlocks (l : Layout) (c : Nat) (pivots : List Val) (cs : List SConstraint) (k i m : Nat) (hm : k + cs.length = m)
    (ht : ∀ (j : Nat) (x : SConstraint), cs[j]? = some x → x.traceIdx = k + j) (h : ∀ k', k' < m → axisOf l k' = some (k' / c, k' % c)) :
    placeAll l true i (cpPairs pivots k cs) = some (ownBlocks c pivots k cs) := by
  induction cs generalizing k i with
  | nil => rfl
  | cons x xs ih =>
    simp only [List.length_cons] at hm
    have hx : x.traceIdx = k := by simpa using ht 0 x rfl
    unfold cpPairs
    rw [(placeAll_own l c k x.traceIdx _ _ i (by rw [hx]; exact h k (by omega)) i).2,
      ih (k + 1) i (by omega) (fun j y hy => by have := ht (j + 1) y (by simpa using hy); omega)]
    rfl

theorem ownBlocks_ge (c : Nat) (pivots : List Val) (cs : List SConstraint) (k : Nat) (q : SSeries × (Nat × Nat)) (hq : q ∈ ownBlocks c pivots k cs) :
    ∃ k', k ≤ k' ∧ q.2 = (k' / c, k' % c) := by
  induction cs generalizing k with
  | nil => simp [ownBlocks] at hq
  | cons x xs ih =>
    unfold ownBlocks at hq
    rcases List.mem_append.1 hq with hq | hq
    · obtain ⟨p, _, rfl⟩ := List.mem_map.1 hq
      exact ⟨k, Nat.le_refl _, rfl⟩
    · obtain ⟨k', h1, h2⟩ := ih (k + 1) hq
      exact ⟨k', by omega, h2⟩

theorem ownBlocks_count (c : Nat) (pivots : List Val) (cs : List SConstraint) (k : Nat) (a : Nat × Nat) :
    ((ownBlocks c pivots k cs).filter fun q => q.2 == a).length ≤ pivots.length := by
  induction cs generalizing k with
  | nil => simp [ownBlocks]
  | cons x xs ih =>
    unfold ownBlocks
    rw [List.filter_append, List.length_append]
    by_cases ha : (k / c, k % c) = a
    · have : ((ownBlocks c pivots (k + 1) xs).filter fun q => q.2 == a) = [] := by
        rw [List.filter_eq_nil_iff]
        intro q hq
        obtain ⟨k', h1, h2⟩ := ownBlocks_ge c pivots xs (k + 1) q hq
        rw [beq_iff_eq, h2, ← ha]
        intro e
        have := cell_inj e
        omega
      rw [this, List.length_nil, Nat.add_zero]
      refine Nat.le_trans (List.length_filter_le _ _) ?_
      rw [List.length_map]
      exact List.length_filter_le _ _
    · have : ((((pivots.filter fun p => decide (p ∈ x.keys)).map (fun p => ((⟨k, x.traceIdx, p⟩ : SSeries), (k / c, k % c))))).filter
          fun q => q.2 == a) = [] := by
        rw [List.filter_eq_nil_iff]
        intro q hq
        obtain ⟨p, _, rfl⟩ := List.mem_map.1 hq
        simpa using ha
      rw [this, List.length_nil, Nat.zero_add]
      exact ih (k + 1)

/-- **C97, partial.** If the constraints have the trace indices 0, 1, 2, … (as many traces as columns, not permuted), a concatenated plot draws all the series of
constraint number k, and nothing else, on cell k of the grid. For all constraints, pivots and numbers of plots per line. -/
theorem C97_concat_partial {perLine : Nat} (hl : 0 < perLine) {cs : List SConstraint} (hc : cs ≠ []) (pivots : List Val)
    (ht : ∀ (j : Nat) (x : SConstraint), cs[j]? = some x → x.traceIdx = j) :
    staticPlot perLine true cs pivots = .ok (ownBlocks (min perLine cs.length) pivots 0 cs) := by
  have hn : 0 < cs.length := List.length_pos_iff.2 hc
  obtain ⟨l, h⟩ := (C69_when perLine cs.length).2 ⟨hn, hl⟩
  obtain ⟨_, _, h3, h4, _⟩ := mkLayout_spec h
  unfold staticPlot
  simp only [if_true]
  rw [h]
  simp only
  rw [placeAll_ownBlocks l l.cols pivots cs 0 0 cs.length (by simp) (by simpa using ht) fun k' hk' => axisOf_cell h (by omega)]
  simp only
  rw [if_pos]
  · rw [h3]
  · unfold legendFits
    rw [List.all_eq_true]
    intro q _
    rw [decide_eq_true_iff]
    exact ownBlocks_count _ _ _ _ _

/-- `C97_concat_partial`: two traces, the second without data for cpu 1 -/
example : staticPlot 2 true [⟨[.int 0, .int 1], 0⟩, ⟨[.int 0], 1⟩] [.int 0, .int 1] =
    .ok [(⟨0, 0, .int 0⟩, (0, 0)), (⟨0, 0, .int 1⟩, (0, 0)), (⟨1, 1, .int 0⟩, (0, 1))] := rfl

/-- **C97, refuted.** One trace with two columns: both constraints have trace index 0 and are drawn on the first axis, where the legend has no room for the second: `IndexError`. -/
theorem C97_concat_refuted : staticPlot 2 true [⟨[.int 7], 0⟩, ⟨[.int 7], 0⟩] [.int 7] = .error .indexError := rfl

/-- **C97 (axes), refuted.** With different pivot values the plot is drawn, but both constraints are on the first axis. -/
theorem C97_axis_refuted : staticPlot 2 true [⟨[.int 7], 0⟩, ⟨[.int 8], 0⟩] [.int 7, .int 8] =
    .ok [(⟨0, 0, .int 7⟩, (0, 0)), (⟨1, 0, .int 8⟩, (0, 0))] := rfl

/-! ## C71: interactive plots -/

/-- **Specification**: name of figure number `i` -/
def figName (uuid : Nat → Str) (i : Nat) : Str := cs!"fig_" ++ uuid i

/-- **Specification**: a row of the table: the graphs of figures `a`, …, `a + p - 1`, then a row with their legends -/
def rowHtml (uuid : Nat → Str) (p a : Nat) : List HElem :=
  [.row] ++ (List.range' a p).map (fun i => HElem.graph (figName uuid i)) ++ [.endRow] ++
  [.row] ++ (List.range' a p).map (fun i => HElem.legend (figName uuid i)) ++ [.endRow]

theorem genCells_spec (uuid : Nat → Str) (n : Nat) (st : GenState) :
    genCells uuid n st = ({ html := st.html ++ (List.range' st.figIndex n).map (fun i => HElem.graph (figName uuid i)),
                            figMap := st.figMap ++ (List.range' st.figIndex n).map (fun i => (i, figName uuid i)),
                            figIndex := st.figIndex + n }, (List.range' st.figIndex n).map (figName uuid)) := by
  induction n generalizing st with
  | zero => simp [genCells]
  | succ n ih =>
    unfold genCells
    simp only [genCell]
    rw [ih]
    simp only [List.range'_succ, List.map_cons, figName]
    simp [Nat.add_comm, Nat.add_left_comm]

theorem genRow_spec (uuid : Nat → Str) (p : Nat) (st : GenState) :
    genRow uuid p st = { html := st.html ++ rowHtml uuid p st.figIndex,
                         figMap := st.figMap ++ (List.range' st.figIndex p).map (fun i => (i, figName uuid i)),
                         figIndex := st.figIndex + p } := by
  unfold genRow
  rw [genCells_spec]
  simp [rowHtml, Function.comp_def]

theorem genRows_spec (uuid : Nat → Str) (p n : Nat) (st : GenState) :
    genRows uuid p n st = { html := st.html ++ (List.range n).flatMap (fun r => rowHtml uuid p (st.figIndex + r * p)),
                            figMap := st.figMap ++ (List.range' st.figIndex (n * p)).map (fun i => (i, figName uuid i)),
                            figIndex := st.figIndex + n * p } := by
  induction n generalizing st with
  | zero => simp [genRows]
  | succ n ih =>
    unfold genRows
    rw [ih, genRow_spec]
    simp only [List.append_assoc, GenState.mk.injEq, List.append_cancel_left_eq]
    refine ⟨?_, ?_, ?_⟩
    · rw [List.range_succ_eq_map, List.flatMap_cons, List.flatMap_map, Nat.zero_mul, Nat.add_zero]
      congr 1
      congr 1
      funext r
      congr 1
      rw [Nat.succ_mul]
      omega
    · rw [Nat.succ_mul, Nat.add_comm (n * p), ← List.range'_append_1, List.map_append]
    · rw [Nat.succ_mul]
      omega

/-- **C71 (table).** The table has as many rows of graphs as needed for all plots, at most one of them incomplete, each followed by the row of its legends; every row has the same number of cells,
and the figures are numbered through. For all numbers of plots and plots per line. -/
theorem C71_table (uuid : Nat → Str) (perLine num : Nat) (hl : 0 < perLine) (hn : 0 < num) :
    ∃ (st : GenState) (rows : Nat), mkIPlot uuid perLine num = .ok st ∧
      num ≤ rows * min perLine num ∧ rows * min perLine num < num + min perLine num ∧
      st.html = [HElem.table] ++ (List.range rows).flatMap (fun r => rowHtml uuid (min perLine num) (r * min perLine num)) ++ [HElem.endTable] ∧
      st.figMap = (List.range (rows * min perLine num)).map fun i => (i, figName uuid i) := by
  obtain ⟨h1, h2⟩ := ceil_div num (min perLine num) (by omega)
  unfold mkIPlot
  rw [if_neg (by omega)]
  have hc : (if num < perLine then num else perLine) = min perLine num := by split <;> omega
  simp only
  rw [hc, if_neg (by omega)]
  refine ⟨_, _, rfl, h1, h2, ?_, ?_⟩
  · rw [genRows_spec]
    simp
  · rw [genRows_spec]
    simp [List.range_eq_range']

theorem lookup_range (f : Nat → Str) (n i : Nat) (hi : i < n) : ((List.range n).map fun k => (k, f k)).lookup i = some (f i) := by
  rw [List.range_eq_range']
  have : ∀ a, a ≤ i → i < a + n → ((List.range' a n).map fun k => (k, f k)).lookup i = some (f i) := by
    clear hi
    induction n with
    | zero => intro a h1 h2; omega
    | succ n ih =>
      intro a h1 h2
      rw [List.range'_succ, List.map_cons, List.lookup_cons]
      by_cases h : i = a
      · subst h; simp
      · have : (i == a) = false := by simpa using h
        rw [this]
        exact ih (a + 1) (by omega) (by omega)
  exact this 0 (by omega) (by omega)

/-- **C71 (figures).** Every plot index has a figure name, and different plots have different names if the generator never repeats. -/
theorem C71_figures {uuid : Nat → Str} {perLine num : Nat} {st : GenState} (h : mkIPlot uuid perLine num = .ok st) :
    (∀ i, i < num → st.figMap.lookup i = some (figName uuid i)) ∧
    ((∀ a b, uuid a = uuid b → a = b) → ∀ i j, i < num → j < num → st.figMap.lookup i = st.figMap.lookup j → i = j) := by
  have hpos : 0 < perLine ∧ 0 < num := by
    have hc : (if num < perLine then num else perLine) = min perLine num := by split <;> omega
    unfold mkIPlot at h
    rw [hc] at h
    by_cases h0 : num = 0
    · rw [if_pos h0] at h; cases h
    · rw [if_neg h0] at h
      simp only at h
      by_cases h1 : min perLine num = 0
      · rw [if_pos h1] at h; cases h
      · omega
  obtain ⟨st', rows, h1, h2, _, _, h3⟩ := C71_table uuid perLine num hpos.1 hpos.2
  rw [h] at h1
  cases h1
  have key : ∀ i, i < num → st.figMap.lookup i = some (figName uuid i) := by
    intro i hi
    rw [h3]
    exact lookup_range _ _ _ (by omega)
  refine ⟨key, fun hu i j hi hj e => ?_⟩
  rw [key i hi, key j hj] at e
  simp only [figName, Option.some.injEq, List.append_cancel_left_eq] at e
  exact hu _ _ e

/-- **C71 (data).** The data of a figure have one row per time, made of the time and the values, under the labels of the columns. -/
theorem C71_data {α : Type} (indexLabel : Str) {columns : List Str} {index : List α} {values : List (List α)}
    (hv : ∀ r ∈ values, r.length = columns.length) (hi : index.length = values.length) :
    (dfToDygraph indexLabel columns index values).1 = indexLabel :: columns ∧
    (dfToDygraph indexLabel columns index values).2.length = index.length ∧
    ∀ (i : Nat) (x : α) (r : List α), index[i]? = some x → values[i]? = some r → (dfToDygraph indexLabel columns index values).2[i]? = some (x :: r) ∧
      (x :: r).length = (dfToDygraph indexLabel columns index values).1.length := by
  refine ⟨rfl, by simp [dfToDygraph, hi], fun i x r hx hr => ⟨?_, ?_⟩⟩
  · simp [dfToDygraph, List.getElem?_zipWith, hx, hr]
  · simp [dfToDygraph, hv r (List.mem_of_getElem? hr)]

/-- C71: three plots, two per line: the figures 0 to 3 in two rows -/
example : mkIPlot (fun i => Py.natStr i) 2 3 = .ok
    { html := [.table, .row, .graph cs!"fig_0", .graph cs!"fig_1", .endRow, .row, .legend cs!"fig_0", .legend cs!"fig_1", .endRow,
               .row, .graph cs!"fig_2", .graph cs!"fig_3", .endRow, .row, .legend cs!"fig_2", .legend cs!"fig_3", .endRow, .endTable],
      figMap := [(0, cs!"fig_0"), (1, cs!"fig_1"), (2, cs!"fig_2"), (3, cs!"fig_3")], figIndex := 4 } := rfl

/-- `C71_data` -/
example : (dfToDygraph cs!"index" [cs!"a", cs!"b"] [1, 2] [[10, 20], [30, 40]]).2 = [[1, 10, 20], [2, 30, 40]] := rfl

/-! ## C98: data of interactive plots -/

theorem plotData_spec {σ : Type} (pivot : Val) (cs : List (IConstraint σ)) (d : Dict σ)
    (hn : (d.map Prod.fst ++ (cs.filter fun c => (c.result.lookup pivot).isSome).map (·.label)).Nodup) :
    plotData pivot cs d = d ++ cs.filterMap fun c => (c.result.lookup pivot).map fun s => (c.label, s) := by
  induction cs generalizing d with
  | nil => simp [plotData]
  | cons c cs ih =>
    unfold plotData
    cases h : c.result.lookup pivot with
    | none =>
      simp only
      rw [List.filter_cons, h] at hn
      rw [ih d (by simpa using hn)]
      simp [h]
    | some s =>
      simp only
      rw [List.filter_cons, h] at hn
      simp only [Option.isSome_some, if_true, List.map_cons] at hn
      have hnew : c.label ∉ d.map Prod.fst := by
        intro hm
        rw [List.nodup_append] at hn
        exact hn.2.2 _ hm _ List.mem_cons_self rfl
      have hs : d.set c.label s = d ++ [(c.label, s)] := by
        have := Dict.set_append_new (e := []) (v := s) hnew
        simpa [Dict.set] using this
      rw [hs, ih]
      · simp [h]
      · simpa using hn

/-- **C98, partial.** If the constraints with data for a pivot have different labels, the plot of the pivot shows the series of every such constraint
under its label, in the order of the constraints, and nothing else. For all constraints. -/
theorem C98_data_partial {σ : Type} (pivot : Val) (cs : List (IConstraint σ))
    (hn : ((cs.filter fun c => (c.result.lookup pivot).isSome).map (·.label)).Nodup) :
    plotData pivot cs [] = cs.filterMap fun c => (c.result.lookup pivot).map fun s => (c.label, s) := by
  have := plotData_spec pivot cs [] (by simpa using hn)
  simpa using this

theorem plotPermData_eq {σ : Type} (trace : Nat) (pivot : Val) (cs : List (IConstraint σ)) (d : Dict σ) :
    plotPermData trace pivot cs d =
      plotData pivot ((cs.filter fun c => c.traceIdx == trace).map fun c => { c with label := c.permLabel }) d := by
  induction cs generalizing d with
  | nil => rfl
  | cons c cs ih =>
    unfold plotPermData
    by_cases h : c.traceIdx = trace
    · simp only [h, ne_eq, not_true_eq_false, if_false, List.filter_cons, beq_self_eq_true, if_true, List.map_cons]
      rw [plotData]
      simp only
      cases c.result.lookup pivot with
      | none => exact ih d
      | some s => exact ih _
    · have : (c.traceIdx == trace) = false := by simpa using h
      simp only [ne_eq, h, not_false_iff, if_true, List.filter_cons, this]
      exact ih d

/-- **C98 (permuted), partial.** With permutation the plot of a trace and a pivot shows the series of every constraint of that trace with data, if their labels differ. -/
theorem C98_perm_partial {σ : Type} (trace : Nat) (pivot : Val) (cs : List (IConstraint σ))
    (hn : ((cs.filter fun c => c.traceIdx == trace && (c.result.lookup pivot).isSome).map (·.permLabel)).Nodup) :
    plotPermData trace pivot cs [] =
      (cs.filter fun c => c.traceIdx == trace).filterMap fun c => (c.result.lookup pivot).map fun s => (c.permLabel, s) := by
  rw [plotPermData_eq, C98_data_partial, List.filterMap_map]
  · rfl
  · rw [List.filter_map, List.map_map, List.filter_filter]
    have e : (cs.filter fun a => ((fun c : IConstraint σ => (c.result.lookup pivot).isSome) ∘ fun c => { c with label := c.permLabel }) a && a.traceIdx == trace) =
        cs.filter fun c => c.traceIdx == trace && (c.result.lookup pivot).isSome := by
      apply List.filter_congr
      intro c _
      exact Bool.and_comm _ _
    rw [e]
    exact hn

/-- `C98_data_partial`: two unnamed traces -/
example : plotData (.int 0) [⟨constraintStr [] 0 cs!"cpu_frequency" cs!"frequency", [], 0, [(.int 0, "first")]⟩,
    ⟨constraintStr [] 1 cs!"cpu_frequency" cs!"frequency", [], 1, [(.int 0, "second")]⟩] [] =
    [(cs!"Trace 0:cpu_frequency:frequency", "first"), (cs!"Trace 1:cpu_frequency:frequency", "second")] := rfl

/-- **C98, refuted.** Two traces with the same name: the series of the first one is lost. -/
theorem C98_data_refuted : plotData (.int 0) [⟨constraintStr cs!"run" 0 cs!"cpu_frequency" cs!"frequency", [], 0, [(.int 0, "first")]⟩,
    ⟨constraintStr cs!"run" 1 cs!"cpu_frequency" cs!"frequency", [], 1, [(.int 0, "second")]⟩] [] =
    [(cs!"run:cpu_frequency:frequency", "second")] := rfl

/-! ## C99: titles of permuted interactive plots -/

/-- **Specification**: the title is the name of the trace of the plot. -/
def TitlesOk (names : List Str) (pairs : List (Nat × Val)) (titles : List Str) : Prop :=
  titles.length = pairs.length ∧ ∀ (i : Nat) (p : Nat × Val), pairs[i]? = some p → titles[i]? = names[p.1]?

theorem permTitles_spec (names : List Str) (pairs : List (Nat × Val)) (i : Nat) (h : i + pairs.length ≤ names.length) :
    permTitles names i pairs = some ((names.drop i).take pairs.length) := by
  induction pairs generalizing i with
  | nil => simp [permTitles]
  | cons p ps ih =>
    simp only [List.length_cons] at h ⊢
    unfold permTitles
    have hi : i < names.length := by omega
    rw [List.getElem?_eq_getElem hi, ih (i + 1) (by omega)]
    simp only
    rw [List.drop_eq_getElem_cons hi, List.take_succ_cons]

/-- **C99, partial.** With a single pivot value every plot of an interactive plot with permutation has the name of its trace as title. -/
theorem C99_titles_partial (names : List Str) (pivot : Val) :
    ∃ titles, permTitles names 0 ((List.range names.length).map fun i => (i, pivot)) = some titles ∧
      TitlesOk names ((List.range names.length).map fun i => (i, pivot)) titles := by
  refine ⟨_, permTitles_spec _ _ 0 (by simp), by simp, ?_⟩
  intro i p hp
  simp only [List.getElem?_map, Option.map_eq_some_iff] at hp
  obtain ⟨k, hk, rfl⟩ := hp
  rw [List.getElem?_eq_some_iff] at hk
  obtain ⟨hi, e⟩ := hk
  rw [List.getElem_range] at e
  subst e
  simp only [List.length_range] at hi
  simp

/-- **C99, refuted.** Two traces with two pivot values: the titles run over the traces with the plots, and `IndexError` is raised at the third plot. -/
theorem C99_titles_refuted : permTitles [cs!"first", cs!"second"] 0 [(0, .int 0), (0, .int 1), (1, .int 0), (1, .int 1)] = none := rfl

/-- **C99 (wrong title), refuted.** Up to then the second plot of the first trace has the name of the second trace as title. -/
theorem C99_wrong_refuted : permTitles [cs!"first", cs!"second"] 0 [(0, .int 0), (0, .int 1)] = some [cs!"first", cs!"second"] ∧
    ¬ TitlesOk [cs!"first", cs!"second"] [(0, .int 0), (0, .int 1)] [cs!"first", cs!"second"] := by
  refine ⟨rfl, ?_⟩
  rintro ⟨_, h⟩
  have := h 1 (0, .int 1) rfl
  revert this
  decide

/-- `C99_titles_partial` -/
example : permTitles [cs!"first", cs!"second"] 0 [(0, .int 0), (1, .int 0)] = some [cs!"first", cs!"second"] := rfl

end Trappy
