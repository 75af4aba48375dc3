import Verif.Lemma.Power
/-!
# C50, C51: power tables
-/

namespace Trappy

/-! ## C50 -/

/-- **C50, part proved.** For every table in time order, every iteration order of the clusters, and every labelling that
labels all clusters with different labels: if no cluster reports twice at one time, the table has one row for each time,
one column for each label, and each cell is the most recent value of the cluster at or before that time. -/
theorem C50_pivot_partial {α : Type} (order : List Str) (rows : List (PRow α)) (mapping : Dict Str) (lab : Str → Str)
    (ho : order.Nodup) (hmem : ∀ m, m ∈ order ↔ ∃ r ∈ rows, r.mask = m)
    (hlab : ∀ m ∈ order, mapping.get m = some (lab m)) (hinj : ∀ m ∈ order, ∀ m' ∈ order, lab m = lab m' → m = m')
    (hsort : (rows.map PRow.time).Pairwise (· ≤ ·)) (hdup : ∀ m, ((rows.filter fun r => r.mask = m).map PRow.time).Nodup) :
    ∃ T, pivotWithLabels order rows mapping = .ok T ∧
      T.index.Pairwise (· < ·) ∧ (∀ t, t ∈ T.index ↔ ∃ r ∈ rows, r.time = t) ∧
      T.cols.map Prod.fst = order.map lab ∧
      ∀ m ∈ order, ∃ col, T.cols.get (lab m) = some col ∧ col.length = T.index.length ∧
        ∀ (j : Nat) (t : Nat), T.index[j]? = some t → ∃ v, col[j]? = some v ∧ LastObs rows m t v := by
  have hser : ∀ m, ((seriesOf rows m).map Prod.fst).Pairwise (· < ·) := by
    intro m
    have e : (seriesOf rows m).map Prod.fst = (rows.filter fun r => r.mask = m).map PRow.time := by
      simp [seriesOf, List.map_map, Function.comp_def]
    rw [e]
    have h1 : ((rows.filter fun r => r.mask = m).map PRow.time).Pairwise (· ≤ ·) :=
      hsort.sublist (List.filter_sublist.map _)
    have h2 := hdup m
    exact (h1.and h2).imp fun h => by omega
  have hloop := pivotLoop_ok rows mapping lab order [] ho hlab hinj (by simp)
  rw [List.nil_append] at hloop
  obtain ⟨hs, hm⟩ := commonIndex_spec ((order.map fun m => (lab m, seriesOf rows m)).map fun x => x.2.map Prod.fst) (by
    intro i hi
    simp only [List.map_map, List.mem_map, Function.comp_apply] at hi
    obtain ⟨m, _, rfl⟩ := hi
    exact hser m)
  generalize hidx : commonIndex ((order.map fun m => (lab m, seriesOf rows m)).map fun x => x.2.map Prod.fst) = idx at hs hm
  have hin : ∀ t, t ∈ idx ↔ ∃ r ∈ rows, r.time = t := by
    intro t
    rw [hm]
    constructor
    · rintro ⟨i, hi, ht⟩
      simp only [List.map_map, List.mem_map, Function.comp_apply] at hi
      obtain ⟨m, _, rfl⟩ := hi
      simp only [seriesOf, List.map_map, List.mem_map, List.mem_filter, Function.comp_apply] at ht
      obtain ⟨r, ⟨hr, _⟩, rfl⟩ := ht
      exact ⟨r, hr, rfl⟩
    · rintro ⟨r, hr, rfl⟩
      refine ⟨(seriesOf rows r.mask).map Prod.fst, ?_, ?_⟩
      · simp only [List.map_map, List.mem_map, Function.comp_apply]
        exact ⟨r.mask, (hmem _).mpr ⟨r, hr, rfl⟩, rfl⟩
      · simp only [seriesOf, List.map_map, List.mem_map, List.mem_filter, Function.comp_apply]
        exact ⟨r, ⟨hr, by simp⟩, rfl⟩
  have halign := alignAll_ok idx (order.map fun m => (lab m, seriesOf rows m)) (by
    intro x hx
    obtain ⟨m, _, rfl⟩ := List.mem_map.mp hx
    exact (hser m).imp fun h => by omega)
  refine ⟨⟨idx, order.map fun m => (lab m, ffill none (idx.map fun t => ((seriesOf rows m).lookup t).join))⟩, ?_, hs, hin, ?_, ?_⟩
  · unfold pivotWithLabels
    rw [hloop]
    simp only [hidx, halign]
    rw [List.map_map]
    rfl
  · simp [List.map_map, Function.comp_def]
  · intro m hmo
    refine ⟨_, get_map_inj lab _ order hinj m hmo, by simp [ffill_length], ?_⟩
    intro j t hj
    refine ⟨_, column_cell idx (seriesOf rows m) hs (hser m) ?_ j t hj, lastObs_series rows m t⟩
    intro x hx
    simp only [seriesOf, List.mem_map, List.mem_filter] at hx
    obtain ⟨r, ⟨hr, _⟩, rfl⟩ := hx
    exact (hin _).mpr ⟨r, hr, rfl⟩

/-- **C50.** A cluster without a label raises `KeyError`, in whatever order the clusters are visited. -/
theorem C50_unlabelled {α : Type} (order : List Str) (rows : List (PRow α)) (mapping : Dict Str) (m : Str) (hm : m ∈ order)
    (hk : mapping.get m = none) : pivotWithLabels order rows mapping = .error .keyError := by
  have : ∀ (order : List Str) (acc : Dict (List (Nat × Option α))), m ∈ order →
      pivotLoop rows mapping order acc = .error .keyError := by
    intro order
    induction order with
    | nil => intro acc h; simp at h
    | cons a as ih =>
      intro acc h
      simp only [pivotLoop]
      cases ha : mapping.get a with
      | none => rfl
      | some l =>
        rcases List.mem_cons.mp h with rfl | h
        · rw [hk] at ha; simp at ha
        · exact ih _ h
  unfold pivotWithLabels
  rw [this order [] hm]

/-- two clusters that report at the same times and at different times -/
def exPivot : List (PRow Nat) :=
  [⟨1, cs!"0f", some 5⟩, ⟨1, cs!"f0", some 6⟩, ⟨2, cs!"0f", some 7⟩, ⟨4, cs!"0f", none⟩, ⟨5, cs!"f0", some 9⟩]

/-- the labels of the clusters -/
def exLabels : Dict Str := [(cs!"f0", cs!"A15"), (cs!"0f", cs!"A7")]

/-- the hypotheses are met -/
example : [cs!"f0", cs!"0f"].Nodup ∧ (exPivot.map PRow.time).Pairwise (· ≤ ·) ∧
    ((exPivot.filter fun r => r.mask = cs!"0f").map PRow.time).Nodup ∧
    pivotWithLabels [cs!"f0", cs!"0f"] exPivot exLabels =
      .ok ⟨[1, 2, 4, 5], [(cs!"A15", [some 6, some 6, some 6, some 9]), (cs!"A7", [some 5, some 7, some 7, some 7])]⟩ ∧
    LastObs exPivot cs!"0f" 4 (some 7) := by
  refine ⟨by decide, by decide, by decide, by decide +kernel, [⟨1, cs!"0f", some 5⟩, ⟨1, cs!"f0", some 6⟩], ⟨2, cs!"0f", some 7⟩, _, rfl, ?_⟩
  decide

/-- **C50 refuted** when two clusters share a label: only the cluster visited last is kept, the other values are gone
although the label stands for both; which one is kept depends on the order of a set. -/
theorem C50_shared_label_refuted :
    ∃ (rows : List (PRow Nat)) (mapping : Dict Str),
      pivotWithLabels [cs!"0f", cs!"f0"] rows mapping = .ok ⟨[2], [(cs!"A", [some 6])]⟩ ∧
      pivotWithLabels [cs!"f0", cs!"0f"] rows mapping = .ok ⟨[1], [(cs!"A", [some 5])]⟩ ∧
      ¬ LastObs rows cs!"0f" 2 (some 6) := by
  refine ⟨[⟨1, cs!"0f", some 5⟩, ⟨2, cs!"f0", some 6⟩], [(cs!"0f", cs!"A"), (cs!"f0", cs!"A")], by decide +kernel, by decide +kernel, ?_⟩
  rintro ⟨pre, r, post, e, h1, _, h2, _⟩
  have hr : r ∈ ([⟨1, cs!"0f", some 5⟩, ⟨2, cs!"f0", some 6⟩] : List (PRow Nat)) := by rw [e]; simp
  simp at hr
  rcases hr with rfl | rfl
  · simp at h2
  · simp at h1

/-- **C50 refuted** for two clusters of which one reports twice at one time: pandas cannot align the series and the call
raises `ValueError`. -/
theorem C50_duplicate_time_refuted :
    ∃ (rows : List (PRow Nat)) (mapping : Dict Str), (rows.map PRow.time).Pairwise (· ≤ ·) ∧
      (∀ r ∈ rows, (mapping.get r.mask).isSome) ∧
      pivotWithLabels [cs!"0f", cs!"f0"] rows mapping = .error .duplicateAxis := by
  refine ⟨[⟨1, cs!"0f", some 5⟩, ⟨1, cs!"0f", some 6⟩, ⟨2, cs!"f0", some 6⟩], exLabels, ?_, ?_, ?_⟩ <;> decide +kernel

/-- **C50** for frequencies: `get_all_freqs` is the pivoted table with every cell divided by 1000. -/
theorem C50_freqs (order : List Str) (rows : List (PRow Rat)) (mapping : Dict Str) (T : PTable Rat)
    (h : pivotWithLabels order rows mapping = .ok T) :
    ∃ T', getAllFreqs order rows mapping = .ok T' ∧ T'.index = T.index ∧
      ∀ (l : Str) (j : Nat), ((T'.cols.get l).bind fun c => c[j]?) =
        ((T.cols.get l).bind fun c => c[j]?).map fun v => v.map (· / 1000) := by
  unfold getAllFreqs
  rw [h]
  refine ⟨_, rfl, rfl, ?_⟩
  intro l j
  simp only
  generalize T.cols = cols
  induction cols with
  | nil => rfl
  | cons x cols ih =>
    obtain ⟨k, c⟩ := x
    simp only [List.map_cons, Dict.get]
    split
    · simp
    · exact ih

/-! ## C51 -/

theorem loadCols_cons (n : Str) (ns : List Str) :
    loadCols (n :: ns) = (if isLoadCol n then [0] else []) ++ (loadCols ns).map (· + 1) := by
  unfold loadCols
  rw [List.length_cons, List.range_succ_eq_map, List.filter_cons]
  have e : (List.map Nat.succ (List.range ns.length)).filter (fun i => ((n :: ns)[i]?.map isLoadCol) == some true) =
      ((List.range ns.length).filter fun i => (ns[i]?.map isLoadCol) == some true).map (· + 1) := by
    rw [List.filter_map]
    congr 1
  rw [e]
  by_cases h : isLoadCol n <;> simp [h]

theorem loadCols_loads (names : List Str) (r : LRow) (h : r.vals.length = names.length) :
    (loadCols names).map r.cell = r.loads names := by
  obtain ⟨t, m, f, vals⟩ := r
  unfold LRow.loads LRow.cell
  simp only at h ⊢
  induction names generalizing vals with
  | nil => rfl
  | cons n ns ih =>
    cases vals with
    | nil => simp at h
    | cons v vs =>
      have := ih vs (by simpa using h)
      rw [loadCols_cons, List.map_append, List.map_map, List.zip_cons_cons, List.filter_cons]
      have e : ((fun i : Nat => (v :: vs)[i]?.getD 0) ∘ fun x => x + 1) = fun i : Nat => vs[i]?.getD 0 := by
        funext i; simp
      rw [e, this]
      by_cases hl : isLoadCol n
      · have hl' : cs!"load".isPrefixOf n = true := hl
        simp only [if_pos hl, hl', if_true]
        rfl
      · have hl' : ¬ cs!"load".isPrefixOf n = true := hl
        simp only [if_neg hl, if_neg hl']
        rfl

theorem loadSeries_ok (names : List Str) (rows : List LRow) (hlen : ∀ r ∈ rows, r.vals.length = names.length)
    (hload : ∃ n ∈ names, cs!"load" <+: n) : loadSeries names rows = .ok (rows.map fun r => (r.loads names).sum) := by
  have hfold : ∀ (cs : List Nat) (f : LRow → Rat),
      cs.foldl (fun acc col => acc.zipWith (· + ·) (rows.map fun r => r.cell col)) (rows.map f) =
        rows.map fun r => f r + (cs.map r.cell).sum := by
    intro cs
    induction cs with
    | nil => intro f; simp
    | cons c cs ih =>
      intro f
      rw [List.foldl_cons]
      have : List.zipWith (· + ·) (rows.map f) (rows.map fun r => r.cell c) = rows.map fun r => f r + r.cell c := by
        rw [List.zipWith_map_left, List.zipWith_map_right, List.zipWith_self]
      rw [this, ih]
      apply List.map_congr_left
      intro r _
      simp [add_assoc]
  have hne : loadCols names ≠ [] := by
    obtain ⟨n, hn, hp⟩ := hload
    obtain ⟨i, hi, e⟩ := List.getElem_of_mem hn
    have : i ∈ loadCols names := by
      unfold loadCols
      rw [List.mem_filter, List.mem_range]
      refine ⟨hi, ?_⟩
      rw [List.getElem?_eq_getElem hi, e]
      have : isLoadCol n = true := List.isPrefixOf_iff_prefix.mpr hp
      simp [this]
    intro h
    rw [h] at this
    simp at this
  unfold loadSeries
  cases hc : loadCols names with
  | nil => exact absurd hc hne
  | cons c cs =>
    simp only [hfold]
    congr 1
    apply List.map_congr_left
    intro r hr
    rw [← loadCols_loads names r (hlen r hr), hc]
    simp

theorem maxOf_spec (l : List Rat) (h : l ≠ []) : ∃ x, maxOf l = some x ∧ x ∈ l ∧ ∀ y ∈ l, y ≤ x := by
  have : ∀ (l : List Rat) (x : Rat), let z := l.foldl (fun m y => if m < y then y else m) x
      (z ∈ l ∨ z = x) ∧ x ≤ z ∧ ∀ y ∈ l, y ≤ z := by
    intro l
    induction l with
    | nil => intro x; simp
    | cons a l ih =>
      intro x
      simp only [List.foldl_cons]
      by_cases h : x < a
      · obtain ⟨h1, h2, h3⟩ := ih a
        simp only [if_pos h]
        refine ⟨?_, le_trans h.le h2, ?_⟩
        · rcases h1 with h1 | h1
          · left; exact List.mem_cons_of_mem _ h1
          · left; rw [h1]; simp
        · intro y hy
          rcases List.mem_cons.mp hy with rfl | hy
          · exact h2
          · exact h3 y hy
      · obtain ⟨h1, h2, h3⟩ := ih x
        simp only [if_neg h]
        refine ⟨?_, h2, ?_⟩
        · rcases h1 with h1 | h1
          · left; exact List.mem_cons_of_mem _ h1
          · right; exact h1
        · intro y hy
          rcases List.mem_cons.mp hy with rfl | hy
          · exact le_trans (not_lt.mp h) h2
          · exact h3 y hy
  cases l with
  | nil => exact absurd rfl h
  | cons a l =>
    obtain ⟨h1, h2, h3⟩ := this l a
    refine ⟨_, rfl, ?_, ?_⟩
    · rcases h1 with h1 | h1
      · exact List.mem_cons_of_mem _ h1
      · rw [h1]; simp
    · intro y hy
      rcases List.mem_cons.mp hy with rfl | hy
      · exact h2
      · exact h3 y hy

theorem normLoop_ok (rows : List LRow) (n : Str → Nat) (mf : Str → Rat) (ms : List Str) (hnd : ms.Nodup)
    (hn : ∀ m ∈ ms, numCpusInMask m = some (n m))
    (hmf : ∀ m ∈ ms, maxOf ((rows.filter fun r => r.mask = m).map LRow.freq) = some (mf m)) (f : LRow → Rat) :
    normLoop rows ms (rows.map f) =
      .ok (rows.map fun r => if r.mask ∈ ms then f r / (mf r.mask * n r.mask) else f r) := by
  induction ms generalizing f with
  | nil => simp [normLoop]
  | cons m ms ih =>
    rw [List.nodup_cons] at hnd
    simp only [normLoop, hn m (by simp), hmf m (by simp)]
    have e : ((rows.zip (rows.map f)).map fun (r, x) => if r.mask = m then x / (mf m * n m) else x) =
        rows.map fun r => if r.mask = m then f r / (mf m * n m) else f r := by
      clear * -
      induction rows with
      | nil => rfl
      | cons r rows ih => simp only [List.map_cons, List.zip_cons_cons, ih]
    rw [e, ih hnd.2 (fun m' h => hn m' (by simp [h])) (fun m' h => hmf m' (by simp [h]))]
    congr 1
    apply List.map_congr_left
    intro r _
    by_cases h1 : r.mask = m
    · have h2 : r.mask ∉ ms := by rw [h1]; exact hnd.1
      simp [h1, h1 ▸ h2]
    · simp [h1]

/-- **C51, part proved.** For every table and labelling where each labelled cluster occurs in the table: the normalised
load of a row of such a cluster is the sum of its load columns times its frequency, divided by the highest frequency of
the cluster and by the number of cpus in the mask. -/
theorem C51_normalised_partial (names : List Str) (rows : List LRow) (mapping : Dict Str)
    (hlen : ∀ r ∈ rows, r.vals.length = names.length) (hload : ∃ n ∈ names, cs!"load" <+: n)
    (hnd : (mapping.map Prod.fst).Nodup) (hmask : ∀ m ∈ mapping.map Prod.fst, ∃ v, Digits 16 (m.filter (· ≠ ',')) v)
    (hocc : ∀ m ∈ mapping.map Prod.fst, ∃ r ∈ rows, r.mask = m) :
    ∃ (mf : Str → Rat) (n : Str → Nat), (∀ m ∈ mapping.map Prod.fst, IsMaxFreq rows m (mf m) ∧ IsCpuCount m (n m)) ∧
      normalizedSeries names rows mapping = .ok (rows.map fun r =>
        if r.mask ∈ mapping.map Prod.fst then (r.loads names).sum * r.freq / (mf r.mask * n r.mask)
        else (r.loads names).sum * r.freq) := by
  have hmax : ∀ m ∈ mapping.map Prod.fst,
      ∃ x, maxOf ((rows.filter fun r => r.mask = m).map LRow.freq) = some x ∧ IsMaxFreq rows m x := by
    intro m hm
    obtain ⟨r0, hr0, h0⟩ := hocc m hm
    obtain ⟨x, h1, h2, h3⟩ := maxOf_spec ((rows.filter fun r => r.mask = m).map LRow.freq) (by
      intro h
      have : r0.freq ∈ (rows.filter fun r => r.mask = m).map LRow.freq :=
        List.mem_map.mpr ⟨r0, List.mem_filter.mpr ⟨hr0, by simpa using h0⟩, rfl⟩
      rw [h] at this
      simp at this)
    refine ⟨x, h1, ?_, ?_⟩
    · obtain ⟨r, hr, rfl⟩ := List.mem_map.mp h2
      obtain ⟨hr, hm⟩ := List.mem_filter.mp hr
      exact ⟨r, hr, by simpa using hm, rfl⟩
    · intro r hr hm
      exact h3 _ (List.mem_map.mpr ⟨r, List.mem_filter.mpr ⟨hr, by simpa using hm⟩, rfl⟩)
  have hcnt : ∀ m ∈ mapping.map Prod.fst, ∃ k, numCpusInMask m = some k ∧ IsCpuCount m k := by
    intro m hm
    obtain ⟨v, hv⟩ := hmask m hm
    obtain ⟨l, h1, h2, h3⟩ := C48_popcount m v hv
    exact ⟨l.length, h3, v, hv, l, h1, h2, rfl⟩
  have hmax' : ∀ m, ∃ x, m ∈ mapping.map Prod.fst →
      maxOf ((rows.filter fun r => r.mask = m).map LRow.freq) = some x ∧ IsMaxFreq rows m x := by
    intro m
    by_cases h : m ∈ mapping.map Prod.fst
    · obtain ⟨x, hx⟩ := hmax m h; exact ⟨x, fun _ => hx⟩
    · exact ⟨0, fun h' => absurd h' h⟩
  have hcnt' : ∀ m, ∃ k, m ∈ mapping.map Prod.fst → numCpusInMask m = some k ∧ IsCpuCount m k := by
    intro m
    by_cases h : m ∈ mapping.map Prod.fst
    · obtain ⟨x, hx⟩ := hcnt m h; exact ⟨x, fun _ => hx⟩
    · exact ⟨0, fun h' => absurd h' h⟩
  choose mf hmf using hmax'
  choose n hn using hcnt'
  refine ⟨mf, n, fun m hm => ⟨(hmf m hm).2, (hn m hm).2⟩, ?_⟩
  unfold normalizedSeries
  rw [loadSeries_ok names rows hlen hload]
  simp only
  have e : List.zipWith (· * ·) (rows.map fun r => (r.loads names).sum) (rows.map LRow.freq) =
      rows.map fun r => (r.loads names).sum * r.freq := by
    rw [List.zipWith_map_left, List.zipWith_map_right, List.zipWith_self]
  rw [e]
  exact normLoop_ok rows n mf _ hnd (fun m hm => (hn m hm).1) (fun m hm => (hmf m hm).1) _

/-- **C51.** The bound: loads of at most 100, positive frequencies and at least one cpu. -/
theorem C51_bound (names : List Str) (rows : List LRow) (r : LRow) (hr : r ∈ rows) (mf : Rat) (n : Nat)
    (hmf : IsMaxFreq rows r.mask mf) (hn : 0 < n) (hf : 0 < r.freq) (hl : ∀ x ∈ r.loads names, 0 ≤ x ∧ x ≤ 100) :
    (r.loads names).sum * r.freq / (mf * n) ≤ 100 * (r.loads names).length / n := by
  have hle : r.freq ≤ mf := hmf.2 r hr rfl
  have hmf0 : 0 < mf := lt_of_lt_of_le hf hle
  have hn0 : (0 : Rat) < n := by exact_mod_cast hn
  have hsum : ∀ l : List Rat, (∀ x ∈ l, 0 ≤ x ∧ x ≤ 100) → 0 ≤ l.sum ∧ l.sum ≤ 100 * l.length := by
    intro l
    induction l with
    | nil => intro _; simp
    | cons a l ih =>
      intro h
      obtain ⟨h1, h2⟩ := ih (fun x hx => h x (by simp [hx]))
      obtain ⟨h3, h4⟩ := h a (by simp)
      simp only [List.sum_cons, List.length_cons]
      push_cast
      constructor <;> linarith
  obtain ⟨h1, h2⟩ := hsum _ hl
  rw [div_le_div_iff₀ (by positivity) hn0]
  have : (r.loads names).sum * r.freq ≤ 100 * (r.loads names).length * mf :=
    mul_le_mul h2 hle hf.le (by positivity)
  nlinarith

/-- **C51**, the whole call: each cell of the table is the normalised load of the last row of the cluster at or before
that time. -/
theorem C51_table_partial (order : List Str) (names : List Str) (rows : List LRow) (mapping : Dict Str) (lab : Str → Str)
    (hlen : ∀ r ∈ rows, r.vals.length = names.length) (hload : ∃ n ∈ names, cs!"load" <+: n)
    (hnd : (mapping.map Prod.fst).Nodup) (hmask : ∀ m ∈ mapping.map Prod.fst, ∃ v, Digits 16 (m.filter (· ≠ ',')) v)
    (hocc : ∀ m ∈ mapping.map Prod.fst, ∃ r ∈ rows, r.mask = m)
    (ho : order.Nodup) (hmem : ∀ m, m ∈ order ↔ ∃ r ∈ rows, r.mask = m)
    (hlab : ∀ m ∈ order, mapping.get m = some (lab m)) (hinj : ∀ m ∈ order, ∀ m' ∈ order, lab m = lab m' → m = m')
    (hsort : (rows.map LRow.time).Pairwise (· ≤ ·)) (hdup : ∀ m, ((rows.filter fun r => r.mask = m).map LRow.time).Nodup) :
    ∃ T, getNormalizedLoadData order names rows mapping = .ok T ∧ (∀ t, t ∈ T.index ↔ ∃ r ∈ rows, r.time = t) ∧
      ∀ m ∈ order, ∃ col mf n, T.cols.get (lab m) = some col ∧ IsMaxFreq rows m mf ∧ IsCpuCount m n ∧
        ∀ (j : Nat) (t : Nat), T.index[j]? = some t →
          (col[j]? = some none ∧ ∀ r ∈ rows, r.mask = m → t < r.time) ∨
          (∃ pre r post, rows = pre ++ r :: post ∧ r.mask = m ∧ r.time ≤ t ∧
            (∀ r' ∈ post, r'.mask = m → t < r'.time) ∧
            col[j]? = some (some ((r.loads names).sum * r.freq / (mf * n)))) := by
  obtain ⟨mf, n, h1, h2⟩ := C51_normalised_partial names rows mapping hlen hload hnd hmask hocc
  have hkey : ∀ m ∈ order, m ∈ mapping.map Prod.fst := by
    intro m hm
    have := hlab m hm
    clear * - this
    induction mapping with
    | nil => simp [Dict.get] at this
    | cons x xs ih =>
      obtain ⟨k, v⟩ := x
      simp only [Dict.get] at this
      split at this
      · rename_i h; simp [h]
      · rw [List.map_cons]; exact List.mem_cons_of_mem _ (ih this)
  -- the value of a row
  generalize hval : (fun r : LRow => if r.mask ∈ mapping.map Prod.fst then (r.loads names).sum * r.freq / (mf r.mask * n r.mask)
        else (r.loads names).sum * r.freq) = val at h2
  have hrows : ((rows.zip (rows.map val)).map fun (r, x) => (⟨r.time, r.mask, some x⟩ : PRow Rat)) =
      rows.map fun r => ⟨r.time, r.mask, some (val r)⟩ := by
    clear * -
    induction rows with
    | nil => rfl
    | cons r rows ih => simp only [List.map_cons, List.zip_cons_cons, ih]
  obtain ⟨T, hT, _, hidx, _, hcell⟩ := C50_pivot_partial order (rows.map fun r => (⟨r.time, r.mask, some (val r)⟩ : PRow Rat)) mapping lab ho
    (by intro m; rw [hmem]; simp) hlab hinj (by simpa [List.map_map, Function.comp_def] using hsort)
    (by
      intro m
      rw [List.filter_map, List.map_map]
      exact hdup m)
  refine ⟨T, ?_, ?_, ?_⟩
  · unfold getNormalizedLoadData
    rw [h2]
    simp only [hrows, hT]
  · intro t
    rw [hidx]
    simp
  · intro m hm
    obtain ⟨col, hc, _, hcells⟩ := hcell m hm
    obtain ⟨i1, i2⟩ := h1 m (hkey m hm)
    refine ⟨col, mf m, n m, hc, i1, i2, ?_⟩
    intro j t hj
    obtain ⟨v, hv, hobs⟩ := hcells j t hj
    cases v with
    | none =>
      left
      refine ⟨hv, ?_⟩
      intro r hr hrm
      by_contra hle
      have := hobs ⟨r.time, r.mask, some (val r)⟩ (List.mem_map.mpr ⟨r, hr, rfl⟩) hrm (by simpa using hle)
      simp at this
    | some x =>
      right
      obtain ⟨pre, p, post, e, hp1, hp2, hp3, hp4⟩ := hobs
      obtain ⟨pre', rest', e0, rfl, e1⟩ := List.map_eq_append_iff.mp e
      obtain ⟨r, post', rfl, rfl, rfl⟩ := List.map_eq_cons_iff.mp e1
      refine ⟨pre', r, post', e0, hp1, hp2, ?_, ?_⟩
      · intro r' hr' hm'
        by_contra hle
        have := hp4 ⟨r'.time, r'.mask, some (val r')⟩ (List.mem_map.mpr ⟨r', hr', rfl⟩) hm' (by simpa using hle)
        simp at this
      · rw [hv]
        simp only [Option.some.injEq] at hp3
        rw [← hp3, ← hval]
        simp only at hp1
        simp only [hp1, hkey m hm, if_true]

/-- two clusters -/
def exLoads : List LRow := [⟨1, cs!"f0", 200, [50, 100, 3]⟩, ⟨1, cs!"03", 100, [20, 0, 3]⟩, ⟨3, cs!"f0", 100, [100, 100, 3]⟩]

/-- the hypotheses are met, and the result -/
example : (exLoads.map LRow.time).Pairwise (· ≤ ·) ∧ (∀ r ∈ exLoads, r.vals.length = 3) ∧
    getNormalizedLoadData [cs!"f0", cs!"03"] [cs!"load0", cs!"load1", cs!"dynamic_power"] exLoads
      [(cs!"03", cs!"A7"), (cs!"f0", cs!"A15")] =
      .ok ⟨[1, 3], [(cs!"A15", [some (75 / 2), some 25]), (cs!"A7", [some 10, some 10])]⟩ := by
  refine ⟨?_, ?_, ?_⟩ <;> decide +kernel

/-- **C51 refuted** for a labelling that also names a cluster without rows: `max()` of nothing raises `ValueError`,
although `get_load_data` works for the same labelling. -/
theorem C51_absent_cluster_refuted :
    getNormalizedLoadData [cs!"f0", cs!"03"] [cs!"load0", cs!"load1", cs!"dynamic_power"] exLoads
      [(cs!"03", cs!"A7"), (cs!"f0", cs!"A15"), (cs!"0c", cs!"A53")] = .error .valueError ∧
    getLoadData [cs!"f0", cs!"03"] [cs!"load0", cs!"load1", cs!"dynamic_power"] exLoads
      [(cs!"03", cs!"A7"), (cs!"f0", cs!"A15"), (cs!"0c", cs!"A53")] =
      .ok ⟨[1, 3], [(cs!"A15", [some 150, some 200]), (cs!"A7", [some 20, some 20])]⟩ := by
  refine ⟨?_, ?_⟩ <;> decide +kernel

end Trappy
