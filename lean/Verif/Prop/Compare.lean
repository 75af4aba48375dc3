import Verif.Model.Compare
import Verif.Prop.Thermal
import Verif.Prop.Wa2
/-!
# C160: `compare_runs`
-/

namespace Trappy
open Re Py

/-! ## Specification -/

/-- **Specification**: a table with a row for each of the times, in ascending order, and the columns with these names; in each row the cell of a column is as the column says for the time of the row -/
structure StepTable (times : Nat → Prop) (cols : List (Str × (Nat → Option Rat → Prop))) (T : PTable Rat) : Prop where
  sorted : T.index.Pairwise (· < ·)
  times : ∀ t, t ∈ T.index ↔ times t
  cols : List.Forall₂ (fun c col => col.1 = c.1 ∧ ∃ f : Nat → Option Rat, col.2 = T.index.map f ∧ ∀ t ∈ T.index, c.2 t (f t)) cols T.cols

/-- **Specification**: the most recent value of the cluster, in another unit -/
def Recent (rows : List (PRow Rat)) (m : Str) (g : Rat → Rat) (t : Nat) (v : Option Rat) : Prop := ∃ w, LastObs rows m t w ∧ v = w.map g

/-- **Specification**: the times of the rows of clusters and of the GPU -/
def TimesOf (rows : List (PRow Rat)) (gpu : List (Nat × Rat)) (t : Nat) : Prop := (∃ r ∈ rows, r.time = t) ∨ ∃ r ∈ gpu, r.1 = t

/-- **Specification**: a column for each cluster under its label, and one for the GPU if it has rows -/
def ClusterCols (order : List Str) (lab : Str → Str) (rows : List (PRow Rat)) (g : Rat → Rat) (name : Str) (gpu : List (Nat × Rat)) (h : Rat → Rat) : List (Str × (Nat → Option Rat → Prop)) :=
  (order.map fun m => (lab m, Recent rows m g)) ++ if gpu = [] then [] else [(name, Recent (gpuRows gpu) [] h)]

/-! ## Tables -/

theorem obs_scaled (rows : List (PRow Rat)) (m : Str) (idx : List Nat) (hs : idx.Pairwise (· < ·)) (hm : ∀ t, t ∈ idx ↔ ∃ r ∈ rows, r.time = t) (g : Rat → Rat) (t : Nat) :
    Recent rows m g t (obs (idx.map fun u => (u, (obs (seriesOf rows m) u).map g)) t) := by
  refine ⟨obs (seriesOf rows m) t, lastObs_series rows m t, ?_⟩
  have := obs_map g (idx.map fun u => (u, obs (seriesOf rows m) u)) t
  rw [List.map_map] at this
  simp only [Function.comp_def] at this
  rw [this, obs_pad]
  · exact hs
  · intro x hx _
    simp only [seriesOf, List.mem_map, List.mem_filter] at hx
    obtain ⟨r, ⟨hr, _⟩, rfl⟩ := hx
    exact (hm _).2 ⟨r, hr, rfl⟩

theorem ffill_scaled (rows : List (PRow Rat)) (m : Str) (idx : List Nat) (hs : idx.Pairwise (· < ·)) (hm : ∀ t, t ∈ idx ↔ ∃ r ∈ rows, r.time = t) (g : Rat → Rat) :
    ffill none (idx.map fun u => (obs (seriesOf rows m) u).map g) = idx.map fun u => (obs (seriesOf rows m) u).map g := by
  have h : ∀ u, (obs (seriesOf rows m) u).map g = obs ((seriesOf rows m).map fun x => (x.1, x.2.map g)) u := fun u => (obs_map g _ u).symm
  simp only [h]
  refine ffill_obs _ idx hs ?_
  intro x hx
  obtain ⟨y, hy, rfl⟩ := List.mem_map.1 hx
  simp only [seriesOf, List.mem_map, List.mem_filter] at hy
  obtain ⟨r, ⟨hr, _⟩, rfl⟩ := hy
  exact (hm _).2 ⟨r, hr, rfl⟩

/-- without a GPU -/
theorem pad_step (order : List Str) (lab : Str → Str) (rows : List (PRow Rat)) (idx : List Nat) (hs : idx.Pairwise (· < ·)) (hm : ∀ t, t ∈ idx ↔ ∃ r ∈ rows, r.time = t) (g h : Rat → Rat) (name : Str) :
    StepTable (TimesOf rows []) (ClusterCols order lab rows g name [] h) (padTable ⟨idx, order.map fun m => (lab m, idx.map fun u => (obs (seriesOf rows m) u).map g)⟩) := by
  refine ⟨hs, fun t => by simp [padTable, TimesOf, hm], ?_⟩
  unfold ClusterCols padTable
  simp only [if_true, List.append_nil, List.map_map, Function.comp_def]
  rw [List.forall₂_map_left_iff, List.forall₂_map_right_iff, List.forall₂_same]
  intro m _
  refine ⟨rfl, _, ffill_scaled rows m idx hs hm g, fun t _ => ⟨_, lastObs_series rows m t, rfl⟩⟩

/-- with a GPU -/
theorem join_step (order : List Str) (lab : Str → Str) (rows : List (PRow Rat)) (idx : List Nat) (hs : idx.Pairwise (· < ·)) (hm : ∀ t, t ∈ idx ↔ ∃ r ∈ rows, r.time = t) (g h : Rat → Rat) (name : Str)
    (gpu : List (Nat × Rat)) (hne : gpu ≠ []) (hg : (gpu.map Prod.fst).Pairwise (· < ·)) :
    ∃ cols, alignAll (concatIndex true idx (gpu.map Prod.fst))
        (PTable.allSeries ⟨idx, order.map fun m => (lab m, idx.map fun u => (obs (seriesOf rows m) u).map g)⟩ ++ [(name, gpu.map fun r => (r.1, some (h r.2)))]) = .ok cols ∧
      StepTable (TimesOf rows gpu) (ClusterCols order lab rows g name gpu h) ⟨concatIndex true idx (gpu.map Prod.fst), cols⟩ := by
  have hfst : (gpu.map fun r => (r.1, some (h r.2))).map Prod.fst = gpu.map Prod.fst := by simp [List.map_map, Function.comp_def]
  obtain ⟨c1, c2⟩ := concatIndex_sorted idx (gpu.map Prod.fst) hs hg
  generalize concatIndex true idx (gpu.map Prod.fst) = ix at c1 c2
  rw [alignAll_cells ix c1]
  · refine ⟨_, rfl, c1, ?_, ?_⟩
    · intro t
      simp only [c2, hm, TimesOf]
      simp
    · unfold ClusterCols
      simp only [if_neg hne, PTable.allSeries, List.map_append, List.map_map, List.map_cons, List.map_nil]
      refine List.rel_append ?_ (.cons ?_ .nil)
      · rw [List.forall₂_map_left_iff, List.forall₂_map_right_iff, List.forall₂_same]
        intro m _
        refine ⟨rfl, _, rfl, ?_⟩
        intro t _
        simp only [Function.comp_apply, zip_map_self]
        exact obs_scaled rows m idx hs hm g t
      · refine ⟨rfl, _, rfl, ?_⟩
        intro t _
        have e : (gpu.map fun r => (r.1, some (h r.2))) = (seriesOf (gpuRows gpu) []).map fun x => (x.1, x.2.map h) := by
          rw [seriesOf_gpuRows]; simp [List.map_map, Function.comp_def]
        rw [e, obs_map]
        exact ⟨_, lastObs_series _ _ t, rfl⟩
  · intro x hx
    rcases List.mem_append.1 hx with hx | hx
    · simp only [PTable.allSeries, List.map_map, List.mem_map, Function.comp_apply] at hx
      obtain ⟨m, _, rfl⟩ := hx
      simp only [zip_map_self]
      constructor
      · rw [List.map_map]; simpa [Function.comp_def] using hs
      · intro y hy
        obtain ⟨u, hu, rfl⟩ := List.mem_map.1 hy
        exact (c2 _).2 (.inl hu)
    · simp only [List.mem_singleton] at hx
      subst hx
      constructor
      · simp only; rw [hfst]; exact hg
      · intro y hy
        refine (c2 _).2 (.inr ?_)
        rw [← hfst]
        exact List.mem_map_of_mem hy


/-! ## Runs -/

/-- **Specification**: a run in which the power allocator was active, and that fits the arguments: there are temperatures, of the zone asked for as well; the clusters that report are the labelled ones, in the order of time and no cluster twice at one time; every
row has its loads; the GPU, if it reports, does so at increasing times; there are rows of the controller and as many columns of requested and of granted power as actors -/
structure IpaRun (a : CmpArgs) (run : ThRun) : Prop where
  thermal : run.temp.thermal ≠ []
  gov : run.temp.gov ≠ []
  zone : ∀ z, a.tz = some z → z ≠ 0 ∧ ∃ r ∈ run.temp.thermal, r.id = z
  width : ∀ r ∈ run.inRows, r.vals.length = run.inNames.length
  load : ∃ n ∈ run.inNames, cs!"load" <+: n
  inSorted : (run.inRows.map LRow.time).Pairwise (· ≤ ·)
  inOnce : ∀ m, ((run.inRows.filter fun r => r.mask = m).map LRow.time).Nodup
  inNodup : run.orderIn.Nodup
  inClusters : ∀ m, m ∈ run.orderIn ↔ ∃ r ∈ run.inRows, r.mask = m
  inLabelled : ∀ m, m ∈ run.orderIn ↔ m ∈ a.labels.map Prod.fst
  out : FreqInput run.orderOut run.outRows a.labels
  gpuIn : (run.gpuIn.map GpuRow.time).Pairwise (· < ·)
  gpuOut : (run.gpuOut.map Prod.fst).Pairwise (· < ·)
  pid : run.pid ≠ []
  req : ∀ cols, ActorCols cs!"req_power" run.govCols cols → cols.length = a.actors.length
  granted : ∀ cols, ActorCols cs!"granted_power" run.govCols cols → cols.length = a.actors.length

/-- **Specification**: the arguments: some distinct masks of CPUs with distinct labels `lab`, some actors with distinct names, no keywords but `width`, `height` and `tz_id` -/
structure CmpArgsOk (a : CmpArgs) (lab : Str → Str) : Prop where
  isList : a.isList = true
  isDict : a.isDict = true
  ylim : a.ylim = false
  other : a.other = false
  masks : (a.labels.map Prod.fst).Nodup
  names : (a.labels.map Prod.snd).Nodup
  lab : ∀ m l, (m, l) ∈ a.labels → lab m = l
  hex : ∀ m ∈ a.labels.map Prod.fst, ∃ v, Digits 16 (m.filter (· ≠ ',')) v
  some : a.actors ≠ []
  clusters : a.labels ≠ []
  actors : a.actors.Nodup

theorem eachOk_forall₂ {α β : Type} {f : α → Except CmpErr β} {P : α → β → Prop} : ∀ {l : List α}, (∀ x ∈ l, ∃ y, f x = .ok y ∧ P x y) → ∃ ys, eachOk f l = .ok ys ∧ List.Forall₂ P l ys
  | [], _ => ⟨[], rfl, .nil⟩
  | x :: l, h => by
    obtain ⟨y, h1, h2⟩ := h x (by simp)
    obtain ⟨ys, h3, h4⟩ := eachOk_forall₂ (l := l) fun z hz => h z (by simp [hz])
    exact ⟨y :: ys, by simp only [eachOk, h1, h3], .cons h2 h4⟩

theorem forAxes_ok {τ β : Type} {runs : List ThRun} {axes : Option (List τ)} {as : List τ} {f : τ → ThRun → Except CmpErr β} (hne : runs ≠ []) (ha : axes = some as) (hlen : as.length = runs.length)
    {P : Nat → ThRun → β → Prop} (h : ∀ (i : Nat) (run : ThRun) (ax : τ), runs[i]? = some run → as[i]? = some ax → ∃ y, f ax run = .ok y ∧ P i run y) :
    ∃ ys, forAxes runs axes f = .ok ys ∧ ys.length = runs.length ∧ ∀ (i : Nat) (run : ThRun), runs[i]? = some run → ∃ y, ys[i]? = some y ∧ P i run y := by
  obtain ⟨ys, h1, h2⟩ := eachOk_forall₂ (f := fun x => f x.1.1 x.1.2) (P := fun (x : (τ × ThRun) × Nat) y => P x.2 x.1.2 y) (l := (as.zip runs).zipIdx) (by
    rintro ⟨⟨ax, run⟩, i⟩ hx
    have := List.mem_zipIdx_iff_getElem?.1 hx
    obtain ⟨h1, h2⟩ := List.getElem?_zip_eq_some.1 this
    exact h i run ax h2 h1)
  have hmap : ∀ (l : List (τ × ThRun)) (k : Nat), eachOk (fun x => f x.1.1 x.1.2) (l.zipIdx k) = eachOk (fun x => f x.1 x.2) l := by
    intro l
    induction l with
    | nil => intro k; rfl
    | cons x l ih => intro k; simp only [List.zipIdx_cons, eachOk, ih]
  rw [hmap] at h1
  have hl := h2.length_eq
  simp only [List.length_zipIdx, List.length_zip, hlen, Nat.min_self] at hl
  refine ⟨ys, ?_, hl.symm, ?_⟩
  · unfold forAxes
    rw [if_neg hne, ha]
    exact h1
  · intro i run hi
    have hi' := (List.getElem?_eq_some_iff.1 hi).1
    have hy : i < ys.length := by omega
    refine ⟨ys[i], List.getElem?_eq_getElem hy, ?_⟩
    have := h2.get (i := i) (by simp; omega) hy
    simp only [List.get_eq_getElem, List.getElem_zipIdx, List.getElem_zip, Nat.zero_add] at this
    obtain ⟨_, e⟩ := List.getElem?_eq_some_iff.1 hi
    rw [e] at this
    exact this

theorem axes_column {l : List AxisAt} {n c : Nat} (hl : l.length = n) (h : ∀ r < n, l[r]? = some (r, c)) : l = (List.range n).map fun r => (r, c) := by
  apply List.ext_getElem?
  intro i
  by_cases hi : i < n
  · rw [h i hi]
    simp [hi]
  · rw [List.getElem?_eq_none (by omega), List.getElem?_eq_none (by simp; omega)]

theorem IpaRun.loadInput {a : CmpArgs} {lab : Str → Str} {run : ThRun} (ha : CmpArgsOk a lab) (h : IpaRun a run) : LoadInput run.orderIn run.inNames run.inRows a.labels lab where
  width := h.width
  load := h.load
  nodup := h.inNodup
  clusters := h.inClusters
  labelled := by
    intro m hm
    obtain ⟨⟨m', l⟩, hp, rfl⟩ := List.mem_map.1 ((h.inLabelled m).1 hm)
    rw [Dict.get_of_mem ha.masks hp, ha.lab _ _ hp]
  distinct := by
    intro m hm m' hm' e
    obtain ⟨⟨x, l⟩, hp, rfl⟩ := List.mem_map.1 ((h.inLabelled m).1 hm)
    obtain ⟨⟨y, l'⟩, hp', rfl⟩ := List.mem_map.1 ((h.inLabelled m').1 hm')
    rw [ha.lab _ _ hp, ha.lab _ _ hp'] at e
    subst e
    have := List.inj_on_of_nodup_map ha.names hp hp' rfl
    simpa using this
  sorted := h.inSorted
  once := h.inOnce

theorem IpaRun.freqInput {a : CmpArgs} {run : ThRun} (h : IpaRun a run) : FreqInput run.orderIn run.inFreqs a.labels where
  nodup := h.inNodup
  clusters := by intro m; rw [h.inClusters]; simp [ThRun.inFreqs]
  labelled := h.inLabelled
  sorted := by simpa [ThRun.inFreqs, List.map_map, Function.comp_def] using h.inSorted
  once := by
    intro m
    have := h.inOnce m
    rw [ThRun.inFreqs, List.filter_map, List.map_map]
    exact this

/-- the tables of frequencies -/
theorem freqs_step {a : CmpArgs} {lab : Str → Str} (ha : CmpArgsOk a lab) {order : List Str} {rows : List (PRow Rat)} (h : FreqInput order rows a.labels) :
    ∃ idx : List Nat, getAllFreqs order rows a.labels = .ok ⟨idx, order.map fun m => (lab m, idx.map fun u => (obs (seriesOf rows m) u).map (· / 1000))⟩ ∧
      idx.Pairwise (· < ·) ∧ ∀ t, t ∈ idx ↔ ∃ r ∈ rows, r.time = t := by
  obtain ⟨idx, h1, h2, h3⟩ := pivot_written order rows a.labels lab h.nodup h.clusters (by
    intro m hm
    obtain ⟨⟨m', l⟩, hp, rfl⟩ := List.mem_map.1 ((h.labelled m).1 hm)
    rw [Dict.get_of_mem ha.masks hp, ha.lab _ _ hp]) (by
    intro m hm m' hm' e
    obtain ⟨⟨x, l⟩, hp, rfl⟩ := List.mem_map.1 ((h.labelled m).1 hm)
    obtain ⟨⟨y, l'⟩, hp', rfl⟩ := List.mem_map.1 ((h.labelled m').1 hm')
    rw [ha.lab _ _ hp, ha.lab _ _ hp'] at e
    subst e
    have := List.inj_on_of_nodup_map ha.names hp hp' rfl
    simpa using this) h.sorted h.once
  refine ⟨idx, ?_, h2, h3⟩
  unfold getAllFreqs
  rw [h1]
  simp [List.map_map, Function.comp_def]

/-! ## The figures -/

/-- **Specification**: what the temperature plot has of a run -/
def TemperatureOf (tz : Option Int) (run : TempRun) (l : TempLines) : Prop :=
  match tz with
  | none => l.temp = run.thermal.map (fun r => (r.time, r.temp / 1000)) ∧ l.control = some (run.gov.map fun r => (r.time, (r.current + r.delta) / 1000))
  | some z => ZoneTemps z run.thermal l.temp ∧ ∃ c, l.control = some c ∧ ZoneControl z run.gov c

theorem temperature_ok {a : CmpArgs} : ∀ {runs : List ThRun}, (∀ run ∈ runs, IpaRun a run) →
    ∃ ls, plotTemperature a.tz (runs.map ThRun.temp) = some ls ∧ List.Forall₂ (fun (run : ThRun) l => TemperatureOf a.tz run.temp l) runs ls
  | [], _ => ⟨[], rfl, .nil⟩
  | run :: runs, h => by
    obtain ⟨ls, h1, h2⟩ := temperature_ok (runs := runs) fun r hr => h r (by simp [hr])
    have hr := h run (by simp)
    have key : ∃ l, runTemperature run.temp a.tz = some l ∧ TemperatureOf a.tz run.temp l := by
      cases hz : a.tz with
      | none =>
        obtain ⟨l, l1, l2, _, l4⟩ := C122_all_zones run.temp hr.thermal
        exact ⟨l, l1, l2, l4 hr.gov⟩
      | some z =>
        obtain ⟨z0, z1⟩ := hr.zone z hz
        obtain ⟨l, c, l1, l2, l3, l4⟩ := runTemperature_zone z z0 run.temp hr.gov z1
        exact ⟨l, l1, l2, c, l3, l4⟩
    obtain ⟨l, l1, l2⟩ := key
    exact ⟨l :: ls, by simp only [List.map_cons, plotTemperature, l1, h1], .cons l2 h2⟩

/-- **Specification**: what the figure of the loads has of the run with number `i`: the sum of the loads of each cluster above, the normalised ones below -/
def LoadsOf (lab : Str → Str) (i : Nat) (run : ThRun) (y : List (AxisAt × PTable Rat)) : Prop :=
  ∃ (T N : PTable Rat) (mf : Str → Rat) (n : Str → Nat) (mx : Rat), y = [((0, i), T), ((1, i), N)] ∧
    (∀ m ∈ run.orderIn, IsMaxFreq run.inRows m (mf m) ∧ IsCpuCount m (n m)) ∧
    (∀ r ∈ run.gpuIn, r.freq ≤ mx) ∧ (run.gpuIn ≠ [] → ∃ r ∈ run.gpuIn, r.freq = mx) ∧
    StepTable (TimesOf (run.inRows.map fun r => ⟨r.time, r.mask, some (r.loads run.inNames).sum⟩) (run.gpuIn.map fun r => (r.time, r.load)))
      (ClusterCols run.orderIn lab (run.inRows.map fun r => ⟨r.time, r.mask, some (r.loads run.inNames).sum⟩) id cs!"GPU" (run.gpuIn.map fun r => (r.time, r.load)) id) T ∧
    StepTable (TimesOf (run.inRows.map fun r => ⟨r.time, r.mask, some ((r.loads run.inNames).sum * r.freq / (mf r.mask * n r.mask))⟩) (run.gpuIn.map fun r => (r.time, r.load * r.freq / mx)))
      (ClusterCols run.orderIn lab (run.inRows.map fun r => ⟨r.time, r.mask, some ((r.loads run.inNames).sum * r.freq / (mf r.mask * n r.mask))⟩) id cs!"GPU"
        (run.gpuIn.map fun r => (r.time, r.load * r.freq / mx)) id) N

theorem plot_step (order : List Str) (lab : Str → Str) (rows : List (PRow Rat)) (idx : List Nat) (hs : idx.Pairwise (· < ·)) (hm : ∀ t, t ∈ idx ↔ ∃ r ∈ rows, r.time = t)
    (gpu : List (Nat × Rat)) (hg : (gpu.map Prod.fst).Pairwise (· < ·)) :
    ∃ T, (if gpu.length = 0 then Except.ok (padTable ⟨idx, order.map fun m => (lab m, idx.map (obs (seriesOf rows m)))⟩)
        else withGpu true ⟨idx, order.map fun m => (lab m, idx.map (obs (seriesOf rows m)))⟩ (gpu.map fun r => (r.1, some r.2))) = .ok T ∧
      StepTable (TimesOf rows gpu) (ClusterCols order lab rows id cs!"GPU" gpu id) T := by
  by_cases hne : gpu = []
  · subst hne
    refine ⟨_, if_pos rfl, ?_⟩
    have := pad_step order lab rows idx hs hm id id cs!"GPU"
    simpa using this
  · rw [if_neg (by simpa [List.length_eq_zero_iff] using hne)]
    obtain ⟨cols, h1, h2⟩ := join_step order lab rows idx hs hm id id cs!"GPU" gpu hne hg
    refine ⟨_, ?_, h2⟩
    unfold withGpu
    have hfst : (gpu.map fun r => (r.1, some r.2)).map Prod.fst = gpu.map Prod.fst := by simp [List.map_map, Function.comp_def]
    simp only [hfst]
    simp only [Option.map_id_fun, id] at h1
    rw [h1]

theorem loadOf_ok {a : CmpArgs} {lab : Str → Str} {run : ThRun} (ha : CmpArgsOk a lab) (h : IpaRun a run) (i : Nat) :
    ∃ y, loadOf true a.labels ((List.range 2).map fun r => (r, i)) run = .ok y ∧ LoadsOf lab i run y := by
  have hl := h.loadInput ha
  obtain ⟨idx, h1, h2, h3⟩ := load_written run.orderIn run.inRows a.labels lab (fun r => (r.loads run.inNames).sum) hl.nodup hl.clusters hl.labelled hl.distinct hl.sorted hl.once
  obtain ⟨mf, n, hmf, hser⟩ := C51_normalised_partial run.inNames run.inRows a.labels h.width h.load ha.masks ha.hex (fun m hm => (h.inClusters m).1 ((h.inLabelled m).2 hm))
  obtain ⟨idn, n1, n2, n3⟩ := load_written run.orderIn run.inRows a.labels lab (fun r => (r.loads run.inNames).sum * r.freq / (mf r.mask * n r.mask)) hl.nodup hl.clusters hl.labelled hl.distinct hl.sorted hl.once
  obtain ⟨T, t1, t2⟩ := plot_step run.orderIn lab _ idx h2 h3 (run.gpuIn.map fun r => (r.time, r.load)) (by simpa [List.map_map, Function.comp_def] using h.gpuIn)
  have hmx : ∃ mx, (∀ r ∈ run.gpuIn, r.freq ≤ mx) ∧ (run.gpuIn ≠ [] → ∃ r ∈ run.gpuIn, r.freq = mx) ∧ maxOf (run.gpuIn.map GpuRow.freq) = if run.gpuIn.length = 0 then none else some mx := by
    by_cases hne : run.gpuIn = []
    · rw [hne]; exact ⟨0, by simp, by simp, rfl⟩
    · obtain ⟨mx, m1, m2, m3⟩ := maxOf_spec (run.gpuIn.map GpuRow.freq) (by simpa using hne)
      refine ⟨mx, fun r hr => m3 _ (List.mem_map_of_mem hr), fun _ => ?_, ?_⟩
      · obtain ⟨r, hr, e⟩ := List.mem_map.1 m2
        exact ⟨r, hr, e⟩
      · rw [m1, if_neg (by simpa [List.length_eq_zero_iff] using hne)]
  obtain ⟨mx, m1, m2, m3⟩ := hmx
  obtain ⟨N, u1, u2⟩ := plot_step run.orderIn lab _ idn n2 n3 (run.gpuIn.map fun r => (r.time, r.load * r.freq / mx)) (by simpa [List.map_map, Function.comp_def] using h.gpuIn)
  have e1 : plotLoad true run.orderIn run.inNames run.inRows run.gpuIn a.labels = .ok T := by
    unfold plotLoad getLoadData
    rw [loadSeries_ok run.inNames run.inRows h.width h.load]
    simp only [zip_map_rows, h1]
    rw [← t1]
    simp [List.map_map, Function.comp_def]
  have e2 : plotNormalizedLoad true run.orderIn run.inNames run.inRows run.gpuIn a.labels = .ok N := by
    unfold plotNormalizedLoad getNormalizedLoadData
    rw [hser]
    have hcongr : (run.inRows.map fun r => if r.mask ∈ a.labels.map Prod.fst then (r.loads run.inNames).sum * r.freq / (mf r.mask * n r.mask) else (r.loads run.inNames).sum * r.freq) =
        run.inRows.map fun r => (r.loads run.inNames).sum * r.freq / (mf r.mask * n r.mask) := by
      apply List.map_congr_left
      intro r hr
      rw [if_pos ((h.inLabelled _).1 ((h.inClusters _).2 ⟨r, hr, rfl⟩))]
    simp only [hcongr, zip_map_rows, n1, m3]
    rw [← u1]
    by_cases hne : run.gpuIn.length = 0
    · simp [hne]
    · simp [hne, List.map_map, Function.comp_def]
  refine ⟨[((0, i), T), ((1, i), N)], ?_, T, N, mf, n, mx, rfl, fun m hm => hmf m ((h.inLabelled m).1 hm), m1, m2, t2, u2⟩
  unfold loadOf
  rw [e1]
  simp only [e2]
  rfl


/-- **Specification**: the number of axes for the frequencies of a run: one for each cluster, and one more if any run has a GPU -/
def FreqRows (a : CmpArgs) (runs : List ThRun) (n : Nat) : Prop := ((∀ r ∈ runs, r.gpuIn = []) → n = a.labels.length) ∧ ((∃ r ∈ runs, r.gpuIn ≠ []) → n = a.labels.length + 1)

theorem freqRows (a : CmpArgs) (runs : List ThRun) : FreqRows a runs (numberFreqPlots (runs.map ThRun.gpuFreqs) a.labels) := by
  unfold numberFreqPlots
  constructor
  · intro h
    rw [if_neg]
    · rfl
    · simp only [List.any_map, List.any_eq_true, Function.comp_apply, decide_eq_true_eq, not_exists, not_and]
      intro r hr
      simp [ThRun.gpuFreqs, h r hr]
  · rintro ⟨r, hr, hne⟩
    rw [if_pos]
    simp only [List.any_map, List.any_eq_true, Function.comp_apply, decide_eq_true_eq]
    exact ⟨r, hr, by simpa [ThRun.gpuFreqs, List.length_pos_iff] using hne⟩

/-- **Specification**: what the figure of the frequencies has of the run with number `i`: for each cluster its input and output frequencies in MHz, in the order of the labels; then the GPU, if it has both -/
def FreqsOf (a : CmpArgs) (i : Nat) (run : ThRun) (y : List (AxisAt × Str × PTable Rat)) : Prop :=
  (∀ (r : Nat) (m l : Str), a.labels[r]? = some (m, l) → ∃ T, y[r]? = some ((r, i), l, T) ∧
    InOutTable run.inFreqs run.outRows m 1000 (l ++ cs!"_freq_in") (l ++ cs!"_freq_out") T) ∧
  (run.gpuIn = [] ∨ run.gpuOut = [] → y.length = a.labels.length) ∧
  (run.gpuIn ≠ [] → run.gpuOut ≠ [] → y.length = a.labels.length + 1 ∧ ∃ T, y[a.labels.length]? = some ((a.labels.length, i), cs!"GPU", T) ∧
    InOutTable (gpuRows run.gpuFreqs) (gpuRows run.gpuOut) [] 1000000 cs!"gpu_freq_in" cs!"gpu_freq_out" T)

theorem zip_column {β : Type} {n i r : Nat} {ts : List β} {t : β} (hr : ts[r]? = some t) (hn : r < n) : (((List.range n).map fun r => ((r, i) : AxisAt)).zip ts)[r]? = some ((r, i), t) := by
  rw [List.getElem?_zip_eq_some]
  exact ⟨by simp [hn], hr⟩

theorem freqsOf_ok {a : CmpArgs} {lab : Str → Str} {runs : List ThRun} {run : ThRun} (ha : CmpArgsOk a lab) (h : IpaRun a run) (hrun : run ∈ runs) {n : Nat} (hn : FreqRows a runs n) (i : Nat) :
    ∃ y, freqsOf a.labels ((List.range n).map fun r => (r, i)) run = .ok y ∧ FreqsOf a i run y := by
  obtain ⟨ts, gpu, h1, h2, h3, h4, h5⟩ := C125_freqs_partial run.orderIn run.orderOut run.inFreqs run.outRows run.gpuFreqs run.gpuOut a.labels h.freqInput h.out ha.masks ha.names
    (by simpa [ThRun.gpuFreqs, List.map_map, Function.comp_def] using h.gpuIn) h.gpuOut
  have hge : a.labels.length ≤ n := by
    by_cases hg : ∃ r ∈ runs, r.gpuIn ≠ []
    · have := hn.2 hg; omega
    · simp only [not_exists, not_and, not_not] at hg
      have := hn.1 hg; omega
  have hnil : run.gpuFreqs = [] ↔ run.gpuIn = [] := by simp [ThRun.gpuFreqs]
  refine ⟨((List.range n).map fun r => (r, i)).zip (ts ++ gpu), ?_, ?_, ?_, ?_⟩
  · unfold freqsOf
    rw [h1]
  · intro r m l hr
    obtain ⟨T, t1, t2⟩ := h3 r m l hr
    have hlt : r < a.labels.length := (List.getElem?_eq_some_iff.1 hr).1
    refine ⟨T, zip_column ?_ (by omega), t2⟩
    rw [List.getElem?_append_left (by omega)]
    exact t1
  · intro hg
    rw [h4 (by simpa [hnil] using hg)]
    simp; omega
  · intro hg1 hg2
    obtain ⟨T, t1, t2⟩ := h5 (by simpa [hnil] using hg1) hg2
    have := hn.2 ⟨run, hrun, hg1⟩
    subst t1
    refine ⟨by simp; omega, T, zip_column ?_ (by omega), t2⟩
    rw [List.getElem?_append_right (by omega)]
    simp [h2]

/-- **Specification**: the line of an actor is the column of requested or granted power with its number -/
def PowerOf (a : CmpArgs) (word : Str) (i : Nat) (run : ThRun) (y : AxisAt × List (Str × Points)) : Prop :=
  ∃ cols, ActorCols word run.govCols cols ∧ y = ((0, i), a.actors.zip (cols.map Prod.snd))

theorem powerOf_ok {a : CmpArgs} {word : Str} {run : ThRun} (hsome : a.actors ≠ []) (h : ∀ cols, ActorCols word run.govCols cols → cols.length = a.actors.length) (i : Nat) :
    ∃ y, powerOf word a.actors (0, i) run = .ok y ∧ PowerOf a word i run y := by
  obtain ⟨cols, hc⟩ := actorCols_exists word run.govCols
  have hl := h cols hc
  refine ⟨((0, i), a.actors.zip (cols.map Prod.snd)), ?_, cols, hc, rfl⟩
  unfold powerOf
  rw [C123_positional word _ cols _ hc, if_pos hl]
  cases e : a.actors.zip (cols.map Prod.snd) with
  | nil =>
    have : (a.actors.zip (cols.map Prod.snd)).length = 0 := by rw [e]; rfl
    rw [List.length_zip, List.length_map, hl, Nat.min_self, List.length_eq_zero_iff] at this
    exact absurd this hsome
  | cons x l => rfl

/-- **Specification**: the weights of a run are numbers -/
def WeightsOf (run : ThRun) (ws : List Int) : Prop := sortedWeights run.sysfs = ws.map .int

/-- **Specification**: the line of an actor is its column of requested power times its weight over 1024, for all actors with a weight -/
def WeightedOf (a : CmpArgs) (i : Nat) (run : ThRun) (y : AxisAt × List (Str × Points)) : Prop :=
  ∃ cols ws, ActorCols cs!"req_power" run.govCols cols ∧ WeightsOf run ws ∧ y.1 = (0, i) ∧ y.2.length = min a.actors.length ws.length ∧
    ∀ (k : Nat) (name : Str) (c : Str × Points) (w : Int), a.actors[k]? = some name → cols[k]? = some c → ws[k]? = some w → y.2[k]? = some (name, c.2.map fun x => (x.1, x.2 * (w : Rat) / 1024))

theorem Dict.set_absent {α : Type} {d : Dict α} {k : Str} (h : k ∉ d.map Prod.fst) (v : α) : d.set k v = d ++ [(k, v)] := by
  induction d with
  | nil => rfl
  | cons x d ih =>
    obtain ⟨k', v'⟩ := x
    simp only [List.map_cons, List.mem_cons, not_or] at h
    have hne : ¬ k' = k := fun e => h.1 e.symm
    simp only [Dict.set, if_neg hne, List.cons_append]
    rw [ih h.2]

theorem weightLoop_ok : ∀ (l : List ((Str × Points) × (Str × Int))) (acc : Dict Points), (l.map fun e => e.2.1).Nodup → (∀ e ∈ l, e.2.1 ∉ acc.map Prod.fst) →
    weightLoop (l.map fun e => (e.1, (e.2.1, Val.int e.2.2))) acc = .ok (acc ++ l.map fun e => (e.2.1, e.1.2.map fun x => (x.1, x.2 * (e.2.2 : Rat) / 1024)))
  | [], acc, _, _ => by simp [weightLoop]
  | ((c, ps), (name, w)) :: l, acc, hnd, hacc => by
    rw [List.map_cons, List.nodup_cons] at hnd
    have h1 := hacc ((c, ps), (name, w)) (by simp)
    simp only [List.map_cons, weightLoop]
    rw [Dict.set_absent h1, weightLoop_ok l _ hnd.2]
    · simp
    · intro e he
      have h2 := hacc e (by simp [he])
      simp only [List.map_append, List.map_cons, List.map_nil, List.mem_append, List.mem_singleton, not_or]
      refine ⟨h2, fun e' => hnd.1 ?_⟩
      rw [← e']
      exact List.mem_map.2 ⟨e, he, rfl⟩

theorem weightedOf_ok {a : CmpArgs} {lab : Str → Str} {run : ThRun} (ha : CmpArgsOk a lab) (h : IpaRun a run) {ws : List Int} (hw : WeightsOf run ws) (hne : ws ≠ []) (i : Nat) :
    ∃ y, weightedOf a.actors (0, i) run = .ok y ∧ WeightedOf a i run y := by
  obtain ⟨cols, hc⟩ := actorCols_exists cs!"req_power" run.govCols
  have hl := h.req cols hc
  have hzip : cols.zip (actorWeights a.actors run.sysfs) = (cols.zip (a.actors.zip ws)).map fun e => (e.1, (e.2.1, Val.int e.2.2)) := by
    unfold actorWeights
    rw [hw, List.zip_map_right, List.zip_map_right]
    simp
  have hlen : (cols.zip (a.actors.zip ws)).length = min a.actors.length ws.length := by simp [hl]
  have hnames : ((cols.zip (a.actors.zip ws)).map fun e => e.2.1).Nodup := by
    have : ((cols.zip (a.actors.zip ws)).map fun e => e.2.1) = a.actors.take ws.length := by
      apply List.ext_getElem?
      intro k
      simp only [List.getElem?_map, List.getElem?_take]
      by_cases hk : k < min a.actors.length ws.length
      · have k1 : k < a.actors.length := by omega
        have k2 : k < ws.length := by omega
        have k3 : k < cols.length := by omega
        rw [if_pos k2, List.getElem?_eq_getElem (by omega), List.getElem?_eq_getElem k1]
        simp
      · rw [List.getElem?_eq_none (by omega)]
        by_cases k2 : k < ws.length
        · rw [if_pos k2, List.getElem?_eq_none (by omega)]; rfl
        · rw [if_neg k2]; rfl
    rw [this]
    exact ha.actors.sublist (List.take_sublist _ _)
  have hloop := weightLoop_ok (cols.zip (a.actors.zip ws)) [] hnames (by simp)
  refine ⟨((0, i), (cols.zip (a.actors.zip ws)).map fun e => (e.2.1, e.1.2.map fun x => (x.1, x.2 * (e.2.2 : Rat) / 1024))), ?_, cols, ws, hc, hw, rfl, by simp [hl], ?_⟩
  · unfold weightedOf
    have hf := actorCols_filter cs!"req_power" run.govCols cols hc
    have : (run.govCols.filter fun c => (matchPrefix reqPowerRe c.1).isSome) = cols := hf
    rw [this, hzip, hloop, List.nil_append]
    cases e : (cols.zip (a.actors.zip ws)).map fun e => (e.2.1, e.1.2.map fun x => (x.1, x.2 * (e.2.2 : Rat) / 1024)) with
    | nil =>
      have h0 := congrArg List.length e
      rw [List.length_map, hlen] at h0
      have h1 : 0 < a.actors.length := List.length_pos_iff.2 ha.some
      have h2 : 0 < ws.length := List.length_pos_iff.2 hne
      simp at h0
      rcases h0 with h0 | h0
      · rw [h0] at h1; cases h1
      · rw [h0] at h2; cases h2
    | cons x l => rfl
  · intro k name c w k1 k2 k3
    rw [List.getElem?_map, List.getElem?_zip_eq_some (z := (c, (name, w))) |>.2 ⟨k2, List.getElem?_zip_eq_some (z := (name, w)) |>.2 ⟨k1, k3⟩⟩]
    rfl

/-- **Specification**: what the figure of the histograms has of the run with number `i`: above the output frequencies, below, from row `n`, the input frequencies, all of which are called `out` and those of the GPU `freq`; with a GPU its rows count only if both tables
have rows -/
def HistsOf (lab : Str → Str) (n i : Nat) (run : ThRun) (y : List (AxisAt × Str × List (Option Rat))) : Prop :=
  ∃ (O I : PTable Rat) (go gi : List (Nat × Rat)), (run.gpuIn ≠ [] → run.gpuOut ≠ [] → go = run.gpuOut ∧ gi = run.gpuFreqs) ∧ (run.gpuIn = [] ∨ run.gpuOut = [] → go = [] ∧ gi = []) ∧
    StepTable (TimesOf run.outRows go) (ClusterCols run.orderOut lab run.outRows (· / 1000) cs!"freq" go (· / 1000000)) O ∧
    StepTable (TimesOf run.inFreqs gi) (ClusterCols run.orderIn lab run.inFreqs (· / 1000) cs!"freq" gi (· / 1000000)) I ∧
    y = (O.cols.zipIdx.map fun c => ((c.2, i), cs!"freq out " ++ c.1.1, c.1.2)) ++ I.cols.zipIdx.map fun c => ((n + c.2, i), cs!"freq out " ++ c.1.1, c.1.2)


theorem histsOf_zip {l : List AxisAt} {n k i : Nat} {T : PTable Rat} (hl : l = (List.range n).map fun r => (k + r, i)) (hn : T.cols.length ≤ n) :
    histsOf l T = T.cols.zipIdx.map fun c => ((k + c.2, i), cs!"freq out " ++ c.1.1, c.1.2) := by
  subst hl
  unfold histsOf
  apply List.ext_getElem?
  intro r
  by_cases hr : r < T.cols.length
  · have h1 : r < n := by omega
    have h2 : (((List.range n).map fun r => ((k + r, i) : AxisAt)).zip T.cols)[r]? = some ((k + r, i), T.cols[r]) := List.getElem?_zip_eq_some.2 ⟨by simp [h1], List.getElem?_eq_getElem hr⟩
    rw [List.getElem?_map, h2]
    simp [hr]
  · rw [List.getElem?_eq_none (by simp; omega), List.getElem?_eq_none (by simp; omega)]

theorem histTable_step {a : CmpArgs} {lab : Str → Str} (ha : CmpArgsOk a lab) {order : List Str} {rows : List (PRow Rat)} (h : FreqInput order rows a.labels) {gpu : List (Nat × Rat)} (hg : (gpu.map Prod.fst).Pairwise (· < ·)) :
    ∃ U T, getAllFreqs order rows a.labels = .ok U ∧ histTable true U (devFreqs gpu) = .ok T ∧ StepTable (TimesOf rows gpu) (ClusterCols order lab rows (· / 1000) cs!"freq" gpu (· / 1000000)) T := by
  obtain ⟨idx, h1, h2, h3⟩ := freqs_step ha h
  by_cases hne : gpu = []
  · subst hne
    exact ⟨_, _, h1, rfl, pad_step order lab rows idx h2 h3 (· / 1000) (· / 1000000) cs!"freq"⟩
  · obtain ⟨cols, c1, c2⟩ := join_step order lab rows idx h2 h3 (· / 1000) (· / 1000000) cs!"freq" gpu hne hg
    refine ⟨_, _, h1, ?_, c2⟩
    unfold devFreqs
    rw [if_neg (by simpa [List.length_eq_zero_iff] using hne)]
    simp only [histTable, List.map_map, Function.comp_def] at c1 ⊢
    rw [c1]

theorem clusterCols_length {a : CmpArgs} {order : List Str} {rows : List (PRow Rat)} (hm : (a.labels.map Prod.fst).Nodup) (h : FreqInput order rows a.labels) : order.length = a.labels.length := by
  rw [← List.length_map (f := Prod.fst) (as := a.labels)]
  exact ((List.perm_ext_iff_of_nodup h.nodup hm).2 h.labelled).length_eq

theorem freqHists_ok {a : CmpArgs} {lab : Str → Str} {runs : List ThRun} {run : ThRun} (ha : CmpArgsOk a lab) (h : IpaRun a run) (hrun : run ∈ runs) {n : Nat} (hn : FreqRows a runs n) (i : Nat) :
    ∃ y, freqHistsOfRun true a.labels ((List.range (2 * n)).map fun r => (r, i)) run = .ok y ∧ HistsOf lab n i run y := by
  have htake : (((List.range (2 * n)).map fun r => ((r, i) : AxisAt)).take n) = (List.range n).map fun r => (0 + r, i) := by
    rw [← List.map_take, List.take_range]
    simp; congr 2; omega
  have hdrop : (((List.range (2 * n)).map fun r => ((r, i) : AxisAt)).drop n) = (List.range n).map fun r => (n + r, i) := by
    have : 2 * n = n + n := by omega
    rw [this, List.range_add, List.map_append, List.drop_append_of_le_length (by simp), List.drop_of_length_le (by simp), List.map_map]
    rfl
  have key : ∃ go gi : List (Nat × Rat), (run.gpuIn ≠ [] → run.gpuOut ≠ [] → go = run.gpuOut ∧ gi = run.gpuFreqs) ∧ (run.gpuIn = [] ∨ run.gpuOut = [] → go = [] ∧ gi = []) ∧
      (bothFreqs (devFreqs run.gpuOut) (devFreqs run.gpuFreqs)).map Prod.fst = devFreqs go ∧
      (bothFreqs (devFreqs run.gpuOut) (devFreqs run.gpuFreqs)).map Prod.snd = devFreqs gi ∧
      (go.map Prod.fst).Pairwise (· < ·) ∧ (gi.map Prod.fst).Pairwise (· < ·) ∧ (go ≠ [] → run.gpuIn ≠ []) ∧ (gi ≠ [] → run.gpuIn ≠ []) := by
    have hfr : run.gpuFreqs = [] ↔ run.gpuIn = [] := by simp [ThRun.gpuFreqs]
    by_cases h1 : run.gpuIn = []
    · refine ⟨[], [], fun e => absurd h1 e, fun _ => ⟨rfl, rfl⟩, ?_, ?_, .nil, .nil, fun e => absurd rfl e, fun e => absurd rfl e⟩ <;>
      · rw [hfr.2 h1]
        cases devFreqs run.gpuOut <;> rfl
    · by_cases h2 : run.gpuOut = []
      · refine ⟨[], [], fun _ e => absurd h2 e, fun _ => ⟨rfl, rfl⟩, ?_, ?_, .nil, .nil, fun e => absurd rfl e, fun e => absurd rfl e⟩ <;>
        · rw [h2]; rfl
      · refine ⟨run.gpuOut, run.gpuFreqs, fun _ _ => ⟨rfl, rfl⟩, fun e => absurd e (by simp [h1, h2]), ?_, ?_, h.gpuOut, by simpa [ThRun.gpuFreqs, List.map_map, Function.comp_def] using h.gpuIn,
          fun _ => h1, fun _ => h1⟩ <;>
        · have h3 : run.gpuFreqs ≠ [] := fun e => h1 (hfr.1 e)
          simp only [bothFreqs, devFreqs, List.length_eq_zero_iff, if_neg h2, if_neg h3, Option.map_some]
  obtain ⟨go, gi, k1, k2, k3, k4, k5, k6, k7, k8⟩ := key
  obtain ⟨U, O, o1, o2, o3⟩ := histTable_step ha h.out k5
  obtain ⟨V, I, i1, i2, i3⟩ := histTable_step ha h.freqInput k6
  have hlen : ∀ {order : List Str} {rows : List (PRow Rat)} {gpu : List (Nat × Rat)} {T : PTable Rat}, order.length = a.labels.length → (gpu ≠ [] → run.gpuIn ≠ []) →
      StepTable (TimesOf rows gpu) (ClusterCols order lab rows (· / 1000) cs!"freq" gpu (· / 1000000)) T → T.cols.length ≤ n := by
    intro order rows gpu T e hg hT
    rw [← hT.cols.length_eq]
    unfold ClusterCols
    rw [List.length_append, List.length_map, e]
    by_cases hr : ∃ r ∈ runs, r.gpuIn ≠ []
    · rw [hn.2 hr]
      split <;> simp
    · simp only [not_exists, not_and, not_not] at hr
      rw [hn.1 hr]
      have : gpu = [] := by
        by_contra e'
        exact hg e' (hr run hrun)
      simp [this]
  refine ⟨_, ?_, O, I, go, gi, k1, k2, o3, i3, rfl⟩
  unfold freqHistsOfRun
  simp only [k3, k4, o1, i1, o2, i2]
  have hb : ((List.range (2 * n)).map fun r => ((r, i) : AxisAt)).length / 2 = n := by simp
  rw [hb, histsOf_zip htake (hlen (clusterCols_length ha.masks h.out) k7 o3), histsOf_zip hdrop (hlen (clusterCols_length ha.masks h.freqInput) k8 i3)]
  simp

/-! ## C160 -/

/-- **Specification**: something for each run -/
def EachRun {β : Type} (P : Nat → ThRun → β → Prop) (runs : List ThRun) (l : List β) : Prop := l.length = runs.length ∧ ∀ (i : Nat) (run : ThRun), runs[i]? = some run → ∃ y, l[i]? = some y ∧ P i run y

theorem row_each {β : Type} {runs : List ThRun} {f : AxisAt → ThRun → Except CmpErr β} {P : Nat → ThRun → β → Prop} (hne : runs ≠ []) (h : ∀ (i : Nat) (run : ThRun), run ∈ runs → ∃ y, f (0, i) run = .ok y ∧ P i run y) :
    ∃ l, forAxes runs (rowAxes runs.length) f = .ok l ∧ EachRun P runs l := by
  obtain ⟨L, h1, h2, h3⟩ := (C105_columns runs.length 1 (List.length_pos_iff.2 hne) (by omega)).2.2
  refine forAxes_ok hne h1 h2 ?_
  intro i run ax hi hax
  rw [h3 i (List.getElem?_eq_some_iff.1 hi).1] at hax
  cases hax
  exact h i run (List.mem_of_getElem? hi)

theorem column_each {β : Type} {runs : List ThRun} {n : Nat} {axes : Option (List (List AxisAt))} {f : List AxisAt → ThRun → Except CmpErr β} {P : Nat → ThRun → β → Prop} (hne : runs ≠ [])
    (ha : ∃ L, axes = some L ∧ L.length = runs.length ∧ ∀ (c : Nat), c < runs.length → ∃ l, L[c]? = some l ∧ l.length = n ∧ ∀ r < n, l[r]? = some (r, c))
    (h : ∀ (i : Nat) (run : ThRun), run ∈ runs → ∃ y, f ((List.range n).map fun r => (r, i)) run = .ok y ∧ P i run y) :
    ∃ l, forAxes runs axes f = .ok l ∧ EachRun P runs l := by
  obtain ⟨L, h1, h2, h3⟩ := ha
  refine forAxes_ok hne h1 h2 ?_
  intro i run ax hi hax
  obtain ⟨l, l1, l2, l3⟩ := h3 i (List.getElem?_eq_some_iff.1 hi).1
  rw [l1] at hax
  cases hax
  rw [axes_column l2 l3]
  exact h i run (List.mem_of_getElem? hi)

/-- **Specification**: the figures of `compare_runs`; `w` is the figure of the weighted power -/
inductive CmpFigs (a : CmpArgs) (lab : Str → Str) (runs : List ThRun) (w : List CmpFig) : List CmpFig → Prop
  | intro {T L F C I O H K} {n : Nat} (hn : FreqRows a runs n)
      (temperature : EachRun (fun _ run l => TemperatureOf a.tz run.temp l) runs T)
      (load : EachRun (LoadsOf lab) runs L)
      (freqs : EachRun (FreqsOf a) runs F)
      (controller : EachRun (fun i run y => y = ((0, i), run.pid)) runs C)
      (input : EachRun (PowerOf a cs!"req_power") runs I)
      (output : EachRun (PowerOf a cs!"granted_power") runs O)
      (hists : EachRun (HistsOf lab n) runs H)
      (tempHist : EachRun (fun i run y => y = ((0, i), run.name, run.temp.thermal.map fun r => r.temp / 1000)) runs K) :
      CmpFigs a lab runs w ([.temperature T, .load L, .freqs F, .controller C, .inputPower I] ++ w ++ [.outputPower O, .freqHists H, .tempHist K])

theorem compare_figs (a : CmpArgs) (lab : Str → Str) (runs : List ThRun) (hne : runs ≠ []) (ha : CmpArgsOk a lab) (h : ∀ run ∈ runs, IpaRun a run) (w : List CmpFig) (hw : weightedFig a.actors runs = .ok w) :
    ∃ fs, compareRuns true a runs = (fs, none) ∧ CmpFigs a lab runs w fs := by
  obtain ⟨T, t1, t2⟩ := temperature_ok h
  have hT : EachRun (fun _ run l => TemperatureOf a.tz run.temp l) runs T := by
    refine ⟨t2.length_eq.symm, ?_⟩
    intro i run hi
    obtain ⟨hlt, e⟩ := List.getElem?_eq_some_iff.1 hi
    have hlt' : i < T.length := by rw [← t2.length_eq]; exact hlt
    refine ⟨T[i], List.getElem?_eq_getElem hlt', ?_⟩
    have := t2.get (i := i) hlt hlt'
    simp only [List.get_eq_getElem] at this
    rw [e] at this
    exact this
  have hn := freqRows a runs
  generalize hnn : numberFreqPlots (runs.map ThRun.gpuFreqs) a.labels = n at hn
  have hpos : 0 < runs.length := List.length_pos_iff.2 hne
  have hn0 : 0 < n := by
    have := List.length_pos_iff.2 ha.clusters
    by_cases hg : ∃ r ∈ runs, r.gpuIn ≠ []
    · have := hn.2 hg; omega
    · simp only [not_exists, not_and, not_not] at hg
      have := hn.1 hg; omega
  obtain ⟨L, l1, l2⟩ := column_each (P := LoadsOf lab) hne ((C105_columns runs.length 2 hpos (by omega)).2.1 (by omega)) fun i run hr => loadOf_ok ha (h run hr) i
  obtain ⟨F, f1, f2⟩ := column_each (P := FreqsOf a) hne (C105_columns runs.length n hpos hn0).1 fun i run hr => freqsOf_ok ha (h run hr) hr hn i
  obtain ⟨C, c1, c2⟩ := row_each (f := controllerOf) (P := fun i run y => y = ((0, i), run.pid)) hne fun i run hr => ⟨_, if_neg (h run hr).pid, rfl⟩
  obtain ⟨I, i1, i2⟩ := row_each (P := PowerOf a cs!"req_power") hne fun i run hr => powerOf_ok ha.some (h run hr).req i
  obtain ⟨O, o1, o2⟩ := row_each (P := PowerOf a cs!"granted_power") hne fun i run hr => powerOf_ok ha.some (h run hr).granted i
  obtain ⟨H, h1, h2⟩ := column_each (P := HistsOf lab n) hne ((C105_columns runs.length (2 * n) hpos (by omega)).2.1 (by omega)) fun i run hr => freqHists_ok ha (h run hr) hr hn i
  obtain ⟨K, k1, k2⟩ := row_each (f := tempHistOf) (P := fun i run y => y = ((0, i), run.name, run.temp.thermal.map fun r => r.temp / 1000)) hne fun i run hr => ⟨_, if_neg (h run hr).thermal, rfl⟩
  have hk : (runs.filter fun r => decide (r.temp.thermal ≠ [])) = runs := by
    rw [List.filter_eq_self]
    intro r hr
    simpa using (h r hr).thermal
  refine ⟨_, ?_, CmpFigs.intro hn hT l2 f2 c2 i2 o2 h2 k2⟩
  unfold compareRuns
  simp only [ha.isList, ha.isDict, ha.other, ha.ylim, temperatureFig, t1, loadFig, l1, freqsFig, hnn, f1, controllerFig, c1, powerFig, i1, o1, hw, freqHistsFig, h1, tempHistFig, hk, k1]
  simp [runSteps, Except.map, hne]

/-- **C160**: for any number of runs in which the power allocator was active, `compare_runs` draws all figures in the documented order, and each has for each run, in the column of the run, what its tables have. -/
theorem C160_compare_partial (a : CmpArgs) (lab : Str → Str) (runs : List ThRun) (hne : runs ≠ []) (ha : CmpArgsOk a lab) (h : ∀ run ∈ runs, IpaRun a run) :
    ((∀ run ∈ runs, WeightsOf run []) → ∃ fs, compareRuns true a runs = (fs, none) ∧ CmpFigs a lab runs [] fs) ∧
    ((∀ run ∈ runs, ∃ ws, ws ≠ [] ∧ WeightsOf run ws) → ∃ fs W, compareRuns true a runs = (fs, none) ∧ CmpFigs a lab runs [.weightedPower W] fs ∧ EachRun (WeightedOf a) runs W) := by
  constructor
  · intro hw
    refine compare_figs a lab runs hne ha h [] ?_
    unfold weightedFig
    rw [if_pos]
    rw [List.all_eq_true]
    intro r hr
    have := hw r hr
    unfold WeightsOf at this
    simp [actorWeights, this]
  · intro hw
    obtain ⟨W, w1, w2⟩ := row_each (P := WeightedOf a) hne fun i run hr => by
      obtain ⟨ws, hws, hw'⟩ := hw run hr
      exact weightedOf_ok ha (h run hr) hw' hws i
    obtain ⟨fs, f1, f2⟩ := compare_figs a lab runs hne ha h [.weightedPower W] (by
      unfold weightedFig
      rw [if_neg, w1]
      · rfl
      · rw [List.all_eq_true]
        intro hall
        obtain ⟨r, hr⟩ := List.exists_mem_of_ne_nil runs hne
        have := hall r hr
        obtain ⟨ws, hws, hw'⟩ := hw r hr
        unfold WeightsOf at hw'
        rw [actorWeights, hw', List.isEmpty_iff] at this
        have h0 := congrArg List.length this
        rw [List.length_zip, List.length_map, List.length_nil] at h0
        have h1 := List.length_pos_iff.2 ha.some
        have h2 := List.length_pos_iff.2 hws
        omega)
    exact ⟨fs, W, f1, f2, w2⟩


/-! ## Failures -/

theorem eachOk_error {α β : Type} {f : α → Except CmpErr β} {e : CmpErr} : ∀ {l : List α} {k : Nat} {x : α}, l[k]? = some x → f x = .error e → (∀ (j : Nat) (y : α), j < k → l[j]? = some y → ∃ z, f y = .ok z) → eachOk f l = .error e
  | [], _, _, h, _, _ => by cases h
  | y :: l, 0, x, h, hx, _ => by
    simp only [List.getElem?_cons_zero, Option.some.injEq] at h
    subst h
    simp only [eachOk, hx]
  | y :: l, k + 1, x, h, hx, hj => by
    obtain ⟨z, hz⟩ := hj 0 y (by omega) rfl
    have := eachOk_error (l := l) (k := k) (x := x) (by simpa using h) hx fun j w hjk hw => hj (j + 1) w (by omega) (by simpa using hw)
    simp only [eachOk, hz, this]

theorem plotTemperature_some : ∀ {runs : List ThRun}, (∀ r ∈ runs, r.temp.thermal ≠ []) → ∃ T, plotTemperature none (runs.map ThRun.temp) = some T
  | [], _ => ⟨[], rfl⟩
  | run :: runs, h => by
    obtain ⟨T, hT⟩ := plotTemperature_some (runs := runs) fun r hr => h r (by simp [hr])
    obtain ⟨l, l1, _⟩ := C122_all_zones run.temp (h run (by simp))
    exact ⟨l :: T, by simp only [List.map_cons, plotTemperature, l1, hT]⟩

/-- **C160**: if the power allocator was not active in one of the runs, so that its table of input power is empty, the `ValueError` says so, and nothing but the temperatures is drawn; the temperatures are those of all runs. -/
theorem C160_no_power (a : CmpArgs) (lab : Str → Str) (pre post : List ThRun) (run : ThRun) (ha : CmpArgsOk a lab) (htz : a.tz = none) (h : ∀ r ∈ pre, IpaRun a r) (hrun : run.inNames = [] ∧ run.inRows = [])
    (ht : ∀ r ∈ pre ++ run :: post, r.temp.thermal ≠ []) :
    ∃ T, compareRuns true a (pre ++ run :: post) = ([.temperature T], some .noPower) ∧ T.map TempLines.temp = (pre ++ run :: post).map fun r => r.temp.thermal.map fun x => (x.time, x.temp / 1000) := by
  have hT : ∀ {runs : List ThRun}, (∀ r ∈ runs, r.temp.thermal ≠ []) → ∃ T, plotTemperature none (runs.map ThRun.temp) = some T ∧
      T.map TempLines.temp = runs.map fun r => r.temp.thermal.map fun x => (x.time, x.temp / 1000) := by
    intro runs
    induction runs with
    | nil => exact fun _ => ⟨[], rfl, rfl⟩
    | cons r rs ih =>
      intro h
      obtain ⟨T, t1, t2⟩ := ih fun x hx => h x (by simp [hx])
      obtain ⟨l, l1, l2, _⟩ := C122_all_zones r.temp (h r (by simp))
      exact ⟨l :: T, by simp only [List.map_cons, plotTemperature, l1, t1], by simp [t2, l2]⟩
  obtain ⟨T, t1, t2⟩ := hT ht
  refine ⟨T, ?_, t2⟩
  have hpos : 0 < (pre ++ run :: post).length := by simp
  obtain ⟨L, l1, l2, l3⟩ := (C105_columns (pre ++ run :: post).length 2 hpos (by omega)).2.1 (by omega)
  have hload : forAxes (pre ++ run :: post) (loadAxes (pre ++ run :: post).length 2) (loadOf true a.labels) = .error .noPower := by
    unfold forAxes
    rw [if_neg (by simp), l1]
    have hat : ∀ (i : Nat), i < (pre ++ run :: post).length → L[i]? = some ((List.range 2).map fun r => (r, i)) := by
      intro i hi
      obtain ⟨l, m1, m2, m3⟩ := l3 i hi
      rw [m1, axes_column m2 m3]
    refine eachOk_error (k := pre.length) (x := ((List.range 2).map fun r => (r, pre.length), run)) ?_ ?_ ?_
    · exact List.getElem?_zip_eq_some.2 ⟨hat _ (by simp), by simp⟩
    · simp only [loadOf, plotLoad, getLoadData, hrun.1, hrun.2]
      rfl
    · rintro j ⟨ax, r⟩ hj hy
      obtain ⟨y1, y2⟩ := List.getElem?_zip_eq_some.1 hy
      rw [hat j (by simp; omega)] at y1
      cases y1
      rw [List.getElem?_append_left hj] at y2
      obtain ⟨z, hz, _⟩ := loadOf_ok ha (h r (List.mem_of_getElem? y2)) j
      exact ⟨z, hz⟩
  unfold compareRuns
  simp only [ha.isList, ha.isDict, ha.other, ha.ylim, temperatureFig, htz, t1, loadFig, hload]
  simp [runSteps, Except.map]

/-- **C160**: arguments of the wrong types are refused before anything is drawn; without runs no figure of several columns can be made. -/
theorem C160_refuses (sort : Bool) (a : CmpArgs) (runs : List ThRun) :
    (a.isList = false ∨ a.isDict = false → compareRuns sort a runs = ([], some .argument)) ∧
    (a.isList = true → a.isDict = true → a.other = false → a.ylim = false → compareRuns sort a [] = ([.temperature []], some .noPlots)) := by
  constructor
  · rintro (h | h) <;> simp [compareRuns, h]
  · intro h1 h2 h3 h4
    simp [compareRuns, h1, h2, h3, h4, temperatureFig, plotTemperature, loadFig, forAxes, runSteps, Except.map]

/-- **C160**: `tz_id` is the only keyword but the sizes that all the functions can do with, since it is removed after the first; `ylim`, which only the temperatures have, ends the comparison with a `TypeError` after them. -/
theorem C160_keywords (sort : Bool) (a : CmpArgs) (runs : List ThRun) (hl : a.isList = true) (hd : a.isDict = true) :
    (a.other = true → compareRuns sort a runs = ([], some .keyword)) ∧
    (a.other = false → a.ylim = true → (∀ run ∈ runs, IpaRun a run) → ∃ T, compareRuns sort a runs = ([.temperature T], some .keyword)) := by
  constructor
  · intro h
    simp [compareRuns, hl, hd, h, runSteps]
  · intro h1 h2 h
    obtain ⟨T, t1, _⟩ := temperature_ok h
    exact ⟨T, by simp [compareRuns, hl, hd, h1, h2, temperatureFig, t1, runSteps]⟩

/-- two runs: the first with a GPU -/
def exCmpRun : ThRun where
  name := cs!"good"
  temp := exTempRun
  govCols := [(cs!"temp", [(1, 7)]), (cs!"req_power0", [(1, 10)]), (cs!"req_power1", [(1, 20)]), (cs!"granted_power0", [(1, 8)]), (cs!"granted_power1", [(1, 15)])]
  inNames := [cs!"load0", cs!"load1"]
  inRows := exLoadRows
  outRows := exFreqOut
  gpuIn := [⟨2, 30, 100000000⟩, ⟨5, 40, 200000000⟩]
  gpuOut := [(3, 150000000)]
  pid := [⟨1, 1, 2, 3, 4⟩]
  sysfs := []
  orderIn := [cs!"f0", cs!"0f"]
  orderOut := [cs!"0f", cs!"f0"]

def exCmpArgs : CmpArgs := { actors := [cs!"A15", cs!"A7"], labels := exLabels }

/-- the second run: no GPU -/
def exCmpRun' : ThRun := { exCmpRun with name := cs!"new", gpuIn := [], gpuOut := [] }

theorem exOnce (m : Str) : ((exLoadRows.filter fun r => r.mask = m).map LRow.time).Nodup ∧ ((exFreqOut.filter fun r => r.mask = m).map PRow.time).Nodup := by
  by_cases h1 : m = cs!"f0"
  · subst h1; decide
  · by_cases h2 : m = cs!"0f"
    · subst h2; decide
    · have e1 : (exLoadRows.filter fun r => r.mask = m) = [] := by simp [exLoadRows, Ne.symm h1, Ne.symm h2]
      have e2 : (exFreqOut.filter fun r => r.mask = m) = [] := by simp [exFreqOut, Ne.symm h1, Ne.symm h2]
      rw [e1, e2]
      exact ⟨.nil, .nil⟩

theorem exIpa (run : ThRun) (h1 : run.temp = exTempRun) (h2 : run.govCols = exCmpRun.govCols) (h3 : run.inNames = exCmpRun.inNames) (h4 : run.inRows = exLoadRows) (h5 : run.outRows = exFreqOut)
    (h6 : (run.gpuIn.map GpuRow.time).Pairwise (· < ·)) (h7 : (run.gpuOut.map Prod.fst).Pairwise (· < ·)) (h8 : run.pid ≠ []) (h9 : run.orderIn = [cs!"f0", cs!"0f"]) (h10 : run.orderOut = [cs!"0f", cs!"f0"]) : IpaRun exCmpArgs run where
  thermal := by rw [h1]; decide
  gov := by rw [h1]; decide
  zone := by simp [exCmpArgs]
  width := by rw [h4, h3]; decide
  load := by rw [h3]; exact ⟨cs!"load0", by decide, ⟨cs!"0", rfl⟩⟩
  inSorted := by rw [h4]; decide
  inOnce := by intro m; rw [h4]; exact (exOnce m).1
  inNodup := by rw [h9]; decide
  inClusters := by intro m; rw [h9, h4]; simp [exLoadRows]; tauto
  inLabelled := by intro m; rw [h9]; simp [exCmpArgs, exLabels]
  out := by
    rw [h10, h5]
    exact ⟨by decide, by intro m; simp [exFreqOut, eq_comm], by intro m; simp [exCmpArgs, exLabels]; tauto, by decide, fun m => (exOnce m).2⟩
  gpuIn := h6
  gpuOut := h7
  pid := h8
  req := by
    intro cols hc
    rw [h2] at hc
    rw [← actorCols_filter _ _ _ hc]
    decide +kernel
  granted := by
    intro cols hc
    rw [h2] at hc
    rw [← actorCols_filter _ _ _ hc]
    decide +kernel

/-- C160: the hypotheses are met by two runs, one of which has a GPU -/
example : CmpArgsOk exCmpArgs (fun m => if m = cs!"f0" then cs!"A15" else cs!"A7") ∧ (∀ run ∈ [exCmpRun, exCmpRun'], IpaRun exCmpArgs run) ∧ (∀ run ∈ [exCmpRun, exCmpRun'], WeightsOf run []) ∧
    (compareRuns true exCmpArgs [exCmpRun, exCmpRun']).2 = none ∧ (compareRuns true exCmpArgs [exCmpRun, exCmpRun']).1.length = 8 := by
  refine ⟨⟨rfl, rfl, rfl, rfl, by decide, by decide, ?_, ?_, by decide, by decide, by decide⟩, ?_, ?_, by decide +kernel, by decide +kernel⟩
  · intro m l h
    simp only [exCmpArgs, exLabels, List.mem_cons, Prod.mk.injEq, List.not_mem_nil, or_false] at h
    rcases h with ⟨rfl, rfl⟩ | ⟨rfl, rfl⟩ <;> decide
  · intro m h
    simp only [exCmpArgs, exLabels, List.map_cons, List.map_nil, List.mem_cons, List.not_mem_nil, or_false] at h
    rcases h with rfl | rfl
    · exact ⟨15 * 16 + 0, .snoc (s := cs!"f") (.one ⟨by decide, .inl (by decide)⟩) ⟨by decide, .inl (by decide)⟩⟩
    · exact ⟨0 * 16 + 15, .snoc (s := cs!"0") (.one ⟨by decide, .inl (by decide)⟩) ⟨by decide, .inl (by decide)⟩⟩
  · intro run h
    simp only [List.mem_cons, List.not_mem_nil, or_false] at h
    rcases h with rfl | rfl
    · exact exIpa _ rfl rfl rfl rfl rfl (by decide) (by decide) (by decide) rfl rfl
    · exact exIpa _ rfl rfl rfl rfl rfl (by decide) (by decide) (by decide) rfl rfl
  · intro run h
    simp only [List.mem_cons, List.not_mem_nil, or_false] at h
    rcases h with rfl | rfl <;> (unfold WeightsOf; decide +kernel)

/-- **C160 refuted** when the weights of only some runs are known: the weighted power of the others has nothing to plot, and the output power and the histograms are not drawn. -/
theorem C160_some_weights_refuted : ∃ run : ThRun, IpaRun exCmpArgs run ∧ WeightsOf run [1024, 2048] ∧
    (compareRuns true exCmpArgs [run, exCmpRun']).2 = some .noNumeric ∧ (compareRuns true exCmpArgs [run, exCmpRun']).1.length = 5 ∧ (compareRuns true exCmpArgs [run]).2 = none ∧ (compareRuns true exCmpArgs [exCmpRun']).2 = none := by
  refine ⟨{ exCmpRun with sysfs := [(cs!"cdev1_weight", .int 2048), (cs!"cdev0_weight", .int 1024)] }, exIpa _ rfl rfl rfl rfl rfl (by decide) (by decide) (by decide) rfl rfl, ?_, ?_, ?_, ?_, ?_⟩
  · unfold WeightsOf; decide +kernel
  all_goals decide +kernel

/-- **C160 refuted** for the titles of the histograms: the input frequencies are called `out` too, and the GPU `freq`. -/
theorem C160_hist_titles_refuted : ∃ l y, CmpFig.freqHists l ∈ (compareRuns true exCmpArgs [exCmpRun]).1 ∧ l = [y] ∧
    y.map (fun e => (e.1.1, e.2.1)) = [(0, cs!"freq out A7"), (1, cs!"freq out A15"), (2, cs!"freq out freq"), (3, cs!"freq out A15"), (4, cs!"freq out A7"), (5, cs!"freq out freq")] := by
  refine ⟨_, _, List.mem_of_getElem? (i := 6) (by decide +kernel : (compareRuns true exCmpArgs [exCmpRun]).1[6]? = some (.freqHists [[((0, 0), cs!"freq out A7", [some 400, some 400, some 400]), ((1, 0), cs!"freq out A15", [none, none, some 900]),
    ((2, 0), cs!"freq out freq", [none, some 150, some 150]), ((3, 0), cs!"freq out A15", [some (4/5), some (4/5), some 1, some 1]), ((4, 0), cs!"freq out A7", [some (1/2), some (1/2), some (1/2), some (1/2)]),
    ((5, 0), cs!"freq out freq", [none, some 100, some 100, some 200])]])), rfl, by decide +kernel⟩

/-- **C160 refuted** for runs without temperatures of the thermal framework, which the temperature plot can do without: the histograms of the temperatures are those of the first runs, not of the runs that have temperatures. -/
theorem C160_temp_hist_refuted : (compareRuns true exCmpArgs [{ exCmpRun with temp := ⟨exTempRun.gov, []⟩ }, exCmpRun']).2 = some .key ∧
    (compareRuns true exCmpArgs [exCmpRun', { exCmpRun with temp := ⟨exTempRun.gov, []⟩ }]).2 = none ∧
    (∃ K, CmpFig.tempHist [((0, 0), cs!"new", K)] ∈ (compareRuns true exCmpArgs [exCmpRun', { exCmpRun with temp := ⟨exTempRun.gov, []⟩ }]).1) := by
  refine ⟨by decide +kernel, by decide +kernel, [40, 101 / 2, 41, 51], ?_⟩
  decide +kernel

/-- **C160 refuted** for a zone when the power allocator was not active: the temperature plot fails with a `KeyError`, and the documented error is never raised. -/
theorem C160_zone_refuted (a : CmpArgs) (z : Int) (hz : z ≠ 0) (hl : a.isList = true) (hd : a.isDict = true) (ho : a.other = false) (htz : a.tz = some z) (run : ThRun) (runs : List ThRun) (hg : run.temp.gov = []) (sort : Bool) :
    compareRuns sort a (run :: runs) = ([], some .key) := by
  have : plotTemperature (some z) ((run :: runs).map ThRun.temp) = none := by
    have := C122_governor_off_refuted z hz run.temp.thermal (runs.map ThRun.temp)
    rw [← hg] at this
    exact this
  rw [List.map_cons] at this
  simp [compareRuns, hl, hd, ho, htz, temperatureFig, this, runSteps]

/-- C160: the error of a run without the power allocator -/
example : compareRuns true exCmpArgs [exCmpRun, { exCmpRun with temp := ⟨[], exTempRun.thermal⟩, inNames := [], inRows := [] }] =
    ([.temperature [⟨[(1, 40), (1, 101 / 2), (3, 41), (4, 51)], some [(1, 75), (2, 70), (3, 75)]⟩, ⟨[(1, 40), (1, 101 / 2), (3, 41), (4, 51)], none⟩]], some .noPower) := by decide +kernel

/-- **C160**: `summary_plots` is the comparison of one run -/
theorem C160_summary (sort : Bool) (a : CmpArgs) (run : ThRun) : summaryPlots sort a run = compareRuns sort a [run] := rfl

end Trappy
