import Verif.Prop.Thermal
import Mathlib.Data.List.Sort
/-!
# Load plots where pandas does not sort the joined times
-/

namespace Trappy

theorem concatIndex_false (i j : List Nat) : concatIndex false i j = i ++ j.filter fun t => !i.contains t := by
  unfold concatIndex
  by_cases h : i = j
  · subst h
    rw [if_pos rfl]
    have : (i.filter fun t => !i.contains t) = [] := by
      rw [List.filter_eq_nil_iff]
      intro a ha
      simpa using ha
    rw [this, List.append_nil]
  · rw [if_neg h, if_neg (by simp)]

theorem concatIndex_false_sorted (i j : List Nat) (hi : i.Pairwise (· < ·)) (hj : j.Pairwise (· < ·)) :
    (concatIndex false i j).Pairwise (· < ·) ↔ ∀ t ∈ j, t ∉ i → ∀ t' ∈ i, t' < t := by
  rw [concatIndex_false, List.pairwise_append]
  constructor
  · rintro ⟨_, _, h⟩ t ht hn t' ht'
    exact h t' ht' t (List.mem_filter.2 ⟨ht, by simpa using hn⟩)
  · intro h
    refine ⟨hi, hj.filter _, fun t' ht' t ht => ?_⟩
    obtain ⟨h1, h2⟩ := List.mem_filter.1 ht
    exact h t h1 (by simpa using h2) t' ht'

theorem concatIndex_false_true (i j : List Nat) (hi : i.Pairwise (· < ·)) (hj : j.Pairwise (· < ·))
    (h : (concatIndex false i j).Pairwise (· < ·)) : concatIndex false i j = concatIndex true i j := by
  obtain ⟨h1, h2⟩ := concatIndex_sorted i j hi hj
  refine List.Pairwise.eq_of_mem_iff h h1 fun t => ?_
  rw [h2, concatIndex_false, List.mem_append, List.mem_filter]
  by_cases ht : t ∈ i
  · simp [ht]
  · simp [ht]

theorem lookup_map_pair {α : Type} (idx : List Nat) (f : Nat → α) (t : Nat) :
    (idx.map fun u => (u, f u)).lookup t = if t ∈ idx then some (f t) else none := by
  induction idx with
  | nil => rfl
  | cons u us ih =>
    by_cases h : t = u
    · subst h; simp
    · rw [List.map_cons, lookup_ne h, ih]
      simp [h]

theorem lastSome_append_none {α : Type} (xs : List (Option α)) (n : Nat) :
    lastSome (xs ++ List.replicate n none) = lastSome xs := by
  unfold lastSome
  rw [List.filterMap_append]
  have : (List.replicate n (none : Option α)).filterMap id = [] := by
    rw [List.filterMap_eq_nil_iff]
    intro a ha
    rw [(List.mem_replicate.1 ha).2]; rfl
  rw [this, List.append_nil]

/-- the column of a cluster at a time that is only in the rows of the GPU -/
theorem unsorted_cell {α : Type} (s : List (Nat × Option α)) (idx new : List Nat) (hs : idx.Pairwise (· < ·))
    (hsub : ∀ x ∈ s, x.1 ∈ idx) (hn : ∀ t ∈ new, t ∉ idx) (j t : Nat) (hj : (idx ++ new)[j]? = some t) (ht : t ∉ idx)
    (last : Nat) (hl : last ∈ idx) (hmax : ∀ u ∈ idx, u ≤ last) :
    (ffill none ((idx ++ new).map fun t => ((idx.map fun u => (u, obs s u)).lookup t).join))[j]? = some (obs s last) := by
  have hjl : j < (idx ++ new).length := (List.getElem?_eq_some_iff.1 hj).1
  have hge : idx.length ≤ j := by
    by_contra hlt
    rw [List.getElem?_append_left (by omega)] at hj
    exact ht (List.mem_of_getElem? hj)
  have hcol : ((idx ++ new).map fun t => ((idx.map fun u => (u, obs s u)).lookup t).join) =
      idx.map (obs s) ++ List.replicate new.length none := by
    rw [List.map_append]
    congr 1
    · apply List.map_congr_left
      intro u hu
      rw [lookup_map_pair, if_pos hu]; rfl
    · rw [List.eq_replicate_iff]
      refine ⟨by simp, fun b hb => ?_⟩
      obtain ⟨u, hu, rfl⟩ := List.mem_map.1 hb
      rw [lookup_map_pair, if_neg (hn u hu)]; rfl
  rw [hcol, ffill_get _ _ _ (by simpa using hjl), Option.or_none]
  have htake : (idx.map (obs s) ++ List.replicate new.length none).take (j + 1) =
      idx.map (obs s) ++ List.replicate (min (j + 1 - idx.length) new.length) none := by
    rw [List.take_append, List.take_of_length_le (by simp; omega), List.take_replicate, List.length_map]
  rw [htake, lastSome_append_none]
  congr 1
  -- the last cell of the column as it is
  obtain ⟨k, hk, hkl⟩ := List.mem_iff_getElem.1 hl
  have hklast : k + 1 = idx.length := by
    by_contra hne
    have hlt : k + 1 < idx.length := by omega
    have h1 : idx[k] < idx[k + 1] := List.pairwise_iff_getElem.1 hs k (k + 1) hk hlt (by omega)
    have h2 := hmax _ (List.getElem_mem hlt)
    omega
  have h := ffill_get (none : Option α) (idx.map (obs s)) k (by simpa using hk)
  rw [ffill_obs s idx hs hsub, Option.or_none, List.take_of_length_le (by simp; omega), List.getElem?_map,
    List.getElem?_eq_getElem hk, hkl] at h
  exact (Option.some.inj h).symm

theorem withGpu_unsorted (order : List Str) (rows : List (PRow Rat)) (lab : Str → Str) (idx : List Nat) (gpu : List (Nat × Rat))
    (hs : idx.Pairwise (· < ·)) (hm : ∀ t, t ∈ idx ↔ ∃ r ∈ rows, r.time = t) (hg : (gpu.map Prod.fst).Pairwise (· < ·)) :
    ∃ T, withGpu false ⟨idx, order.map fun m => (lab m, idx.map (obs (seriesOf rows m)))⟩ (gpu.map fun r => (r.1, some r.2)) = .ok T ∧
      (LoadTable rows (gpuRows gpu) order lab T ↔ ∀ t ∈ gpu.map Prod.fst, t ∉ idx → ∀ t' ∈ idx, t' < t) ∧
      ∀ (i : Nat) (m : Str) (name : Str) (col : List (Option Rat)), order[i]? = some m → T.cols[i]? = some (name, col) →
        ∀ (j t : Nat), T.index[j]? = some t → t ∉ idx → ∀ last ∈ idx, (∀ u ∈ idx, u ≤ last) →
          ∃ v, col[j]? = some v ∧ LastObs rows m last v := by
  have hfst : (gpu.map fun r => (r.1, some r.2)).map Prod.fst = gpu.map Prod.fst := by simp [List.map_map, Function.comp_def]
  have hok : withGpu false ⟨idx, order.map fun m => (lab m, idx.map (obs (seriesOf rows m)))⟩ (gpu.map fun r => (r.1, some r.2)) =
      .ok ⟨concatIndex false idx (gpu.map Prod.fst), ((PTable.allSeries ⟨idx, order.map fun m => (lab m, idx.map (obs (seriesOf rows m)))⟩) ++
        [(cs!"GPU", gpu.map fun r => (r.1, some r.2))]).map fun x => (x.1, ffill none ((concatIndex false idx (gpu.map Prod.fst)).map
          fun t => (x.2.lookup t).join))⟩ := by
    unfold withGpu
    simp only [hfst]
    rw [alignAll_ok]
    intro x hx
    rcases List.mem_append.1 hx with hx | hx
    · simp only [PTable.allSeries, List.map_map, List.mem_map, Function.comp_apply] at hx
      obtain ⟨m, _, rfl⟩ := hx
      simp only [zip_map_self]
      rw [List.map_map]
      have : idx.Nodup := hs.imp fun h => by omega
      simpa [Function.comp_def] using this
    · simp only [List.mem_singleton] at hx
      subst hx
      simp only
      rw [hfst]
      exact hg.imp fun h => by omega
  refine ⟨_, hok, ⟨?_, ?_⟩, ?_⟩
  · intro h
    exact (concatIndex_false_sorted idx _ hs hg).1 h.sorted
  · intro h
    have he := concatIndex_false_true idx _ hs hg ((concatIndex_false_sorted idx _ hs hg).2 h)
    obtain ⟨T, t1, t2⟩ := withGpu_table order rows lab idx gpu hs hm hg
    have : withGpu false ⟨idx, order.map fun m => (lab m, idx.map (obs (seriesOf rows m)))⟩ (gpu.map fun r => (r.1, some r.2)) =
        withGpu true ⟨idx, order.map fun m => (lab m, idx.map (obs (seriesOf rows m)))⟩ (gpu.map fun r => (r.1, some r.2)) := by
      unfold withGpu
      simp only [hfst, he]
    rw [← this, hok] at t1
    injection t1 with t1
    rw [t1]; exact t2
  · intro i m name col hi hcol j t hj ht last hl hmax
    have hlt : i < order.length := (List.getElem?_eq_some_iff.1 hi).1
    simp only [PTable.allSeries, List.map_append, List.map_map] at hcol
    rw [List.getElem?_append_left (by simpa using hlt), List.getElem?_map, hi] at hcol
    simp only [Function.comp_apply, Option.map_some, Option.some.injEq, Prod.mk.injEq, zip_map_self] at hcol
    rw [← hcol.2]
    simp only [concatIndex_false] at hj ⊢
    refine ⟨_, unsorted_cell (seriesOf rows m) idx _ hs ?_ ?_ j t hj ht last hl hmax, lastObs_series rows m last⟩
    · intro x hx
      simp only [seriesOf, List.mem_map, List.mem_filter] at hx
      obtain ⟨r, ⟨hr, _⟩, rfl⟩ := hx
      exact (hm _).2 ⟨r, hr, rfl⟩
    · intro u hu
      simpa using (List.mem_filter.1 hu).2

/-- **C126, exactly, where pandas appends the new times.** The table is right if and only if every time that only the GPU has comes
after all times of the loads. At a time that only the GPU has, each cluster is drawn with its last load of the whole trace. -/
theorem C126_unsorted_exact (order names : List Str) (rows : List LRow) (gpu : List GpuRow) (mapping : Dict Str) (lab : Str → Str)
    (h : LoadInput order names rows mapping lab) (hg : gpu ≠ []) (hgs : (gpu.map GpuRow.time).Pairwise (· < ·)) :
    ∃ T, plotLoad false order names rows gpu mapping = .ok T ∧
      (LoadTable (rows.map fun r => ⟨r.time, r.mask, some (r.loads names).sum⟩) (gpu.map fun r => ⟨r.time, [], some r.load⟩) order lab T ↔
        ∀ g ∈ gpu, (∀ r ∈ rows, r.time ≠ g.time) → ∀ r ∈ rows, r.time < g.time) ∧
      ∀ (i : Nat) (m : Str) (name : Str) (col : List (Option Rat)), order[i]? = some m → T.cols[i]? = some (name, col) →
        ∀ (j t : Nat), T.index[j]? = some t → (∀ r ∈ rows, r.time ≠ t) → ∀ l ∈ rows, (∀ r ∈ rows, r.time ≤ l.time) →
          ∃ v, col[j]? = some v ∧ LastObs (rows.map fun r => ⟨r.time, r.mask, some (r.loads names).sum⟩) m l.time v := by
  obtain ⟨idx, h1, h2, h3⟩ := load_written order rows mapping lab (fun r => (r.loads names).sum) h.nodup h.clusters h.labelled h.distinct h.sorted h.once
  obtain ⟨T, t1, t2, t3⟩ := withGpu_unsorted order _ lab idx (gpu.map fun r => (r.time, r.load)) h2 h3 (by
    simpa [List.map_map, Function.comp_def] using hgs)
  have h3' : ∀ t, t ∈ idx ↔ ∃ r ∈ rows, r.time = t := by
    intro t; rw [h3]; simp
  refine ⟨T, ?_, ?_, ?_⟩
  · unfold plotLoad getLoadData
    rw [loadSeries_ok names rows h.width h.load]
    simp only [zip_map_rows, h1]
    rw [if_neg (by simpa [List.length_eq_zero_iff] using hg)]
    rw [← t1]
    simp [List.map_map, Function.comp_def]
  · have t2' := t2
    simp only [gpuRows, List.map_map, Function.comp_def] at t2'
    refine Iff.trans t2' ?_
    constructor
    · intro hh g hgm hne r hr
      exact hh g.time (List.mem_map.2 ⟨g, hgm, rfl⟩) (fun hc => by
        obtain ⟨r', hr', e⟩ := (h3' _).1 hc
        exact hne r' hr' e) r.time ((h3' _).2 ⟨r, hr, rfl⟩)
    · intro hh t ht hn t' ht'
      obtain ⟨g, hgm, rfl⟩ := List.mem_map.1 ht
      obtain ⟨r, hr, rfl⟩ := (h3' _).1 ht'
      exact hh g hgm (fun r' hr' e => hn ((h3' _).2 ⟨r', hr', e⟩)) r hr
  · intro i m name col hi hcol j t hj hn l hl hmax
    refine t3 i m name col hi hcol j t hj (fun hc => ?_) l.time ((h3' _).2 ⟨l, hl, rfl⟩) (fun u hu => ?_)
    · obtain ⟨r, hr, e⟩ := (h3' _).1 hc
      exact hn r hr e
    · obtain ⟨r, hr, rfl⟩ := (h3' _).1 hu
      exact hmax r hr

/-- the GPU reports at 2 and 5, the clusters at 1 and 4: at 2 the loads of 4 are drawn, at 5 the right ones -/
example : plotLoad false [cs!"f0", cs!"0f"] [cs!"load0", cs!"load1"] exLoadRows [⟨2, 30, 100⟩, ⟨5, 40, 200⟩] exLabels =
      .ok ⟨[1, 4, 2, 5], [(cs!"A15", [some 110, some 150, some 150, some 150]), (cs!"A7", [some 30, some 30, some 30, some 30]),
        (cs!"GPU", [none, none, some 30, some 40])]⟩ := by decide +kernel

end Trappy
