import Verif.Prop.Thermal
import Verif.Prop.Trigger

/-! Exactly when the temperatures of a zone are drawn as they should, and which lists of values can be used as filters. -/

namespace Trappy

/-- **Specification**: what a run adds to the plot of a zone: its temperatures and, if the governor was on, its control temperatures -/
def ZoneLines (z : Int) (run : TempRun) (l : TempLines) : Prop :=
  ZoneTemps z run.thermal l.temp ∧ (run.gov = [] → l.control = none) ∧ (run.gov ≠ [] → ∃ c, l.control = some c ∧ ZoneControl z run.gov c)

/-- the condition: there are temperatures of the zone; the governor was on, or for zone 0 it reported no other zone -/
def ZoneUsable (z : Int) (run : TempRun) : Prop :=
  (∃ r ∈ run.thermal, r.id = z) ∧ (z ≠ 0 → run.gov ≠ []) ∧ (z = 0 → ∀ r ∈ run.gov, r.zone = 0)

theorem zoneControl_length {z : Int} {rows : List GovRow} {ps : Points} (h : ZoneControl z rows ps) : ps.length = (rows.filter fun r => r.zone = z).length := by
  induction h with
  | nil => rfl
  | take h _ ih => simp [h, ih]
  | skip h _ ih => simp [h, ih]

theorem zoneTemps_length {z : Int} {rows : List TempRow} {ps : Points} (h : ZoneTemps z rows ps) : ps.length = (rows.filter fun r => r.id = z).length := by
  induction h with
  | nil => rfl
  | take h _ ih => simp [h, ih]
  | skip h _ ih => simp [h, ih]

theorem runTemperature_exact (z : Int) (run : TempRun) : (∃ l, runTemperature run (some z) = some l ∧ ZoneLines z run l) ↔ ZoneUsable z run := by
  by_cases ht : ∃ r ∈ run.thermal, r.id = z
  · obtain ⟨r, hr, hrz⟩ := id ht
    have h1 : run.thermal.length ≠ 0 := by
      intro h; rw [List.length_eq_zero_iff] at h; rw [h] at hr; cases hr
    have h2 : (run.thermal.filter fun r => r.id = z).length ≠ 0 := by
      intro h; rw [List.length_eq_zero_iff, List.filter_eq_nil_iff] at h
      exact h r hr (by simpa using hrz)
    by_cases hz : z = 0
    · subst hz
      have hrun : runTemperature run (some 0) = some ⟨(run.thermal.filter fun r => r.id = 0).map fun r => (r.time, r.temp / 1000), if run.gov.length = 0 then none else some (controlSeries run.gov)⟩ := by
        unfold runTemperature govOfZone thermalPlot
        simp only [zoneTruthy, bne_self_eq_false, Bool.false_eq_true, if_false, if_neg h1, if_neg h2]
      constructor
      · rintro ⟨l, hl, _, _, h3⟩
        refine ⟨ht, fun h => absurd rfl h, fun _ g hg => ?_⟩
        rw [hrun] at hl
        have hne : run.gov ≠ [] := List.ne_nil_of_mem hg
        obtain ⟨c, hc, hcz⟩ := h3 hne
        rw [← Option.some.inj hl] at hc
        have hlen : run.gov.length ≠ 0 := by simpa [List.length_eq_zero_iff] using hne
        simp only [if_neg hlen, Option.some.injEq] at hc
        have := zoneControl_length hcz
        rw [← hc] at this
        simp only [controlSeries, List.length_map] at this
        have := (List.filter_sublist (p := fun r : GovRow => decide (r.zone = 0)) (l := run.gov)).eq_of_length this.symm
        rw [List.filter_eq_self] at this
        simpa using this g hg
      · rintro ⟨_, _, h3⟩
        refine ⟨_, hrun, zoneTemps_filter 0 run.thermal, fun h => by simp [h], fun h => ?_⟩
        have hlen : run.gov.length ≠ 0 := by simpa [List.length_eq_zero_iff] using h
        refine ⟨controlSeries run.gov, by simp only [if_neg hlen], ?_⟩
        have := zoneControl_filter 0 run.gov
        rwa [List.filter_eq_self.2 fun r hr => by simpa using h3 rfl r hr] at this
    · by_cases hg : run.gov = []
      · constructor
        · rintro ⟨l, hl, _⟩
          simp [runTemperature, govOfZone, zoneTruthy, hz, hg] at hl
        · rintro ⟨_, h, _⟩
          exact absurd hg (h hz)
      · obtain ⟨l, c, a1, a2, a3, a4⟩ := runTemperature_zone z hz run hg ht
        exact ⟨fun _ => ⟨ht, fun _ => hg, fun h => absurd h hz⟩, fun _ => ⟨l, a1, a2, fun h => absurd h hg, fun _ => ⟨c, a3, a4⟩⟩⟩
  · constructor
    · rintro ⟨l, hl, hl1, hl2, hl3⟩
      exfalso
      have h2 : (run.thermal.filter fun r => r.id = z) = [] := by
        rw [List.filter_eq_nil_iff]
        intro r hr h
        exact ht ⟨r, hr, by simpa using h⟩
      have hno : ∀ c, thermalPlot run.thermal c (some z) = none := by
        intro c
        unfold thermalPlot
        simp [h2]
      have hl0 : l.temp = [] := by
        have := zoneTemps_length hl1
        rw [h2] at this
        simpa using this
      unfold runTemperature at hl
      cases hgz : govOfZone run.gov (some z) with
      | none => rw [hgz] at hl; cases hl
      | some gov =>
        rw [hgz] at hl
        simp only [hno] at hl
        unfold governorPlot at hl
        by_cases hg : run.gov.length = 0
        · simp [hg] at hl
        · rw [if_neg hg, Option.some.injEq] at hl
          rw [← hl] at hl0
          apply hg
          simpa using hl0
    · rintro ⟨h, _⟩
      exact absurd h ht

/-- **C122 (exactly).** For every zone and all lists of runs: the plot shows for each run the temperatures and the control temperatures of the zone, exactly if each run has temperatures of the zone and,
for a zone other than 0, the governor was on in each run; for zone 0, no governor reported another zone. -/
theorem C122_exact (z : Int) (runs : List TempRun) :
    (∃ ls, plotTemperature (some z) runs = some ls ∧ ls.length = runs.length ∧
      ∀ (i : Nat) (run : TempRun), runs[i]? = some run → ∃ l, ls[i]? = some l ∧ ZoneLines z run l) ↔ ∀ run ∈ runs, ZoneUsable z run := by
  induction runs with
  | nil => simp [plotTemperature]
  | cons run runs ih =>
    constructor
    · rintro ⟨ls, h1, h2, h3⟩
      simp only [plotTemperature] at h1
      cases hr : runTemperature run (some z) with
      | none => rw [hr] at h1; cases h1
      | some l =>
        rw [hr] at h1
        cases hp : plotTemperature (some z) runs with
        | none => rw [hp] at h1; cases h1
        | some ls' =>
          rw [hp] at h1
          have h1 := Option.some.inj h1
          subst h1
          intro r hm
          rcases List.mem_cons.1 hm with rfl | hm
          · obtain ⟨l', hl', hz⟩ := h3 0 r rfl
            simp only [List.getElem?_cons_zero, Option.some.injEq] at hl'
            subst hl'
            exact (runTemperature_exact z r).1 ⟨_, hr, hz⟩
          · refine ih.1 ⟨ls', hp, by simpa using h2, fun i run' hi => ?_⟩ r hm
            obtain ⟨l', hl', hz⟩ := h3 (i + 1) run' (by simpa using hi)
            exact ⟨l', by simpa using hl', hz⟩
    · intro h
      obtain ⟨ls, h1, h2, h3⟩ := ih.2 fun r hr => h r (List.mem_cons_of_mem _ hr)
      obtain ⟨l, g1, g2⟩ := (runTemperature_exact z run).2 (h run List.mem_cons_self)
      refine ⟨l :: ls, by simp only [plotTemperature, g1, h1], by simp [h2], ?_⟩
      intro i r hr
      cases i with
      | zero =>
        simp only [List.getElem?_cons_zero, Option.some.injEq] at hr
        subst hr
        exact ⟨l, rfl, g2⟩
      | succ i => exact h3 i r (by simpa using hr)

/-- C122: zone 1 of the run of the example is usable, zones 0 and 7 are not; zone 0 of a run with one zone is -/
example : ZoneUsable 1 exTempRun ∧ ¬ ZoneUsable 0 exTempRun ∧ ¬ ZoneUsable 7 exTempRun ∧ ZoneUsable 0 ⟨[⟨1, 0, 40000, 35000⟩], [⟨1, 0, 40000⟩, ⟨1, 1, 50500⟩]⟩ := by
  unfold ZoneUsable
  refine ⟨by decide +kernel, by decide +kernel, by decide +kernel, by decide +kernel⟩

/-- **C60 (exactly).** A list of values is a filter for rows that have one of them, in all tables, exactly if it is not empty and has no two different values. -/
theorem C60_list_exact (k pivot : Str) (vs : List SCell) (value : SValue) :
    (∀ (table : STable) (pv : SCell), pivot ∈ table.cols → k ∈ table.cols → ∃ rs, STrigger.rows ⟨table, [(k, .many vs)], value, pivot⟩ pv = .ok rs ∧
      ∀ p : Nat × Dict SCell → Bool, (∀ r ∈ table.rows, p r = true ↔ r.2.get pivot = some pv ∧ ∃ v ∈ vs, r.2.get k = some v) → rs = table.rows.filter p) ↔
    ∃ v ∈ vs, ∀ x ∈ vs, x = v := by
  constructor
  · intro h
    by_contra hno
    cases vs with
    | nil =>
      obtain ⟨rs, hrs, hp⟩ := h ⟨[pivot, k], [(1, [(pivot, .num 0)])]⟩ (.num 0) (by simp) (by simp)
      obtain ⟨rs', hrs', _, hp'⟩ := (C60_mask ⟨⟨[pivot, k], [(1, [(pivot, .num 0)])]⟩, [(k, .many [])], value, pivot⟩ (.num 0)).1 ⟨by simp, by simp⟩
      have e : rs = rs' := by rw [hrs] at hrs'; exact Except.ok.inj hrs'
      have h1 := hp (fun _ => false) (by simp)
      have h2 := hp' (fun _ => true) (by simp [FilterHolds, Dict.get])
      rw [e, h2] at h1
      simp at h1
    | cons a vs =>
      obtain ⟨b, hb, hab⟩ : ∃ b ∈ vs, b ≠ a := by
        by_contra hall
        exact hno ⟨a, List.mem_cons_self, fun x hx => by
          rcases List.mem_cons.1 hx with rfl | hx
          · rfl
          · by_contra hne
            exact hall ⟨x, hx, hne⟩⟩
      obtain ⟨rs, hrs, hp⟩ := h ⟨[pivot, k], [(1, [(pivot, a), (k, a)])]⟩ a (by simp) (by simp)
      have hnil := C60_list_refuted.2.1 ⟨⟨[pivot, k], [(1, [(pivot, a), (k, a)])]⟩, [(k, .many (a :: vs))], value, pivot⟩ a k (a :: vs) a b
        (by simp) (by simp) (List.mem_cons_of_mem _ hb) (Ne.symm hab) (by simp) rs hrs
      have h1 := hp (fun _ => true) (by
        intro r hr
        simp only [List.mem_singleton] at hr
        subst hr
        simp only [true_iff]
        refine ⟨by simp [Dict.get], a, by simp, ?_⟩
        simp [Dict.get])
      rw [hnil] at h1
      simp at h1
  · rintro ⟨v, hv, hall⟩ table pv h1 h2
    obtain ⟨rs, hr, _, h⟩ := (C60_mask ⟨table, [(k, .many vs)], value, pivot⟩ pv).1 ⟨h1, by simp⟩
    refine ⟨rs, hr, fun p hp => h p fun r hr => ?_⟩
    rw [hp r hr]
    refine and_congr_right fun _ => ?_
    simp only [List.mem_singleton, forall_eq, FilterHolds]
    constructor
    · rintro ⟨x, hx, hxr⟩ _ y hy
      rw [hall y hy, ← hall x hx]
      exact hxr
    · intro hh
      exact ⟨v, hv, hh h2 v hv⟩

/-- C60: the same value twice is allowed -/
example : (∃ v ∈ [SCell.num 7, .num 7], ∀ x ∈ [SCell.num 7, .num 7], x = v) ∧ ¬ ∃ v ∈ [SCell.num 7, .num 8], ∀ x ∈ [SCell.num 7, .num 8], x = v := by decide +kernel

end Trappy
