import Verif.Lemma.Thermal
import Verif.Prop.Power
/-!
# C122-C127: temperature, power, frequency and load plots
-/

namespace Trappy

open Re Py

/-! ## C122: temperatures -/

theorem zoneTemps_filter (z : Int) (rows : List TempRow) :
    ZoneTemps z rows ((rows.filter fun r => r.id = z).map fun r => (r.time, r.temp / 1000)) := by
  induction rows with
  | nil => exact .nil
  | cons r rs ih =>
    by_cases h : r.id = z
    · rw [List.filter_cons, if_pos (by simpa using h)]; exact .take h ih
    · rw [List.filter_cons, if_neg (by simpa using h)]; exact .skip h ih

theorem zoneControl_filter (z : Int) (rows : List GovRow) :
    ZoneControl z rows (controlSeries (rows.filter fun r => some r.zone = some z)) := by
  induction rows with
  | nil => exact .nil
  | cons r rs ih =>
    by_cases h : r.zone = z
    · rw [List.filter_cons, if_pos (by simpa using h)]; exact .take h ih
    · rw [List.filter_cons, if_neg (by simpa using h)]; exact .skip h ih

theorem runTemperature_zone (z : Int) (hz : z ≠ 0) (run : TempRun) (hg : run.gov ≠ []) (ht : ∃ r ∈ run.thermal, r.id = z) :
    ∃ l c, runTemperature run (some z) = some l ∧ ZoneTemps z run.thermal l.temp ∧ l.control = some c ∧ ZoneControl z run.gov c := by
  obtain ⟨r, hr, hrz⟩ := ht
  have h1 : run.thermal.length ≠ 0 := by
    intro h; rw [List.length_eq_zero_iff] at h; rw [h] at hr; cases hr
  have h2 : (run.thermal.filter fun r => r.id = z).length ≠ 0 := by
    intro h; rw [List.length_eq_zero_iff, List.filter_eq_nil_iff] at h
    exact h r hr (by simpa using hrz)
  have h3 : run.gov.length ≠ 0 := by simpa [List.length_eq_zero_iff] using hg
  refine ⟨⟨_, _⟩, _, ?_, zoneTemps_filter z run.thermal, rfl, zoneControl_filter z run.gov⟩
  unfold runTemperature govOfZone thermalPlot
  simp only [zoneTruthy, bne_iff_ne, ne_eq, hz, not_false_eq_true, if_true, if_neg h1, if_neg h2, if_neg h3]

/-- **C122, part proved.** For every list of runs and every zone other than 0: if every run has temperatures of that zone and
rows of the governor, the plot shows for each run the temperatures of the zone in degrees and the control temperature of the
zone, and nothing else. -/
theorem C122_zone_partial (z : Int) (hz : z ≠ 0) (runs : List TempRun)
    (h : ∀ run ∈ runs, run.gov ≠ [] ∧ ∃ r ∈ run.thermal, r.id = z) :
    ∃ ls, plotTemperature (some z) runs = some ls ∧ ls.length = runs.length ∧
      ∀ (i : Nat) (run : TempRun), runs[i]? = some run →
        ∃ l c, ls[i]? = some l ∧ ZoneTemps z run.thermal l.temp ∧ l.control = some c ∧ ZoneControl z run.gov c := by
  induction runs with
  | nil => exact ⟨[], rfl, rfl, by simp⟩
  | cons run runs ih =>
    obtain ⟨ls, h1, h2, h3⟩ := ih fun r hr => h r (List.mem_cons_of_mem _ hr)
    obtain ⟨l, c, g1, g2⟩ := runTemperature_zone z hz run (h run (by simp)).1 (h run (by simp)).2
    refine ⟨l :: ls, by simp only [plotTemperature, g1, h1], by simp [h2], ?_⟩
    intro i r hr
    cases i with
    | zero =>
      simp only [List.getElem?_cons_zero, Option.some.injEq] at hr
      subst hr
      exact ⟨l, c, rfl, g2⟩
    | succ i => exact h3 i r (by simpa using hr)

/-- **C122** without a zone: a run with temperatures shows all of them, and the control temperature of all rows of the
governor if there are any. -/
theorem C122_all_zones (run : TempRun) (ht : run.thermal ≠ []) :
    ∃ l, runTemperature run none = some l ∧ l.temp = run.thermal.map (fun r => (r.time, r.temp / 1000)) ∧
      (run.gov = [] → l.control = none) ∧
      (run.gov ≠ [] → l.control = some (run.gov.map fun r => (r.time, (r.current + r.delta) / 1000))) := by
  have h1 : run.thermal.length ≠ 0 := by simpa [List.length_eq_zero_iff] using ht
  refine ⟨⟨_, if run.gov.length = 0 then none else some (controlSeries run.gov)⟩, ?_, rfl, ?_, ?_⟩
  · unfold runTemperature govOfZone thermalPlot
    simp only [zoneTruthy, Bool.false_eq_true, if_false, if_neg h1]
  · intro h; simp [h]
  · intro h
    have : run.gov.length ≠ 0 := by simpa [List.length_eq_zero_iff] using h
    simp only [if_neg this, controlSeries]

/-- **C122**, without temperatures of the thermal framework: what the governor reported is shown instead, of all zones. -/
theorem C122_governor (run : TempRun) (ht : run.thermal = []) (hg : run.gov ≠ []) :
    ∃ l, runTemperature run none = some l ∧ l.temp = run.gov.map (fun r => (r.time, r.current / 1000)) ∧
      l.control = some (run.gov.map fun r => (r.time, (r.current + r.delta) / 1000)) := by
  have h1 : run.gov.length ≠ 0 := by simpa [List.length_eq_zero_iff] using hg
  refine ⟨⟨_, _⟩, ?_, rfl, rfl⟩
  unfold runTemperature govOfZone thermalPlot governorPlot
  simp only [zoneTruthy, Bool.false_eq_true, if_false, if_neg h1, ht, List.length_nil, if_true]
  rfl

/-- a run with two zones -/
def exTempRun : TempRun :=
  ⟨[⟨1, 0, 40000, 35000⟩, ⟨2, 1, 50000, 20000⟩, ⟨3, 0, 41000, 34000⟩], [⟨1, 0, 40000⟩, ⟨1, 1, 50500⟩, ⟨3, 0, 41000⟩, ⟨4, 1, 51000⟩]⟩

/-- the hypotheses are met -/
example : plotTemperature (some 1) [exTempRun] = some [⟨[(1, 101 / 2), (4, 51)], some [(2, 70)]⟩] ∧
    exTempRun.gov ≠ [] ∧ ∃ r ∈ exTempRun.thermal, r.id = 1 := by
  refine ⟨by decide +kernel, by decide, by decide⟩

/-- **C122 refuted** for zone 0: `if tz_id:` takes it for no zone, so the control temperatures of all zones are drawn. -/
theorem C122_zone0_refuted : ∃ run l c, runTemperature run (some 0) = some l ∧ ZoneTemps 0 run.thermal l.temp ∧
    l.control = some c ∧ ¬ ZoneControl 0 run.gov c := by
  refine ⟨exTempRun, ⟨[(1, 40), (3, 41)], some [(1, 75), (2, 70), (3, 75)]⟩, [(1, 75), (2, 70), (3, 75)], by decide +kernel, ?_, rfl, ?_⟩
  · have := zoneTemps_filter 0 exTempRun.thermal
    have e : ((exTempRun.thermal.filter fun r => r.id = 0).map fun r => (r.time, r.temp / 1000)) = [(1, 40), (3, 41)] := by decide +kernel
    rw [e] at this
    exact this
  · intro h
    have hl : ∀ (rows : List GovRow) (ps : Points), ZoneControl 0 rows ps → ps.length = (rows.filter fun r => r.zone = 0).length := by
      intro rows ps h
      induction h with
      | nil => rfl
      | take h _ ih => simp [h, ih]
      | skip h _ ih => simp [h, ih]
    have := hl _ _ h
    revert this
    decide

/-- **C122 refuted** for a zone without temperatures: the plot shows those of other zones, from the governor. -/
theorem C122_other_zone_refuted : ∃ run l, runTemperature run (some 7) = some l ∧ l.temp ≠ [] ∧
    (∀ r ∈ run.thermal, r.id ≠ 7) ∧ ∀ r ∈ run.gov, r.zone ≠ 7 :=
  ⟨exTempRun, ⟨[(1, 40), (2, 50), (3, 41)], some [(1, 75), (2, 70), (3, 75)]⟩, by decide +kernel, by decide, by decide, by decide⟩

/-- **C122 refuted** for a run whose governor was off: with a zone other than 0 the call raises `KeyError`, whatever
temperatures there are; without a zone or with zone 0 they are drawn. -/
theorem C122_governor_off_refuted (z : Int) (hz : z ≠ 0) (thermal : List TempRow) (runs : List TempRun) :
    plotTemperature (some z) (⟨[], thermal⟩ :: runs) = none := by
  simp [plotTemperature, runTemperature, govOfZone, zoneTruthy, hz]

/-! ## C123: input and output power -/

theorem actorCol_match (word s : Str) : (matchPrefix (.seq (str word) (plus isDigit)) s).isSome ↔ ActorCol word s := by
  rw [matchPrefix_isSome]
  · constructor
    · rintro ⟨x, y, rfl, h⟩
      obtain ⟨u, v, rfl, h1, h2⟩ := matches_seq h
      obtain ⟨hne, hd⟩ := matches_plus h2
      cases v with
      | nil => exact absurd rfl hne
      | cons d v => exact ⟨d, v ++ y, hd d List.mem_cons_self, by rw [matches_str h1]; simp⟩
    · rintro ⟨d, rest, hd, rfl⟩
      refine ⟨word ++ [d], rest, by simp, .seq ?_ (?_ : Matches (plus isDigit) [d])⟩
      · clear hd
        induction word with
        | nil => exact .eps
        | cons c w ih =>
          exact .seq (x := [c]) (y := w) (.chr (by simp)) ih
      · exact .seq (x := [d]) (y := []) (.chr hd) (.star (by simp))
  · refine ⟨?_, trivial, trivial⟩
    induction word with
    | nil => trivial
    | cons c w ih => exact ⟨trivial, ih⟩

theorem actorCols_filter {ν : Type} (word : Str) (columns req : List (Str × ν)) (h : ActorCols word columns req) :
    (columns.filter fun c => (matchPrefix (.seq (str word) (plus isDigit)) c.1).isSome) = req := by
  induction h with
  | nil => rfl
  | take h _ ih => rw [List.filter_cons, if_pos ((actorCol_match _ _).2 h), ih]
  | skip h _ ih => rw [List.filter_cons, if_neg (fun h' => h ((actorCol_match _ _).1 h')), ih]

/-- the columns named after the word and a number exist, and are unique as a list -/
theorem actorCols_exists {ν : Type} (word : Str) (columns : List (Str × ν)) : ∃ req, ActorCols word columns req := by
  induction columns with
  | nil => exact ⟨[], .nil⟩
  | cons c cs ih =>
    obtain ⟨r, hr⟩ := ih
    by_cases h : ActorCol word c.1
    · exact ⟨_, .take h hr⟩
    · exact ⟨_, .skip h hr⟩

theorem actorCols_lookup {ν : Type} (word : Str) (columns req : List (Str × ν)) (h : ActorCols word columns req) (s : Str)
    (hs : ActorCol word s) : columns.lookup s = req.lookup s := by
  induction h with
  | nil => rfl
  | @take c cs r h _ ih =>
    obtain ⟨k, v⟩ := c
    simp only [List.lookup]
    split
    · rfl
    · exact ih
  | @skip c cs r h _ ih =>
    obtain ⟨k, v⟩ := c
    have : (s == k) = false := by
      rw [beq_eq_false_iff_ne]; rintro rfl; exact h hs
    simp only [List.lookup, this]
    exact ih

theorem lookup_nodup {ν : Type} (l : List (Str × ν)) (hnd : (l.map Prod.fst).Nodup) (k : Nat) (c : Str × ν) (h : l[k]? = some c) :
    l.lookup c.1 = some c.2 := by
  induction l generalizing k with
  | nil => simp at h
  | cons x l ih =>
    obtain ⟨a, v⟩ := x
    rw [List.map_cons, List.nodup_cons] at hnd
    cases k with
    | zero =>
      simp only [List.getElem?_cons_zero, Option.some.injEq] at h
      subst h
      simp [List.lookup]
    | succ k =>
      simp only [List.getElem?_cons_succ] at h
      have : (c.1 == a) = false := by
        rw [beq_eq_false_iff_ne]
        rintro rfl
        exact hnd.1 (List.mem_map.2 ⟨c, List.mem_of_getElem? h, rfl⟩)
      simp only [List.lookup, this]
      exact ih hnd.2 k h

theorem natStr_digit_head (k : Nat) : ∃ d rest, isDigit d = true ∧ natStr k = d :: rest := by
  have h1 : natStr k ≠ [] := by
    intro h
    have := Nat.length_toDigits_pos (b := 10) (n := k)
    unfold natStr at h
    rw [h] at this
    simp at this
  cases h : natStr k with
  | nil => exact absurd h h1
  | cons d rest =>
    refine ⟨d, rest, ?_, rfl⟩
    have hd : d ∈ Nat.toDigits 10 k := by unfold natStr at h; rw [h]; simp
    exact natStr_digits hd

/-- **C123.** What is drawn: the columns named after the word and a number, in the order of the table, each under the name
at the same position of the list; if there are not as many names as columns, the call raises. -/
theorem C123_positional {ν : Type} (word : Str) (columns req : List (Str × ν)) (actors : List Str) (h : ActorCols word columns req) :
    powerPlot word columns actors = if req.length = actors.length then some (actors.zip (req.map Prod.snd)) else none := by
  unfold powerPlot
  rw [actorCols_filter word columns req h]

/-- **C123, part proved.** For every table where the columns named after the word and a number are `word0`, `word1`, … in
this order, and as many names: the line of the k-th name is the column `word<k>`. -/
theorem C123_power_partial {ν : Type} (word : Str) (columns req : List (Str × ν)) (actors : List Str)
    (h : ActorCols word columns req) (hord : req.map Prod.fst = (List.range actors.length).map fun k => word ++ natStr k)
    (hnd : (req.map Prod.fst).Nodup) :
    ∃ ps, powerPlot word columns actors = some ps ∧ ps.map Prod.fst = actors ∧
      ∀ (k : Nat) (a : Str), actors[k]? = some a →
        ∃ v, columns.lookup (word ++ natStr k) = some v ∧ ps[k]? = some (a, v) := by
  have hlen : req.length = actors.length := by
    have := congrArg List.length hord
    simpa using this
  rw [C123_positional word columns req actors h, if_pos hlen]
  refine ⟨_, rfl, ?_, ?_⟩
  · rw [List.map_fst_zip]; simp [hlen]
  · intro k a ha
    have hk : k < actors.length := (List.getElem?_eq_some_iff.1 ha).1
    obtain ⟨c, hc⟩ : ∃ c, req[k]? = some c := ⟨req[k], List.getElem?_eq_getElem (by omega)⟩
    have hname : c.1 = word ++ natStr k := by
      have := congrArg (·[k]?) hord
      simp only [List.getElem?_map, hc, List.getElem?_range hk, Option.map_some, Option.some.injEq] at this
      exact this
    obtain ⟨d, rest, hd, he⟩ := natStr_digit_head k
    refine ⟨c.2, ?_, ?_⟩
    · rw [actorCols_lookup word columns req h _ ⟨d, rest, hd, by rw [he]⟩, ← hname]
      exact lookup_nodup req hnd k c hc
    · rw [List.getElem?_zip_eq_some]
      exact ⟨ha, by simp [hc]⟩

/-- C123: three actors -/
example : powerPlot cs!"req_power" [(cs!"temp", 7), (cs!"req_power0", 10), (cs!"req_power1", 20), (cs!"req_power2", 30), (cs!"total_req_power", 60)] [cs!"GPU", cs!"A15", cs!"A7"] =
    some [(cs!"GPU", 10), (cs!"A15", 20), (cs!"A7", 30)] ∧
    [(cs!"req_power0", 10), (cs!"req_power1", 20), (cs!"req_power2", 30)].map Prod.fst = (List.range 3).map fun k => cs!"req_power" ++ natStr k := by
  constructor <;> decide +kernel

/-- **C123 refuted.** The columns are not sorted first, so the names follow the order of the table, not the numbers. -/
theorem C123_order_refuted : ∃ columns : List (Str × Nat), columns.lookup (cs!"req_power" ++ natStr 0) = some 10 ∧
    powerPlot cs!"req_power" columns [cs!"GPU", cs!"A15"] = some [(cs!"GPU", 20), (cs!"A15", 10)] :=
  ⟨[(cs!"req_power1", 20), (cs!"req_power0", 10)], by decide +kernel, by decide +kernel⟩

/-! ## C124: input against output power -/

theorem inCol_exact (a : Str) (ha : '\n' ∉ a) : matchPrefix inColRe ('P' :: a ++ cs!"_in") = some ([(1, a)], []) := by
  unfold matchPrefix inColRe
  simp only [m, List.cons_append]
  rw [m_lit_cons]
  apply mStar_exact a
  · intro y hy
    simp only [notNl, bne_iff_ne, ne_eq]
    rintro rfl
    exact ha hy
  · have := m_str (α := List (Nat × Str) × Str) cs!"_in" [] [(1, (a ++ cs!"_in").take ((a ++ cs!"_in").length - (cs!"_in").length))] fun s' c => some (c, s')
    simp only [List.append_nil] at this
    rw [this]
    simp
  · intro pre post e hne
    apply m_none_of
    intro x y e' hx
    rw [matches_str hx] at e'
    have h1 := congrArg List.length e
    have h2 := congrArg List.length e'
    have : pre.length ≠ 0 := by simpa [List.length_eq_zero_iff] using hne
    simp at h1 h2
    omega

theorem inCol_match (c : Str) : (matchPrefix inColRe c).isSome ↔ InCol c := by
  rw [matchPrefix_isSome]
  · constructor
    · rintro ⟨x, y, rfl, h⟩
      obtain ⟨u, v, rfl, h1, h2⟩ := matches_seq h
      obtain ⟨w, z, rfl, h3, h4⟩ := matches_seq h2
      rw [matches_lit h1, matches_str h4]
      refine ⟨w, y, ?_, by simp⟩
      intro hn
      have := matches_star (matches_group h3) _ hn
      simp [notNl] at this
    · rintro ⟨x, y, hx, rfl⟩
      refine ⟨'P' :: x ++ cs!"_in", y, by simp, ?_⟩
      refine .seq (x := ['P']) (y := x ++ cs!"_in") (.chr (by simp)) (.seq (.group (.star ?_)) ?_)
      · intro ch hc
        simp only [notNl, bne_iff_ne, ne_eq]
        rintro rfl
        exact hx hc
      · exact .seq (x := ['_']) (.chr (by simp)) (.seq (x := ['i']) (.chr (by simp)) (.seq (x := ['n']) (y := []) (.chr (by simp)) .eps))
  · exact ⟨trivial, trivial, trivial, trivial, trivial, trivial⟩

/-- **C124, part proved.** For every table of which the columns that start with `P` and have `_in` behind it are `Ptot_in` and
`P<actor>_in` for the given actors, in this order: one plot is drawn for each actor, with its input and its output column;
without an output column the call raises `KeyError`. -/
theorem C124_inout_partial {ν : Type} (columns : List (Str × ν)) (actors : List Str)
    (hin : InActors (columns.map Prod.fst) actors) :
    (∀ (_ : ∀ a ∈ actors, 'P' :: a ++ cs!"_out" ∈ columns.map Prod.fst),
      ∃ ps, plotInoutPower columns = some ps ∧ ps.map Prod.fst = actors ∧
        ∀ p ∈ ps, columns.lookup ('P' :: p.1 ++ cs!"_in") = some p.2.1 ∧ columns.lookup ('P' :: p.1 ++ cs!"_out") = some p.2.2) ∧
    (∀ a ∈ actors, 'P' :: a ++ cs!"_out" ∉ columns.map Prod.fst → plotInoutPower columns = none) := by
  have hact : inoutActors (columns.map Prod.fst) = actors := by
    generalize columns.map Prod.fst = cols at hin
    unfold inoutActors
    induction hin with
    | nil => rfl
    | @take a cs as hnl hne _ ih =>
      have hne' : ('P' :: a ++ cs!"_in") ≠ cs!"Ptot_in" := by
        intro e
        have : 'P' :: a ++ cs!"_in" = 'P' :: cs!"tot" ++ cs!"_in" := e
        simp only [List.append_cancel_right_eq, List.cons.injEq, true_and] at this
        exact hne this
      rw [List.filterMap_cons, inCol_exact a hnl]
      simp only [if_neg hne']
      rw [ih]
      rfl
    | @skip c cs as h _ ih =>
      rw [List.filterMap_cons]
      cases hm : matchPrefix inColRe c with
      | none => exact ih
      | some v =>
        have : InCol c := (inCol_match c).1 (by rw [hm]; rfl)
        rcases h with h | h
        · exact absurd this h
        · simp only [h, if_true]
          exact ih
  have hmem : ∀ a ∈ actors, 'P' :: a ++ cs!"_in" ∈ columns.map Prod.fst := by
    generalize columns.map Prod.fst = cols at hin
    clear hact
    induction hin with
    | nil => simp
    | take _ _ _ ih =>
      intro b hb
      rcases List.mem_cons.1 hb with rfl | hb
      · simp
      · exact List.mem_cons_of_mem _ (ih b hb)
    | skip _ _ ih => intro b hb; exact List.mem_cons_of_mem _ (ih b hb)
  have hlook : ∀ s, s ∈ columns.map Prod.fst → ∃ v, columns.lookup s = some v := by
    intro s hs
    clear hin hact hmem
    induction columns with
    | nil => simp at hs
    | cons c cs ih =>
      obtain ⟨k, v⟩ := c
      by_cases h : s = k
      · exact ⟨v, by simp [List.lookup, h]⟩
      · have hb : (s == k) = false := by simpa using h
        simp only [List.lookup, hb]
        exact ih (by simpa [h] using hs)
  have hlook' : ∀ s, s ∉ columns.map Prod.fst → columns.lookup s = none := by
    intro s hs
    rw [List.lookup_eq_none_iff]
    intro p hp
    simp only [ne_eq, bne_iff_ne]
    rintro rfl
    exact hs (List.mem_map_of_mem hp)
  unfold plotInoutPower
  rw [hact]
  clear hin hact
  constructor
  · intro hout
    induction actors with
    | nil => exact ⟨[], rfl, rfl, by simp⟩
    | cons a as ih =>
      obtain ⟨ps, h1, h2, h3⟩ := ih (fun b hb => hmem b (by simp [hb])) fun b hb => hout b (by simp [hb])
      obtain ⟨vi, hi⟩ := hlook _ (hmem a (by simp))
      obtain ⟨vo, ho⟩ := hlook _ (hout a (by simp))
      refine ⟨(a, vi, vo) :: ps, by simp only [inoutPlots, hi, ho, h1], by simp [h2], ?_⟩
      intro p hp
      rcases List.mem_cons.1 hp with rfl | hp
      · exact ⟨hi, ho⟩
      · exact h3 p hp
  · intro a ha hno
    induction actors with
    | nil => simp at ha
    | cons b bs ih =>
      unfold inoutPlots
      rcases List.mem_cons.1 ha with rfl | ha
      · rw [hlook' _ hno]
        split
        · rename_i h _ ; simp_all
        · rfl
      · rw [ih (fun c hc => hmem c (by simp [hc])) ha]
        split <;> rfl

theorem not_inCol (c : Str) (h : (matchPrefix inColRe c).isSome = false) : ¬ InCol c := fun hc => by
  rw [(inCol_match c).2 hc] at h; cases h

/-- C124: the hypotheses are met -/
example : plotInoutPower [(cs!"Ptot_in", 30), (cs!"PA15_in", 10), (cs!"PA15_out", 9), (cs!"Pgpu_in", 20), (cs!"Pgpu_out", 15), (cs!"Tcur", 1)] =
    some [(cs!"A15", 10, 9), (cs!"gpu", 20, 15)] ∧
    InActors [cs!"Ptot_in", cs!"PA15_in", cs!"PA15_out", cs!"Pgpu_in", cs!"Pgpu_out", cs!"Tcur"] [cs!"A15", cs!"gpu"] := by
  refine ⟨by decide +kernel, .skip (.inr rfl) (.take (a := cs!"A15") (by decide) (by decide) (.skip (.inl (not_inCol _ (by decide +kernel)))
    (.take (a := cs!"gpu") (by decide) (by decide) (.skip (.inl (not_inCol _ (by decide +kernel))) (.skip (.inl (not_inCol _ (by decide +kernel))) .nil)))))⟩

/-- **C124 refuted** when a column merely begins like an input column: no plot is drawn of an actor that has both columns. -/
theorem C124_prefix_refuted : ∃ columns : List (Str × Nat), cs!"PA15_in" ∈ columns.map Prod.fst ∧ cs!"PA15_out" ∈ columns.map Prod.fst ∧
    plotInoutPower columns = none :=
  ⟨[(cs!"PA15_in", 10), (cs!"PA15_out", 9), (cs!"Pmax_interval", 4)], by decide, by decide, by decide +kernel⟩

/-! ## C125: input and output frequencies -/

theorem cols_eq {α : Type} (lab : Str → Str) (f : Str → α) (order : List Str) (cols : Dict α) (ho : order.Nodup)
    (hinj : ∀ m ∈ order, ∀ m' ∈ order, lab m = lab m' → m = m') (hk : cols.map Prod.fst = order.map lab)
    (hg : ∀ m ∈ order, cols.get (lab m) = some (f m)) : cols = order.map fun m => (lab m, f m) := by
  induction order generalizing cols with
  | nil => simpa using hk
  | cons m ms ih =>
    cases cols with
    | nil => simp at hk
    | cons c cs =>
      obtain ⟨k, v⟩ := c
      simp only [List.map_cons, List.cons.injEq] at hk
      rw [List.nodup_cons] at ho
      have h0 := hg m (by simp)
      simp only [Dict.get, hk.1, if_true, Option.some.injEq] at h0
      rw [List.map_cons, h0, hk.1, ih cs ho.2 (fun a ha b hb => hinj a (by simp [ha]) b (by simp [hb])) hk.2]
      intro m' hm'
      have := hg m' (by simp [hm'])
      have hne : lab m ≠ lab m' := fun e => ho.1 ((hinj m (by simp) m' (by simp [hm']) e) ▸ hm')
      simp only [Dict.get, hk.1] at this
      rw [if_neg (by exact hne)] at this
      exact this

/-- the pivoted table written out -/
theorem pivot_written {α : Type} (order : List Str) (rows : List (PRow α)) (mapping : Dict Str) (lab : Str → Str)
    (ho : order.Nodup) (hmem : ∀ m, m ∈ order ↔ ∃ r ∈ rows, r.mask = m)
    (hlab : ∀ m ∈ order, mapping.get m = some (lab m)) (hinj : ∀ m ∈ order, ∀ m' ∈ order, lab m = lab m' → m = m')
    (hsort : (rows.map PRow.time).Pairwise (· ≤ ·)) (hdup : ∀ m, ((rows.filter fun r => r.mask = m).map PRow.time).Nodup) :
    ∃ idx : List Nat, pivotWithLabels order rows mapping = .ok ⟨idx, order.map fun m => (lab m, idx.map (obs (seriesOf rows m)))⟩ ∧
      idx.Pairwise (· < ·) ∧ ∀ t, t ∈ idx ↔ ∃ r ∈ rows, r.time = t := by
  obtain ⟨T, h1, h2, h3, h4, h5⟩ := C50_pivot_partial order rows mapping lab ho hmem hlab hinj hsort hdup
  refine ⟨T.index, ?_, h2, h3⟩
  rw [h1]
  congr 1
  obtain ⟨idx, cols⟩ := T
  simp only [PTable.mk.injEq, true_and]
  apply cols_eq lab _ order cols ho hinj h4
  intro m hm
  obtain ⟨col, g1, g2, g3⟩ := h5 m hm
  rw [g1]
  congr 1
  apply col_eq_map idx col _ g2
  intro j t hj
  obtain ⟨v, k1, k2⟩ := g3 j t hj
  rw [k1, lastObs_eq_obs rows m t v k2]

/-- A table of frequencies fits a labelling: it is in time order, no cluster reports twice at one time, and the clusters are
the labelled ones, which are visited in the order `order`. -/
structure FreqInput (order : List Str) (rows : List (PRow Rat)) (mapping : Dict Str) : Prop where
  nodup : order.Nodup
  clusters : ∀ m, m ∈ order ↔ ∃ r ∈ rows, r.mask = m
  labelled : ∀ m, m ∈ order ↔ m ∈ mapping.map Prod.fst
  sorted : (rows.map PRow.time).Pairwise (· ≤ ·)
  once : ∀ m, ((rows.filter fun r => r.mask = m).map PRow.time).Nodup

theorem Dict.get_entry {α : Type} (d : Dict α) (hk : (d.map Prod.fst).Nodup) (k : Str) (v : α) (h : (k, v) ∈ d) : d.get k = some v := by
  induction d with
  | nil => simp at h
  | cons x d ih =>
    obtain ⟨k', v'⟩ := x
    rw [List.map_cons, List.nodup_cons] at hk
    rcases List.mem_cons.1 h with h | h
    · cases h; simp [Dict.get]
    · have : k' ≠ k := by rintro rfl; exact hk.1 (List.mem_map.2 ⟨_, h, rfl⟩)
      simp only [Dict.get]
      rw [if_neg (by exact this)]
      exact ih hk.2 h

theorem freqs_written (order : List Str) (rows : List (PRow Rat)) (mapping : Dict Str) (h : FreqInput order rows mapping)
    (hk : (mapping.map Prod.fst).Nodup) (hv : (mapping.map Prod.snd).Nodup) :
    ∃ (T : PTable Rat) (idx : List Nat), getAllFreqs order rows mapping = .ok T ∧ idx.Pairwise (· < ·) ∧ (∀ t, t ∈ idx ↔ ∃ r ∈ rows, r.time = t) ∧
      ∀ m l, (m, l) ∈ mapping → T.series l = some (idx.map fun u => (u, (obs (seriesOf rows m) u).map (· / 1000))) := by
  have hget : ∀ m l, (m, l) ∈ mapping → mapping.get m = some l := fun m l hm => Dict.get_entry mapping hk m l hm
  let lab : Str → Str := fun m => (mapping.get m).getD []
  have hlab : ∀ m ∈ order, mapping.get m = some (lab m) := by
    intro m hm
    obtain ⟨⟨m', l⟩, hp, rfl⟩ := List.mem_map.1 ((h.labelled m).1 hm)
    simp [lab, hget _ _ hp]
  have hinj : ∀ m ∈ order, ∀ m' ∈ order, lab m = lab m' → m = m' := by
    intro m hm m' hm' e
    obtain ⟨⟨a, l⟩, hp, rfl⟩ := List.mem_map.1 ((h.labelled m).1 hm)
    obtain ⟨⟨b, l'⟩, hp', rfl⟩ := List.mem_map.1 ((h.labelled m').1 hm')
    have : l = l' := by simpa [lab, hget _ _ hp, hget _ _ hp'] using e
    subst this
    have := List.inj_on_of_nodup_map hv hp hp' rfl
    simpa using this
  obtain ⟨idx, h1, h2, h3⟩ := pivot_written order rows mapping lab h.nodup h.clusters hlab hinj h.sorted h.once
  refine ⟨_, idx, by unfold getAllFreqs; rw [h1], h2, h3, ?_⟩
  intro m l hm
  have hmo : m ∈ order := (h.labelled m).2 (List.mem_map.2 ⟨_, hm, rfl⟩)
  have hl : lab m = l := by simp [lab, hget _ _ hm]
  unfold PTable.series
  simp only [List.map_map, Function.comp_def]
  rw [← hl, get_map_inj lab (fun m => idx.map fun x => (obs (seriesOf rows m) x).map (· / 1000)) order hinj m hmo]
  simp only [Option.map_some, zip_map_self]

theorem obs_idx (rows : List (PRow Rat)) (m : Str) (idx : List Nat) (hs : idx.Pairwise (· < ·)) (hm : ∀ t, t ∈ idx ↔ ∃ r ∈ rows, r.time = t) (q : Rat) (t : Nat) :
    ∃ v, obs (idx.map fun u => (u, (obs (seriesOf rows m) u).map (· / q))) t = v.map (· / q) ∧ LastObs rows m t v := by
  refine ⟨obs (seriesOf rows m) t, ?_, lastObs_series rows m t⟩
  have := obs_map (· / q) (idx.map fun u => (u, obs (seriesOf rows m) u)) t
  rw [List.map_map] at this
  simp only [Function.comp_def] at this
  rw [this, obs_pad]
  · exact hs
  · intro x hx _
    simp only [seriesOf, List.mem_map, List.mem_filter] at hx
    obtain ⟨r, ⟨hr, _⟩, rfl⟩ := hx
    exact (hm _).2 ⟨r, hr, rfl⟩

theorem seriesOf_gpuRows (l : List (Nat × Rat)) : seriesOf (gpuRows l) [] = l.map fun r => (r.1, some r.2) := by
  unfold seriesOf gpuRows
  induction l with
  | nil => rfl
  | cons r l ih => simp only [List.map_cons, List.filter_cons, decide_true, if_true, ih]

theorem gpu_join (gpuIn gpuOut : List (Nat × Rat)) (hi : (gpuIn.map Prod.fst).Pairwise (· < ·)) (ho : (gpuOut.map Prod.fst).Pairwise (· < ·)) :
    ∃ T, joinPad cs!"gpu_freq_in" (gpuIn.map fun r => (r.1, some (r.2 / 1000000))) cs!"gpu_freq_out" (gpuOut.map fun r => (r.1, some (r.2 / 1000000))) = .ok T ∧
      InOutTable (gpuRows gpuIn) (gpuRows gpuOut) [] 1000000 cs!"gpu_freq_in" cs!"gpu_freq_out" T := by
  have hfst : ∀ l : List (Nat × Rat), (l.map fun r => (r.1, some (r.2 / 1000000))).map Prod.fst = l.map Prod.fst := by
    intro l; simp [List.map_map, Function.comp_def]
  obtain ⟨T, h1, h2, h3, c, c', h4, h5, h6, h7⟩ := joinPad_spec cs!"gpu_freq_in" (gpuIn.map fun r => (r.1, some (r.2 / 1000000))) cs!"gpu_freq_out"
    (gpuOut.map fun r => (r.1, some (r.2 / 1000000))) (by rw [hfst]; exact hi) (by rw [hfst]; exact ho)
  have hser : ∀ l : List (Nat × Rat), (l.map fun r => (r.1, some (r.2 / 1000000))) =
      (seriesOf (gpuRows l) []).map fun x => (x.1, x.2.map (· / 1000000)) := by
    intro l
    rw [seriesOf_gpuRows]
    simp [List.map_map, Function.comp_def]
  refine ⟨T, h1, h2, ?_, c, c', h4, h5, h6, ?_⟩
  · intro t
    rw [h3, hfst, hfst]
    simp [gpuRows]
  · intro j t hj
    obtain ⟨k1, k2⟩ := h7 j t hj
    rw [hser, obs_map] at k1 k2
    exact ⟨⟨_, k1, lastObs_series _ _ _⟩, ⟨_, k2, lastObs_series _ _ _⟩⟩

/-- **C125, part proved.** For all tables of input and output frequencies that fit the labelling and every labelling with
different clusters and labels: there is one table for each labelled cluster, in the order of the labelling, with a row for each
time of either table, and in it the most recent input and output frequency of the cluster in MHz; if the GPU has both input and
output rows, at increasing times, its table follows, in MHz as well; else there is none. -/
theorem C125_freqs_partial (oin oout : List Str) (inRows outRows : List (PRow Rat)) (gpuIn gpuOut : List (Nat × Rat)) (mapping : Dict Str)
    (hi : FreqInput oin inRows mapping) (ho : FreqInput oout outRows mapping) (hk : (mapping.map Prod.fst).Nodup)
    (hv : (mapping.map Prod.snd).Nodup) (gi : (gpuIn.map Prod.fst).Pairwise (· < ·)) (go : (gpuOut.map Prod.fst).Pairwise (· < ·)) :
    ∃ ts gpu, getAllFreqsData oin oout inRows outRows gpuIn gpuOut mapping = .ok (ts ++ gpu) ∧
      ts.length = mapping.length ∧
      (∀ (i : Nat) (m l : Str), mapping[i]? = some (m, l) → ∃ T, ts[i]? = some (l, T) ∧
        InOutTable inRows outRows m 1000 (l ++ cs!"_freq_in") (l ++ cs!"_freq_out") T) ∧
      (gpuIn = [] ∨ gpuOut = [] → gpu = []) ∧
      (gpuIn ≠ [] → gpuOut ≠ [] → ∃ T, gpu = [(cs!"GPU", T)] ∧
        InOutTable (gpuRows gpuIn) (gpuRows gpuOut) [] 1000000 cs!"gpu_freq_in" cs!"gpu_freq_out" T) := by
  obtain ⟨tin, idx, a1, a2, a3, a4⟩ := freqs_written oin inRows mapping hi hk hv
  obtain ⟨tout, idx', b1, b2, b3, b4⟩ := freqs_written oout outRows mapping ho hk hv
  have hloop : ∀ l : List (Str × Str), (∀ p ∈ l, p ∈ mapping) → ∃ ts, freqTables tin tout (l.map Prod.snd) = .ok ts ∧ ts.length = l.length ∧
      ∀ (i : Nat) (m lb : Str), l[i]? = some (m, lb) → ∃ T, ts[i]? = some (lb, T) ∧
        InOutTable inRows outRows m 1000 (lb ++ cs!"_freq_in") (lb ++ cs!"_freq_out") T := by
    intro l
    induction l with
    | nil => intro _; exact ⟨[], rfl, rfl, by simp⟩
    | cons p l ih =>
      intro hl
      obtain ⟨m, lb⟩ := p
      obtain ⟨ts, e1, e2, e3⟩ := ih fun p hp => hl p (by simp [hp])
      have hsin := a4 m lb (hl _ (by simp))
      have hsout := b4 m lb (hl _ (by simp))
      obtain ⟨T, j1, j2, j3, c, c', j4, j5, j6, j7⟩ := joinPad_spec (lb ++ cs!"_freq_in") (idx.map fun u => (u, (obs (seriesOf inRows m) u).map (· / 1000)))
        (lb ++ cs!"_freq_out") (idx'.map fun u => (u, (obs (seriesOf outRows m) u).map (· / 1000)))
        (by rw [List.map_map]; simpa [Function.comp_def] using a2) (by rw [List.map_map]; simpa [Function.comp_def] using b2)
      refine ⟨(lb, T) :: ts, ?_, by simp [e2], ?_⟩
      · simp only [List.map_cons, freqTables, hsin, hsout, j1, e1]
      · intro i m' lb' hp
        cases i with
        | succ i => exact e3 i m' lb' (by simpa using hp)
        | zero =>
          simp only [List.getElem?_cons_zero, Option.some.injEq, Prod.mk.injEq] at hp
          obtain ⟨rfl, rfl⟩ := hp
          refine ⟨T, rfl, j2, ?_, c, c', j4, j5, j6, ?_⟩
          · intro t
            rw [j3, ← a3, ← b3]
            simp [List.map_map, Function.comp_def]
          · intro j t hj
            obtain ⟨k1, k2⟩ := j7 j t hj
            rw [k1, k2]
            obtain ⟨v, w1, w2⟩ := obs_idx inRows m idx a2 a3 1000 t
            obtain ⟨v', w1', w2'⟩ := obs_idx outRows m idx' b2 b3 1000 t
            exact ⟨⟨v, by rw [w1], w2⟩, ⟨v', by rw [w1'], w2'⟩⟩
  obtain ⟨ts, e1, e2, e3⟩ := hloop mapping fun _ h => h
  unfold getAllFreqsData
  simp only [a1, b1, e1]
  by_cases hgi : gpuIn = []
  · refine ⟨ts, [], ?_, e2, e3, fun _ => rfl, fun h => absurd hgi h⟩
    simp [devFreqs, hgi]
  · by_cases hgo : gpuOut = []
    · refine ⟨ts, [], ?_, e2, e3, fun _ => rfl, fun _ h => absurd hgo h⟩
      simp [devFreqs, hgo]
    · obtain ⟨T, t1, t2⟩ := gpu_join gpuIn gpuOut gi go
      refine ⟨ts, [(cs!"GPU", T)], ?_, e2, e3, fun h => absurd h (by simp [hgi, hgo]), fun _ _ => ⟨T, rfl, t2⟩⟩
      have d : ∀ l : List (Nat × Rat), l ≠ [] → devFreqs l = some (l.map fun r => (r.1, some (r.2 / 1000000))) := by
        intro l hl
        unfold devFreqs
        rw [if_neg (by simpa [List.length_eq_zero_iff] using hl)]
      simp only [d gpuIn hgi, d gpuOut hgo, t1]

/-- input frequencies of two clusters -/
def exFreqIn : List (PRow Rat) := [⟨1, cs!"f0", some 1000000⟩, ⟨1, cs!"0f", some 500000⟩, ⟨3, cs!"0f", some 600000⟩]

/-- output frequencies of two clusters -/
def exFreqOut : List (PRow Rat) := [⟨2, cs!"0f", some 400000⟩, ⟨4, cs!"f0", some 900000⟩]

/-- the hypotheses are met -/
example : FreqInput [cs!"f0", cs!"0f"] exFreqIn exLabels ∧ FreqInput [cs!"0f", cs!"f0"] exFreqOut exLabels ∧
    getAllFreqsData [cs!"f0", cs!"0f"] [cs!"0f", cs!"f0"] exFreqIn exFreqOut [(1, 600000000)] [(2, 350000000)] exLabels =
      .ok [(cs!"A15", ⟨[1, 2, 3, 4], [(cs!"A15_freq_in", [some 1000, some 1000, some 1000, some 1000]), (cs!"A15_freq_out", [none, none, none, some 900])]⟩),
        (cs!"A7", ⟨[1, 2, 3, 4], [(cs!"A7_freq_in", [some 500, some 500, some 600, some 600]), (cs!"A7_freq_out", [none, some 400, some 400, some 400])]⟩),
        (cs!"GPU", ⟨[1, 2], [(cs!"gpu_freq_in", [some 600, some 600]), (cs!"gpu_freq_out", [none, some 350])]⟩)] := by
  refine ⟨⟨by decide, ?_, ?_, by decide, ?_⟩, ⟨by decide, ?_, ?_, by decide, ?_⟩, by decide +kernel⟩
  · intro m; simp [exFreqIn, eq_comm]
  · intro m; simp [exLabels]
  · intro m
    by_cases h1 : m = cs!"f0"
    · subst h1; decide
    · by_cases h2 : m = cs!"0f"
      · subst h2; decide
      · have : (exFreqIn.filter fun r => r.mask = m) = [] := by
          simp [exFreqIn, Ne.symm h1, Ne.symm h2]
        rw [this]; simp
  · intro m; simp [exFreqOut, eq_comm]
  · intro m; simp [exLabels, or_comm]
  · intro m
    by_cases h1 : m = cs!"f0"
    · subst h1; decide
    · by_cases h2 : m = cs!"0f"
      · subst h2; decide
      · have : (exFreqOut.filter fun r => r.mask = m) = [] := by
          simp [exFreqOut, Ne.symm h1, Ne.symm h2]
        rw [this]; simp

/-- **C125 refuted** for a labelled cluster that has input but no output rows: the call raises `KeyError` and no frequencies
of any cluster are returned. -/
theorem C125_missing_refuted : ∃ (inRows outRows : List (PRow Rat)), (∃ r ∈ inRows, r.mask = cs!"f0") ∧
    getAllFreqsData [cs!"f0", cs!"0f"] [cs!"0f"] inRows outRows [] [] exLabels = .error .keyError :=
  ⟨exFreqIn, [⟨2, cs!"0f", some 400000⟩], by decide, by rfl⟩

/-! ## C126: loads with the GPU -/

theorem alignAll_cells {α : Type} (idx : List Nat) (hs : idx.Pairwise (· < ·)) (ss : Dict (List (Nat × Option α)))
    (h : ∀ x ∈ ss, (x.2.map Prod.fst).Pairwise (· < ·) ∧ ∀ y ∈ x.2, y.1 ∈ idx) :
    alignAll idx ss = .ok (ss.map fun x => (x.1, idx.map (obs x.2))) := by
  rw [alignAll_ok idx ss fun x hx => (h x hx).1.imp fun h => by omega]
  congr 1
  apply List.map_congr_left
  intro x hx
  congr 1
  apply col_eq_map idx _ _ (by simp [ffill_length])
  intro j t hj
  exact column_cell idx x.2 hs (h x hx).1 (h x hx).2 j t hj

theorem concatIndex_sorted (i j : List Nat) (hi : i.Pairwise (· < ·)) (hj : j.Pairwise (· < ·)) :
    (concatIndex true i j).Pairwise (· < ·) ∧ ∀ t, t ∈ concatIndex true i j ↔ t ∈ i ∨ t ∈ j := by
  unfold concatIndex
  by_cases h : i = j
  · subst h; simpa using hi
  · rw [if_neg h, if_pos rfl]
    obtain ⟨h1, h2⟩ := commonIndex_spec [i, j] (by
      intro k hk
      simp only [List.mem_cons, List.not_mem_nil, or_false] at hk
      rcases hk with rfl | rfl <;> assumption)
    exact ⟨h1, fun t => by rw [h2]; simp⟩

/-- A table of loads: a row for each time of the rows and of the GPU rows; each cluster has a column, under its label, of its
most recent load; the last column is that of the GPU. -/
structure LoadTable (rows : List (PRow Rat)) (gpu : List (PRow Rat)) (order : List Str) (lab : Str → Str) (T : PTable Rat) : Prop where
  sorted : T.index.Pairwise (· < ·)
  times : ∀ t, t ∈ T.index ↔ (∃ r ∈ rows, r.time = t) ∨ ∃ r ∈ gpu, r.time = t
  names : T.cols.map Prod.fst = order.map lab ++ [cs!"GPU"]
  cells : ∀ (i : Nat) (m : Str) (name : Str) (col : List (Option Rat)), order[i]? = some m → T.cols[i]? = some (name, col) →
    ∀ (j t : Nat), T.index[j]? = some t → ∃ v, col[j]? = some v ∧ LastObs rows m t v
  gpu : ∀ (name : Str) (col : List (Option Rat)), T.cols[order.length]? = some (name, col) →
    ∀ (j t : Nat), T.index[j]? = some t → ∃ v, col[j]? = some v ∧ LastObs gpu [] t v

theorem withGpu_table (order : List Str) (rows : List (PRow Rat)) (lab : Str → Str) (idx : List Nat) (gpu : List (Nat × Rat))
    (hs : idx.Pairwise (· < ·)) (hm : ∀ t, t ∈ idx ↔ ∃ r ∈ rows, r.time = t) (hg : (gpu.map Prod.fst).Pairwise (· < ·)) :
    ∃ T, withGpu true ⟨idx, order.map fun m => (lab m, idx.map (obs (seriesOf rows m)))⟩ (gpu.map fun r => (r.1, some r.2)) = .ok T ∧
      LoadTable rows (gpuRows gpu) order lab T := by
  have hfst : (gpu.map fun r => (r.1, some r.2)).map Prod.fst = gpu.map Prod.fst := by simp [List.map_map, Function.comp_def]
  obtain ⟨c1, c2⟩ := concatIndex_sorted idx (gpu.map Prod.fst) hs hg
  unfold withGpu
  simp only [hfst]
  generalize concatIndex true idx (gpu.map Prod.fst) = ix at c1 c2
  rw [alignAll_cells ix c1]
  · refine ⟨_, rfl, c1, ?_, ?_, ?_, ?_⟩
    · intro t
      simp only [c2, hm]
      simp [gpuRows]
    · simp [PTable.allSeries, List.map_map, Function.comp_def]
    · intro i m name col hi hcol j t hj
      have hlt : i < order.length := (List.getElem?_eq_some_iff.1 hi).1
      simp only [PTable.allSeries, List.map_append, List.map_map] at hcol
      rw [List.getElem?_append_left (by simpa using hlt), List.getElem?_map, hi] at hcol
      simp only [Function.comp_apply, Option.map_some, Option.some.injEq, Prod.mk.injEq, zip_map_self] at hcol
      rw [← hcol.2]
      refine ⟨obs (seriesOf rows m) t, ?_, lastObs_series rows m t⟩
      simp only [List.getElem?_map] at hj ⊢
      rw [hj, Option.map_some, obs_pad _ _ _ hs]
      intro x hx _
      simp only [seriesOf, List.mem_map, List.mem_filter] at hx
      obtain ⟨r, ⟨hr, _⟩, rfl⟩ := hx
      exact (hm _).2 ⟨r, hr, rfl⟩
    · intro name col hcol j t hj
      simp only [PTable.allSeries, List.map_append, List.map_map] at hcol
      rw [List.getElem?_append_right (by simp)] at hcol
      simp only [List.length_map, Nat.sub_self, List.map_cons, List.getElem?_cons_zero, Option.some.injEq, Prod.mk.injEq] at hcol
      rw [← hcol.2]
      have e : (gpu.map fun r => (r.1, some r.2)) = seriesOf (gpuRows gpu) [] := (seriesOf_gpuRows gpu).symm
      refine ⟨obs (seriesOf (gpuRows gpu) []) t, ?_, lastObs_series _ _ t⟩
      simp only [List.getElem?_map] at hj ⊢
      rw [hj, Option.map_some, e]
  · intro x hx
    rcases List.mem_append.1 hx with hx | hx
    · simp only [PTable.allSeries, List.map_map, List.mem_map, Function.comp_apply] at hx
      obtain ⟨m, _, rfl⟩ := hx
      simp only [zip_map_self]
      constructor
      · rw [List.map_map]; simpa [Function.comp_def] using hs
      · intro y hy
        obtain ⟨u, hu, rfl⟩ := List.mem_map.1 hy
        exact (c2 _).2 (.inl hu)
    · simp only [List.mem_singleton] at hx
      subst hx
      constructor
      · simp only; rw [hfst]; exact hg
      · intro y hy
        refine (c2 _).2 (.inr ?_)
        rw [← hfst]
        exact List.mem_map_of_mem hy

theorem ffill_obs {α : Type} (s : List (Nat × Option α)) (idx : List Nat) (hs : idx.Pairwise (· < ·)) (hsub : ∀ x ∈ s, x.1 ∈ idx) :
    ffill none (idx.map (obs s)) = idx.map (obs s) := by
  have h := alignAll_cells idx hs [([], idx.map fun u => (u, obs s u))] (by
    intro x hx
    simp only [List.mem_singleton] at hx
    subst hx
    constructor
    · simp only [List.map_map]; simpa [Function.comp_def] using hs
    · intro y hy
      obtain ⟨u, hu, rfl⟩ := List.mem_map.1 hy
      exact hu)
  have e : (idx.map fun u => (u, obs s u)).map Prod.fst = idx := by simp [List.map_map, Function.comp_def]
  have e2 : (idx.map fun u => (u, obs s u)).map Prod.snd = idx.map (obs s) := by simp [List.map_map, Function.comp_def]
  simp only [alignAll, alignTo, e, if_true, e2, List.map_cons, List.map_nil, Except.ok.injEq, List.cons.injEq, Prod.mk.injEq, true_and, and_true] at h
  rw [h]
  apply List.map_congr_left
  intro u _
  exact obs_pad s u idx hs fun x hx _ => hsub x hx

/-- the rows of loads -/
def loadRows (names : List Str) (rows : List LRow) : List (PRow Rat) := rows.map fun r => ⟨r.time, r.mask, some (r.loads names).sum⟩

/-- The tables of loads fit the labelling: every row has a value in every column, there is a load column, the rows are in
time order, no cluster reports twice at one time, and the clusters have different labels. -/
structure LoadInput (order names : List Str) (rows : List LRow) (mapping : Dict Str) (lab : Str → Str) : Prop where
  width : ∀ r ∈ rows, r.vals.length = names.length
  load : ∃ n ∈ names, cs!"load" <+: n
  nodup : order.Nodup
  clusters : ∀ m, m ∈ order ↔ ∃ r ∈ rows, r.mask = m
  labelled : ∀ m ∈ order, mapping.get m = some (lab m)
  distinct : ∀ m ∈ order, ∀ m' ∈ order, lab m = lab m' → m = m'
  sorted : (rows.map LRow.time).Pairwise (· ≤ ·)
  once : ∀ m, ((rows.filter fun r => r.mask = m).map LRow.time).Nodup

theorem zip_map_rows (rows : List LRow) (f : LRow → Rat) :
    ((rows.zip (rows.map f)).map fun (r, x) => (⟨r.time, r.mask, some x⟩ : PRow Rat)) = rows.map fun r => ⟨r.time, r.mask, some (f r)⟩ := by
  induction rows with
  | nil => rfl
  | cons r rs ih => simp only [List.map_cons, List.zip_cons_cons, ih]

theorem load_written (order : List Str) (rows : List LRow) (mapping : Dict Str) (lab : Str → Str) (f : LRow → Rat)
    (ho : order.Nodup) (hmem : ∀ m, m ∈ order ↔ ∃ r ∈ rows, r.mask = m)
    (hlab : ∀ m ∈ order, mapping.get m = some (lab m)) (hinj : ∀ m ∈ order, ∀ m' ∈ order, lab m = lab m' → m = m')
    (hsort : (rows.map LRow.time).Pairwise (· ≤ ·)) (hdup : ∀ m, ((rows.filter fun r => r.mask = m).map LRow.time).Nodup) :
    ∃ idx : List Nat, pivotWithLabels order (rows.map fun r => (⟨r.time, r.mask, some (f r)⟩ : PRow Rat)) mapping =
        .ok ⟨idx, order.map fun m => (lab m, idx.map (obs (seriesOf (rows.map fun r => ⟨r.time, r.mask, some (f r)⟩) m)))⟩ ∧
      idx.Pairwise (· < ·) ∧ ∀ t, t ∈ idx ↔ ∃ r ∈ rows.map (fun r => (⟨r.time, r.mask, some (f r)⟩ : PRow Rat)), r.time = t := by
  apply pivot_written _ _ _ _ ho _ hlab hinj
  · simpa [List.map_map, Function.comp_def] using hsort
  · intro m
    have := hdup m
    rw [List.filter_map, List.map_map]
    exact this
  · intro m
    rw [hmem]
    simp

/-- **C126, part proved.** For all tables of loads that fit the labelling and all GPU rows at increasing times, if there are
any and pandas sorts the joined times: `plot_load` draws, at each time of either table, the most recent load of each cluster
(the sum of its load columns) under its label and the most recent load of the GPU. -/
theorem C126_load_partial (order names : List Str) (rows : List LRow) (gpu : List GpuRow) (mapping : Dict Str) (lab : Str → Str)
    (h : LoadInput order names rows mapping lab) (hg : gpu ≠ []) (hgs : (gpu.map GpuRow.time).Pairwise (· < ·)) :
    ∃ T, plotLoad true order names rows gpu mapping = .ok T ∧
      LoadTable (rows.map fun r => ⟨r.time, r.mask, some (r.loads names).sum⟩) (gpu.map fun r => ⟨r.time, [], some r.load⟩) order lab T := by
  obtain ⟨idx, h1, h2, h3⟩ := load_written order rows mapping lab (fun r => (r.loads names).sum) h.nodup h.clusters h.labelled h.distinct h.sorted h.once
  obtain ⟨T, t1, t2⟩ := withGpu_table order _ lab idx (gpu.map fun r => (r.time, r.load)) h2 h3 (by
    simpa [List.map_map, Function.comp_def] using hgs)
  refine ⟨T, ?_, by simpa [gpuRows, List.map_map, Function.comp_def] using t2⟩
  unfold plotLoad getLoadData
  rw [loadSeries_ok names rows h.width h.load]
  simp only [zip_map_rows, h1]
  rw [if_neg (by simpa [List.length_eq_zero_iff] using hg)]
  rw [← t1]
  simp [List.map_map, Function.comp_def]

/-- **C126** without rows of the GPU: the table of the loads as it is. -/
theorem C126_no_gpu (order names : List Str) (rows : List LRow) (mapping : Dict Str) (lab : Str → Str) (sort : Bool)
    (h : LoadInput order names rows mapping lab) : ∃ T, getLoadData order names rows mapping = .ok T ∧
      plotLoad sort order names rows [] mapping = .ok T := by
  obtain ⟨idx, h1, h2, h3⟩ := load_written order rows mapping lab (fun r => (r.loads names).sum) h.nodup h.clusters h.labelled h.distinct h.sorted h.once
  refine ⟨⟨idx, order.map fun m => (lab m, idx.map (obs (seriesOf (rows.map fun r => ⟨r.time, r.mask, some (r.loads names).sum⟩) m)))⟩, ?_, ?_⟩
  · unfold getLoadData
    rw [loadSeries_ok names rows h.width h.load]
    simp only [zip_map_rows]
    exact h1
  · unfold plotLoad getLoadData
    rw [loadSeries_ok names rows h.width h.load]
    simp only [zip_map_rows, h1, List.length_nil, if_true, padTable, List.map_map]
    congr 2
    apply List.map_congr_left
    intro m _
    simp only [Function.comp_apply]
    rw [ffill_obs _ idx h2]
    intro x hx
    simp only [seriesOf, List.mem_map, List.mem_filter] at hx
    obtain ⟨r, ⟨⟨r', hr', rfl⟩, _⟩, rfl⟩ := hx
    exact (h3 _).2 ⟨_, List.mem_map.2 ⟨r', hr', rfl⟩, rfl⟩

/-- **C126, part proved**, for normalised loads: each cluster by its highest frequency and its number of cpus, the GPU by its
highest frequency. -/
theorem C126_normalised_partial (order names : List Str) (rows : List LRow) (gpu : List GpuRow) (mapping : Dict Str) (lab : Str → Str)
    (h : LoadInput order names rows mapping lab) (hnd : (mapping.map Prod.fst).Nodup)
    (hmask : ∀ m ∈ mapping.map Prod.fst, ∃ v, Digits 16 (m.filter (· ≠ ',')) v)
    (hocc : ∀ m ∈ mapping.map Prod.fst, ∃ r ∈ rows, r.mask = m) (hg : gpu ≠ []) (hgs : (gpu.map GpuRow.time).Pairwise (· < ·)) :
    ∃ (T : PTable Rat) (mf : Str → Rat) (n : Str → Nat) (mx : Rat), plotNormalizedLoad true order names rows gpu mapping = .ok T ∧
      (∀ m ∈ order, IsMaxFreq rows m (mf m) ∧ IsCpuCount m (n m)) ∧
      (∃ r ∈ gpu, r.freq = mx) ∧ (∀ r ∈ gpu, r.freq ≤ mx) ∧
      LoadTable (rows.map fun r => ⟨r.time, r.mask, some ((r.loads names).sum * r.freq / (mf r.mask * n r.mask))⟩)
        (gpu.map fun r => ⟨r.time, [], some (r.load * r.freq / mx)⟩) order lab T := by
  obtain ⟨mf, n, hmf, hser⟩ := C51_normalised_partial names rows mapping h.width h.load hnd hmask hocc
  have hkey : ∀ m ∈ order, m ∈ mapping.map Prod.fst := by
    intro m hm
    have hl := h.labelled m hm
    clear * - hl
    induction mapping with
    | nil => simp [Dict.get] at hl
    | cons x d ih =>
      obtain ⟨k, v⟩ := x
      simp only [Dict.get] at hl
      split at hl
      · rename_i e; subst e; simp
      · exact List.mem_cons_of_mem _ (ih hl)
  obtain ⟨idx, h1, h2, h3⟩ := load_written order rows mapping lab (fun r => (r.loads names).sum * r.freq / (mf r.mask * n r.mask)) h.nodup h.clusters h.labelled h.distinct h.sorted h.once
  obtain ⟨mx, m1, m2, m3⟩ := maxOf_spec (gpu.map GpuRow.freq) (by simpa using hg)
  obtain ⟨T, t1, t2⟩ := withGpu_table order _ lab idx (gpu.map fun r => (r.time, r.load * r.freq / mx)) h2 h3 (by
    simpa [List.map_map, Function.comp_def] using hgs)
  refine ⟨T, mf, n, mx, ?_, fun m hm => hmf m (hkey m hm), ?_, ?_, by simpa [gpuRows, List.map_map, Function.comp_def] using t2⟩
  · unfold plotNormalizedLoad getNormalizedLoadData
    rw [hser]
    have hcongr : (rows.map fun r => if r.mask ∈ mapping.map Prod.fst then (r.loads names).sum * r.freq / (mf r.mask * n r.mask) else (r.loads names).sum * r.freq) =
        rows.map fun r => (r.loads names).sum * r.freq / (mf r.mask * n r.mask) := by
      apply List.map_congr_left
      intro r hr
      rw [if_pos (hkey _ ((h.clusters _).2 ⟨r, hr, rfl⟩))]
    simp only [hcongr, zip_map_rows, h1, m1]
    rw [← t1]
    simp [List.map_map, Function.comp_def]
  · obtain ⟨r, hr, e⟩ := List.mem_map.1 m2
    exact ⟨r, hr, e⟩
  · intro r hr
    exact m3 _ (List.mem_map_of_mem hr)

/-- loads of two clusters -/
def exLoadRows : List LRow := [⟨1, cs!"f0", 800, [50, 60]⟩, ⟨1, cs!"0f", 500, [10, 20]⟩, ⟨4, cs!"f0", 1000, [70, 80]⟩]

/-- the hypotheses are met -/
example : LoadInput [cs!"f0", cs!"0f"] [cs!"load0", cs!"load1"] exLoadRows exLabels (fun m => if m = cs!"f0" then cs!"A15" else cs!"A7") ∧
    plotLoad true [cs!"f0", cs!"0f"] [cs!"load0", cs!"load1"] exLoadRows [⟨2, 30, 100⟩, ⟨5, 40, 200⟩] exLabels =
      .ok ⟨[1, 2, 4, 5], [(cs!"A15", [some 110, some 110, some 150, some 150]), (cs!"A7", [some 30, some 30, some 30, some 30]),
        (cs!"GPU", [none, some 30, some 30, some 40])]⟩ := by
  refine ⟨⟨by decide, ⟨cs!"load0", by decide, ⟨cs!"0", rfl⟩⟩, by decide, ?_, by decide +kernel, by decide +kernel, by decide, ?_⟩, by decide +kernel⟩
  · intro m; simp [exLoadRows]; tauto
  · intro m
    by_cases h1 : m = cs!"f0"
    · subst h1; decide
    · by_cases h2 : m = cs!"0f"
      · subst h2; decide
      · have : (exLoadRows.filter fun r => r.mask = m) = [] := by
          simp [exLoadRows, Ne.symm h1, Ne.symm h2]
        rw [this]; simp

/-- **C126 refuted** where pandas appends the new times instead of sorting: at time 2 the load of time 4 is drawn. -/
theorem C126_unsorted_refuted : ∃ (rows : List LRow) (gpu : List GpuRow) (T : PTable Rat),
    plotLoad false [cs!"f0"] [cs!"load0"] rows gpu [(cs!"f0", cs!"A15")] = .ok T ∧
    T = ⟨[1, 4, 2], [(cs!"A15", [some 50, some 70, some 70]), (cs!"GPU", [none, none, some 30])]⟩ ∧
    ¬ LastObs (rows.map fun r => ⟨r.time, r.mask, some (r.loads [cs!"load0"]).sum⟩) cs!"f0" 2 (some 70) := by
  refine ⟨[⟨1, cs!"f0", 800, [50]⟩, ⟨4, cs!"f0", 1000, [70]⟩], [⟨2, 30, 100⟩], _, ?_, rfl, ?_⟩
  · decide +kernel
  · intro h
    have := lastObs_eq_obs _ _ _ _ h
    revert this
    decide +kernel

/-! ## C127: enough axes for the frequencies -/

theorem freqTables_length (tin tout : PTable Rat) (labels : List Str) (ts : List (Str × PTable Rat)) (h : freqTables tin tout labels = .ok ts) :
    ts.length = labels.length := by
  induction labels generalizing ts with
  | nil => simp [freqTables] at h; simp [← h]
  | cons l ls ih =>
    unfold freqTables at h
    split at h
    · split at h
      · cases h
      · split at h
        · cases h
        · rename_i ts' h'
          cases h
          simp [ih ts' h']
    · cases h

/-- **C127, part proved.** For all runs: the number of axes `number_freq_plots` asks for is enough for the tables of each run,
so none is dropped; and exact if a run has both input and output rows of the GPU or no run has input rows. -/
theorem C127_axes_partial (gpuIns : List (List (Nat × Rat))) (oin oout : List Str) (inRows outRows : List (PRow Rat)) (gpuIn gpuOut : List (Nat × Rat))
    (mapping : Dict Str) (ts : List (Str × PTable Rat)) (hrun : gpuIn ∈ gpuIns)
    (h : getAllFreqsData oin oout inRows outRows gpuIn gpuOut mapping = .ok ts) :
    ts.length ≤ numberFreqPlots gpuIns mapping ∧
    ((gpuIn ≠ [] ∧ gpuOut ≠ []) ∨ (∀ g ∈ gpuIns, g = []) → ts.length = numberFreqPlots gpuIns mapping) := by
  unfold getAllFreqsData at h
  split at h
  · cases h
  split at h
  · cases h
  split at h
  · cases h
  rename_i ts' hts
  have hlen := freqTables_length _ _ _ _ hts
  rw [List.length_map] at hlen
  unfold numberFreqPlots
  split at h
  · rename_i i o hi ho
    split at h
    · cases h
    cases h
    have hpos : gpuIn ≠ [] := by
      rintro rfl; simp [devFreqs] at hi
    have : (gpuIns.any fun rows => decide (0 < rows.length)) = true := by
      rw [List.any_eq_true]
      exact ⟨gpuIn, hrun, by simpa [List.length_pos_iff] using hpos⟩
    rw [if_pos this]
    simp [hlen]
  · rename_i hno
    cases h
    refine ⟨by omega, ?_⟩
    rintro (⟨h1, h2⟩ | hall)
    · exfalso
      have d : ∀ l : List (Nat × Rat), l ≠ [] → ∃ x, devFreqs l = some x := by
        intro l hl
        unfold devFreqs
        rw [if_neg (by simpa [List.length_eq_zero_iff] using hl)]
        exact ⟨_, rfl⟩
      obtain ⟨x, hx⟩ := d _ h1
      obtain ⟨y, hy⟩ := d _ h2
      exact hno x y hx hy
    · have : (gpuIns.any fun rows => decide (0 < rows.length)) = false := by
        rw [List.any_eq_false]
        intro g hg
        rw [hall g hg]; simp
      rw [this, hlen]; simp

/-- C127: the hypotheses are met -/
example : numberFreqPlots [[(1, 600000000)], []] exLabels = 3 ∧
    (match getAllFreqsData [cs!"f0", cs!"0f"] [cs!"0f", cs!"f0"] exFreqIn exFreqOut [(1, 600000000)] [(2, 350000000)] exLabels with
      | .ok ts => ts.length | .error _ => 0) = 3 := by
  constructor <;> decide +kernel

/-- **C127 refuted**: a GPU that has only input rows gets an axis but no plot. -/
theorem C127_empty_axis_refuted : ∃ (gpuIn : List (Nat × Rat)) (ts : List (Str × PTable Rat)),
    getAllFreqsData [cs!"f0", cs!"0f"] [cs!"0f", cs!"f0"] exFreqIn exFreqOut gpuIn [] exLabels = .ok ts ∧
    ts.length < numberFreqPlots [gpuIn] exLabels := by
  refine ⟨[(1, 600000000)], _, rfl, ?_⟩
  decide +kernel

end Trappy
