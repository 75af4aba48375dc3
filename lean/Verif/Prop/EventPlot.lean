import Verif.Model.Residency
import Verif.Lemma.Data
import Verif.Prop.Pivots
import Mathlib.Algebra.Order.Ring.Rat
import Mathlib.Algebra.Order.Field.Basic
import Mathlib.Tactic.Linarith
/-!
# C74: lanes of event plots
-/

namespace Trappy

/-- **Specification**: `i` is the last position of `v` in the list of lanes. -/
def LastIndex (lanes : List Val) (v : Val) (i : Nat) : Prop := lanes[i]? = some v ∧ ∀ j, i < j → lanes[j]? ≠ some v

theorem laneMap_iff (lanes : List Val) (k : Nat) (v : Val) (i : Nat) :
    laneMap k lanes v = some i ↔ k ≤ i ∧ LastIndex lanes v (i - k) := by
  induction lanes generalizing k i with
  | nil => simp [laneMap, LastIndex]
  | cons l ls ih =>
    unfold laneMap
    cases h : laneMap (k + 1) ls v with
    | some j =>
      obtain ⟨h1, h2, h3⟩ := (ih (k + 1) j).1 h
      simp only [Option.some.injEq]
      have ej : j - k = (j - (k + 1)) + 1 := by omega
      constructor
      · rintro rfl
        refine ⟨by omega, ?_, ?_⟩
        · rw [ej]; simpa using h2
        · intro m hm
          obtain ⟨m', rfl⟩ : ∃ m', m = m' + 1 := ⟨m - 1, by omega⟩
          simpa using h3 m' (by omega)
      · rintro ⟨h4, h5, h6⟩
        have hj : (l :: ls)[j - k]? = some v := by rw [ej]; simpa using h2
        rcases Nat.lt_trichotomy (i - k) (j - k) with h' | h' | h'
        · exact absurd hj (h6 _ h')
        · omega
        · have ei : i - k = (i - (k + 1)) + 1 := by omega
          rw [ei] at h5
          exact absurd (by simpa using h5) (h3 (i - (k + 1)) (by omega))
    | none =>
      have hno : ∀ m : Nat, ls[m]? ≠ some v := by
        intro m hm
        -- the last occurrence would be found
        have : ∃ i, laneMap (k + 1) ls v = some i := by
          clear h ih
          induction ls generalizing k m with
          | nil => simp at hm
          | cons x xs ihx =>
            unfold laneMap
            cases hx : laneMap (k + 1 + 1) xs v with
            | some i => exact ⟨i, rfl⟩
            | none =>
              cases m with
              | zero =>
                simp only [List.getElem?_cons_zero, Option.some.injEq] at hm
                exact ⟨k + 1, by simp [hm]⟩
              | succ m =>
                simp only [List.getElem?_cons_succ] at hm
                obtain ⟨i, hi⟩ := ihx (k + 1) m hm
                rw [hx] at hi
                cases hi
        obtain ⟨i, hi⟩ := this
        rw [h] at hi
        cases hi
      simp only
      constructor
      · intro h'
        split at h'
        next hl =>
          cases h'
          refine ⟨Nat.le_refl _, by simp [hl], fun j hj => ?_⟩
          obtain ⟨j', rfl⟩ : ∃ j', j = j' + 1 := ⟨j - 1, by omega⟩
          simpa using hno j'
        · cases h'
      · rintro ⟨h1, h2, h3⟩
        cases hd : i - k with
        | zero =>
          rw [hd] at h2
          simp only [List.getElem?_cons_zero, Option.some.injEq] at h2
          rw [if_pos h2]
          congr 1
          omega
        | succ d =>
          rw [hd] at h2
          exact absurd (by simpa using h2) (hno d)

theorem laneMap_zero (lanes : List Val) (v : Val) (i : Nat) : laneMap 0 lanes v = some i ↔ LastIndex lanes v i := by
  rw [laneMap_iff]
  simp

theorem laneMap_none (lanes : List Val) (v : Val) : laneMap 0 lanes v = none ↔ v ∉ lanes := by
  constructor
  · intro h hv
    have : ∀ k, laneMap k lanes v ≠ none := by
      clear h
      induction lanes with
      | nil => cases hv
      | cons l ls ih =>
        intro k
        unfold laneMap
        cases hx : laneMap (k + 1) ls v with
        | some i => simp
        | none =>
          rcases List.mem_cons.1 hv with h' | h'
          · simp [h']
          · exact absurd hx (ih h' (k + 1))
    exact this 0 h
  · intro hv
    cases h : laneMap 0 lanes v with
    | none => rfl
    | some i =>
      obtain ⟨h1, _⟩ := (laneMap_zero lanes v i).1 h
      exact absurd (List.mem_of_getElem? h1) hv

/-- **Specification**: the event with its lane replaced by the index of the lane -/
def Moved (lanes : List Val) (e e' : LaneEvent) : Prop := e'.start = e.start ∧ e'.stop = e.stop ∧ ∃ i : Nat, LastIndex lanes e.lane i ∧ e'.lane = .int i

theorem moveEvents_spec (lanes : List Val) (es : List LaneEvent) :
    (∀ es', moveEvents lanes es = some es' → List.Forall₂ (Moved lanes) es es') ∧
    (moveEvents lanes es = none ↔ ∃ e ∈ es, e.lane ∉ lanes) := by
  induction es with
  | nil => exact ⟨fun es' h => by cases h; exact .nil, by simp [moveEvents]⟩
  | cons e es ih =>
    unfold moveEvents
    cases h : laneMap 0 lanes e.lane with
    | none =>
      refine ⟨fun es' h => (by cases h), ?_⟩
      simp only [true_iff]
      exact ⟨e, List.mem_cons_self, (laneMap_none _ _).1 h⟩
    | some i =>
      have hin : e.lane ∈ lanes := by
        by_contra hn
        rw [(laneMap_none _ _).2 hn] at h
        cases h
      refine ⟨fun es' h' => ?_, ?_⟩
      · simp only [Option.map_eq_some_iff] at h'
        obtain ⟨r, h1, rfl⟩ := h'
        exact .cons ⟨rfl, rfl, i, (laneMap_zero _ _ _).1 h, rfl⟩ (ih.1 r h1)
      · simp only [Option.map_eq_none_iff]
        rw [ih.2]
        simp [hin]

theorem moveAll_spec (lanes : List Val) (d : Dict (List LaneEvent)) :
    (∀ d', moveAll lanes d = some d' → List.Forall₂ (fun a b => b.1 = a.1 ∧ List.Forall₂ (Moved lanes) a.2 b.2) d d') ∧
    (moveAll lanes d = none ↔ ∃ a ∈ d, ∃ e ∈ a.2, e.lane ∉ lanes) := by
  induction d with
  | nil => exact ⟨fun d' h => by cases h; exact .nil, by simp [moveAll]⟩
  | cons a d ih =>
    obtain ⟨name, es⟩ := a
    unfold moveAll
    obtain ⟨m1, m2⟩ := moveEvents_spec lanes es
    cases h : moveEvents lanes es with
    | none =>
      refine ⟨fun d' h => (by cases h), ?_⟩
      simp only [true_iff]
      exact ⟨_, List.mem_cons_self, m2.1 h⟩
    | some es' =>
      refine ⟨fun d' h' => ?_, ?_⟩
      · simp only [Option.map_eq_some_iff] at h'
        obtain ⟨r, h1, rfl⟩ := h'
        exact .cons ⟨rfl, m1 es' h⟩ (ih.1 r h1)
      · simp only [Option.map_eq_none_iff]
        rw [ih.2]
        have hno : ¬ ∃ e ∈ es, e.lane ∉ lanes := by
          rw [← m2, h]
          simp
        constructor
        · rintro ⟨b, hb, h'⟩
          exact ⟨b, List.mem_cons_of_mem _ hb, h'⟩
        · rintro ⟨b, hb, h'⟩
          rcases List.mem_cons.1 hb with rfl | hb
          · exact absurd h' hno
          · exact ⟨b, hb, h'⟩

/-- **C74 (explicit lanes).** With explicit lanes the labels are the lanes in order and every event is moved to the index of its lane (the last one, if the lane is given twice), under its name, in order
and with its times. For all data and lanes. -/
theorem C74_lanes {lanes : List Val} (hl : lanes ≠ []) {pre : Str} {num : Nat} {data d : Dict (List LaneEvent)} {labels : List LaneLabel}
    (h : getLanes lanes pre num data = some (labels, d)) :
    labels = lanes.map .given ∧ List.Forall₂ (fun a b => b.1 = a.1 ∧ List.Forall₂ (Moved lanes) a.2 b.2) data d := by
  cases lanes with
  | nil => exact absurd rfl hl
  | cons l ls =>
    unfold getLanes at h
    simp only [Option.map_eq_some_iff, Prod.mk.injEq] at h
    obtain ⟨d', h1, h2, h3⟩ := h
    subst h3
    exact ⟨h2.symm, (moveAll_spec _ _).1 _ h1⟩

/-- **C74 (unknown lane).** With explicit lanes `RuntimeError` is raised exactly if an event is in a lane that is not given. -/
theorem C74_unknown {lanes : List Val} (hl : lanes ≠ []) (pre : Str) (num : Nat) (data : Dict (List LaneEvent)) :
    getLanes lanes pre num data = none ↔ ∃ a ∈ data, ∃ e ∈ a.2, e.lane ∉ lanes := by
  cases lanes with
  | nil => exact absurd rfl hl
  | cons l ls =>
    unfold getLanes
    simp only [Option.map_eq_none_iff]
    exact (moveAll_spec _ _).2

/-- **C74 (numbered lanes).** Without explicit lanes the labels are the prefix with 0, 1, …, the data are unchanged; without a number `RuntimeError` is raised. -/
theorem C74_numbered (pre : Str) (num : Nat) (data : Dict (List LaneEvent)) :
    (num = 0 → getLanes [] pre num data = none) ∧
    (num ≠ 0 → getLanes [] pre num data = some ((List.range num).map (.numbered pre), data)) := by
  unfold getLanes
  exact ⟨fun h => if_pos h, fun h => if_neg h⟩

/-! ### Grouping -/

theorem laneAppend_lookup (lane : Val) (x : Rat × Rat) (acc : List (Val × List (Rat × Rat))) (v : Val) :
    (laneAppend lane x acc).lookup v =
      if v = lane then some ((match acc.lookup v with | some l => l | none => []) ++ [x]) else acc.lookup v := by
  induction acc with
  | nil =>
    unfold laneAppend
    by_cases h : v = lane
    · simp [h]
    · have : (v == lane) = false := by simpa using h
      simp [h, this, List.lookup_cons]
  | cons a acc ih =>
    obtain ⟨k, xs⟩ := a
    unfold laneAppend
    by_cases hk : k = lane
    · subst hk
      rw [if_pos rfl]
      by_cases h : v = k
      · simp [h]
      · have : (v == k) = false := by simpa using h
        simp [h, this, List.lookup_cons]
    · rw [if_neg hk, List.lookup_cons]
      by_cases h : v = k
      · subst h
        simp [hk]
      · have : (v == k) = false := by simpa using h
        rw [this]
        simp only
        rw [ih, List.lookup_cons, this]

theorem laneAppend_keys (lane : Val) (x : Rat × Rat) (acc : List (Val × List (Rat × Rat))) :
    (laneAppend lane x acc).map Prod.fst = if lane ∈ acc.map Prod.fst then acc.map Prod.fst else acc.map Prod.fst ++ [lane] := by
  induction acc with
  | nil => simp [laneAppend]
  | cons a acc ih =>
    obtain ⟨k, xs⟩ := a
    unfold laneAppend
    by_cases hk : k = lane
    · simp [hk]
    · rw [if_neg hk, List.map_cons, ih]
      have : (lane ∈ ((k, xs) :: acc).map Prod.fst) ↔ lane ∈ acc.map Prod.fst := by
        rw [List.map_cons, List.mem_cons]
        exact ⟨fun h => h.resolve_left fun e => hk e.symm, Or.inr⟩
      by_cases h : lane ∈ acc.map Prod.fst
      · rw [if_pos h, if_pos (this.2 h)]; rfl
      · rw [if_neg h, if_neg (fun h' => h (this.1 h'))]; rfl

/-- **Specification**: times of the events in a lane, in order -/
def inLane (es : List LaneEvent) (v : Val) : List (Rat × Rat) := (es.filter fun e => e.lane = v).map fun e => (e.start, e.stop)

theorem groupLanes_spec (es : List LaneEvent) (acc : List (Val × List (Rat × Rat))) (v : Val) :
    (groupLanes acc es).lookup v =
      if inLane es v = [] then acc.lookup v else some ((match acc.lookup v with | some l => l | none => []) ++ inLane es v) := by
  induction es generalizing acc with
  | nil => simp [groupLanes, inLane]
  | cons e es ih =>
    unfold groupLanes
    rw [ih, laneAppend_lookup]
    by_cases h : v = e.lane
    · have hin : inLane (e :: es) v = (e.start, e.stop) :: inLane es v := by
        simp [inLane, h]
      rw [if_pos h, hin]
      rw [if_neg (by simp : ¬ (e.start, e.stop) :: inLane es v = [])]
      split
      next hn => rw [hn]
      next hn => simp
    · have hin : inLane (e :: es) v = inLane es v := by
        have : ¬ e.lane = v := fun e' => h e'.symm
        simp [inLane, this]
      rw [if_neg h, hin]

theorem groupLanes_nodup (es : List LaneEvent) (acc : List (Val × List (Rat × Rat))) (h : (acc.map Prod.fst).Nodup) :
    ((groupLanes acc es).map Prod.fst).Nodup := by
  induction es generalizing acc with
  | nil => exact h
  | cons e es ih =>
    unfold groupLanes
    apply ih
    rw [laneAppend_keys]
    split
    · exact h
    next hn =>
      rw [List.nodup_append]
      refine ⟨h, by simp, ?_⟩
      intro a ha b hb e'
      rw [List.mem_singleton] at hb
      exact hn (hb ▸ e' ▸ ha)

/-- **C74 (grouping).** The data are grouped under the same names; under each name, each lane that occurs is listed once, with the times of all its events in order; other lanes are not listed. -/
theorem C74_groups (data : Dict (List LaneEvent)) :
    (groupByLanes data).map Prod.fst = data.map Prod.fst ∧
    List.Forall₂ (fun a b => (b.2.map Prod.fst).Nodup ∧ ∀ v, b.2.lookup v = if inLane a.2 v = [] then none else some (inLane a.2 v)) data (groupByLanes data) := by
  refine ⟨by simp [groupByLanes, Function.comp_def], ?_⟩
  unfold groupByLanes
  induction data with
  | nil => exact .nil
  | cons a data ih =>
    refine .cons ⟨groupLanes_nodup _ _ (by simp), fun v => ?_⟩ ih
    have := groupLanes_spec a.2 [] v
    simpa using this

/-! ### Keys -/

/-- **Specification**: average duration as the plot computes it: the total over the number of events and one -/
def Average (es : List LaneEvent) (q : Rat) : Prop := q * ((es.length : Rat) + 1) = (es.map fun e => e.stop - e.start).sum

theorem average_iff (es : List LaneEvent) (q : Rat) : Average es q ↔ q = avgDuration es := by
  have hpos : (0 : Rat) < (es.length : Rat) + 1 := by
    have := Nat.cast_nonneg (α := Rat) es.length
    linarith
  unfold Average avgDuration
  rw [eq_div_iff (ne_of_gt hpos)]

theorem avg_zero (es : List LaneEvent) : avgDuration es = 0 ↔ (es.map fun e => e.stop - e.start).sum = 0 := by
  have hpos : (0 : Rat) < (es.length : Rat) + 1 := by
    have := Nat.cast_nonneg (α := Rat) es.length
    linarith
  unfold avgDuration
  rw [div_eq_zero_iff]
  constructor
  · rintro (h | h)
    · exact h
    · exact absurd h (ne_of_gt hpos)
  · exact Or.inl

/-- **C74 (keys).** The keys of the plot are exactly the names whose total duration is not zero, each once, those with the longer average first. For all data (a dictionary has each name once). -/
theorem C74_keys {data : Dict (List LaneEvent)} (hn : (data.map Prod.fst).Nodup) :
    (plotKeys data).Nodup ∧
    (∀ k, k ∈ plotKeys data ↔ ∃ es, data.get k = some es ∧ (es.map fun e => e.stop - e.start).sum ≠ 0) ∧
    (plotKeys data).Pairwise fun a b => ∀ es fs p q, data.get a = some es → data.get b = some fs → Average es p → Average fs q → q ≤ p := by
  have hperm : (plotKeys data).Perm ((data.map Prod.fst).filter fun k => avgOf data k ≠ 0) := sortBy_perm _ _
  refine ⟨?_, fun k => ?_, ?_⟩
  · rw [hperm.nodup_iff]
    exact hn.filter _
  · rw [hperm.mem_iff, List.mem_filter, decide_eq_true_iff, ← Dict.get_isSome, Option.isSome_iff_exists]
    constructor
    · rintro ⟨⟨es, h1⟩, h2⟩
      refine ⟨es, h1, ?_⟩
      unfold avgOf at h2
      rw [h1] at h2
      exact fun h => h2 ((avg_zero es).2 h)
    · rintro ⟨es, h1, h2⟩
      refine ⟨⟨es, h1⟩, ?_⟩
      unfold avgOf
      rw [h1]
      exact fun h => h2 ((avg_zero es).1 h)
  · have := sortBy_sorted (lt := fun a b => decide (avgOf data b < avgOf data a))
      (fun a b h => by simp only [decide_eq_true_eq, decide_eq_false_iff_not] at *; exact not_lt.2 (le_of_lt h))
      (fun a b c h1 h2 => by simp only [decide_eq_false_iff_not, not_lt] at *; exact le_trans h2 h1)
      ((data.map Prod.fst).filter fun k => avgOf data k ≠ 0)
    refine List.Pairwise.imp ?_ this
    intro a b h es fs p q ha hb hp hq
    simp only [decide_eq_false_iff_not, not_lt] at h
    unfold avgOf at h
    rw [ha, hb] at h
    rw [(average_iff _ _).1 hp, (average_iff _ _).1 hq]
    exact h

/-! ### The whole plot -/

theorem forall₂_exists_left {α β : Type} {R : α → β → Prop} {l : List α} {l' : List β} (h : List.Forall₂ R l l') {b : β} (hb : b ∈ l') : ∃ a ∈ l, R a b := by
  induction h with
  | nil => simp at hb
  | cons hr _ ih =>
    rcases List.mem_cons.1 hb with rfl | hb
    · exact ⟨_, List.mem_cons_self, hr⟩
    · obtain ⟨a, ha, hr'⟩ := ih hb
      exact ⟨a, List.mem_cons_of_mem _ ha, hr'⟩

theorem lastIndex_nodup {lanes : List Val} (hn : lanes.Nodup) {v : Val} {i j : Nat} (h : LastIndex lanes v i) (hj : lanes[j]? = some v) : i = j :=
  (List.getElem?_inj (List.getElem?_eq_some_iff.1 h.1).1 hn).1 (h.1.trans hj.symm)

theorem inLane_moved {lanes : List Val} (hn : lanes.Nodup) {es es' : List LaneEvent} (h : List.Forall₂ (Moved lanes) es es') {i : Nat} {l : Val}
    (hi : lanes[i]? = some l) : inLane es' (.int i) = inLane es l := by
  unfold inLane
  induction h with
  | nil => rfl
  | @cons e e' es es' hm _ ih =>
    obtain ⟨h1, h2, j, hj, h3⟩ := hm
    rw [List.filter_cons, List.filter_cons]
    by_cases hl : e.lane = l
    · have : j = i := lastIndex_nodup hn hj (hl ▸ hi)
      rw [if_pos (by rw [h3, this]; simp), if_pos (by simpa using hl), List.map_cons, List.map_cons, ih, h1, h2]
    · have : j ≠ i := fun hji => hl (by
        have := hj.1
        rw [hji, hi] at this
        exact (Option.some.inj this).symm)
      rw [if_neg (by rw [h3]; simp [this]), if_neg (by simpa using hl), ih]

/-- **C74 (the plot).** What is sent to the browser for distinct explicit lanes: the lanes as labels, the names with their events in the lane of the index, in order, and the names by their average
duration, as of the data that were given. -/
theorem C74_plot {lanes : List Val} (hl : lanes ≠ []) (hn : lanes.Nodup) {pre : Str} {num : Nat} {data : Dict (List LaneEvent)} {labels : List LaneLabel} {keys : List Str}
    {groups : Dict (List (Val × List (Rat × Rat)))} (h : eventPlot lanes pre num data = some (labels, keys, groups)) :
    labels = lanes.map .given ∧
    List.Forall₂ (fun a b => b.1 = a.1 ∧ (b.2.map Prod.fst).Nodup ∧ (∀ v ∈ b.2.map Prod.fst, ∃ i : Nat, i < lanes.length ∧ v = .int i) ∧
      ∀ (i : Nat) l, lanes[i]? = some l → b.2.lookup (.int i) = if inLane a.2 l = [] then none else some (inLane a.2 l)) data groups ∧
    keys = plotKeys data := by
  unfold eventPlot at h
  split at h
  · cases h
  rename_i labels' d hd
  cases h
  obtain ⟨h1, h2⟩ := C74_lanes hl hd
  refine ⟨h1, ?_, rfl⟩
  clear h1 hd
  unfold groupByLanes
  induction h2 with
  | nil => exact .nil
  | @cons a b data d hab _ ih =>
    refine .cons ⟨hab.1, groupLanes_nodup _ _ (by simp), ?_, ?_⟩ ih
    · intro v hv
      obtain ⟨x, hx, rfl⟩ := List.mem_map.1 hv
      have hlook : (groupLanes [] b.2).lookup x.1 ≠ none := by
        intro hnone
        rw [List.lookup_eq_none_iff] at hnone
        have := hnone x hx
        simp at this
      have hspec := groupLanes_spec b.2 [] x.1
      rw [hspec] at hlook
      by_cases hin : inLane b.2 x.1 = []
      · rw [if_pos hin] at hlook; exact absurd rfl hlook
      · obtain ⟨y, hy⟩ := List.exists_mem_of_ne_nil _ hin
        obtain ⟨e', he', rfl⟩ := List.mem_map.1 hy
        rw [List.mem_filter] at he'
        obtain ⟨e, he, hm⟩ := forall₂_exists_left hab.2 he'.1
        obtain ⟨-, -, i, hi, hlane⟩ := hm
        exact ⟨i, (List.getElem?_eq_some_iff.1 hi.1).1, by rw [← hlane]; exact (of_decide_eq_true he'.2).symm⟩
    · intro i l hi
      have hspec := groupLanes_spec b.2 [] (.int i)
      rw [inLane_moved hn hab.2 hi] at hspec
      simpa using hspec

instance instDecGroup : DecidableEq (List (Val × List (Rat × Rat))) := @instDecidableEqList _ (@instDecidableEqProd _ _ _ (@instDecidableEqList _ _))

instance instDecGroups : DecidableEq (Dict (List (Val × List (Rat × Rat)))) := @instDecidableEqList _ (@instDecidableEqProd _ _ _ instDecGroup)

/-- data for the examples -/
def exEvents : Dict (List LaneEvent) :=
  [(cs!"idle", [⟨1, 1, .str cs!"LITTLE"⟩]), (cs!"sh", [⟨0, 1, .str cs!"LITTLE"⟩]), (cs!"work", [⟨1, 3, .str cs!"big"⟩, ⟨4, 9, .str cs!"LITTLE"⟩, ⟨9, 10, .str cs!"big"⟩])]

/-- C74: two lanes; the task without duration has no key, the longest comes first. -/
example : eventPlot [.str cs!"LITTLE", .str cs!"big"] [] 0 exEvents = some
    ([.given (.str cs!"LITTLE"), .given (.str cs!"big")], [cs!"work", cs!"sh"],
     [(cs!"idle", [(.int 0, [(1, 1)])]), (cs!"sh", [(.int 0, [(0, 1)])]), (cs!"work", [(.int 1, [(1, 3), (9, 10)]), (.int 0, [(4, 9)])])]) := by
  decide +kernel

/-- `C74_unknown` -/
example : eventPlot [.str cs!"LITTLE"] [] 0 exEvents = none := by decide +kernel

end Trappy
