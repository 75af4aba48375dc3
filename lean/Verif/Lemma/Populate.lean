import Verif.Spec.Populate
import Verif.Lemma.Float64
/-! The populate loop refines the declarative description. -/

namespace Trappy
open F64

theorem tsValue_le_inf (f : Fields) : tsValue f ≤ inf := by
  unfold tsValue
  have h : ∀ ts, floatOfText ts ≤ inf := by
    intro ts; unfold floatOfText
    split <;> exact round_le_inf _ _
  split
  · unfold divE9; dsimp only; split
    · exact Nat.le_refl _
    · exact round_le_inf _ _
  · exact h _

theorem nextTimestamp_ge {prev t : Nat} (hp : prev ≤ inf) : prev ≤ nextTimestamp prev t := by
  unfold nextTimestamp nextafter; split
  · omega
  · split <;> omega

theorem nextTimestamp_le {prev t : Nat} (ht : t ≤ inf) : nextTimestamp prev t ≤ inf := by
  unfold nextTimestamp nextafter; split
  · exact ht
  · split <;> omega

theorem nextTimestamp_min {prev t : Nat} (h : nextTimestamp prev t < inf) :
    prev < nextTimestamp prev t ∧ t ≤ nextTimestamp prev t ∧
      ∀ x, prev < x → t ≤ x → nextTimestamp prev t ≤ x := by
  unfold nextTimestamp nextafter at *
  split at h
  · rename_i h1; rw [if_pos h1]; exact ⟨h1, Nat.le_refl _, fun x _ hx => hx⟩
  · rename_i h1; rw [if_neg h1]
    split at h
    · rename_i h2; rw [if_pos h2]; exact ⟨by omega, by omega, fun x hx _ => hx⟩
    · omega

/-- The times assigned by the loop. -/
def assign : Nat → List Nat → List Nat
  | _, [] => []
  | prev, t :: ts => nextTimestamp prev t :: assign (nextTimestamp prev t) ts

theorem assign_length (prev : Nat) (ts : List Nat) : (assign prev ts).length = ts.length := by
  induction ts generalizing prev with
  | nil => rfl
  | cons t ts ih => simp [assign, ih]

/-- Last assigned time. -/
def lastTime (prev : Nat) (out : List Nat) : Nat := out.getLast?.getD prev

theorem lastTime_cons (prev x : Nat) (out : List Nat) : lastTime prev (x :: out) = lastTime x out := by
  unfold lastTime; cases out with
  | nil => rfl
  | cons y ys => simp [List.getLast?_cons]

theorem assign_last_ge {prev : Nat} {ts : List Nat} (hp : prev ≤ inf) (ht : ∀ t ∈ ts, t ≤ inf) :
    prev ≤ lastTime prev (assign prev ts) ∧ lastTime prev (assign prev ts) ≤ inf := by
  induction ts generalizing prev with
  | nil => simp [assign, lastTime, hp]
  | cons t ts ih =>
    simp only [assign, lastTime_cons]
    have h1 := nextTimestamp_ge (t := t) hp
    have h2 := nextTimestamp_le (prev := prev) (ht t (by simp))
    have := ih h2 (fun x hx => ht x (by simp [hx]))
    omega

theorem assign_minimal {prev : Nat} {ts : List Nat} (ht : ∀ t ∈ ts, t ≤ inf)
    (h : lastTime prev (assign prev ts) < inf) : MinimalTimes prev ts (assign prev ts) := by
  induction ts generalizing prev with
  | nil => simp [assign, MinimalTimes]
  | cons t ts ih =>
    simp only [assign, lastTime_cons, MinimalTimes] at *
    have h2 := nextTimestamp_le (prev := prev) (ht t (by simp))
    have h3 := assign_last_ge h2 (ts := ts) (fun x hx => ht x (by simp [hx]))
    exact ⟨nextTimestamp_min (by omega), ih (fun x hx => ht x (by simp [hx])) h⟩

theorem fold_spec (cls : List Cls) (body : List Str) (s : PState) :
    let evs := eventsFrom (fun l => getTraceClass l cls) s.lines body
    let out := assign s.timestamp (evs.map fun e => tsValue e.fields)
    let r := body.foldl (populateStep cls) s
    r.timestamp = lastTime s.timestamp out ∧
    (∀ i, r.tables i = s.tables i ++ rowsFor i evs out) ∧
    r.basetime = (if s.basetime = 0 then (out.find? (· ≠ 0)).getD 0 else s.basetime) := by
  induction body generalizing s with
  | nil => simp [eventsFrom, assign, lastTime, rowsFor]
  | cons l ls ih =>
    simp only [List.foldl_cons]
    cases hp : parseLine (Py.rstrip l) with
    | none =>
      have hs : populateStep cls s l = { s with lines := s.lines + 1 } := by simp [populateStep, hp]
      have := ih (populateStep cls s l)
      rw [hs] at this ⊢
      simpa [eventsFrom, hp] using this
    | some f =>
      have hi := ih (populateStep cls s l)
      have e1 : (populateStep cls s l).timestamp = nextTimestamp s.timestamp (tsValue f) := by simp [populateStep, hp]
      have e2 : (populateStep cls s l).lines = s.lines + 1 := by simp [populateStep, hp]
      have e3 : (populateStep cls s l).basetime =
          if s.basetime = 0 then nextTimestamp s.timestamp (tsValue f) else s.basetime := by simp [populateStep, hp]
      simp only [eventsFrom, hp, List.map_cons, assign, lastTime_cons]
      simp only [e1, e2] at hi
      refine ⟨hi.1, ?_, ?_⟩
      · intro i
        rw [hi.2.1 i]
        have e4 : (populateStep cls s l).tables i = s.tables i ++
            (if getTraceClass l cls = some i then
              [Ev.row { line := s.lines, dest := getTraceClass l cls, fields := f }
                (nextTimestamp s.timestamp (tsValue f))] else []) := by
          cases hc : getTraceClass l cls with
          | none => simp [populateStep, hp, hc]
          | some j =>
            by_cases hij : i = j
            · subst hij; simp [populateStep, hp, hc, Ev.row]
            · have : ¬ (j = i) := fun h => hij h.symm
              simp [populateStep, hp, hc, hij, this]
        rw [e4]
        simp only [rowsFor]
        split <;> simp
      · rw [hi.2.2, e3]
        by_cases hb : s.basetime = 0
        · simp only [hb, if_true]
          by_cases h0 : nextTimestamp s.timestamp (tsValue f) = 0
          · simp [h0]
          · simp [h0, List.find?]
        · simp [hb]

theorem nextTimestamp_pos {prev t : Nat} : nextTimestamp prev t ≠ 0 := by
  unfold nextTimestamp nextafter; split
  · omega
  · split
    · omega
    · decide

theorem assign_find (prev : Nat) (ts : List Nat) : ((assign prev ts).find? (· ≠ 0)).getD 0 = (assign prev ts).head?.getD 0 := by
  cases ts with
  | nil => rfl
  | cons t ts => simp [assign, nextTimestamp_pos]

/-- Everything about a parse of a body in one statement. -/
theorem populateBody_spec (cls : List Cls) (base0 : Nat) (body : List Str) :
    let evs := eventsFrom (fun l => getTraceClass l cls) 0 body
    let out := assign 0 (evs.map fun e => tsValue e.fields)
    let r := populateBody cls base0 body
    r.endtime = lastTime 0 out ∧ (∀ i, r.tables i = rowsFor i evs out) ∧
    r.basetime = (if base0 = 0 then out.head?.getD 0 else base0) ∧
    (r.endtime < inf → MinimalTimes 0 (evs.map fun e => tsValue e.fields) out) := by
  have h := fold_spec cls body { timestamp := 0, basetime := base0, lines := 0, tables := fun _ => [] }
  simp only [List.nil_append] at h
  refine ⟨h.1, h.2.1, ?_, ?_⟩
  · show _ = _
    rw [← assign_find]; exact h.2.2
  · intro hlt
    apply assign_minimal
    · intro t ht
      simp only [List.mem_map] at ht
      obtain ⟨e, _, rfl⟩ := ht
      exact tsValue_le_inf _
    · rw [← h.1]; exact hlt

end Trappy
