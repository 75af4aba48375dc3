import Verif.Lemma.Populate
import Verif.Lemma.Line
/-! Further facts about the populate loop: rows, line numbers, dispatching, removal of foreign lines. -/

namespace Trappy
open F64 Re

/-- Groups that take part in every match. -/
def Re.must : Re → List Nat
  | .seq a b => must a ++ must b
  | .group n r => n :: must r
  | _ => []

theorem Re.m_must {α : Type} (r : Re) : ∀ {s : Str} {c : Caps} {k : Str → Caps → Option α} {v : α},
    m r s c k = some v → ∃ s' c', k s' c' = some v ∧ (∀ n ∈ must r, (c'.lookup n).isSome) ∧
      ∀ n, (c.lookup n).isSome → (c'.lookup n).isSome := by
  induction r with
  | seq a b iha ihb =>
    intro s c k v h
    rw [m] at h
    obtain ⟨s1, c1, h1, m1, e1⟩ := iha h
    obtain ⟨s2, c2, h2, m2, e2⟩ := ihb h1
    refine ⟨s2, c2, h2, ?_, fun n hn => e2 n (e1 n hn)⟩
    intro n hn
    simp only [must, List.mem_append] at hn
    rcases hn with hn | hn
    · exact e2 n (m1 n hn)
    · exact m2 n hn
  | group n r ih =>
    intro s c k v h
    rw [m] at h
    obtain ⟨s1, c1, h1, m1, e1⟩ := ih h
    have key : ∀ j, (c1.lookup j).isSome → ∀ t, (List.lookup j ((n, t) :: c1)).isSome := by
      intro j hj t
      simp only [List.lookup]
      split <;> simp_all
    refine ⟨s1, _, h1, ?_, fun j hj => key j (e1 j hj) _⟩
    intro j hj
    simp only [must, List.mem_cons] at hj
    rcases hj with rfl | hj
    · simp [List.lookup]
    · exact key j (m1 j hj) _
  | eps => intro s c k v h; exact ⟨s, c, h, by simp [must], fun _ h => h⟩
  | chr p =>
    intro s c k v h
    obtain ⟨_, post, c', _, _, ⟨e, hc, _⟩, hk⟩ := m_sound_caps _ h
    refine ⟨post, c', hk, by simp [must], ?_⟩
    intro n hn; subst hc
    simp only [List.lookup_append]; cases List.lookup n e <;> simp_all
  | alt a b _ _ =>
    intro s c k v h
    obtain ⟨_, post, c', _, _, ⟨e, hc, _⟩, hk⟩ := m_sound_caps _ h
    refine ⟨post, c', hk, by simp [must], ?_⟩
    intro n hn; subst hc
    simp only [List.lookup_append]; cases List.lookup n e <;> simp_all
  | star p =>
    intro s c k v h
    obtain ⟨_, post, c', _, _, ⟨e, hc, _⟩, hk⟩ := m_sound_caps _ h
    refine ⟨post, c', hk, by simp [must], ?_⟩
    intro n hn; subst hc
    simp only [List.lookup_append]; cases List.lookup n e <;> simp_all
  | many r _ =>
    intro s c k v h
    obtain ⟨_, post, c', _, _, ⟨e, hc, _⟩, hk⟩ := m_sound_caps _ h
    refine ⟨post, c', hk, by simp [must], ?_⟩
    intro n hn; subst hc
    simp only [List.lookup_append]; cases List.lookup n e <;> simp_all
  | notNext p =>
    intro s c k v h
    obtain ⟨_, post, c', _, _, ⟨e, hc, _⟩, hk⟩ := m_sound_caps _ h
    refine ⟨post, c', hk, by simp [must], ?_⟩
    intro n hn; subst hc
    simp only [List.lookup_append]; cases List.lookup n e <;> simp_all

/-- A line has started the trace exactly when its fields can be extracted. -/
theorem hasntStarted_iff (l : Str) : hasntStarted l = (parseLine l).isNone := by
  unfold hasntStarted parseLine
  cases h : matchPrefix specialFieldsRe l with
  | none => rfl
  | some v =>
    obtain ⟨c, s⟩ := v
    have h' := h
    unfold matchPrefix at h'
    obtain ⟨s1, c1, h1, m1, _⟩ := m_must _ h'
    simp only [Option.some.injEq, Prod.mk.injEq] at h1
    obtain ⟨rfl, rfl⟩ := h1
    have g : ∀ n, n ∈ [1, 2, 3, 4, 7] → ∃ t, c1.get n = some t := by
      intro n hn
      have : n ∈ must specialFieldsRe := by
        have : must specialFieldsRe = [1, 2, 3, 4, 6, 7] := by decide
        rw [this]; revert hn; simp; omega
      have := m1 n this
      exact Option.isSome_iff_exists.mp this
    obtain ⟨t1, h1⟩ := g 1 (by simp)
    obtain ⟨t2, h2⟩ := g 2 (by simp)
    obtain ⟨t3, h3⟩ := g 3 (by simp)
    obtain ⟨t4, h4⟩ := g 4 (by simp)
    obtain ⟨t7, h7⟩ := g 7 (by simp)
    simp [h1, h2, h3, h4, h7]

theorem eventsFrom_append (d : Str → Option Nat) (A B : List Str) (n : Nat) :
    eventsFrom d n (A ++ B) = eventsFrom d n A ++ eventsFrom d (n + A.length) B := by
  induction A generalizing n with
  | nil => simp [eventsFrom]
  | cons a A ih =>
    simp only [List.cons_append, eventsFrom, ih, List.length_cons]
    rw [show n + 1 + A.length = n + (A.length + 1) by omega]
    split <;> simp

theorem eventsFrom_shift (d : Str → Option Nat) (A : List Str) (n : Nat) :
    eventsFrom d (n + 1) A = (eventsFrom d n A).map fun e => { e with line := e.line + 1 } := by
  induction A generalizing n with
  | nil => rfl
  | cons a A ih =>
    simp only [eventsFrom, ih]
    split <;> simp

theorem eventsFrom_line (d : Str → Option Nat) (A : List Str) (n : Nat) :
    ∀ e ∈ eventsFrom d n A, n ≤ e.line ∧ e.line < n + A.length := by
  induction A generalizing n with
  | nil => simp [eventsFrom]
  | cons a A ih =>
    intro e he
    simp only [eventsFrom] at he
    split at he
    · have := ih (n + 1) e he; simp; omega
    · rcases List.mem_cons.mp he with rfl | he
      · simp
      · have := ih (n + 1) e he; simp; omega

/-- What an event of a body is. -/
theorem eventsFrom_mem (d : Str → Option Nat) (A : List Str) (n : Nat) (e : Ev) (he : e ∈ eventsFrom d n A) :
    ∃ l, A[e.line - n]? = some l ∧ n ≤ e.line ∧ parseLine (Py.rstrip l) = some e.fields ∧ e.dest = d l := by
  induction A generalizing n with
  | nil => simp [eventsFrom] at he
  | cons a A ih =>
    have step : e ∈ eventsFrom d (n + 1) A → ∃ l, (a :: A)[e.line - n]? = some l ∧ n ≤ e.line ∧
        parseLine (Py.rstrip l) = some e.fields ∧ e.dest = d l := by
      intro he
      obtain ⟨l, h1, h2, h3⟩ := ih (n + 1) he
      refine ⟨l, ?_, by omega, h3⟩
      rw [show e.line - n = (e.line - (n + 1)) + 1 by omega, List.getElem?_cons_succ]; exact h1
    simp only [eventsFrom] at he
    split at he
    · exact step he
    · rename_i f hf
      rcases List.mem_cons.mp he with rfl | he
      · exact ⟨a, by simp, by simp, hf, rfl⟩
      · exact step he

theorem eventsFrom_pairwise (d : Str → Option Nat) (A : List Str) (n : Nat) :
    (eventsFrom d n A).Pairwise fun a b => a.line < b.line := by
  induction A generalizing n with
  | nil => simp [eventsFrom]
  | cons a A ih =>
    simp only [eventsFrom]
    split
    · exact ih _
    · refine List.pairwise_cons.mpr ⟨?_, ih _⟩
      intro e he
      have := eventsFrom_line d A (n + 1) e he
      simp; omega

/-- Rows of a table against events and times. -/
theorem rowsFor_mem {i : Nat} {es : List Ev} {ts : List Nat} {r : Rec} (h : r ∈ rowsFor i es ts) :
    ∃ (k : Nat) (e : Ev) (t : Nat), es[k]? = some e ∧ ts[k]? = some t ∧ e.dest = some i ∧ r = e.row t := by
  induction es generalizing ts with
  | nil => simp [rowsFor] at h
  | cons e es ih =>
    cases ts with
    | nil => simp [rowsFor] at h
    | cons t ts =>
      simp only [rowsFor] at h
      split at h
      · rename_i hd
        rcases List.mem_cons.mp h with rfl | h
        · exact ⟨0, e, t, by simp, by simp, hd, rfl⟩
        · obtain ⟨k, e', t', h1, h2, h3⟩ := ih h
          exact ⟨k + 1, e', t', by simpa using h1, by simpa using h2, h3⟩
      · obtain ⟨k, e', t', h1, h2, h3⟩ := ih h
        exact ⟨k + 1, e', t', by simpa using h1, by simpa using h2, h3⟩

theorem rowsFor_intro {i : Nat} {es : List Ev} {ts : List Nat} {k : Nat} {e : Ev} {t : Nat}
    (h1 : es[k]? = some e) (h2 : ts[k]? = some t) (h3 : e.dest = some i) : e.row t ∈ rowsFor i es ts := by
  induction es generalizing ts k with
  | nil => simp at h1
  | cons a es ih =>
    cases ts with
    | nil => simp at h2
    | cons b ts =>
      cases k with
      | zero =>
        simp at h1 h2; subst h1; subst h2
        simp [rowsFor, h3]
      | succ k =>
        simp at h1 h2
        simp only [rowsFor]
        split
        · exact List.mem_cons_of_mem _ (ih h1 h2)
        · exact ih h1 h2

/-- A table is a sublist of the rows of all events in file order. -/
theorem rowsFor_sublist (i : Nat) (es : List Ev) (ts : List Nat) :
    (rowsFor i es ts).Sublist (List.zipWith Ev.row es ts) := by
  induction es generalizing ts with
  | nil => simp [rowsFor]
  | cons e es ih =>
    cases ts with
    | nil => simp [rowsFor]
    | cons t ts =>
      simp only [rowsFor, List.zipWith_cons_cons]
      split
      · exact (ih ts).cons_cons _
      · exact (ih ts).cons _

theorem MinimalTimes.length {prev : Nat} {ts out : List Nat} (h : MinimalTimes prev ts out) :
    out.length = ts.length := by
  induction ts generalizing prev out with
  | nil => cases out <;> simp_all [MinimalTimes]
  | cons t ts ih =>
    cases out with
    | nil => simp [MinimalTimes] at h
    | cons o out => simp only [MinimalTimes] at h; simp [ih h.2]

theorem MinimalTimes.pairwise {prev : Nat} {ts out : List Nat} (h : MinimalTimes prev ts out) :
    out.Pairwise (· < ·) ∧ ∀ o ∈ out, prev < o := by
  induction ts generalizing prev out with
  | nil => cases out <;> simp_all [MinimalTimes]
  | cons t ts ih =>
    cases out with
    | nil => simp [MinimalTimes] at h
    | cons o out =>
      simp only [MinimalTimes] at h
      have := ih h.2
      refine ⟨List.pairwise_cons.mpr ⟨this.2, this.1⟩, ?_⟩
      intro x hx
      rcases List.mem_cons.mp hx with rfl | hx
      · exact h.1.1
      · have := this.2 x hx; omega

/-- Every time is the least one above all earlier ones and not below its own timestamp. -/
theorem MinimalTimes.least {prev : Nat} {ts out : List Nat} (h : MinimalTimes prev ts out) {k t o : Nat}
    (ht : ts[k]? = some t) (ho : out[k]? = some o) :
    t ≤ o ∧ prev < o ∧ (∀ j o', j < k → out[j]? = some o' → o' < o) ∧
      ∀ x, t ≤ x → prev < x → (∀ j o', j < k → out[j]? = some o' → o' < x) → o ≤ x := by
  induction ts generalizing prev out k with
  | nil => simp at ht
  | cons a ts ih =>
    cases out with
    | nil => simp at ho
    | cons b out =>
      simp only [MinimalTimes] at h
      cases k with
      | zero =>
        simp at ht ho; subst ht; subst ho
        exact ⟨h.1.2.1, h.1.1, by omega, fun x h1 h2 _ => h.1.2.2 x h2 h1⟩
      | succ k =>
        simp at ht ho
        obtain ⟨h1, h2, h3, h4⟩ := ih h.2 ht ho
        refine ⟨h1, by omega, ?_, ?_⟩
        · intro j o' hj ho'
          cases j with
          | zero => simp at ho'; omega
          | succ j => exact h3 j o' (by omega) (by simpa using ho')
        · intro x hx1 hx2 hx3
          apply h4 x hx1 (hx3 0 b (by omega) (by simp))
          intro j o' hj ho'
          exact hx3 (j + 1) o' (by omega) (by simpa using ho')

/-- Increasing timestamps are kept as they are. -/
theorem assign_increasing {prev : Nat} {ts : List Nat} (h : (prev :: ts).Pairwise (· < ·)) : assign prev ts = ts := by
  induction ts generalizing prev with
  | nil => rfl
  | cons t ts ih =>
    have h1 := List.pairwise_cons.mp h
    have : nextTimestamp prev t = t := by
      unfold nextTimestamp; rw [if_pos (h1.1 t (by simp))]
    simp only [assign, this, ih h1.2]

theorem rowsFor_append (i : Nat) {es es' : List Ev} {ts ts' : List Nat} (h : es.length = ts.length) :
    rowsFor i (es ++ es') (ts ++ ts') = rowsFor i es ts ++ rowsFor i es' ts' := by
  induction es generalizing ts with
  | nil => cases ts <;> simp_all [rowsFor]
  | cons e es ih =>
    cases ts with
    | nil => simp at h
    | cons t ts =>
      simp only [List.cons_append, rowsFor]
      rw [ih (by simpa using h)]
      split <;> simp

theorem rowsFor_map (i : Nat) (es : List Ev) (ts : List Nat) (g : Ev → Ev) (g' : Rec → Rec)
    (hd : ∀ e ∈ es, (g e).dest = e.dest) (hr : ∀ e ∈ es, ∀ t, (g e).row t = g' (e.row t)) :
    rowsFor i (es.map g) ts = (rowsFor i es ts).map g' := by
  induction es generalizing ts with
  | nil => simp [rowsFor]
  | cons e es ih =>
    cases ts with
    | nil => simp [rowsFor]
    | cons t ts =>
      simp only [List.map_cons, rowsFor, hd e (by simp), hr e (by simp)]
      rw [ih ts (fun e he => hd e (by simp [he])) (fun e he => hr e (by simp [he]))]
      split <;> simp

end Trappy
