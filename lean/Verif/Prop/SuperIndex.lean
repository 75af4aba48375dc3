import Verif.Model.SuperIndex
import Verif.Lemma.Power
/-!
# C64, C65, C94: data of expressions
-/

namespace Trappy

/-! ## C65: window and filters -/

/-- **Specification**: a row is inside the window, and every filter on a column of the event allows its cell. -/
def Selected (o : GOpts) (columns : List Str) (r : GRow) : Prop :=
  o.start ≤ r.time ∧ (∀ b, o.stop = some b → r.time ≤ b) ∧
  ∀ f ∈ o.filters, f.1 ∈ columns → ∃ v, r.cells.get f.1 = some v ∧ v ∈ f.2

instance (o : GOpts) (columns : List Str) (r : GRow) : Decidable (Selected o columns r) := by
  unfold Selected
  have h1 : Decidable (∀ b, o.stop = some b → r.time ≤ b) := by
    cases h : o.stop with
    | none => exact isTrue (by simp)
    | some b => exact decidable_of_iff (r.time ≤ b) (by simp)
  have h2 : ∀ f : Str × List Int, Decidable (∃ v, r.cells.get f.1 = some v ∧ v ∈ f.2) := by
    intro f
    cases h : r.cells.get f.1 with
    | none => exact isFalse (by simp)
    | some v => exact decidable_of_iff (v ∈ f.2) (by simp)
  infer_instance

/-- the test of one filter -/
def filterTest (columns : List Str) (f : Str × List Int) (r : GRow) : Bool :=
  if f.1 ∈ columns then cellIn f.2 (r.cells.get f.1) else true

theorem gCriterion_eq (columns : List Str) (rows : List GRow) (fs : Dict (List Int)) (crit : GRow → Bool) :
    gCriterion columns rows fs (rows.map crit) = rows.map fun r => crit r && fs.all fun f => filterTest columns f r := by
  induction fs generalizing crit with
  | nil => simp [gCriterion]
  | cons f fs ih =>
    obtain ⟨c, wanted⟩ := f
    unfold gCriterion
    by_cases hc : c ∈ columns
    · rw [if_pos hc]
      have e : (rows.map crit).zipWith (· && ·) (rows.map fun r => cellIn wanted (r.cells.get c)) =
          rows.map fun r => crit r && filterTest columns (c, wanted) r := by
        clear ih
        induction rows with
        | nil => rfl
        | cons r rows ih =>
          simp only [List.map_cons, List.zipWith_cons_cons, ih, filterTest, if_pos hc]
      rw [e, ih]
      apply List.map_congr_left
      intro r _
      simp only [List.all_cons, Bool.and_assoc]
    · rw [if_neg hc, ih]
      apply List.map_congr_left
      intro r _
      simp only [List.all_cons, filterTest, if_neg hc, Bool.true_and]

theorem zip_filterMap (rows : List GRow) (p : GRow → Bool) :
    ((rows.zip (rows.map p)).filterMap fun (r, b) => if b then some r else none) = rows.filter p := by
  induction rows with
  | nil => rfl
  | cons r rows ih =>
    simp only [List.map_cons, List.zip_cons_cons, List.filterMap_cons, List.filter_cons]
    cases p r <;> simp [ih]

theorem filterTest_iff (columns : List Str) (fs : Dict (List Int)) (r : GRow) :
    (fs.all fun f => filterTest columns f r) = true ↔ ∀ f ∈ fs, f.1 ∈ columns → ∃ v, r.cells.get f.1 = some v ∧ v ∈ f.2 := by
  rw [List.all_eq_true]
  apply forall₂_congr
  intro f _
  unfold filterTest
  by_cases hc : f.1 ∈ columns
  · rw [if_pos hc]
    cases h : r.cells.get f.1 with
    | none => simp [hc, cellIn]
    | some v => simp [hc, cellIn]
  · simp [hc]

theorem gWindow_eq (o : GOpts) (rows : List GRow) :
    gWindow o rows = rows.filter fun r => decide (o.start ≤ r.time ∧ ∀ b, o.stop = some b → r.time ≤ b) := by
  unfold gWindow
  cases o.stop with
  | none => simp
  | some b => simp

/-- **C65.** The data used are exactly the rows inside the window (both ends included) whose filtered columns hold a wanted value, in order;
filters on columns the event does not have are ignored. For all tables, windows and filters. -/
theorem C65_selection (o : GOpts) (ev : GEvent) : getDataFrame o ev = ev.rows.filter fun r => decide (Selected o ev.columns r) := by
  unfold getDataFrame
  split
  · rename_i h
    simp [h]
  · simp only
    split
    · rename_i h
      rw [gWindow_eq]
      apply List.filter_congr
      intro r _
      simp [Selected, h]
    · have e : List.replicate (gWindow o ev.rows).length true = (gWindow o ev.rows).map fun _ => true := by
        rw [List.map_const']
      rw [e, gCriterion_eq, zip_filterMap, gWindow_eq, List.filter_filter]
      apply List.filter_congr
      intro r _
      rw [Bool.true_and, Bool.eq_iff_iff, Bool.and_eq_true, filterTest_iff, decide_eq_true_iff, decide_eq_true_iff]
      unfold Selected
      constructor
      · rintro ⟨h1, h2, h3⟩; exact ⟨h2, h3, h1⟩
      · rintro ⟨h1, h2, h3⟩; exact ⟨h3, h1, h2⟩

example : getDataFrame ⟨2, some 5, [(cs!"cpu", [0, 2]), (cs!"absent", [1])], true⟩
    ⟨[cs!"cpu", cs!"load"], none,
      [⟨1, [(cs!"cpu", 0)]⟩, ⟨2, [(cs!"cpu", 0)]⟩, ⟨3, [(cs!"cpu", 1)]⟩, ⟨4, [(cs!"load", 3)]⟩, ⟨5, [(cs!"cpu", 2)]⟩, ⟨6, [(cs!"cpu", 2)]⟩]⟩ =
    [⟨2, [(cs!"cpu", 0)]⟩, ⟨5, [(cs!"cpu", 2)]⟩] := by decide +kernel

/-! ## C94: the aggregated table -/

/-- the last value at or before `t` -/
def lastObsG (s : GSeries) (t : Nat) : Option Int := ((s.filter fun x => x.1 ≤ t).filterMap Prod.snd).getLast?

theorem ffill_map (I : List Nat) (f g : Nat → Option Int) (last : Option Int)
    (h : ∀ pre t post, I = pre ++ t :: post → (∀ v, f t = some v → g t = some v) ∧
      (f t = none → g t = match pre.getLast? with | some p => g p | none => last)) :
    ffill last (I.map f) = I.map g := by
  induction I generalizing last with
  | nil => rfl
  | cons t I ih =>
    have h0 := h [] t I rfl
    have hrec : ffill (g t) (I.map f) = I.map g := by
      apply ih
      intro pre u post e
      have h1 := h (t :: pre) u post (by rw [e]; rfl)
      refine ⟨h1.1, fun hn => ?_⟩
      rw [h1.2 hn, List.getLast?_cons]
      cases pre.getLast? <;> rfl
    rw [List.map_cons, List.map_cons]
    cases hf : f t with
    | none =>
      have := h0.2 hf
      simp only [List.getLast?_nil] at this
      rw [ffill, ← this, hrec]
    | some v =>
      have := h0.1 v hf
      rw [ffill, ← this, hrec]

theorem filter_le_split (s : GSeries) (t : Nat) (hs : (s.map Prod.fst).Pairwise (· < ·)) :
    s.filter (fun x => x.1 ≤ t) = s.filter (fun x => x.1 < t) ++ (match s.lookup t with | some c => [(t, c)] | none => []) := by
  induction s with
  | nil => rfl
  | cons x s ih =>
    obtain ⟨u, c⟩ := x
    rw [List.map_cons, List.pairwise_cons] at hs
    have hgt : ∀ x ∈ s, u < x.1 := fun x hx => hs.1 x.1 (List.mem_map.mpr ⟨x, hx, rfl⟩)
    rcases Nat.lt_trichotomy u t with h | h | h
    · rw [lookup_ne (by omega : t ≠ u), List.filter_cons_of_pos (by simpa using Nat.le_of_lt h), List.filter_cons_of_pos (by simpa using h),
        ih hs.2]
      rfl
    · subst h
      have e1 : s.filter (fun x => x.1 ≤ u) = [] := by
        rw [List.filter_eq_nil_iff]; intro x hx; have := hgt x hx; simp; omega
      have e2 : s.filter (fun x => x.1 < u) = [] := by
        rw [List.filter_eq_nil_iff]; intro x hx; have := hgt x hx; simp; omega
      rw [List.filter_cons_of_pos (by simp), List.filter_cons_of_neg (by simp), e1, e2]
      simp [List.lookup]
    · have e0 : s.lookup t = none := by
        rw [List.lookup_eq_none_iff]
        intro x hx
        have := hgt x hx
        simp; omega
      rw [lookup_ne (by omega : t ≠ u), List.filter_cons_of_neg (by simp; omega), List.filter_cons_of_neg (by simp; omega), ih hs.2]

theorem obs_some (s : GSeries) (t : Nat) (v : Int) (hs : (s.map Prod.fst).Pairwise (· < ·)) (h : s.lookup t = some (some v)) :
    lastObsG s t = some v := by
  unfold lastObsG
  rw [filter_le_split s t hs, h]
  simp

theorem obs_none (s : GSeries) (t : Nat) (hs : (s.map Prod.fst).Pairwise (· < ·)) (h : ∀ v, s.lookup t ≠ some (some v)) :
    lastObsG s t = ((s.filter fun x => x.1 < t).filterMap Prod.snd).getLast? := by
  unfold lastObsG
  rw [filter_le_split s t hs]
  cases hl : s.lookup t with
  | none => simp
  | some c =>
    cases c with
    | none => simp
    | some v => exact absurd hl (h v)

theorem obs_prev (I : List Nat) (s : GSeries) (hI : I.Pairwise (· < ·)) (hs : (s.map Prod.fst).Pairwise (· < ·)) (hsub : ∀ x ∈ s, x.1 ∈ I)
    (pre : List Nat) (t : Nat) (post : List Nat) (e : I = pre ++ t :: post) (h : ∀ v, s.lookup t ≠ some (some v)) :
    lastObsG s t = match pre.getLast? with | some p => lastObsG s p | none => none := by
  rw [obs_none s t hs h]
  subst e
  rw [List.pairwise_append, List.pairwise_cons] at hI
  obtain ⟨hpre, ⟨hpost, _⟩, hcross⟩ := hI
  rcases List.eq_nil_or_concat pre with rfl | ⟨pre', p, rfl⟩
  · have : s.filter (fun x => x.1 < t) = [] := by
      rw [List.filter_eq_nil_iff]
      intro x hx
      have := hsub x hx
      simp only [List.nil_append, List.mem_cons] at this
      rcases this with h | h
      · simp [h]
      · have := hpost _ h; simp; omega
    simp [this]
  · rw [List.concat_eq_append] at *
    rw [List.getLast?_append]
    simp only [List.getLast?_singleton, Option.some_or]
    unfold lastObsG
    have : s.filter (fun x => decide (x.1 < t)) = s.filter (fun x => decide (x.1 ≤ p)) := by
      apply List.filter_congr
      intro x hx
      have hm := hsub x hx
      have hpt := hcross p (by simp) t (by simp)
      rw [decide_eq_decide]
      constructor
      · intro hlt
        simp only [List.mem_append, List.mem_cons, List.not_mem_nil, or_false] at hm
        rcases hm with (h | h) | h | h
        · rw [List.pairwise_append] at hpre
          exact Nat.le_of_lt (hpre.2.2 _ h p (by simp))
        · omega
        · omega
        · have := hpost _ h; omega
      · intro hle; omega
    rw [this]

theorem gPad_eq (t : Nat) (last : Option Int) (s : GSeries) (hs : (s.map Prod.fst).Pairwise (· < ·)) :
    gPad t last s = match (s.filter fun x => x.1 ≤ t).getLast? with | some x => x.2 | none => last := by
  induction s generalizing last with
  | nil => rfl
  | cons x s ih =>
    obtain ⟨u, c⟩ := x
    rw [List.map_cons, List.pairwise_cons] at hs
    unfold gPad
    split
    · rename_i h
      rw [ih c hs.2, List.filter_cons_of_pos (by simpa using h), List.getLast?_cons]
      cases (s.filter fun x => x.1 ≤ t).getLast? <;> rfl
    · rename_i h
      have e1 : ((u, c) :: s).filter (fun x => x.1 ≤ t) = [] := by
        rw [List.filter_eq_nil_iff]
        intro x hx
        rcases List.mem_cons.mp hx with rfl | hx
        · simpa using h
        · have := hs.1 x.1 (List.mem_map.mpr ⟨x, hx, rfl⟩); simp; omega
      rw [e1]
      rfl

theorem gPad_some (t : Nat) (s : GSeries) (hs : (s.map Prod.fst).Pairwise (· < ·)) (v : Int) (h : gPad t none s = some v) :
    lastObsG s t = some v := by
  rw [gPad_eq t none s hs] at h
  unfold lastObsG
  rcases List.eq_nil_or_concat (s.filter fun x => x.1 ≤ t) with e | ⟨l, x, e⟩
  · rw [e] at h; simp at h
  · rw [List.concat_eq_append] at e
    rw [e] at h ⊢
    simp only [List.getLast?_append, List.getLast?_singleton, Option.some_or] at h
    simp [List.filterMap_append, h]

theorem gPad_none (t : Nat) (s : GSeries) (hs : (s.map Prod.fst).Pairwise (· < ·)) (h : gPad t none s = none) (v : Int) :
    s.lookup t ≠ some (some v) := by
  intro hl
  rw [gPad_eq t none s hs, filter_le_split s t hs, hl] at h
  simp at h

theorem lookup_mapSelf {α : Type} (I : List Nat) (k : Nat → α) (t : Nat) :
    List.lookup t (I.map fun u => (u, k u)) = if t ∈ I then some (k t) else none := by
  induction I with
  | nil => rfl
  | cons u I ih =>
    rw [List.map_cons]
    by_cases h : t = u
    · subst h; simp [List.lookup]
    · rw [lookup_ne h, ih]
      simp [h]

theorem zip_mapSelf {α : Type} (I : List Nat) (k : Nat → α) : I.zip (I.map k) = I.map fun u => (u, k u) := by
  induction I with
  | nil => rfl
  | cons u I ih => simp [ih]

/-- a filled column has the last value at or before each time -/
theorem filled_obs (I : List Nat) (s : GSeries) (f : Nat → Option Int) (hI : I.Pairwise (· < ·)) (hs : (s.map Prod.fst).Pairwise (· < ·))
    (hsub : ∀ x ∈ s, x.1 ∈ I) (h1 : ∀ t ∈ I, ∀ v, f t = some v → lastObsG s t = some v)
    (h2 : ∀ t ∈ I, f t = none → (∀ v, s.lookup t ≠ some (some v)) ∨ lastObsG s t = none) :
    ffill none (I.map f) = I.map (lastObsG s) := by
  apply ffill_map
  intro pre t post e
  have ht : t ∈ I := by rw [e]; simp
  refine ⟨h1 t ht, fun hn => ?_⟩
  rcases h2 t ht hn with h | h
  · exact obs_prev I s hI hs hsub pre t post e h
  · rw [h]
    cases hp : pre.getLast? with
    | none => rfl
    | some p =>
      simp only
      have hpt : p < t := by
        subst e
        rw [List.pairwise_append] at hI
        exact hI.2.2 p (List.mem_of_getLast? hp) t (by simp)
      unfold lastObsG at h ⊢
      rw [List.getLast?_eq_none_iff, List.filterMap_eq_nil_iff] at h
      symm
      rw [List.getLast?_eq_none_iff, List.filterMap_eq_nil_iff]
      intro x hx
      apply h
      rw [List.mem_filter] at hx ⊢
      refine ⟨hx.1, ?_⟩
      have := hx.2
      simp only [decide_eq_true_eq] at this ⊢
      omega

theorem gAlignAll_ok {κ : Type} (index : List Nat) (ss : List (κ × GSeries)) (h : ∀ x ∈ ss, (x.2.map Prod.fst).Nodup) :
    gAlignAll index ss = .ok (ss.map fun x => (x.1, index.map fun t => (x.2.lookup t).join)) := by
  induction ss with
  | nil => rfl
  | cons x ss ih =>
    obtain ⟨k, s⟩ := x
    unfold gAlignAll
    rw [alignTo_nodup index s (h (k, s) (by simp)), ih (fun y hy => h y (by simp [hy]))]
    rfl

theorem gReindexAll_ok (index : List Nat) (gs : List (Option Int × GSeries)) (h : ∀ x ∈ gs, (x.2.map Prod.fst).Nodup) :
    gReindexAll index gs = .ok (gs.map fun x => (x.1, index.map fun t => (t, gPad t none x.2))) := by
  induction gs with
  | nil => rfl
  | cons x gs ih =>
    obtain ⟨v, s⟩ := x
    unfold gReindexAll
    rw [gReindex, if_pos (h (v, s) (by simp)), ih (fun y hy => h y (by simp [hy]))]
    rfl

theorem sorted_nodup {l : List Nat} (h : l.Pairwise (· < ·)) : l.Nodup := List.Pairwise.imp (fun h => Nat.ne_of_lt h) h

/-- what is assumed of the table of an event: times increase, and every row has a pivot value -/
def EvOk (ev : GEvent) : Prop :=
  (ev.rows.map GRow.time).Pairwise (· < ·) ∧ ∀ p, ev.pivot = some p → ∀ r ∈ ev.rows, (r.cells.get p).isSome

theorem mem_insertInt (t x : Int) (l : List Int) : x ∈ insertInt t l ↔ x = t ∨ x ∈ l := by
  induction l with
  | nil => simp [insertInt]
  | cons u us ih =>
    unfold insertInt
    split
    · simp
    · split
      · rename_i h1 h2; subst h2; simp
      · rw [List.mem_cons, ih, List.mem_cons]
        constructor
        · rintro (h | h | h) <;> simp [h]
        · rintro (h | h | h) <;> simp [h]

theorem insertInt_sorted (t : Int) (l : List Int) (h : l.Pairwise (· < ·)) : (insertInt t l).Pairwise (· < ·) := by
  induction l with
  | nil => simp [insertInt]
  | cons u us ih =>
    rw [List.pairwise_cons] at h
    unfold insertInt
    split
    · rename_i hlt
      rw [List.pairwise_cons, List.pairwise_cons]
      refine ⟨?_, h.1, h.2⟩
      intro y hy
      rcases List.mem_cons.mp hy with rfl | hy
      · exact hlt
      · have := h.1 y hy; omega
    · split
      · rw [List.pairwise_cons]; exact h
      · rw [List.pairwise_cons]
        refine ⟨?_, ih h.2⟩
        intro y hy
        rcases (mem_insertInt t y us).mp hy with rfl | hy
        · omega
        · exact h.1 y hy

theorem mem_gUnique (l : List Int) (x : Int) : x ∈ gUnique l ↔ x ∈ l := by
  have : ∀ (l acc : List Int), x ∈ l.foldl (fun acc t => insertInt t acc) acc ↔ x ∈ l ∨ x ∈ acc := by
    intro l
    induction l with
    | nil => simp
    | cons t l ih =>
      intro acc
      rw [List.foldl_cons, ih, mem_insertInt, List.mem_cons]
      constructor
      · rintro (h | h | h) <;> simp [h]
      · rintro ((h | h) | h) <;> simp [h]
  rw [gUnique, this]
  simp

theorem gUnique_sorted (l : List Int) : (gUnique l).Pairwise (· < ·) := by
  have : ∀ (l acc : List Int), acc.Pairwise (· < ·) → (l.foldl (fun acc t => insertInt t acc) acc).Pairwise (· < ·) := by
    intro l
    induction l with
    | nil => intro acc h; exact h
    | cons t l ih => intro acc h; exact ih _ (insertInt_sorted t acc h)
  exact this l [] List.Pairwise.nil

/-- the rows of a group -/
def InGroup (ev : GEvent) (pv : Option Int) (r : GRow) : Prop :=
  match ev.pivot, pv with
  | none, none => True
  | some p, some x => r.cells.get p = some x
  | _, _ => False

theorem groups_mem (ev : GEvent) (column : Str) (rows : List GRow) (g : Option Int × GSeries) (hg : g ∈ gGroups ev column rows) :
    g.2.Sublist (rows.map fun r => (r.time, r.cells.get column)) ∧
    ∀ u c, (u, c) ∈ g.2 ↔ ∃ r ∈ rows, InGroup ev g.1 r ∧ r.time = u ∧ r.cells.get column = c := by
  unfold gGroups at hg
  unfold InGroup
  cases hp : ev.pivot with
  | none =>
    rw [hp] at hg
    simp only [List.mem_singleton] at hg
    subst hg
    refine ⟨List.Sublist.refl _, ?_⟩
    intro u c
    simp
  | some p =>
    rw [hp] at hg
    simp only [List.mem_map] at hg
    obtain ⟨v, hv, rfl⟩ := hg
    refine ⟨List.Sublist.map _ List.filter_sublist, ?_⟩
    intro u c
    simp only [gSub, List.mem_map, List.mem_filter, decide_eq_true_eq, Prod.mk.injEq]
    constructor
    · rintro ⟨r, ⟨h1, h2⟩, h3, h4⟩; exact ⟨r, h1, h2, h3, h4⟩
    · rintro ⟨r, h1, h2, h3, h4⟩; exact ⟨r, ⟨h1, h2⟩, h3, h4⟩

theorem groups_labels (ev : GEvent) (column : Str) (rows : List GRow) (hrows : (rows.map GRow.time).Pairwise (· < ·))
    (g : Option Int × GSeries) (hg : g ∈ gGroups ev column rows) :
    (g.2.map Prod.fst).Pairwise (· < ·) ∧ ∀ x ∈ g.2, x.1 ∈ rows.map GRow.time := by
  obtain ⟨h1, h2⟩ := groups_mem ev column rows g hg
  refine ⟨?_, ?_⟩
  · have h3 := h1.map Prod.fst
    rw [List.map_map] at h3
    exact hrows.sublist h3
  · intro x hx
    obtain ⟨r, hr, _, ht, _⟩ := (h2 x.1 x.2).mp hx
    exact List.mem_map.mpr ⟨r, hr, ht⟩

theorem groups_cover (ev : GEvent) (column : Str) (rows : List GRow) (hp : ∀ p, ev.pivot = some p → ∀ r ∈ rows, (r.cells.get p).isSome)
    (t : Nat) (ht : t ∈ rows.map GRow.time) : ∃ g ∈ gGroups ev column rows, t ∈ g.2.map Prod.fst := by
  obtain ⟨r, hr, rfl⟩ := List.mem_map.mp ht
  unfold gGroups
  cases hpv : ev.pivot with
  | none => exact ⟨(none, rows.map fun r => (r.time, r.cells.get column)), by simp, List.mem_map.mpr ⟨(r.time, r.cells.get column), List.mem_map.mpr ⟨r, hr, rfl⟩, rfl⟩⟩
  | some p =>
    obtain ⟨v, hv⟩ := Option.isSome_iff_exists.mp (hp p hpv r hr)
    refine ⟨(some v, gSub p v column rows), List.mem_map.mpr ⟨v, ?_, rfl⟩, ?_⟩
    · rw [mem_gUnique, List.mem_filterMap]; exact ⟨r, hr, hv⟩
    · refine List.mem_map.mpr ⟨(r.time, r.cells.get column), ?_, rfl⟩
      exact List.mem_map.mpr ⟨r, List.mem_filter.mpr ⟨hr, by simpa using hv⟩, rfl⟩

/-- the table that belongs to a list of loaded columns -/
def AggInv (o : GOpts) (L : List (Str × GEvent)) (st : AggDf) : Prop :=
  st.index.Pairwise (· < ·) ∧ (∀ x, x ∈ st.index ↔ ∃ p ∈ L, x ∈ (getDataFrame o p.2).map GRow.time) ∧
  st.cols = L.flatMap fun p => (gGroups p.2 p.1 (getDataFrame o p.2)).map fun g => ((p.1, g.1), st.index.map (lastObsG g.2))

theorem frame_ok (o : GOpts) (ev : GEvent) (h : EvOk ev) :
    ((getDataFrame o ev).map GRow.time).Pairwise (· < ·) ∧ ∀ p, ev.pivot = some p → ∀ r ∈ getDataFrame o ev, (r.cells.get p).isSome := by
  rw [C65_selection]
  refine ⟨h.1.sublist (List.Sublist.map _ List.filter_sublist), ?_⟩
  intro p hp r hr
  exact h.2 p hp r (List.mem_filter.mp hr).1

/-- `_pivot` on tables as assumed -/
theorem gPivot_ok (o : GOpts) (st : AggDf) (ev : GEvent) (column : Str) (hst : st.index.Pairwise (· < ·)) (hev : EvOk ev)
    (hne : getDataFrame o ev ≠ []) (hc : column ∈ ev.columns) (hp : ∀ p, ev.pivot = some p → p ∈ ev.columns) :
    ∃ (idx : List Nat) (h : GSeries → Nat → Option Int), gPivot o st ev column = .ok (idx, (gGroups ev column (getDataFrame o ev)).map fun g => (g.1, idx.map (h g.2))) ∧
      idx.Pairwise (· < ·) ∧ (∀ x ∈ idx, x ∈ st.index ∨ x ∈ (getDataFrame o ev).map GRow.time) ∧
      (∀ x, x ∈ st.index ∨ x ∈ (getDataFrame o ev).map GRow.time → x ∈ idx) ∧
      ∀ g ∈ gGroups ev column (getDataFrame o ev), ∀ t ∈ idx, (∀ v, h g.2 t = some v → lastObsG g.2 t = some v) ∧
        (h g.2 t = none → ∀ v, g.2.lookup t ≠ some (some v)) := by
  obtain ⟨hrows, hpiv⟩ := frame_ok o ev hev
  generalize hR : getDataFrame o ev = rows at *
  have hlab := groups_labels ev column rows hrows
  have hcov := groups_cover ev column rows hpiv
  have hkey : ¬ (column ∉ ev.columns ∨ ∃ p, ev.pivot = some p ∧ p ∉ ev.columns) := by
    rintro (h | ⟨p, h1, h2⟩)
    · exact h hc
    · exact h2 (hp p h1)
  unfold gPivot
  simp only [hR]
  rw [if_neg hne, if_neg hkey]
  by_cases hS : st.index = []
  · have hsp := commonIndex_spec ((gGroups ev column rows).map fun g => g.2.map Prod.fst) (by
      intro i hi
      obtain ⟨g, hg, rfl⟩ := List.mem_map.mp hi
      exact (hlab g hg).1)
    refine ⟨commonIndex ((gGroups ev column rows).map fun g => g.2.map Prod.fst), fun s t => (s.lookup t).join, ?_, hsp.1, ?_, ?_, ?_⟩
    · simp only [if_pos hS]
      rw [gAlignAll_ok _ _ (fun g hg => sorted_nodup (hlab g hg).1)]
    · intro x hx
      obtain ⟨i, hi, hxi⟩ := (hsp.2 x).mp hx
      obtain ⟨g, hg, rfl⟩ := List.mem_map.mp hi
      obtain ⟨y, hy, rfl⟩ := List.mem_map.mp hxi
      exact Or.inr ((hlab g hg).2 y hy)
    · intro x hx
      rw [hS] at hx
      rcases hx with hx | hx
      · simp at hx
      · obtain ⟨g, hg, hxg⟩ := hcov x hx
        exact (hsp.2 x).mpr ⟨_, List.mem_map.mpr ⟨g, hg, rfl⟩, hxg⟩
    · intro g hg t _
      refine ⟨?_, ?_⟩
      · intro v hv
        apply obs_some g.2 t v (hlab g hg).1
        cases hl : g.2.lookup t with
        | none => simp [hl] at hv
        | some c => simp only [hl, Option.join_some] at hv; rw [hv]
      · intro hn v hl
        simp [hl] at hn
  · have hnew := foldInsert_sorted (rows.map GRow.time) st.index hst
    have hmem := fun x => mem_foldInsert (rows.map GRow.time) st.index x
    generalize hN : (rows.map GRow.time).foldl (fun acc t => insertTime t acc) st.index = newI at *
    have hfst : ∀ s : GSeries, (newI.map fun t => (t, gPad t none s)).map Prod.fst = newI := by
      intro s; rw [List.map_map]; exact List.map_id' _
    have hsp := commonIndex_spec (((gGroups ev column rows).map fun g => (g.1, newI.map fun t => (t, gPad t none g.2))).map fun g => g.2.map Prod.fst) (by
      intro i hi
      rw [List.map_map] at hi
      obtain ⟨g, hg, rfl⟩ := List.mem_map.mp hi
      simp only [Function.comp_apply]
      rw [hfst]
      exact hnew)
    have hsp2 : ∀ x, x ∈ commonIndex (((gGroups ev column rows).map fun g => (g.1, newI.map fun t => (t, gPad t none g.2))).map fun g => g.2.map Prod.fst) ↔ x ∈ newI := by
      intro x
      rw [hsp.2 x]
      constructor
      · rintro ⟨i, hi, hx⟩
        rw [List.map_map] at hi
        obtain ⟨g, hg, rfl⟩ := List.mem_map.mp hi
        simp only [Function.comp_apply] at hx
        rw [hfst] at hx
        exact hx
      · intro hx
        obtain ⟨r, hr⟩ := List.exists_mem_of_ne_nil rows hne
        obtain ⟨g, hg, _⟩ := hcov r.time (List.mem_map.mpr ⟨r, hr, rfl⟩)
        refine ⟨newI, ?_, hx⟩
        rw [List.map_map]
        exact List.mem_map.mpr ⟨g, hg, by simp only [Function.comp_apply]; rw [hfst]⟩
    have hok := gReindexAll_ok newI (gGroups ev column rows) (fun g hg => sorted_nodup (hlab g hg).1)
    simp only [if_neg hS]
    rw [hok]
    simp only
    generalize hC : commonIndex (((gGroups ev column rows).map fun g => (g.1, newI.map fun t => (t, gPad t none g.2))).map fun g => g.2.map Prod.fst) = idx at *
    refine ⟨idx, fun s t => gPad t none s, ?_, hsp.1, ?_, ?_, ?_⟩
    · rw [gAlignAll_ok]
      · simp only [List.map_map]
        congr 2
        apply List.map_congr_left
        intro g hg
        simp only [Function.comp_apply, Prod.mk.injEq, true_and]
        apply List.map_congr_left
        intro t ht
        rw [lookup_mapSelf newI (fun t => gPad t none g.2) t, if_pos ((hsp2 t).mp ht)]
        rfl
      · intro x hx
        obtain ⟨g, hg, rfl⟩ := List.mem_map.mp hx
        simp only
        rw [hfst]
        exact sorted_nodup hnew
    · intro x hx
      exact ((hmem x).mp ((hsp2 x).mp hx)).symm
    · intro x hx
      exact (hsp2 x).mpr ((hmem x).mpr hx.symm)
    · intro g hg t _
      exact ⟨fun v hv => gPad_some t g.2 (hlab g hg).1 v hv, fun hn v => gPad_none t g.2 (hlab g hg).1 hn v⟩

/-- loading a new column -/
theorem load_ok (o : GOpts) (L : List (Str × GEvent)) (st : AggDf) (hinv : AggInv o L st) (hL : ∀ p ∈ L, EvOk p.2) (ev : GEvent) (column : Str)
    (hfill : o.fill = true) (hev : EvOk ev) (hne : getDataFrame o ev ≠ []) (hc : column ∈ ev.columns) (hp : ∀ p, ev.pivot = some p → p ∈ ev.columns) :
    ∃ idx cols st', gPivot o st ev column = .ok (idx, cols) ∧ gAppend o st column idx cols = .ok st' ∧ AggInv o (L ++ [(column, ev)]) st' := by
  obtain ⟨hsort, hmem, hcols⟩ := hinv
  obtain ⟨idx, h, hpv, hidx, hsub, hsup, hh⟩ := gPivot_ok o st ev column hsort hev hne hc hp
  have hsp := commonIndex_spec [st.index, idx] (by
    intro i hi
    simp only [List.mem_cons, List.not_mem_nil, or_false] at hi
    rcases hi with rfl | rfl
    · exact hsort
    · exact hidx)
  have hI : ∀ x, x ∈ commonIndex [st.index, idx] ↔ x ∈ st.index ∨ x ∈ idx := by
    intro x; rw [hsp.2 x]; simp
  have hI2 : ∀ x, x ∈ commonIndex [st.index, idx] → x ∈ idx := by
    intro x hx
    rcases (hI x).mp hx with hx | hx
    · exact hsup x (Or.inl hx)
    · exact hx
  generalize hJ : commonIndex [st.index, idx] = J at *
  refine ⟨idx, _, ⟨J, ((st.cols.map (fun c => (c.1, st.index.zip c.2)) ++ ((gGroups ev column (getDataFrame o ev)).map fun g =>
    (g.1, idx.map (h g.2))).map fun c => ((column, c.1), idx.zip c.2)).map fun x => (x.1, J.map fun t => (x.2.lookup t).join)).map
      fun c => (c.1, ffill none c.2)⟩, hpv, ?_, ?_⟩
  · unfold gAppend
    simp only [hJ, hfill, if_true]
    rw [gAlignAll_ok]
    intro x hx
    rcases List.mem_append.mp hx with hx | hx
    · obtain ⟨c, hcm, rfl⟩ := List.mem_map.mp hx
      rw [hcols, List.mem_flatMap] at hcm
      obtain ⟨p, hpL, hcm⟩ := hcm
      obtain ⟨g, hg, rfl⟩ := List.mem_map.mp hcm
      simp only
      rw [zip_mapSelf, List.map_map]
      exact sorted_nodup (by simpa [Function.comp_def] using hsort)
    · obtain ⟨c, hcm, rfl⟩ := List.mem_map.mp hx
      obtain ⟨g, hg, rfl⟩ := List.mem_map.mp hcm
      simp only
      rw [zip_mapSelf, List.map_map]
      exact sorted_nodup (by simpa [Function.comp_def] using hidx)
  · refine ⟨hsp.1, ?_, ?_⟩
    · intro x
      show x ∈ J ↔ _
      rw [hI x]
      simp only [List.mem_append, List.mem_singleton]
      constructor
      · rintro (hx | hx)
        · obtain ⟨p, hp1, hp2⟩ := (hmem x).mp hx
          exact ⟨p, Or.inl hp1, hp2⟩
        · rcases hsub x hx with hx | hx
          · obtain ⟨p, hp1, hp2⟩ := (hmem x).mp hx
            exact ⟨p, Or.inl hp1, hp2⟩
          · exact ⟨_, Or.inr rfl, hx⟩
      · rintro ⟨p, hp1 | rfl, hp2⟩
        · exact Or.inl ((hmem x).mpr ⟨p, hp1, hp2⟩)
        · exact Or.inr (hsup x (Or.inr hp2))
    · simp only [List.map_append, List.map_map, List.flatMap_append, List.flatMap_cons, List.flatMap_nil, List.append_nil]
      congr 1
      · rw [hcols, List.map_flatMap]
        simp only [List.flatMap]
        congr 1
        apply List.map_congr_left
        intro p hpL
        rw [List.map_map]
        apply List.map_congr_left
        intro g hg
        simp only [Function.comp_apply, Prod.mk.injEq, true_and]
        have hlab := groups_labels p.2 p.1 (getDataFrame o p.2) (frame_ok o p.2 (hL p hpL)).1 g hg
        have hin : ∀ x ∈ g.2, x.1 ∈ st.index := fun x hx => (hmem x.1).mpr ⟨p, hpL, hlab.2 x hx⟩
        apply filled_obs J g.2 _ hsp.1 hlab.1 (fun x hx => (hI x.1).mpr (Or.inl (hin x hx)))
        · intro t _ v hv
          rw [zip_mapSelf, lookup_mapSelf st.index (lastObsG g.2) t] at hv
          by_cases hts : t ∈ st.index
          · rw [if_pos hts] at hv; exact hv
          · rw [if_neg hts] at hv; simp at hv
        · intro t _ hn
          rw [zip_mapSelf, lookup_mapSelf st.index (lastObsG g.2) t] at hn
          by_cases hts : t ∈ st.index
          · rw [if_pos hts] at hn; exact Or.inr hn
          · left
            intro v hl
            have : (t, some v) ∈ g.2 := by
              rw [List.lookup_eq_some_iff] at hl
              obtain ⟨l1, l2, e, _⟩ := hl
              rw [e]; simp
            exact hts (hin _ this)
      · apply List.map_congr_left
        intro g hg
        simp only [Function.comp_apply, Prod.mk.injEq, true_and]
        have hlab := groups_labels ev column (getDataFrame o ev) (frame_ok o ev hev).1 g hg
        apply filled_obs J g.2 _ hsp.1 hlab.1 (fun x hx => (hI x.1).mpr (Or.inr (hsup x.1 (Or.inr (hlab.2 x hx)))))
        · intro t ht v hv
          rw [zip_mapSelf, lookup_mapSelf idx (h g.2) t, if_pos (hI2 t ht)] at hv
          exact (hh g hg t (hI2 t ht)).1 v hv
        · intro t ht hn
          rw [zip_mapSelf, lookup_mapSelf idx (h g.2) t, if_pos (hI2 t ht)] at hn
          exact Or.inl ((hh g hg t (hI2 t ht)).2 hn)

/-- **Specification**: the last of the observations at or before `t`. -/
def LastValue (Obs : Nat → Int → Prop) (t : Nat) : Option Int → Prop
  | some v => ∃ u, u ≤ t ∧ Obs u v ∧ ∀ w x, Obs w x → w ≤ t → w ≤ u
  | none => ∀ w x, Obs w x → t < w

theorem lastObsG_spec (s : GSeries) (t : Nat) (hs : (s.map Prod.fst).Pairwise (· < ·)) :
    LastValue (fun u v => (u, some v) ∈ s) t (lastObsG s t) := by
  induction s with
  | nil => intro w x h; simp at h
  | cons y s ih =>
    obtain ⟨u, c⟩ := y
    rw [List.map_cons, List.pairwise_cons] at hs
    have hgt : ∀ x ∈ s, u < x.1 := fun x hx => hs.1 x.1 (List.mem_map.mpr ⟨x, hx, rfl⟩)
    have ih := ih hs.2
    by_cases hu : u ≤ t
    · have e : lastObsG ((u, c) :: s) t = (lastObsG s t).or c := by
        unfold lastObsG
        rw [List.filter_cons_of_pos (by simpa using hu)]
        cases c with
        | none => simp
        | some v =>
          rw [List.filterMap_cons]
          simp only
          rw [List.getLast?_cons]
          cases ((s.filter fun x => x.1 ≤ t).filterMap Prod.snd).getLast? <;> rfl
      rw [e]
      cases hl : lastObsG s t with
      | some v =>
        rw [hl] at ih
        obtain ⟨u', h1, h2, h3⟩ := ih
        refine ⟨u', h1, List.mem_cons_of_mem _ h2, ?_⟩
        intro w x hw hwt
        rcases List.mem_cons.mp hw with h | h
        · have := hgt _ h2
          simp only [Prod.mk.injEq] at h
          omega
        · exact h3 w x h hwt
      | none =>
        rw [hl] at ih
        cases c with
        | none =>
          intro w x hw
          rcases List.mem_cons.mp hw with h | h
          · simp at h
          · exact ih w x h
        | some v =>
          refine ⟨u, hu, by simp, ?_⟩
          intro w x hw hwt
          rcases List.mem_cons.mp hw with h | h
          · simp only [Prod.mk.injEq] at h; omega
          · have := ih w x h; omega
    · have e : lastObsG ((u, c) :: s) t = lastObsG s t := by
        unfold lastObsG
        rw [List.filter_cons_of_neg (by simpa using hu)]
      rw [e]
      cases hl : lastObsG s t with
      | some v =>
        rw [hl] at ih
        obtain ⟨u', h1, h2, h3⟩ := ih
        have := hgt _ h2
        simp only at this
        omega
      | none =>
        rw [hl] at ih
        intro w x hw
        rcases List.mem_cons.mp hw with h | h
        · simp only [Prod.mk.injEq] at h; omega
        · exact ih w x h

theorem groups_key (ev : GEvent) (column : Str) (rows : List GRow) (pv : Option Int) (hne : rows ≠ []) :
    pv ∈ (gGroups ev column rows).map Prod.fst ↔ ∃ r ∈ rows, InGroup ev pv r := by
  unfold gGroups InGroup
  cases hp : ev.pivot with
  | none =>
    obtain ⟨r, hr⟩ := List.exists_mem_of_ne_nil rows hne
    cases pv with
    | none => simp only [List.map_cons, List.map_nil, List.mem_singleton, true_iff]; exact ⟨r, hr, trivial⟩
    | some x => simp
  | some p =>
    cases pv with
    | none => simp
    | some x =>
      simp only [List.map_map, List.mem_map, Function.comp_apply, mem_gUnique, List.mem_filterMap]
      constructor
      · rintro ⟨v, ⟨r, hr, hv⟩, e⟩
        simp only [Option.some.injEq] at e
        subst e
        exact ⟨r, hr, hv⟩
      · rintro ⟨r, hr, hv⟩
        exact ⟨x, ⟨r, hr, hv⟩, rfl⟩

theorem groups_nodup (ev : GEvent) (column : Str) (rows : List GRow) : ((gGroups ev column rows).map Prod.fst).Nodup := by
  unfold gGroups
  cases ev.pivot with
  | none => simp
  | some p =>
    simp only [List.map_map]
    have h : (gUnique (rows.filterMap fun r => r.cells.get p)).Nodup := List.Pairwise.imp (fun h => by omega) (gUnique_sorted _)
    exact List.Pairwise.map _ (fun a b hab => by simpa [Function.comp_def] using hab) h

/-- the invariant of loading -/
def LoadInv (o : GOpts) (env : GEnv) (accs : List (Str × Str)) (L : List (Str × GEvent)) (st : AggDf) : Prop :=
  AggInv o L st ∧ (∀ p ∈ L, EvOk p.2 ∧ getDataFrame o p.2 ≠ []) ∧ (L.map Prod.fst).Nodup ∧
  ∀ c ev, (c, ev) ∈ L ↔ ∃ e, accs.find? (fun a => a.2 = c) = some (e, c) ∧ gClass env e = .ok ev

theorem cols_mem (o : GOpts) (L : List (Str × GEvent)) (st : AggDf) (hinv : AggInv o L st)
    (hL : ∀ p ∈ L, EvOk p.2 ∧ getDataFrame o p.2 ≠ []) (c : Str) : c ∈ st.cols.map (fun c => c.1.1) ↔ c ∈ L.map Prod.fst := by
  rw [hinv.2.2]
  simp only [List.mem_map, List.mem_flatMap]
  constructor
  · rintro ⟨x, ⟨p, hp, g, hg, rfl⟩, rfl⟩
    exact ⟨p, hp, rfl⟩
  · rintro ⟨p, hp, rfl⟩
    obtain ⟨h1, h2⟩ := hL p hp
    obtain ⟨r, hr⟩ := List.exists_mem_of_ne_nil _ h2
    obtain ⟨g, hg, _⟩ := groups_cover p.2 p.1 _ (frame_ok o p.2 h1).2 r.time (List.mem_map.mpr ⟨r, hr, rfl⟩)
    exact ⟨_, ⟨p, hp, g, hg, rfl⟩, rfl⟩

theorem find_snoc (accs : List (Str × Str)) (e c c' : Str) :
    (accs ++ [(e, c)]).find? (fun a => decide (a.2 = c')) =
      if c' ∈ accs.map Prod.snd then accs.find? (fun a => decide (a.2 = c')) else if c = c' then some (e, c) else none := by
  rw [List.find?_append]
  by_cases h : c' ∈ accs.map Prod.snd
  · rw [if_pos h]
    obtain ⟨a, ha, rfl⟩ := List.mem_map.mp h
    have : (accs.find? fun a' => decide (a'.2 = a.2)).isSome := by
      rw [List.find?_isSome]; exact ⟨a, ha, by simp⟩
    obtain ⟨y, hy⟩ := Option.isSome_iff_exists.mp this
    rw [hy]
    rfl
  · rw [if_neg h]
    have : (accs.find? fun a' => decide (a'.2 = c')) = none := by
      rw [List.find?_eq_none]
      intro a ha
      simp only [decide_eq_true_eq]
      intro e
      exact h (List.mem_map.mpr ⟨a, ha, e⟩)
    rw [this, Option.none_or]
    by_cases hc : c = c'
    · simp [hc]
    · simp [hc]

theorem find_col (accs : List (Str × Str)) (c : Str) : c ∈ accs.map Prod.snd ↔ ∃ e, accs.find? (fun a => decide (a.2 = c)) = some (e, c) := by
  constructor
  · intro h
    obtain ⟨a, ha, rfl⟩ := List.mem_map.mp h
    have : (accs.find? fun a' => decide (a'.2 = a.2)).isSome := by
      rw [List.find?_isSome]; exact ⟨a, ha, by simp⟩
    obtain ⟨y, hy⟩ := Option.isSome_iff_exists.mp this
    have := List.find?_some hy
    simp only [decide_eq_true_eq] at this
    exact ⟨y.1, by rw [hy, ← this]⟩
  · rintro ⟨e, h⟩
    exact List.mem_map.mpr ⟨_, List.mem_of_find?_eq_some h, rfl⟩

/-- every column accessed so far is loaded -/
theorem loaded_iff (o : GOpts) (env : GEnv) (accs : List (Str × Str)) (L : List (Str × GEvent)) (st : AggDf) (h : LoadInv o env accs L st)
    (hall : ∀ c ∈ accs.map Prod.snd, c ∈ L.map Prod.fst) (c : Str) : c ∈ st.cols.map (fun c => c.1.1) ↔ c ∈ accs.map Prod.snd := by
  rw [cols_mem o L st h.1 h.2.1]
  constructor
  · intro hc
    obtain ⟨⟨c', ev⟩, hp, rfl⟩ := List.mem_map.mp hc
    obtain ⟨e, he, _⟩ := (h.2.2.2 c' ev).mp hp
    exact (find_col accs c').mpr ⟨e, he⟩
  · exact hall c

theorem load_step (o : GOpts) (env : GEnv) (hfill : o.fill = true) (henv : ∀ e ev, gClass env e = .ok ev → EvOk ev)
    (accs : List (Str × Str)) (L : List (Str × GEvent)) (st : AggDf) (hinv : LoadInv o env accs L st)
    (hall : ∀ c ∈ accs.map Prod.snd, c ∈ L.map Prod.fst) (e c : Str) (st' : AggDf) (h : gPreProcess o env st e c = .ok st') :
    ∃ L', LoadInv o env (accs ++ [(e, c)]) L' st' ∧ ∀ c' ∈ (accs ++ [(e, c)]).map Prod.snd, c' ∈ L'.map Prod.fst := by
  have hmem := loaded_iff o env accs L st hinv hall c
  unfold gPreProcess at h
  by_cases hc : c ∈ st.cols.map (fun c => c.1.1)
  · rw [if_pos hc] at h
    simp only [Except.ok.injEq] at h
    subst h
    have hca := hmem.mp hc
    refine ⟨L, ⟨hinv.1, hinv.2.1, hinv.2.2.1, ?_⟩, ?_⟩
    · intro c' ev
      rw [hinv.2.2.2 c' ev]
      apply exists_congr
      intro e'
      rw [find_snoc]
      by_cases h1 : c' ∈ accs.map Prod.snd
      · rw [if_pos h1]
      · rw [if_neg h1]
        have h2 : c ≠ c' := by rintro rfl; exact h1 hca
        rw [if_neg h2]
        have h3 : accs.find? (fun a => decide (a.2 = c')) ≠ some (e', c') := fun h3 => h1 ((find_col accs c').mpr ⟨e', h3⟩)
        simp [h3]
    · intro c' hc'
      rw [List.map_append, List.mem_append] at hc'
      rcases hc' with hc' | hc'
      · exact hall c' hc'
      · simp only [List.map_cons, List.map_nil, List.mem_singleton] at hc'
        subst hc'
        exact hall c' hca
  · rw [if_neg hc] at h
    have hca : c ∉ accs.map Prod.snd := fun h => hc (hmem.mpr h)
    have hcL : c ∉ L.map Prod.fst := by rw [← cols_mem o L st hinv.1 hinv.2.1]; exact hc
    cases hcl : gClass env e with
    | error x => rw [hcl] at h; simp at h
    | ok ev =>
      rw [hcl] at h
      simp only at h
      have hev := henv e ev hcl
      by_cases hne : getDataFrame o ev = []
      · have : gPivot o st ev c = .error .noEvents := by unfold gPivot; simp [hne]
        rw [this] at h; simp at h
      by_cases hk : c ∉ ev.columns ∨ ∃ p, ev.pivot = some p ∧ p ∉ ev.columns
      · have : gPivot o st ev c = .error .keyError := by unfold gPivot; simp only; rw [if_neg hne, if_pos hk]
        rw [this] at h; simp at h
      have hc1 : c ∈ ev.columns := Decidable.byContradiction fun h => hk (Or.inl h)
      have hp1 : ∀ p, ev.pivot = some p → p ∈ ev.columns := fun p hp => Decidable.byContradiction fun h => hk (Or.inr ⟨p, hp, h⟩)
      obtain ⟨idx, cols, st'', h1, h2, h3⟩ := load_ok o L st hinv.1 (fun p hp => (hinv.2.1 p hp).1) ev c hfill hev hne hc1 hp1
      rw [h1] at h
      simp only at h
      rw [h2] at h
      simp only [Except.ok.injEq] at h
      subst h
      refine ⟨L ++ [(c, ev)], ⟨h3, ?_, ?_, ?_⟩, ?_⟩
      · intro p hp
        rcases List.mem_append.mp hp with hp | hp
        · exact hinv.2.1 p hp
        · simp only [List.mem_singleton] at hp; subst hp; exact ⟨hev, hne⟩
      · rw [List.map_append, List.nodup_append]
        refine ⟨hinv.2.2.1, by simp, ?_⟩
        intro a ha b hb
        simp only [List.map_cons, List.map_nil, List.mem_singleton] at hb
        subst hb
        rintro rfl
        exact hcL ha
      · intro c' ev'
        rw [List.mem_append, hinv.2.2.2 c' ev', List.mem_singleton]
        constructor
        · rintro (⟨e', h4, h5⟩ | h4)
          · refine ⟨e', ?_, h5⟩
            rw [find_snoc, if_pos ((find_col accs c').mpr ⟨e', h4⟩)]
            exact h4
          · simp only [Prod.mk.injEq] at h4
            obtain ⟨rfl, rfl⟩ := h4
            refine ⟨e, ?_, hcl⟩
            rw [find_snoc, if_neg hca, if_pos rfl]
        · rintro ⟨e', h4, h5⟩
          rw [find_snoc] at h4
          by_cases h6 : c' ∈ accs.map Prod.snd
          · rw [if_pos h6] at h4; exact Or.inl ⟨e', h4, h5⟩
          · rw [if_neg h6] at h4
            by_cases h7 : c = c'
            · rw [if_pos h7] at h4
              subst h7
              simp only [Option.some.injEq, Prod.mk.injEq, and_true] at h4
              subst h4
              rw [hcl] at h5
              simp only [Except.ok.injEq] at h5
              subst h5
              exact Or.inr rfl
            · rw [if_neg h7] at h4; simp at h4
      · intro c' hc'
        rw [List.map_append, List.mem_append] at hc'
        rw [List.map_append, List.mem_append]
        rcases hc' with hc' | hc'
        · exact Or.inl (hall c' hc')
        · exact Or.inr (by simpa using hc')

theorem load_all (o : GOpts) (env : GEnv) (hfill : o.fill = true) (henv : ∀ e ev, gClass env e = .ok ev → EvOk ev)
    (accs done : List (Str × Str)) (L : List (Str × GEvent)) (st st' : AggDf) (hinv : LoadInv o env done L st)
    (hall : ∀ c ∈ done.map Prod.snd, c ∈ L.map Prod.fst) (h : gLoadAll o env accs st = .ok st') :
    ∃ L', LoadInv o env (done ++ accs) L' st' ∧ ∀ c' ∈ (done ++ accs).map Prod.snd, c' ∈ L'.map Prod.fst := by
  induction accs generalizing done L st with
  | nil =>
    simp only [gLoadAll, Except.ok.injEq] at h
    subst h
    rw [List.append_nil]
    exact ⟨L, hinv, hall⟩
  | cons a accs ih =>
    obtain ⟨e, c⟩ := a
    unfold gLoadAll at h
    cases hp : gPreProcess o env st e c with
    | error x => rw [hp] at h; simp at h
    | ok st1 =>
      rw [hp] at h
      obtain ⟨L1, h1, h2⟩ := load_step o env hfill henv done L st hinv hall e c st1 hp
      have := ih (done ++ [(e, c)]) L1 st1 h1 h2 h
      simpa using this

/-- the observations of a column of an event for a pivot value -/
def IsObs (o : GOpts) (ev : GEvent) (column : Str) (pv : Option Int) (u : Nat) (v : Int) : Prop :=
  ∃ r ∈ ev.rows, Selected o ev.columns r ∧ InGroup ev pv r ∧ r.time = u ∧ r.cells.get column = some v

/-- the event a column was loaded from: the one of the first accessor with that column -/
def LoadedFrom (env : GEnv) (accs : List (Str × Str)) (column : Str) (ev : GEvent) : Prop :=
  ∃ e, accs.find? (fun a => decide (a.2 = column)) = some (e, column) ∧ gClass env e = .ok ev

/-- **C94.** After any accesses, over any number of expressions, the aggregated table has exactly the times of the selected rows of all events loaded,
in increasing order; a sub-column for exactly the pivot values that occur; and in each cell the last observation at or before its time, or nothing if
there is none. For all tables whose times increase and whose rows have a pivot value. -/
theorem C94_super_index (o : GOpts) (env : GEnv) (accs : List (Str × Str)) (st : AggDf) (hfill : o.fill = true)
    (henv : ∀ e ev, gClass env e = .ok ev → EvOk ev) (h : gLoadAll o env accs AggDf.empty = .ok st) :
    st.index.Pairwise (· < ·) ∧
    (∀ t, t ∈ st.index ↔ ∃ c ev r, LoadedFrom env accs c ev ∧ r ∈ ev.rows ∧ Selected o ev.columns r ∧ r.time = t) ∧
    (st.cols.map Prod.fst).Nodup ∧
    (∀ c pv, (c, pv) ∈ st.cols.map Prod.fst ↔ ∃ ev r, LoadedFrom env accs c ev ∧ r ∈ ev.rows ∧ Selected o ev.columns r ∧ InGroup ev pv r) ∧
    ∀ c pv cells ev, ((c, pv), cells) ∈ st.cols → LoadedFrom env accs c ev → cells.length = st.index.length ∧
      ∀ j t : Nat, st.index[j]? = some t → ∃ r, cells[j]? = some r ∧ LastValue (IsObs o ev c pv) t r := by
  have h0 : LoadInv o env [] [] AggDf.empty := by
    refine ⟨⟨List.Pairwise.nil, by simp [AggDf.empty], rfl⟩, by simp, by simp, by simp⟩
  obtain ⟨L, ⟨hagg, hL, hnd, hmem⟩, hA⟩ := load_all o env hfill henv accs [] [] AggDf.empty st h0 (by simp) h
  rw [List.nil_append] at hmem
  have hmem' : ∀ c ev, (c, ev) ∈ L ↔ LoadedFrom env accs c ev := hmem
  have hsel : ∀ ev r, r ∈ getDataFrame o ev ↔ r ∈ ev.rows ∧ Selected o ev.columns r := by
    intro ev r; rw [C65_selection, List.mem_filter, decide_eq_true_iff]
  obtain ⟨h1, h2, h3⟩ := hagg
  refine ⟨h1, ?_, ?_, ?_, ?_⟩
  · intro t
    rw [h2 t]
    constructor
    · rintro ⟨⟨c, ev⟩, hp, ht⟩
      obtain ⟨r, hr, rfl⟩ := List.mem_map.mp ht
      obtain ⟨hr1, hr2⟩ := (hsel ev r).mp hr
      exact ⟨c, ev, r, (hmem' c ev).mp hp, hr1, hr2, rfl⟩
    · rintro ⟨c, ev, r, hl, hr1, hr2, rfl⟩
      exact ⟨(c, ev), (hmem' c ev).mpr hl, List.mem_map.mpr ⟨r, (hsel ev r).mpr ⟨hr1, hr2⟩, rfl⟩⟩
  · rw [h3, List.map_flatMap]
    clear h2 h3 hmem hmem' hL hA
    induction L with
    | nil => simp
    | cons p L ih =>
      rw [List.map_cons, List.nodup_cons] at hnd
      rw [List.flatMap_cons, List.nodup_append]
      refine ⟨?_, ih hnd.2, ?_⟩
      · rw [List.map_map]
        have hg := groups_nodup p.2 p.1 (getDataFrame o p.2)
        have e : (gGroups p.2 p.1 (getDataFrame o p.2)).map (Prod.fst ∘ fun g => ((p.1, g.1), st.index.map (lastObsG g.2))) =
            ((gGroups p.2 p.1 (getDataFrame o p.2)).map Prod.fst).map fun v => (p.1, v) := by
          rw [List.map_map]; rfl
        rw [e]
        exact List.Pairwise.map _ (fun a b hab => by simpa using hab) hg
      · intro a ha b hb
        rintro rfl
        rw [List.map_map] at ha
        obtain ⟨g, _, rfl⟩ := List.mem_map.mp ha
        rw [List.mem_flatMap] at hb
        obtain ⟨q, hq, hb⟩ := hb
        rw [List.map_map] at hb
        obtain ⟨g', _, e⟩ := List.mem_map.mp hb
        simp only [Function.comp_apply, Prod.mk.injEq] at e
        exact hnd.1 (List.mem_map.mpr ⟨q, hq, e.1⟩)
  · intro c pv
    rw [h3]
    simp only [List.mem_map, List.mem_flatMap]
    constructor
    · rintro ⟨x, ⟨⟨c', ev⟩, hp, g, hg, rfl⟩, e⟩
      simp only [Prod.mk.injEq] at e
      obtain ⟨rfl, rfl⟩ := e
      obtain ⟨r, hr, hin⟩ := (groups_key ev c' (getDataFrame o ev) g.1 (hL _ hp).2).mp (List.mem_map.mpr ⟨g, hg, rfl⟩)
      obtain ⟨hr1, hr2⟩ := (hsel ev r).mp hr
      exact ⟨ev, r, (hmem' c' ev).mp hp, hr1, hr2, hin⟩
    · rintro ⟨ev, r, hl, hr1, hr2, hin⟩
      have hp := (hmem' c ev).mpr hl
      obtain ⟨g, hg, e⟩ := List.mem_map.mp ((groups_key ev c (getDataFrame o ev) pv (hL _ hp).2).mpr ⟨r, (hsel ev r).mpr ⟨hr1, hr2⟩, hin⟩)
      exact ⟨_, ⟨(c, ev), hp, g, hg, rfl⟩, by simp [e]⟩
  · intro c pv cells ev hcol hl
    rw [h3, List.mem_flatMap] at hcol
    obtain ⟨⟨c', ev'⟩, hp, hcol⟩ := hcol
    obtain ⟨g, hg, e⟩ := List.mem_map.mp hcol
    simp only [Prod.mk.injEq] at e
    obtain ⟨⟨rfl, rfl⟩, rfl⟩ := e
    have hevs : ev' = ev := by
      obtain ⟨e1, h4, h5⟩ := (hmem' c' ev').mp hp
      obtain ⟨e2, h6, h7⟩ := hl
      rw [h4] at h6
      simp only [Option.some.injEq, Prod.mk.injEq, and_true] at h6
      subst h6
      rw [h5] at h7
      exact Except.ok.inj h7
    subst hevs
    refine ⟨by simp, ?_⟩
    intro j t hj
    refine ⟨lastObsG g.2 t, by rw [List.getElem?_map, hj]; rfl, ?_⟩
    have hlab := groups_labels ev' c' _ (frame_ok o ev' (hL _ hp).1).1 g hg
    have hs := lastObsG_spec g.2 t hlab.1
    have hiff : ∀ u v, (u, some v) ∈ g.2 ↔ IsObs o ev' c' g.1 u v := by
      intro u v
      rw [(groups_mem ev' c' _ g hg).2 u (some v)]
      constructor
      · rintro ⟨r, hr, h5, h6, h7⟩
        obtain ⟨hr1, hr2⟩ := (hsel ev' r).mp hr
        exact ⟨r, hr1, hr2, h5, h6, h7⟩
      · rintro ⟨r, hr1, hr2, h5, h6, h7⟩
        exact ⟨r, (hsel ev' r).mpr ⟨hr1, hr2⟩, h5, h6, h7⟩
    have : (fun u v => (u, some v) ∈ g.2) = IsObs o ev' c' g.1 := by
      funext u v; exact propext (hiff u v)
    rw [this] at hs
    exact hs

/-- **C94.** Loading succeeds if every event accessed is known, has selected rows, and has the column and its pivot column; so a failure means
that one of these is missing. -/
theorem C94_loads (o : GOpts) (env : GEnv) (accs : List (Str × Str)) (hfill : o.fill = true) (henv : ∀ e ev, gClass env e = .ok ev → EvOk ev)
    (hall : ∀ a ∈ accs, ∃ ev, gClass env a.1 = .ok ev ∧ (∃ r ∈ ev.rows, Selected o ev.columns r) ∧ a.2 ∈ ev.columns ∧
      ∀ p, ev.pivot = some p → p ∈ ev.columns) : ∃ st, gLoadAll o env accs AggDf.empty = .ok st := by
  have key : ∀ (accs done : List (Str × Str)) (L : List (Str × GEvent)) (st : AggDf), LoadInv o env done L st →
      (∀ c ∈ done.map Prod.snd, c ∈ L.map Prod.fst) → (∀ a ∈ accs, ∃ ev, gClass env a.1 = .ok ev ∧ (∃ r ∈ ev.rows, Selected o ev.columns r) ∧
        a.2 ∈ ev.columns ∧ ∀ p, ev.pivot = some p → p ∈ ev.columns) → ∃ st', gLoadAll o env accs st = .ok st' := by
    intro accs
    induction accs with
    | nil => intro done L st _ _ _; exact ⟨st, rfl⟩
    | cons a accs ih =>
      intro done L st hinv hd hacc
      obtain ⟨e, c⟩ := a
      have hstep : ∃ st1, gPreProcess o env st e c = .ok st1 := by
        unfold gPreProcess
        by_cases hc : c ∈ st.cols.map (fun c => c.1.1)
        · exact ⟨st, by rw [if_pos hc]⟩
        · rw [if_neg hc]
          obtain ⟨ev, h1, ⟨r, hr, hs⟩, h3, h4⟩ := hacc (e, c) (by simp)
          simp only at h1 h3
          rw [h1]
          have hne : getDataFrame o ev ≠ [] := by
            intro h0
            have : r ∈ getDataFrame o ev := by rw [C65_selection, List.mem_filter]; exact ⟨hr, by simpa using hs⟩
            rw [h0] at this
            simp at this
          obtain ⟨idx, cols, st1, h5, h6, _⟩ := load_ok o L st hinv.1 (fun p hp => (hinv.2.1 p hp).1) ev c hfill (henv e ev h1) hne h3 h4
          exact ⟨st1, by simp only [h5, h6]⟩
      obtain ⟨st1, h1⟩ := hstep
      obtain ⟨L1, h2, h3⟩ := load_step o env hfill henv done L st hinv hd e c st1 h1
      obtain ⟨st', h4⟩ := ih _ L1 st1 h2 h3 (fun a ha => hacc a (by simp [ha]))
      exact ⟨st', by unfold gLoadAll; rw [h1]; exact h4⟩
  exact key accs [] [] AggDf.empty ⟨⟨List.Pairwise.nil, by simp [AggDf.empty], rfl⟩, by simp, by simp, by simp⟩ (by simp) hall

/-- **C94 (events).** An event is looked up among the variables given to the parser, then among the classes of the trace, then among its attributes; if none has it, that is an error. -/
theorem C94_class (env : GEnv) (e : Str) :
    (∀ ev, gClass env e = .ok ev ↔ env.pvars.get e = some ev ∨ (env.pvars.get e = none ∧ env.classes.get e = some ev) ∨
      (env.pvars.get e = none ∧ env.classes.get e = none ∧ env.attrs.get e = some ev)) ∧
    (gClass env e = .error .noClass ↔ env.pvars.get e = none ∧ env.classes.get e = none ∧ env.attrs.get e = none) := by
  unfold gClass
  cases h1 : env.pvars.get e with
  | some c => simp
  | none =>
    cases h2 : env.classes.get e with
    | some c => simp
    | none =>
      cases h3 : env.attrs.get e with
      | some c => simp
      | none => simp

/-- **C94 (unknown events).** If the first access to a column is of an event that nothing defines, the expression is an error, whatever else it contains. -/
theorem C94_unknown (o : GOpts) (env : GEnv) (e c : Str) (accs : List (Str × Str)) (h1 : env.pvars.get e = none) (h2 : env.classes.get e = none) (h3 : env.attrs.get e = none) :
    gLoadAll o env ((e, c) :: accs) AggDf.empty = .error .noClass := by
  have h := ((C94_class env e).2).2 ⟨h1, h2, h3⟩
  simp [gLoadAll, gPreProcess, AggDf.empty, h]

/-- `C94_unknown` -/
example : gLoadAll ⟨0, none, [], true⟩ ⟨[], [(cs!"thermal", ⟨[], none, []⟩)], []⟩ [(cs!"power", cs!"temp")] AggDf.empty = .error .noClass := rfl

/-! ## C64 -/

/-- **C64, partial**: if accesses with the same column are of the same event, then `event:column` denotes the data of that event: a sub-column for exactly
its pivot values, with the last observations of that event. -/
theorem C64_events_partial (o : GOpts) (env : GEnv) (accs : List (Str × Str)) (st : AggDf) (hfill : o.fill = true)
    (henv : ∀ e ev, gClass env e = .ok ev → EvOk ev) (h : gLoadAll o env accs AggDf.empty = .ok st)
    (hcol : ∀ a ∈ accs, ∀ b ∈ accs, a.2 = b.2 → a.1 = b.1) (e c : Str) (hac : (e, c) ∈ accs) (ev : GEvent) (hev : gClass env e = .ok ev) :
    (∀ pv, pv ∈ (gAccess st e c).map Prod.fst ↔ ∃ r ∈ ev.rows, Selected o ev.columns r ∧ InGroup ev pv r) ∧
    ∀ pv cells, (pv, cells) ∈ gAccess st e c → cells.length = st.index.length ∧
      ∀ j t : Nat, st.index[j]? = some t → ∃ r, cells[j]? = some r ∧ LastValue (IsObs o ev c pv) t r := by
  obtain ⟨_, _, _, h4, h5⟩ := C94_super_index o env accs st hfill henv h
  have hl : LoadedFrom env accs c ev := by
    obtain ⟨e', he'⟩ := (find_col accs c).mp (List.mem_map.mpr ⟨(e, c), hac, rfl⟩)
    have := hcol (e, c) hac (e', c) (List.mem_of_find?_eq_some he') rfl
    simp only at this
    subst this
    exact ⟨e, he', hev⟩
  have huniq : ∀ ev', LoadedFrom env accs c ev' → ev' = ev := by
    rintro ev' ⟨e2, h6, h7⟩
    obtain ⟨e1, h8, h9⟩ := hl
    rw [h8] at h6
    simp only [Option.some.injEq, Prod.mk.injEq, and_true] at h6
    subst h6
    rw [h7] at h9
    exact Except.ok.inj h9
  refine ⟨?_, ?_⟩
  · intro pv
    have h6 := h4 c pv
    constructor
    · intro hm
      obtain ⟨⟨pv', cells⟩, hx, rfl⟩ := List.mem_map.mp hm
      unfold gAccess at hx
      obtain ⟨⟨⟨c', pv''⟩, cells'⟩, hy, e1⟩ := List.mem_map.mp hx
      rw [List.mem_filter] at hy
      obtain ⟨hy1, hy2⟩ := hy
      simp only [Prod.mk.injEq, decide_eq_true_eq] at e1 hy2
      obtain ⟨rfl, rfl⟩ := e1
      subst hy2
      obtain ⟨ev', r, hl', hr1, hr2, hr3⟩ := h6.mp (List.mem_map.mpr ⟨_, hy1, rfl⟩)
      have := huniq ev' hl'
      subst this
      exact ⟨r, hr1, hr2, hr3⟩
    · rintro ⟨r, hr1, hr2, hr3⟩
      obtain ⟨⟨⟨c', pv'⟩, cells⟩, hx, e1⟩ := List.mem_map.mp (h6.mpr ⟨ev, r, hl, hr1, hr2, hr3⟩)
      simp only [Prod.mk.injEq] at e1
      obtain ⟨rfl, rfl⟩ := e1
      refine List.mem_map.mpr ⟨(pv', cells), ?_, rfl⟩
      unfold gAccess
      exact List.mem_map.mpr ⟨_, List.mem_filter.mpr ⟨hx, by simp⟩, rfl⟩
  · intro pv cells hm
    unfold gAccess at hm
    obtain ⟨⟨⟨c', pv'⟩, cells'⟩, hx, e1⟩ := List.mem_map.mp hm
    rw [List.mem_filter] at hx
    obtain ⟨hx1, hx2⟩ := hx
    simp only [Prod.mk.injEq, decide_eq_true_eq] at e1 hx2
    obtain ⟨rfl, rfl⟩ := e1
    subst hx2
    exact h5 c' pv' cells' ev hx1 hl

/-- two events with a column of the same name -/
def twoEvents : GEnv :=
  ⟨[], [(cs!"a", ⟨[cs!"x", cs!"cpu"], none, [⟨1, [(cs!"x", 10)]⟩, ⟨3, [(cs!"x", 20)]⟩]⟩),
        (cs!"b", ⟨[cs!"x", cs!"y", cs!"cpu"], some cs!"cpu",
          [⟨2, [(cs!"x", 70), (cs!"y", 5), (cs!"cpu", 0)]⟩, ⟨4, [(cs!"x", 80), (cs!"y", 6), (cs!"cpu", 1)]⟩, ⟨5, [(cs!"cpu", 0)]⟩]⟩)], []⟩

/-- **C64, refuted**: in `a:x - b:x` the second operand is the column of `a`: the table is keyed by the name of the column. The same happens over
two calls of `solve`. -/
theorem C64_events_refuted : ∃ st, gLoadAll ⟨0, none, [], true⟩ twoEvents [(cs!"a", cs!"x"), (cs!"b", cs!"x")] AggDf.empty = .ok st ∧
    gAccess st cs!"b" cs!"x" = [(none, [some 10, some 20])] := by
  refine ⟨⟨[1, 3], [((cs!"x", none), [some 10, some 20])]⟩, ?_, ?_⟩ <;> decide +kernel

/-- the hypotheses of `C94_super_index` and `C64_events_partial` are met: two events, one with a pivot and a row without the column -/
example : gLoadAll ⟨0, none, [], true⟩ twoEvents [(cs!"a", cs!"x"), (cs!"b", cs!"y")] AggDf.empty =
    .ok ⟨[1, 2, 3, 4, 5], [((cs!"x", none), [some 10, some 10, some 20, some 20, some 20]),
      ((cs!"y", some 0), [none, some 5, some 5, some 5, some 5]), ((cs!"y", some 1), [none, none, none, some 6, some 6])]⟩ := by decide +kernel

example : ∀ e ev, gClass twoEvents e = .ok ev → EvOk ev := by
  intro e ev h
  have hev : ev ∈ twoEvents.classes.map Prod.snd := by
    unfold gClass twoEvents at h
    simp only [Dict.get] at h
    unfold twoEvents
    split at h
    · rename_i c hc
      simp only [Except.ok.injEq] at h
      subst h
      split at hc
      · simp_all
      · split at hc
        · simp_all
        · simp at hc
    · simp at h
  unfold twoEvents at hev
  simp only [List.map_cons, List.map_nil, List.mem_cons, List.not_mem_nil, or_false] at hev
  rcases hev with rfl | rfl
  · exact ⟨by decide, by simp⟩
  · refine ⟨by decide, ?_⟩
    intro p hp r hr
    simp only [Option.some.injEq] at hp
    subst hp
    revert r
    decide

end Trappy
