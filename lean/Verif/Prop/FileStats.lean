import Verif.Model.FileStats
import Verif.Prop.Aggregate
import Verif.Prop.Trigger
import Verif.Prop.Topology
import Verif.Prop.FileCalls
/-!
# C161: from the file of a trace to aggregated triggers
-/

namespace Trappy
open F64 Py

/-! ## Specification -/

/-- a line of the file that is an event of a class: the name of the class, the number of the line, the time the user sees, the cells -/
abbrev EventLine := Str × Nat × Nat × Dict Val

/-- **Specification**: a filter allows the line; a filter with values asks nothing if no line of the event has the field -/
def LineAllowed (lines : List EventLine) (event : Str) (cells : Dict Val) (k : Str) : SFilter → Prop
  | .func f => f ((cells.get k).map statCell) = true
  | .single v => (∃ d ∈ lines, d.1 = event ∧ k ∈ d.2.2.2.map Prod.fst) → (cells.get k).map statCell = some v
  | .many vs => (∃ d ∈ lines, d.1 = event ∧ k ∈ d.2.2.2.map Prod.fst) → ∃ v ∈ vs, (cells.get k).map statCell = some v

/-- **Specification**: the line is one for the trigger and the node -/
def LineHit (lines : List EventLine) (n : Nat) (c : EventLine) (t : UserTrigger) : Prop :=
  c.1 = t.event ∧ c.2.2.2.get t.pivot = some (.int (n : Int)) ∧ ∀ kf ∈ t.filters, LineAllowed lines t.event c.2.2.2 kf.1 kf.2

open Classical in
/-- **Specification**: the value of a line for a node: the one of the last trigger it is for, else zero -/
noncomputable def lineValue (lines : List EventLine) (n : Nat) (c : EventLine) (trigs : List UserTrigger) : Rat := trigs.foldl (fun v t => if LineHit lines n c t then t.value else v) 0

/-- **Specification**: the series of a node: the times and values of all lines -/
noncomputable def nodeSeries (lines : List EventLine) (trigs : List UserTrigger) (n : Nat) : TSeries := lines.map fun c => (c.2.2.1, some (lineValue lines n c trigs))

/-- **Specification**: the trigger can be applied: a line of the event has the field of the pivot, and for each callable one has its field; lists have one value -/
structure TriggerFits (lines : List EventLine) (t : UserTrigger) : Prop where
  pivot : ∃ c ∈ lines, c.1 = t.event ∧ t.pivot ∈ c.2.2.2.map Prod.fst
  func : ∀ k f, (k, SFilter.func f) ∈ t.filters → ∃ c ∈ lines, c.1 = t.event ∧ k ∈ c.2.2.2.map Prod.fst
  one : ∀ k vs, (k, SFilter.many vs) ∈ t.filters → ∃ v, vs = [v]

/-! ## Lemmas -/

theorem lineValue_none {lines : List EventLine} {n : Nat} {c : EventLine} : ∀ {trigs : List UserTrigger}, (∀ t ∈ trigs, ¬ LineHit lines n c t) → lineValue lines n c trigs = 0 := by
  intro trigs
  unfold lineValue
  generalize (0 : Rat) = v
  induction trigs generalizing v with
  | nil => intro _; rfl
  | cons t ts ih =>
    intro h
    rw [List.foldl_cons, if_neg (h t (by simp))]
    exact ih v fun x hx => h x (by simp [hx])

theorem lineValue_last {lines : List EventLine} {n : Nat} {c : EventLine} {pre post : List UserTrigger} {t : UserTrigger} (ht : LineHit lines n c t) (hp : ∀ x ∈ post, ¬ LineHit lines n c x) :
    lineValue lines n c (pre ++ t :: post) = t.value := by
  unfold lineValue
  rw [List.foldl_append, List.foldl_cons, if_pos ht]
  generalize t.value = v
  clear ht
  induction post generalizing v with
  | nil => rfl
  | cons x xs ih =>
    rw [List.foldl_cons, if_neg (hp x (by simp))]
    exact ih (fun y hy => hp y (by simp [hy])) v

theorem statTable_get (d : Dict Val) (k : Str) : Dict.get (d.map fun c => (c.1, statCell c.2)) k = (d.get k).map statCell := by
  induction d with
  | nil => rfl
  | cons x d ih =>
    obtain ⟨a, b⟩ := x
    simp only [List.map_cons, Dict.get]
    split
    · rfl
    · exact ih

/-- the rows of an event -/
def linesOf (lines : List EventLine) (event : Str) : Table (Dict Val) := (lines.filter fun c => c.1 = event).map fun c => c.2.2

theorem linesOf_cols (lines : List EventLine) (event k : Str) : k ∈ (statTable (linesOf lines event)).cols ↔ ∃ c ∈ lines, c.1 = event ∧ k ∈ c.2.2.2.map Prod.fst := by
  simp only [statTable, linesOf, List.mem_flatMap, List.mem_map, List.mem_filter, decide_eq_true_eq]
  constructor
  · rintro ⟨r, ⟨c, ⟨h1, h2⟩, rfl⟩, h3⟩
    exact ⟨c, h1, h2, h3⟩
  · rintro ⟨c, h1, h2, h3⟩
    exact ⟨_, ⟨c, ⟨h1, h2⟩, rfl⟩, h3⟩

open Classical in
/-- what a trigger gives for a node -/
theorem userGen_lines {tables : Dict (Table (Dict Val))} {lines : List EventLine} {t : UserTrigger} (ht : tables.get t.event = some (linesOf lines t.event)) (hf : TriggerFits lines t) (n : Nat) :
    userGen tables t n = .ok ((lines.filter fun c => decide (LineHit lines n c t)).map fun c => (c.2.2.1, some t.value)) := by
  have hrows := C60_filters_partial ⟨statTable (linesOf lines t.event), t.filters, .const t.value, t.pivot⟩ (.num n) ((linesOf_cols lines t.event t.pivot).2 hf.pivot)
    (fun k f h => (linesOf_cols lines t.event k).2 (hf.func k f h)) hf.one
    (fun r => decide (r.2.get t.pivot = some (.num n) ∧ ∀ kf ∈ t.filters, FilterWanted (statTable (linesOf lines t.event)).cols r.2 kf.1 kf.2)) (by intro r _; simp)
  unfold userGen
  rw [ht]
  simp only [STrigger.generate]
  rw [hrows]
  have hfil : (lines.filter fun c => decide (c.1 = t.event) && ((fun r : Nat × Dict SCell => decide (r.2.get t.pivot = some (.num n) ∧ ∀ kf ∈ t.filters, FilterWanted (statTable (linesOf lines t.event)).cols r.2 kf.1 kf.2)) ∘
      (fun r : Nat × Dict Val => (r.1, r.2.map fun c => (c.1, statCell c.2))) ∘ fun c : EventLine => c.2.2) c) = lines.filter fun c => decide (LineHit lines n c t) := by
    refine List.filter_congr fun c _ => ?_
    rw [Bool.eq_iff_iff, Bool.and_eq_true, decide_eq_true_eq, decide_eq_true_eq]
    simp only [Function.comp_apply, decide_eq_true_eq, LineHit]
    refine and_congr_right fun _ => and_congr ?_ ?_
    · rw [statTable_get]
      cases c.2.2.2.get t.pivot with
      | none => simp
      | some v =>
        cases v with
        | int i => simp only [Option.map_some, statCell, Option.some.injEq, SCell.num.injEq, Val.int.injEq]; norm_cast
        | str s => simp [statCell]
    · refine forall_congr' fun kf => imp_congr_right fun _ => ?_
      obtain ⟨k, f⟩ := kf
      cases f <;> simp only [FilterWanted, LineAllowed, statTable_get, linesOf_cols]
  have hrw : (statTable (linesOf lines t.event)).rows = (lines.filter fun c => c.1 = t.event).map ((fun r : Nat × Dict Val => (r.1, r.2.map fun c => (c.1, statCell c.2))) ∘ fun c : EventLine => c.2.2) := by
    simp only [statTable, linesOf, List.map_map]
  simp only [Except.map, hrw, List.filter_map, List.filter_filter, List.map_map, Except.ok.injEq]
  rw [← hfil]
  simp only [Bool.and_comm]
  rfl

/-- the error of a trigger that no line of its event fits, for every node -/
theorem userGen_missing {tables : Dict (Table (Dict Val))} {lines : List EventLine} {t : UserTrigger} (ht : tables.get t.event = some (linesOf lines t.event))
    (hno : ¬ ∃ c ∈ lines, c.1 = t.event ∧ t.pivot ∈ c.2.2.2.map Prod.fst) (n : Nat) : userGen tables t n = .error .keyError := by
  have hrows := (C60_mask ⟨statTable (linesOf lines t.event), t.filters, .const t.value, t.pivot⟩ (.num n)).2 (fun h => hno ((linesOf_cols lines t.event t.pivot).1 h.1))
  unfold userGen
  rw [ht]
  simp only [STrigger.generate]
  rw [hrows]
  rfl

/-- a trigger with a number either gives a series for all nodes, or KeyError for all nodes -/
theorem userGen_either (tables : Dict (Table (Dict Val))) (t : UserTrigger) : (∀ n, ∃ s, userGen tables t n = .ok s) ∨ ∀ n, userGen tables t n = .error .keyError := by
  unfold userGen
  cases tables.get t.event with
  | none => exact .inr fun _ => rfl
  | some tab =>
    by_cases h : t.pivot ∈ (statTable tab).cols ∧ ∀ k f, (k, SFilter.func f) ∈ t.filters → k ∈ (statTable tab).cols
    · left
      intro n
      obtain ⟨rs, hr, _⟩ := (C60_mask ⟨statTable tab, t.filters, .const t.value, t.pivot⟩ (.num n)).1 h
      simp only
      rw [C91_const_partial _ _ t.value rfl rs hr]
      exact ⟨_, rfl⟩
    · right
      intro n
      have hr := (C60_mask ⟨statTable tab, t.filters, .const t.value, t.pivot⟩ (.num n)).2 h
      simp only [STrigger.generate]
      rw [hr]
      rfl

theorem baseNodes_error {index : List Nat} {g : TrigGen} {e : SError} (h : ∀ n, g n = .error e) {nodes : List Nat} (hne : nodes ≠ []) (store : List (Nat × TSeries)) : baseNodes index g nodes store = .error e := by
  cases nodes with
  | nil => exact absurd rfl hne
  | cons n ns => simp [baseNodes, h n]

theorem baseNodes_total {index : List Nat} {g : TrigGen} (h : ∀ n, ∃ s, g n = .ok s) : ∀ (nodes : List Nat) (store : List (Nat × TSeries)), ∃ st, baseNodes index g nodes store = .ok st
  | [], store => ⟨store, rfl⟩
  | n :: ns, store => by
    obtain ⟨s, hs⟩ := h n
    simp only [baseNodes, hs]
    exact baseNodes_total h ns _

theorem aggregateBase_error {index nodes : List Nat} {e : SError} (hne : nodes ≠ []) : ∀ {gs : List TrigGen} (store : List (Nat × TSeries)),
    (∀ g ∈ gs, (∀ n, ∃ s, g n = .ok s) ∨ ∀ n, g n = .error e) → (∃ g ∈ gs, ∀ n, g n = .error e) → aggregateBase index nodes gs store = .error e
  | [], _, _, h => by simp at h
  | g :: gs, store, hall, hex => by
    rw [aggregateBase]
    rcases hall g (by simp) with h | h
    · obtain ⟨st, hst⟩ := baseNodes_total (index := index) h nodes store
      rw [hst]
      refine aggregateBase_error hne st (fun x hx => hall x (by simp [hx])) ?_
      obtain ⟨x, hx, hxe⟩ := hex
      rcases List.mem_cons.1 hx with rfl | hx
      · obtain ⟨s, hs⟩ := h 0
        rw [hxe 0] at hs
        cases hs
      · exact ⟨x, hx, hxe⟩
    · rw [baseNodes_error h hne]

theorem lookup_entry {β : Type} {l : List (Nat × β)} (hnd : (l.map Prod.fst).Nodup) {k : Nat} {v : β} (h : (k, v) ∈ l) : l.lookup k = some v := by
  induction l with
  | nil => cases h
  | cons x l ih =>
    obtain ⟨a, b⟩ := x
    rw [List.map_cons, List.nodup_cons] at hnd
    rw [List.lookup_cons]
    rcases List.mem_cons.1 h with e | h
    · cases e
      simp
    · have : k ≠ a := fun e => hnd.1 (e ▸ List.mem_map.2 ⟨_, h, rfl⟩)
      rw [beq_false_of_ne this]
      exact ih hnd.2 h

theorem series_ext {β : Type} {a b : List (Nat × β)} (hk : a.map Prod.fst = b.map Prod.fst) (hnd : (b.map Prod.fst).Nodup) (h : ∀ x ∈ b, a.lookup x.1 = some x.2) : a = b := by
  induction b generalizing a with
  | nil => simpa using hk
  | cons y b ih =>
    cases a with
    | nil => simp at hk
    | cons x a =>
      obtain ⟨k, v⟩ := x
      obtain ⟨k', v'⟩ := y
      simp only [List.map_cons, List.cons.injEq] at hk
      obtain ⟨rfl, hk⟩ := hk
      rw [List.map_cons, List.nodup_cons] at hnd
      have h0 := h (k, v') (by simp)
      rw [List.lookup_cons] at h0
      simp only [beq_self_eq_true, Option.some.injEq] at h0
      subst h0
      congr 1
      refine ih hk hnd.2 fun z hz => ?_
      have hz' := h z (by simp [hz])
      rw [List.lookup_cons, beq_false_of_ne (fun e => hnd.1 (List.mem_map.2 ⟨z, hz, e⟩))] at hz'
      exact hz'

theorem eventIndices_lines {tables : Dict (Table (Dict Val))} {lines : List EventLine} : ∀ {trigs : List UserTrigger}, (∀ t ∈ trigs, tables.get t.event = some (linesOf lines t.event)) →
    eventIndices tables trigs = some (trigs.map fun t => (linesOf lines t.event).map Prod.fst)
  | [], _ => rfl
  | t :: ts, h => by
    rw [eventIndices, h t (by simp), eventIndices_lines fun x hx => h x (by simp [hx])]
    rfl

theorem eventIndices_none {tables : Dict (Table (Dict Val))} : ∀ {trigs : List UserTrigger}, (∃ t ∈ trigs, tables.get t.event = none) → eventIndices tables trigs = none
  | [], h => by simp at h
  | t :: ts, h => by
    rw [eventIndices]
    obtain ⟨x, hx, hn⟩ := h
    rcases List.mem_cons.1 hx with rfl | hx
    · rw [hn]
    · rw [eventIndices_none ⟨x, hx, hn⟩]
      cases tables.get t.event <;> rfl

/-- the index: the times of the lines -/
theorem unify_lines {lines : List EventLine} {trigs : List UserTrigger} (hnames : ∀ c ∈ lines, c.1 ∈ trigs.map UserTrigger.event) (hs : (lines.map fun c => c.2.2.1).Pairwise (· < ·)) :
    unifyIndex (trigs.map fun t => (linesOf lines t.event).map Prod.fst) = lines.map fun c => c.2.2.1 := by
  obtain ⟨h1, h2⟩ := C59_unified (trigs.map fun t => (linesOf lines t.event).map Prod.fst)
  refine List.Perm.eq_of_pairwise (le := fun a b => a < b) (fun a b _ _ h h' => by omega) h1 hs ?_
  rw [List.perm_ext_iff_of_nodup (h1.imp fun h => Nat.ne_of_lt h) (hs.imp fun h => Nat.ne_of_lt h)]
  intro t
  rw [h2]
  simp only [linesOf, List.mem_map]
  constructor
  · rintro ⟨i, ⟨x, _, rfl⟩, hi⟩
    simp only [List.mem_map, List.mem_filter, decide_eq_true_eq] at hi
    obtain ⟨r, ⟨c, ⟨hc, _⟩, rfl⟩, rfl⟩ := hi
    exact ⟨c, hc, rfl⟩
  · rintro ⟨c, hc, rfl⟩
    obtain ⟨x, hx, he⟩ := List.mem_map.1 (hnames c hc)
    refine ⟨_, ⟨x, hx, rfl⟩, ?_⟩
    simp only [List.mem_map, List.mem_filter, decide_eq_true_eq]
    exact ⟨_, ⟨c, ⟨hc, he.symm⟩, rfl⟩, rfl⟩

/-- the last element with a property -/
theorem last_split {α : Type} (P : α → Prop) : ∀ (l : List α), (∀ x ∈ l, ¬ P x) ∨ ∃ pre x post, l = pre ++ x :: post ∧ P x ∧ ∀ y ∈ post, ¬ P y
  | [] => .inl (by simp)
  | a :: l => by
    rcases last_split P l with h | ⟨pre, x, post, rfl, h1, h2⟩
    · by_cases ha : P a
      · exact .inr ⟨[], a, l, rfl, ha, h⟩
      · left
        intro x hx
        rcases List.mem_cons.1 hx with rfl | hx
        · exact ha
        · exact h x hx
    · exact .inr ⟨a :: pre, x, post, rfl, h1, h2⟩

open Classical in
theorem isBase_lines {tables : Dict (Table (Dict Val))} {lines : List EventLine} {trigs : List UserTrigger} (ht : ∀ t ∈ trigs, tables.get t.event = some (linesOf lines t.event))
    (hf : ∀ t ∈ trigs, TriggerFits lines t) (hs : (lines.map fun c => c.2.2.1).Pairwise (· < ·)) {n : Nat} {r : TSeries}
    (hr : IsBase (lines.map fun c => c.2.2.1) (trigs.map (userGen tables)) n r) : r = nodeSeries lines trigs n := by
  obtain ⟨r1, r2, r3⟩ := hr
  have hnd : (lines.map fun c => c.2.2.1).Nodup := hs.imp fun h => Nat.ne_of_lt h
  have hinj : ∀ c ∈ lines, ∀ d ∈ lines, c.2.2.1 = d.2.2.1 → c = d := fun c hc d hd h => List.inj_on_of_nodup_map hnd hc hd h
  have hmiss : ∀ t, ∀ c ∈ lines, ¬ LineHit lines n c t →
      ((lines.filter fun c => decide (LineHit lines n c t)).map fun c => (c.2.2.1, some t.value)).lookup c.2.2.1 = none := by
    intro t c hc hno
    rw [List.lookup_eq_none_iff]
    rintro p hp
    obtain ⟨d, hd, rfl⟩ := List.mem_map.1 hp
    rw [List.mem_filter, decide_eq_true_eq] at hd
    simp only [ne_eq, bne_iff_ne]
    intro e
    exact hno (hinj c hc d hd.1 e ▸ hd.2)
  have hkeys : (nodeSeries lines trigs n).map Prod.fst = lines.map fun c => c.2.2.1 := by simp [nodeSeries, Function.comp_def]
  refine series_ext (r1.trans hkeys.symm) (hkeys ▸ hnd) ?_
  intro x hx
  obtain ⟨c, hc, rfl⟩ := List.mem_map.1 hx
  have hin : c.2.2.1 ∈ lines.map fun c => c.2.2.1 := List.mem_map.2 ⟨c, hc, rfl⟩
  rcases last_split (LineHit lines n c) trigs with h | ⟨pre, t, post, rfl, h1, h2⟩
  · rw [lineValue_none h]
    refine r2 _ hin fun g hg s hgs => ?_
    obtain ⟨t, htm, rfl⟩ := List.mem_map.1 hg
    rw [userGen_lines (ht t htm) (hf t htm)] at hgs
    cases hgs
    exact hmiss t c hc (h t htm)
  · rw [lineValue_last h1 h2]
    have htm : t ∈ pre ++ t :: post := by simp
    refine r3 _ hin pre.length (userGen tables t) _ _ (by simp) (userGen_lines (ht t htm) (hf t htm) n) ?_ ?_
    · refine lookup_entry ?_ (List.mem_map.2 ⟨c, List.mem_filter.2 ⟨hc, by simpa using h1⟩, rfl⟩)
      rw [List.map_map]
      exact List.Nodup.sublist (List.Sublist.map _ List.filter_sublist) hnd
    · intro j g s hj hg hgs
      rw [List.map_append, List.map_cons, List.getElem?_append_right (by simp; omega)] at hg
      obtain ⟨m, hm⟩ : ∃ m, j - (pre.map (userGen tables)).length = m + 1 := ⟨j - pre.length - 1, by simp; omega⟩
      rw [hm, List.getElem?_cons_succ, List.getElem?_map] at hg
      obtain ⟨y, hy, rfl⟩ := Option.map_eq_some_iff.1 hg
      have hyp := List.mem_of_getElem? hy
      have hym : y ∈ pre ++ t :: post := by simp [hyp]
      rw [userGen_lines (ht y hym) (hf y hym)] at hgs
      cases hgs
      exact hmiss y c hc (h2 y hyp)

/-- the call on the tables -/
theorem callWith_lines {γ : Type} {tables : Dict (Table (Dict Val))} {lines : List EventLine} {trigs : List UserTrigger} (hne : trigs ≠ []) (ht : ∀ t ∈ trigs, tables.get t.event = some (linesOf lines t.event))
    (hf : ∀ t ∈ trigs, TriggerFits lines t) (hs : (lines.map fun c => c.2.2.1).Pairwise (· < ·)) {nodes : List Nat} (hnd : nodes.Nodup) {groups : List (List Nat)}
    (hg : ∀ g ∈ groups, g ≠ [] ∧ ∀ n ∈ g, n ∈ nodes) (f : TSeries → γ) (add : γ → γ → γ) :
    ∃ vs, (AggObj.new.callWith (lines.map fun c => c.2.2.1) nodes (trigs.map (userGen tables)) f add groups).2 = .ok vs ∧ List.Forall₂ (GroupSum f add (nodeSeries lines trigs)) groups vs := by
  classical
  have hok : ∀ g ∈ trigs.map (userGen tables), TrigOk (lines.map fun c => c.2.2.1) nodes g := by
    intro g hg n _
    obtain ⟨t, htm, rfl⟩ := List.mem_map.1 hg
    have hsub : (((lines.filter fun c => decide (LineHit lines n c t)).map fun c => (c.2.2.1, some t.value)).map Prod.fst).Sublist (lines.map fun c => c.2.2.1) := by
      rw [List.map_map]
      exact List.Sublist.map _ List.filter_sublist
    exact ⟨_, userGen_lines (ht t htm) (hf t htm) n, hsub.nodup (hs.imp fun h => Nat.ne_of_lt h), fun x hx => hsub.subset hx⟩
  obtain ⟨store, s1, s2⟩ := C61_base _ nodes hnd _ (by simpa using hne) hok
  obtain ⟨vs, v1, v2⟩ := aggregateWith_ok f add store (nodeSeries lines trigs) groups (fun g h => (hg g h).1) (by
    intro g hgm n hn
    obtain ⟨r, hr, hb⟩ := s2 n ((hg g hgm).2 n hn)
    rw [hr, isBase_lines ht hf hs hb])
  refine ⟨vs, ?_, v2⟩
  simp only [AggObj.callWith, AggObj.prepare, AggObj.new]
  rw [s1]
  exact v1

namespace TraceItem
variable {ps : List ParserClass} {fns : List Str} {cells : ParserClass → TraceEvent → List (Str × Val)} {ask : Nat → Prop} {shift : Nat → Nat}

theorem calls_times : ∀ (k : Nat) (is : List TraceItem) (ts : List Nat), ((calls ps fns cells ask shift k is ts).map fun c => c.2.2.1).Sublist (ts.map shift)
  | _, [], ts => by cases ts <;> exact List.nil_sublist _
  | k, .other l :: is, ts => calls_times (k + 1) is ts
  | k, .event e :: is, [] => List.nil_sublist _
  | k, .event e :: is, t :: ts => by
    have ih := calls_times (k + 1) is ts
    unfold calls
    split
    · split
      · exact ih.cons_cons _
      · exact ih.cons _
    · exact ih.cons _

end TraceItem

theorem rows_of_lines {t : Table (Dict Val)} {rs : List (Nat × Nat × Dict Val)} {n : Str} (h : List.Forall₂ (fun r x => r.2.get cs!"__line" = some (.int ((x.1 : Nat) : Int)) ∧ x.2 = r) t rs) :
    t = rs.map ((fun c : EventLine => c.2.2) ∘ Prod.mk n) := by
  induction h with
  | nil => rfl
  | @cons r x _ _ hr _ ih => rw [List.map_cons, ← ih, Function.comp_apply, hr.2]

theorem callWith_error {γ : Type} {index nodes : List Nat} {gs : List TrigGen} {e : SError} (h : aggregateBase index nodes gs [] = .error e) (f : TSeries → γ) (add : γ → γ → γ) (groups : List (List Nat)) :
    (AggObj.new.callWith index nodes gs f add groups).2 = .error e := by
  simp only [AggObj.callWith, AggObj.prepare, AggObj.new]
  rw [h]
  rfl

theorem fileRows_lines {ps : List ParserClass} (hps : ∀ p ∈ ps, p ∈ builtins) {fns : List Str} (cells : ParserClass → TraceEvent → List (Str × Val)) (items : List TraceItem) (hlen : items.length < 2 ^ 32)
    (u : UserParams) (out : List Nat) (shift : Nat → Nat) {p : ParserClass} (hp : p ∈ ps) (hn : p.name ∈ fns) :
    linesOf (TraceItem.calls ps fns cells (AskedTime u (firstTime out)) shift 0 items out) p.name = (fileRows (cells p) p items u out).map fun r => (shift r.1, r.2) := by
  classical
  have h := TraceItem.callRows_table (ask := AskedTime u (firstTime out)) (shift := shift) (cells p) p 0 items out (by simpa using hlen)
  unfold linesOf fileRows
  rw [asked_filter, TraceItem.calls_filter hps hp hn, List.map_map]
  exact (rows_of_lines h).symm

theorem level_groups {ord : List Nat → List Nat} (hord : ∀ l, (ord l).Perm l) {ops : List (Str × List (List Nat))} {level : Str} {groups : List (List Nat)}
    (h : (Topo.empty.run ops).getLevel ord level = some groups) : ∀ g ∈ groups, ∀ n ∈ g, n ∈ (Topo.empty.run ops).flatten ord := by
  obtain ⟨t1, t2, _, t4, _⟩ := C58_levels ord hord ops
  intro g hg n hn
  by_cases hl : level = cs!"all"
  · subst hl
    rw [t4] at h
    cases h
    rw [List.mem_singleton.1 hg] at hn
    exact hn
  · rw [t1 level hl] at h
    split at h
    · cases h
      rw [List.mem_flatMap] at hg
      obtain ⟨o, ho, hgo⟩ := hg
      exact (t2 n).2 ⟨o, (List.mem_filter.1 ho).1, g, hgo, hn⟩
    · cases h

/-! ## Properties -/

/-- **C161, partial.** The result of the aggregator with triggers on a trace that is read from a file: for each group of the level the sum of `aggfunc` of the series of its nodes, where the series of a node has one
entry for each line of the file that is an event of one of the triggers, at a time the user asks for, in the order of the file: the value of the last trigger the line is for, or zero. For all files of less than 2^32
lines, parsers, windows, topologies with nonempty groups, triggers with numbers as values, and aggregation functions. A line is for a trigger and a node if its field of the pivot is the node and all filters allow it. Not
claimed if no line of the event has the field of the pivot or of a callable filter, for lists with more than one value, or if normalised times of two lines are equal. -/
theorem C161_aggregate_partial {γ : Type} (fuel : Nat) (ps : List ParserClass) (hps : ∀ p ∈ ps, p ∈ builtins) (hnd : ps.Nodup)
    (header : List Str) (items : List TraceItem) (h : TraceFile ps header items) (hlen : items.length < 2 ^ 32)
    (cells : ParserClass → TraceEvent → List (Str × Val))
    (hc : ∀ p ∈ ps, ClassReads fuel p.name (TraceItem.eventsOf p.event items) (cells p))
    (hm : ∀ p ∈ ps, EvenMasks p.name (TraceItem.eventsOf p.event items) (cells p))
    (u : UserParams) (hw : u.window.hi = none → u.absWindow.hi ≠ some 0)
    (trigs : List UserTrigger) (hne : trigs ≠ []) (hin : ∀ t ∈ trigs, t.event ∈ ps.map ParserClass.name)
    (ord : List Nat → List Nat) (hord : ∀ l, (ord l).Perm l) (ops : List (Str × List (List Nat))) (level : Str) (groups : List (List Nat))
    (hl : (Topo.empty.run ops).getLevel ord level = some groups) (hg : ∀ g ∈ groups, g ≠ []) (f : TSeries → γ) (add : γ → γ → γ) :
    ∃ (out : List Nat) (shift : Nat → Nat), MinimalTimes 0 (TraceItem.times items) out ∧
      (∀ t ∈ out, if u.normalize then NearestEven (val t - val (firstTime out)) (shift t) else shift t = t) ∧
      ∀ lines, lines = TraceItem.calls ps (trigs.map UserTrigger.event) cells (AskedTime u (firstTime out)) shift 0 items out →
        (u.normalize = true → (out.map shift).Pairwise (· < ·)) → (∀ t ∈ trigs, TriggerFits lines t) →
        ∃ vs, fileAggregate fuel ps u (header ++ items.map TraceItem.text) trigs ord (Topo.empty.run ops) f add level = .ok vs ∧
          List.Forall₂ (GroupSum f add (nodeSeries lines trigs)) groups vs := by
  obtain ⟨out, shift, o1, o2, o3⟩ := C134_object fuel ps hps hnd header items h cells hc hm u hw
  refine ⟨out, shift, o1, o2, ?_⟩
  intro lines hlines htimes hfit
  have hord' : (out.map shift).Pairwise (· < ·) := by
    by_cases hn : u.normalize = true
    · exact htimes hn
    · have : out.map shift = out := by
        conv_rhs => rw [← List.map_id out]
        refine List.map_congr_left fun t ht => ?_
        have := o2 t ht
        rw [if_neg hn] at this
        exact this
      rw [this]
      exact o1.pairwise.1
  have hs : (lines.map fun c => c.2.2.1).Pairwise (· < ·) := by
    rw [hlines]
    exact hord'.sublist (TraceItem.calls_times 0 items out)
  have hnames : ∀ c ∈ lines, c.1 ∈ trigs.map UserTrigger.event := by
    rw [hlines]
    exact TraceItem.calls_names 0 items out
  have ht : ∀ t ∈ trigs, (namedTables ps (ps.map fun p => (fileRows (cells p) p items u out).map fun r => (shift r.1, r.2))).get t.event = some (linesOf lines t.event) := by
    intro t htm
    obtain ⟨p, hp, he⟩ := List.mem_map.1 (hin t htm)
    rw [← he, namedTables_get _ hps hp, hlines, fileRows_lines hps cells items hlen u out shift hp (he ▸ List.mem_map.2 ⟨t, htm, rfl⟩)]
  obtain ⟨vs, v1, v2⟩ := callWith_lines hne ht hfit hs (C58_levels ord hord ops).2.2.1 (fun g hgm => ⟨hg g hgm, level_groups hord hl g hgm⟩) f add
  refine ⟨vs, ?_, v2⟩
  unfold fileAggregate
  rw [o3]
  simp only
  have e := eventIndices_lines ht
  simp only [fileRows] at e v1
  rw [e, hl]
  simp only
  rw [unify_lines hnames hs, v1]

/-- the sum of the numbers of a series -/
def seriesSum (s : TSeries) : Rat := (s.filterMap Prod.snd).sum

theorem groupSum_total {base : Nat → TSeries} : ∀ {groups : List (List Nat)} {vs : List Rat}, List.Forall₂ (GroupSum seriesSum (· + ·) base) groups vs → vs = groups.map fun g => (g.map fun n => seriesSum (base n)).sum := by
  intro groups vs h
  induction h with
  | nil => rfl
  | @cons g v gs vs hv _ ih =>
    rw [List.map_cons, ← ih]
    congr 1
    cases g with
    | nil => exact hv.elim
    | cons n ns =>
      have key : ∀ (ns : List Nat) (a : Rat), ns.foldl (fun a m => a + seriesSum (base m)) a = a + (ns.map fun n => seriesSum (base n)).sum := by
        intro ns
        induction ns with
        | nil => intro a; simp
        | cons m ms ih => intro a; rw [List.foldl_cons, ih, List.map_cons, List.sum_cons, add_assoc]
      rw [show v = _ from hv, key, List.map_cons, List.sum_cons]

theorem nodeSeries_sum (lines : List EventLine) (trigs : List UserTrigger) (n : Nat) : seriesSum (nodeSeries lines trigs n) = (lines.map fun c => lineValue lines n c trigs).sum := by
  unfold seriesSum nodeSeries
  rw [List.filterMap_map]
  congr 1
  rw [← List.filterMap_eq_map]
  rfl

/-- **C161, partial.** With the sum as aggregation function the result is, for each group, the sum over its nodes and over all lines of the values of the lines. -/
theorem C161_sum_partial (fuel : Nat) (ps : List ParserClass) (hps : ∀ p ∈ ps, p ∈ builtins) (hnd : ps.Nodup)
    (header : List Str) (items : List TraceItem) (h : TraceFile ps header items) (hlen : items.length < 2 ^ 32)
    (cells : ParserClass → TraceEvent → List (Str × Val))
    (hc : ∀ p ∈ ps, ClassReads fuel p.name (TraceItem.eventsOf p.event items) (cells p))
    (hm : ∀ p ∈ ps, EvenMasks p.name (TraceItem.eventsOf p.event items) (cells p))
    (u : UserParams) (hw : u.window.hi = none → u.absWindow.hi ≠ some 0)
    (trigs : List UserTrigger) (hne : trigs ≠ []) (hin : ∀ t ∈ trigs, t.event ∈ ps.map ParserClass.name)
    (ord : List Nat → List Nat) (hord : ∀ l, (ord l).Perm l) (ops : List (Str × List (List Nat))) (level : Str) (groups : List (List Nat))
    (hl : (Topo.empty.run ops).getLevel ord level = some groups) (hg : ∀ g ∈ groups, g ≠ []) :
    ∃ (out : List Nat) (shift : Nat → Nat), MinimalTimes 0 (TraceItem.times items) out ∧
      (∀ t ∈ out, if u.normalize then NearestEven (val t - val (firstTime out)) (shift t) else shift t = t) ∧
      ∀ lines, lines = TraceItem.calls ps (trigs.map UserTrigger.event) cells (AskedTime u (firstTime out)) shift 0 items out →
        (u.normalize = true → (out.map shift).Pairwise (· < ·)) → (∀ t ∈ trigs, TriggerFits lines t) →
        fileAggregate fuel ps u (header ++ items.map TraceItem.text) trigs ord (Topo.empty.run ops) seriesSum (· + ·) level =
          .ok (groups.map fun g => (g.map fun n => (lines.map fun c => lineValue lines n c trigs).sum).sum) := by
  obtain ⟨out, shift, o1, o2, o3⟩ := C161_aggregate_partial fuel ps hps hnd header items h hlen cells hc hm u hw trigs hne hin ord hord ops level groups hl hg seriesSum (· + ·)
  refine ⟨out, shift, o1, o2, ?_⟩
  intro lines hlines ht hf
  obtain ⟨vs, v1, v2⟩ := o3 lines hlines ht hf
  rw [v1, groupSum_total v2]
  simp only [nodeSeries_sum]

/-- **C161.** A trigger on an event that is not parsed: AttributeError from the constructor, whatever the other triggers, the topology and the level are. For all files, parsers and windows. -/
theorem C161_missing {γ : Type} (fuel : Nat) (ps : List ParserClass) (hps : ∀ p ∈ ps, p ∈ builtins) (hnd : ps.Nodup)
    (header : List Str) (items : List TraceItem) (h : TraceFile ps header items)
    (cells : ParserClass → TraceEvent → List (Str × Val))
    (hc : ∀ p ∈ ps, ClassReads fuel p.name (TraceItem.eventsOf p.event items) (cells p))
    (hm : ∀ p ∈ ps, EvenMasks p.name (TraceItem.eventsOf p.event items) (cells p))
    (u : UserParams) (hw : u.window.hi = none → u.absWindow.hi ≠ some 0)
    (trigs : List UserTrigger) {t : UserTrigger} (htm : t ∈ trigs) (hno : t.event ∉ ps.map ParserClass.name)
    (ord : List Nat → List Nat) (topo : Topo) (level : Str) (f : TSeries → γ) (add : γ → γ → γ) :
    fileAggregate fuel ps u (header ++ items.map TraceItem.text) trigs ord topo f add level = .error .noEvent := by
  obtain ⟨out, shift, o1, o2, o3⟩ := C134_object fuel ps hps hnd header items h cells hc hm u hw
  unfold fileAggregate
  rw [o3]
  simp only
  rw [eventIndices_none ⟨t, htm, namedTables_none _ hno⟩]

/-- **C161, refuted.** That an event which does not happen counts as zero: if no line of the event of one of the triggers has the field of its pivot — so also if the event is parsed but not once in the file, or not at a
time the user asks for — the aggregation raises KeyError for every level, whatever the other triggers give. For all such files, parsers, windows, triggers and topologies with a node. -/
theorem C161_no_lines_refuted {γ : Type} (fuel : Nat) (ps : List ParserClass) (hps : ∀ p ∈ ps, p ∈ builtins) (hnd : ps.Nodup)
    (header : List Str) (items : List TraceItem) (h : TraceFile ps header items) (hlen : items.length < 2 ^ 32)
    (cells : ParserClass → TraceEvent → List (Str × Val))
    (hc : ∀ p ∈ ps, ClassReads fuel p.name (TraceItem.eventsOf p.event items) (cells p))
    (hm : ∀ p ∈ ps, EvenMasks p.name (TraceItem.eventsOf p.event items) (cells p))
    (u : UserParams) (hw : u.window.hi = none → u.absWindow.hi ≠ some 0)
    (trigs : List UserTrigger) (hin : ∀ t ∈ trigs, t.event ∈ ps.map ParserClass.name)
    (ord : List Nat → List Nat) (topo : Topo) (hnodes : topo.flatten ord ≠ []) (level : Str) (groups : List (List Nat))
    (hl : topo.getLevel ord level = some groups) (f : TSeries → γ) (add : γ → γ → γ) :
    ∃ (out : List Nat) (shift : Nat → Nat), MinimalTimes 0 (TraceItem.times items) out ∧
      (∀ t ∈ out, if u.normalize then NearestEven (val t - val (firstTime out)) (shift t) else shift t = t) ∧
      ((∃ t ∈ trigs, ∀ c ∈ TraceItem.calls ps (trigs.map UserTrigger.event) cells (AskedTime u (firstTime out)) shift 0 items out, c.1 = t.event → t.pivot ∉ c.2.2.2.map Prod.fst) →
        fileAggregate fuel ps u (header ++ items.map TraceItem.text) trigs ord topo f add level = .error (.agg .keyError)) := by
  obtain ⟨out, shift, o1, o2, o3⟩ := C134_object fuel ps hps hnd header items h cells hc hm u hw
  refine ⟨out, shift, o1, o2, ?_⟩
  rintro ⟨t, htm, hno⟩
  have ht : ∀ t ∈ trigs, (namedTables ps (ps.map fun p => (fileRows (cells p) p items u out).map fun r => (shift r.1, r.2))).get t.event =
      some (linesOf (TraceItem.calls ps (trigs.map UserTrigger.event) cells (AskedTime u (firstTime out)) shift 0 items out) t.event) := by
    intro t htm
    obtain ⟨p, hp, he⟩ := List.mem_map.1 (hin t htm)
    rw [← he, namedTables_get _ hps hp, fileRows_lines hps cells items hlen u out shift hp (he ▸ List.mem_map.2 ⟨t, htm, rfl⟩)]
  have hmiss := userGen_missing (ht t htm) (by rintro ⟨c, h1, h2, h3⟩; exact hno c h1 h2 h3)
  have e := eventIndices_lines ht
  unfold fileAggregate
  rw [o3]
  simp only
  simp only [fileRows] at e hmiss
  rw [e, hl]
  simp only
  rw [callWith_error (aggregateBase_error (e := .keyError) hnodes _ ?_ ⟨_, List.mem_map.2 ⟨t, htm, rfl⟩, hmiss⟩)]
  intro g hg
  obtain ⟨x, _, rfl⟩ := List.mem_map.1 hg
  exact userGen_either _ x

/-- the file of the examples below -/
def exStatLines : List Str := [cs!"version = 6\n", cs!"a-1 [000] 1.0: sched_switch: prev_pid=0 next_pid=5\n", cs!"a-1 [002] 1.5: cpu_frequency: state=700 cpu_id=3\n", cs!"CPU 2 is empty\n",
  cs!"a-1 [001] 2.0: sched_switch: prev_pid=5 next_pid=0\n", cs!"a-1 [001] 2.5: sched_switch: prev_pid=0 next_pid=5\n"]

/-- how often task 5 comes and goes on two CPUs -/
def exStatTriggers : List UserTrigger := [⟨cs!"sched_switch", [(cs!"next_pid", .single (.num 5))], 1, cs!"__cpu"⟩, ⟨cs!"sched_switch", [(cs!"prev_pid", .single (.num 5))], 10, cs!"__cpu"⟩]

/-- For each CPU, and for both -/
example : fileAggregate 5 exWholeParsers (UserParams.full true) exStatLines exStatTriggers id (Topo.empty.run [(cs!"cpu", [[0], [1]])]) seriesSum (· + ·) cs!"cpu" = .ok [1, 11] ∧
    fileAggregate 5 exWholeParsers (UserParams.full true) exStatLines exStatTriggers id (Topo.empty.run [(cs!"cpu", [[0], [1]])]) seriesSum (· + ·) cs!"all" = .ok [12] := by
  decide +kernel

/-- An event that is parsed and does not happen, one that is not parsed, and a level that does not exist -/
example : fileAggregate 5 exWholeParsers (UserParams.full true) (exStatLines.take 2) (exStatTriggers ++ [⟨cs!"cpu_frequency", [], 1, cs!"cpu"⟩]) id (Topo.empty.run [(cs!"cpu", [[0], [1]])]) seriesSum (· + ·) cs!"cpu" =
      .error (.agg .keyError) ∧
    fileAggregate 5 exWholeParsers (UserParams.full true) exStatLines [⟨cs!"no_event", [], 1, cs!"cpu"⟩] id (Topo.empty.run [(cs!"cpu", [[0], [1]])]) seriesSum (· + ·) cs!"cpu" = .error .noEvent ∧
    fileAggregate 5 exWholeParsers (UserParams.full true) exStatLines exStatTriggers id (Topo.empty.run [(cs!"cpu", [[0], [1]])]) seriesSum (· + ·) cs!"cluster" = .error .noLevel := by
  decide +kernel

/-- A line for two triggers: the last one counts -/
example : fileAggregate 5 exWholeParsers (UserParams.full true) exStatLines [⟨cs!"sched_switch", [], 1, cs!"__cpu"⟩, ⟨cs!"sched_switch", [(cs!"prev_pid", .single (.num 5))], 10, cs!"__cpu"⟩] id
    (Topo.empty.run [(cs!"cpu", [[0], [1]])]) seriesSum (· + ·) cs!"cpu" = .ok [1, 11] := by
  decide +kernel

/-- the hypotheses -/
example : TraceFile exParsers exHeader exItems ∧ exItems.length < 2 ^ 32 ∧ (∀ p ∈ exParsers, p ∈ builtins) ∧ exParsers.Nodup ∧ cs!"sched_wakeup" ∈ exParsers.map ParserClass.name ∧
    (Topo.empty.run [(cs!"cpu", [[0], [1]])]).getLevel id cs!"cpu" = some [[0], [1]] ∧ (Topo.empty.run [(cs!"cpu", [[0], [1]])]).flatten id ≠ [] := by
  refine ⟨exFile_ok, by decide, by decide +kernel, by decide +kernel, by decide +kernel, by decide +kernel, by decide +kernel⟩

end Trappy
