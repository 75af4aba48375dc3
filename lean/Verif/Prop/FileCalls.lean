import Verif.Model.FileCalls
import Verif.Prop.Callbacks
import Verif.Prop.SysTrace
/-!
# C158: from the file of a trace to the calls of `apply_callbacks`
-/

namespace Trappy
open F64 Py

/-! ## Specification -/

/-- **Specification**: the user asks for events at this time -/
def AskedTime (u : UserParams) (base t : Nat) : Prop :=
  val (add u.window.lo base) ≤ val t ∧ val u.absWindow.lo ≤ val t ∧
    match u.window.hi, u.absWindow.hi with
    | none, none => True
    | some a, none => val t ≤ val (add a base)
    | none, some b => val t ≤ val b
    | some a, some b => val t ≤ val (add a base) ∨ val t ≤ val b

open Classical in
/-- **Specification**: one call for each line of the file that is an event of a class with a callback, at a time the user asks for, in the order of the file -/
noncomputable def TraceItem.calls (ps : List ParserClass) (fns : List Str) (cells : ParserClass → TraceEvent → List (Str × Val)) (ask : Nat → Prop) (shift : Nat → Nat) :
    Nat → List TraceItem → List Nat → List (Str × Nat × Nat × Dict Val)
  | k, .other _ :: is, ts => calls ps fns cells ask shift (k + 1) is ts
  | k, .event e :: is, t :: ts =>
    (match ps.find? fun p => p.event = e.line.event ∧ p.name ∈ fns with
      | some p => if ask t then [(p.name, k, shift t, shownCells p.name (e.rowWith (cells p e) k t).cells)] else []
      | none => []) ++ calls ps fns cells ask shift (k + 1) is ts
  | _, _, _ => []

/-! ## Lemmas -/

theorem builtins_eventNodup : (builtins.map ParserClass.event).Nodup := by decide +kernel

theorem builtins_sameEvent {p q : ParserClass} (hp : p ∈ builtins) (hq : q ∈ builtins) (h : p.event = q.event) : p = q :=
  List.inj_on_of_nodup_map builtins_eventNodup hp hq h

theorem asked_filter (u : UserParams) (base : Nat) (t : Table (Dict Val)) [DecidablePred (AskedTime u base)] :
    asked u base t = t.filter fun r => decide (AskedTime u base r.1) := by
  unfold asked within
  refine List.filter_congr fun r _ => ?_
  rw [decide_eq_decide, AskedTime, ← and_assoc]
  refine and_congr ?_ ?_
  · rw [val_le_iff, val_le_iff, val_le_iff, max_le_iff]
  · cases h1 : u.window.hi <;> cases h2 : u.absWindow.hi <;> simp [val_le_iff, le_max_iff]

theorem shown_line {name : Str} {e : TraceEvent} {cells : List (Str × Val)} {k t : Nat} (hk : k + 1 < 2 ^ 32) :
    (shownCells name (e.rowWith cells k t).cells).get cs!"__line" = some (.int (k : Int)) := by
  have c1 : shownColumn name cs!"__comm" = cs!"__comm" := by
    unfold shownColumn
    repeat' split
    all_goals first | rfl | (exfalso; simp_all)
  have c2 : shownColumn name cs!"__pid" = cs!"__pid" := by
    unfold shownColumn
    repeat' split
    all_goals first | rfl | (exfalso; simp_all)
  have c3 : shownColumn name cs!"__cpu" = cs!"__cpu" := by
    unfold shownColumn
    repeat' split
    all_goals first | rfl | (exfalso; simp_all)
  have c4 : shownColumn name cs!"__line" = cs!"__line" := by
    unfold shownColumn
    repeat' split
    all_goals first | rfl | (exfalso; simp_all)
  simp only [TraceEvent.rowWith, shownCells, List.cons_append, List.map_cons, List.nil_append, c1, c2, c3, c4]
  simp only [Dict.get]
  rw [if_neg (by decide), if_neg (by decide), if_neg (by decide), if_pos trivial]
  unfold shownValue
  rw [if_neg, if_neg]
  · rintro ⟨-, h⟩
    revert h
    decide
  · rintro ⟨-, h⟩
    simp only [Val.int.injEq] at h
    omega

theorem lineRows_eq {t : Table (Dict Val)} {rs : List (Nat × Nat × Dict Val)} (h : List.Forall₂ (fun r x => r.2.get cs!"__line" = some (.int ((x.1 : Nat) : Int)) ∧ x.2 = r) t rs) :
    lineRows t = some rs := by
  induction h with
  | nil => rfl
  | @cons r x t rs hr _ ih =>
    obtain ⟨k, tm, cs⟩ := x
    obtain ⟨h1, h2⟩ := hr
    subst h2
    rw [lineRows, ih, h1]
    rfl

theorem perm_of_filters {β : Type} [DecidableEq β] {A B : List (Str × β)} (h : ∀ n, A.filter (fun c => c.1 = n) = B.filter fun c => c.1 = n) : A.Perm B := by
  rw [List.perm_iff_count]
  intro c
  have e : ∀ l : List (Str × β), l.count c = (l.filter fun d => d.1 = c.1).count c := fun l => (List.count_filter (p := fun d : Str × β => decide (d.1 = c.1)) (by simp)).symm
  rw [e A, e B, h]

theorem filter_name {β : Type} (l : List (Str × β)) (n : Str) : (l.filter fun c => c.1 = n) = ((l.filter fun c => c.1 = n).map Prod.snd).map (Prod.mk n) := by
  rw [List.map_map]
  conv_lhs => rw [← List.map_id (l.filter fun c => c.1 = n)]
  refine List.map_congr_left fun c hc => ?_
  have := (List.mem_filter.1 hc).2
  simp only [decide_eq_true_eq] at this
  simp [← this]

namespace TraceItem
variable {ps : List ParserClass} {fns : List Str} {cells : ParserClass → TraceEvent → List (Str × Val)} {ask : Nat → Prop} {shift : Nat → Nat}

/-- rows of one class with their lines -/
noncomputable def callRows (cells : TraceEvent → List (Str × Val)) (p : ParserClass) (ask : Nat → Prop) (shift : Nat → Nat) : Nat → List TraceItem → List Nat → List (Nat × Nat × Dict Val)
  | k, .other _ :: is, ts => callRows cells p ask shift (k + 1) is ts
  | k, .event e :: is, t :: ts =>
    open Classical in
    if e.line.event = p.event ∧ ask t then (k, shift t, shownCells p.name (e.rowWith (cells e) k t).cells) :: callRows cells p ask shift (k + 1) is ts
    else callRows cells p ask shift (k + 1) is ts
  | _, _, _ => []

theorem callRows_table [DecidablePred ask] (cells : TraceEvent → List (Str × Val)) (p : ParserClass) : ∀ (k : Nat) (is : List TraceItem) (ts : List Nat), k + is.length < 2 ^ 32 →
    List.Forall₂ (fun (r : Nat × Dict Val) (x : Nat × Nat × Dict Val) => r.2.get cs!"__line" = some (.int ((x.1 : Nat) : Int)) ∧ x.2 = r)
      ((((tableWith cells p.event k is ts).map fun r => (r.time, shownCells p.name r.cells)).filter fun r => decide (ask r.1)).map fun r => (shift r.1, r.2))
      (callRows cells p ask shift k is ts)
  | _, [], ts, _ => by cases ts <;> exact .nil
  | k, .other l :: is, ts, h => by
    have := callRows_table cells p (k + 1) is ts (by simp at h; omega)
    simpa [tableWith, callRows] using this
  | k, .event e :: is, [], _ => .nil
  | k, .event e :: is, t :: ts, h => by
    have := callRows_table cells p (k + 1) is ts (by simp at h; omega)
    unfold tableWith callRows
    by_cases he : e.line.event = p.event
    · rw [if_pos he, List.map_cons, List.filter_cons]
      have e1 : (e.rowWith (cells e) k t).time = t := rfl
      by_cases ha : ask t
      · rw [if_pos (by rw [e1]; simpa using ha), if_pos ⟨he, ha⟩, List.map_cons]
        exact .cons ⟨shown_line (t := t) (by simp at h; omega), rfl⟩ this
      · rw [if_neg (by rw [e1]; simpa using ha), if_neg (by tauto)]
        exact this
    · rw [if_neg he, if_neg (by tauto)]
      exact this

theorem callRows_lines (cells : TraceEvent → List (Str × Val)) (p : ParserClass) : ∀ (k : Nat) (is : List TraceItem) (ts : List Nat),
    (callRows cells p ask shift k is ts).Pairwise (fun a b => a.1 < b.1) ∧ ∀ x ∈ callRows cells p ask shift k is ts, k ≤ x.1
  | _, [], ts => by cases ts <;> exact ⟨.nil, by intro x h; cases h⟩
  | k, .other l :: is, ts => by
    obtain ⟨h1, h2⟩ := callRows_lines cells p (k + 1) is ts
    exact ⟨h1, fun x hx => by have := h2 x hx; omega⟩
  | k, .event e :: is, [] => ⟨.nil, by intro x h; cases h⟩
  | k, .event e :: is, t :: ts => by
    obtain ⟨h1, h2⟩ := callRows_lines cells p (k + 1) is ts
    unfold callRows
    split
    · refine ⟨List.pairwise_cons.2 ⟨fun x hx => ?_, h1⟩, fun x hx => ?_⟩
      · have := h2 x hx
        show k < x.1
        omega
      · rcases List.mem_cons.1 hx with rfl | hx
        · exact le_refl _
        · have := h2 x hx; omega
    · exact ⟨h1, fun x hx => by have := h2 x hx; omega⟩

theorem calls_lines : ∀ (k : Nat) (is : List TraceItem) (ts : List Nat),
    (calls ps fns cells ask shift k is ts).Pairwise (fun a b => a.2.1 < b.2.1) ∧ ∀ x ∈ calls ps fns cells ask shift k is ts, k ≤ x.2.1
  | _, [], ts => by cases ts <;> exact ⟨.nil, by intro x h; cases h⟩
  | k, .other l :: is, ts => by
    obtain ⟨h1, h2⟩ := calls_lines (k + 1) is ts
    exact ⟨h1, fun x hx => by have := h2 x hx; omega⟩
  | k, .event e :: is, [] => ⟨.nil, by intro x h; cases h⟩
  | k, .event e :: is, t :: ts => by
    obtain ⟨h1, h2⟩ := calls_lines (k + 1) is ts
    have h2' : ∀ x ∈ calls ps fns cells ask shift (k + 1) is ts, k ≤ x.2.1 := fun x hx => by have := h2 x hx; omega
    unfold calls
    split
    · split
      · refine ⟨List.pairwise_cons.2 ⟨fun x hx => ?_, h1⟩, fun x hx => ?_⟩
        · have := h2 x hx
          show k < x.2.1
          omega
        · rcases List.mem_cons.1 hx with rfl | hx
          · exact le_refl _
          · exact h2' x hx
      · exact ⟨h1, h2'⟩
    · exact ⟨h1, h2'⟩

theorem calls_filter (hps : ∀ p ∈ ps, p ∈ builtins) {p : ParserClass} (hp : p ∈ ps) (hn : p.name ∈ fns) : ∀ (k : Nat) (is : List TraceItem) (ts : List Nat),
    (calls ps fns cells ask shift k is ts).filter (fun c => c.1 = p.name) = (callRows (cells p) p ask shift k is ts).map (Prod.mk p.name)
  | _, [], ts => by cases ts <;> rfl
  | k, .other l :: is, ts => calls_filter hps hp hn (k + 1) is ts
  | k, .event e :: is, [] => rfl
  | k, .event e :: is, t :: ts => by
    have ih := calls_filter hps hp hn (k + 1) is ts
    unfold calls callRows
    rw [List.filter_append, ih]
    cases hf : ps.find? fun p => p.event = e.line.event ∧ p.name ∈ fns with
    | none =>
      rw [List.find?_eq_none] at hf
      have := hf p hp
      simp only [decide_eq_true_eq] at this
      have he : e.line.event ≠ p.event := fun h => this ⟨h.symm, hn⟩
      rw [if_neg (by tauto)]
      rfl
    | some q =>
      have h1 := List.find?_some hf
      have h2 := List.mem_of_find?_eq_some hf
      simp only [decide_eq_true_eq] at h1
      by_cases he : e.line.event = p.event
      · have := builtins_sameEvent (hps q h2) (hps p hp) (by rw [h1.1, he])
        subst this
        by_cases ha : ask t
        · simp [he, ha]
        · simp [he, ha]
      · have hq : q.name ≠ p.name := by
          intro h
          have := builtins_sameName q (hps q h2) p (hps p hp) h
          subst this
          exact he h1.1.symm
        rw [if_neg (by tauto)]
        by_cases ha : ask t
        · simp [ha, hq]
        · simp [ha]

theorem calls_names : ∀ (k : Nat) (is : List TraceItem) (ts : List Nat), ∀ c ∈ calls ps fns cells ask shift k is ts, c.1 ∈ fns
  | _, [], ts, c, h => by cases ts <;> cases h
  | k, .other l :: is, ts, c, h => calls_names (k + 1) is ts c h
  | k, .event e :: is, [], c, h => by cases h
  | k, .event e :: is, t :: ts, c, h => by
    unfold calls at h
    rw [List.mem_append] at h
    rcases h with h | h
    · split at h
      · rename_i p hf
        have h1 := List.find?_some hf
        simp only [decide_eq_true_eq] at h1
        split at h
        · rw [List.mem_singleton.1 h]
          exact h1.2
        · cases h
      · cases h
    · exact calls_names (k + 1) is ts c h

end TraceItem

theorem pairwise_mem_or {α : Type} {R : α → α → Prop} {l : List α} (h : l.Pairwise R) {a b : α} (ha : a ∈ l) (hb : b ∈ l) (hne : a ≠ b) : R a b ∨ R b a := by
  induction h with
  | nil => cases ha
  | @cons x l hx _ ih =>
    rcases List.mem_cons.1 ha with e | ha' <;> rcases List.mem_cons.1 hb with e' | hb'
    · exact absurd (e.trans e'.symm) hne
    · subst e; exact .inl (hx b hb')
    · subst e'; exact .inr (hx a ha')
    · exact ih ha' hb'

theorem callDict_fold {t : Nat} : ∀ {cells : Dict Val} {d : Dict CallVal}, (d.map Prod.fst ++ cells.map Prod.fst).Nodup →
    cells.foldl (fun d x => d.set x.1 (.cell x.2)) d = d ++ cells.map fun x => (x.1, .cell x.2)
  | [], d, _ => by simp
  | x :: cells, d, h => by
    have hx : x.1 ∉ d.map Prod.fst := by
      intro hm
      rw [List.nodup_append] at h
      exact h.2.2 _ hm _ (by simp) rfl
    rw [List.foldl_cons, Dict.set_new _ _ _ hx, callDict_fold (t := t)]
    · simp
    · simpa using h

theorem callTables_ok {tables : Dict (Table (Dict Val))} {rows : Str → List (Nat × Nat × Dict Val)} : ∀ {fns : List Str},
    (∀ n ∈ fns, ∃ t, tables.get n = some t ∧ lineRows t = some (rows n)) → callTables tables fns = .ok (fns.map fun n => (n, rows n))
  | [], _ => rfl
  | n :: ns, h => by
    obtain ⟨t, h1, h2⟩ := h n (by simp)
    rw [callTables, h1]
    simp only
    rw [callTables_ok fun m hm => h m (by simp [hm]), h2]
    rfl

theorem namedTables_none (f : ParserClass → Table (Dict Val)) {n : Str} : ∀ {ps : List ParserClass}, n ∉ ps.map ParserClass.name → (namedTables ps (ps.map f)).get n = none
  | [], _ => rfl
  | q :: qs, h => by
    rw [List.map_cons, namedTables, Dict.get, if_neg (by intro e; simp [e] at h)]
    exact namedTables_none f (by simp at h ⊢; exact h.2)

theorem callTables_missing {tables : Dict (Table (Dict Val))} (hok : ∀ n t, tables.get n = some t → ∃ rs, lineRows t = some rs) : ∀ {fns : List Str} {n : Str}, n ∈ fns → tables.get n = none →
    callTables tables fns = .error .noEvent
  | m :: ns, n, hn, h => by
    rw [callTables]
    rcases List.mem_cons.1 hn with rfl | hn
    · rw [h]
    · cases hm : tables.get m with
      | none => rfl
      | some t =>
        simp only
        rw [callTables_missing hok hn h]

/-- **C158.** `apply_callbacks` of a trace that is read from a file makes one call for each line of the file that is an event with a callback, at a time the user asks for, and no other calls, in the order of the file; the
callback is the one of the event, and its dictionary has the time of the line as `Index` and the fields of the line, unless a field has the name `Index`. For all files of less than 2^32 lines, parsers, windows
and sets of callbacks. -/
theorem C158_calls (fuel : Nat) (ps : List ParserClass) (hps : ∀ p ∈ ps, p ∈ builtins) (hnd : ps.Nodup)
    (header : List Str) (items : List TraceItem) (h : TraceFile ps header items) (hlen : items.length < 2 ^ 32)
    (cells : ParserClass → TraceEvent → List (Str × Val))
    (hc : ∀ p ∈ ps, ClassReads fuel p.name (TraceItem.eventsOf p.event items) (cells p))
    (hm : ∀ p ∈ ps, EvenMasks p.name (TraceItem.eventsOf p.event items) (cells p))
    (u : UserParams) (hw : u.window.hi = none → u.absWindow.hi ≠ some 0)
    (fns : List Str) (hf : fns.Nodup) (hin : ∀ n ∈ fns, n ∈ ps.map ParserClass.name) :
    ∃ (out : List Nat) (shift : Nat → Nat), MinimalTimes 0 (TraceItem.times items) out ∧
      (∀ t ∈ out, if u.normalize then NearestEven (val t - val (firstTime out)) (shift t) else shift t = t) ∧
      ∃ calls, fileCallbacks fuel ps u (header ++ items.map TraceItem.text) fns = .ok calls ∧
        List.Forall₂ (fun (c : Str × Dict CallVal) (x : Str × Nat × Nat × Dict Val) => c.1 = x.1 ∧ ((cs!"Index" :: x.2.2.2.map Prod.fst).Nodup →
            c.2 = (cs!"Index", CallVal.time x.2.2.1) :: x.2.2.2.map fun y => (y.1, CallVal.cell y.2)))
          calls (TraceItem.calls ps fns cells (AskedTime u (firstTime out)) shift 0 items out) := by
  classical
  obtain ⟨out, shift, o1, o2, o3⟩ := C134_object fuel ps hps hnd header items h cells hc hm u hw
  refine ⟨out, shift, o1, o2, ?_⟩
  have hclass : ∀ n ∈ fns, ∃ p ∈ ps, p.name = n := fun n hn => List.mem_map.1 (hin n hn)
  let rows : Str → List (Nat × Nat × Dict Val) := fun n =>
    match ps.find? fun p => p.name = n with
    | some p => TraceItem.callRows (cells p) p (AskedTime u (firstTime out)) shift 0 items out
    | none => []
  have hrows : ∀ p ∈ ps, rows p.name = TraceItem.callRows (cells p) p (AskedTime u (firstTime out)) shift 0 items out := by
    intro p hp
    show (match ps.find? fun q => q.name = p.name with | some p => _ | none => _) = _
    cases hfd : ps.find? fun q => q.name = p.name with
    | none =>
      rw [List.find?_eq_none] at hfd
      exact absurd (hfd p hp) (by simp)
    | some q =>
      have h1 := List.find?_some hfd
      have h2 := List.mem_of_find?_eq_some hfd
      simp only [decide_eq_true_eq] at h1
      have := builtins_sameName q (hps q h2) p (hps p hp) h1
      subst this
      rfl
  have htab : callTables (namedTables ps (ps.map fun p => (fileRows (cells p) p items u out).map fun r => (shift r.1, r.2))) fns = .ok (fns.map fun n => (n, rows n)) := by
    refine callTables_ok fun n hn => ?_
    obtain ⟨p, hp, rfl⟩ := hclass n hn
    refine ⟨_, namedTables_get _ hps hp, ?_⟩
    rw [hrows p hp]
    apply lineRows_eq
    unfold fileRows
    rw [asked_filter]
    exact TraceItem.callRows_table (cells p) p 0 items out (by simpa using hlen)
  have hnames : ((fns.map fun n => (n, rows n)).map Prod.fst).Nodup := by simpa [Function.comp_def] using hf
  obtain ⟨a1, a2, a3⟩ := C41_callbacks (fns.map fun n => (n, rows n)) hnames
  have a3 := a3 (by
    intro t ht
    obtain ⟨n, hn, rfl⟩ := List.mem_map.1 ht
    obtain ⟨p, hp, rfl⟩ := hclass n hn
    show ((rows p.name).map Prod.fst).Pairwise _
    rw [hrows p hp, List.pairwise_map]
    exact (TraceItem.callRows_lines (cells p) p 0 items out).1.imp fun h => h.le)
  have hfil : ∀ n, (applyCallbacks (fns.map fun n => (n, rows n))).filter (fun c => c.1 = n) =
      (TraceItem.calls ps fns cells (AskedTime u (firstTime out)) shift 0 items out).filter fun c => c.1 = n := by
    intro n
    by_cases hn : n ∈ fns
    · obtain ⟨p, hp, rfl⟩ := hclass n hn
      rw [TraceItem.calls_filter hps hp hn, filter_name, a1 p.name (rows p.name) (List.mem_map.2 ⟨_, hn, rfl⟩), hrows p hp]
    · rw [List.filter_eq_nil_iff.2, List.filter_eq_nil_iff.2]
      · intro c hc e
        simp only [decide_eq_true_eq] at e
        exact hn (e ▸ TraceItem.calls_names 0 items out c hc)
      · intro c hc e
        simp only [decide_eq_true_eq] at e
        have := a2 c hc
        rw [e] at this
        simp [Function.comp_def] at this
        exact hn this
  have hperm := perm_of_filters hfil
  obtain ⟨l1, _⟩ := TraceItem.calls_lines (ps := ps) (fns := fns) (cells := cells) (ask := AskedTime u (firstTime out)) (shift := shift) 0 items out
  have heq : applyCallbacks (fns.map fun n => (n, rows n)) = TraceItem.calls ps fns cells (AskedTime u (firstTime out)) shift 0 items out := by
    rw [List.pairwise_map] at a3
    refine List.Perm.eq_of_pairwise (le := fun a b => a.2.1 ≤ b.2.1) ?_ a3 (l1.imp fun h => h.le) hperm
    intro a b ha hb hab hba
    have ha' := hperm.subset ha
    by_contra hne
    rcases pairwise_mem_or l1 ha' hb hne with h | h <;> omega
  refine ⟨(applyCallbacks (fns.map fun n => (n, rows n))).map fun c => (c.1, callDict c.2.2.1 c.2.2.2), ?_, ?_⟩
  · unfold fileCallbacks
    rw [o3]
    simp only
    simp only [fileRows] at htab
    rw [htab]
  · rw [heq, List.forall₂_map_left_iff, List.forall₂_same]
    intro x _
    refine ⟨rfl, fun hi => ?_⟩
    unfold callDict
    rw [callDict_fold (t := x.2.2.1) (by simpa using hi)]
    rfl

/-- **C158.** With a callback for an event that is not parsed nothing is called. For all files, parsers and windows. -/
theorem C158_missing (fuel : Nat) (ps : List ParserClass) (hps : ∀ p ∈ ps, p ∈ builtins) (hnd : ps.Nodup)
    (header : List Str) (items : List TraceItem) (h : TraceFile ps header items) (hlen : items.length < 2 ^ 32)
    (cells : ParserClass → TraceEvent → List (Str × Val))
    (hc : ∀ p ∈ ps, ClassReads fuel p.name (TraceItem.eventsOf p.event items) (cells p))
    (hm : ∀ p ∈ ps, EvenMasks p.name (TraceItem.eventsOf p.event items) (cells p))
    (u : UserParams) (hw : u.window.hi = none → u.absWindow.hi ≠ some 0)
    (fns : List Str) {n : Str} (hn : n ∈ fns) (hno : n ∉ ps.map ParserClass.name) :
    fileCallbacks fuel ps u (header ++ items.map TraceItem.text) fns = .error .noEvent := by
  classical
  obtain ⟨out, shift, o1, o2, o3⟩ := C134_object fuel ps hps hnd header items h cells hc hm u hw
  unfold fileCallbacks
  rw [o3]
  simp only
  rw [callTables_missing ?_ hn (namedTables_none _ hno)]
  intro m t hg
  by_cases hmem : m ∈ ps.map ParserClass.name
  · obtain ⟨p, hp, rfl⟩ := List.mem_map.1 hmem
    rw [namedTables_get _ hps hp] at hg
    cases hg
    refine ⟨_, lineRows_eq (rs := TraceItem.callRows (cells p) p (AskedTime u (firstTime out)) shift 0 items out) ?_⟩
    rw [asked_filter]
    exact TraceItem.callRows_table (cells p) p 0 items out (by simpa using hlen)
  · rw [namedTables_none _ hmem] at hg
    cases hg

/-- **C158, refuted.** That `Index` is the time: if a line has a field with the name `Index`, the callback gets this field instead, and the time is nowhere in the dictionary. For all times and lines with such a field. -/
theorem C158_index_refuted (t : Nat) (cells : Dict Val) (h : cs!"Index" ∈ cells.map Prod.fst) : ∀ k, (callDict t cells).get k ≠ some (.time t) := by
  have key : ∀ (cells : Dict Val) (d : Dict CallVal), (∀ k, k ≠ cs!"Index" → d.get k ≠ some (.time t)) → (d.get cs!"Index" ≠ some (.time t) ∨ cs!"Index" ∈ cells.map Prod.fst) →
      ∀ k, (cells.foldl (fun d x => d.set x.1 (.cell x.2)) d).get k ≠ some (.time t) := by
    intro cells
    induction cells with
    | nil =>
      rintro d hd hi k
      by_cases hk : k = cs!"Index"
      · subst hk
        rcases hi with hi | hi
        · exact hi
        · cases hi
      · exact hd k hk
    | cons x cells ih =>
      intro d hd hi
      rw [List.foldl_cons]
      refine ih _ ?_ ?_
      · intro k hk
        rw [Dict.get_set]
        split
        · simp
        · exact hd k hk
      · rw [Dict.get_set]
        by_cases hx : x.1 = cs!"Index"
        · rw [if_pos hx]
          left; simp
        · rw [if_neg hx]
          rcases hi with hi | hi
          · exact .inl hi
          · right
            rcases List.mem_cons.1 hi with hi | hi
            · exact absurd hi.symm hx
            · exact hi
  refine key cells _ ?_ (.inr h)
  intro k hk
  rw [Dict.get, if_neg (fun e => hk e.symm)]
  simp [Dict.get]

/-- Two events, and a line of another one between them -/
example : fileCallbacks 5 exWholeParsers (UserParams.full true)
    [cs!"version = 6\n", cs!"a-1 [000] 1.0: sched_switch: prev_pid=0 next_pid=5\n", cs!"a-1 [002] 1.5: cpu_frequency: state=700 cpu_id=3\n", cs!"CPU 2 is empty\n",
     cs!"a-1 [001] 2.0: sched_switch: prev_pid=5 next_pid=0\n"] [cs!"cpu_frequency", cs!"sched_switch"] = .ok
    [(cs!"sched_switch", [(cs!"Index", .time 0), (cs!"__comm", .cell (.str cs!"a")), (cs!"__pid", .cell (.int 1)), (cs!"__cpu", .cell (.int 0)), (cs!"__line", .cell (.int 0)),
        (cs!"prev_pid", .cell (.int 0)), (cs!"next_pid", .cell (.int 5))]),
     (cs!"cpu_frequency", [(cs!"Index", .time (ofRat 1 2)), (cs!"__comm", .cell (.str cs!"a")), (cs!"__pid", .cell (.int 1)), (cs!"__cpu", .cell (.int 2)), (cs!"__line", .cell (.int 1)),
        (cs!"frequency", .cell (.int 700)), (cs!"cpu", .cell (.int 3))]),
     (cs!"sched_switch", [(cs!"Index", .time (ofRat 1 1)), (cs!"__comm", .cell (.str cs!"a")), (cs!"__pid", .cell (.int 1)), (cs!"__cpu", .cell (.int 1)), (cs!"__line", .cell (.int 3)),
        (cs!"prev_pid", .cell (.int 5)), (cs!"next_pid", .cell (.int 0))])] := by
  decide +kernel

/-- A field with the name `Index` -/
example : (match fileCallbacks 5 exWholeParsers (UserParams.full true) [cs!"a-1 [000] 1.0: sched_switch: prev_pid=0 Index=5\n"] [cs!"sched_switch"] with
    | .ok [c] => c.2.get cs!"Index"
    | _ => none) = some (.cell (.int 5)) := by
  decide +kernel

/-- A callback for an event that is not parsed -/
example : fileCallbacks 5 exWholeParsers (UserParams.full true) [cs!"a-1 [000] 1.0: sched_switch: prev_pid=0 next_pid=5\n"] [cs!"sched_switch", cs!"no_event"] = .error .noEvent := by
  decide +kernel

/-- the hypotheses -/
example : TraceFile exParsers exHeader exItems ∧ exItems.length < 2 ^ 32 ∧ [cs!"sched_wakeup", cs!"cpu_frequency"].Nodup ∧
    (∀ p ∈ exParsers, p ∈ builtins) ∧ exParsers.Nodup ∧ cs!"sched_wakeup" ∈ exParsers.map ParserClass.name := by
  refine ⟨exFile_ok, by decide, by decide, by decide +kernel, by decide +kernel, by decide +kernel⟩

end Trappy
