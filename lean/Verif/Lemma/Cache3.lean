import Verif.Lemma.Cache2
/-! Outcome and log of a parse, without assumptions on the environment. -/

namespace Trappy
open Prog

variable {α : Type}

/-- The outcome of `afterLoad`, which does not depend on the cache directory. -/
def outcomeOf (E : Env α) (disable : Bool) (req : Req) (L : Loaded α) (lines : List Str) : Outcome (Result α) :=
  if !disable && L.cached.all Option.isSome then
    .ok { basetime := L.basetime, endtime := L.endtime, header := L.header,
          tables := L.cached.filterMap fun t => t.map (userApply L.valid L.basetime req.user) }
  else
    let p := populateBody ((uncached (req.classes.zip L.cached)).map CClass.cls) L.basetime (bodyOf req.kind lines)
    match mergeBuild E req.kind p 0 (req.classes.zip L.cached) with
    | none => .raise
    | some entries => .ok { basetime := p.basetime, endtime := p.endtime, header := headerOf req.kind lines,
                            tables := entries.map fun e => userApply L.valid p.basetime req.user e.2.2 }

theorem afterLoad_fst (E : Env α) (disable : Bool) (req : Req) (L : Loaded α) (fs : FS) :
    ((afterLoad E disable req L).run fs).1 = outcomeOf E disable req L fs.trace := by
  unfold afterLoad outcomeOf
  split
  · rfl
  · simp only [Prog.run, Op.exec]
    generalize mergeBuild E req.kind _ 0 _ = x
    cases x with
    | none => rfl
    | some es => simp only; rw [run_bind]; rfl

/-- Loading with a readable, valid metadata file. -/
theorem run_loadCache_ok (E : Env α) (req : Req) (fs : FS) (d : Dict Str) (hc : fs.cache = some d) {t : Str}
    (ht : d.get metaName = some t) {md : Meta} (hm : E.loadMeta t = some md) (hv : cacheValid E md fs.trace = true) :
    (loadCache E req).run fs =
      (match req.kind, md.header with
       | .ftrace, none => .raise
       | .ftrace, some h => .ok ⟨true, md.basetime.getD 0, md.endtime.getD 0, h, req.classes.map (found E (some d))⟩
       | .systrace, _ => .ok ⟨true, md.basetime.getD 0, md.endtime.getD 0, [], req.classes.map (found E (some d))⟩, fs) := by
  simp only [loadCache, Prog.run, Op.exec, hc, Option.isSome_some, if_true, Option.bind_some, ht, hm, hv]
  cases req.kind <;> cases md.header <;> simp [run_bind, run_readTables, hc, Prog.run]

theorem run_loadCache_noMeta (E : Env α) (req : Req) (fs : FS) (d : Dict Str) (hc : fs.cache = some d)
    (ht : d.get metaName = none) : (loadCache E req).run fs = (.raise, fs) := by
  simp only [loadCache, Prog.run, Op.exec, hc, Option.isSome_some, if_true, Option.bind_some, ht]

theorem run_loadCache_badMeta (E : Env α) (req : Req) (fs : FS) (d : Dict Str) (hc : fs.cache = some d) {t : Str}
    (ht : d.get metaName = some t) (hm : E.loadMeta t = none) : (loadCache E req).run fs = (.raise, fs) := by
  simp only [loadCache, Prog.run, Op.exec, hc, Option.isSome_some, if_true, Option.bind_some, ht, hm]

theorem doParse_run (E : Env α) (req : Req) (fs : FS) :
    (doParse E false req).run fs =
      match (loadCache E req).run fs with
      | (.raise, fs') => (.raise, fs')
      | (.ok L, fs') => (afterLoad E false req L).run fs' := by
  simp only [doParse, Bool.false_eq_true, if_false]
  rw [run_bind]
  generalize (loadCache E req).run fs = x
  obtain ⟨o, fs'⟩ := x
  cases o <;> rfl

theorem log_bind {R S : Type} (p : Prog R) (f : R → Prog S) (fs : FS) :
    (p.bind f).log fs = p.log fs ++ (f (p.run fs).1).log (p.run fs).2 := by
  induction p generalizing fs with
  | ret r => rfl
  | op o k ih => simp only [Prog.bind, Prog.log, Prog.run, List.cons_append]; rw [ih]

theorem log_writeChars (f t : Str) (fs : FS) : ((writeChars f t).log fs) = t.map (Op.append f) := by
  induction t generalizing fs with
  | nil => rfl
  | cons c t ih => simp only [writeChars, Prog.log, List.map_cons]; rw [ih]

theorem log_writeFile (f t : Str) (fs : FS) (d : Dict Str) (hc : fs.cache = some d) :
    (writeFile f t).log fs = .creat f :: t.map (Op.append f) := by
  simp only [writeFile, Prog.log, Op.exec, hc, if_true]
  rw [log_bind, log_writeChars]
  simp [Prog.log]

theorem log_writeTables (E : Env α) (es : List (CClass × Bool × Table α)) (fs : FS) (d : Dict Str) (hc : fs.cache = some d) :
    (writeTables E es).log fs = (es.filter fun e => !e.2.1).flatMap fun e =>
      .creat (csvName e.1) :: (E.toCsv e.2.2).map (Op.append (csvName e.1)) := by
  induction es generalizing fs d with
  | nil => rfl
  | cons e es ih =>
    obtain ⟨c, b, t⟩ := e
    cases b with
    | true => simp only [writeTables]; rw [ih fs d hc]; simp
    | false =>
      simp only [writeTables]
      rw [log_bind, log_writeFile _ _ fs d hc, run_writeFile _ _ fs d hc]
      simp only [if_true]
      rw [ih _ _ rfl]
      simp

theorem log_readTables (E : Env α) (cs : List CClass) (fs : FS) :
    (readTables E cs).log fs = cs.map fun c => .read (csvName c) := by
  induction cs generalizing fs with
  | nil => rfl
  | cons c cs ih =>
    simp only [readTables, Prog.log, List.map_cons]
    rw [log_bind, ih]
    simp [Prog.log]

theorem mergeBuild_entries (E : Env α) (kind : Kind) (p : Parsed) (r : List (CClass × Option (Table α))) :
    ∀ i es, mergeBuild E kind p i r = some es →
      es.map (fun e => (e.1, e.2.1)) = r.map (fun x => (x.1, x.2.isSome)) ∧
      ∀ (k : Nat) (c : CClass) (t : Table α), r[k]? = some (c, some t) → es[k]? = some (c, true, t) := by
  induction r with
  | nil => intro i es h; simp [mergeBuild] at h; subst h; simp
  | cons x r ih =>
    obtain ⟨c, o⟩ := x
    intro i es h
    cases o with
    | some t =>
      simp only [mergeBuild, Option.map_eq_some_iff] at h
      obtain ⟨es', h1, rfl⟩ := h
      obtain ⟨h2, h3⟩ := ih i es' h1
      refine ⟨by simp [h2], ?_⟩
      intro k c' t' hk
      cases k with
      | zero => simp at hk; simp [hk]
      | succ k => simp at hk ⊢; exact h3 k c' t' hk
    | none =>
      simp only [mergeBuild] at h
      split at h
      · simp at h
      · simp only [Option.map_eq_some_iff] at h
        obtain ⟨es', h1, rfl⟩ := h
        obtain ⟨h2, h3⟩ := ih (i + 1) es' h1
        refine ⟨by simp [h2], ?_⟩
        intro k c' t' hk
        cases k with
        | zero => simp at hk
        | succ k => simp at hk ⊢; exact h3 k c' t' hk

theorem log_loadCache_ok (E : Env α) (req : Req) (fs : FS) (d : Dict Str) (hc : fs.cache = some d) {t : Str}
    (ht : d.get metaName = some t) {md : Meta} (hm : E.loadMeta t = some md) (hv : cacheValid E md fs.trace = true) :
    ∀ o ∈ (loadCache E req).log fs, o.changes = false := by
  simp only [loadCache, Prog.log, Op.exec, hc, Option.isSome_some, if_true, Option.bind_some, ht, hm, hv]
  have hread : ∀ o ∈ (readTables E req.classes).log fs, o.changes = false := by
    rw [log_readTables]
    intro o ho
    obtain ⟨c, _, rfl⟩ := List.mem_map.mp ho
    rfl
  intro o ho
  simp only [List.mem_cons] at ho
  rcases ho with rfl | rfl | rfl | ho
  · rfl
  · rfl
  · rfl
  · revert ho
    cases req.kind <;> cases md.header <;> simp only [Prog.log, log_bind, List.append_nil, List.not_mem_nil, false_implies] <;>
      try exact hread o

theorem created_of_unchanging {l : List Op} (h : ∀ o ∈ l, o.changes = false) : l.filterMap Op.created = [] := by
  rw [List.filterMap_eq_nil_iff]
  intro o ho
  have := h o ho
  cases o <;> simp [Op.changes, Op.created] at *

/-- What `afterLoad` does to the disk when part of the tables was cached. -/
theorem afterLoad_some (E : Env α) (req : Req) (L : Loaded α) (fs : FS) (d : Dict Str) (hc : fs.cache = some d)
    (hlen : L.cached.length = req.classes.length) (hany : L.cached.any Option.isSome = true) (res : Result α)
    (hok : ((afterLoad E false req L).run fs).1 = .ok res) :
    ∃ es : List (CClass × Bool × Table α),
      es.map (fun e => (e.1, e.2.1)) = (req.classes.zip L.cached).map (fun x => (x.1, x.2.isSome)) ∧
      ((afterLoad E false req L).run fs).2.cache = some (addTables E d es) ∧
      (∃ rd : List Op, (∀ o ∈ rd, o.changes = false) ∧ (afterLoad E false req L).log fs = rd ++ (writeTables E es).log fs) ∧
      res.tables = es.map (fun e => userApply L.valid res.basetime req.user e.2.2) ∧
      ∀ (k : Nat) (c : CClass) (t : Table α), (req.classes.zip L.cached)[k]? = some (c, some t) → es[k]? = some (c, true, t) := by
  unfold afterLoad at hok ⊢
  by_cases hall : (!false && L.cached.all Option.isSome) = true
  · rw [if_pos hall] at hok ⊢
    simp only [Prog.run, Outcome.ok.injEq] at hok
    subst hok
    have h2 : L.cached.all Option.isSome = true := by simpa using hall
    refine ⟨((req.classes.zip L.cached).filterMap fun x => x.2.map fun t => (x.1, true, t)), ?_, ?_, ⟨[], by simp, ?_⟩, ?_, ?_⟩
    · clear hall hany
      generalize L.cached = ca at *
      generalize req.classes = cs at *
      induction cs generalizing ca with
      | nil => simp
      | cons c cs ih =>
        cases ca with
        | nil => simp
        | cons o ca =>
          simp only [List.all_cons, Bool.and_eq_true] at h2
          obtain ⟨t, rfl⟩ := Option.isSome_iff_exists.mp h2.1
          simp only [List.zip_cons_cons, List.filterMap_cons, Option.map_some, List.map_cons, Option.isSome_some]
          rw [ih ca h2.2 (by simpa using hlen)]
    · simp only [Prog.run, hc]
      congr 1
      generalize req.classes.zip L.cached = r
      induction r with
      | nil => rfl
      | cons x r ih =>
        obtain ⟨c, o⟩ := x
        cases o with
        | none => simpa using ih
        | some t => simpa [addTables] using ih
    · rw [log_writeTables E _ fs d hc]
      simp only [Prog.log, List.nil_append]
      symm
      rw [List.flatMap_eq_nil_iff]
      intro e he
      rw [List.mem_filter] at he
      obtain ⟨x, hx, h⟩ := List.mem_filterMap.mp he.1
      obtain ⟨t, ht, rfl⟩ := Option.map_eq_some_iff.mp h
      simp at he
    · rw [List.map_filterMap]
      simp only
      clear hall hany
      generalize L.cached = ca at *
      generalize req.classes = cs at *
      induction cs generalizing ca with
      | nil => simp at hlen; subst hlen; rfl
      | cons c cs ih =>
        cases ca with
        | nil => simp at hlen
        | cons o ca =>
          simp only [List.all_cons, Bool.and_eq_true] at h2
          obtain ⟨t, rfl⟩ := Option.isSome_iff_exists.mp h2.1
          simp only [List.zip_cons_cons, List.filterMap_cons, Option.map_some]
          rw [ih ca h2.2 (by simpa using hlen)]
    · clear hall hany
      generalize L.cached = ca at *
      generalize req.classes = cs at *
      induction cs generalizing ca with
      | nil => simp
      | cons c cs ih =>
        cases ca with
        | nil => simp
        | cons o ca =>
          simp only [List.all_cons, Bool.and_eq_true] at h2
          obtain ⟨t, rfl⟩ := Option.isSome_iff_exists.mp h2.1
          intro k c' t' hk
          cases k with
          | zero => simp at hk; simp [hk]
          | succ k =>
            simp only [List.zip_cons_cons, List.getElem?_cons_succ] at hk
            simpa using ih ca h2.2 (by simpa using hlen) k c' t' hk
  · rw [if_neg hall] at hok ⊢
    simp only [Prog.run, Prog.log, Op.exec] at hok ⊢
    generalize hp : populateBody _ _ _ = p at hok ⊢
    cases hmb : mergeBuild E req.kind p 0 (req.classes.zip L.cached) with
    | none => rw [hmb] at hok; simp [Prog.run] at hok
    | some es =>
      rw [hmb] at hok
      simp only [Bool.false_eq_true, if_false] at hok ⊢
      rw [run_bind] at hok
      simp only [Prog.run, Outcome.ok.injEq] at hok
      obtain ⟨he, hk⟩ := mergeBuild_entries E req.kind p _ 0 es hmb
      have hsome : (es.any fun e => e.2.1) = true := by
        rw [List.any_eq_true] at hany ⊢
        obtain ⟨o, ho, h⟩ := hany
        obtain ⟨k, hk1, hk2⟩ := List.mem_iff_getElem.mp ho
        have hz : (req.classes[k]'(by omega), o) ∈ req.classes.zip L.cached := by
          rw [List.mem_iff_getElem]
          exact ⟨k, by simp; omega, by simp [hk2]⟩
        have : ((req.classes[k]'(by omega)), o.isSome) ∈ es.map (fun e => (e.1, e.2.1)) := by
          rw [he]; exact List.mem_map.mpr ⟨_, hz, rfl⟩
        obtain ⟨e, he1, he2⟩ := List.mem_map.mp this
        simp only [Prod.mk.injEq] at he2
        exact ⟨e, he1, by rw [he2.2]; exact h⟩
      refine ⟨es, he, ?_, ⟨[.readTrace], by simp [Op.changes], ?_⟩, ?_, hk⟩
      · rw [run_bind, run_updateCache_some E _ es fs d hc hsome]; rfl
      · rw [log_bind]
        unfold updateCache
        rw [if_pos hsome]
        simp [Prog.log]
      · rw [← hok]

end Trappy
