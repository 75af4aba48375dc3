import Verif.Prop.Crash
/-!
# C83: processes that find no cache
-/

namespace Trappy
open Prog

variable {α : Type}

/-- Whatever else happens on the disk while it runs, the program can only return `r`, if the trace is `lines`. -/
def Gives {R : Type} (lines : List Str) (r : R) : Prog R → Prop
  | .ret x => x = r
  | .op o k => ∀ fs : FS, fs.trace = lines → Gives lines r (k (o.exec fs).1)

theorem gives_interleave {R S : Type} {lines : List Str} {r x : R} (sch : List Bool) {p : Prog R} {q : Prog S} {fs : FS}
    (h : Gives lines r p) (ht : fs.trace = lines) (hx : (interleave sch p q fs).1.1 = .ret x) : x = r := by
  induction sch generalizing p q fs with
  | nil => simp only [interleave] at hx; subst hx; exact h
  | cons b sch ih =>
    cases b with
    | true =>
      refine ih (p := (p.steps 1 fs).1) ?_ (by rw [steps_trace]; exact ht) hx
      cases p with
      | ret y => exact h
      | op o k => exact h fs ht
    | false => exact ih h (by rw [steps_trace]; exact ht) hx

theorem gives_bind {R S : Type} (lines : List Str) (r : R) (p : Prog S) : Gives lines r (p.bind fun _ => .ret r) := by
  induction p with
  | ret x => exact rfl
  | op o k ih => exact fun fs _ => ih _

/-- what a parse that found no cache does after reading the trace -/
theorem cold_form (E : Env α) (req : Req) (lines : List Str) (hne : req.classes ≠ []) :
    ((doParse E false req).steps 1 ⟨lines, none⟩).2 = ⟨lines, none⟩ ∧
    ((∃ k, ((doParse E false req).steps 1 ⟨lines, none⟩).1 = .op .readTrace k ∧ k lines = .ret .raise ∧
        ((doParse E true req).run ⟨lines, none⟩).1 = .raise) ∨
      ∃ k res md es, ((doParse E false req).steps 1 ⟨lines, none⟩).1 = .op .readTrace k ∧
        k lines = (updateCache E md es).bind (fun _ => .ret (.ok res)) ∧ (es.any fun e => e.2.1) = false ∧
        ((doParse E true req).run ⟨lines, none⟩).1 = .ok res) := by
  have hall : (Loaded.nothing (α := α) req).cached.all Option.isSome = false := by
    cases hc : req.classes with
    | nil => exact absurd hc hne
    | cons c cs => simp [Loaded.nothing, hc]
  have h1 : (doParse E false req).steps 1 ⟨lines, none⟩ = (afterLoad E false req (Loaded.nothing req), ⟨lines, none⟩) := by
    simp [doParse, loadCache, Prog.bind, Prog.steps, Op.exec]
  rw [h1]
  refine ⟨rfl, ?_⟩
  simp only [afterLoad, hall, Bool.and_false, Bool.false_eq_true, if_false, doParse, if_true, Bool.not_true, Prog.run, Op.exec]
  generalize hp : populateBody _ _ _ = p
  cases hmb : mergeBuild E req.kind p 0 (req.classes.zip (Loaded.nothing (α := α) req).cached) with
  | none =>
    left
    exact ⟨_, rfl, by simp only [hp, hmb], rfl⟩
  | some es =>
    right
    refine ⟨_, _, _, es, rfl, by simp only [hp, hmb]; rfl, ?_, rfl⟩
    obtain ⟨he, _⟩ := mergeBuild_entries E req.kind p _ 0 es hmb
    rw [List.any_eq_false]
    intro e hm
    have : (e.1, e.2.1) ∈ es.map (fun e => (e.1, e.2.1)) := List.mem_map.mpr ⟨e, hm, rfl⟩
    rw [he] at this
    obtain ⟨y, hy, h⟩ := List.mem_map.mp this
    have hy2 := (List.of_mem_zip (a := y.1) (b := y.2) hy).2
    simp only [Loaded.nothing, List.mem_map] at hy2
    obtain ⟨_, _, h'⟩ := hy2
    simp only [Prod.mk.injEq] at h
    rw [← h.2, ← h']; simp

/-- **C83, part proved**: a process that finds no cache when it starts gets what it gets with the cache disabled, whatever other
programs do to the cache directory meanwhile, and however their operations are interleaved with its own. -/
theorem C83_cold_partial {S : Type} (E : Env α) (req : Req) (hne : req.classes ≠ []) (q : Prog S) (lines : List Str) (sch : List Bool)
    (r : Outcome (Result α)) (h : (interleave (true :: sch) (doParse E false req) q ⟨lines, none⟩).1.1 = .ret r) :
    r = ((doParse E true req).run ⟨lines, none⟩).1 := by
  obtain ⟨h1, h2⟩ := cold_form E req lines hne
  refine gives_interleave sch (lines := lines) ?_ (by rw [h1]) h
  rcases h2 with ⟨k, e1, e2, e3⟩ | ⟨k, res, md, es, e1, e2, -, e3⟩
  · rw [e1, e3]
    intro fs ht
    simp only [Op.exec, ht, e2]
    exact rfl
  · rw [e1, e3]
    intro fs ht
    simp only [Op.exec, ht, e2]
    exact gives_bind _ _ _

/-- Programs that only write files. -/
def OnlyWrites {R : Type} : Prog R → Prop
  | .ret _ => True
  | .op o k => (∃ f, o = .creat f ∨ ∃ c, o = .append f c) ∧ ∀ x, OnlyWrites (k x)

theorem onlyWrites_bind {R S : Type} {p : Prog R} {f : R → Prog S} (h : OnlyWrites p) (hf : ∀ x, OnlyWrites (f x)) :
    OnlyWrites (p.bind f) := by
  induction p with
  | ret x => exact hf x
  | op o k ih => exact ⟨h.1, fun x => ih x (h.2 x)⟩

theorem onlyWrites_chars (f : Str) (t : Str) : OnlyWrites (writeChars f t) := by
  induction t with
  | nil => trivial
  | cons c t ih => exact ⟨⟨f, .inr ⟨c, rfl⟩⟩, fun _ => ih⟩

theorem onlyWrites_file (f t : Str) : OnlyWrites (writeFile f t) := by
  refine ⟨⟨f, .inl rfl⟩, fun b => ?_⟩
  cases b
  · trivial
  · exact onlyWrites_bind (onlyWrites_chars f t) fun _ => trivial

theorem onlyWrites_tables (E : Env α) (es : List (CClass × Bool × Table α)) : OnlyWrites (writeTables E es) := by
  induction es with
  | nil => trivial
  | cons e es ih =>
    obtain ⟨c, b, t⟩ := e
    cases b
    · refine onlyWrites_bind (onlyWrites_file _ _) fun b => ?_
      cases b
      · trivial
      · exact ih
    · exact ih

/-- while a program writes files, another one that is about to create the directory does nothing -/
theorem writer_alone {R S : Type} (sch : List Bool) {p : Prog R} (hp : OnlyWrites p) {q : Prog S} {s : S}
    (hq : q = .ret s ∨ ∃ k, q = .op .mkdir k ∧ k false = .ret s) {fs : FS} (hfs : fs.cache.isSome) {x : R} {y : S} {fs' : FS}
    (h : interleave sch p q fs = ((.ret x, .ret y), fs')) : fs' = (p.run fs).2 := by
  induction sch generalizing p q fs with
  | nil =>
    simp only [interleave, Prod.mk.injEq] at h
    obtain ⟨⟨rfl, -⟩, rfl⟩ := h
    rfl
  | cons b sch ih =>
    cases b with
    | true =>
      cases p with
      | ret z => exact ih hp hq hfs h
      | op o k =>
        obtain ⟨⟨f, hf⟩, hk⟩ := hp
        refine ih (hk _) hq ?_ h
        obtain ⟨d, hd⟩ := Option.isSome_iff_exists.mp hfs
        rcases hf with rfl | ⟨c, rfl⟩
        · simp [Op.exec, hd]
        · simp only [Op.exec, hd]
          split <;> simp [hd]
    | false =>
      rcases hq with rfl | ⟨k, rfl, hk⟩
      · exact ih hp (.inl rfl) hfs h
      · obtain ⟨d, hd⟩ := Option.isSome_iff_exists.mp hfs
        have he : (Prog.op Op.mkdir k).steps 1 fs = (.ret s, fs) := by
          simp [Prog.steps, Op.exec, hd, hk]
        simp only [interleave, he] at h
        exact ih hp (.inl rfl) hfs h

theorem run_of_steps {R : Type} (n : Nat) (p : Prog R) (fs : FS) : p.run fs = (p.steps n fs).1.run (p.steps n fs).2 := by
  induction n generalizing p fs with
  | zero => rfl
  | succ n ih =>
    cases p with
    | ret r => rfl
    | op o k => simp only [Prog.steps, Prog.run]; exact ih _ _

theorem interleave_swap {R S : Type} (sch : List Bool) (p : Prog R) (q : Prog S) (fs : FS) :
    interleave (sch.map (!·)) q p fs = (((interleave sch p q fs).1.2, (interleave sch p q fs).1.1), (interleave sch p q fs).2) := by
  induction sch generalizing p q fs with
  | nil => rfl
  | cons b sch ih => cases b <;> simp only [List.map_cons, Bool.not_true, Bool.not_false, interleave] <;> exact ih _ _ _

/-- steps that leave the disk alone can be taken in any order -/
theorem interleave_still {R S : Type} (sch : List Bool) (p : Prog R) (q : Prog S) (fs : FS)
    (hp : ∀ n ≤ sch.count true, (p.steps n fs).2 = fs) (hq : ∀ n ≤ sch.count false, (q.steps n fs).2 = fs) :
    interleave sch p q fs = (((p.steps (sch.count true) fs).1, (q.steps (sch.count false) fs).1), fs) := by
  induction sch generalizing p q with
  | nil => rfl
  | cons b sch ih =>
    cases b with
    | true =>
      simp only [List.count_cons_self] at hp
      rw [List.count_cons_of_ne (by decide)] at hq
      have h1 := hp 1 (by omega)
      simp only [interleave, h1]
      rw [ih _ _ ?_ hq]
      · rw [List.count_cons_self, List.count_cons_of_ne (by decide), Nat.add_comm (List.count true sch) 1, steps_add, h1]
      · intro n hn
        have := hp (1 + n) (by omega)
        rwa [steps_add, h1] at this
    | false =>
      simp only [List.count_cons_self] at hq
      rw [List.count_cons_of_ne (by decide)] at hp
      have h1 := hq 1 (by omega)
      simp only [interleave, h1]
      rw [ih _ _ hp ?_]
      · rw [List.count_cons_self, List.count_cons_of_ne (by decide), Nat.add_comm (List.count false sch) 1, steps_add, h1]
      · intro n hn
        have := hq (1 + n) (by omega)
        rwa [steps_add, h1] at this

/-- the first three operations of a parse that finds no cache: it has read the trace and is about to create the directory -/
theorem three_steps (E : Env α) (req : Req) (lines : List Str) (hne : req.classes ≠ []) (res : Result α)
    (hok : ((doParse E true req).run ⟨lines, none⟩).1 = .ok res) :
    (∀ n ≤ 3, ((doParse E false req).steps n ⟨lines, none⟩).2 = ⟨lines, none⟩) ∧
    ∃ k, ((doParse E false req).steps 3 ⟨lines, none⟩).1 = .op .mkdir k ∧ Gives lines (.ok res) (.op .mkdir k) ∧ k false = .ret (.ok res) ∧ OnlyWrites (k true) ∧
      ((doParse E false req).run ⟨lines, none⟩).2 = ((k true).run ⟨lines, some []⟩).2 := by
  obtain ⟨h1, h2⟩ := cold_form E req lines hne
  rcases h2 with ⟨k, e1, e2, e3⟩ | ⟨k, res', md, es, e1, e2, hnone, e3⟩
  · rw [hok] at e3; simp at e3
  · rw [hok] at e3
    obtain rfl : res = res' := by simpa using e3
    have s2 : (doParse E false req).steps 2 ⟨lines, none⟩ = ((updateCache E md es).bind (fun _ => .ret (.ok res)), ⟨lines, none⟩) := by
      rw [show 2 = 1 + 1 from rfl, steps_add, h1, e1]
      simp only [Prog.steps, Op.exec, e2]
    have s3 : (doParse E false req).steps 3 ⟨lines, none⟩ =
        (.op .mkdir fun b => ((if b then (writeFile metaName (E.dumpMeta md)).bind fun ok => if ok then writeTables E es else .ret ()
          else .ret ()) : Prog Unit).bind (fun _ => .ret (.ok res)), ⟨lines, none⟩) := by
      rw [show 3 = 2 + 1 from rfl, steps_add, s2]
      simp only [updateCache, hnone, Bool.false_eq_true, if_false, prepareDir, Prog.bind, Prog.steps, Op.exec, Option.isSome_none]
    refine ⟨?_, _, congrArg Prod.fst s3, ?_, ?_, ?_, ?_⟩
    · intro n hn
      have : n = 0 ∨ n = 1 ∨ n = 2 ∨ n = 3 := by omega
      rcases this with rfl | rfl | rfl | rfl
      · rfl
      · exact h1
      · rw [s2]
      · rw [s3]
    · intro fs _
      exact gives_bind _ _ _
    · simp only [Bool.false_eq_true, if_false, Prog.bind]
    · refine onlyWrites_bind ?_ fun _ => trivial
      refine onlyWrites_bind (onlyWrites_file _ _) fun b => ?_
      cases b
      · trivial
      · exact onlyWrites_tables E es
    · rw [run_of_steps 3, s3]
      simp [Prog.run, Op.exec]

/-- **C83, part proved**: two processes that start together, in the sense that each finds no cache directory when it looks for it
the second time, having read the trace, both get what they get with the cache disabled; only the one that creates the
directory writes to it, and the cache left behind is the one that process leaves when it is alone. -/
theorem C83_together_partial (E : Env α) (req req' : Req) (hne : req.classes ≠ []) (hne' : req'.classes ≠ []) (lines : List Str)
    (res res' : Result α) (hok : ((doParse E true req).run ⟨lines, none⟩).1 = .ok res)
    (hok' : ((doParse E true req').run ⟨lines, none⟩).1 = .ok res') (start : List Bool) (h3 : start.count true = 3)
    (h3' : start.count false = 3) (sch : List Bool) (r r' : Outcome (Result α)) (fs : FS)
    (h : interleave (start ++ sch) (doParse E false req) (doParse E false req') ⟨lines, none⟩ = ((.ret r, .ret r'), fs)) :
    r = .ok res ∧ r' = .ok res' ∧
    ((sch.head? = some true ∧ fs = ((doParse E false req).run ⟨lines, none⟩).2) ∨
      (sch.head? = some false ∧ fs = ((doParse E false req').run ⟨lines, none⟩).2)) := by
  obtain ⟨a1, k, a2, a6, a3, a4, a5⟩ := three_steps E req lines hne res hok
  obtain ⟨b1, k', b2, b6, b3, b4, b5⟩ := three_steps E req' lines hne' res' hok'
  have happ : ∀ (s : List Bool) {R S : Type} (p : Prog R) (q : Prog S) (fs : FS), interleave (s ++ sch) p q fs =
      interleave sch (interleave s p q fs).1.1 (interleave s p q fs).1.2 (interleave s p q fs).2 := by
    intro s
    induction s with
    | nil => intros; rfl
    | cons b s ih => intros; cases b <;> simp only [List.cons_append, interleave] <;> exact ih _ _ _
  rw [happ, interleave_still start _ _ _ (by rw [h3]; exact a1) (by rw [h3']; exact b1), h3, h3', a2, b2] at h
  simp only at h
  have hs := interleave_swap sch (Prog.op Op.mkdir k) (Prog.op Op.mkdir k') ⟨lines, none⟩
  rw [h] at hs
  refine ⟨gives_interleave sch a6 rfl (by rw [h]), gives_interleave _ b6 rfl (by rw [hs]), ?_⟩
  cases sch with
  | nil => simp [interleave] at h
  | cons b sch =>
    cases b with
    | true =>
      left
      have he : (Prog.op Op.mkdir k).steps 1 ⟨lines, none⟩ = (k true, ⟨lines, some []⟩) := rfl
      simp only [interleave, he] at h
      exact ⟨rfl, by rw [a5]; exact writer_alone sch a4 (.inr ⟨k', rfl, b3⟩) rfl h⟩
    | false =>
      right
      have he : (Prog.op Op.mkdir k').steps 1 ⟨lines, none⟩ = (k' true, ⟨lines, some []⟩) := rfl
      simp only [List.map_cons, Bool.not_false, interleave, he] at hs
      exact ⟨rfl, by rw [b5]; exact writer_alone _ b4 (.inr ⟨k, rfl, a3⟩) rfl hs⟩

/-- has it finished? -/
def Prog.finished {R : Type} : Prog R → Bool
  | .ret _ => true
  | .op _ _ => false

/-- two requests that can be parsed, and a schedule that lets both finish -/
example : ((doParse exEnv true (exReq [ccSwitch])).run ⟨exTrace1, none⟩).1 ≠ .raise ∧
    ((doParse exEnv true (exReq [ccMine])).run ⟨exTrace1, none⟩).1 ≠ .raise ∧
    [true, false, false, true, true, false].count true = 3 ∧ [true, false, false, true, true, false].count false = 3 ∧
    (interleave ([true, false, false, true, true, false] ++ (List.replicate 1000 false ++ List.replicate 10 true))
      (doParse exEnv false (exReq [ccSwitch])) (doParse exEnv false (exReq [ccMine])) ⟨exTrace1, none⟩).1.1.finished = true ∧
    (interleave ([true, false, false, true, true, false] ++ (List.replicate 1000 false ++ List.replicate 10 true))
      (doParse exEnv false (exReq [ccSwitch])) (doParse exEnv false (exReq [ccMine])) ⟨exTrace1, none⟩).1.2.finished = true := by
  refine ⟨?_, ?_, ?_, ?_, ?_, ?_⟩ <;> decide +kernel

end Trappy
