import Verif.Lemma.Cache3
/-! Programs stopped after some operations. -/

namespace Trappy
open Prog

variable {α : Type}

theorem steps_add {R : Type} (m n : Nat) (p : Prog R) (fs : FS) :
    p.steps (m + n) fs = (p.steps m fs).1.steps n (p.steps m fs).2 := by
  induction m generalizing p fs with
  | zero => simp [Prog.steps]
  | succ m ih =>
    cases p with
    | ret r =>
      simp only [Prog.steps]
      cases n with
      | zero => rfl
      | succ n => simp [Prog.steps]
    | op o k =>
      rw [show m + 1 + n = (m + n) + 1 by omega]
      simp only [Prog.steps]
      exact ih _ _

/-- stopped in the first part -/
theorem steps_bind_lt {R S : Type} (p : Prog R) (f : R → Prog S) (n : Nat) (fs : FS) (h : n ≤ (p.log fs).length) :
    (p.bind f).steps n fs = ((p.steps n fs).1.bind f, (p.steps n fs).2) := by
  induction n generalizing p fs with
  | zero => rfl
  | succ n ih =>
    cases p with
    | ret r => simp [Prog.log] at h
    | op o k => simp only [Prog.bind, Prog.steps]; exact ih _ _ (by simpa [Prog.log] using h)

/-- stopped in the second part -/
theorem steps_bind_ge {R S : Type} (p : Prog R) (f : R → Prog S) (n : Nat) (fs : FS) :
    (p.bind f).steps ((p.log fs).length + n) fs = (f (p.run fs).1).steps n (p.run fs).2 := by
  induction p generalizing fs with
  | ret r => simp [Prog.log, Prog.bind, Prog.run]
  | op o k ih =>
    simp only [Prog.log, List.length_cons, Prog.bind, Prog.run]
    rw [show (((k (o.exec fs).1).log (o.exec fs).2).length + 1 + n) =
      (((k (o.exec fs).1).log (o.exec fs).2).length + n) + 1 by omega]
    simp only [Prog.steps]
    exact ih _ _

theorem steps_bind_cases {R S : Type} (p : Prog R) (f : R → Prog S) (n : Nat) (fs : FS) :
    (∃ k, k ≤ (p.log fs).length ∧ ((p.bind f).steps n fs).2 = (p.steps k fs).2) ∨
    (∃ k, n = (p.log fs).length + k ∧ ((p.bind f).steps n fs).2 = ((f (p.run fs).1).steps k (p.run fs).2).2) := by
  by_cases h : n ≤ (p.log fs).length
  · left; exact ⟨n, h, by rw [steps_bind_lt p f n fs h]⟩
  · right
    refine ⟨n - (p.log fs).length, by omega, ?_⟩
    rw [← steps_bind_ge p f _ fs]
    congr 2
    omega

theorem steps_ret {R : Type} (r : R) (n : Nat) (fs : FS) : (Prog.ret r : Prog R).steps n fs = (.ret r, fs) := by
  cases n <;> rfl

theorem steps_run {R : Type} (p : Prog R) (fs : FS) (k : Nat) (h : (p.log fs).length ≤ k) :
    p.steps k fs = (.ret (p.run fs).1, (p.run fs).2) := by
  induction p generalizing fs k with
  | ret r => simp [steps_ret, Prog.run]
  | op o f ih =>
    cases k with
    | zero => simp [Prog.log] at h
    | succ k => simp only [Prog.steps, Prog.run]; exact ih _ _ _ (by simpa [Prog.log] using h)

/-- A property of the disk that holds at every stop of a program. -/
def Always {R : Type} (P : FS → Prop) (p : Prog R) (fs : FS) : Prop := ∀ n, P (p.steps n fs).2

theorem Always.ret {R : Type} {P : FS → Prop} {r : R} {fs : FS} (h : P fs) : Always P (.ret r : Prog R) fs := by
  intro n; rw [steps_ret]; exact h

theorem Always.op {R : Type} {P : FS → Prop} {o : Op} {k : o.Ret → Prog R} {fs : FS} (h : P fs)
    (hk : Always P (k (o.exec fs).1) (o.exec fs).2) : Always P (.op o k) fs := by
  intro n
  cases n with
  | zero => exact h
  | succ n => exact hk n

theorem Always.bind {R S : Type} {P : FS → Prop} {p : Prog R} {f : R → Prog S} {fs : FS} (hp : Always P p fs)
    (hf : Always P (f (p.run fs).1) (p.run fs).2) : Always P (p.bind f) fs := by
  intro n
  rcases steps_bind_cases p f n fs with ⟨k, _, h⟩ | ⟨k, _, h⟩
  · rw [h]; exact hp k
  · rw [h]; exact hf k

theorem Always.end {R : Type} {P : FS → Prop} {p : Prog R} {fs : FS} (h : Always P p fs) : P (p.run fs).2 := by
  have := h (p.log fs).length
  rw [steps_run p fs _ (by omega)] at this
  exact this

theorem Always.start {R : Type} {P : FS → Prop} {p : Prog R} {fs : FS} (h : Always P p fs) : P fs := h 0

theorem always_writeChars {P : FS → Prop} (f t t0 : Str) (fs : FS) (d : Dict Str) (hc : fs.cache = some d)
    (hg : d.get f = some t0) (h : ∀ k, P { fs with cache := some (d.set f (t0 ++ t.take k)) }) :
    Always P (writeChars f t) fs := by
  induction t generalizing fs d t0 with
  | nil =>
    apply Always.ret
    have := h 0
    have hs : ((writeChars f []).run fs).2 = _ := congrArg Prod.snd (run_writeChars f [] t0 fs d hc hg)
    simp only [writeChars, Prog.run] at hs
    rw [hs]; simpa using this
  | cons c t ih =>
    apply Always.op
    · have := h 0
      have hs : ((writeChars f []).run fs).2 = _ := congrArg Prod.snd (run_writeChars f [] t0 fs d hc hg)
      simp only [writeChars, Prog.run] at hs
      rw [hs]; simpa using this
    · simp only [Op.exec, hc, hg]
      refine ih (t0 ++ [c]) _ (d.set f (t0 ++ [c])) rfl (by rw [Dict.get_set]; simp) ?_
      intro k
      have := h (k + 1)
      simpa [Dict.set_set] using this

theorem always_writeFile {P : FS → Prop} (f t : Str) (fs : FS) (d : Dict Str) (hc : fs.cache = some d) (h0 : P fs)
    (h : ∀ k, P { fs with cache := some (d.set f (t.take k)) }) : Always P (writeFile f t) fs := by
  apply Always.op h0
  simp only [Op.exec, hc, if_true]
  apply Always.bind
  · refine always_writeChars f t [] _ (d.set f []) rfl (by rw [Dict.get_set]; simp) ?_
    intro k
    simpa [Dict.set_set] using h k
  · rw [run_writeChars f t [] _ (d.set f []) rfl (by rw [Dict.get_set]; simp)]
    apply Always.ret
    simpa [Dict.set_set] using h t.length

theorem always_writeTables {P : FS → Prop} (E : Env α) (es : List (CClass × Bool × Table α)) (fs : FS) (d : Dict Str)
    (hc : fs.cache = some d)
    (h0 : ∀ es1, es1 <+: es → P { fs with cache := some (addTables E d es1) })
    (h : ∀ es1 c t es2 k, es = es1 ++ (c, false, t) :: es2 →
      P { fs with cache := some ((addTables E d es1).set (csvName c) ((E.toCsv t).take k)) }) :
    Always P (writeTables E es) fs := by
  have hstart : P fs := by
    have := h0 [] (by simp)
    simpa [addTables, ← hc] using this
  induction es generalizing fs d with
  | nil => exact Always.ret hstart
  | cons e es ih =>
    obtain ⟨c, b, t⟩ := e
    cases b with
    | true =>
      simp only [writeTables]
      refine ih fs d hc ?_ ?_ hstart
      · intro es1 hes
        have := h0 ((c, true, t) :: es1) (by simpa using hes)
        simpa [addTables] using this
      · intro es1 c' t' es2 k he
        have := h ((c, true, t) :: es1) c' t' es2 k (by simp [he])
        simpa [addTables] using this
    | false =>
      simp only [writeTables]
      apply Always.bind
      · refine always_writeFile _ _ fs d hc hstart ?_
        intro k
        have := h [] c t es k rfl
        simpa [addTables] using this
      · rw [run_writeFile _ _ fs d hc]
        simp only [if_true]
        have hs := h0 [(c, false, t)] (by simp)
        refine ih _ (d.set (csvName c) (E.toCsv t)) rfl ?_ ?_ (by simpa [addTables] using hs)
        · intro es1 hes
          have := h0 ((c, false, t) :: es1) (by simpa using hes)
          simpa [addTables] using this
        · intro es1 c' t' es2 k he
          have := h ((c, false, t) :: es1) c' t' es2 k (by simp [he])
          simpa [addTables] using this

theorem always_unlinkAll {P : FS → Prop} (d : Dict Str) (fs : FS) (hc : fs.cache = some d)
    (h : ∀ k, P { fs with cache := some (d.drop k) }) : Always P (unlinkAll (d.map Prod.fst)) fs := by
  induction d generalizing fs with
  | nil => apply Always.ret; have := h 0; simpa [← hc] using this
  | cons x d ih =>
    obtain ⟨k, v⟩ := x
    apply Always.op
    · have := h 0; simpa [← hc] using this
    · simp only [Op.exec, hc, Dict.get, if_true, Option.isSome_some, Dict.del]
      refine ih _ rfl ?_
      intro n
      have := h (n + 1)
      simpa using this

theorem always_rmtree {P : FS → Prop} (d : Dict Str) (fs : FS) (hc : fs.cache = some d)
    (h : ∀ k, P { fs with cache := some (d.drop k) }) (hn : P { fs with cache := none }) : Always P rmtree fs := by
  have h0 : P fs := by have := h 0; simpa [← hc] using this
  apply Always.op h0
  simp only [Op.exec, hc, Option.map_some]
  apply Always.bind
  · exact always_unlinkAll d fs hc h
  · rw [run_unlinkAll d fs hc]
    simp only [if_true]
    apply Always.op
    · have := h d.length; simpa using this
    · simp only [Op.exec]; exact Always.ret hn

theorem always_prepareDir {P : FS → Prop} (fs : FS) (h0 : P fs)
    (h : ∀ d k, fs.cache = some d → P { fs with cache := some (d.drop k) }) (hn : P { fs with cache := none })
    (he : P { fs with cache := some [] }) : Always P prepareDir fs := by
  apply Always.op h0
  cases hc : fs.cache with
  | none =>
    simp only [Op.exec, hc, Option.isSome_none, Bool.false_eq_true, if_false]
    apply Always.op h0
    simp only [Op.exec, hc]
    exact Always.ret he
  | some d =>
    simp only [Op.exec, hc, Option.isSome_some, if_true]
    apply Always.bind
    · exact always_rmtree d fs hc (fun k => h d k hc) hn
    · rw [run_rmtree d fs hc]
      simp only [if_true]
      apply Always.op hn
      simp only [Op.exec]
      exact Always.ret he

theorem always_readTables {P : FS → Prop} (E : Env α) (cs : List CClass) (fs : FS) (h : P fs) :
    Always P (readTables E cs) fs := by
  induction cs with
  | nil => exact Always.ret h
  | cons c cs ih =>
    apply Always.op h
    apply Always.bind ih
    rw [run_readTables]
    exact Always.ret h

theorem always_loadCache {P : FS → Prop} (E : Env α) (req : Req) (fs : FS) (h0 : P fs)
    (h : ∀ d k, fs.cache = some d → P { fs with cache := some (d.drop k) }) (hn : P { fs with cache := none }) :
    Always P (loadCache E req) fs := by
  unfold loadCache
  apply Always.op h0
  cases hc : fs.cache with
  | none => simp only [Op.exec, hc, Option.isSome_none, Bool.false_eq_true, if_false]; exact Always.ret h0
  | some d =>
    simp only [Op.exec, hc, Option.isSome_some, if_true]
    apply Always.op h0
    simp only [Op.exec, hc, Option.bind_some]
    split
    · exact Always.ret h0
    · split
      · exact Always.ret h0
      · apply Always.op h0
        simp only [Op.exec]
        rename_i md _
        have hcases : cacheValid E md fs.trace = true ∨ cacheValid E md fs.trace = false := by
          cases cacheValid E md fs.trace <;> simp
        rcases hcases with hv | hv
        · simp only [hv, if_true]
          cases req.kind with
          | ftrace =>
            cases md.header with
            | none => exact Always.ret h0
            | some h =>
              apply Always.bind (always_readTables E _ fs h0)
              rw [run_readTables]; exact Always.ret h0
          | systrace =>
            apply Always.bind (always_readTables E _ fs h0)
            rw [run_readTables]; exact Always.ret h0
        · simp only [hv, Bool.false_eq_true, if_false]
          apply Always.bind (always_rmtree d fs hc (fun k => h d k hc) hn)
          rw [run_rmtree d fs hc]
          exact Always.ret hn

theorem always_updateCache {P : FS → Prop} (E : Env α) (md : Meta) (es : List (CClass × Bool × Table α)) (fs : FS)
    (h0 : P fs) (h : ∀ d k, fs.cache = some d → P { fs with cache := some (d.drop k) }) (hn : P { fs with cache := none })
    (he : P { fs with cache := some [] })
    (hm : ∀ k, P { fs with cache := some [(metaName, (E.dumpMeta md).take k)] })
    (hw : ∀ d, fs.cache = some d ∨ d = [(metaName, E.dumpMeta md)] →
      (∀ es1, es1 <+: es → P { fs with cache := some (addTables E d es1) }) ∧
      ∀ es1 c t es2 k, es = es1 ++ (c, false, t) :: es2 →
        P { fs with cache := some ((addTables E d es1).set (csvName c) ((E.toCsv t).take k)) }) :
    Always P (updateCache E md es) fs := by
  unfold updateCache
  split
  · cases hc : fs.cache with
    | none =>
      have : ∀ es : List (CClass × Bool × Table α), Always P (writeTables E es) fs := by
        intro es
        induction es with
        | nil => exact Always.ret h0
        | cons e es ih =>
          obtain ⟨c, b, t⟩ := e
          cases b with
          | true => exact ih
          | false =>
            simp only [writeTables, writeFile, Prog.bind]
            apply Always.op h0
            simp only [Op.exec, hc, Bool.false_eq_true, if_false, Prog.bind]
            exact Always.ret h0
      exact this es
    | some d => exact always_writeTables E es fs d hc (hw d (Or.inl hc)).1 (hw d (Or.inl hc)).2
  · apply Always.bind (always_prepareDir fs h0 h hn he)
    rw [run_prepareDir]
    simp only [if_true]
    apply Always.bind
    · refine always_writeFile _ _ _ [] rfl he ?_
      intro k
      simpa [Dict.set] using hm k
    · rw [run_writeFile _ _ _ [] rfl]
      simp only [if_true]
      refine always_writeTables E es _ [(metaName, E.dumpMeta md)] rfl ?_ ?_
      · intro es1 hes; exact (hw _ (Or.inr rfl)).1 es1 hes
      · intro es1 c t es2 k he; exact (hw _ (Or.inr rfl)).2 es1 c t es2 k he

end Trappy
