import Verif.Spec.Cache
import Verif.Lemma.Registry
import Verif.Prop.Dispatch
/-! Running the cache programs to the end. -/

namespace Trappy
open Prog

variable {α : Type}

theorem run_bind {R S : Type} (p : Prog R) (f : R → Prog S) (fs : FS) :
    (p.bind f).run fs = (f (p.run fs).1).run (p.run fs).2 := by
  induction p generalizing fs with
  | ret r => rfl
  | op o k ih => simp only [Prog.bind, Prog.run]; exact ih _ _

theorem Dict.set_set (d : Dict Str) (k a b : Str) : (d.set k a).set k b = d.set k b := by
  induction d with
  | nil => simp [Dict.set]
  | cons x d ih =>
    obtain ⟨k', v⟩ := x
    simp only [Dict.set]
    by_cases h : k' = k
    · simp [h, Dict.set]
    · simp [h, Dict.set, ih]

theorem run_writeChars (f t t0 : Str) (fs : FS) (d : Dict Str) (hc : fs.cache = some d) (hg : d.get f = some t0) :
    (writeChars f t).run fs = ((), { fs with cache := some (d.set f (t0 ++ t)) }) := by
  induction t generalizing fs d t0 with
  | nil =>
    simp only [writeChars, Prog.run, List.append_nil]
    have : d.set f t0 = d := by
      clear hc
      induction d with
      | nil => simp [Dict.get] at hg
      | cons x d ih =>
        obtain ⟨k', v⟩ := x
        simp only [Dict.set, Dict.get] at *
        by_cases h : k' = f
        · simp [h] at hg ⊢; exact hg.symm
        · simp [h] at hg ⊢; exact ih hg
    rw [this, ← hc]
  | cons c t ih =>
    simp only [writeChars, Prog.run, Op.exec, hc, hg]
    rw [ih (t0 ++ [c]) _ (d.set f (t0 ++ [c])) rfl (by rw [Dict.get_set]; simp)]
    simp [Dict.set_set]

theorem run_writeFile (f t : Str) (fs : FS) (d : Dict Str) (hc : fs.cache = some d) :
    (writeFile f t).run fs = (true, { fs with cache := some (d.set f t) }) := by
  simp only [writeFile, Prog.run, Op.exec, hc, if_true]
  rw [run_bind, run_writeChars f t [] _ (d.set f []) rfl (by rw [Dict.get_set]; simp)]
  simp [Prog.run, Dict.set_set]

theorem run_unlinkAll (d : Dict Str) (fs : FS) (hc : fs.cache = some d) :
    (unlinkAll (d.map Prod.fst)).run fs = (true, { fs with cache := some [] }) := by
  induction d generalizing fs with
  | nil => simp [unlinkAll, Prog.run, ← hc]
  | cons x d ih =>
    obtain ⟨k, v⟩ := x
    simp only [List.map_cons, unlinkAll, Prog.run, Op.exec, hc, Dict.get, if_true, Option.isSome_some, Dict.del]
    rw [ih _ rfl]

theorem run_rmtree (d : Dict Str) (fs : FS) (hc : fs.cache = some d) :
    rmtree.run fs = (true, { fs with cache := none }) := by
  simp only [rmtree, Prog.run, Op.exec, hc, Option.map_some]
  rw [run_bind, run_unlinkAll d fs hc]
  simp [Prog.run, Op.exec]

theorem run_prepareDir (fs : FS) : prepareDir.run fs = (true, { fs with cache := some [] }) := by
  cases hc : fs.cache with
  | none => simp [prepareDir, Prog.run, Op.exec, hc]
  | some d =>
    simp only [prepareDir, Prog.run, Op.exec, hc, Option.isSome_some, if_true]
    rw [run_bind, run_rmtree d fs hc]
    simp [Prog.run, Op.exec]

theorem run_readTables (E : Env α) (cs : List CClass) (fs : FS) :
    (readTables E cs).run fs = (cs.map (found E fs.cache), fs) := by
  induction cs with
  | nil => rfl
  | cons c cs ih =>
    simp only [readTables, Prog.run, Op.exec]
    rw [run_bind, ih]
    rfl

/-- the cache directory after writing the uncached tables -/
def addTables (E : Env α) : Dict Str → List (CClass × Bool × Table α) → Dict Str
  | d, [] => d
  | d, (_, true, _) :: r => addTables E d r
  | d, (c, false, t) :: r => addTables E (d.set (csvName c) (E.toCsv t)) r

theorem run_writeTables (E : Env α) (es : List (CClass × Bool × Table α)) (fs : FS) (d : Dict Str) (hc : fs.cache = some d) :
    (writeTables E es).run fs = ((), { fs with cache := some (addTables E d es) }) := by
  induction es generalizing fs d with
  | nil => simp [writeTables, Prog.run, addTables, ← hc]
  | cons e es ih =>
    obtain ⟨c, b, t⟩ := e
    cases b with
    | true => simp only [writeTables, addTables]; exact ih fs d hc
    | false =>
      simp only [writeTables, addTables]
      rw [run_bind, run_writeFile _ _ fs d hc]
      simp only [if_true]
      rw [ih _ _ rfl]

theorem run_updateCache_some (E : Env α) (md : Meta) (es : List (CClass × Bool × Table α)) (fs : FS) (d : Dict Str)
    (hc : fs.cache = some d) (h : (es.any fun e => e.2.1) = true) :
    (updateCache E md es).run fs = ((), { fs with cache := some (addTables E d es) }) := by
  unfold updateCache
  rw [if_pos h]
  exact run_writeTables E es fs d hc

theorem run_updateCache_none (E : Env α) (md : Meta) (es : List (CClass × Bool × Table α)) (fs : FS)
    (h : (es.any fun e => e.2.1) = false) :
    (updateCache E md es).run fs =
      ((), { fs with cache := some (addTables E [(metaName, E.dumpMeta md)] es) }) := by
  unfold updateCache
  rw [if_neg (by simp [h]), run_bind, run_prepareDir]
  simp only [if_true]
  rw [run_bind, run_writeFile _ _ _ [] rfl]
  simp only [if_true]
  rw [run_writeTables E es _ _ rfl]
  rfl

theorem csvName_ne_meta (c : CClass) : csvName c ≠ metaName := by
  intro h
  have := congrArg List.reverse h
  simp [csvName, metaName] at this

theorem csvName_inj {c c' : CClass} (h : csvName c = csvName c') : c.pyName = c'.pyName := by
  unfold csvName at h
  exact (List.append_left_inj _).mp h

/-! ## Parsing a body -/

theorem body_ts_indep (cls cls' : List Cls) (body : List Str) :
    ((eventsFrom (fun l => getTraceClass l cls) 0 body).map fun e => tsValue e.fields) =
      (eventsFrom (fun l => getTraceClass l cls') 0 body).map fun e => tsValue e.fields := by
  have := events_fields_indep cls cls' body 0
  have := congrArg (List.map fun p : Nat × Fields => tsValue p.2) this
  simpa [List.map_map, Function.comp_def] using this

theorem body_same_dispatch (cls cls' : List Cls) (b b' : Nat) (body : List Str) (i j : Nat)
    (h : ∀ l ∈ body, getTraceClass l cls = some i ↔ getTraceClass l cls' = some j) :
    (populateBody cls b body).tables i = (populateBody cls' b' body).tables j := by
  have h1 := populateBody_spec cls b body
  have h2 := populateBody_spec cls' b' body
  rw [h1.2.1, h2.2.1, ← body_ts_indep cls cls' body]
  generalize assign 0 ((eventsFrom (fun l => getTraceClass l cls) 0 body).map fun e => tsValue e.fields) = out
  have gen : ∀ (body : List Str) (n : Nat) (out : List Nat),
      (∀ l ∈ body, (getTraceClass l cls = some i ↔ getTraceClass l cls' = some j)) →
      rowsFor i (eventsFrom (fun l => getTraceClass l cls) n body) out =
        rowsFor j (eventsFrom (fun l => getTraceClass l cls') n body) out := by
    intro body
    induction body with
    | nil => intro n out _; simp [eventsFrom, rowsFor]
    | cons l ls ih =>
      intro n out hb
      simp only [eventsFrom]
      split
      · exact ih _ _ fun l hl => hb l (by simp [hl])
      · cases out with
        | nil => simp [rowsFor]
        | cons t out =>
          have hl := hb l (by simp)
          simp only [rowsFor]
          rw [ih _ _ fun l hl => hb l (by simp [hl])]
          by_cases hi : getTraceClass l cls = some i
          · rw [if_pos hi, if_pos (hl.mp hi)]; rfl
          · rw [if_neg hi, if_neg (fun h => hi (hl.mpr h))]
  exact gen body 0 out h

theorem body_end (cls cls' : List Cls) (b b' : Nat) (body : List Str) :
    (populateBody cls b body).endtime = (populateBody cls' b' body).endtime := by
  rw [(populateBody_spec cls b body).1, (populateBody_spec cls' b' body).1, body_ts_indep cls cls' body]

theorem body_base (cls cls' : List Cls) (body : List Str) (b : Nat)
    (hb : b = 0 ∨ b = (populateBody cls' 0 body).basetime) :
    (populateBody cls b body).basetime = (populateBody cls' 0 body).basetime := by
  have h1 := (populateBody_spec cls b body).2.2.1
  have h2 := (populateBody_spec cls' 0 body).2.2.1
  rw [if_pos rfl] at h2
  rw [h1, h2, body_ts_indep cls cls' body]
  split
  · rfl
  · rename_i h
    rcases hb with hb | hb
    · exact absurd hb h
    · rw [hb, h2]

/-- With base time 0 there is no event, hence no row. -/
theorem body_base_zero (cls : List Cls) (body : List Str) (h : (populateBody cls 0 body).basetime = 0) (i : Nat) :
    (populateBody cls 0 body).tables i = [] := by
  have hs := populateBody_spec cls 0 body
  rw [hs.2.2.1, if_pos rfl] at h
  rw [hs.2.1]
  cases he : eventsFrom (fun l => getTraceClass l cls) 0 body with
  | nil => simp [rowsFor]
  | cons e es =>
    rw [he] at h
    simp only [List.map_cons, assign, List.head?_cons, Option.getD_some] at h
    exfalso
    unfold nextTimestamp at h
    split at h
    · omega
    · simp [F64.nextafter, F64.inf] at h

end Trappy
