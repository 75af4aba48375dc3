import Verif.Lemma.Crash2
import Verif.Lemma.CacheEnv
import Verif.Prop.Cache
/-!
# C34, C35, C83: killed and concurrent parses
-/

namespace Trappy
open Prog

variable {α : Type}

/-! ## C34 -/

theorem unreadable (E : Env α) (req : Req) (lines : List Str) (d : Dict Str) (h : d.get metaName = none) :
    (doParse E false req).run ⟨lines, some d⟩ = (.raise, ⟨lines, some d⟩) := by
  rw [doParse_run, run_loadCache_noMeta E req _ d rfl h]

/-- the first four operations of a parse without a cache -/
theorem four_steps (E : Env α) (req : Req) (lines : List Str) (hne : req.classes ≠ []) (res : Result α)
    (hok : ((doParse E false req).run ⟨lines, none⟩).1 = .ok res) :
    ((doParse E false req).steps 4 ⟨lines, none⟩).2 = ⟨lines, some []⟩ := by
  have hall : (Loaded.nothing (α := α) req).cached.all Option.isSome = false := by
    cases hc : req.classes with
    | nil => exact absurd hc hne
    | cons c cs => simp [Loaded.nothing, hc]
  have hrun : ((doParse E false req).run ⟨lines, none⟩) =
      (afterLoad E false req (Loaded.nothing req)).run ⟨lines, none⟩ := trace_unchanged_cold rfl
  rw [hrun] at hok
  have h1 : (doParse E false req).steps 4 ⟨lines, none⟩ =
      (afterLoad E false req (Loaded.nothing req)).steps 3 ⟨lines, none⟩ := by
    simp [doParse, loadCache, Prog.bind, Prog.steps, Op.exec]
  rw [h1]
  unfold afterLoad at hok ⊢
  simp only [hall, Bool.and_false, Bool.false_eq_true, if_false, Prog.run, Prog.steps, Op.exec] at hok ⊢
  generalize hp : populateBody _ _ _ = p at hok ⊢
  cases hmb : mergeBuild E req.kind p 0 (req.classes.zip (Loaded.nothing (α := α) req).cached) with
  | none => rw [hmb] at hok; simp [Prog.run] at hok
  | some es =>
    simp only
    have hnone : (es.any fun e => e.2.1) = false := by
      obtain ⟨he, _⟩ := mergeBuild_entries E req.kind p _ 0 es hmb
      rw [List.any_eq_false]
      intro e hm
      have : (e.1, e.2.1) ∈ es.map (fun e => (e.1, e.2.1)) := List.mem_map.mpr ⟨e, hm, rfl⟩
      rw [he] at this
      obtain ⟨y, hy, h⟩ := List.mem_map.mp this
      have hy2 := (List.of_mem_zip (a := y.1) (b := y.2) hy).2
      simp only [Loaded.nothing, List.mem_map] at hy2
      obtain ⟨_, _, h'⟩ := hy2
      simp only [Prod.mk.injEq] at h
      rw [← h.2, ← h']; simp
    unfold updateCache
    rw [if_neg (by simp [hnone])]
    simp [prepareDir, Prog.bind, Prog.steps, Op.exec]

/-- **C34 refuted**, in every environment and for every trace that can be parsed: if the first parse of a trace is
killed right after it created the cache directory (after its fourth operation), every later parse with the cache
enabled fails, whatever it asks for, and leaves the disk as it is, so this never ends. -/
theorem C34_unreadable_refuted (E : Env α) (req : Req) (lines : List Str) (hne : req.classes ≠ []) (res : Result α)
    (hok : ((doParse E false req).run ⟨lines, none⟩).1 = .ok res) :
    ∃ n, ∀ req', (doParse E false req').run ((doParse E false req).steps n ⟨lines, none⟩).2 =
      (.raise, ((doParse E false req).steps n ⟨lines, none⟩).2) := by
  refine ⟨4, fun req' => ?_⟩
  rw [four_steps E req lines hne res hok]
  exact unreadable E req' lines [] rfl

/-- a trace that can be parsed -/
example : ∃ res, ((doParse exEnv false (exReq [ccSwitch])).run ⟨exTrace1, none⟩).1 = .ok res :=
  ⟨⟨F64.ofRat 21 2, F64.ofRat 11 1, [(cs!"version", cs!"6")],
    [[(F64.ofRat 21 2, cs!"*x=1"), (F64.ofRat 11 1, cs!"*x=3")]]⟩, by decide +kernel⟩

/-- A disk whose cache directory is missing or has complete metadata can be parsed. -/
theorem parse_succeeds (E : Env α) (htot : ∀ k c rs, (E.create k c rs).isSome = true) (req : Req) (fs : FS)
    (h : ∀ d, fs.cache = some d → ∃ t md, d.get metaName = some t ∧ E.loadMeta t = some md ∧
      (cacheValid E md fs.trace = true → req.kind = .ftrace → md.header ≠ none)) :
    ∃ res, ((doParse E false req).run fs).1 = .ok res := by
  have hmb : ∀ (p : Parsed) (r : List (CClass × Option (Table α))) (i : Nat), ∃ es, mergeBuild E req.kind p i r = some es := by
    intro p r
    induction r with
    | nil => intro i; exact ⟨_, rfl⟩
    | cons x r ih =>
      obtain ⟨c, o⟩ := x
      intro i
      cases o with
      | some t => obtain ⟨es, h⟩ := ih i; exact ⟨_, by simp only [mergeBuild, h]; rfl⟩
      | none =>
        obtain ⟨t, ht⟩ := Option.isSome_iff_exists.mp (htot req.kind c (p.tables i))
        obtain ⟨es, h⟩ := ih (i + 1)
        exact ⟨_, by simp only [mergeBuild, ht, h]; rfl⟩
  have hout : ∀ (L : Loaded α) (lines : List Str), ∃ res, outcomeOf E false req L lines = .ok res := by
    intro L lines
    unfold outcomeOf
    split
    · exact ⟨_, rfl⟩
    · obtain ⟨es, he⟩ := hmb (populateBody ((uncached (req.classes.zip L.cached)).map CClass.cls) L.basetime (bodyOf req.kind lines))
        (req.classes.zip L.cached) 0
      simp only [he]
      exact ⟨_, rfl⟩
  rw [doParse_run]
  cases hc : fs.cache with
  | none => rw [run_loadCache_none E req fs hc]; simp only [afterLoad_fst]; exact hout _ _
  | some d =>
    obtain ⟨t, md, h1, h2, h3⟩ := h d hc
    cases hv : cacheValid E md fs.trace with
    | false => rw [run_loadCache_stale E req fs d hc h1 h2 hv]; simp only [afterLoad_fst]; exact hout _ _
    | true =>
      rw [run_loadCache_ok E req fs d hc h1 h2 hv]
      cases hk : req.kind with
      | systrace => simp only [afterLoad_fst]; exact hout _ _
      | ftrace =>
        cases hh : md.header with
        | none => exact absurd hh (h3 hv hk)
        | some h => simp only [afterLoad_fst]; exact hout _ _

/-- **C34, exactly.** For all states of the disk, however they came about, and all requests: the trace can be parsed exactly if there is no cache directory, or its metadata can be read and, if they
are those of the trace and it is no systrace, have the header. Otherwise the parse raises and leaves the disk as it is, and so does every later parse with the same kind of reader. -/
theorem C34_exact (E : Env α) (htot : ∀ k c rs, (E.create k c rs).isSome = true) (req : Req) (fs : FS) :
    ((∃ res, ((doParse E false req).run fs).1 = .ok res) ↔
      ∀ d, fs.cache = some d → ∃ t md, d.get metaName = some t ∧ E.loadMeta t = some md ∧ (cacheValid E md fs.trace = true → req.kind = .ftrace → md.header ≠ none)) ∧
    ((¬ ∃ res, ((doParse E false req).run fs).1 = .ok res) → ∀ req' : Req, req'.kind = req.kind → (doParse E false req').run fs = (.raise, fs)) := by
  have hfail : ∀ req' : Req, req'.kind = req.kind →
      (¬ ∀ d, fs.cache = some d → ∃ t md, d.get metaName = some t ∧ E.loadMeta t = some md ∧ (cacheValid E md fs.trace = true → req.kind = .ftrace → md.header ≠ none)) →
      (doParse E false req').run fs = (.raise, fs) := by
    intro req' hk h
    rw [doParse_run]
    obtain ⟨d, hd⟩ := not_forall.1 h
    obtain ⟨hd, h⟩ := Classical.not_imp.1 hd
    cases ht : d.get metaName with
    | none => rw [run_loadCache_noMeta E req' fs d hd ht]
    | some t =>
      cases hm : E.loadMeta t with
      | none => rw [run_loadCache_badMeta E req' fs d hd ht hm]
      | some md =>
        have hh : ¬ (cacheValid E md fs.trace = true → req.kind = .ftrace → md.header ≠ none) := fun hh => h ⟨t, md, ht, hm, hh⟩
        obtain ⟨hv, hh⟩ := Classical.not_imp.1 hh
        obtain ⟨hf, hh⟩ := Classical.not_imp.1 hh
        rw [run_loadCache_ok E req' fs d hd ht hm hv, hk, hf, Classical.not_not.1 hh]
  have hiff : (∃ res, ((doParse E false req).run fs).1 = .ok res) ↔
      ∀ d, fs.cache = some d → ∃ t md, d.get metaName = some t ∧ E.loadMeta t = some md ∧ (cacheValid E md fs.trace = true → req.kind = .ftrace → md.header ≠ none) := by
    constructor
    · rintro ⟨res, hres⟩
      by_contra h
      rw [hfail req rfl h] at hres
      simp at hres
    · exact parse_succeeds E htot req fs
  exact ⟨hiff, fun h req' hk => hfail req' hk fun hc => h (hiff.2 hc)⟩

/-- metadata of the trace without the header, and the same of another trace -/
example : ((doParse exEnv false (exReq [ccSwitch])).run ⟨exTrace1, some [(metaName, exEnv.dumpMeta { goodMeta exEnv .ftrace exTrace1 with header := none })]⟩).1 = .raise ∧
    ((doParse exEnv false (exReq [ccSwitch])).run ⟨exTrace1, some [(metaName, exEnv.dumpMeta { goodMeta exEnv .ftrace [] with header := none })]⟩).1 ≠ .raise := by
  constructor
  · decide +kernel
  · decide +kernel

/-- **C34, part proved**: kill a parse at any point, in any state of the disk.  If the cache directory is then missing
or its metadata file is complete, every later parse with the same kind of reader succeeds. -/
theorem C34_readable_partial (E : Env α) (hE : E.Faithful) (htot : ∀ k c rs, (E.create k c rs).isSome = true)
    (req req' : Req) (fs : FS) (n : Nat)
    (h : ((doParse E false req).steps n fs).2.cache = none ∨
      ∃ d md, ((doParse E false req).steps n fs).2.cache = some d ∧ d.get metaName = some (E.dumpMeta md) ∧
        (req'.kind = .ftrace → md.header ≠ none)) :
    ∃ res, ((doParse E false req').run ((doParse E false req).steps n fs).2).1 = .ok res := by
  apply parse_succeeds E htot
  intro d hd
  rcases h with h | ⟨d', md, h1, h2, h3⟩
  · rw [h] at hd; simp at hd
  · rw [h1] at hd
    simp only [Option.some.injEq] at hd
    subst hd
    exact ⟨_, md, h2, hE.json md, fun _ => h3⟩

/-- killed in the middle of the table: the directory exists and the metadata are complete -/
example : ∃ n d md, ((doParse exEnv false (exReq [ccSwitch])).steps n ⟨exTrace1, none⟩).2.cache = some d ∧
    d.get metaName = some (exEnv.dumpMeta md) ∧ md.header ≠ none ∧
    d.get (csvName ccSwitch) = some ((exEnv.toCsv [(F64.ofRat 21 2, cs!"*x=1"), (F64.ofRat 11 1, cs!"*x=3")]).take 10) := by
  refine ⟨4 + (1 + (exDump (goodMeta exEnv .ftrace exTrace1)).length + (1 + 10)),
    [(metaName, exDump (goodMeta exEnv .ftrace exTrace1)),
     (csvName ccSwitch, (exToCsv [(F64.ofRat 21 2, cs!"*x=1"), (F64.ofRat 11 1, cs!"*x=3")]).take 10)],
    goodMeta exEnv .ftrace exTrace1, ?_, ?_, ?_, ?_⟩ <;> decide +kernel

/-- When the cache already holds one of the requested tables, the metadata are never touched: killing such a parse is
always harmless in this sense. -/
theorem C34_warm_partial (E : Env α) (hE : E.Faithful) (htot : ∀ k c rs, (E.create k c rs).isSome = true)
    (req req' : Req) (fs : FS) (d : Dict Str) (hc : fs.cache = some d) {t : Str}
    (ht : d.get metaName = some t) {md : Meta} (hm : E.loadMeta t = some md) (hv : cacheValid E md fs.trace = true)
    (hh : md.header ≠ none) (hsome : ∃ c ∈ req.classes, (found E (some d) c).isSome) (n : Nat) :
    ∃ res, ((doParse E false req').run ((doParse E false req).steps n fs).2).1 = .ok res := by
  apply parse_succeeds E htot
  have hall : Always (fun fs' => ∀ d', fs'.cache = some d' → d'.get metaName = some t) (doParse E false req) fs := by
    have h0 : ∀ d', fs.cache = some d' → d'.get metaName = some t := by
      intro d' hd'; rw [hc] at hd'; simp at hd'; subst hd'; exact ht
    simp only [doParse, Bool.false_eq_true, if_false]
    apply Always.bind
    · intro k
      have : ∀ (k : Nat), ((loadCache E req).steps k fs).2 = fs := by
        have hA : Always (fun fs' => fs' = fs) (loadCache E req) fs := by
          simp only [loadCache]
          refine Always.op ?_ ?_
          · rfl
          simp only [Op.exec, hc, Option.isSome_some, if_true]
          refine Always.op ?_ ?_
          · rfl
          simp only [Op.exec, hc, Option.bind_some, ht, hm]
          refine Always.op ?_ ?_
          · rfl
          simp only [Op.exec, hv, if_true]
          cases req.kind with
          | ftrace =>
            cases md.header with
            | none => exact Always.ret rfl
            | some h =>
              refine Always.bind (P := fun fs' => fs' = fs) (always_readTables E _ fs rfl) ?_
              rw [run_readTables]; exact Always.ret rfl
          | systrace =>
            refine Always.bind (P := fun fs' => fs' = fs) (always_readTables E _ fs rfl) ?_
            rw [run_readTables]; exact Always.ret rfl
        exact hA
      rw [this k]; exact h0
    · rw [run_loadCache_ok E req fs d hc ht hm hv]
      have key : ∀ L : Loaded α, L.cached = req.classes.map (found E (some d)) →
          Always (fun fs' => ∀ d', fs'.cache = some d' → d'.get metaName = some t) (afterLoad E false req L) fs := by
        intro L hL
        unfold afterLoad
        split
        · exact Always.ret h0
        · refine Always.op ?_ ?_
          · exact h0
          simp only [Op.exec]
          generalize hp : populateBody _ _ _ = p
          cases hmb : mergeBuild E req.kind p 0 (req.classes.zip L.cached) with
          | none => exact Always.ret h0
          | some es =>
            simp only [Bool.false_eq_true, if_false]
            have hany : (es.any fun e => e.2.1) = true := by
              obtain ⟨he, _⟩ := mergeBuild_entries E req.kind p _ 0 es hmb
              obtain ⟨c, hc1, hc2⟩ := hsome
              have hz : (c, found E (some d) c) ∈ req.classes.zip L.cached := by
                rw [hL, List.zip_map_right]
                refine List.mem_map.mpr ⟨(c, c), ?_, rfl⟩
                clear * - hc1
                generalize req.classes = cs at hc1
                induction cs with
                | nil => simp at hc1
                | cons a cs ih =>
                  rcases List.mem_cons.mp hc1 with rfl | h
                  · simp
                  · exact List.mem_cons_of_mem _ (ih h)
              have : (c, true) ∈ es.map (fun e => (e.1, e.2.1)) := by
                rw [he]; exact List.mem_map.mpr ⟨_, hz, by simp [hc2]⟩
              obtain ⟨e, he1, he2⟩ := List.mem_map.mp this
              simp only [Prod.mk.injEq] at he2
              exact List.any_eq_true.mpr ⟨e, he1, he2.2⟩
            have hup : ∀ md', Always (fun fs' => ∀ d', fs'.cache = some d' → d'.get metaName = some t)
                (updateCache E md' es) fs := by
              intro md'
              unfold updateCache
              rw [if_pos hany]
              refine always_writeTables (P := fun fs' => ∀ d', fs'.cache = some d' → d'.get metaName = some t) E es fs d hc ?_ ?_
              · intro es1 _ d' hd'
                simp only [Option.some.injEq] at hd'
                subst hd'
                rw [addTables_get _ _ _ fun e _ _ => csvName_ne_meta e.1]; exact ht
              · intro es1 c tb es2 k _ d' hd'
                simp only [Option.some.injEq] at hd'
                subst hd'
                rw [Dict.get_set, if_neg (csvName_ne_meta c), addTables_get _ _ _ fun e _ _ => csvName_ne_meta e.1]
                exact ht
            apply Always.bind (hup _)
            exact Always.ret (hup _).end
      cases hk : req.kind with
      | systrace => exact key _ rfl
      | ftrace =>
        cases hh : md.header with
        | none => exact Always.ret h0
        | some h => exact key _ rfl
  intro d' hd'
  exact ⟨t, md, hall n d' hd', hm, fun _ => fun _ => hh⟩

example : ∃ d md, d.get metaName = some (exEnv.dumpMeta md) ∧ cacheValid exEnv md exTrace1 = true ∧ md.header ≠ none ∧
    (∃ c ∈ (exReq [ccMine, ccSwitch]).classes, (found exEnv (some d) c).isSome) ∧
    (∃ c ∈ (exReq [ccMine, ccSwitch]).classes, (found exEnv (some d) c).isNone) := by
  refine ⟨[(metaName, exDump (goodMeta exEnv .ftrace exTrace1)), (csvName ccSwitch, exToCsv [])],
    goodMeta exEnv .ftrace exTrace1, ?_, ?_, ?_, ⟨ccSwitch, ?_, ?_⟩, ⟨ccMine, ?_, ?_⟩⟩ <;> decide +kernel

/-! ## C35 -/

/-- **C35 refuted**, in every environment whose CSV writer goes row by row: if the class has at least one row and the
first parse is killed when all rows but the last are on disk, the next parse returns the table without its last row. -/
theorem C35_wrong_data_refuted (E : Env α) (hE : E.Faithful) (hrow : ∀ t r, E.toCsv t <+: E.toCsv (t ++ [r]))
    (c : CClass) (kind : Kind) (u : UserParams) (lines : List Str) (t : Table α) (r : Nat × α)
    (ht : (E.create kind c ((populateBody [c.cls] 0 (bodyOf kind lines)).tables 0)).map (E.finalize c) = some (t ++ [r])) :
    ∃ n base end' header,
      ((doParse E true ⟨kind, [c], u⟩).run ⟨lines, none⟩).1 =
        .ok ⟨base, end', header, [userApply false base u (t ++ [r])]⟩ ∧
      ((doParse E false ⟨kind, [c], u⟩).run ((doParse E false ⟨kind, [c], u⟩).steps n ⟨lines, none⟩).2).1 =
        .ok ⟨base, end', header, [userApply true base u t]⟩ := by
  have hfit : Fit (· = c) kind lines := ⟨fun _ _ h h' _ => h.trans h'.symm, fun _ _ _ _ h h' _ _ => h.trans h'.symm⟩
  have hreq : (⟨kind, [c], u⟩ : Req).Ok (· = c) := ⟨by simp, by simp⟩
  have hall : allTables E kind lines [c] = some [t ++ [r]] := by
    simp only [allTables, tableOf, ht]
  have hdis := run_disabled hE.toBasic hreq (fs := ⟨lines, none⟩) hfit
  have hexp : expected E ⟨kind, [c], u⟩ lines =
      .ok ⟨baseOf kind lines, endOf kind lines, headerOf kind lines, [userApply false (baseOf kind lines) u (t ++ [r])]⟩ := by
    simp only [expected, hall, List.map_cons, List.map_nil]
  obtain ⟨rest, hrest⟩ := hrow t r
  -- the killed run
  have hkill : ∃ n, ((doParse E false ⟨kind, [c], u⟩).steps n ⟨lines, none⟩).2 =
      ⟨lines, some [(metaName, E.dumpMeta (goodMeta E kind lines)), (csvName c, E.toCsv t)]⟩ := by
    have hok : ((doParse E false ⟨kind, [c], u⟩).run ⟨lines, none⟩).1 =
        .ok ⟨baseOf kind lines, endOf kind lines, headerOf kind lines, [userApply false (baseOf kind lines) u (t ++ [r])]⟩ := by
      rw [trace_unchanged_cold rfl, (run_cold hE.toBasic hreq (fs := ⟨lines, none⟩) hfit (by simp)).1]
      exact hexp
    have h4 := four_steps E ⟨kind, [c], u⟩ lines (by simp) _ hok
    -- the program after four operations
    have hprog : ∃ k : Bool → Prog (Outcome (Result α)), ((doParse E false ⟨kind, [c], u⟩).steps 4 ⟨lines, none⟩).1 =
        (writeFile metaName (E.dumpMeta (goodMeta E kind lines))).bind
          fun ok => (if ok then (writeFile (csvName c) (E.toCsv (t ++ [r]))).bind k else k false) := by
      have h1 : (doParse E false ⟨kind, [c], u⟩).steps 4 ⟨lines, none⟩ =
          (afterLoad E false ⟨kind, [c], u⟩ (Loaded.nothing ⟨kind, [c], u⟩)).steps 3 ⟨lines, none⟩ := by
        simp [doParse, loadCache, Prog.bind, Prog.steps, Op.exec]
      rw [h1]
      have hb : (populateBody [c.cls] 0 (bodyOf kind lines)).basetime = baseOf kind lines := body_base _ _ _ _ (Or.inl rfl)
      have he : (populateBody [c.cls] 0 (bodyOf kind lines)).endtime = endOf kind lines := body_end _ _ _ _ _
      obtain ⟨t0, ht0, ht1⟩ := Option.map_eq_some_iff.mp ht
      have hassoc : ∀ {A B C : Type} (p : Prog A) (f : A → Prog B) (g : B → Prog C),
          (p.bind f).bind g = p.bind fun x => (f x).bind g := by
        intro A B C p f g
        induction p with
        | ret r => rfl
        | op o k ih => simp only [Prog.bind]; congr; funext x; exact ih x
      refine ⟨fun ok => (if ok then (Prog.ret () : Prog Unit) else .ret ()).bind fun _ =>
        .ret (.ok ⟨baseOf kind lines, endOf kind lines, headerOf kind lines,
          [userApply false (baseOf kind lines) u (t ++ [r])]⟩), ?_⟩
      simp only [afterLoad, Loaded.nothing, List.map_cons, List.map_nil, List.zip_cons_cons, List.zip_nil_left, uncached,
        List.all_cons, Option.isSome_none, Bool.false_and, Bool.and_false, Bool.false_eq_true, if_false, Prog.steps, Op.exec,
        mergeBuild, ht0, Option.map_some, ht1, hb, he, updateCache, List.any_cons, List.any_nil, Bool.or_false, prepareDir,
        Prog.bind, if_true, hassoc, goodMeta]
      congr 1
      funext ok
      cases ok with
      | false => rfl
      | true => simp only [if_true, writeTables, hassoc]
    obtain ⟨k, hk⟩ := hprog
    refine ⟨4 + (((writeFile metaName (E.dumpMeta (goodMeta E kind lines))).log ⟨lines, some []⟩).length +
      (1 + (E.toCsv t).length)), ?_⟩
    rw [steps_add, h4, hk, steps_bind_ge, run_writeFile _ _ _ [] rfl]
    simp only [if_true]
    rw [steps_bind_lt]
    · simp only [writeFile, Nat.add_comm 1, Prog.steps, Op.exec, if_true, Dict.set]
      rw [steps_bind_lt _ _ _ _ (by rw [log_writeChars, List.length_map, ← hrest]; simp)]
      have hw : ∀ (s s0 rest : Str) (d : Dict Str), d.get (csvName c) = some s0 →
          ((writeChars (csvName c) (s ++ rest)).steps s.length ⟨lines, some d⟩).2 = ⟨lines, some (d.set (csvName c) (s0 ++ s))⟩ := by
        intro s
        induction s with
        | nil =>
          intro s0 rest d hd
          have := run_writeChars (csvName c) [] s0 ⟨lines, some d⟩ d rfl hd
          simpa [writeChars, Prog.run, Prog.steps] using congrArg Prod.snd this
        | cons x s ih =>
          intro s0 rest d hd
          simp only [List.cons_append, writeChars, List.length_cons, Prog.steps, Op.exec, hd]
          rw [ih (s0 ++ [x]) rest _ (by rw [Dict.get_set]; simp)]
          simp [Dict.set_set]
      rw [← hrest]
      have hne := csvName_ne_meta c
      simp only
      rw [hw (E.toCsv t) [] rest]
      · simp [Dict.set, hne.symm]
      · simp [Dict.get, hne.symm]
    · rw [log_writeFile _ _ _ _ rfl]
      simp only [List.length_cons, List.length_map]
      rw [← hrest]
      simp; omega
  obtain ⟨n, hn⟩ := hkill
  refine ⟨n, baseOf kind lines, endOf kind lines, headerOf kind lines, by rw [hdis]; exact hexp, ?_⟩
  rw [hn, doParse_run]
  have hmeta : Dict.get [(metaName, E.dumpMeta (goodMeta E kind lines)), (csvName c, E.toCsv t)] metaName =
      some (E.dumpMeta (goodMeta E kind lines)) := by simp [Dict.get]
  have hv : cacheValid E (goodMeta E kind lines) lines = true := by simp [cacheValid, goodMeta]
  have hfound : found E (some [(metaName, E.dumpMeta (goodMeta E kind lines)), (csvName c, E.toCsv t)]) c = some t := by
    have hne := csvName_ne_meta c
    simp [found, Dict.get, hne.symm, hE.csv]
  rw [run_loadCache_ok E ⟨kind, [c], u⟩ ⟨lines, some _⟩ _ rfl hmeta (hE.json _) hv]
  cases kind with
  | ftrace =>
    simp only [goodMeta, afterLoad_fst, outcomeOf, List.map_cons, List.map_nil, hfound, List.all_cons, List.all_nil,
      Option.isSome_some, Bool.and_true, Bool.not_false, if_true, List.filterMap_cons, List.filterMap_nil,
      Option.map_some, Option.getD_some]
    rw [show found E (some [(metaName, E.dumpMeta ⟨some (E.md5 lines), some (baseOf .ftrace lines), some (endOf .ftrace lines),
      some (headerOf .ftrace lines)⟩), (csvName c, E.toCsv t)]) c = some t from hfound]
    rfl
  | systrace =>
    simp only [goodMeta, afterLoad_fst, outcomeOf, List.map_cons, List.map_nil, hfound, List.all_cons, List.all_nil,
      Option.isSome_some, Bool.and_true, Bool.not_false, if_true, List.filterMap_cons, List.filterMap_nil,
      Option.map_some, Option.getD_some]
    rw [show found E (some [(metaName, E.dumpMeta ⟨some (E.md5 lines), some (baseOf .systrace lines), some (endOf .systrace lines),
      none⟩), (csvName c, E.toCsv t)]) c = some t from hfound]
    rfl

/-- all hypotheses hold in the example environment -/
example : exEnv.Faithful ∧ (∀ t r, exEnv.toCsv t <+: exEnv.toCsv (t ++ [r])) ∧
    (exEnv.create .ftrace ccSwitch ((populateBody [ccSwitch.cls] 0 (bodyOf .ftrace exTrace1)).tables 0)).map
      (exEnv.finalize ccSwitch) = some ([(F64.ofRat 21 2, cs!"*x=1")] ++ [(F64.ofRat 11 1, cs!"*x=3")]) :=
  ⟨exEnv_faithful, exToCsv_rows, by decide +kernel⟩

/-- and the two results differ: the second row is gone -/
example : ∃ n res res',
    ((doParse exEnv true (exReq [ccSwitch])).run ⟨exTrace1, none⟩).1 = .ok res ∧
    ((doParse exEnv false (exReq [ccSwitch])).run ((doParse exEnv false (exReq [ccSwitch])).steps n ⟨exTrace1, none⟩).2).1 =
      .ok res' ∧
    res.tables = [[(F64.ofRat 21 2, cs!"*x=1"), (F64.ofRat 11 1, cs!"*x=3")]] ∧ res'.tables = [[(F64.ofRat 21 2, cs!"*x=1")]] := by
  refine ⟨4 + (1 + (exDump (goodMeta exEnv .ftrace exTrace1)).length + (1 + (exToCsv [(F64.ofRat 21 2, cs!"*x=1")]).length)),
    ⟨F64.ofRat 21 2, F64.ofRat 11 1, [(cs!"version", cs!"6")],
      [[(F64.ofRat 21 2, cs!"*x=1"), (F64.ofRat 11 1, cs!"*x=3")]]⟩,
    ⟨F64.ofRat 21 2, F64.ofRat 11 1, [(cs!"version", cs!"6")], [[(F64.ofRat 21 2, cs!"*x=1")]]⟩, ?_, ?_, rfl, rfl⟩ <;>
  decide +kernel

theorem history_diskRight {E : Env α} (hE : E.Faithful) {U : CClass → Prop} {kind : Kind} (reqs : List Req) :
    ∀ fs : FS, Fit U kind fs.trace → (∀ req ∈ reqs, req.kind = kind ∧ req.Ok U ∧ req.classes ≠ []) →
      DiskRight E U kind fs →
      (history E false (reqs.map .parse) fs).2.trace = fs.trace ∧ DiskRight E U kind (history E false (reqs.map .parse) fs).2 := by
  induction reqs with
  | nil => intro fs _ _ h; exact ⟨rfl, h⟩
  | cons req reqs ih =>
    intro fs hf hr hd
    obtain ⟨hk, hok, hne⟩ := hr req (by simp)
    subst hk
    have hs := diskRight_step hE hok hf hne hd
    have := ih ((doParse E false req).run fs).2 (by rw [hs.1]; exact hf) (fun r h => hr r (by simp [h])) hs.2
    simp only [List.map_cons, history]
    exact ⟨this.1.trans hs.1, this.2⟩

/-- **C35, part proved**: after any number of complete parses of a trace, kill one more at any point.  Then there is at
most one file, `f`, with which something can go wrong: every later parse that does not use it either fails or returns what it
returns with the cache disabled.  (A cut metadata file cannot be read, as with JSON objects.) -/
theorem C35_no_wrong_data_partial (E : Env α) (hE : E.Faithful)
    (hcut : ∀ md s, s <+: E.dumpMeta md → s ≠ E.dumpMeta md → E.loadMeta s = none)
    (U : CClass → Prop) (kind : Kind) (lines : List Str) (hf : Fit U kind lines) (reqs : List Req) (req : Req)
    (hr : ∀ r ∈ req :: reqs, r.kind = kind ∧ r.Ok U ∧ r.classes ≠ []) (n : Nat) :
    ∃ f, ∀ req', req'.kind = kind → req'.Ok U → req'.classes ≠ [] → (∀ c ∈ req'.classes, csvName c ≠ f) →
      ∀ fs, fs = ((doParse E false req).steps n (history E false (reqs.map .parse) ⟨lines, none⟩).2).2 →
      ((doParse E false req').run fs).1 = .raise ∨
      ((doParse E false req').run fs).1 = ((doParse E true req').run ⟨lines, none⟩).1 := by
  obtain ⟨h1, h2⟩ := history_diskRight hE (U := U) (kind := kind) reqs ⟨lines, none⟩ hf (fun r h => hr r (by simp [h]))
    (fun d hd => by simp at hd)
  obtain ⟨hk, hok, hne⟩ := hr req (by simp)
  subst hk
  have hA := always_doParse hE hok (by rw [h1]; exact hf) h2 n
  rw [h1] at hA
  obtain ⟨htr, f, hall⟩ := hA
  refine ⟨f, fun req' hk' hok' hne' hav fs hfs => ?_⟩
  rw [← hfs] at htr hall
  simp only at htr hall
  have hexp : ((doParse E true req').run ⟨lines, none⟩).1 = expected E req' lines := by
    rw [run_disabled hE.toBasic hok' (by rw [hk']; exact hf)]
  rw [hexp]
  have hf' : Fit U req'.kind fs.trace := by rw [hk', htr]; exact hf
  cases hc : fs.cache with
  | none =>
    right
    rw [trace_unchanged_cold hc, (run_cold hE.toBasic hok' hf' hne').1, htr]
  | some d =>
    have hal := hall d hc
    cases hm : d.get metaName with
    | none => left; rw [doParse_run, run_loadCache_noMeta E req' fs d hc hm]
    | some t =>
      have hpre := (hal _ (Dict.mem_of_get hm)).1.1 rfl
      by_cases heq : t = E.dumpMeta (goodMeta E req.kind lines)
      · right
        have hU : req'.Ok (fun c => U c ∧ csvName c ≠ f) := ⟨fun c hc => ⟨hok'.mem c hc, hav c hc⟩, hok'.nodup⟩
        have hfU : Fit (fun c => U c ∧ csvName c ≠ f) req'.kind fs.trace :=
          ⟨fun c c' h h' => hf'.names c c' h.1 h'.1, fun l hl c c' h h' => hf'.unamb l hl c c' h.1 h'.1⟩
        have hcons : Consistent E (fun c => U c ∧ csvName c ≠ f) req'.kind fs.trace d := by
          rw [hk', htr]
          refine ⟨by rw [hm, heq], fun c hu x hx => ?_⟩
          obtain ⟨tb, h1, h2⟩ := ((hal _ (Dict.mem_of_get hx)).2 hu.2).2 c hu.1 rfl
          exact ⟨tb, h1, h2⟩
        rw [(run_warm hE.toBasic hU hfU (hE.readsBack _ _ _) hc hcons).1, htr]
      · left
        rw [doParse_run, run_loadCache_badMeta E req' fs d hc hm (hcut _ t hpre heq)]

/-- the hypotheses hold for a parse of one class followed by a killed parse of two -/
example : exEnv.Faithful ∧ (∀ md s, s <+: exEnv.dumpMeta md → s ≠ exEnv.dumpMeta md → exEnv.loadMeta s = none) ∧
    Fit exU .ftrace exTrace1 ∧
    ∀ r ∈ [exReq [ccMine, ccSwitch], exReq [ccSwitch]], r.kind = .ftrace ∧ r.Ok exU ∧ r.classes ≠ [] := by
  refine ⟨exEnv_faithful, exLoad_prefix, exU_fit _ (by decide +kernel), ?_⟩
  intro r hr
  simp only [List.mem_cons, List.not_mem_nil, or_false] at hr
  rcases hr with rfl | rfl
  · exact ⟨rfl, exU_ok (by intro c hc; simp at hc; rcases hc with rfl | rfl <;> simp [exU]) (by decide +kernel), by simp [exReq]⟩
  · exact ⟨rfl, exU_ok (by intro c hc; simp at hc; subst hc; simp [exU]) (by decide +kernel), by simp [exReq]⟩

/-! ## C83 -/

theorem interleave_first {R S : Type} (n : Nat) (p : Prog R) (q : Prog S) (fs : FS) (sch : List Bool) :
    interleave (List.replicate n true ++ sch) p q fs = interleave sch (p.steps n fs).1 q (p.steps n fs).2 := by
  induction n generalizing p fs with
  | zero => rfl
  | succ n ih =>
    simp only [List.replicate_succ, List.cons_append, interleave]
    rw [ih, Nat.add_comm n 1, steps_add]

theorem interleave_second {R S : Type} (n : Nat) (p : Prog R) (q : Prog S) (fs : FS) (sch : List Bool) :
    interleave (List.replicate n false ++ sch) p q fs = interleave sch p (q.steps n fs).1 (q.steps n fs).2 := by
  induction n generalizing q fs with
  | zero => rfl
  | succ n ih =>
    simp only [List.replicate_succ, List.cons_append, interleave]
    rw [ih, Nat.add_comm n 1, steps_add]

/-- **C83 refuted**, in every environment, for every trace that can be parsed and every second request: if the second process
starts right after the first one has created the cache directory, it fails, although it succeeds alone or with the
cache disabled. -/
theorem C83_concurrent_refuted (E : Env α) (req req' : Req) (lines : List Str) (hne : req.classes ≠ []) (res : Result α)
    (hok : ((doParse E false req).run ⟨lines, none⟩).1 = .ok res) :
    ∃ sch, (interleave sch (doParse E false req) (doParse E false req') ⟨lines, none⟩).1.2 = .ret .raise := by
  refine ⟨List.replicate 4 true ++ (List.replicate ((doParse E false req').log ⟨lines, some []⟩).length false ++ []), ?_⟩
  rw [interleave_first, four_steps E req lines hne res hok, interleave_second]
  simp only [interleave]
  rw [steps_run _ _ _ (le_refl _), unreadable E req' lines [] rfl]

/-- **C83 refuted, second way**: when the second process starts while the first one is writing a table row by row, it
returns that table without its last row, and no error. -/
theorem C83_wrong_data_refuted (E : Env α) (hE : E.Faithful) (hrow : ∀ t r, E.toCsv t <+: E.toCsv (t ++ [r]))
    (c : CClass) (kind : Kind) (u : UserParams) (lines : List Str) (t : Table α) (r : Nat × α)
    (ht : (E.create kind c ((populateBody [c.cls] 0 (bodyOf kind lines)).tables 0)).map (E.finalize c) = some (t ++ [r])) :
    ∃ sch base end' header,
      ((doParse E true ⟨kind, [c], u⟩).run ⟨lines, none⟩).1 =
        .ok ⟨base, end', header, [userApply false base u (t ++ [r])]⟩ ∧
      (interleave sch (doParse E false ⟨kind, [c], u⟩) (doParse E false ⟨kind, [c], u⟩) ⟨lines, none⟩).1.2 =
        .ret (.ok ⟨base, end', header, [userApply true base u t]⟩) := by
  obtain ⟨n, base, end', header, h1, h2⟩ := C35_wrong_data_refuted E hE hrow c kind u lines t r ht
  refine ⟨List.replicate n true ++ (List.replicate ((doParse E false ⟨kind, [c], u⟩).log
    ((doParse E false ⟨kind, [c], u⟩).steps n ⟨lines, none⟩).2).length false ++ []), base, end', header, h1, ?_⟩
  rw [interleave_first, interleave_second]
  simp only [interleave]
  rw [steps_run _ _ _ (le_refl _), h2]

/-- **C83 refuted, third way**: the trace has changed since the cache was written, and two processes read it at the same time.
Each finds the cache outdated and removes it.  If the second removes the files after the first has listed them, the
first one fails to remove them and its constructor raises, although alone it would have thrown the cache away and parsed
the trace. -/
theorem C83_outdated_refuted (E : Env α) (req req' : Req) (lines : List Str) (d : Dict Str) (t : Str) (md : Meta)
    (ht : d.get cs!"metadata.json" = some t) (hmd : E.loadMeta t = some md) (hold : md.md5sum ≠ some (E.md5 lines)) :
    ∃ sch, (interleave sch (doParse E false req) (doParse E false req') ⟨lines, some d⟩).1.1 = .ret .raise ∧
      (interleave sch (doParse E false req) (doParse E false req') ⟨lines, some d⟩).2 = ⟨lines, none⟩ := by
  have hv : cacheValid E md lines = false := by simp [cacheValid, hold]
  replace ht : d.get metaName = some t := ht
  obtain ⟨f, ns, hns⟩ : ∃ f ns, d.map Prod.fst = f :: ns := by
    cases d with
    | nil => simp [Dict.get] at ht
    | cons x d => exact ⟨x.1, d.map Prod.fst, rfl⟩
  have h4 : ((doParse E false req).steps 4 ⟨lines, some d⟩).2 = ⟨lines, some d⟩ ∧
      ((doParse E false req).steps 4 ⟨lines, some d⟩).1.steps 1 ⟨lines, none⟩ = (.ret .raise, ⟨lines, none⟩) := by
    constructor <;> simp [doParse, loadCache, Prog.bind, Prog.steps, Op.exec, ht, hmd, hv, rmtree, hns, unlinkAll]
  have h2 : ((doParse E false req').steps ((loadCache E req').log ⟨lines, some d⟩).length ⟨lines, some d⟩).2 =
      ⟨lines, none⟩ := by
    have hd : doParse E false req' = (loadCache E req').bind fun o => match o with
          | Outcome.raise => Prog.ret Outcome.raise
          | Outcome.ok L => afterLoad E false req' L := by
      simp only [doParse, Bool.false_eq_true, if_false]
      congr 1
    rw [hd, ← Nat.add_zero ((loadCache E req').log ⟨lines, some d⟩).length, steps_bind_ge]
    simp only [Prog.steps]
    simp only [loadCache, Prog.run, Op.exec, Option.isSome_some, if_true, Option.bind_some, ht, hmd, hv,
      Bool.false_eq_true, if_false]
    rw [run_bind, run_rmtree d _ rfl]
    rfl
  refine ⟨List.replicate 4 true ++ (List.replicate ((loadCache E req').log ⟨lines, some d⟩).length false ++
    (List.replicate 1 true ++ [])), ?_⟩
  rw [interleave_first, h4.1, interleave_second, h2, interleave_first, h4.2]
  simp [interleave]

/-- the hypotheses hold for the cache left by a parse of another trace, which alone is thrown away -/
example :
    ((((doParse exEnv false (exReq [ccSwitch])).run ⟨exTrace2, none⟩).2.cache.bind fun d => d.get metaName).bind
      exEnv.loadMeta).any (fun md => decide (md.md5sum ≠ some (exEnv.md5 exTrace1))) = true ∧
    ((doParse exEnv false (exReq [ccSwitch])).run
      ⟨exTrace1, ((doParse exEnv false (exReq [ccSwitch])).run ⟨exTrace2, none⟩).2.cache⟩).1 =
      ((doParse exEnv true (exReq [ccSwitch])).run ⟨exTrace1, none⟩).1 := by
  constructor <;> decide +kernel

theorem steps_trace {R : Type} (p : Prog R) (fs : FS) (n : Nat) : (p.steps n fs).2.trace = fs.trace := by
  induction n generalizing p fs with
  | zero => rfl
  | succ n ih =>
    cases p with
    | ret r => rfl
    | op o k =>
      simp only [Prog.steps]
      rw [ih]
      cases o <;> simp only [Op.exec] <;> (repeat' split) <;> rfl

/-- **C83, part proved**: a process with the cache disabled gets its result under every interleaving with any other
process. -/
theorem C83_disabled_partial {S : Type} (E : Env α) (req : Req) (q : Prog S) (fs : FS) (sch : List Bool)
    (h : sch.count true ≥ 1) :
    (interleave sch (doParse E true req) q fs).1.1 = .ret ((doParse E true req).run fs).1 := by
  have hform : ∃ r : List Str → Outcome (Result α), doParse E true req = .op .readTrace fun l => .ret (r l) := by
    simp only [doParse, if_true, afterLoad, Bool.not_true, Bool.false_and, Bool.false_eq_true, if_false]
    refine ⟨fun lines => ((doParse E true req).run ⟨lines, none⟩).1, ?_⟩
    congr
    funext lines
    simp only [doParse, if_true, afterLoad, Bool.not_true, Bool.false_and, Bool.false_eq_true, if_false, Prog.run, Op.exec]
    split
    · rfl
    · rfl
  obtain ⟨r, hr⟩ := hform
  have hret : ∀ (sch : List Bool) (x : Outcome (Result α)) (q : Prog S) (fs : FS),
      (interleave sch (.ret x) q fs).1.1 = .ret x := by
    intro sch
    induction sch with
    | nil => intros; rfl
    | cons b sch ih => intro x q fs; cases b <;> simp only [interleave, steps_ret] <;> exact ih _ _ _
  rw [hr]
  induction sch generalizing q fs with
  | nil => simp at h
  | cons b sch ih =>
    cases b with
    | true => simp only [interleave, Prog.steps, Op.exec, Prog.run]; exact hret _ _ _ _
    | false =>
      simp only [interleave]
      have hcnt : sch.count true ≥ 1 := by simpa using h
      rw [ih (q.steps 1 fs).1 (q.steps 1 fs).2 hcnt]
      simp only [Prog.run, Op.exec, steps_trace]

theorem steps_unchanging {R : Type} (p : Prog R) (fs : FS) (h : ∀ o ∈ p.log fs, o.changes = false) (n : Nat) :
    (p.steps n fs).2 = fs ∧ (∀ o ∈ (p.steps n fs).1.log fs, o.changes = false) ∧
    ((p.steps n fs).1.run fs).1 = (p.run fs).1 ∧ ((p.steps n fs).1.log fs).length = (p.log fs).length - n := by
  induction n generalizing p with
  | zero => exact ⟨rfl, h, rfl, rfl⟩
  | succ n ih =>
    cases p with
    | ret r => exact ⟨rfl, h, rfl, by simp [Prog.steps, Prog.log]⟩
    | op o k =>
      have ho : o.changes = false := h o (by simp [Prog.log])
      have hx : (o.exec fs).2 = fs := by cases o <;> simp [Op.changes] at ho <;> rfl
      simp only [Prog.log, hx] at h
      have := ih (k (o.exec fs).1) (fun o' ho' => h o' (by simp [ho']))
      simp only [Prog.steps, Prog.log, Prog.run, hx, List.length_cons, Nat.add_sub_add_right]
      exact this

/-- **C83, part proved**: two processes that find everything they need in the cache (alone, they only read) both get their
results, under every interleaving in which they are given enough steps. -/
theorem C83_readers_partial (E : Env α) (req req' : Req) (fs : FS)
    (h : ∀ o ∈ (doParse E false req).log fs, o.changes = false)
    (h' : ∀ o ∈ (doParse E false req').log fs, o.changes = false) (sch : List Bool)
    (hn : ((doParse E false req).log fs).length ≤ sch.count true)
    (hn' : ((doParse E false req').log fs).length ≤ sch.count false) :
    interleave sch (doParse E false req) (doParse E false req') fs =
      ((.ret ((doParse E false req).run fs).1, .ret ((doParse E false req').run fs).1), fs) := by
  have gen : ∀ {R S : Type} (sch : List Bool) (p : Prog R) (q : Prog S),
      (∀ o ∈ p.log fs, o.changes = false) → (∀ o ∈ q.log fs, o.changes = false) →
      (p.log fs).length ≤ sch.count true → (q.log fs).length ≤ sch.count false →
      interleave sch p q fs = ((.ret (p.run fs).1, .ret (q.run fs).1), fs) := by
    intro R S sch
    induction sch with
    | nil =>
      intro p q _ _ h1 h2
      cases p with
      | op o k => simp [Prog.log] at h1
      | ret r => cases q with
        | op o k => simp [Prog.log] at h2
        | ret r' => rfl
    | cons b sch ih =>
      intro p q hp hq h1 h2
      cases b with
      | true =>
        obtain ⟨a1, a2, a3, a4⟩ := steps_unchanging p fs hp 1
        simp only [interleave, a1]
        rw [ih _ q a2 hq (by rw [a4]; simp at h1; omega) (by simpa using h2), a3]
      | false =>
        obtain ⟨a1, a2, a3, a4⟩ := steps_unchanging q fs hq 1
        simp only [interleave, a1]
        rw [ih p _ hp a2 (by simpa using h1) (by rw [a4]; simp at h2; omega), a3]
  exact gen sch _ _ h h' hn hn'

/-- readers of a complete cache: reading is all they do -/
example :
    (∀ o ∈ (doParse exEnv false (exReq [ccSwitch, ccMine])).log
      ((doParse exEnv false (exReq [ccSwitch, ccMine])).run ⟨exTrace1, none⟩).2, o.changes = false) ∧
    (∀ o ∈ (doParse exEnv false (exReq [ccMine])).log
      ((doParse exEnv false (exReq [ccSwitch, ccMine])).run ⟨exTrace1, none⟩).2, o.changes = false) ∧
    ((doParse exEnv false (exReq [ccMine])).log
      ((doParse exEnv false (exReq [ccSwitch, ccMine])).run ⟨exTrace1, none⟩).2).length = 4 := by
  refine ⟨?_, ?_, ?_⟩ <;> decide +kernel

end Trappy
