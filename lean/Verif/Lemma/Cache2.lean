import Verif.Lemma.Cache
import Verif.Spec.Cache
/-! Cached parses compared with uncached ones. -/

namespace Trappy
open Prog

variable {α : Type}

/-- the tables of all classes, or nothing if one cannot be built -/
def allTables (E : Env α) (kind : Kind) (lines : List Str) : List CClass → Option (List (Table α))
  | [] => some []
  | c :: cs => match tableOf E kind lines c, allTables E kind lines cs with
    | some t, some ts => some (t :: ts)
    | _, _ => none

theorem rows_single {U : CClass → Prop} {kind : Kind} {lines : List Str} (hf : Fit U kind lines) {cs : List CClass}
    (hm : ∀ c ∈ cs, U c) (hn : cs.Nodup) {i : Nat} {c : CClass} (hi : cs[i]? = some c) (b : Nat) :
    (populateBody (cs.map CClass.cls) b (bodyOf kind lines)).tables i =
      (populateBody [c.cls] 0 (bodyOf kind lines)).tables 0 := by
  apply body_same_dispatch
  intro l hl
  rw [dispatch_unrivalled (c := c.cls) (by rw [List.getElem?_map, hi]; rfl), dispatch_unrivalled (c := c.cls) (by rfl)]
  · intro _ k c' hk hc'
    cases k with
    | zero => exact absurd rfl hk
    | succ k => simp at hc'
  · intro hw k d hk hd hw'
    rw [List.getElem?_map, Option.map_eq_some_iff] at hd
    obtain ⟨c', hc', rfl⟩ := hd
    have e := hf.unamb l hl c c' (hm c (List.mem_of_getElem? hi)) (hm c' (List.mem_of_getElem? hc')) hw hw'
    subst e
    obtain ⟨l1, e1⟩ := List.getElem?_eq_some_iff.mp hi
    obtain ⟨l2, e2⟩ := List.getElem?_eq_some_iff.mp hc'
    exact hk ((List.Nodup.getElem_inj_iff hn).mp (e2.trans e1.symm))

/-- the classes of which a table is cached have the right table -/
def RightCached (E : Env α) (kind : Kind) (lines : List Str) (r : List (CClass × Option (Table α))) : Prop :=
  ∀ x ∈ r, ∀ t, x.2 = some t → tableOf E kind lines x.1 = some t

theorem uncached_sublist (r : List (CClass × Option (Table α))) : (uncached r).Sublist (r.map Prod.fst) := by
  induction r with
  | nil => exact List.Sublist.refl _
  | cons x r ih =>
    obtain ⟨c, o⟩ := x
    cases o with
    | some t => exact List.Sublist.cons _ ih
    | none => exact ih.cons_cons _

theorem mergeBuild_spec {E : Env α} {U : CClass → Prop} {kind : Kind} {lines : List Str} (hf : Fit U kind lines)
    {all : List CClass} (hm : ∀ c ∈ all, U c) (hn : all.Nodup) (b : Nat) (r : List (CClass × Option (Table α)))
    (hr : RightCached E kind lines r) :
    ∀ pre, all = pre ++ uncached r →
    mergeBuild E kind (populateBody (all.map CClass.cls) b (bodyOf kind lines)) pre.length r =
      (allTables E kind lines (r.map Prod.fst)).map fun ts =>
        (r.zip ts).map fun x => (x.1.1, x.1.2.isSome, x.2) := by
  induction r with
  | nil => intro pre _; rfl
  | cons x r ih =>
    obtain ⟨c, o⟩ := x
    intro pre hall
    have hr' : RightCached E kind lines r := fun x hx => hr x (by simp [hx])
    cases o with
    | some t =>
      have ht : tableOf E kind lines c = some t := hr (c, some t) (by simp) t rfl
      simp only [mergeBuild, List.map_cons, allTables, ht]
      rw [ih hr' pre (by simpa [uncached] using hall)]
      cases allTables E kind lines (r.map Prod.fst) <;> simp
    | none =>
      simp only [uncached] at hall
      have hi : all[pre.length]? = some c := by rw [hall]; simp
      simp only [mergeBuild, List.map_cons, allTables]
      rw [rows_single hf hm hn hi b]
      have ht : tableOf E kind lines c = (E.create kind c ((populateBody [c.cls] 0 (bodyOf kind lines)).tables 0)).map (E.finalize c) := rfl
      rw [ht]
      cases E.create kind c ((populateBody [c.cls] 0 (bodyOf kind lines)).tables 0) with
      | none => simp
      | some t =>
        simp only [Option.map_some]
        have := ih hr' (pre ++ [c]) (by simp [hall])
        rw [List.length_append] at this
        rw [show pre.length + 1 = pre.length + [c].length by rfl, this]
        cases allTables E kind lines (r.map Prod.fst) <;> simp

/-- base and end time of a trace -/
def baseOf (kind : Kind) (lines : List Str) : Nat := (populateBody [] 0 (bodyOf kind lines)).basetime
/-- base and end time of a trace -/
def endOf (kind : Kind) (lines : List Str) : Nat := (populateBody [] 0 (bodyOf kind lines)).endtime

/-- the metadata that belongs to a trace -/
def goodMeta (E : Env α) (kind : Kind) (lines : List Str) : Meta :=
  ⟨some (E.md5 lines), some (baseOf kind lines), some (endOf kind lines),
    match kind with | .ftrace => some (headerOf .ftrace lines) | .systrace => none⟩

/-- A cache directory that belongs to a trace: right metadata, and every table in it is the right one. -/
structure Consistent (E : Env α) (U : CClass → Prop) (kind : Kind) (lines : List Str) (d : Dict Str) : Prop where
  md : d.get metaName = some (E.dumpMeta (goodMeta E kind lines))
  tables : ∀ c, U c → ∀ t, d.get (csvName c) = some t → ∃ tb, tableOf E kind lines c = some tb ∧ t = E.toCsv tb

/-- what a parse should give -/
def expected (E : Env α) (req : Req) (lines : List Str) : Outcome (Result α) :=
  match allTables E req.kind lines req.classes with
  | none => .raise
  | some ts => .ok { basetime := baseOf req.kind lines, endtime := endOf req.kind lines,
                     header := headerOf req.kind lines,
                     tables := ts.map (userApply false (baseOf req.kind lines) req.user) }

theorem zip_fst_eq {A B : Type} (r : List A) (ts : List B) (h : ts.length = r.length) : (r.zip ts).map Prod.snd = ts := by
  induction r generalizing ts with
  | nil => simp at h; simp [h]
  | cons x r ih =>
    cases ts with
    | nil => simp at h
    | cons t ts => simp at h; simp [ih ts h]

theorem allTables_length {E : Env α} {kind : Kind} {lines : List Str} {cs : List CClass} {ts : List (Table α)}
    (h : allTables E kind lines cs = some ts) : ts.length = cs.length := by
  induction cs generalizing ts with
  | nil => simp [allTables] at h; simp [h]
  | cons c cs ih =>
    simp only [allTables] at h
    split at h
    · rename_i t ts' h1 h2
      simp at h; subst h; simp [ih h2]
    · simp at h

theorem tableOf_base_zero {E : Env α} (hE : E.Basic) {kind : Kind} {lines : List Str} (hb : baseOf kind lines = 0)
    (c : CClass) : tableOf E kind lines c = some [] := by
  unfold tableOf
  have h0 : (populateBody [c.cls] 0 (bodyOf kind lines)).basetime = 0 := by
    rw [body_base [c.cls] [] (bodyOf kind lines) 0 (Or.inl rfl)]; exact hb
  rw [body_base_zero _ _ h0, hE.create_nil]
  simp [hE.finalize_nil]

theorem allTables_base_zero {E : Env α} (hE : E.Basic) {kind : Kind} {lines : List Str} (hb : baseOf kind lines = 0)
    {cs : List CClass} {ts : List (Table α)} (h : allTables E kind lines cs = some ts) : ∀ t ∈ ts, t = [] := by
  induction cs generalizing ts with
  | nil => simp [allTables] at h; simp [h]
  | cons c cs ih =>
    simp only [allTables, tableOf_base_zero hE hb] at h
    split at h
    · rename_i t ts' h1 h2
      simp at h1 h
      subst h1; subst h
      intro t ht
      rcases List.mem_cons.mp ht with rfl | ht
      · rfl
      · exact ih h2 t ht
    · simp at h

theorem userApply_valid {E : Env α} (hE : E.Basic) {kind : Kind} {lines : List Str} {cs : List CClass}
    {ts : List (Table α)} (h : allTables E kind lines cs = some ts) (u : UserParams) (valid : Bool) :
    ts.map (userApply valid (baseOf kind lines) u) = ts.map (userApply false (baseOf kind lines) u) := by
  apply List.map_congr_left
  intro t ht
  cases valid with
  | false => rfl
  | true =>
    by_cases hb : baseOf kind lines = 0
    · have := allTables_base_zero hE hb h t ht
      subst this
      simp [userApply, applyWith, windowify]
    · simp [userApply, applyWith, maxWindow, hb]

/-- Running `afterLoad` when the cached tables are right. -/
theorem run_afterLoad {E : Env α} (hE : E.Basic) {U : CClass → Prop} {req : Req} (hreq : req.Ok U) {fs : FS}
    (hf : Fit U req.kind fs.trace) (disable : Bool) (L : Loaded α) (hlen : L.cached.length = req.classes.length)
    (hright : RightCached E req.kind fs.trace (req.classes.zip L.cached))
    (hbase : L.basetime = 0 ∨ L.basetime = baseOf req.kind fs.trace)
    (hfull : disable = false → L.cached.all Option.isSome = true →
      L.basetime = baseOf req.kind fs.trace ∧ L.endtime = endOf req.kind fs.trace ∧ L.header = headerOf req.kind fs.trace) :
    ((afterLoad E disable req L).run fs).1 = expected E req fs.trace ∧
    ((afterLoad E disable req L).run fs).2 =
      (if disable || L.cached.all Option.isSome then fs
       else match allTables E req.kind fs.trace req.classes with
         | none => fs
         | some ts => ((updateCache E (goodMeta E req.kind fs.trace)
             (((req.classes.zip L.cached).zip ts).map fun x => (x.1.1, x.1.2.isSome, x.2))).run fs).2) := by
  have hfst : (req.classes.zip L.cached).map Prod.fst = req.classes := by
    rw [List.map_fst_zip]; omega
  unfold afterLoad
  by_cases hall : (!disable && L.cached.all Option.isSome) = true
  · rw [if_pos hall]
    simp only [Bool.and_eq_true, Bool.not_eq_true'] at hall
    obtain ⟨b1, b2, b3⟩ := hfull hall.1 hall.2
    have htabs : allTables E req.kind fs.trace req.classes = some (L.cached.filterMap id) := by
      clear hfst
      have h2 := hall.2
      generalize req.classes = cs at hlen hright
      generalize L.cached = ca at hlen hright h2
      induction cs generalizing ca with
      | nil => simp at hlen; subst hlen; rfl
      | cons c cs ih =>
        cases ca with
        | nil => simp at hlen
        | cons o ca =>
          simp only [List.all_cons, Bool.and_eq_true] at h2
          obtain ⟨t, rfl⟩ := Option.isSome_iff_exists.mp h2.1
          have ht := hright (c, some t) (by simp) t rfl
          simp only [allTables, ht]
          rw [ih ca (by simpa using hlen) (fun x hx => hright x (by simp [hx])) h2.2]
          simp
    simp only [Prog.run]
    constructor
    · unfold expected
      rw [htabs]
      simp only [b1, b2, b3]
      rw [← userApply_valid hE htabs req.user L.valid]
      congr 2
      rw [List.map_filterMap]
      congr 1
    · simp [hall.2]
  · rw [if_neg hall]
    have hor : (disable || L.cached.all Option.isSome) = true ↔ disable = true := by
      cases disable <;> simp_all
    simp only [Prog.run, Op.exec]
    have hb : (populateBody ((uncached (req.classes.zip L.cached)).map CClass.cls) L.basetime (bodyOf req.kind fs.trace)).basetime =
        baseOf req.kind fs.trace := body_base _ _ _ _ hbase
    have he : (populateBody ((uncached (req.classes.zip L.cached)).map CClass.cls) L.basetime (bodyOf req.kind fs.trace)).endtime =
        endOf req.kind fs.trace := body_end _ _ _ _ _
    have hsub := uncached_sublist (req.classes.zip L.cached)
    rw [hfst] at hsub
    have hmb := mergeBuild_spec (E := E) hf (all := uncached (req.classes.zip L.cached))
      (fun c hc => hreq.mem c (hsub.subset hc)) (hsub.nodup hreq.nodup) L.basetime (req.classes.zip L.cached) hright []
      (by simp)
    rw [hfst] at hmb
    simp only [List.length_nil] at hmb
    rw [hmb]
    unfold expected
    cases ht : allTables E req.kind fs.trace req.classes with
    | none =>
      simp only [Option.map_none, Prog.run]
      exact ⟨trivial, by split <;> rfl⟩
    | some ts =>
      have hl := allTables_length ht
      simp only [Option.map_some]
      rw [run_bind]
      simp only [Prog.run]
      constructor
      · simp only [hb, he]
        rw [← userApply_valid hE ht req.user L.valid]
        congr 2
        rw [List.map_map]
        have : (req.classes.zip L.cached).length = ts.length := by rw [List.length_zip]; omega
        have h2 := zip_fst_eq (req.classes.zip L.cached) ts this.symm
        conv_rhs => rw [← h2]
        rw [List.map_map]
        rfl
      · cases disable with
        | true => simp [Prog.run]
        | false =>
          have hna : L.cached.all Option.isSome = false := by simpa using hall
          simp only [Bool.false_eq_true, if_false, hna, Bool.or_false, hb, he]
          rfl

/-! ## Loading -/

theorem run_loadCache_none (E : Env α) (req : Req) (fs : FS) (hc : fs.cache = none) :
    (loadCache E req).run fs = (.ok (Loaded.nothing req), fs) := by
  simp [loadCache, Prog.run, Op.exec, hc]

theorem run_loadCache_stale (E : Env α) (req : Req) (fs : FS) (d : Dict Str) (hc : fs.cache = some d) {t : Str}
    (ht : d.get metaName = some t) {md : Meta} (hm : E.loadMeta t = some md) (hv : cacheValid E md fs.trace = false) :
    (loadCache E req).run fs = (.ok (Loaded.nothing req), { fs with cache := none }) := by
  simp only [loadCache, Prog.run, Op.exec, hc, Option.isSome_some, if_true, Option.bind_some, ht, hm, hv,
    Bool.false_eq_true, if_false]
  rw [run_bind, run_rmtree d fs hc]
  rfl

theorem run_loadCache_valid {E : Env α} (hE : E.Basic) {U : CClass → Prop} (req : Req) (fs : FS) (d : Dict Str)
    (hc : fs.cache = some d) (hd : Consistent E U req.kind fs.trace d) :
    (loadCache E req).run fs =
      (.ok ⟨true, baseOf req.kind fs.trace, endOf req.kind fs.trace, headerOf req.kind fs.trace,
        req.classes.map (found E (some d))⟩, fs) := by
  have hv : cacheValid E (goodMeta E req.kind fs.trace) fs.trace = true := by simp [cacheValid, goodMeta]
  simp only [loadCache, Prog.run, Op.exec, hc, Option.isSome_some, if_true, Option.bind_some, hd.md, hE.json, hv]
  cases hk : req.kind with
  | ftrace => simp [goodMeta, run_bind, run_readTables, hc, Prog.run]
  | systrace => simp [goodMeta, run_bind, run_readTables, hc, Prog.run, headerOf]

theorem found_right {E : Env α} {U : CClass → Prop} {kind : Kind} {lines : List Str} {d : Dict Str}
    (hcsv : E.ReadsBack U kind lines) (hd : Consistent E U kind lines d) {c : CClass} (hu : U c) {t : Table α} (h : found E (some d) c = some t) :
    tableOf E kind lines c = some t := by
  simp only [found, Option.bind_some, Option.bind_eq_some_iff] at h
  obtain ⟨x, hx, hr⟩ := h
  obtain ⟨tb, h1, h2⟩ := hd.tables c hu x hx
  rw [h2, hcsv c hu tb h1] at hr
  simp at hr
  rw [h1, hr]

theorem addTables_get {E : Env α} (es : List (CClass × Bool × Table α)) (d : Dict Str) (name : Str)
    (h : ∀ e ∈ es, e.2.1 = false → csvName e.1 ≠ name) : (addTables E d es).get name = d.get name := by
  induction es generalizing d with
  | nil => rfl
  | cons e es ih =>
    obtain ⟨c, b, t⟩ := e
    have h' := fun e he => h e (List.mem_cons_of_mem _ he)
    cases b with
    | true => exact ih d h'
    | false =>
      simp only [addTables]
      rw [ih _ h', Dict.get_set, if_neg]
      have := h (c, false, t) (by simp) rfl
      exact this

theorem addTables_consistent {E : Env α} {U : CClass → Prop} {kind : Kind} {lines : List Str}
    (hn : ∀ c c', U c → U c' → c.pyName = c'.pyName → c = c') (es : List (CClass × Bool × Table α)) (d : Dict Str)
    (hd : Consistent E U kind lines d) (h : ∀ e ∈ es, U e.1 ∧ tableOf E kind lines e.1 = some e.2.2) :
    Consistent E U kind lines (addTables E d es) := by
  induction es generalizing d with
  | nil => exact hd
  | cons e es ih =>
    obtain ⟨c, b, t⟩ := e
    have h' := fun e he => h e (List.mem_cons_of_mem _ he)
    cases b with
    | true => exact ih d hd h'
    | false =>
      refine ih _ ⟨?_, ?_⟩ h'
      · rw [Dict.get_set, if_neg]
        · exact hd.md
        · exact csvName_ne_meta c
      · intro c' hu' x hx
        rw [Dict.get_set] at hx
        have hc := h (c, false, t) (by simp)
        split at hx
        · rename_i he
          have e : c' = c := hn c' c hu' hc.1 (csvName_inj he.symm)
          subst e
          simp at hx
          exact ⟨t, hc.2, hx.symm⟩
        · exact hd.tables c' hu' x hx

theorem entries_right {E : Env α} {kind : Kind} {lines : List Str} {cs : List CClass} {ts : List (Table α)}
    (h : allTables E kind lines cs = some ts) (ca : List (Option (Table α))) (hl : ca.length = cs.length) :
    ∀ e ∈ ((cs.zip ca).zip ts).map (fun x => (x.1.1, x.1.2.isSome, x.2)),
      e.1 ∈ cs ∧ tableOf E kind lines e.1 = some e.2.2 := by
  induction cs generalizing ts ca with
  | nil => simp
  | cons c cs ih =>
    cases ca with
    | nil => simp at hl
    | cons o ca =>
      simp only [allTables] at h
      split at h
      · rename_i t ts' h1 h2
        simp at h; subst h
        intro e he
        simp only [List.zip_cons_cons, List.map_cons, List.mem_cons] at he
        rcases he with rfl | he
        · exact ⟨by simp, h1⟩
        · have := ih h2 ca (by simpa using hl) e he
          exact ⟨List.mem_cons_of_mem _ this.1, this.2⟩
      · simp at h

/-- A cache directory that has been written for an empty state. -/
theorem fresh_consistent {E : Env α} {U : CClass → Prop} {kind : Kind} {lines : List Str} :
    Consistent E U kind lines [(metaName, E.dumpMeta (goodMeta E kind lines))] := by
  constructor
  · simp [Dict.get]
  · intro c _ t ht
    simp only [Dict.get] at ht
    rw [if_neg (fun e => csvName_ne_meta c e.symm)] at ht
    simp at ht

/-- The state of the disk between parses: no cache, or one that belongs to some content of the trace file. -/
def DiskOk (E : Env α) (U : CClass → Prop) (kind : Kind) (past : List (List Str)) (fs : FS) : Prop :=
  ∀ d, fs.cache = some d → ∃ lines ∈ past, Consistent E U kind lines d

theorem any_zip_isSome (cs : List CClass) (ca : List (Option (Table α))) (ts : List (Table α)) (h1 : ca.length = cs.length)
    (h2 : ts.length = cs.length) :
    (((cs.zip ca).zip ts).map (fun x => (x.1.1, x.1.2.isSome, x.2))).any (fun e => e.2.1) = ca.any Option.isSome := by
  induction cs generalizing ca ts with
  | nil => simp at h1; subst h1; rfl
  | cons c cs ih =>
    cases ca with
    | nil => simp at h1
    | cons o ca =>
      cases ts with
      | nil => simp at h2
      | cons t ts =>
        simp only [List.zip_cons_cons, List.map_cons, List.any_cons]
        rw [ih ca ts (by simpa using h1) (by simpa using h2)]

/-- One parse, starting without a cache directory. -/
theorem run_cold {E : Env α} (hE : E.Basic) {U : CClass → Prop} {req : Req} (hreq : req.Ok U) {fs : FS}
    (hf : Fit U req.kind fs.trace) (hne : req.classes ≠ []) :
    ((afterLoad E false req (Loaded.nothing req)).run fs).1 = expected E req fs.trace ∧
    ((afterLoad E false req (Loaded.nothing req)).run fs).2 =
      (match allTables E req.kind fs.trace req.classes with
       | none => fs
       | some ts => { fs with cache := some (addTables E [(metaName, E.dumpMeta (goodMeta E req.kind fs.trace))]
                        (((req.classes.zip (req.classes.map fun _ => (none : Option (Table α)))).zip ts).map
                          fun x => (x.1.1, x.1.2.isSome, x.2))) }) := by
  have hall : (Loaded.nothing (α := α) req).cached.all Option.isSome = false := by
    cases hc : req.classes with
    | nil => exact absurd hc hne
    | cons c cs => simp [Loaded.nothing, hc]
  have hr : RightCached E req.kind fs.trace (req.classes.zip (Loaded.nothing (α := α) req).cached) := by
    intro x hx t ht
    have := (List.of_mem_zip (a := x.1) (b := x.2) hx).2
    simp only [Loaded.nothing, List.mem_map] at this
    obtain ⟨_, _, h⟩ := this
    rw [← h] at ht; simp at ht
  have h := run_afterLoad hE hreq hf false (Loaded.nothing req) (by simp [Loaded.nothing]) hr (Or.inl rfl)
    (by intro _ h; rw [hall] at h; simp at h)
  refine ⟨h.1, h.2.trans ?_⟩
  rw [hall]
  simp only [Bool.or_false, Bool.false_eq_true, if_false]
  cases ht : allTables E req.kind fs.trace req.classes with
  | none => rfl
  | some ts =>
    simp only
    rw [run_updateCache_none]
    · rfl
    · rw [any_zip_isSome _ _ _ (by simp [Loaded.nothing]) (allTables_length ht)]
      simp [Loaded.nothing]

/-- One parse with a cache that belongs to the trace. -/
theorem run_warm {E : Env α} (hE : E.Basic) {U : CClass → Prop} {req : Req} (hreq : req.Ok U) {fs : FS}
    (hf : Fit U req.kind fs.trace) (hcsv : E.ReadsBack U req.kind fs.trace) {d : Dict Str} (hc : fs.cache = some d) (hd : Consistent E U req.kind fs.trace d) :
    ((doParse E false req).run fs).1 = expected E req fs.trace ∧
    ((doParse E false req).run fs).2 =
      (if (req.classes.map (found E (some d))).all Option.isSome then fs
       else match allTables E req.kind fs.trace req.classes with
         | none => fs
         | some ts =>
           { fs with cache := some (addTables E
               (if (req.classes.map (found E (some d))).any Option.isSome then d
                else [(metaName, E.dumpMeta (goodMeta E req.kind fs.trace))])
               (((req.classes.zip (req.classes.map (found E (some d)))).zip ts).map fun x => (x.1.1, x.1.2.isSome, x.2))) }) := by
  have hL := run_loadCache_valid hE req fs d hc hd
  have hr : RightCached E req.kind fs.trace (req.classes.zip (req.classes.map (found E (some d)))) := by
    intro x hx t ht
    rw [List.zip_map_right] at hx
    simp only [List.mem_map] at hx
    obtain ⟨y, hy, rfl⟩ := hx
    have hyy : y.1 = y.2 := by
      clear ht
      generalize req.classes = cs at hy
      induction cs with
      | nil => simp at hy
      | cons c cs ih => simp at hy; rcases hy with rfl | hy; rfl; exact ih (by simpa using hy)
    have hm := (List.of_mem_zip (a := y.1) (b := y.2) hy).1
    simp only [Prod.map, id] at ht ⊢
    rw [← hyy] at ht
    exact found_right hcsv hd (hreq.mem _ hm) ht
  have h := run_afterLoad hE hreq hf false
    ⟨true, baseOf req.kind fs.trace, endOf req.kind fs.trace, headerOf req.kind fs.trace,
        req.classes.map (found E (some d))⟩ (by simp) hr (Or.inr rfl) (fun _ _ => ⟨rfl, rfl, rfl⟩)
  have hrun : (doParse E false req).run fs = (afterLoad E false req ⟨true, baseOf req.kind fs.trace, endOf req.kind fs.trace,
      headerOf req.kind fs.trace, req.classes.map (found E (some d))⟩).run fs := by
    simp only [doParse, Bool.false_eq_true, if_false]
    rw [run_bind, hL]
  rw [hrun]
  refine ⟨h.1, h.2.trans ?_⟩
  simp only [Bool.false_or]
  split
  · rfl
  · cases ht : allTables E req.kind fs.trace req.classes with
    | none => rfl
    | some ts =>
      simp only
      have ha := any_zip_isSome req.classes (req.classes.map (found E (some d))) ts (by simp) (allTables_length ht)
      by_cases hany : (req.classes.map (found E (some d))).any Option.isSome = true
      · rw [run_updateCache_some E _ _ fs d hc (by rw [ha, hany]), if_pos hany]
      · rw [run_updateCache_none E _ _ fs (by rw [ha]; simpa using hany), if_neg hany]

theorem trace_unchanged_cold {E : Env α} {req : Req} {fs : FS} (hc : fs.cache = none) :
    (doParse E false req).run fs = (afterLoad E false req (Loaded.nothing req)).run fs := by
  simp only [doParse, Bool.false_eq_true, if_false]
  rw [run_bind, run_loadCache_none E req fs hc]

/-- One parse in any state that can arise, with the state after it. -/
theorem parse_step {E : Env α} (hE : E.Basic) {U : CClass → Prop} {req : Req} (hreq : req.Ok U) {fs : FS}
    (hf : Fit U req.kind fs.trace) (hcsv : E.ReadsBack U req.kind fs.trace) (hne : req.classes ≠ []) {past : List (List Str)} (hp : fs.trace ∈ past)
    (hcol : NoCollision E past) (hdisk : DiskOk E U req.kind past fs) :
    ((doParse E false req).run fs).1 = expected E req fs.trace ∧
    ((doParse E false req).run fs).2.trace = fs.trace ∧
    (∀ d, ((doParse E false req).run fs).2.cache = some d → Consistent E U req.kind fs.trace d) := by
  have cold : ∀ fs : FS, fs.cache = none → Fit U req.kind fs.trace →
      ((afterLoad E false req (Loaded.nothing req)).run fs).1 = expected E req fs.trace ∧
      ((afterLoad E false req (Loaded.nothing req)).run fs).2.trace = fs.trace ∧
      (∀ d, ((afterLoad E false req (Loaded.nothing req)).run fs).2.cache = some d → Consistent E U req.kind fs.trace d) := by
    intro fs hc hf
    have h := run_cold hE hreq hf hne
    refine ⟨h.1, ?_, ?_⟩
    · rw [h.2]; split <;> rfl
    · rw [h.2]
      intro d hd
      split at hd
      · rw [hc] at hd; simp at hd
      · rename_i ts ht
        simp at hd
        rw [← hd]
        exact addTables_consistent hf.names _ _ fresh_consistent fun e he =>
          have := entries_right ht _ (by simp) e he
          ⟨hreq.mem _ this.1, this.2⟩
  cases hc : fs.cache with
  | none =>
    rw [trace_unchanged_cold hc]
    exact cold fs hc hf
  | some d =>
    obtain ⟨lines, hl, hcons⟩ := hdisk d hc
    by_cases heq : E.md5 lines = E.md5 fs.trace
    · have := hcol lines hl fs.trace hp heq
      subst this
      have h := run_warm hE hreq hf hcsv hc hcons
      refine ⟨h.1, ?_, ?_⟩
      · rw [h.2]; split
        · rfl
        · split <;> rfl
      · rw [h.2]
        intro d' hd'
        split at hd'
        · rw [hc] at hd'; simp at hd'; subst hd'; exact hcons
        · split at hd'
          · rw [hc] at hd'; simp at hd'; subst hd'; exact hcons
          · rename_i ts ht
            simp at hd'
            rw [← hd']
            refine addTables_consistent hf.names _ _ ?_ fun e he =>
              have := entries_right ht _ (by simp) e he
              ⟨hreq.mem _ this.1, this.2⟩
            split
            · exact hcons
            · exact fresh_consistent
    · have hv : cacheValid E (goodMeta E req.kind lines) fs.trace = false := by
        simp [cacheValid, goodMeta, heq]
      have hL := run_loadCache_stale E req fs d hc hcons.md (hE.json _) hv
      have hrun : (doParse E false req).run fs =
          (afterLoad E false req (Loaded.nothing req)).run { fs with cache := none } := by
        simp only [doParse, Bool.false_eq_true, if_false]
        rw [run_bind, hL]
      rw [hrun]
      exact cold { fs with cache := none } rfl hf

/-- An uncached parse. -/
theorem run_disabled {E : Env α} (hE : E.Basic) {U : CClass → Prop} {req : Req} (hreq : req.Ok U) {fs : FS}
    (hf : Fit U req.kind fs.trace) : (doParse E true req).run fs = (expected E req fs.trace, fs) := by
  have hr : RightCached E req.kind fs.trace (req.classes.zip (Loaded.nothing (α := α) req).cached) := by
    intro x hx t ht
    have := (List.of_mem_zip (a := x.1) (b := x.2) hx).2
    simp only [Loaded.nothing, List.mem_map] at this
    obtain ⟨_, _, h⟩ := this
    rw [← h] at ht; simp at ht
  have h := run_afterLoad hE hreq hf true (Loaded.nothing req) (by simp [Loaded.nothing]) hr (Or.inl rfl) (by simp)
  have e : doParse E true req = afterLoad E true req (Loaded.nothing req) := by simp [doParse]
  rw [e]
  exact Prod.ext h.1 (by rw [h.2]; simp)

end Trappy
