import Verif.Lemma.Cache3
import Verif.Lemma.CacheEnv
/-!
# C32, C33, C36, C37, C38, C40: the trace cache
-/

namespace Trappy
open Prog

variable {α : Type}

/-! ## Examples used below -/

def ccSwitch : CClass := ⟨cs!"SchedSwitch", cs!"sched_switch:", false⟩
def ccMine : CClass := ⟨cs!"MyEvent", cs!"my_event:", false⟩
def ccMark : CClass := ⟨cs!"TracingMarkWrite", cs!"tracing_mark_write:", true⟩

def exReq (cs : List CClass) : Req := ⟨.ftrace, cs, UserParams.full false⟩

def exTrace1 : List Str :=
  [cs!"version = 6\n", cs!"a-1 [000] 10.5: sched_switch: x=1\n", cs!"a-1 [000] 10.625: my_event: x=2\n",
   cs!"a-1 [000] 11.0: sched_switch: x=3\n"]

def exTrace2 : List Str :=
  [cs!"version = 6\n", cs!"a-1 [000] 20.5: sched_switch: x=4\n", cs!"b-1 [000] 21.0: my_event: x=5\n"]

/-- a marker whose text contains the word of another event -/
def exTrace3 : List Str :=
  [cs!"version = 6\n", cs!"a-1 [000] 10.5: tracing_mark_write: my_event: x=1\n"]

/-- the classes of the examples -/
def exU (c : CClass) : Prop := c = ccSwitch ∨ c = ccMine

theorem exU_fit (lines : List Str)
    (h : ∀ l ∈ ftraceBody lines, ¬ (Py.contains cs!"sched_switch:" l = true ∧ Py.contains cs!"my_event:" l = true)) :
    Fit exU .ftrace lines := by
  constructor
  · rintro c c' (rfl | rfl) (rfl | rfl) hn
    · rfl
    · simp [ccSwitch, ccMine] at hn
    · simp [ccSwitch, ccMine] at hn
    · rfl
  · rintro l hl c c' (rfl | rfl) (rfl | rfl) h1 h2
    · rfl
    · exact absurd ⟨(contains_iff _ _).mpr h1, (contains_iff _ _).mpr h2⟩ (h l hl)
    · exact absurd ⟨(contains_iff _ _).mpr h2, (contains_iff _ _).mpr h1⟩ (h l hl)
    · rfl

theorem exU_ok {cs : List CClass} {u : UserParams} (h1 : ∀ c ∈ cs, exU c) (h2 : cs.Nodup) : (⟨.ftrace, cs, u⟩ : Req).Ok exU :=
  ⟨h1, h2⟩

/-! ## C33, C32 -/

/-- A parse with a cache whose metadata does not belong to the present content of the trace file, or lacks one of the required entries, is a parse without a
cache directory. -/
theorem C33_stale_cache_ignored (E : Env α) (req : Req) (fs : FS) (d : Dict Str) (hc : fs.cache = some d) {t : Str}
    (ht : d.get metaName = some t) {md : Meta} (hm : E.loadMeta t = some md) (hdig : md.md5sum ≠ some (E.md5 fs.trace) ∨ md.basetime = none ∨ md.endtime = none) :
    (doParse E false req).run fs = (doParse E false req).run { fs with cache := none } ∧
    (req.classes ≠ [] → ((doParse E false req).run fs).1 = ((doParse E true req).run fs).1) ∧
    (∀ d' name x, ((doParse E false req).run fs).2.cache = some d' → d'.get name = some x →
      name = metaName ∨ ∃ c ∈ req.classes, name = csvName c) := by
  have hv : cacheValid E md fs.trace = false := by rcases hdig with h | h | h <;> simp [cacheValid, h]
  have h1 : (doParse E false req).run fs = (afterLoad E false req (Loaded.nothing req)).run { fs with cache := none } := by
    rw [doParse_run, run_loadCache_stale E req fs d hc ht hm hv]
  have h2 : (doParse E false req).run { fs with cache := none } =
      (afterLoad E false req (Loaded.nothing req)).run { fs with cache := none } := by
    rw [doParse_run, run_loadCache_none E req _ rfl]
  refine ⟨h1.trans h2.symm, ?_, ?_⟩
  · intro hne
    rw [h1, afterLoad_fst]
    have h3 : doParse E true req = afterLoad E true req (Loaded.nothing req) := by simp [doParse]
    rw [h3, afterLoad_fst]
    have hall : (Loaded.nothing (α := α) req).cached.all Option.isSome = false := by
      cases hc : req.classes with
      | nil => exact absurd hc hne
      | cons c cs => simp [Loaded.nothing, hc]
    simp only [outcomeOf, hall, Bool.and_false, Bool.false_eq_true, if_false]
  · intro d' name x hd' hx
    rw [h1] at hd'
    unfold afterLoad at hd'
    split at hd'
    · simp [Prog.run] at hd'
    · simp only [Prog.run, Op.exec] at hd'
      generalize hp : populateBody _ _ _ = p at hd'
      cases hmb : mergeBuild E req.kind p 0 (req.classes.zip (Loaded.nothing (α := α) req).cached) with
      | none => rw [hmb] at hd'; simp [Prog.run] at hd'
      | some es =>
        rw [hmb] at hd'
        simp only [Bool.false_eq_true, if_false] at hd'
        rw [run_bind] at hd'
        obtain ⟨he, _⟩ := mergeBuild_entries E req.kind p _ 0 es hmb
        have hnone : (es.any fun e => e.2.1) = false := by
          rw [List.any_eq_false]
          intro e hm
          have : (e.1, e.2.1) ∈ es.map (fun e => (e.1, e.2.1)) := List.mem_map.mpr ⟨e, hm, rfl⟩
          rw [he] at this
          obtain ⟨y, hy, h⟩ := List.mem_map.mp this
          have hy2 := (List.of_mem_zip (a := y.1) (b := y.2) hy).2
          simp only [Loaded.nothing, List.mem_map] at hy2
          obtain ⟨_, _, h'⟩ := hy2
          simp only [Prod.mk.injEq] at h
          rw [← h.2, ← h']; simp
        have hcl : ∀ e ∈ es, e.1 ∈ req.classes := by
          intro e hm
          have : (e.1, e.2.1) ∈ es.map (fun e => (e.1, e.2.1)) := List.mem_map.mpr ⟨e, hm, rfl⟩
          rw [he] at this
          obtain ⟨y, hy, h⟩ := List.mem_map.mp this
          simp only [Prod.mk.injEq] at h
          rw [← h.1]
          exact (List.of_mem_zip (a := y.1) (b := y.2) hy).1
        rw [run_updateCache_none _ _ _ _ hnone] at hd'
        simp only [Prog.run, Option.some.injEq] at hd'
        subst hd'
        by_cases hex : ∃ c ∈ req.classes, name = csvName c
        · exact Or.inr hex
        · left
          rw [addTables_get] at hx
          · simp only [Dict.get] at hx
            split at hx
            · rename_i h; exact h.symm
            · simp at hx
          · intro e he' _ h
            exact hex ⟨e.1, hcl e he', h.symm⟩

/-- Histories of parses and edits give what they give with the cache disabled. -/
theorem history_gen {E : Env α} (hE : E.Basic) {U : CClass → Prop} {kind : Kind} (acts : List Act) :
    ∀ (fs fs' : FS) (past : List (List Str)), fs.trace = fs'.trace →
    (∀ x ∈ contents acts fs.trace, x ∈ past) → NoCollision E past →
    (∀ lines ∈ contents acts fs.trace, Fit U kind lines ∧ E.ReadsBack U kind lines) → DiskOk E U kind past fs →
    (∀ req, Act.parse req ∈ acts → req.kind = kind ∧ req.Ok U ∧ req.classes ≠ []) →
    (history E false acts fs).1 = (history E true acts fs').1 := by
  induction acts with
  | nil => intros; rfl
  | cons a acts ih =>
    intro fs fs' past ht hpast hcol hfit hdisk hreq
    cases a with
    | edit lines =>
      simp only [history]
      exact ih { fs with trace := lines } { fs' with trace := lines } past rfl
        (fun x hx => hpast x (by simp [contents, hx])) hcol (fun l hl => hfit l (by simp [contents, hl])) hdisk
        (fun req h => hreq req (by simp [h]))
    | parse req =>
      obtain ⟨hk, hok, hne⟩ := hreq req (by simp)
      subst hk
      simp only [contents] at hpast hfit
      have htr : fs.trace ∈ contents acts fs.trace := by
        clear * -
        induction acts with
        | nil => simp [contents]
        | cons a acts ih => cases a <;> simp [contents, ih]
      have h := parse_step hE hok (hfit _ htr).1 (hfit _ htr).2 hne (hpast _ htr) hcol hdisk
      have hd := run_disabled hE hok (fs := fs') (ht ▸ (hfit _ htr).1)
      simp only [history]
      rw [h.1, hd, ht]
      congr 1
      refine ih _ _ past ?_ ?_ hcol ?_ ?_ (fun req h => hreq req (by simp [h]))
      · rw [h.2.1, ht]
      · rw [h.2.1]; exact hpast
      · rw [h.2.1]; exact hfit
      · intro d hd'
        exact ⟨fs.trace, hpast _ htr, h.2.2 d hd'⟩

/-- **C33**: parse and edit a trace file in any order (with one kind of reader, the classes of each request being at
least one, with different names and words that do not occur on the same line, and contents with different digests).
Every parse returns what it returns with the cache disabled, that is, the data of the present content. -/
theorem C33_changed_trace (E : Env α) (hE : E.Faithful) (U : CClass → Prop) (kind : Kind) (acts : List Act)
    (lines : List Str) (hcol : NoCollision E (contents acts lines)) (hfit : ∀ l ∈ contents acts lines, Fit U kind l)
    (hreq : ∀ req, Act.parse req ∈ acts → req.kind = kind ∧ req.Ok U ∧ req.classes ≠ []) :
    (history E false acts ⟨lines, none⟩).1 = (history E true acts ⟨lines, none⟩).1 :=
  history_gen hE.toBasic acts ⟨lines, none⟩ ⟨lines, none⟩ (contents acts lines) rfl (fun _ h => h) hcol
    (fun l hl => ⟨hfit l hl, hE.readsBack U kind l⟩)
    (by intro d hd; simp at hd) hreq

/-- edit between two parses; the second one sees the new content -/
example : ∃ acts : List Act, acts = [.parse (exReq [ccSwitch]), .edit exTrace2, .parse (exReq [ccMine, ccSwitch])] ∧
    NoCollision exEnv (contents acts exTrace1) ∧ (∀ l ∈ contents acts exTrace1, Fit exU .ftrace l) ∧
    (∀ req, Act.parse req ∈ acts → req.kind = .ftrace ∧ req.Ok exU ∧ req.classes ≠ []) ∧
    (history exEnv false acts ⟨exTrace1, none⟩).1 =
      [.ok ⟨F64.ofRat 21 2, F64.ofRat 11 1, [(cs!"version", cs!"6")],
        [[(F64.ofRat 21 2, cs!"*x=1"), (F64.ofRat 11 1, cs!"*x=3")]]⟩,
       .ok ⟨F64.ofRat 41 2, F64.ofRat 21 1, [(cs!"version", cs!"6")],
        [[(F64.ofRat 21 1, cs!"*x=5")], [(F64.ofRat 41 2, cs!"*x=4")]]⟩] := by
  refine ⟨_, rfl, ?_, ?_, ?_, by decide +kernel⟩
  · intro a ha b hb
    simp only [contents, List.mem_cons, List.not_mem_nil, or_false] at ha hb
    rcases ha with rfl | rfl <;> rcases hb with rfl | rfl
    · exact fun _ => rfl
    · exact fun h => absurd h (by decide +kernel)
    · exact fun h => absurd h (by decide +kernel)
    · exact fun _ => rfl
  · intro l hl
    simp only [contents, List.mem_cons, List.not_mem_nil, or_false] at hl
    rcases hl with rfl | rfl
    · exact exU_fit _ (by decide +kernel)
    · exact exU_fit _ (by decide +kernel)
  · intro req hr
    simp only [List.mem_cons, List.not_mem_nil, or_false, Act.parse.injEq, reduceCtorEq, false_or] at hr
    rcases hr with rfl | rfl
    · exact ⟨rfl, ⟨by simp [exReq, exU], by decide⟩, by simp [exReq]⟩
    · exact ⟨rfl, ⟨by simp [exReq, exU], by decide⟩, by simp [exReq]⟩

/-- **C32, part proved**: any history of parses of an unchanged file with one kind of reader, each for at least one
class, where the classes in use have different names and their words do not occur on the same line. -/
theorem C32_warm_cache_partial (E : Env α) (hE : E.Faithful) (U : CClass → Prop) (kind : Kind) (lines : List Str)
    (hfit : Fit U kind lines) (reqs : List Req)
    (hreq : ∀ req ∈ reqs, req.kind = kind ∧ req.Ok U ∧ req.classes ≠ []) :
    (history E false (reqs.map Act.parse) ⟨lines, none⟩).1 = (history E true (reqs.map Act.parse) ⟨lines, none⟩).1 := by
  have hc : contents (reqs.map Act.parse) lines = [lines] := by
    induction reqs with
    | nil => rfl
    | cons r reqs ih => simp only [List.map_cons, contents]; exact ih fun q hq => hreq q (by simp [hq])
  apply C33_changed_trace E hE U kind
  · rw [hc]; intro a ha b hb _; simp at ha hb; rw [ha, hb]
  · rw [hc]; intro l hl; simp at hl; rw [hl]; exact hfit
  · intro req h
    obtain ⟨r, hr, e⟩ := List.mem_map.mp h
    have e : r = req := by simpa using e
    exact e ▸ hreq r hr

/-- three parses: nothing cached, one table cached, all cached with other user parameters -/
example : Fit exU .ftrace exTrace1 ∧
    (∀ req ∈ [exReq [ccSwitch], exReq [ccMine, ccSwitch], ⟨.ftrace, [ccSwitch], ⟨true, ⟨0, none⟩, ⟨F64.ofRat 43 4, none⟩⟩⟩],
      req.kind = .ftrace ∧ req.Ok exU ∧ req.classes ≠ []) ∧
    (history exEnv false ([exReq [ccSwitch], exReq [ccMine, ccSwitch],
        ⟨.ftrace, [ccSwitch], ⟨true, ⟨0, none⟩, ⟨F64.ofRat 43 4, none⟩⟩⟩].map Act.parse) ⟨exTrace1, none⟩).1.drop 1 =
      [.ok ⟨F64.ofRat 21 2, F64.ofRat 11 1, [(cs!"version", cs!"6")],
        [[(F64.ofRat 85 8, cs!"*x=2")], [(F64.ofRat 21 2, cs!"*x=1"), (F64.ofRat 11 1, cs!"*x=3")]]⟩,
       .ok ⟨F64.ofRat 21 2, F64.ofRat 11 1, [(cs!"version", cs!"6")], [[(F64.ofRat 1 2, cs!"*x=3")]]⟩] := by
  refine ⟨exU_fit _ (by decide +kernel), ?_, by decide +kernel⟩
  intro req hr
  simp only [List.mem_cons, List.not_mem_nil, or_false] at hr
  rcases hr with rfl | rfl | rfl
  · exact ⟨rfl, ⟨by simp [exReq, exU], by decide⟩, by simp [exReq]⟩
  · exact ⟨rfl, ⟨by simp [exReq, exU], by decide⟩, by simp [exReq]⟩
  · exact ⟨rfl, ⟨by simp [exU], by decide⟩, by simp⟩

/-- **C32 refuted**: with the cache enabled, (a) a parse for no class at all never reads the trace and reports base time
and end time 0; (b) a line that carries the words of two classes goes to one of them, but to both when they are parsed
one after the other; (c) `FTrace` cannot read a cache written by `SysTrace`. -/
theorem C32_warm_cache_refuted :
    (∃ lines : List Str, (history exEnv false [.parse (exReq [])] ⟨lines, none⟩).1 ≠
      (history exEnv true [.parse (exReq [])] ⟨lines, none⟩).1) ∧
    (∃ lines : List Str, (history exEnv false [.parse (exReq [ccMine]), .parse (exReq [ccMine, ccMark])] ⟨lines, none⟩).1 ≠
      (history exEnv true [.parse (exReq [ccMine]), .parse (exReq [ccMine, ccMark])] ⟨lines, none⟩).1) ∧
    (∃ lines : List Str, (history exEnv false [.parse ⟨.systrace, [ccMine], .full false⟩, .parse (exReq [ccMine])]
        ⟨lines, none⟩).1 ≠
      (history exEnv true [.parse ⟨.systrace, [ccMine], .full false⟩, .parse (exReq [ccMine])] ⟨lines, none⟩).1) :=
  ⟨⟨exTrace1, by decide +kernel⟩, ⟨exTrace3, by decide +kernel⟩, ⟨exTrace3, by decide +kernel⟩⟩

/-- For every environment: without events the cached parse reports base time 0 and end time 0. -/
theorem C32_no_events_refuted (E : Env α) (kind : Kind) (u : UserParams) (lines : List Str) :
    ((doParse E false ⟨kind, [], u⟩).run ⟨lines, none⟩).1 = .ok ⟨0, 0, [], []⟩ := by
  rw [doParse_run, run_loadCache_none _ _ _ rfl, afterLoad_fst]
  simp [outcomeOf, Loaded.nothing]

example : ((doParse exEnv true (exReq [])).run ⟨exTrace1, none⟩).1 =
    .ok ⟨F64.ofRat 21 2, F64.ofRat 11 1, [(cs!"version", cs!"6")], []⟩ := by decide +kernel

/-! ## C40 -/

/-- **C40**: in any history of parses and edits every table that is returned is the finalised table of the class's
rows, finalised once, then restricted to the window and normalised, whether it was cached or not. -/
theorem C40_finalised_once (E : Env α) (hE : E.Faithful) (U : CClass → Prop) (kind : Kind) (acts : List Act)
    (lines : List Str) (hcol : NoCollision E (contents acts lines)) (hfit : ∀ l ∈ contents acts lines, Fit U kind l)
    (hreq : ∀ req, Act.parse req ∈ acts → req.kind = kind ∧ req.Ok U ∧ req.classes ≠ [])
    (pre post : List Act) (req : Req) (hacts : acts = pre ++ .parse req :: post) (res : Result α)
    (hres : (history E false acts ⟨lines, none⟩).1[(pre.filter fun a => match a with | .parse _ => true | _ => false).length]? =
      some (.ok res)) :
    ∃ now ∈ contents acts lines, res.tables.length = req.classes.length ∧
      ∀ (i : Nat) (c : CClass), req.classes[i]? = some c → ∃ t0,
        E.create kind c ((populateBody [c.cls] 0 (bodyOf kind now)).tables 0) = some t0 ∧
        res.tables[i]? = some (applyUser res.basetime req.user (E.finalize c t0)) := by
  rw [C33_changed_trace E hE U kind acts lines hcol hfit hreq] at hres
  have gen : ∀ (pre : List Act) (lines : List Str), (∀ l ∈ contents (pre ++ .parse req :: post) lines, Fit U kind l) →
      (∀ r, Act.parse r ∈ pre ++ .parse req :: post → r.kind = kind ∧ r.Ok U ∧ r.classes ≠ []) →
      (history E true (pre ++ .parse req :: post) ⟨lines, none⟩).1[(pre.filter fun a => match a with | .parse _ => true | _ => false).length]? =
        some (.ok res) →
      ∃ now ∈ contents (pre ++ .parse req :: post) lines, expected E req now = .ok res := by
    clear hres hreq hfit hcol hacts
    intro pre
    induction pre with
    | nil =>
      intro lines hfit hreq h
      have hl : lines ∈ contents (Act.parse req :: post) lines := by
        simp only [contents]
        clear * -
        induction post with
        | nil => simp [contents]
        | cons a acts ih => cases a <;> simp [contents, ih]
      obtain ⟨hk, hok, _⟩ := hreq req (by simp)
      subst hk
      simp only [List.nil_append, history, List.filter_nil, List.length_nil, List.getElem?_cons_zero, Option.some.injEq] at h
      rw [run_disabled hE.toBasic hok (hfit _ hl)] at h
      exact ⟨lines, hl, h⟩
    | cons a pre ih =>
      intro lines hfit hreq h
      cases a with
      | edit l' =>
        simp only [List.cons_append, history, List.filter_cons, Bool.false_eq_true, if_false] at h
        obtain ⟨now, h1, h2⟩ := ih l' (fun l hl => hfit l (by simp [contents, hl])) (fun r hr => hreq r (by simp at hr ⊢; tauto)) h
        exact ⟨now, by simp [contents, h1], h2⟩
      | parse r =>
        obtain ⟨hk, hok, _⟩ := hreq r (by simp)
        subst hk
        have hl : lines ∈ contents (Act.parse r :: (pre ++ .parse req :: post)) lines := by
          simp only [contents]
          clear * -
          generalize pre ++ Act.parse req :: post = acts
          induction acts with
          | nil => simp [contents]
          | cons a acts ih => cases a <;> simp [contents, ih]
        simp only [List.cons_append, history, List.filter_cons, if_true, List.length_cons, List.getElem?_cons_succ] at h
        rw [run_disabled hE.toBasic hok (hfit _ hl)] at h
        obtain ⟨now, h1, h2⟩ := ih lines (fun l hl => hfit l (by simpa [contents] using hl)) (fun r hr => hreq r (by simp at hr ⊢; tauto)) h
        exact ⟨now, by simpa [contents] using h1, h2⟩
  subst hacts
  obtain ⟨now, hnow, he⟩ := gen pre lines hfit hreq hres
  obtain ⟨hk, _, _⟩ := hreq req (by simp)
  subst hk
  refine ⟨now, hnow, ?_⟩
  unfold expected at he
  split at he
  · simp at he
  · rename_i ts ht
    simp only [Outcome.ok.injEq] at he
    subst he
    refine ⟨by simp [allTables_length ht], ?_⟩
    clear hres hnow hfit hcol hreq gen
    generalize req.classes = cs at ht
    induction cs generalizing ts with
    | nil => simp
    | cons c cs ih =>
      simp only [allTables] at ht
      split at ht
      · rename_i t ts' h1 h2
        simp at ht; subst ht
        intro i c' hi
        cases i with
        | zero =>
          simp at hi; subst hi
          simp only [tableOf, Option.map_eq_some_iff] at h1
          obtain ⟨t0, h3, rfl⟩ := h1
          exact ⟨t0, h3, by simp [userApply, applyUser]⟩
        | succ i =>
          simp at hi
          obtain ⟨t0, h3, h4⟩ := ih ts' h2 i c' hi
          exact ⟨t0, h3, by simpa using h4⟩
      · simp at ht

/-- the mark that finalising adds is there once in all three parses of the example after C32, the cached ones included -/
example : (history exEnv false [.parse (exReq [ccSwitch]), .parse (exReq [ccSwitch])] ⟨exTrace1, none⟩).1.map
    (fun o => match o with | .ok r => r.tables | .raise => []) =
    [[[(F64.ofRat 21 2, cs!"*x=1"), (F64.ofRat 11 1, cs!"*x=3")]],
     [[(F64.ofRat 21 2, cs!"*x=1"), (F64.ofRat 11 1, cs!"*x=3")]]] := by decide +kernel

/-! ## C36 -/

/-- **C36** (also the meaning of "cache disabled" in the other properties): with the cache disabled, a parse gives the
tables of the file, whatever the cache holds, and no operation changes anything on disk, even if it is interrupted. -/
theorem C36_disabled (E : Env α) (req : Req) (fs : FS) (n : Nat) :
    ((doParse E true req).run fs).2 = fs ∧ ((doParse E true req).steps n fs).2 = fs ∧
    ∀ cache', ((doParse E true req).run { fs with cache := cache' }).1 = ((doParse E true req).run fs).1 := by
  have hstep : ∀ (R : Type) (p : Prog R) (fs : FS) (n : Nat), (∃ r, p = .ret r) → (p.steps n fs).2 = fs := by
    rintro R p fs n ⟨r, rfl⟩
    cases n <;> rfl
  unfold doParse afterLoad
  simp only [if_true, Bool.not_true, Bool.false_and, Bool.false_eq_true, if_false, Prog.run, Op.exec]
  refine ⟨?_, ?_, ?_⟩
  · split <;> rfl
  · cases n with
    | zero => rfl
    | succ n =>
      simp only [Prog.steps, Op.exec]
      apply hstep
      split
      · exact ⟨_, rfl⟩
      · exact ⟨_, rfl⟩
  · intro cache'
    split <;> rfl

/-- a parse with an unreadable cache directory around -/
example : ((doParse exEnv true (exReq [ccSwitch])).run ⟨exTrace1, some [(cs!"junk", cs!"x")]⟩).1 =
    .ok ⟨F64.ofRat 21 2, F64.ofRat 11 1, [(cs!"version", cs!"6")],
      [[(F64.ofRat 21 2, cs!"*x=1"), (F64.ofRat 11 1, cs!"*x=3")]]⟩ := by decide +kernel

/-! ## C37 -/

theorem filter_zip_found (E : Env α) (d : Dict Str) (cs : List CClass) (es : List (CClass × Bool × Table α))
    (h : es.map (fun e => (e.1, e.2.1)) = (cs.zip (cs.map (found E (some d)))).map (fun x => (x.1, x.2.isSome))) :
    (es.filter fun e => !e.2.1).map Prod.fst = cs.filter fun c => (found E (some d) c).isNone := by
  induction cs generalizing es with
  | nil => simp at h; simp [h]
  | cons c cs ih =>
    cases es with
    | nil => simp at h
    | cons e es =>
      simp only [List.map_cons, List.zip_cons_cons, List.cons.injEq, Prod.mk.injEq] at h
      have := ih es h.2
      simp only [List.filter_cons, h.1.2]
      cases hf : found E (some d) c <;> simp [this, h.1.1]

/-- **C37, part proved**: a parse with a valid cache that holds at least one of the requested tables.  The files that
are written are exactly those of the requested classes that are missing, each once and in order; nothing else is
changed, and the tables that were there are returned as they are. -/
theorem C37_missing_tables_partial (E : Env α) (req : Req) (fs : FS) (d : Dict Str) (hc : fs.cache = some d) {t : Str}
    (ht : d.get metaName = some t) {md : Meta} (hm : E.loadMeta t = some md) (hv : cacheValid E md fs.trace = true)
    (hsome : ∃ c ∈ req.classes, (found E (some d) c).isSome) (res : Result α)
    (hok : ((doParse E false req).run fs).1 = .ok res) :
    let missing := req.classes.filter fun c => (found E (some d) c).isNone
    ((doParse E false req).log fs).filterMap Op.created = missing.map csvName ∧
    (∀ o ∈ (doParse E false req).log fs, o.changes = true →
      ∃ c ∈ missing, o = .creat (csvName c) ∨ ∃ ch, o = .append (csvName c) ch) ∧
    (∃ d', ((doParse E false req).run fs).2.cache = some d' ∧
      ∀ name, (∀ c ∈ missing, name ≠ csvName c) → d'.get name = d.get name) ∧
    (∀ (i : Nat) (c : CClass) (tb : Table α), req.classes[i]? = some c → found E (some d) c = some tb →
      res.tables[i]? = some (userApply true res.basetime req.user tb)) := by
  intro missing
  have hl := run_loadCache_ok E req fs d hc ht hm hv
  have hlog := log_loadCache_ok E req fs d hc ht hm hv
  have hrun := doParse_run E req fs
  rw [hl] at hrun
  have hdl : (doParse E false req).log fs = (loadCache E req).log fs ++
      (match ((loadCache E req).run fs).1 with
        | .raise => (Prog.ret .raise : Prog (Outcome (Result α))) | .ok L => afterLoad E false req L).log
        ((loadCache E req).run fs).2 := by
    simp only [doParse, Bool.false_eq_true, if_false]
    rw [log_bind]
    cases ((loadCache E req).run fs).1 <;> rfl
  rw [hl] at hdl
  obtain ⟨L, hL1, hL2, hL3, hL4⟩ : ∃ L : Loaded α, L.cached = req.classes.map (found E (some d)) ∧ L.valid = true ∧
      (doParse E false req).run fs = (afterLoad E false req L).run fs ∧
      (doParse E false req).log fs = (loadCache E req).log fs ++ (afterLoad E false req L).log fs := by
    cases hk : req.kind with
    | systrace => rw [hk] at hrun hdl; exact ⟨_, rfl, rfl, hrun, hdl⟩
    | ftrace =>
      rw [hk] at hrun hdl
      cases hh : md.header with
      | none => rw [hh] at hrun; rw [hrun] at hok; simp at hok
      | some h => rw [hh] at hrun hdl; exact ⟨_, rfl, rfl, hrun, hdl⟩
  rw [hL3] at hok ⊢
  have hany : L.cached.any Option.isSome = true := by
    rw [hL1, List.any_map, List.any_eq_true]
    exact hsome
  obtain ⟨es, h1, h2, ⟨rd, h3, h3'⟩, h4, h5⟩ := afterLoad_some E req L fs d hc (by rw [hL1]; simp) hany res hok
  rw [hL1] at h1 h5
  have hmiss : (es.filter fun e => !e.2.1).map Prod.fst = missing := filter_zip_found E d req.classes es h1
  have hcr : ∀ (l : List (CClass × Bool × Table α)), (l.flatMap fun e =>
      Op.creat (csvName e.1) :: (E.toCsv e.2.2).map (Op.append (csvName e.1))).filterMap Op.created =
      l.map fun e => csvName e.1 := by
    intro l
    induction l with
    | nil => rfl
    | cons e l ih =>
      simp only [List.flatMap_cons, List.cons_append, List.filterMap_cons, Op.created, List.filterMap_append, ih, List.map_cons]
      have : ((E.toCsv e.2.2).map (Op.append (csvName e.1))).filterMap Op.created = [] := by
        rw [List.filterMap_map, List.filterMap_eq_nil_iff]
        intro _ _; rfl
      rw [this]; rfl
  refine ⟨?_, ?_, ⟨addTables E d es, h2, ?_⟩, ?_⟩
  · rw [hL4, h3', List.filterMap_append, List.filterMap_append, created_of_unchanging hlog, created_of_unchanging h3,
      log_writeTables E es fs d hc, hcr, ← hmiss, List.map_map]
    rfl
  · intro o ho hch
    rw [hL4, h3', List.mem_append, List.mem_append] at ho
    rcases ho with ho | ho | ho
    · rw [hlog o ho] at hch; simp at hch
    · rw [h3 o ho] at hch; simp at hch
    · rw [log_writeTables E es fs d hc, List.mem_flatMap] at ho
      obtain ⟨e, he, ho⟩ := ho
      refine ⟨e.1, by rw [← hmiss]; exact List.mem_map.mpr ⟨e, he, rfl⟩, ?_⟩
      rcases List.mem_cons.mp ho with rfl | ho
      · exact Or.inl rfl
      · obtain ⟨ch, _, rfl⟩ := List.mem_map.mp ho
        exact Or.inr ⟨ch, rfl⟩
  · intro name hn
    apply addTables_get
    intro e he hb h
    refine hn e.1 ?_ h.symm
    rw [← hmiss]
    exact List.mem_map.mpr ⟨e, List.mem_filter.mpr ⟨he, by simp [hb]⟩, rfl⟩
  · intro i c tb hi hf
    have := h5 i c tb (by
      rw [List.getElem?_zip_eq_some]
      refine ⟨hi, ?_⟩
      rw [List.getElem?_map, hi]
      simp [hf])
    rw [h4, List.getElem?_map, this, hL2]
    rfl

/-- the cache holds the table of one of the two requested classes -/
example : ∃ d t md, ((doParse exEnv false (exReq [ccSwitch])).run ⟨exTrace1, none⟩).2.cache = some d ∧
    d.get metaName = some t ∧ exEnv.loadMeta t = some md ∧ cacheValid exEnv md exTrace1 = true ∧
    (found exEnv (some d) ccSwitch).isSome ∧ (found exEnv (some d) ccMine).isNone ∧
    ((doParse exEnv false (exReq [ccMine, ccSwitch])).log ⟨exTrace1, some d⟩).filterMap Op.created = [cs!"MyEvent.csv"] := by
  refine ⟨[(metaName, exDump (goodMeta exEnv .ftrace exTrace1)),
    (csvName ccSwitch, exToCsv [(F64.ofRat 21 2, cs!"*x=1"), (F64.ofRat 11 1, cs!"*x=3")])],
    exDump (goodMeta exEnv .ftrace exTrace1), goodMeta exEnv .ftrace exTrace1, ?_, ?_, ?_, ?_, ?_, ?_, ?_⟩ <;> decide +kernel

/-- What happens otherwise, in every environment: a valid cache that holds none of the requested tables is emptied, and
all other tables in it are lost. -/
theorem C37_cache_wiped (E : Env α) (req : Req) (fs : FS) (d : Dict Str) (hc : fs.cache = some d) {t : Str}
    (ht : d.get metaName = some t) {md : Meta} (hm : E.loadMeta t = some md) (hv : cacheValid E md fs.trace = true)
    (hne : req.classes ≠ []) (hnone : ∀ c ∈ req.classes, found E (some d) c = none) (res : Result α)
    (hok : ((doParse E false req).run fs).1 = .ok res) (name : Str) (h1 : name ≠ metaName)
    (h2 : ∀ c ∈ req.classes, name ≠ csvName c) :
    ∃ d', ((doParse E false req).run fs).2.cache = some d' ∧ d'.get name = none := by
  have hl := run_loadCache_ok E req fs d hc ht hm hv
  have hrun := doParse_run E req fs
  rw [hl] at hrun
  obtain ⟨L, hL1, hL3⟩ : ∃ L : Loaded α, L.cached = req.classes.map (found E (some d)) ∧
      (doParse E false req).run fs = (afterLoad E false req L).run fs := by
    cases hk : req.kind with
    | systrace => rw [hk] at hrun; exact ⟨_, rfl, hrun⟩
    | ftrace =>
      rw [hk] at hrun
      cases hh : md.header with
      | none => rw [hh] at hrun; rw [hrun] at hok; simp at hok
      | some h => rw [hh] at hrun; exact ⟨_, rfl, hrun⟩
  rw [hL3] at hok ⊢
  have hall : L.cached.all Option.isSome = false := by
    rw [hL1]
    cases hcl : req.classes with
    | nil => exact absurd hcl hne
    | cons c cs => simp [hnone c (by simp [hcl])]
  unfold afterLoad at hok ⊢
  simp only [hall, Bool.and_false, Bool.false_eq_true, if_false, Prog.run, Op.exec] at hok ⊢
  generalize hp : populateBody _ _ _ = p at hok ⊢
  cases hmb : mergeBuild E req.kind p 0 (req.classes.zip L.cached) with
  | none => rw [hmb] at hok; simp [Prog.run] at hok
  | some es =>
    simp only
    obtain ⟨he, _⟩ := mergeBuild_entries E req.kind p _ 0 es hmb
    have hm' : ∀ e ∈ es, e.1 ∈ req.classes ∧ e.2.1 = false := by
      intro e hme
      have : (e.1, e.2.1) ∈ es.map (fun e => (e.1, e.2.1)) := List.mem_map.mpr ⟨e, hme, rfl⟩
      rw [he] at this
      obtain ⟨y, hy, h⟩ := List.mem_map.mp this
      have hy' := List.of_mem_zip (a := y.1) (b := y.2) hy
      simp only [Prod.mk.injEq] at h
      refine ⟨h.1 ▸ hy'.1, ?_⟩
      rw [hL1] at hy'
      obtain ⟨c, hc1, hc2⟩ := List.mem_map.mp hy'.2
      rw [← h.2, ← hc2, hnone c hc1]
      rfl
    rw [run_bind, run_updateCache_none E _ es fs (by
      rw [List.any_eq_false]; intro e hme; simp [(hm' e hme).2])]
    refine ⟨_, rfl, ?_⟩
    rw [addTables_get]
    · simp only [Dict.get]; rw [if_neg (fun e => h1 e.symm)]
    · intro e hme _ h
      exact h2 e.1 (hm' e hme).1 h.symm

/-- **C37 refuted**: after parsing one event and then another, the table of the first one is no longer cached. -/
theorem C37_missing_tables_refuted :
    ¬ ∀ (req : Req) (fs : FS) (d : Dict Str), fs.cache = some d → Consistent exEnv exU .ftrace fs.trace d →
      (∃ res, ((doParse exEnv false req).run fs).1 = .ok res) →
      ∀ c t, found exEnv (some d) c = some t → found exEnv ((doParse exEnv false req).run fs).2.cache c = some t := by
  intro h
  have h1 := parse_step exEnv_faithful.toBasic (U := exU) (req := exReq [ccSwitch]) ⟨by simp [exReq, exU], by decide⟩
    (fs := ⟨exTrace1, none⟩) (exU_fit _ (by decide +kernel)) (exEnv_faithful.readsBack _ _ _) (by simp [exReq]) (past := [exTrace1]) (by simp)
    (by intro a ha b hb _; simp at ha hb; rw [ha, hb]) (by intro d hd; simp at hd)
  have hsome : ((doParse exEnv false (exReq [ccSwitch])).run ⟨exTrace1, none⟩).2.cache.isSome = true := by decide +kernel
  obtain ⟨d, hd⟩ := Option.isSome_iff_exists.mp hsome
  have h2 := h1.2.2 d hd
  have hf : (found exEnv ((doParse exEnv false (exReq [ccSwitch])).run ⟨exTrace1, none⟩).2.cache ccSwitch).isSome = true := by
    decide +kernel
  obtain ⟨t, ht⟩ := Option.isSome_iff_exists.mp hf
  have hfs : ((doParse exEnv false (exReq [ccSwitch])).run ⟨exTrace1, none⟩).2 = ⟨exTrace1, some d⟩ := by
    have := h1.2.1
    cases hx : ((doParse exEnv false (exReq [ccSwitch])).run ⟨exTrace1, none⟩).2 with
    | mk tr ca =>
      rw [hx] at this hd
      simp at this hd
      rw [this, hd]
  have h4 : found exEnv ((doParse exEnv false (exReq [ccMine])).run
      ((doParse exEnv false (exReq [ccSwitch])).run ⟨exTrace1, none⟩).2).2.cache ccSwitch = none := by decide +kernel
  rw [hfs] at h4
  have h5 : ∃ res, ((doParse exEnv false (exReq [ccMine])).run ⟨exTrace1, some d⟩).1 = .ok res := by
    have : (match ((doParse exEnv false (exReq [ccMine])).run
      ((doParse exEnv false (exReq [ccSwitch])).run ⟨exTrace1, none⟩).2).1 with | .ok _ => true | .raise => false) = true := by
      decide +kernel
    rw [hfs] at this
    split at this
    · rename_i r hr; exact ⟨r, hr⟩
    · simp at this
  rw [hd] at ht
  have := h (exReq [ccMine]) ⟨exTrace1, some d⟩ d rfl h2 h5 ccSwitch t ht
  rw [h4] at this
  simp at this

/-! ## C38 -/

/-- **C38 refuted**, in every faithful environment: if two classes have the same Python name, the second one gets the
table of the first. -/
theorem C38_shared_entry_refuted (E : Env α) (hE : E.Faithful) (A B : CClass) (hn : A.pyName = B.pyName) (kind : Kind)
    (u : UserParams) (lines : List Str) (res : Result α)
    (hok : ((doParse E true ⟨kind, [A], u⟩).run ⟨lines, none⟩).1 = .ok res) :
    (history E false [.parse ⟨kind, [A], u⟩, .parse ⟨kind, [B], u⟩] ⟨lines, none⟩).1 = [.ok res, .ok res] := by
  have hfit : Fit (· = A) kind lines := ⟨fun c c' h h' _ => h.trans h'.symm, fun _ _ c c' h h' _ _ => h.trans h'.symm⟩
  have hreq : (⟨kind, [A], u⟩ : Req).Ok (· = A) := ⟨by simp, by simp⟩
  rw [run_disabled hE.toBasic hreq (fs := ⟨lines, none⟩) hfit] at hok
  have h1 := run_cold hE.toBasic hreq (fs := ⟨lines, none⟩) hfit (by simp)
  have h2 := parse_step hE.toBasic hreq (fs := ⟨lines, none⟩) hfit (hE.readsBack _ _ _) (by simp) (past := [lines]) (by simp)
    (by intro a ha b hb _; simp at ha hb; rw [ha, hb]) (by intro d hd; simp at hd)
  simp only [history]
  have hd1 : (doParse E false ⟨kind, [A], u⟩).run ⟨lines, none⟩ =
      (afterLoad E false ⟨kind, [A], u⟩ (Loaded.nothing ⟨kind, [A], u⟩)).run ⟨lines, none⟩ := trace_unchanged_cold rfl
  simp only at hok
  have hexp := hok
  unfold expected at hok
  split at hok
  · simp at hok
  · rename_i ts hts
    simp only at hts
    rw [hts] at h1
    obtain ⟨tA, htA⟩ : ∃ tA, tableOf E kind lines A = some tA ∧ ts = [tA] := by
      simp only [allTables] at hts
      split at hts
      · rename_i t ts' h3 h4
        simp at h4 hts
        exact ⟨t, h3, by rw [← hts, ← h4]⟩
      · simp at hts
    have hfs : ((afterLoad E false ⟨kind, [A], u⟩ (Loaded.nothing ⟨kind, [A], u⟩)).run ⟨lines, none⟩).2 =
        ⟨lines, some (addTables E [(metaName, E.dumpMeta (goodMeta E kind lines))] [(A, false, tA)])⟩ := by
      rw [h1.2, htA.2]; rfl
    rw [hd1, hfs] at h2
    rw [hd1, hfs, h1.1, hexp]
    congr 2
    have hcons := h2.2.2 _ rfl
    rw [doParse_run, run_loadCache_valid hE.toBasic ⟨kind, [B], u⟩ ⟨lines, some _⟩ _ rfl hcons]
    simp only
    rw [afterLoad_fst]
    have hcsv : csvName B = csvName A := by simp [csvName, hn]
    have hf : found E (some (addTables E [(metaName, E.dumpMeta (goodMeta E kind lines))] [(A, false, tA)])) B = some tA := by
      simp only [found, Option.bind_some, addTables, hcsv, Dict.get_set, if_true, hE.csv]
    simp only [outcomeOf, List.map_cons, List.map_nil, hf, List.all_cons, List.all_nil, Option.isSome_some, Bool.and_true,
      Bool.not_false, if_true, List.filterMap_cons, List.filterMap_nil, Option.map_some]
    rw [← hok, htA.2]
    have := userApply_valid hE.toBasic hts u true
    rw [htA.2] at this
    simp only [List.map_cons, List.map_nil] at this ⊢
    rw [this]

/-- an event called `SchedSwitch` besides the class `SchedSwitch` of the event `sched_switch` -/
example : ∃ B : CClass, ccSwitch.pyName = B.pyName ∧ B.cls.word = cs!"SchedSwitch:" ∧
    (∃ res, ((doParse exEnv true ⟨.ftrace, [ccSwitch], .full false⟩).run ⟨exTrace1, none⟩).1 = .ok res) ∧
    ((doParse exEnv true (exReq [B])).run ⟨exTrace1, none⟩).1 ≠ ((doParse exEnv true (exReq [ccSwitch])).run ⟨exTrace1, none⟩).1 := by
  refine ⟨⟨cs!"SchedSwitch", cs!"SchedSwitch:", false⟩, rfl, rfl, ?_, by decide +kernel⟩
  refine ⟨⟨F64.ofRat 21 2, F64.ofRat 11 1, [(cs!"version", cs!"6")],
    [[(F64.ofRat 21 2, cs!"*x=1"), (F64.ofRat 11 1, cs!"*x=3")]]⟩, by decide +kernel⟩

/-- **C38, part proved**, in every environment: classes with different Python names have different cache entries, and
the outcome of a parse does not depend on the entries of classes with other names than the requested ones. -/
theorem C38_own_entry_partial (E : Env α) (req : Req) (lines : List Str) (d d' : Dict Str)
    (hmeta : d.get metaName = d'.get metaName)
    (hown : ∀ c ∈ req.classes, d.get (csvName c) = d'.get (csvName c)) :
    (∀ c c' : CClass, c.pyName ≠ c'.pyName → csvName c ≠ csvName c') ∧
    ((doParse E false req).run ⟨lines, some d⟩).1 = ((doParse E false req).run ⟨lines, some d'⟩).1 := by
  refine ⟨fun c c' h e => h (csvName_inj e), ?_⟩
  rw [doParse_run, doParse_run]
  cases ht : d.get metaName with
  | none =>
    rw [run_loadCache_noMeta E req ⟨lines, some d⟩ d rfl ht,
      run_loadCache_noMeta E req ⟨lines, some d'⟩ d' rfl (hmeta ▸ ht)]
  | some t =>
    cases hm : E.loadMeta t with
    | none =>
      rw [run_loadCache_badMeta E req ⟨lines, some d⟩ d rfl ht hm,
        run_loadCache_badMeta E req ⟨lines, some d'⟩ d' rfl (hmeta ▸ ht) hm]
    | some md =>
      cases hv : cacheValid E md lines with
      | false =>
        rw [run_loadCache_stale E req ⟨lines, some d⟩ d rfl ht hm hv,
          run_loadCache_stale E req ⟨lines, some d'⟩ d' rfl (hmeta ▸ ht) hm hv]
      | true =>
        rw [run_loadCache_ok E req ⟨lines, some d⟩ d rfl ht hm hv,
          run_loadCache_ok E req ⟨lines, some d'⟩ d' rfl (hmeta ▸ ht) hm hv]
        have : req.classes.map (found E (some d)) = req.classes.map (found E (some d')) := by
          apply List.map_congr_left
          intro c hc
          simp only [found, Option.bind_some, hown c hc]
        rw [this]
        cases req.kind <;> cases md.header <;> simp only [afterLoad_fst]

/-- a wrong table in the entry of another class does no harm -/
example : ∃ d d' : Dict Str, d.get metaName = d'.get metaName ∧ d.get (csvName ccMine) = d'.get (csvName ccMine) ∧
    d.get (csvName ccSwitch) ≠ d'.get (csvName ccSwitch) ∧
    ((doParse exEnv false (exReq [ccMine])).run ⟨exTrace1, some d⟩).1 =
      .ok ⟨F64.ofRat 21 2, F64.ofRat 11 1, [(cs!"version", cs!"6")], [[(F64.ofRat 85 8, cs!"*x=2")]]⟩ := by
  refine ⟨[(metaName, exDump (goodMeta exEnv .ftrace exTrace1)), (csvName ccMine, exToCsv [(F64.ofRat 85 8, cs!"*x=2")]),
    (csvName ccSwitch, cs!"junk")],
    [(metaName, exDump (goodMeta exEnv .ftrace exTrace1)), (csvName ccMine, exToCsv [(F64.ofRat 85 8, cs!"*x=2")])],
    ?_, ?_, ?_, ?_⟩ <;> decide +kernel

end Trappy
