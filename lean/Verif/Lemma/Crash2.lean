import Verif.Lemma.Crash
/-! What a killed parse leaves on disk. -/

namespace Trappy
open Prog

variable {α : Type}

/-- the text of a file is the right one -/
def rightText (E : Env α) (U : CClass → Prop) (kind : Kind) (lines : List Str) (name text : Str) : Prop :=
  (name = metaName → text = E.dumpMeta (goodMeta E kind lines)) ∧
  ∀ c, U c → name = csvName c → ∃ tb, tableOf E kind lines c = some tb ∧ text = E.toCsv tb

/-- the text of a file is the beginning of the right one -/
def prefixText (E : Env α) (U : CClass → Prop) (kind : Kind) (lines : List Str) (name text : Str) : Prop :=
  (name = metaName → text <+: E.dumpMeta (goodMeta E kind lines)) ∧
  ∀ c, U c → name = csvName c → ∃ tb, tableOf E kind lines c = some tb ∧ text <+: E.toCsv tb

/-- every file is right -/
def AllRight (E : Env α) (U : CClass → Prop) (kind : Kind) (lines : List Str) (d : Dict Str) : Prop :=
  ∀ p ∈ d, rightText E U kind lines p.1 p.2

/-- every file but one is right, and that one is the beginning of the right one -/
def Almost (E : Env α) (U : CClass → Prop) (kind : Kind) (lines : List Str) (f : Str) (d : Dict Str) : Prop :=
  ∀ p ∈ d, prefixText E U kind lines p.1 p.2 ∧ (p.1 ≠ f → rightText E U kind lines p.1 p.2)

variable {E : Env α} {U : CClass → Prop} {kind : Kind} {lines : List Str}

theorem rightText.prefix {name text : Str} (h : rightText E U kind lines name text) : prefixText E U kind lines name text := by
  refine ⟨fun e => (h.1 e) ▸ List.prefix_refl _, fun c hu e => ?_⟩
  obtain ⟨tb, h1, h2⟩ := h.2 c hu e
  exact ⟨tb, h1, h2 ▸ List.prefix_refl _⟩

theorem AllRight.almost {d : Dict Str} (h : AllRight E U kind lines d) (f : Str) : Almost E U kind lines f d :=
  fun p hp => ⟨(h p hp).prefix, fun _ => h p hp⟩

theorem Dict.mem_set {d : Dict Str} {k v : Str} {p : Str × Str} (h : p ∈ d.set k v) : p = (k, v) ∨ p ∈ d := by
  induction d with
  | nil => simp [Dict.set] at h; exact Or.inl h
  | cons x d ih =>
    obtain ⟨k', v'⟩ := x
    simp only [Dict.set] at h
    split at h
    · rename_i e
      rcases List.mem_cons.mp h with h | h
      · left; rw [h]
      · right; exact List.mem_cons_of_mem _ h
    · rcases List.mem_cons.mp h with h | h
      · right; rw [h]; exact List.mem_cons_self
      · rcases ih h with h | h
        · exact Or.inl h
        · right; exact List.mem_cons_of_mem _ h

theorem Dict.mem_of_get {d : Dict Str} {k v : Str} (h : d.get k = some v) : (k, v) ∈ d := by
  induction d with
  | nil => simp [Dict.get] at h
  | cons x d ih =>
    obtain ⟨k', v'⟩ := x
    simp only [Dict.get] at h
    split at h
    · rename_i e; simp at h; rw [e, h]; exact List.mem_cons_self
    · exact List.mem_cons_of_mem _ (ih h)

theorem right_csv (hn : ∀ c c', U c → U c' → c.pyName = c'.pyName → c = c') {c : CClass} (hu : U c) {t : Table α}
    (ht : tableOf E kind lines c = some t) : rightText E U kind lines (csvName c) (E.toCsv t) := by
  refine ⟨fun e => absurd e (csvName_ne_meta c), fun c' hu' e => ?_⟩
  have := hn c c' hu hu' (csvName_inj e)
  subst this
  exact ⟨t, ht, rfl⟩

theorem prefix_csv (hn : ∀ c c', U c → U c' → c.pyName = c'.pyName → c = c') {c : CClass} (hu : U c) {t : Table α}
    (ht : tableOf E kind lines c = some t) (k : Nat) :
    prefixText E U kind lines (csvName c) ((E.toCsv t).take k) := by
  refine ⟨fun e => absurd e (csvName_ne_meta c), fun c' hu' e => ?_⟩
  have := hn c c' hu hu' (csvName_inj e)
  subst this
  exact ⟨t, ht, List.take_prefix _ _⟩

theorem addTables_allRight (hn : ∀ c c', U c → U c' → c.pyName = c'.pyName → c = c') (es : List (CClass × Bool × Table α))
    (d : Dict Str) (hd : AllRight E U kind lines d) (h : ∀ e ∈ es, U e.1 ∧ tableOf E kind lines e.1 = some e.2.2) :
    AllRight E U kind lines (addTables E d es) := by
  induction es generalizing d with
  | nil => exact hd
  | cons e es ih =>
    obtain ⟨c, b, t⟩ := e
    have h' := fun e he => h e (List.mem_cons_of_mem _ he)
    cases b with
    | true => exact ih d hd h'
    | false =>
      refine ih _ ?_ h'
      intro p hp
      rcases Dict.mem_set hp with rfl | hp
      · have := h (c, false, t) (by simp)
        exact right_csv hn this.1 this.2
      · exact hd p hp

theorem meta_allRight : AllRight E U kind lines [(metaName, E.dumpMeta (goodMeta E kind lines))] := by
  intro p hp
  simp at hp
  subst hp
  exact ⟨fun _ => rfl, fun c _ e => absurd e.symm (csvName_ne_meta c)⟩

/-- the disk during and after parses of the same file -/
def DiskAlmost (E : Env α) (U : CClass → Prop) (kind : Kind) (lines : List Str) (fs : FS) : Prop :=
  fs.trace = lines ∧ ∃ f, ∀ d, fs.cache = some d → Almost E U kind lines f d

theorem allRight_get {d : Dict Str} (h : AllRight E U kind lines d) (hm : (d.get metaName).isSome = true) :
    Consistent E U kind lines d := by
  obtain ⟨t, ht⟩ := Option.isSome_iff_exists.mp hm
  constructor
  · rw [ht]; exact congrArg some ((h _ (Dict.mem_of_get ht)).1 rfl)
  · intro c hu x hx
    obtain ⟨tb, h1, h2⟩ := (h _ (Dict.mem_of_get hx)).2 c hu rfl
    exact ⟨tb, h1, h2⟩

theorem always_afterLoad {req : Req} (hreq : req.Ok U) {fs : FS}
    (hf : Fit U req.kind fs.trace) (L : Loaded α) (hlen : L.cached.length = req.classes.length)
    (hright : RightCached E req.kind fs.trace (req.classes.zip L.cached))
    (hbase : L.basetime = 0 ∨ L.basetime = baseOf req.kind fs.trace)
    (hdisk : ∀ d, fs.cache = some d → AllRight E U req.kind fs.trace d) :
    Always (DiskAlmost E U req.kind fs.trace) (afterLoad E false req L) fs := by
  have h0 : DiskAlmost E U req.kind fs.trace fs := ⟨rfl, metaName, fun d hd => (hdisk d hd).almost _⟩
  have hfst : (req.classes.zip L.cached).map Prod.fst = req.classes := by
    rw [List.map_fst_zip]; omega
  unfold afterLoad
  split
  · exact Always.ret h0
  · apply Always.op h0
    simp only [Op.exec]
    have hb : (populateBody ((uncached (req.classes.zip L.cached)).map CClass.cls) L.basetime (bodyOf req.kind fs.trace)).basetime =
        baseOf req.kind fs.trace := body_base _ _ _ _ hbase
    have he : (populateBody ((uncached (req.classes.zip L.cached)).map CClass.cls) L.basetime (bodyOf req.kind fs.trace)).endtime =
        endOf req.kind fs.trace := body_end _ _ _ _ _
    have hsub := uncached_sublist (req.classes.zip L.cached)
    rw [hfst] at hsub
    have hmb := mergeBuild_spec (E := E) hf (all := uncached (req.classes.zip L.cached))
      (fun c hc => hreq.mem c (hsub.subset hc)) (hsub.nodup hreq.nodup) L.basetime (req.classes.zip L.cached) hright []
      (by simp)
    rw [hfst] at hmb
    simp only [List.length_nil] at hmb
    rw [hmb]
    cases ht : allTables E req.kind fs.trace req.classes with
    | none => exact Always.ret h0
    | some ts =>
      simp only [Option.map_some, Bool.false_eq_true, if_false]
      have hes := entries_right ht L.cached hlen
      generalize (((req.classes.zip L.cached).zip ts).map fun x => (x.1.1, x.1.2.isSome, x.2)) = es at hes
      have hes' : ∀ e ∈ es, U e.1 ∧ tableOf E req.kind fs.trace e.1 = some e.2.2 :=
        fun e he => ⟨hreq.mem _ (hes e he).1, (hes e he).2⟩
      have hall : Always (DiskAlmost E U req.kind fs.trace)
          (updateCache E (goodMeta E req.kind fs.trace) es) fs := by
        apply always_updateCache
        · exact h0
        · intro d k hd
          refine ⟨rfl, metaName, fun d' hd' => ?_⟩
          simp only [Option.some.injEq] at hd'
          subst hd'
          exact fun p hp => (hdisk d hd).almost _ p (List.mem_of_mem_drop hp)
        · exact ⟨rfl, metaName, fun d' hd' => by simp at hd'⟩
        · refine ⟨rfl, metaName, fun d' hd' => ?_⟩
          simp only [Option.some.injEq] at hd'
          subst hd'
          intro p hp; simp at hp
        · intro k
          refine ⟨rfl, metaName, fun d' hd' => ?_⟩
          simp only [Option.some.injEq] at hd'
          subst hd'
          intro p hp
          simp at hp
          subst hp
          refine ⟨⟨fun _ => List.take_prefix _ _, fun c _ e => absurd e.symm (csvName_ne_meta c)⟩, fun h => absurd rfl h⟩
        · intro d hd
          have hda : AllRight E U req.kind fs.trace d := by
            rcases hd with hd | rfl
            · exact hdisk d hd
            · exact meta_allRight
          refine ⟨?_, ?_⟩
          · intro es1 hpre
            refine ⟨rfl, metaName, fun d' hd' => ?_⟩
            simp only [Option.some.injEq] at hd'
            subst hd'
            exact (addTables_allRight hf.names es1 d hda fun e he => hes' e (hpre.subset he)).almost _
          · intro es1 c t es2 k hsplit
            refine ⟨rfl, csvName c, fun d' hd' => ?_⟩
            simp only [Option.some.injEq] at hd'
            subst hd'
            have hr := addTables_allRight hf.names es1 d hda fun e he => hes' e (by rw [hsplit]; simp [he])
            have hc := hes' (c, false, t) (by rw [hsplit]; simp)
            intro p hp
            rcases Dict.mem_set hp with rfl | hp
            · exact ⟨prefix_csv hf.names hc.1 hc.2 k, fun h => absurd rfl h⟩
            · exact hr.almost _ p hp
      apply Always.bind
      · rw [hb, he]; exact hall
      · apply Always.ret
        rw [hb, he]; exact hall.end

/-- the cache directory of a disk is right -/
def DiskRight (E : Env α) (U : CClass → Prop) (kind : Kind) (fs : FS) : Prop :=
  ∀ d, fs.cache = some d → AllRight E U kind fs.trace d ∧ (d.get metaName).isSome = true

theorem always_doParse (hE : E.Faithful) {req : Req} (hreq : req.Ok U) {fs : FS}
    (hf : Fit U req.kind fs.trace) (hdisk : DiskRight E U req.kind fs) :
    Always (DiskAlmost E U req.kind fs.trace) (doParse E false req) fs := by
  have h0 : DiskAlmost E U req.kind fs.trace fs := ⟨rfl, metaName, fun d hd => ((hdisk d hd).1).almost _⟩
  simp only [doParse, Bool.false_eq_true, if_false]
  apply Always.bind
  · apply always_loadCache
    · exact h0
    · intro d k hd
      refine ⟨rfl, metaName, fun d' hd' => ?_⟩
      simp only [Option.some.injEq] at hd'
      subst hd'
      exact fun p hp => ((hdisk d hd).1).almost _ p (List.mem_of_mem_drop hp)
    · exact ⟨rfl, metaName, fun d' hd' => by simp at hd'⟩
  · cases hc : fs.cache with
    | none =>
      rw [run_loadCache_none E req fs hc]
      simp only
      refine always_afterLoad hreq hf _ (by simp [Loaded.nothing]) ?_ (Or.inl rfl) fun d hd => (hdisk d hd).1
      intro x hx t ht
      have := (List.of_mem_zip (a := x.1) (b := x.2) hx).2
      simp only [Loaded.nothing, List.mem_map] at this
      obtain ⟨_, _, h⟩ := this
      rw [← h] at ht; simp at ht
    | some d =>
      have hcons := allRight_get (hdisk d hc).1 (hdisk d hc).2
      rw [run_loadCache_valid hE.toBasic req fs d hc hcons]
      simp only
      refine always_afterLoad hreq hf _ (by simp) ?_ (Or.inr rfl) fun d hd => (hdisk d hd).1
      intro x hx t ht
      simp only at hx
      rw [List.zip_map_right] at hx
      simp only [List.mem_map] at hx
      obtain ⟨y, hy, rfl⟩ := hx
      have hyy : y.1 = y.2 := by
        clear ht
        generalize req.classes = cs at hy
        induction cs with
        | nil => simp at hy
        | cons c cs ih => simp at hy; rcases hy with rfl | hy; rfl; exact ih (by simpa using hy)
      have hm := (List.of_mem_zip (a := y.1) (b := y.2) hy).1
      simp only [Prod.map, id] at ht ⊢
      rw [← hyy] at ht
      exact found_right (hE.readsBack _ _ _) hcons (hreq.mem _ hm) ht

theorem diskRight_step (hE : E.Faithful) {req : Req} (hreq : req.Ok U) {fs : FS}
    (hf : Fit U req.kind fs.trace) (hne : req.classes ≠ []) (hdisk : DiskRight E U req.kind fs) :
    ((doParse E false req).run fs).2.trace = fs.trace ∧ DiskRight E U req.kind ((doParse E false req).run fs).2 := by
  cases hc : fs.cache with
  | none =>
    rw [trace_unchanged_cold hc]
    have h := run_cold hE.toBasic hreq hf hne
    rw [h.2]
    split
    · exact ⟨rfl, hdisk⟩
    · rename_i ts ht
      refine ⟨rfl, fun d hd => ?_⟩
      simp only [Option.some.injEq] at hd
      subst hd
      refine ⟨addTables_allRight hf.names _ _ meta_allRight fun e he =>
          have := entries_right ht _ (by simp) e he
          ⟨hreq.mem _ this.1, this.2⟩, ?_⟩
      rw [addTables_get _ _ _ fun e _ _ => csvName_ne_meta e.1]
      simp [Dict.get]
  | some d =>
    have hcons := allRight_get (hdisk d hc).1 (hdisk d hc).2
    have h := run_warm hE.toBasic hreq hf (hE.readsBack _ _ _) hc hcons
    rw [h.2]
    split
    · exact ⟨rfl, hdisk⟩
    · split
      · exact ⟨rfl, hdisk⟩
      · rename_i ts ht
        refine ⟨rfl, fun d' hd' => ?_⟩
        simp only [Option.some.injEq] at hd'
        subst hd'
        refine ⟨addTables_allRight hf.names _ _ ?_ fun e he =>
          have := entries_right ht _ (by simp) e he
          ⟨hreq.mem _ this.1, this.2⟩, ?_⟩
        · split
          · exact (hdisk d hc).1
          · exact meta_allRight
        · rw [addTables_get _ _ _ fun e _ _ => csvName_ne_meta e.1]
          split
          · exact (hdisk d hc).2
          · simp [Dict.get]

end Trappy
