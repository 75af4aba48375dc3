import Verif.Model.Publish
import Verif.Prop.Populate
import Verif.Lemma.Events
/-!
# C143, C144: publishing notebooks
-/

namespace Trappy

/-- no nonempty end of `a` begins `b`, is begun by `b`, or the other way around for the ends of `b`: occurrences of `a` and `b` never overlap -/
def apart (a b : Str) : Bool :=
  (a.tails.all fun t => t.isEmpty || !(t.isPrefixOf b || b.isPrefixOf t)) && b.tails.all fun t => t.isEmpty || !(t.isPrefixOf a || a.isPrefixOf t)

theorem apart_left {a b : Str} (h : apart a b = true) {t : Str} (ht : t <:+ a) (hne : t ≠ []) : ¬ t <+: b ∧ ¬ b <+: t := by
  unfold apart at h
  rw [Bool.and_eq_true] at h
  have := List.all_eq_true.1 h.1 t ((List.mem_tails _ _).2 ht)
  simp only [List.isEmpty_iff, hne, Bool.or_eq_true, false_or, Bool.not_eq_true', Bool.or_eq_false_iff] at this
  exact ⟨fun h' => by rw [List.isPrefixOf_iff_prefix.2 h'] at this; exact absurd this.1 (by decide),
    fun h' => by rw [List.isPrefixOf_iff_prefix.2 h'] at this; exact absurd this.2 (by decide)⟩

theorem apart_right {a b : Str} (h : apart a b = true) {t : Str} (ht : t <:+ b) (hne : t ≠ []) : ¬ t <+: a ∧ ¬ a <+: t := by
  unfold apart at h
  rw [Bool.and_eq_true] at h
  have := List.all_eq_true.1 h.2 t ((List.mem_tails _ _).2 ht)
  simp only [List.isEmpty_iff, hne, Bool.or_eq_true, false_or, Bool.not_eq_true', Bool.or_eq_false_iff] at this
  exact ⟨fun h' => by rw [List.isPrefixOf_iff_prefix.2 h'] at this; exact absurd this.1 (by decide),
    fun h' => by rw [List.isPrefixOf_iff_prefix.2 h'] at this; exact absurd this.2 (by decide)⟩

/-- an occurrence after a text it cannot overlap with -/
theorem infix_skip {pat v s : Str} (h : ∀ t, t <:+ v → t ≠ [] → ¬ t <+: pat ∧ ¬ pat <+: t) (hi : pat <:+: v ++ s) : pat <:+: s := by
  induction v with
  | nil => exact hi
  | cons c v ih =>
    rw [List.cons_append, List.infix_cons_iff] at hi
    rcases hi with hi | hi
    · exfalso
      have h' := h (c :: v) (List.suffix_refl _) (by simp)
      rcases List.prefix_or_prefix_of_prefix hi (List.prefix_append (c :: v) s) with h1 | h1
      · exact h'.2 h1
      · exact h'.1 h1
    · exact ih (fun t ht => h t (ht.trans (List.suffix_cons c v))) hi

theorem replace_step (old new : Str) (ho : old ≠ []) (c : Char) (s : Str) :
    (∃ s', c :: s = old ++ s' ∧ Py.replace old new (c :: s) = new ++ Py.replace old new s') ∨
      (¬ old <+: c :: s ∧ Py.replace old new (c :: s) = c :: Py.replace old new s) := by
  by_cases h : old <+: c :: s
  · obtain ⟨s', hs'⟩ := h
    exact .inl ⟨s', hs'.symm, by rw [← hs', replace_hit ho]⟩
  · refine .inr ⟨h, ?_⟩
    have := replace_skip (new := new) (a := [c]) (s := s) ho (by
      intro x d y e
      cases x with
      | nil =>
        simp only [List.nil_append, List.cons.injEq] at e
        obtain ⟨rfl, rfl⟩ := e
        simpa using h
      | cons a x => simp at e)
    simpa using this

/-- a text at the start of the result of a replacement was at the start before -/
theorem prefix_replace {old new : Str} (ho : old ≠ []) {pat : Str} (h : ∀ t, t <:+ pat → t ≠ [] → ¬ t <+: new ∧ ¬ new <+: t) (s : Str)
    (hp : pat <+: Py.replace old new s) : pat <+: s := by
  induction s generalizing pat with
  | nil => rw [replace_nil] at hp; exact hp
  | cons c s ih =>
    cases pat with
    | nil => exact List.nil_prefix
    | cons p pat =>
      rcases replace_step old new ho c s with ⟨s', _, e⟩ | ⟨_, e⟩
      · rw [e] at hp
        have h' := h (p :: pat) (List.suffix_refl _) (by simp)
        rcases List.prefix_or_prefix_of_prefix hp (List.prefix_append new _) with h1 | h1
        · exact absurd h1 h'.1
        · exact absurd h1 h'.2
      · rw [e, List.cons_prefix_cons] at hp
        rw [List.cons_prefix_cons]
        exact ⟨hp.1, ih (fun t ht => h t (ht.trans (List.suffix_cons p pat))) hp.2⟩

/-- a replacement does not make a text that it cannot overlap with, and leaves nothing of what it replaces -/
theorem infix_replace {old new : Str} (ho : old ≠ []) {pat : Str} (h : apart pat new = true) :
    ∀ (n : Nat) (s : Str), s.length ≤ n → pat <:+: Py.replace old new s → pat <:+: s ∧ pat ≠ old := by
  have hself : ∀ s : Str, pat ≠ [] → pat <+: Py.replace old new s → pat <+: s := fun s _ hp => prefix_replace ho (fun t => apart_left h) s hp
  intro n
  induction n with
  | zero =>
    intro s hs hi
    have : s = [] := List.length_eq_zero_iff.1 (by omega)
    subst this
    rw [replace_nil] at hi
    refine ⟨hi, fun e => ho ?_⟩
    rw [← e]
    simpa using hi
  | succ n ih =>
    intro s hs hi
    cases s with
    | nil =>
      rw [replace_nil] at hi
      refine ⟨hi, fun e => ho ?_⟩
      rw [← e]
      simpa using hi
    | cons c s =>
      rcases replace_step old new ho c s with ⟨s', e1, e2⟩ | ⟨hno, e⟩
      · rw [e2] at hi
        have hi := infix_skip (fun t => apart_right h) hi
        have hlen : s'.length ≤ n := by
          have := congrArg List.length e1
          have h0 : 0 < old.length := List.length_pos_iff.2 ho
          simp at this hs
          omega
        obtain ⟨h1, h2⟩ := ih s' hlen hi
        refine ⟨?_, h2⟩
        rw [e1]
        exact h1.trans (List.suffix_append old s').isInfix
      · rw [e, List.infix_cons_iff] at hi
        rcases hi with hi | hi
        · have hp : pat <+: c :: s := prefix_replace ho (fun t => apart_left h) (c :: s) (by rw [e]; exact hi)
          exact ⟨hp.isInfix, fun e => hno (e ▸ hp)⟩
        · obtain ⟨h1, h2⟩ := ih s (by simp at hs; omega) hi
          exact ⟨h1.trans (List.suffix_cons c s).isInfix, h2⟩

/-- a text that cannot overlap with what is replaced stays -/
theorem infix_kept {old new : Str} (ho : old ≠ []) {pat : Str} (h : apart pat old = true) :
    ∀ (n : Nat) (s : Str), s.length ≤ n → pat <:+: s → pat <:+: Py.replace old new s := by
  have hpre : ∀ (pat s : Str), (∀ t, t <:+ pat → t ≠ [] → ¬ t <+: old ∧ ¬ old <+: t) → pat <+: s → pat <+: Py.replace old new s := by
    intro pat s
    induction s generalizing pat with
    | nil => intro _ hp; rw [replace_nil]; exact hp
    | cons c s ih =>
      intro h hp
      cases pat with
      | nil => exact List.nil_prefix
      | cons p pat =>
        rcases replace_step old new ho c s with ⟨s', e1, _⟩ | ⟨_, e⟩
        · exfalso
          have h' := h (p :: pat) (List.suffix_refl _) (by simp)
          rw [e1] at hp
          rcases List.prefix_or_prefix_of_prefix hp (List.prefix_append old s') with h1 | h1
          · exact h'.1 h1
          · exact h'.2 h1
        · rw [e, List.cons_prefix_cons]
          rw [List.cons_prefix_cons] at hp
          exact ⟨hp.1, ih pat (fun t ht => h t (ht.trans (List.suffix_cons p pat))) hp.2⟩
  intro n
  induction n with
  | zero =>
    intro s hs hi
    have : s = [] := List.length_eq_zero_iff.1 (by omega)
    subst this
    rw [replace_nil]
    exact hi
  | succ n ih =>
    intro s hs hi
    cases s with
    | nil => rw [replace_nil]; exact hi
    | cons c s =>
      rcases replace_step old new ho c s with ⟨s', e1, e2⟩ | ⟨_, e⟩
      · rw [e1] at hi
        have hi := infix_skip (fun t => apart_right h) hi
        have hlen : s'.length ≤ n := by
          have := congrArg List.length e1
          have h0 : 0 < old.length := List.length_pos_iff.2 ho
          simp at this hs
          omega
        rw [e2]
        exact (ih s' hlen hi).trans (List.suffix_append new _).isInfix
      · rw [List.infix_cons_iff] at hi
        rcases hi with hi | hi
        · exact (hpre pat (c :: s) (fun t => apart_left h) hi).isInfix
        · rw [e]
          exact (ih s (by simp at hs; omega) hi).trans (List.suffix_cons c _).isInfix

/-- **Specification**: the scripts that the pages of interactive plots load (EventPlot.py:239-241, ILinePlotGen.py:94-97) -/
def pageScripts : List Str :=
  [cs!"plotter_scripts/EventPlot/EventPlot", cs!"plotter_scripts/EventPlot/d3.tip.v0.6.3", cs!"plotter_scripts/EventPlot/d3.min",
   cs!"plotter_scripts/ILinePlot/synchronizer", cs!"plotter_scripts/ILinePlot/dygraph-combined", cs!"plotter_scripts/ILinePlot/ILinePlot",
   cs!"plotter_scripts/ILinePlot/underscore-min"]

/-- **Specification**: the path of a script on the web server of IPython before 4.0 and since then -/
def localScript (v4 : Bool) (script : Str) : Str := (if v4 then cs!"/nbextensions/" else cs!"/static/") ++ script

theorem published_apart (v4 : Bool) : ∀ script ∈ pageScripts, ∀ u ∈ publishedUrls, apart (localScript v4 script) u.2 = true := by
  cases v4 <;> decide +kernel

theorem webBase_ne (v4 : Bool) (u : Str) : addWebBase v4 u ≠ [] := by
  unfold addWebBase
  simp

theorem foldl_published (v4 : Bool) {pat : Str} {us : List (Str × Str)} (h : ∀ u ∈ us, apart pat u.2 = true) (txt : Str)
    (hi : pat <:+: us.foldl (fun txt u => Py.replace (addWebBase v4 u.1) u.2 txt) txt) : pat <:+: txt ∧ ∀ u ∈ us, pat ≠ addWebBase v4 u.1 := by
  induction us generalizing txt with
  | nil => exact ⟨hi, by simp⟩
  | cons u us ih =>
    obtain ⟨h1, h2⟩ := ih (fun u' hu' => h u' (List.mem_cons_of_mem _ hu')) _ hi
    obtain ⟨h3, h4⟩ := infix_replace (webBase_ne v4 u.1) (h u List.mem_cons_self) _ txt (Nat.le_refl _) h1
    refine ⟨h3, ?_⟩
    intro u' hu'
    rcases List.mem_cons.1 hu' with rfl | hu'
    · exact h4
    · exact h2 u' hu'

/-- **C143, part proved.**  Whatever a notebook contains, after publishing it has no path of a local script other than the one of d3. -/
theorem C143_published_partial (v4 : Bool) (txt : Str) (script : Str) (hs : script ∈ pageScripts) (hd : script ≠ cs!"plotter_scripts/EventPlot/d3.min") :
    ¬ localScript v4 script <:+: changeResourcePaths v4 txt := by
  intro hi
  have h := (foldl_published v4 (published_apart v4 script hs) txt hi).2
  have : ∃ u ∈ publishedUrls, localScript v4 script = addWebBase v4 u.1 := by
    clear hi h
    revert hd
    revert script
    cases v4 <;> decide +kernel
  obtain ⟨u, hu, e⟩ := this
  exact h u hu e

/-- **C143, refuted.**  The script of d3 is looked for under another name: every notebook with an event plot still has its local path after publishing. -/
theorem C143_d3_refuted (v4 : Bool) (txt : Str) (h : localScript v4 cs!"plotter_scripts/EventPlot/d3.min" <:+: txt) :
    localScript v4 cs!"plotter_scripts/EventPlot/d3.min" <:+: changeResourcePaths v4 txt := by
  have hap : ∀ u ∈ publishedUrls, apart (localScript v4 cs!"plotter_scripts/EventPlot/d3.min") (addWebBase v4 u.1) = true := by
    cases v4 <;> decide +kernel
  unfold changeResourcePaths
  revert hap
  generalize publishedUrls = us
  intro hap
  induction us generalizing txt with
  | nil => exact h
  | cons u us ih =>
    exact ih _ (infix_kept (webBase_ne v4 u.1) (hap u List.mem_cons_self) _ txt (Nat.le_refl _) h) fun u' hu' => hap u' (List.mem_cons_of_mem _ hu')

/-- C143, an example: a page with two scripts, before and after -/
example : changeResourcePaths true cs!"'/nbextensions/plotter_scripts/EventPlot/d3.tip.v0.6.3', '/nbextensions/plotter_scripts/EventPlot/d3.min'" =
    cs!"'https://labratrevenge.com/d3-tip/javascripts/d3.tip.v0.6.3.js', '/nbextensions/plotter_scripts/EventPlot/d3.min'" := by
  decide +kernel

/-- **C143.**  The quoted path of each script, other than d3, becomes a quoted address on the web of a file with the name of the script. -/
theorem C143_urls (v4 : Bool) : ∀ script ∈ pageScripts, script ≠ cs!"plotter_scripts/EventPlot/d3.min" → ∃ u ∈ publishedUrls,
    changeResourcePaths v4 (cs!"'" ++ localScript v4 script ++ cs!"'") = cs!"'" ++ u.2 ++ cs!"'" ∧ cs!"https://" <+: u.2 ∧
      (baseName u.2 = baseName script ∨ baseName u.2 = baseName script ++ cs!".js") := by
  cases v4 <;> decide +kernel

/-- **C143, refuted.**  RequireJS appends `.js` to the paths of its configuration (EventPlot.py:235-241, ILinePlotGen.py:91-97).  The addresses of the scripts of
others end with `.js` already, so that a published page asks for files with `.js.js`, which are not those scripts. -/
theorem C143_suffix_refuted (v4 : Bool) : ∀ script ∈ pageScripts, script ≠ cs!"plotter_scripts/EventPlot/d3.min" →
    script ≠ cs!"plotter_scripts/EventPlot/EventPlot" → script ≠ cs!"plotter_scripts/ILinePlot/ILinePlot" → ∃ u ∈ publishedUrls,
      changeResourcePaths v4 (localScript v4 script) = u.2 ∧ cs!".js.js" <:+ u.2 ++ cs!".js" := by
  cases v4 <;> decide +kernel

/-- **C143.**  The rest of a notebook is not changed: one without local paths is published as it is. -/
theorem C143_rest (v4 : Bool) (txt : Str) (h : ∀ u ∈ publishedUrls, ¬ addWebBase v4 u.1 <:+: txt) : changeResourcePaths v4 txt = txt := by
  have same : ∀ (old new s : Str), old ≠ [] → ¬ old <:+: s → Py.replace old new s = s := by
    intro old new s ho
    induction s with
    | nil => intro _; exact replace_nil _ _
    | cons c s ih =>
      intro hn
      rcases replace_step old new ho c s with ⟨s', e1, _⟩ | ⟨_, e⟩
      · exact absurd ⟨[], s', by simpa using e1.symm⟩ hn
      · rw [e, ih fun h' => hn (h'.trans (List.suffix_cons c s).isInfix)]
  unfold changeResourcePaths
  revert h
  generalize publishedUrls = us
  intro h
  induction us with
  | nil => rfl
  | cons u us ih =>
    rw [List.foldl_cons, same _ _ _ (webBase_ne v4 u.1) (h u List.mem_cons_self), ih fun u' hu' => h u' (List.mem_cons_of_mem _ hu')]

/-- C143, an example without plots -/
example : changeResourcePaths false cs!"no plots" = cs!"no plots" := C143_rest false _ (by decide +kernel)

/-! ## C144: the file that is written -/

theorem baseName_spec (path : Str) : '/' ∉ baseName path ∧ ∃ dir, path = dir ++ baseName path ∧ (dir = [] ∨ ∃ d, dir = d ++ ['/']) := by
  unfold baseName
  refine ⟨?_, (path.reverse.dropWhile (· != '/')).reverse, ?_, ?_⟩
  · intro h
    have := List.mem_takeWhile_imp (List.mem_reverse.1 h)
    simp at this
  · rw [← List.reverse_append, List.takeWhile_append_dropWhile, List.reverse_reverse]
  · cases h : path.reverse.dropWhile (· != '/') with
    | nil => exact .inl rfl
    | cons c r =>
      right
      have hc := List.head_dropWhile_not (p := fun c : Char => c != '/') (l := path.reverse) (by rw [h]; simp)
      simp only [h, List.head_cons] at hc
      simp at hc
      exact ⟨r.reverse, by rw [hc]; simp⟩

/-- **C144.**  Without `-o` the notebook that is published is never overwritten: the file that is written has another path, in the current directory;
with `-o` the file has the suffix of notebooks, and is the one given if that has it already. -/
theorem C144_target (notebook outfile : Str) :
    (publishTarget notebook [] ≠ notebook ∧ '/' ∉ publishTarget notebook []) ∧
    (outfile ≠ [] → cs!".ipynb" <:+ publishTarget notebook outfile ∧ outfile <+: publishTarget notebook outfile ∧
      (cs!".ipynb" <:+ outfile → publishTarget notebook outfile = outfile)) := by
  refine ⟨?_, ?_⟩
  · obtain ⟨h1, dir, h2, h3⟩ := baseName_spec notebook
    have e : publishTarget notebook [] = cs!"published_" ++ baseName notebook := by unfold publishTarget; rw [if_pos rfl]
    rw [e]
    refine ⟨?_, ?_⟩
    · intro h
      have h' : cs!"published_" ++ baseName notebook = dir ++ baseName notebook := by rw [h]; exact h2
      have h' := List.append_cancel_right h'
      rcases h3 with h3 | ⟨d, h3⟩
      · rw [h3] at h'; cases h'
      · rw [h3] at h'
        have : '/' ∈ cs!"published_" := by rw [h']; simp
        exact absurd this (by decide)
    · rw [List.mem_append, not_or]
      exact ⟨by decide, h1⟩
  · intro ho
    unfold publishTarget
    rw [if_neg ho]
    have hs : ∀ s : Str, Py.endsWith s cs!".ipynb" = true ↔ cs!".ipynb" <:+ s := by
      intro s; unfold Py.endsWith; exact List.isSuffixOf_iff_suffix
    by_cases h : cs!".ipynb" <:+ outfile
    · rw [if_pos ((hs _).2 h)]
      exact ⟨h, List.prefix_refl _, fun _ => rfl⟩
    · rw [if_neg (fun h' => h ((hs _).1 h'))]
      exact ⟨List.suffix_append _ _, List.prefix_append _ _, fun h' => absurd h' h⟩

/-- C144, examples -/
example : publishTarget cs!"dir/plots.ipynb" [] = cs!"published_plots.ipynb" ∧ publishTarget cs!"plots.ipynb" cs!"out" = cs!"out.ipynb" ∧
    publishTarget cs!"plots.ipynb" cs!"x.ipynb" = cs!"x.ipynb" := by decide +kernel

end Trappy
