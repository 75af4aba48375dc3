import Verif.Model.PublishRun
import Verif.Prop.Publish
import Verif.Lemma.Data
/-!
# C170: publishing notebooks changes no other file
-/

namespace Trappy

/-- **Specification**: the file of a run: the one asked for, with `.ipynb`, or `published_` and the name of the notebook in the current directory -/
def publishedFile (a : PublishArgs) : Str :=
  let name := if a.outfile = [] then cs!"published_" ++ baseName a.notebook else if cs!".ipynb" <:+ a.outfile then a.outfile else a.outfile ++ cs!".ipynb"
  if ['/'] <+: name then name else a.cwd ++ cs!"/" ++ name

theorem absPath_eq (cwd p : Str) : absPath cwd p = if ['/'] <+: p then p else cwd ++ cs!"/" ++ p := by
  unfold absPath
  have : (p.head? = some '/') ↔ ['/'] <+: p := by
    cases p with
    | nil => simp
    | cons c p => simp [List.cons_prefix_cons, eq_comm]
  by_cases h : ['/'] <+: p
  · rw [if_pos (this.2 h), if_pos h]
  · rw [if_neg (fun h' => h (this.1 h')), if_neg h]
    simp

theorem publishedFile_eq (a : PublishArgs) : absPath a.cwd (publishTarget a.notebook a.outfile) = publishedFile a := by
  rw [absPath_eq]
  have : publishTarget a.notebook a.outfile = if a.outfile = [] then cs!"published_" ++ baseName a.notebook else if cs!".ipynb" <:+ a.outfile then a.outfile else a.outfile ++ cs!".ipynb" := by
    unfold publishTarget Py.endsWith
    by_cases h : cs!".ipynb" <:+ a.outfile
    · rw [if_pos (List.isSuffixOf_iff_suffix.2 h), if_pos h]
    · rw [if_neg (fun h' => h (List.isSuffixOf_iff_suffix.1 h')), if_neg h]
  rw [this]
  rfl

/-- **C170 (one run).** A run succeeds exactly if the notebook is there. Then the file asked for has the published text, and no other file is changed; else nothing is changed. For all files and arguments; the profile does not matter. -/
theorem C170_run (v4 : Bool) (files : Dict Str) (a : PublishArgs) :
    ((publishRun v4 files a).2 = true ↔ ∃ txt, files.get (absPath a.cwd a.notebook) = some txt) ∧
    (∀ txt, files.get (absPath a.cwd a.notebook) = some txt → (publishRun v4 files a).1.get (publishedFile a) = some (changeResourcePaths v4 txt)) ∧
    (∀ f, f ≠ publishedFile a → (publishRun v4 files a).1.get f = files.get f) ∧
    ((publishRun v4 files a).2 = false → (publishRun v4 files a).1 = files) ∧
    ∀ profile, publishRun v4 files { a with profile := profile } = publishRun v4 files a := by
  unfold publishRun
  cases h : files.get (absPath a.cwd a.notebook) with
  | none =>
    refine ⟨by simp, by simp, fun _ _ => rfl, fun _ => rfl, fun p => ?_⟩
    simp only [h]
  | some txt =>
    simp only [publishedFile_eq]
    refine ⟨by simp, ?_, ?_, by simp, fun p => ?_⟩
    · rintro t ⟨⟩
      rw [Dict.get_set, if_pos rfl]
    · intro f hf
      rw [Dict.get_set, if_neg (fun h => hf h.symm)]
    · simp only [h]

/-- **C170 (several runs).** A file that no run is asked to write keeps its text, whatever notebooks are published. -/
theorem C170_others (v4 : Bool) (files : Dict Str) (runs : List PublishArgs) (f : Str) (h : ∀ a ∈ runs, publishedFile a ≠ f) : (publishRuns v4 files runs).get f = files.get f := by
  unfold publishRuns
  induction runs generalizing files with
  | nil => rfl
  | cons a runs ih =>
    rw [List.foldl_cons, ih _ fun b hb => h b (List.mem_cons_of_mem _ hb)]
    exact (C170_run v4 files a).2.2.1 f fun e => h a List.mem_cons_self e.symm

theorem baseName_join (a b : Str) : baseName (a ++ '/' :: b) = baseName b := by
  unfold baseName
  congr 1
  rw [List.reverse_append, List.reverse_cons, List.append_assoc]
  generalize b.reverse = l
  induction l with
  | nil => simp
  | cons c l ih =>
    rw [List.cons_append, List.takeWhile_cons, List.takeWhile_cons, ih]

theorem baseName_absPath (cwd p : Str) : baseName (absPath cwd p) = baseName p := by
  unfold absPath
  split
  · rfl
  · exact baseName_join cwd p

theorem baseName_published (p : Str) : baseName (cs!"published_" ++ baseName p) = cs!"published_" ++ baseName p := by
  unfold baseName
  rw [List.reverse_append, List.reverse_reverse, List.takeWhile_append_of_pos]
  · have : (cs!"published_").reverse.takeWhile (· != '/') = (cs!"published_").reverse := by decide +kernel
    rw [this, List.reverse_append, List.reverse_reverse]
  · intro x hx
    exact List.mem_takeWhile_imp (p := (· != '/')) hx

/-- **C170 (the notebook).** Without a file asked for, the notebook itself is never overwritten. For all notebooks in all directories. -/
theorem C170_notebook (v4 : Bool) (files : Dict Str) (a : PublishArgs) (h : a.outfile = []) :
    (publishRun v4 files a).1.get (absPath a.cwd a.notebook) = files.get (absPath a.cwd a.notebook) := by
  refine (C170_run v4 files a).2.2.1 _ fun e => ?_
  have h1 := congrArg baseName e
  rw [← publishedFile_eq, baseName_absPath, baseName_absPath, h] at h1
  unfold publishTarget at h1
  rw [if_pos rfl, baseName_published] at h1
  have := congrArg List.length h1
  simp only [List.length_append, List.length_cons, List.length_nil] at this
  omega

/-- the addresses have no local paths -/
theorem urls_apart (v4 : Bool) : ∀ u ∈ publishedUrls, ∀ u' ∈ publishedUrls, apart (addWebBase v4 u.1) u'.2 = true := by
  cases v4 <;> decide +kernel

/-- **C170 (twice).** A published notebook that is published again does not change. For all texts. -/
theorem C170_twice (v4 : Bool) (txt : Str) : changeResourcePaths v4 (changeResourcePaths v4 txt) = changeResourcePaths v4 txt := by
  refine C143_rest v4 _ fun u hu hi => ?_
  exact (foldl_published v4 (urls_apart v4 u hu) txt hi).2 u hu rfl

/-- **C170 (in place).** Publishing a notebook onto itself any number of times gives the published text. -/
theorem C170_in_place (v4 : Bool) (files : Dict Str) (a : PublishArgs) (txt : Str) (h : absPath a.cwd a.notebook = publishedFile a) (ht : files.get (absPath a.cwd a.notebook) = some txt) (n : Nat) :
    (publishRuns v4 files (List.replicate (n + 1) a)).get (absPath a.cwd a.notebook) = some (changeResourcePaths v4 txt) := by
  induction n generalizing files txt with
  | zero =>
    show ((publishRun v4 files a).1).get _ = _
    rw [h]
    exact (C170_run v4 files a).2.1 txt ht
  | succ n ih =>
    rw [List.replicate_succ]
    show (publishRuns v4 (publishRun v4 files a).1 (List.replicate (n + 1) a)).get _ = _
    have := (C170_run v4 files a).2.1 txt ht
    rw [← h] at this
    rw [ih _ _ this, C170_twice]

/-- **C170 (refuted).** Two notebooks of the same name in different directories are published to the same file: what was published of the first one is lost. For all such notebooks. -/
theorem C170_clash_refuted (v4 : Bool) (files : Dict Str) (a b : PublishArgs) (ta tb : Str) (ha : a.outfile = []) (hb : b.outfile = []) (hc : a.cwd = b.cwd) (hn : baseName a.notebook = baseName b.notebook)
    (hne : absPath b.cwd b.notebook ≠ publishedFile a) (h1 : files.get (absPath a.cwd a.notebook) = some ta) (h2 : files.get (absPath b.cwd b.notebook) = some tb) :
    publishedFile a = publishedFile b ∧ (publishRuns v4 files [a]).get (publishedFile a) = some (changeResourcePaths v4 ta) ∧
      (publishRuns v4 files [a, b]).get (publishedFile a) = some (changeResourcePaths v4 tb) := by
  have e : publishedFile a = publishedFile b := by simp only [publishedFile, ha, hb, hc, hn]
  refine ⟨e, (C170_run v4 files a).2.1 ta h1, ?_⟩
  show ((publishRun v4 (publishRun v4 files a).1 b).1).get _ = _
  rw [e]
  refine (C170_run v4 _ b).2.1 tb ?_
  rw [(C170_run v4 files a).2.2.1 _ hne]
  exact h2

/-- **C170 (refuted).** The published notebook is in the current directory, not beside the notebook: every notebook in another directory is published elsewhere. -/
theorem C170_elsewhere_refuted (a : PublishArgs) (ha : a.outfile = []) : publishedFile a = a.cwd ++ cs!"/published_" ++ baseName a.notebook := by
  unfold publishedFile
  simp only [ha, if_true]
  rw [if_neg]
  · simp
  · intro h
    rw [List.cons_append, List.cons_prefix_cons] at h
    exact absurd h.1 (by decide)

/-- two notebooks with the same name -/
def exNotebooks : Dict Str := [(cs!"/w/a/x.ipynb", cs!"'/nbextensions/plotter_scripts/ILinePlot/ILinePlot'"), (cs!"/w/b/x.ipynb", cs!"second")]

/-- C170: one run, two runs, and in place -/
example : publishRun true exNotebooks ⟨cs!"/w", cs!"default", [], cs!"a/x.ipynb"⟩ =
      (exNotebooks ++ [(cs!"/w/published_x.ipynb", cs!"'https://rawgit.com/sinkap/648927dfd6985d4540a9/raw/69d6f1f9031ae3624c15707315ce04be1a9d1ac3/ILinePlot'")], true) ∧
    (publishRuns true exNotebooks [⟨cs!"/w", cs!"default", [], cs!"a/x.ipynb"⟩, ⟨cs!"/w", cs!"default", [], cs!"/w/b/x.ipynb"⟩]).get cs!"/w/published_x.ipynb" = some cs!"second" ∧
    publishedFile ⟨cs!"/w", cs!"default", cs!"a/x", cs!"a/x.ipynb"⟩ = absPath cs!"/w" cs!"a/x.ipynb" ∧
    (publishRun true exNotebooks ⟨cs!"/w", cs!"default", [], cs!"c/x.ipynb"⟩).2 = false := by
  refine ⟨?_, ?_, ?_, ?_⟩ <;> decide +kernel

end Trappy
