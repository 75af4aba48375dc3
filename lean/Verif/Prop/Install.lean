import Verif.Model.Install
import Verif.Prop.Publish
import Verif.Lemma.Data
/-!
# C145: installing the scripts of interactive plots
-/

namespace Trappy

/-- **Specification**: no download broke in the middle -/
def NoBreak (net : Str → Fetch) : Prop := ∀ r s, net r ≠ .part s

/-- **Specification**: the downloaded files on the disk are complete -/
def Complete (content : Str → Str) (rs : List Str) (disk : Dict Str) : Prop :=
  ∀ r ∈ rs, cs!"http" <+: r → ∀ s, disk.get (baseName r) = some s → s = content r

theorem startsWith_iff (s p : Str) : Py.startsWith s p = true ↔ p <+: s := List.isPrefixOf_iff_prefix

theorem installResource_other (content : Str) (f : Fetch) (src dest : Str) (disk : Dict Str) {k : Str} (h : k ≠ dest) :
    (installResource content f src dest disk).2.get k = disk.get k := by
  unfold installResource
  split
  · split
    · rfl
    · split
      · rw [Dict.get_set, if_neg (Ne.symm h)]
      · rfl
      · rw [Dict.get_set, if_neg (Ne.symm h)]
  · rw [Dict.get_set, if_neg (Ne.symm h)]

/-- an HTTP resource that is there is not touched -/
theorem installResource_there (content : Str) (f : Fetch) {src : Str} (hs : cs!"http" <+: src) (dest : Str) (disk : Dict Str) {s : Str}
    (h : disk.get dest = some s) : installResource content f src dest disk = (true, disk) := by
  unfold installResource
  rw [if_pos ((startsWith_iff _ _).2 hs), h]

theorem installResource_ok (content : Str) {f : Fetch} (hf : ∀ s, f ≠ .part s) (src dest : Str) (disk : Dict Str)
    (hc : cs!"http" <+: src → ∀ s, disk.get dest = some s → s = content) :
    (cs!"http" <+: src → ∀ s, (installResource content f src dest disk).2.get dest = some s → s = content) ∧
    ((installResource content f src dest disk).1 = true → (installResource content f src dest disk).2.get dest = some content) := by
  unfold installResource
  by_cases hs : cs!"http" <+: src
  · rw [if_pos ((startsWith_iff _ _).2 hs)]
    cases h : disk.get dest with
    | some s => exact ⟨fun _ => hc hs, fun _ => by simp only; rw [h, hc hs s h]⟩
    | none =>
      cases f with
      | all =>
        simp only
        rw [Dict.get_set, if_pos rfl]
        exact ⟨fun _ s e => (Option.some.inj e).symm, fun _ => rfl⟩
      | nothing => exact ⟨fun _ s e => (by simp only at e; rw [h] at e; cases e), fun e => (by cases e)⟩
      | part s => exact absurd rfl (hf s)
  · rw [if_neg (fun h => hs ((startsWith_iff _ _).1 h))]
    simp only
    rw [Dict.get_set, if_pos rfl]
    exact ⟨fun h => absurd h hs, fun _ => rfl⟩

theorem iplotInstall_other (content : Str → Str) (net : Str → Fetch) (rs : List Str) (disk : Dict Str) {k : Str} (h : k ∉ rs.map baseName) :
    (iplotInstall content net rs disk).2.get k = disk.get k := by
  induction rs generalizing disk with
  | nil => rfl
  | cons r rs ih =>
    rw [List.map_cons, List.mem_cons, not_or] at h
    have ho := installResource_other (content r) (net r) r (baseName r) disk h.1
    rw [iplotInstall]
    cases hr : installResource (content r) (net r) r (baseName r) disk with
    | mk ok d =>
      rw [hr] at ho
      cases ok with
      | false => exact ho
      | true => simp only; rw [ih d h.2]; exact ho

/-- one call without a broken download -/
theorem iplotInstall_ok (content : Str → Str) {net : Str → Fetch} (hn : NoBreak net) (rs : List Str) (hd : (rs.map baseName).Nodup) (disk : Dict Str)
    (hc : Complete content rs disk) :
    Complete content rs (iplotInstall content net rs disk).2 ∧
      ((iplotInstall content net rs disk).1 = true → ∀ r ∈ rs, (iplotInstall content net rs disk).2.get (baseName r) = some (content r)) := by
  induction rs generalizing disk with
  | nil => exact ⟨fun r hr => (by cases hr), fun _ r hr => (by cases hr)⟩
  | cons r rs ih =>
    rw [List.map_cons, List.nodup_cons] at hd
    obtain ⟨o1, o2⟩ := installResource_ok (content r) (f := net r) (hn r) r (baseName r) disk (hc r List.mem_cons_self)
    have hrest : Complete content rs (installResource (content r) (net r) r (baseName r) disk).2 := by
      intro r' hr' hh s e
      rw [installResource_other _ _ _ _ _ (k := baseName r') (fun e => hd.1 (List.mem_map.2 ⟨r', hr', e⟩))] at e
      exact hc r' (List.mem_cons_of_mem _ hr') hh s e
    rw [iplotInstall]
    cases hr : installResource (content r) (net r) r (baseName r) disk with
    | mk ok d =>
      rw [hr] at o1 o2 hrest
      cases ok with
      | false =>
        refine ⟨?_, fun e => by cases e⟩
        intro r' hr'
        rcases List.mem_cons.1 hr' with rfl | hr'
        · exact o1
        · exact hrest r' hr'
      | true =>
        simp only
        obtain ⟨i1, i2⟩ := ih hd.2 d hrest
        have hkeep := iplotInstall_other content net rs d hd.1
        refine ⟨?_, ?_⟩
        · intro r' hr'
          rcases List.mem_cons.1 hr' with rfl | hr'
          · rw [hkeep]; exact o1
          · exact i1 r' hr'
        · intro e r' hr'
          rcases List.mem_cons.1 hr' with rfl | hr'
          · rw [hkeep]; exact o2 rfl
          · exact i2 e r' hr'

theorem resources_names : ∀ m ∈ iplotResources, (m.2.map baseName).Nodup := by decide +kernel

/-- **C145, part proved.**  Any number of calls in any network, as long as no download breaks in the middle: if the last call returns, all scripts of the
module are on the disk with their contents.  (Files of earlier runs must be complete, too.) -/
theorem C145_installed_partial (content : Str → Str) (m : Str × List Str) (hm : m ∈ iplotResources) (nets : List (Str → Fetch))
    (hn : ∀ net ∈ nets, NoBreak net) (disk : Dict Str) (hc : Complete content m.2 disk) :
    Complete content m.2 (installCalls content m.2 nets disk).2 ∧
    ((installCalls content m.2 nets disk).1.getLast? = some true → ∀ r ∈ m.2, (installCalls content m.2 nets disk).2.get (baseName r) = some (content r)) := by
  have hd := resources_names m hm
  induction nets generalizing disk with
  | nil => exact ⟨hc, fun e => by cases e⟩
  | cons net nets ih =>
    obtain ⟨i1, i2⟩ := iplotInstall_ok content (hn net List.mem_cons_self) m.2 hd disk hc
    obtain ⟨j1, j2⟩ := ih (fun net' hn' => hn net' (List.mem_cons_of_mem _ hn')) (iplotInstall content net m.2 disk).2 i1
    simp only [installCalls]
    refine ⟨j1, ?_⟩
    intro e
    cases nets with
    | nil =>
      simp only [installCalls] at e ⊢
      exact i2 (by simpa using e)
    | cons net' nets =>
      apply j2
      simp only [installCalls] at e ⊢
      rw [List.getLast?_cons_cons] at e
      exact e

/-- C145, an example: no connection at first, then all downloads succeed -/
example : (installCalls id [cs!"http://x/a.js", cs!"js/b.js"] [fun _ => .nothing, fun _ => .all] []) =
    ([false, true], [(cs!"a.js", cs!"http://x/a.js"), (cs!"b.js", cs!"js/b.js")]) := by decide +kernel

/-- **C145, refuted.**  The first download of d3 breaks in the middle.  However often the plots are made again, and though all later calls that find a connection
return without an exception, the file on the disk remains the part that was received. -/
theorem C145_broken_refuted (content : Str → Str) (s : Str) (net : Str → Fetch)
    (hb : net cs!"https://cdnjs.cloudflare.com/ajax/libs/d3/3.5.6/d3.min.js" = .part s) (n : Nat) :
    ∃ rs, (cs!"EventPlot", rs) ∈ iplotResources ∧ cs!"https://cdnjs.cloudflare.com/ajax/libs/d3/3.5.6/d3.min.js" ∈ rs ∧
      (installCalls content rs (net :: List.replicate n fun _ => .all) []).1 = false :: List.replicate n true ∧
      (installCalls content rs (net :: List.replicate n fun _ => .all) []).2.get cs!"d3.min.js" = some s := by
  obtain ⟨rs, hrs, hnot⟩ : ∃ rs, (cs!"EventPlot", cs!"https://cdnjs.cloudflare.com/ajax/libs/d3/3.5.6/d3.min.js" :: rs) ∈ iplotResources ∧
      cs!"d3.min.js" ∉ rs.map baseName := ⟨_, by unfold iplotResources; exact List.mem_cons_of_mem _ List.mem_cons_self, by decide +kernel⟩
  refine ⟨_, hrs, List.mem_cons_self, ?_⟩
  have hname : baseName cs!"https://cdnjs.cloudflare.com/ajax/libs/d3/3.5.6/d3.min.js" = cs!"d3.min.js" := by decide +kernel
  have hfirst : ∀ rs, iplotInstall content net (cs!"https://cdnjs.cloudflare.com/ajax/libs/d3/3.5.6/d3.min.js" :: rs) [] =
      (false, [(cs!"d3.min.js", s)]) := by
    intro rs
    rw [iplotInstall, hname]
    have : installResource (content cs!"https://cdnjs.cloudflare.com/ajax/libs/d3/3.5.6/d3.min.js")
        (net cs!"https://cdnjs.cloudflare.com/ajax/libs/d3/3.5.6/d3.min.js") cs!"https://cdnjs.cloudflare.com/ajax/libs/d3/3.5.6/d3.min.js"
        cs!"d3.min.js" [] = (false, [(cs!"d3.min.js", s)]) := by
      rw [hb]; rfl
    rw [this]
  have hall : ∀ (rs : List Str) (disk : Dict Str), (iplotInstall content (fun _ => .all) rs disk).1 = true := by
    intro rs
    induction rs with
    | nil => intro _; rfl
    | cons r rs ih =>
      intro disk
      rw [iplotInstall]
      have : (installResource (content r) Fetch.all r (baseName r) disk).1 = true := by
        unfold installResource
        split
        · split <;> rfl
        · rfl
      cases hr : installResource (content r) Fetch.all r (baseName r) disk with
      | mk ok d =>
        rw [hr] at this
        simp only at this
        subst this
        exact ih d
  have hlater : ∀ (rs : List Str) (n : Nat) (disk : Dict Str), cs!"d3.min.js" ∉ rs.map baseName → disk.get cs!"d3.min.js" = some s →
      (installCalls content (cs!"https://cdnjs.cloudflare.com/ajax/libs/d3/3.5.6/d3.min.js" :: rs) (List.replicate n fun _ => .all) disk).1 =
        List.replicate n true ∧
      (installCalls content (cs!"https://cdnjs.cloudflare.com/ajax/libs/d3/3.5.6/d3.min.js" :: rs) (List.replicate n fun _ => .all) disk).2.get
        cs!"d3.min.js" = some s := by
    intro rs n
    induction n with
    | zero => intro disk _ h; exact ⟨rfl, h⟩
    | succ n ih =>
      intro disk hnot h
      have hkeep : (iplotInstall content (fun _ => .all) (cs!"https://cdnjs.cloudflare.com/ajax/libs/d3/3.5.6/d3.min.js" :: rs) disk).2.get
          cs!"d3.min.js" = some s := by
        rw [iplotInstall, hname, installResource_there _ _ (by decide +kernel) _ _ h]
        simp only
        rw [iplotInstall_other _ _ _ _ hnot, h]
      obtain ⟨i1, i2⟩ := ih _ hnot hkeep
      rw [List.replicate_succ, installCalls]
      simp only
      rw [i1, hall, List.replicate_succ]
      exact ⟨rfl, i2⟩
  rw [installCalls, hfirst]
  obtain ⟨h1, h2⟩ := hlater rs n [(cs!"d3.min.js", s)] hnot rfl
  exact ⟨by simp only; rw [h1], h2⟩

/-- C145, the hypothesis is met: the download of d3 breaks after five characters -/
example : (fun _ : Str => Fetch.part cs!"!func") cs!"https://cdnjs.cloudflare.com/ajax/libs/d3/3.5.6/d3.min.js" = .part cs!"!func" := rfl

/-- **C145.**  Every script a page asks for, and the picture of the help, is one of those installed: its path, with `.js`, is the one it is installed under. -/
theorem C145_pages : (∀ script ∈ pageScripts, ∃ m ∈ iplotResources, ∃ r ∈ m.2, script ++ cs!".js" = cs!"plotter_scripts/" ++ m.1 ++ '/' :: baseName r) ∧
    ∃ m ∈ iplotResources, ∃ r ∈ m.2, cs!"plotter_scripts/EventPlot/EventPlot_help.jpg" = cs!"plotter_scripts/" ++ m.1 ++ '/' :: baseName r := by
  decide +kernel

end Trappy
