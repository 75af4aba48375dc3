import Verif.Prop.Install

/-! What is on the disk stays there: a script that was downloaded is never replaced. -/

namespace Trappy

theorem installResource_keeps (content : Str) (f : Fetch) {src dest : Str} {disk : Dict Str} (hh : Py.startsWith src cs!"http" = true) {s : Str} (h : disk.get dest = some s) :
    (installResource content f src dest disk).2.get dest = some s := by
  simp [installResource, hh, h]

theorem iplotInstall_keeps (content : Str → Str) (net : Str → Fetch) {rs : List Str} (hd : (rs.map baseName).Nodup) {r : Str} (hr : r ∈ rs) (hh : Py.startsWith r cs!"http" = true)
    {disk : Dict Str} {s : Str} (h : disk.get (baseName r) = some s) : (iplotInstall content net rs disk).2.get (baseName r) = some s := by
  induction rs generalizing disk with
  | nil => cases hr
  | cons x rs ih =>
    rw [List.map_cons, List.nodup_cons] at hd
    rw [iplotInstall]
    have hx : (installResource (content x) (net x) x (baseName x) disk).2.get (baseName r) = some s := by
      rcases List.mem_cons.1 hr with rfl | hr'
      · exact installResource_keeps _ _ hh h
      · rw [installResource_other _ _ _ _ _ (k := baseName r) fun e => hd.1 (List.mem_map.2 ⟨r, hr', e⟩)]
        exact h
    cases hi : installResource (content x) (net x) x (baseName x) disk with
    | mk ok d =>
      rw [hi] at hx
      cases ok with
      | false => exact hx
      | true =>
        simp only
        rcases List.mem_cons.1 hr with rfl | hr'
        · rw [iplotInstall_other content net rs d hd.1]; exact hx
        · exact ih hd.2 hr' hx

/-- **C145 (exactly what becomes of a file).** A downloaded script that is on the disk, whole or not, is the same after any number of calls in any networks: it is right then exactly if it was right before. -/
theorem C145_kept_exact (content : Str → Str) (m : Str × List Str) (hm : m ∈ iplotResources) (r : Str) (hr : r ∈ m.2) (hh : Py.startsWith r cs!"http" = true) (nets : List (Str → Fetch))
    (disk : Dict Str) (s : Str) (h : disk.get (baseName r) = some s) :
    (installCalls content m.2 nets disk).2.get (baseName r) = some s ∧ ((installCalls content m.2 nets disk).2.get (baseName r) = some (content r) ↔ s = content r) := by
  have key : (installCalls content m.2 nets disk).2.get (baseName r) = some s := by
    induction nets generalizing disk with
    | nil => exact h
    | cons net nets ih =>
      simp only [installCalls]
      exact ih _ (iplotInstall_keeps content net (resources_names m hm) hr hh h)
  exact ⟨key, by rw [key]; simp⟩

/-- **C145 (refuted for all downloads).** If any call leaves a part of a script behind, no later call repairs it, for all scripts of both modules that are downloaded and all networks. -/
theorem C145_part_refuted (content : Str → Str) (m : Str × List Str) (hm : m ∈ iplotResources) (r : Str) (hr : r ∈ m.2) (hh : Py.startsWith r cs!"http" = true) (before after : List (Str → Fetch))
    (disk : Dict Str) (s : Str) (h : (installCalls content m.2 before disk).2.get (baseName r) = some s) (hs : s ≠ content r) :
    (installCalls content m.2 (before ++ after) disk).2.get (baseName r) ≠ some (content r) := by
  have happ : ∀ (before : List (Str → Fetch)) (disk : Dict Str), (installCalls content m.2 (before ++ after) disk).2 = (installCalls content m.2 after (installCalls content m.2 before disk).2).2 := by
    intro before
    induction before with
    | nil => intro disk; rfl
    | cons net nets ih => intro disk; simp only [List.cons_append, installCalls]; exact ih _
  rw [happ]
  exact fun e => hs ((C145_kept_exact content m hm r hr hh after _ s h).2.1 e)

/-- C145: the second of two downloads breaks -/
example : (installCalls id [cs!"http://x/a.js", cs!"http://x/b.js"] [fun r => if r = cs!"http://x/b.js" then .part cs!"htt" else .all, fun _ => .all] []) =
    ([false, true], [(cs!"a.js", cs!"http://x/a.js"), (cs!"b.js", cs!"htt")]) := by decide +kernel

/-- C145: there are such scripts in both modules -/
example : ∀ m ∈ iplotResources, ∃ r ∈ m.2, Py.startsWith r cs!"http" = true := by decide +kernel

end Trappy
