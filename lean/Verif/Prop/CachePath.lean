import Verif.Model.CachePath
import Verif.Lemma.Array3
/-!
# C174: each trace has a cache of its own
-/

namespace Trappy
open Py

/-! ## Specification -/

/-- **Specification**: the name of a file -/
def RegularName (c : Str) : Prop := c ≠ [] ∧ c ≠ cs!"." ∧ c ≠ cs!".." ∧ '/' ∉ c

/-- **Specification**: following the components of a path from a directory leads to a file or directory -/
inductive Leads : List Str → List Str → List Str → Prop where
  | here (d : List Str) : Leads d [] d
  | stay {d cs e : List Str} {c : Str} : c = [] ∨ c = cs!"." → Leads d cs e → Leads d (c :: cs) e
  | up {d cs e : List Str} : Leads d.dropLast cs e → Leads d (cs!".." :: cs) e
  | down {d cs e : List Str} {c : Str} : RegularName c → Leads (d ++ [c]) cs e → Leads d (c :: cs) e

/-- **Specification**: a path names a file in a working directory -/
def Names (cwd : List Str) (path : Str) (file : List Str) : Prop :=
  if path.head? = some '/' then Leads [] (splitOn '/' path) file else Leads cwd (splitOn '/' path) file

/-- **Specification**: the path of a file ends with the name of a file, with or without a directory before it -/
def PathOfFile (path : Str) : Prop := ∃ name, RegularName name ∧ (path = name ∨ ∃ dir, path = dir ++ '/' :: name)

/-! ## Lemmas -/

theorem normComps_leads (cs : List Str) (hcs : ∀ c ∈ cs, '/' ∉ c) (acc e : List Str) : Leads acc.reverse cs e ↔ normComps acc cs = e := by
  induction cs generalizing acc with
  | nil =>
    rw [normComps]
    constructor
    · rintro ⟨⟩; rfl
    · rintro rfl; exact .here _
  | cons c cs ih =>
    have ih := ih fun c hc => hcs c (List.mem_cons_of_mem _ hc)
    have hc := hcs c List.mem_cons_self
    rw [normComps]
    by_cases h1 : c = [] ∨ c = cs!"."
    · rw [if_pos h1, ← ih]
      constructor
      · intro h
        cases h with
        | stay _ h => exact h
        | up h => simp at h1
        | down hr h => exact absurd h1 (by simp [hr.1, hr.2.1])
      · exact .stay h1
    · rw [if_neg h1]
      by_cases h2 : c = cs!".."
      · subst h2
        rw [if_pos rfl, ← ih]
        have : acc.tail.reverse = acc.reverse.dropLast := by cases acc <;> simp
        rw [this]
        constructor
        · intro h
          cases h with
          | stay h _ => simp at h
          | up h => exact h
          | down hr h => exact absurd rfl hr.2.2.1
        · exact .up
      · rw [if_neg h2, ← ih, List.reverse_cons]
        rw [not_or] at h1
        constructor
        · intro h
          cases h with
          | stay h _ => exact absurd h (by simp [h1.1, h1.2])
          | up h => exact absurd rfl h2
          | down hr h => exact h
        · exact .down ⟨h1.1, h1.2, h2, hc⟩

theorem names_iff (cwd : List Str) (path : Str) (file : List Str) : Names cwd path file ↔ absComps cwd path = file := by
  unfold Names absComps
  have h : ∀ c ∈ splitOn '/' path, '/' ∉ c := fun c hc => splitOn_words hc
  by_cases hp : path.head? = some '/'
  · rw [if_pos hp, if_pos hp]
    exact normComps_leads _ h [] file
  · rw [if_neg hp, if_neg hp, ← normComps_leads _ h cwd.reverse file, List.reverse_reverse]

theorem normComps_append (acc cs : List Str) (c : Str) (hc : RegularName c) : normComps acc (cs ++ [c]) = normComps acc cs ++ [c] := by
  induction cs generalizing acc with
  | nil => simp [normComps, hc.1, hc.2.1, hc.2.2.1]
  | cons d cs ih =>
    rw [List.cons_append, normComps, normComps]
    split
    · exact ih _
    · split
      · exact ih _
      · exact ih _

theorem splitOn_file {path name : Str} (hn : '/' ∉ name) (h : path = name ∨ ∃ dir, path = dir ++ '/' :: name) : ∃ pre, splitOn '/' path = pre ++ [name] := by
  rcases h with rfl | ⟨dir, rfl⟩
  · exact ⟨[], splitOn_nosep hn⟩
  · induction dir with
    | nil => exact ⟨[[]], by simp [splitOn, splitOn_nosep hn]⟩
    | cons x dir ih =>
      obtain ⟨pre, ih⟩ := ih
      rw [List.cons_append, splitOn]
      by_cases hx : x == '/'
      · rw [if_pos hx, ih]
        exact ⟨[] :: pre, rfl⟩
      · rw [if_neg hx, ih]
        cases pre with
        | nil =>
          exfalso
          have hc : (splitOn '/' (dir ++ '/' :: name)).length = 1 := by rw [ih]; rfl
          have hw := splitOn_nosep hn
          have : ∀ d : Str, 1 < (splitOn '/' (d ++ '/' :: name)).length := by
            intro d
            induction d with
            | nil => simp [splitOn, hw]
            | cons y d ihd =>
              rw [List.cons_append, splitOn]
              split
              · simp only [List.length_cons]; omega
              · split
                · rename_i hs; rw [hs] at ihd; simp at ihd
                · rename_i hs; rw [hs] at ihd; simpa using ihd
          have := this dir
          omega
        | cons w ws => exact ⟨(x :: w) :: ws, rfl⟩

theorem baseName_file {path name : Str} (hn : '/' ∉ name) (h : path = name ∨ ∃ dir, path = dir ++ '/' :: name) : baseName path = name := by
  unfold baseName
  have hall : ∀ a ∈ name.reverse, (a != '/') = true := by
    intro a ha
    simp only [bne_iff_ne]
    rintro rfl
    exact hn (List.mem_reverse.1 ha)
  rcases h with rfl | ⟨dir, rfl⟩
  · have h := List.takeWhile_append_of_pos (l₂ := []) hall
    rw [List.append_nil, List.takeWhile_nil, List.append_nil] at h
    rw [h, List.reverse_reverse]
  · rw [List.reverse_append, List.reverse_cons, List.append_assoc, List.takeWhile_append_of_pos hall]
    simp

/-- the directory and the name of a file -/
theorem absComps_file (cwd : List Str) {path : Str} (h : PathOfFile path) : ∃ dir name, RegularName name ∧ baseName path = name ∧ absComps cwd path = dir ++ [name] := by
  obtain ⟨name, hn, hp⟩ := h
  obtain ⟨pre, hs⟩ := splitOn_file hn.2.2.2 hp
  unfold absComps
  rw [hs, normComps_append _ _ _ hn, normComps_append _ _ _ hn]
  by_cases hh : path.head? = some '/'
  · rw [if_pos hh]
    exact ⟨_, name, hn, baseName_file hn.2.2.2 hp, rfl⟩
  · rw [if_neg hh]
    exact ⟨_, name, hn, baseName_file hn.2.2.2 hp, rfl⟩

/-! ## C174 -/

/-- **C174 (caches).** For all working directories and paths of files: two paths have the same cache exactly if they name the same file, however they are written and wherever the program runs. -/
theorem C174_own (cwd cwd' : List Str) (p q : Str) (hp : PathOfFile p) (hq : PathOfFile q) (f g : List Str) (hf : Names cwd p f) (hg : Names cwd' q g) :
    cacheDir cwd p = cacheDir cwd' q ↔ f = g := by
  rw [names_iff] at hf hg
  obtain ⟨d, n, -, hb, ha⟩ := absComps_file cwd hp
  obtain ⟨d', n', -, hb', ha'⟩ := absComps_file cwd' hq
  subst hf hg
  unfold cacheDir
  rw [ha, ha', hb, hb', List.dropLast_concat, List.dropLast_concat]
  constructor
  · intro h
    obtain ⟨h1, h2⟩ := List.append_inj' h rfl
    simp only [List.cons.injEq, true_and, and_true] at h2
    rw [h1, (List.append_inj' h2 rfl).1]
  · intro h
    obtain ⟨h1, h2⟩ := List.append_inj' h rfl
    simp only [List.cons.injEq, and_true] at h2
    rw [h1, h2]

/-- **C174 (files of the caches).** The tables of all classes and the metadata of all traces are in different files: two are the same only for the same trace and the same class. -/
theorem C174_files (cwd cwd' : List Str) (p q : Str) (hp : PathOfFile p) (hq : PathOfFile q) (f g : List Str) (hf : Names cwd p f) (hg : Names cwd' q g) (c d : Str) :
    (csvFile cwd p c = csvFile cwd' q d ↔ f = g ∧ c = d) ∧ (metadataFile cwd p = metadataFile cwd' q ↔ f = g) ∧ csvFile cwd p c ≠ metadataFile cwd' q := by
  have hown := C174_own cwd cwd' p q hp hq f g hf hg
  unfold csvFile metadataFile
  refine ⟨?_, ?_, ?_⟩
  · constructor
    · intro h
      obtain ⟨h1, h2⟩ := List.append_inj' h rfl
      simp only [List.cons.injEq, and_true] at h2
      exact ⟨hown.1 h1, (List.append_inj' h2 rfl).1⟩
    · rintro ⟨h1, rfl⟩
      rw [hown.2 h1]
  · constructor
    · intro h
      exact hown.1 (List.append_inj' h rfl).1
    · intro h
      rw [hown.2 h]
  · intro h
    have h2 := (List.append_inj' h rfl).2
    simp only [List.cons.injEq, and_true] at h2
    have h3 := congrArg List.getLast? h2
    rw [List.getLast?_append] at h3
    simp at h3

/-- **C174 (traces).** No directory or file of a cache is a trace that `FTrace` reads, the names of which end with `.txt` or `.dat`: for all traces and classes. -/
theorem C174_traces (cwd cwd' : List Str) (p q : Str) (hp : PathOfFile p) (f : List Str) (hf : Names cwd p f) (hext : cs!".txt" <:+ p ∨ cs!".dat" <:+ p) (c : Str) :
    f ≠ cacheDir cwd' q ∧ f ≠ csvFile cwd' q c ∧ f ≠ metadataFile cwd' q := by
  rw [names_iff] at hf
  obtain ⟨name, hn, hpn⟩ := hp
  obtain ⟨d, n, hnr, hb, ha⟩ := absComps_file cwd ⟨name, hn, hpn⟩
  rw [baseName_file hn.2.2.2 hpn] at hb
  subst hb
  have hlast : ∃ t ∈ [cs!"txt", cs!"dat"], t <:+ name := by
    have hsuf : name <:+ p := by
      rcases hpn with rfl | ⟨dir, rfl⟩
      · exact List.suffix_refl _
      · exact ⟨dir ++ ['/'], by simp⟩
    have long : ∀ e : Str, '.' :: e <:+ p → '/' ∉ e → e.length = 3 → e <:+ name := by
      intro e he hs hl
      rcases Nat.lt_or_ge name.length 3 with hlt | hge
      · exfalso
        have he' : e <:+ p := (List.suffix_cons '.' e).trans he
        rcases hpn with rfl | ⟨dir, rfl⟩
        · have := he'.length_le
          omega
        · rcases List.suffix_or_suffix_of_suffix he' (⟨dir ++ ['/'], by simp⟩ : name <:+ dir ++ '/' :: name) with h | h
          · have := h.length_le
            omega
          · obtain ⟨b, hb⟩ := h
            have h2 : e <:+ dir ++ '/' :: name := he'
            have hslash : '/' :: name <:+ e := by
              rcases List.suffix_or_suffix_of_suffix h2 (⟨dir, rfl⟩ : '/' :: name <:+ dir ++ '/' :: name) with h | h
              · have h5 := h.length_le
                simp only [List.length_cons] at h5
                have hbl : b.length + name.length = 3 := by rw [← hl, ← hb]; simp
                have : e = '/' :: name := h.eq_of_length (by simp; omega)
                exact this ▸ List.suffix_refl _
              · exact h
            exact hs (hslash.subset List.mem_cons_self)
      · have he' : e <:+ p := (List.suffix_cons '.' e).trans he
        exact List.suffix_of_suffix_length_le he' hsuf (by omega)
    rcases hext with h | h
    · exact ⟨_, by simp, long cs!"txt" h (by decide) rfl⟩
    · exact ⟨_, by simp, long cs!"dat" h (by decide) rfl⟩
  have hchar : name.getLast? = some 't' := by
    obtain ⟨t, ht, ⟨a, rfl⟩⟩ := hlast
    simp only [List.mem_cons, List.not_mem_nil, or_false] at ht
    rcases ht with rfl | rfl <;> simp [List.getLast?_append]
  have hfl : ∀ l : List Str, ∀ m : Str, m.getLast? ≠ some 't' → f ≠ l ++ [m] := by
    rintro l m hm rfl
    rw [ha] at hf
    have h2 := (List.append_inj' hf rfl).2
    simp only [List.cons.injEq, and_true] at h2
    exact hm (h2 ▸ hchar)
  refine ⟨hfl _ _ ?_, hfl _ _ ?_, hfl _ _ ?_⟩
  · rw [List.getLast?_cons, List.getLast?_append]
    simp
  · rw [List.getLast?_append]
    simp
  · simp

/-! ## Examples -/

/-- the same trace, written in different ways from different directories, and another -/
example : cacheDir [cs!"home", cs!"me"] cs!"t/../run/./trace.txt" = [cs!"home", cs!"me", cs!"run", cs!".trace.txt.cache"] ∧
    cacheDir [cs!"tmp"] cs!"/home//me/run/trace.txt" = [cs!"home", cs!"me", cs!"run", cs!".trace.txt.cache"] ∧
    cacheDir [cs!"home", cs!"me", cs!"run"] cs!"trace.dat" = [cs!"home", cs!"me", cs!"run", cs!".trace.dat.cache"] ∧
    csvFile [] cs!"/../trace.dat" cs!"SchedSwitch" = [cs!".trace.dat.cache", cs!"SchedSwitch.csv"] := by decide +kernel

/-- the hypotheses -/
example : PathOfFile cs!"t/../run/./trace.txt" ∧ Names [cs!"home"] cs!"t/../run/./trace.txt" [cs!"home", cs!"run", cs!"trace.txt"] ∧ cs!".txt" <:+ cs!"t/../run/./trace.txt" := by
  refine ⟨⟨cs!"trace.txt", ⟨by decide, by decide, by decide, by decide⟩, .inr ⟨cs!"t/../run/.", by decide⟩⟩, ?_, by decide⟩
  rw [names_iff]
  decide +kernel

end Trappy
