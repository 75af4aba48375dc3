import Verif.Model.IPyDir
import Verif.Prop.Install
import Verif.Lemma.CacheEnv
import Verif.Prop.Csv
/-!
# C166: the scripts are installed where the pages look for them
-/

namespace Trappy
open Py

/-- **Specification**: a number in decimal digits -/
def IsNum (s : Str) : Prop := s ≠ [] ∧ ∀ c ∈ s, '0' ≤ c ∧ c ≤ '9'

/-- **Specification**: a version `StrictVersion` knows, and what it says: two or three numbers, and for a pre-release `a` or `b` and a number (and a newline) -/
def ReadsAs (s : Str) (v : StrictVersion) : Prop :=
  ∃ A B C P E : Str, s = A ++ '.' :: (B ++ (C ++ (P ++ E))) ∧ IsNum A ∧ natVal A = v.major ∧ IsNum B ∧ natVal B = v.minor ∧
    (C = [] ∧ v.patch = 0 ∨ ∃ c, IsNum c ∧ C = '.' :: c ∧ natVal c = v.patch) ∧
    (P = [] ∧ v.pre = none ∨ ∃ l p, (l = 'a' ∨ l = 'b') ∧ IsNum p ∧ P = l :: p ∧ v.pre = some (l, natVal p)) ∧
    (E = [] ∨ E = ['\n'])

/-- **Specification**: the file that the web server sends for a URL: since version 4.0 those under `/nbextensions/` are in the directory `nbextensions` of the data of Jupyter, before that those
under `/static/` are in the directory `static` of the profile -/
def ServedFrom (env : IPyEnv) (v4 : Bool) (url file : Str) : Prop :=
  ∃ rel, if v4 then url = cs!"/nbextensions/" ++ rel ∧ file = env.dataDir ++ cs!"/nbextensions/" ++ rel
    else url = cs!"/static/" ++ rel ∧ ∃ p, env.session = some p ∧ file = env.locate p ++ cs!"/static/" ++ rel

theorem isDigit_range (c : Char) : isDigit c = true ↔ '0' ≤ c ∧ c ≤ '9' := by
  simp only [isDigit, Bool.and_eq_true, decide_eq_true_eq, Char.le_def, UInt32.le_iff_toNat_le]
  exact Iff.rfl

theorem isNum_iff (s : Str) : IsNum s ↔ s ≠ [] ∧ ∀ c ∈ s, isDigit c = true := by
  simp only [IsNum, isDigit_range]

theorem isNum_natStr (n : Nat) : IsNum (natStr n) := by
  obtain ⟨h1, h2⟩ := nat_all_digits n
  exact (isNum_iff _).2 ⟨h1, List.all_eq_true.1 h2⟩

theorem takeWhile_all {p : Char → Bool} {a x : Str} (ha : ∀ c ∈ a, p c = true) (hx : ∀ c y, x = c :: y → p c = false) :
    (a ++ x).takeWhile p = a ∧ (a ++ x).dropWhile p = x := by
  induction a with
  | nil =>
    cases x with
    | nil => exact ⟨rfl, rfl⟩
    | cons c y => simp [List.takeWhile_cons, List.dropWhile_cons, hx c y rfl]
  | cons d a ih =>
    obtain ⟨h1, h2⟩ := ih fun c hc => ha c (List.mem_cons_of_mem _ hc)
    have hd := ha d List.mem_cons_self
    simp [List.takeWhile_cons, List.dropWhile_cons, hd, h1, h2]

theorem numHead_num {A x : Str} (h : IsNum A) (hx : ∀ c y, x = c :: y → isDigit c = false) : numHead (A ++ x) = some (natVal A, x) := by
  obtain ⟨h1, h2⟩ := (isNum_iff A).1 h
  obtain ⟨e1, e2⟩ := takeWhile_all h2 hx
  unfold numHead
  rw [e1, e2, if_neg h1]

theorem numHead_some {s x : Str} {n : Nat} (h : numHead s = some (n, x)) : ∃ A, IsNum A ∧ natVal A = n ∧ s = A ++ x ∧ ∀ c y, x = c :: y → isDigit c = false := by
  unfold numHead at h
  split at h
  · cases h
  next hne =>
    cases h
    refine ⟨_, (isNum_iff _).2 ⟨hne, fun c hc => ?_⟩, rfl, (List.takeWhile_append_dropWhile).symm, fun c y e => ?_⟩
    · have := List.all_takeWhile (p := isDigit) (l := s)
      exact List.all_eq_true.1 this c hc
    · have := List.head?_dropWhile_not isDigit s
      rw [e] at this
      simpa using this

theorem numHead_none {s : Str} (h : ∀ c y, s = c :: y → isDigit c = false) : numHead s = none := by
  unfold numHead
  cases s with
  | nil => rfl
  | cons c y => simp [List.takeWhile_cons, h c y rfl]

theorem patchPart_some {c x : Str} (h : IsNum c) (hx : ∀ d y, x = d :: y → isDigit d = false) : patchPart ('.' :: (c ++ x)) = (natVal c, x) := by
  unfold patchPart
  simp only
  rw [numHead_num h hx]

theorem patchPart_none {x : Str} (hx : ∀ d y, x = d :: y → d ≠ '.') : patchPart x = (0, x) := by
  unfold patchPart
  split
  next t => exact absurd rfl (hx '.' t rfl)
  · rfl

theorem prePart_some {l : Char} {p x : Str} (hl : l = 'a' ∨ l = 'b') (h : IsNum p) (hx : ∀ d y, x = d :: y → isDigit d = false) : prePart (l :: (p ++ x)) = (some (l, natVal p), x) := by
  unfold prePart
  simp only
  rw [if_pos hl, numHead_num h hx]

theorem prePart_none {x : Str} (hx : ∀ d y, x = d :: y → d ≠ 'a' ∧ d ≠ 'b') : prePart x = (none, x) := by
  unfold prePart
  cases x with
  | nil => rfl
  | cons d y =>
    simp only
    rw [if_neg]
    rintro (h | h)
    · exact (hx d y rfl).1 h
    · exact (hx d y rfl).2 h

theorem patchPart_split (u : Str) : ∃ C, u = C ++ (patchPart u).2 ∧ (C = [] ∧ (patchPart u).1 = 0 ∨ ∃ c, IsNum c ∧ C = '.' :: c ∧ natVal c = (patchPart u).1) := by
  by_cases h : ∃ t, u = '.' :: t
  · obtain ⟨t, rfl⟩ := h
    unfold patchPart
    simp only
    cases h3 : numHead t with
    | none => exact ⟨[], rfl, Or.inl ⟨rfl, rfl⟩⟩
    | some nr =>
      obtain ⟨n, r⟩ := nr
      obtain ⟨c, hc, nc, rfl, _⟩ := numHead_some h3
      exact ⟨'.' :: c, rfl, Or.inr ⟨c, hc, rfl, nc⟩⟩
  · rw [patchPart_none fun d y e e' => h ⟨y, by rw [e, e']⟩]
    exact ⟨[], rfl, Or.inl ⟨rfl, rfl⟩⟩

/-- **C166 (versions).** The versions that can be compared are exactly those of two or three numbers and, for pre-releases, `a` or `b` and a number. For all texts. -/
theorem C166_versions (s : Str) (v : StrictVersion) : strictParse s = some v ↔ ReadsAs s v := by
  constructor
  · intro h
    unfold strictParse at h
    cases h1 : numHead s with
    | none => rw [h1] at h; cases h
    | some ax =>
      obtain ⟨a, x⟩ := ax
      rw [h1] at h
      split at h
      next a' t e =>
        cases e
        cases h2 : numHead t with
        | none => rw [h2] at h; cases h
        | some bu =>
          obtain ⟨b, u⟩ := bu
          rw [h2] at h
          simp only at h
          obtain ⟨A, hA, nA, rfl, _⟩ := numHead_some h1
          obtain ⟨B, hB, nB, rfl, _⟩ := numHead_some h2
          obtain ⟨C, hu, hC⟩ : ∃ C, u = C ++ (patchPart u).2 ∧ (C = [] ∧ (patchPart u).1 = 0 ∨ ∃ c, IsNum c ∧ C = '.' :: c ∧ natVal c = (patchPart u).1) := by
            exact patchPart_split u
          obtain ⟨P, hp, hP⟩ : ∃ P, (patchPart u).2 = P ++ (prePart (patchPart u).2).2 ∧
              (P = [] ∧ (prePart (patchPart u).2).1 = none ∨ ∃ l p, (l = 'a' ∨ l = 'b') ∧ IsNum p ∧ P = l :: p ∧ (prePart (patchPart u).2).1 = some (l, natVal p)) := by
            generalize (patchPart u).2 = w
            cases w with
            | nil => exact ⟨[], rfl, Or.inl ⟨rfl, rfl⟩⟩
            | cons l w =>
              unfold prePart
              simp only
              by_cases hl : l = 'a' ∨ l = 'b'
              · rw [if_pos hl]
                cases h3 : numHead w with
                | none => exact ⟨[], rfl, Or.inl ⟨rfl, rfl⟩⟩
                | some nr =>
                  obtain ⟨n, r⟩ := nr
                  obtain ⟨p, hp, np, rfl, _⟩ := numHead_some h3
                  exact ⟨l :: p, rfl, Or.inr ⟨l, p, hl, hp, rfl, by rw [np]⟩⟩
              · rw [if_neg hl]
                exact ⟨[], rfl, Or.inl ⟨rfl, rfl⟩⟩
          split at h
          next hE =>
            cases h
            refine ⟨A, B, C, P, (prePart (patchPart u).2).2, ?_, hA, nA, hB, nB, hC, hP, hE⟩
            rw [← hp, ← hu]
          next => cases h
      · cases h
  · rintro ⟨A, B, C, P, E, rfl, hA, nA, hB, nB, hC, hP, hE⟩
    have hEd : ∀ c y, E = c :: y → isDigit c = false ∧ c ≠ '.' ∧ c ≠ 'a' ∧ c ≠ 'b' := by
      rintro c y rfl
      rcases hE with hE | hE
      · cases hE
      · cases hE; decide
    have hPE : ∀ c y, P ++ E = c :: y → isDigit c = false ∧ c ≠ '.' := by
      intro c y e
      rcases hP with ⟨rfl, _⟩ | ⟨l, p, hl, _, rfl, _⟩
      · exact ⟨(hEd c y e).1, (hEd c y e).2.1⟩
      · cases e
        rcases hl with rfl | rfl <;> decide
    have hCPE : ∀ c y, C ++ (P ++ E) = c :: y → isDigit c = false := by
      intro c y e
      rcases hC with ⟨rfl, _⟩ | ⟨n, _, rfl, _⟩
      · exact (hPE c y e).1
      · cases e; rfl
    have e1 : numHead (A ++ '.' :: (B ++ (C ++ (P ++ E)))) = some (v.major, '.' :: (B ++ (C ++ (P ++ E)))) := by
      rw [numHead_num hA (by rintro c y e; cases e; rfl), nA]
    have e2 : numHead (B ++ (C ++ (P ++ E))) = some (v.minor, C ++ (P ++ E)) := by rw [numHead_num hB hCPE, nB]
    have e3 : patchPart (C ++ (P ++ E)) = (v.patch, P ++ E) := by
      rcases hC with ⟨rfl, h⟩ | ⟨n, hn, rfl, h⟩
      · rw [List.nil_append, patchPart_none fun d y e => (hPE d y e).2, h]
      · rw [List.cons_append, patchPart_some hn fun d y e => (hPE d y e).1, h]
    have e4 : prePart (P ++ E) = (v.pre, E) := by
      rcases hP with ⟨rfl, h⟩ | ⟨l, p, hl, hp, rfl, h⟩
      · rw [List.nil_append, prePart_none fun d y e => (hEd d y e).2.2, h]
      · rw [List.cons_append, prePart_some hl hp fun d y e => (hEd d y e).1, h]
    unfold strictParse
    rw [e1]
    simp only
    rw [e2]
    simp only
    rw [e3]
    simp only
    rw [e4]
    simp only
    rw [if_pos hE]

example : ReadsAs cs!"7.16.1" ⟨7, 16, 1, none⟩ ∧ ReadsAs cs!"4.0b2" ⟨4, 0, 0, some ('b', 2)⟩ ∧ strictParse cs!"8" = none ∧ strictParse cs!"7.0.0.dev" = none :=
  ⟨(C166_versions _ _).1 (by decide +kernel), (C166_versions _ _).1 (by decide +kernel), by decide +kernel, by decide +kernel⟩

/-- **C166 (releases).** A release with two or three numbers counts as version 4 exactly if its first number is at least 4. -/
theorem C166_releases (a b c : Nat) : isV4 (natStr a ++ '.' :: natStr b) = some (decide (4 ≤ a)) ∧
    isV4 (natStr a ++ '.' :: (natStr b ++ '.' :: natStr c)) = some (decide (4 ≤ a)) := by
  have ge : ∀ c, StrictVersion.ge ⟨a, b, c, none⟩ 4 0 0 = decide (4 ≤ a) := by
    intro c
    unfold StrictVersion.ge
    simp only
    split
    next h =>
      congr 1
      apply propext
      omega
    next h =>
      have h : a = 4 := by omega
      subst h
      simp only [Nat.le_refl, decide_true]
      split
      next h => simp; omega
      next =>
        split
        next h => simp; omega
        next => rfl
  have h1 : strictParse (natStr a ++ '.' :: natStr b) = some ⟨a, b, 0, none⟩ := by
    refine (C166_versions _ _).2 ⟨natStr a, natStr b, [], [], [], ?_, isNum_natStr a, natVal_natStr a, isNum_natStr b, natVal_natStr b, Or.inl ⟨rfl, rfl⟩, Or.inl ⟨rfl, rfl⟩, Or.inl rfl⟩
    simp
  have h2 : strictParse (natStr a ++ '.' :: (natStr b ++ '.' :: natStr c)) = some ⟨a, b, c, none⟩ := by
    refine (C166_versions _ _).2 ⟨natStr a, natStr b, '.' :: natStr c, [], [], ?_, isNum_natStr a, natVal_natStr a, isNum_natStr b, natVal_natStr b,
      Or.inr ⟨natStr c, isNum_natStr c, rfl, natVal_natStr c⟩, Or.inl ⟨rfl, rfl⟩, Or.inl rfl⟩
    simp
  unfold isV4
  rw [h1, h2]
  exact ⟨congrArg some (ge 0), congrArg some (ge c)⟩

/-- **C166 (pre-releases).** A pre-release counts as version 4 exactly if its numbers are after 4.0.0: those of 4.0.0 itself do not. -/
theorem C166_prereleases (a b c k : Nat) (l : Char) (hl : l = 'a' ∨ l = 'b') :
    isV4 (natStr a ++ '.' :: (natStr b ++ '.' :: (natStr c ++ l :: natStr k))) = some (decide (4 < a ∨ a = 4 ∧ (0 < b ∨ 0 < c))) := by
  have h : strictParse (natStr a ++ '.' :: (natStr b ++ '.' :: (natStr c ++ l :: natStr k))) = some ⟨a, b, c, some (l, k)⟩ := by
    refine (C166_versions _ _).2 ⟨natStr a, natStr b, '.' :: natStr c, l :: natStr k, [], ?_, isNum_natStr a, natVal_natStr a, isNum_natStr b, natVal_natStr b,
      Or.inr ⟨natStr c, isNum_natStr c, rfl, natVal_natStr c⟩, Or.inr ⟨l, natStr k, hl, isNum_natStr k, rfl, by rw [natVal_natStr]⟩, Or.inl rfl⟩
    simp
  unfold isV4
  rw [h, Option.map_some]
  congr 1
  unfold StrictVersion.ge
  simp only
  split
  next h => congr 1; apply propext; omega
  next h =>
    split
    next h => congr 1; apply propext; omega
    next h =>
      split
      next h => congr 1; apply propext; omega
      next h =>
        symm
        rw [decide_eq_false_iff_not]
        omega

/-- **C166 refuted (release candidates).** With a release candidate or a development version of IPython no interactive plot can be made: the version can not be compared. For all numbers. -/
theorem C166_candidate_refuted (a b c k : Nat) (env : IPyEnv) (suffix : Str) (hs : suffix ∈ [cs!"rc", cs!".dev", cs!".rc"])
    (hv : env.version = some (natStr a ++ '.' :: (natStr b ++ '.' :: (natStr c ++ (suffix ++ natStr k))))) :
    (∀ path, webBase env path = .error .badVersion) ∧ (∀ profile, getScriptsPath env profile = .error .badVersion) ∧
    ∀ content net m disk, viewInstall env content net m disk = .error .badVersion := by
  have hp : strictParse (natStr a ++ '.' :: (natStr b ++ '.' :: (natStr c ++ (suffix ++ natStr k)))) = none := by
    have e1 : ∀ x : Str, numHead (natStr a ++ '.' :: x) = some (a, '.' :: x) := fun x => by rw [numHead_num (isNum_natStr a) (by rintro c y e; cases e; rfl), natVal_natStr]
    have e2 : ∀ x : Str, numHead (natStr b ++ '.' :: x) = some (b, '.' :: x) := fun x => by rw [numHead_num (isNum_natStr b) (by rintro c y e; cases e; rfl), natVal_natStr]
    have hx : ∃ d y, suffix ++ natStr k = d :: y ∧ isDigit d = false ∧ d ≠ 'a' ∧ d ≠ 'b' ∧ y ≠ [] := by
      simp only [List.mem_cons, List.not_mem_nil, or_false] at hs
      rcases hs with rfl | rfl | rfl <;> exact ⟨_, _, rfl, by decide, by decide, by decide, by simp⟩
    obtain ⟨d, y, e, h1, h2, h3, h4⟩ := hx
    have e3 : patchPart ('.' :: (natStr c ++ (suffix ++ natStr k))) = (c, suffix ++ natStr k) := by
      rw [patchPart_some (isNum_natStr c) (by intro d' y' e'; rw [e] at e'; cases e'; exact h1), natVal_natStr]
    have e4 : prePart (suffix ++ natStr k) = (none, suffix ++ natStr k) := prePart_none (by intro d' y' e'; rw [e] at e'; cases e'; exact ⟨h2, h3⟩)
    unfold strictParse
    rw [e1]
    simp only
    rw [e2]
    simp only
    rw [e3]
    simp only
    rw [e4]
    simp only
    rw [if_neg]
    rw [e]
    rintro (h | h)
    · cases h
    · exact h4 (List.cons.inj h).2
  have hV : isV4 (natStr a ++ '.' :: (natStr b ++ '.' :: (natStr c ++ (suffix ++ natStr k)))) = none := by unfold isV4; rw [hp]; rfl
  have hd : ∀ profile, getScriptsPath env profile = .error .badVersion := by
    intro profile
    unfold getScriptsPath getIpythonDir
    rw [hv]
    simp only
    rw [hV]
  refine ⟨fun path => ?_, hd, fun content net m disk => ?_⟩
  · unfold webBase
    rw [hv]
    simp only
    rw [hV]
  · unfold viewInstall
    rw [hd]

example : natStr 8 ++ '.' :: (natStr 0 ++ '.' :: (natStr 0 ++ (cs!"rc" ++ natStr 1))) = cs!"8.0.0rc1" ∧ natStr 7 ++ '.' :: (natStr 0 ++ '.' :: (natStr 0 ++ (cs!".dev" ++ natStr 0))) = cs!"7.0.0.dev0" := by
  decide +kernel

theorem osJoin_rel {a b : Str} (ha : a ≠ []) (ha2 : ¬ cs!"/" <:+ a) (hb : ¬ cs!"/" <+: b) : osJoin a b = a ++ '/' :: b := by
  unfold osJoin
  rw [if_neg fun h => hb ((startsWith_iff _ _).1 h), if_neg]
  rintro (h | h)
  · exact ha h
  · exact ha2 (List.isSuffixOf_iff_suffix.1 h)

theorem iplotInstallAt_other (content : Str → Str) (net : Str → Fetch) (dir : Str) (rs : List Str) (disk : Dict Str) {k : Str} (h : k ∉ rs.map fun r => osJoin dir (baseName r)) :
    (iplotInstallAt content net dir rs disk).2.get k = disk.get k := by
  induction rs generalizing disk with
  | nil => rfl
  | cons r rs ih =>
    rw [List.map_cons, List.mem_cons, not_or] at h
    have ho := installResource_other (content r) (net r) r (osJoin dir (baseName r)) disk h.1
    rw [iplotInstallAt]
    cases hr : installResource (content r) (net r) r (osJoin dir (baseName r)) disk with
    | mk ok d =>
      rw [hr] at ho
      cases ok with
      | false => exact ho
      | true => simp only; rw [ih d h.2]; exact ho

theorem iplotInstallAt_ok (content : Str → Str) {net : Str → Fetch} (hn : NoBreak net) (dir : Str) (rs : List Str) (hd : (rs.map fun r => osJoin dir (baseName r)).Nodup) (disk : Dict Str)
    (hc : ∀ r ∈ rs, cs!"http" <+: r → ∀ s, disk.get (osJoin dir (baseName r)) = some s → s = content r)
    (ht : (iplotInstallAt content net dir rs disk).1 = true) : ∀ r ∈ rs, (iplotInstallAt content net dir rs disk).2.get (osJoin dir (baseName r)) = some (content r) := by
  induction rs generalizing disk with
  | nil => intro r hr; cases hr
  | cons r rs ih =>
    rw [List.map_cons, List.nodup_cons] at hd
    obtain ⟨_, o2⟩ := installResource_ok (content r) (f := net r) (hn r) r (osJoin dir (baseName r)) disk (hc r List.mem_cons_self)
    have hoth : ∀ r' ∈ rs, (installResource (content r) (net r) r (osJoin dir (baseName r)) disk).2.get (osJoin dir (baseName r')) = disk.get (osJoin dir (baseName r')) :=
      fun r' hr' => installResource_other _ _ _ _ _ (fun e => hd.1 (List.mem_map.2 ⟨r', hr', e⟩))
    rw [iplotInstallAt] at ht ⊢
    cases hr : installResource (content r) (net r) r (osJoin dir (baseName r)) disk with
    | mk ok d =>
      rw [hr] at o2 hoth ht
      cases ok with
      | false => cases ht
      | true =>
        simp only at ht ⊢
        intro r' hr'
        rcases List.mem_cons.1 hr' with rfl | hr'
        · rw [iplotInstallAt_other content net dir rs d hd.1]
          exact o2 rfl
        · refine ih hd.2 d ?_ ht r' hr'
          intro r'' hr'' hh s e
          rw [hoth r'' hr''] at e
          exact hc r'' (List.mem_cons_of_mem _ hr'') hh s e

theorem resources_rel : ∀ m ∈ iplotResources, ¬ cs!"/" <+: m.1 ∧ m.1 ≠ [] ∧ ¬ cs!"/" <:+ m.1 ∧ ∀ r ∈ m.2, ¬ cs!"/" <+: baseName r := by
  have : ∀ m ∈ iplotResources, startsWith m.1 cs!"/" = false ∧ m.1 ≠ [] ∧ endsWith m.1 cs!"/" = false ∧ ∀ r ∈ m.2, startsWith (baseName r) cs!"/" = false := by decide +kernel
  intro m hm
  obtain ⟨h1, h2, h3, h4⟩ := this m hm
  refine ⟨fun h => ?_, h2, fun h => ?_, fun r hr h => ?_⟩
  · rw [(startsWith_iff _ _).2 h] at h1; cases h1
  · have := List.isSuffixOf_iff_suffix.2 h
    rw [show endsWith m.1 cs!"/" = true from this] at h3; cases h3
  · have := h4 r hr
    rw [(startsWith_iff _ _).2 h] at this; cases this

/-- **Specification**: the scripts and pictures that the page of a plot asks for, with the module that is installed when it is shown -/
def pageFiles : List (Str × Str) :=
  [(cs!"EventPlot", cs!"plotter_scripts/EventPlot/EventPlot.js"), (cs!"EventPlot", cs!"plotter_scripts/EventPlot/d3.tip.v0.6.3.js"), (cs!"EventPlot", cs!"plotter_scripts/EventPlot/d3.min.js"),
   (cs!"EventPlot", cs!"plotter_scripts/EventPlot/EventPlot_help.jpg"),
   (cs!"ILinePlot", cs!"plotter_scripts/ILinePlot/synchronizer.js"), (cs!"ILinePlot", cs!"plotter_scripts/ILinePlot/dygraph-combined.js"), (cs!"ILinePlot", cs!"plotter_scripts/ILinePlot/ILinePlot.js"),
   (cs!"ILinePlot", cs!"plotter_scripts/ILinePlot/underscore-min.js")]

theorem pageFiles_res : ∀ f ∈ pageFiles, ∀ m ∈ iplotResources, m.1 = f.1 → ∃ r ∈ m.2, f.2 = cs!"plotter_scripts/" ++ (m.1 ++ '/' :: baseName r) ∧ startsWith f.2 cs!"/" = false := by
  decide +kernel

theorem suffix_last {a b : Str} (hb : b ≠ []) (h : ¬ cs!"/" <:+ b) : ¬ cs!"/" <:+ a ++ b := by
  intro h'
  obtain ⟨t, e⟩ := h'
  apply h
  obtain ⟨y, l, rfl⟩ : ∃ y l, b = y ++ [l] := ⟨b.dropLast, b.getLast hb, (List.dropLast_append_getLast hb).symm⟩
  rw [← List.append_assoc] at e
  have := List.append_inj_right' e rfl
  cases this
  exact ⟨y, rfl⟩

/-- **C166 (served), partial.** For every version of IPython that can be compared: the files that a plot installs are those its page asks the web server for. (Without broken downloads, now and before; directories
without `/` at the end.) -/
theorem C166_served_partial (env : IPyEnv) (s : Str) (v4 : Bool) (hv : env.version = some s) (h4 : isV4 s = some v4)
    (hroot : if v4 then env.dataDir ≠ [] ∧ ¬ cs!"/" <:+ env.dataDir else ∃ p, env.session = some p ∧ env.locate p ≠ [] ∧ ¬ cs!"/" <:+ env.locate p)
    (content : Str → Str) {net : Str → Fetch} (hn : NoBreak net) (m : Str × List Str) (hm : m ∈ iplotResources) (disk disk' : Dict Str)
    (hc : ∀ p, getScriptsPath env none = .ok p → ∀ r ∈ m.2, cs!"http" <+: r → ∀ x, disk.get (p ++ '/' :: (m.1 ++ '/' :: baseName r)) = some x → x = content r)
    (h : viewInstall env content net m disk = .ok (true, disk')) :
    ∀ f ∈ pageFiles, f.1 = m.1 → ∃ url file r, webBase env f.2 = .ok url ∧ ServedFrom env v4 url file ∧ r ∈ m.2 ∧ cs!"/" ++ baseName r <:+ f.2 ∧ disk'.get file = some (content r) := by
  intro f hf hfm
  obtain ⟨r, hr, ef, hrel⟩ := pageFiles_res f hf m hm hfm.symm
  obtain ⟨m1, m2, m3, m4⟩ := resources_rel m hm
  have hrel' : ¬ cs!"/" <+: f.2 := fun h => by rw [(startsWith_iff _ _).2 h] at hrel; cases hrel
  -- the directory of the module, below any root
  have dirs : ∀ root base : Str, root ≠ [] → ¬ cs!"/" <:+ root → base ≠ [] → ¬ cs!"/" <:+ base → ¬ cs!"/" <+: base → ∀ r ∈ m.2,
      osJoin (osJoin (osJoin (osJoin root base) cs!"plotter_scripts") m.1) (baseName r) = root ++ '/' :: (base ++ '/' :: (cs!"plotter_scripts/" ++ (m.1 ++ '/' :: baseName r))) := by
    intro root base r1 r2 b1 b2 b3 r hr
    have s1 : ¬ cs!"/" <:+ root ++ '/' :: base := by
      have := suffix_last (a := root ++ ['/']) b1 b2
      rwa [List.append_assoc] at this
    rw [osJoin_rel r1 r2 b3, osJoin_rel (by simp) s1 (by decide)]
    have s2 : ¬ cs!"/" <:+ (root ++ '/' :: base) ++ '/' :: cs!"plotter_scripts" := by
      have := suffix_last (a := (root ++ '/' :: base) ++ ['/']) (b := cs!"plotter_scripts") (by decide) (by decide)
      rwa [List.append_assoc] at this
    rw [osJoin_rel (by simp) s2 m1]
    have s3 : ¬ cs!"/" <:+ ((root ++ '/' :: base) ++ '/' :: cs!"plotter_scripts") ++ '/' :: m.1 := by
      have := suffix_last (a := ((root ++ '/' :: base) ++ '/' :: cs!"plotter_scripts") ++ ['/']) m2 m3
      rwa [List.append_assoc] at this
    rw [osJoin_rel (by simp) s3 (m4 r hr)]
    simp
  have install : ∀ root base : Str, root ≠ [] → ¬ cs!"/" <:+ root → base ≠ [] → ¬ cs!"/" <:+ base → ¬ cs!"/" <+: base →
      getScriptsPath env none = .ok (osJoin (osJoin root base) cs!"plotter_scripts") → disk'.get (root ++ '/' :: (base ++ '/' :: f.2)) = some (content r) := by
    intro root base r1 r2 b1 b2 b3 e
    have hd := dirs root base r1 r2 b1 b2 b3
    unfold viewInstall at h
    rw [e] at h
    simp only [Except.ok.injEq] at h
    have hnd : (m.2.map fun r => osJoin (osJoin (osJoin (osJoin root base) cs!"plotter_scripts") m.1) (baseName r)).Nodup := by
      have h0 := resources_names m hm
      unfold List.Nodup at h0 ⊢
      rw [List.pairwise_map] at h0 ⊢
      refine h0.imp_of_mem ?_
      intro x y hx hy hxy e
      rw [hd x hx, hd y hy] at e
      apply hxy
      simpa using e
    have := iplotInstallAt_ok content hn (osJoin (osJoin (osJoin root base) cs!"plotter_scripts") m.1) m.2 hnd disk ?_ (by rw [h]) r hr
    · rw [h, hd r hr, ← ef] at this
      exact this
    · intro r' hr' hh x hx
      rw [hd r' hr'] at hx
      refine hc _ e r' hr' hh x ?_
      have s1 : ¬ cs!"/" <:+ root ++ '/' :: base := by
        have := suffix_last (a := root ++ ['/']) b1 b2
        rwa [List.append_assoc] at this
      rw [osJoin_rel r1 r2 b3, osJoin_rel (by simp) s1 (by decide), ← hx]
      simp
  cases v4 with
  | true =>
    simp only [if_true] at hroot
    refine ⟨cs!"/nbextensions/" ++ f.2, env.dataDir ++ cs!"/nbextensions/" ++ f.2, r, ?_, ⟨f.2, ?_⟩, hr, ?_, ?_⟩
    · unfold webBase
      rw [hv]
      simp only
      rw [h4]
      simp only
      rw [osJoin_rel (by decide) (by decide) hrel']
      rfl
    · rw [if_pos rfl]
      exact ⟨rfl, rfl⟩
    · rw [ef]
      exact ⟨cs!"plotter_scripts/" ++ m.1, by simp⟩
    · have := install env.dataDir cs!"nbextensions" hroot.1 hroot.2 (by decide) (by decide) (by decide) (by
        unfold getScriptsPath getIpythonDir
        rw [hv]
        simp only
        rw [h4]
        rfl)
      rw [← this]
      simp
  | false =>
    simp only [if_false, Bool.false_eq_true] at hroot
    obtain ⟨p, hp, q1, q2⟩ := hroot
    refine ⟨cs!"/static/" ++ f.2, env.locate p ++ cs!"/static/" ++ f.2, r, ?_, ⟨f.2, ?_⟩, hr, ?_, ?_⟩
    · unfold webBase
      rw [hv]
      simp only
      rw [h4]
      simp only
      rw [osJoin_rel (by decide) (by decide) hrel']
      rfl
    · rw [if_neg Bool.false_ne_true]
      exact ⟨rfl, p, hp, rfl⟩
    · rw [ef]
      exact ⟨cs!"plotter_scripts/" ++ m.1, by simp⟩
    · have := install (env.locate p) cs!"static" q1 q2 (by decide) (by decide) (by decide) (by
        unfold getScriptsPath getIpythonDir
        rw [hv]
        simp only
        rw [h4, hp]
        rfl)
      rw [← this]
      simp

/-- `C166_served_partial`: a server with IPython 7.16.1 and an empty disk -/
example : ∃ disk', viewInstall ⟨some cs!"7.16.1", cs!"/home/u/.local/share/jupyter", none, id⟩ id (fun _ => .all) (cs!"EventPlot", [cs!"https://cdnjs.cloudflare.com/ajax/libs/d3/3.5.6/d3.min.js",
      cs!"https://labratrevenge.com/d3-tip/javascripts/d3.tip.v0.6.3.js", cs!"js/EventPlot.js", cs!"css/EventPlot_help.jpg"]) [] = .ok (true, disk') ∧
    disk'.get cs!"/home/u/.local/share/jupyter/nbextensions/plotter_scripts/EventPlot/EventPlot.js" = some cs!"js/EventPlot.js" :=
  ⟨_, rfl, by decide +kernel⟩

/-- **C166 refuted (no session).** Before version 4.0, outside of a session of IPython the scripts can not be installed, although the page can be made. -/
theorem C166_session_refuted (env : IPyEnv) (s : Str) (hv : env.version = some s) (h4 : isV4 s = some false) (hs : env.session = none) :
    (∀ path, ∃ url, webBase env path = .ok url) ∧ ∀ content net m disk, viewInstall env content net m disk = .error .noProfile := by
  constructor
  · intro path
    unfold webBase
    rw [hv]
    simp only
    rw [h4]
    exact ⟨_, rfl⟩
  · intro content net m disk
    unfold viewInstall getScriptsPath getIpythonDir
    rw [hv]
    simp only
    rw [h4, hs]
    rfl

/-- `C166_session_refuted`: IPython 3.2.3 from a script -/
example : isV4 cs!"3.2.3" = some false ∧ (⟨some cs!"3.2.3", cs!"/d", none, id⟩ : IPyEnv).session = none := by decide +kernel

/-- a pre-release of 4.0.0 counts as older than 4.0.0 -/
example : isV4 cs!"4.0.0b1" = some false ∧ isV4 cs!"4.0.1b1" = some true ∧ isV4 cs!"3.2.3" = some false ∧ isV4 cs!"10.0" = some true := by decide +kernel

/-- the URLs are those of the published pages (C143) -/
theorem C166_urls (env : IPyEnv) (s path : Str) (v4 : Bool) (hv : env.version = some s) (h4 : isV4 s = some v4) (hp : ¬ cs!"/" <+: path) : webBase env path = .ok (addWebBase v4 path) := by
  unfold webBase
  rw [hv]
  simp only
  rw [h4]
  cases v4 <;> simp only <;> rw [osJoin_rel (by decide) (by decide) hp] <;> rfl

end Trappy
