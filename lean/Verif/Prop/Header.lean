import Verif.Lemma.Header
import Verif.Prop.Populate
import Verif.Prop.Array
/-!
# C42 – C45: trace path, header metadata, systrace body and markers
-/

namespace Trappy
open Re Py

/-! ## C42 -/

theorem rsplit1_append {ch : Char} {a b : Str} (hb : ch ∉ b) : rsplit1 ch (a ++ ch :: b) = some (a, b) := by
  unfold rsplit1
  have : (a ++ ch :: b).reverse = b.reverse ++ ch :: a.reverse := by simp
  rw [this, split1_append (by simpa using hb)]
  simp

theorem rsplit1_eq_none {ch : Char} {a : Str} : rsplit1 ch a = none ↔ ch ∉ a := by
  unfold rsplit1
  rw [Option.map_eq_none_iff, split1_eq_none]; simp

theorem rsplit1_some {ch : Char} {s a b : Str} (h : rsplit1 ch s = some (a, b)) : s = a ++ ch :: b ∧ ch ∉ b := by
  unfold rsplit1 at h
  rw [Option.map_eq_some_iff] at h
  obtain ⟨⟨x, y⟩, hs, hp⟩ := h
  simp at hp
  obtain ⟨rfl, rfl⟩ := hp
  obtain ⟨h1, h2⟩ := split1_some hs
  constructor
  · have := congrArg List.reverse h1
    simpa using this
  · simpa using h2

theorem splitext_hasExt {p s : Str} (h : HasExt p s) : (splitext p).1 = s := by
  obtain ⟨d, n, e, rfl, rfl, hd, hn, ⟨c, hc, hc'⟩, he1, he2⟩ := h
  have hany : n.any (· != '.') = true := by
    rw [List.any_eq_true]; exact ⟨c, hc, by simpa using hc'⟩
  have hne : '/' ∉ n ++ '.' :: e := by
    intro h
    rcases List.mem_append.mp h with h | h
    · exact hn h
    · rcases List.mem_cons.mp h with h | h
      · exact absurd h (by decide)
      · exact he1 h
  unfold splitext
  rcases hd with rfl | ⟨d', rfl⟩
  · have e0 : rsplit1 '/' ([] ++ (n ++ '.' :: e)) = none := rsplit1_eq_none.mpr hne
    rw [e0]
    simp only [List.nil_append]
    rw [rsplit1_append he2]
    simp [hany]
  · have e0 : rsplit1 '/' (d' ++ ['/'] ++ (n ++ '.' :: e)) = some (d', n ++ '.' :: e) := by
      rw [show d' ++ ['/'] ++ (n ++ '.' :: e) = d' ++ '/' :: (n ++ '.' :: e) by simp]
      exact rsplit1_append hne
    rw [e0]
    simp only
    rw [rsplit1_append he2]
    simp [hany]

theorem splitext_stem (p : Str) : Stem p (splitext p).1 := by
  by_cases h : ∃ s, HasExt p s
  · obtain ⟨s, hs⟩ := h
    left; rw [splitext_hasExt hs]; exact hs
  · right
    have h : ∀ s, ¬ HasExt p s := fun s hs => h ⟨s, hs⟩
    refine ⟨?_, h⟩
    unfold splitext
    have key : ∀ d n b e : Str, p = d ++ n → (d = [] ∨ ∃ d', d = d' ++ ['/']) → '/' ∉ n → rsplit1 '.' n = some (b, e) →
        b.any (· != '.') = false := by
      intro d n b e hp hd hn hs
      obtain ⟨rfl, he⟩ := rsplit1_some hs
      cases hb : b.any (· != '.') with
      | false => rfl
      | true =>
        exfalso
        rw [List.any_eq_true] at hb
        obtain ⟨c, hc, hc'⟩ := hb
        refine h (d ++ b) ⟨d, b, e, hp, rfl, hd, ?_, ⟨c, hc, by simpa using hc'⟩, ?_, he⟩
        · intro hx; exact hn (List.mem_append_left _ hx)
        · intro hx; exact hn (List.mem_append_right _ (List.mem_cons_of_mem _ hx))
    cases h0 : rsplit1 '/' p with
    | none =>
      simp only
      cases h1 : rsplit1 '.' p with
      | none => rfl
      | some q =>
        obtain ⟨b, e⟩ := q
        have := key [] p b e rfl (Or.inl rfl) (rsplit1_eq_none.mp h0) h1
        simp [this]
    | some q =>
      obtain ⟨a, n⟩ := q
      obtain ⟨hp, hn⟩ := rsplit1_some h0
      simp only
      cases h1 : rsplit1 '.' n with
      | none => rfl
      | some q =>
        obtain ⟨b, e⟩ := q
        have := key (a ++ ['/']) n b e (by simp [hp]) (Or.inr ⟨a, rfl⟩) hn h1
        simp [this]

/-- The stem of a path is unique. -/
theorem Stem.unique {p s t : Str} (h1 : Stem p s) (h2 : Stem p t) : s = t := by
  rcases h1 with h1 | ⟨rfl, h1⟩ <;> rcases h2 with h2 | ⟨rfl, h2⟩
  · rw [← splitext_hasExt h1, splitext_hasExt h2]
  · exact absurd h1 (h2 _)
  · exact absurd h2 (h1 _)
  · rfl

/-- The name the trace files must have, without extension: the stem of a given file, or `trace` inside a directory. -/
def TraceName (isFile : Str → Bool) (path name : Str) : Prop :=
  (isFile path = true ∧ Stem path name) ∨
  (isFile path = false ∧
    ((path = [] ∧ name = cs!"trace") ∨ (∃ d, path = d ++ ['/'] ∧ name = d ++ cs!"/trace") ∨
      (path ≠ [] ∧ (∀ d, path ≠ d ++ ['/']) ∧ name = path ++ cs!"/trace")))

theorem processPath_name (isFile : Str → Bool) (path name : Str) (h : TraceName isFile path name) :
    (if isFile path then (splitext path).1 else pathJoin path cs!"trace") = name := by
  rcases h with ⟨hf, hs⟩ | ⟨hf, hs⟩
  · rw [if_pos hf]; exact (splitext_stem path).unique hs
  · rw [if_neg (by simp [hf])]
    unfold pathJoin
    rcases hs with ⟨rfl, rfl⟩ | ⟨d, rfl, rfl⟩ | ⟨hne, hno, rfl⟩
    · rfl
    · have : endsWith (d ++ ['/']) ['/'] = true := by
        unfold endsWith; rw [List.isSuffixOf_iff_suffix]; exact ⟨d, rfl⟩
      simp [this]
    · have h1 : path.isEmpty = false := by cases path <;> simp_all
      have h2 : endsWith path ['/'] = false := by
        cases hh : endsWith path ['/'] with
        | false => rfl
        | true =>
          unfold endsWith at hh; rw [List.isSuffixOf_iff_suffix] at hh
          obtain ⟨d, hd⟩ := hh
          exact absurd hd.symm (hno d)
      simp [h1, h2]

/-- Every path has exactly one such name. -/
theorem traceName_exists (isFile : Str → Bool) (path : Str) : ∃ name, TraceName isFile path name := by
  cases h : isFile path with
  | true => exact ⟨_, Or.inl ⟨h, splitext_stem path⟩⟩
  | false =>
    by_cases h1 : path = []
    · exact ⟨_, Or.inr ⟨h, Or.inl ⟨h1, rfl⟩⟩⟩
    · by_cases h2 : ∃ d, path = d ++ ['/']
      · obtain ⟨d, hd⟩ := h2
        exact ⟨_, Or.inr ⟨h, Or.inr (Or.inl ⟨d, hd, rfl⟩)⟩⟩
      · exact ⟨_, Or.inr ⟨h, Or.inr (Or.inr ⟨h1, fun d hd => h2 ⟨d, hd⟩, rfl⟩)⟩⟩

/-- **C42**: the `.dat` is read if it exists, else the `.txt`; if only a `.raw.txt` is there the path is rejected
as unsupported, and if nothing is there as not found. -/
theorem C42_path (isFile : Str → Bool) (path name : Str) (h : TraceName isFile path name) :
    (isFile (name ++ cs!".dat") = true → processPath isFile path = .read (name ++ cs!".dat") true) ∧
    (isFile (name ++ cs!".dat") = false → isFile (name ++ cs!".txt") = true →
      processPath isFile path = .read (name ++ cs!".txt") false) ∧
    (isFile (name ++ cs!".dat") = false → isFile (name ++ cs!".txt") = false → isFile (name ++ cs!".raw.txt") = true →
      processPath isFile path = .rawUnsupported) ∧
    (isFile (name ++ cs!".dat") = false → isFile (name ++ cs!".txt") = false → isFile (name ++ cs!".raw.txt") = false →
      processPath isFile path = .notFound) := by
  unfold processPath
  rw [processPath_name isFile path name h]
  refine ⟨?_, ?_, ?_, ?_⟩ <;> intros <;> simp_all

/-- **C42**: whatever is read exists. -/
theorem C42_read_exists (isFile : Str → Bool) (path p : Str) (b : Bool) (h : processPath isFile path = .read p b) :
    isFile p = true ∧ (b = true ↔ ∃ n, p = n ++ cs!".dat") := by
  unfold processPath at h
  generalize (if isFile path then (splitext path).1 else pathJoin path cs!"trace") = name at h
  simp only at h
  split at h
  · simp at h; obtain ⟨rfl, rfl⟩ := h; exact ⟨by assumption, by simp⟩
  · split at h
    · simp at h; obtain ⟨rfl, rfl⟩ := h
      refine ⟨by assumption, ?_⟩
      simp only [Bool.false_eq_true, false_iff, not_exists]
      intro n hn
      have := congrArg List.reverse hn
      simp at this
    · split at h <;> simp at h

-- a directory `runs/` with `trace.txt` only; a file `a.b/x.tar.txt` next to `a.b/x.tar.dat`
example : processPath (· == cs!"runs/trace.txt") cs!"runs/" = .read cs!"runs/trace.txt" false ∧
    TraceName (· == cs!"runs/trace.txt") cs!"runs/" cs!"runs/trace" ∧
    processPath (fun p => p == cs!"a.b/x.tar.txt" || p == cs!"a.b/x.tar.dat") cs!"a.b/x.tar.txt" = .read cs!"a.b/x.tar.dat" true ∧
    Stem cs!"a.b/x.tar.txt" cs!"a.b/x.tar" ∧
    processPath (· == cs!"runs/trace.raw.txt") cs!"runs" = .rawUnsupported := by
  refine ⟨by decide, Or.inr ⟨by decide, Or.inr (Or.inl ⟨cs!"runs", rfl, rfl⟩)⟩, by decide, ?_, by decide⟩
  exact Or.inl ⟨cs!"a.b/", cs!"x.tar", cs!"txt", rfl, rfl, Or.inr ⟨cs!"a.b", rfl⟩, by decide, ⟨'x', by decide⟩, by decide, by decide⟩

/-! ## C43 -/

/-- The first line `key = v`, with no event line and no other line of this key before it. -/
def FirstHeader (key v : Str) (lines : List Str) : Prop :=
  ∃ pre l post, lines = pre ++ l :: post ∧ HeaderLine key v l ∧
    (∀ x ∈ pre, parseLine x = none) ∧ (∀ x ∈ pre, ∀ v', ¬ HeaderLine key v' x)

theorem special_iff (l : Str) : (matchPrefix specialFieldsRe l).isSome = (parseLine l).isSome := by
  have := hasntStarted_iff l
  unfold hasntStarted at this
  cases h1 : matchPrefix specialFieldsRe l <;> cases h2 : parseLine l <;> simp_all

theorem firstHeader_cons {key v l : Str} {lines : List Str} : FirstHeader key v (l :: lines) ↔
    HeaderLine key v l ∨ ((∀ v', ¬ HeaderLine key v' l) ∧ parseLine l = none ∧ FirstHeader key v lines) := by
  constructor
  · rintro ⟨pre, l', post, e, h1, h2, h3⟩
    cases pre with
    | nil => simp at e; obtain ⟨rfl, rfl⟩ := e; exact Or.inl h1
    | cons x pre =>
      simp at e; obtain ⟨rfl, rfl⟩ := e
      right
      exact ⟨h3 _ (by simp), h2 _ (by simp), pre, l', post, rfl, h1, fun x hx => h2 x (by simp [hx]), fun x hx => h3 x (by simp [hx])⟩
  · rintro (h | ⟨h1, h2, pre, l', post, rfl, h3, h4, h5⟩)
    · exact ⟨[], l, lines, rfl, h, by simp, by simp⟩
    · refine ⟨l :: pre, l', post, rfl, h3, ?_, ?_⟩ <;> intro x hx <;> rcases List.mem_cons.mp hx with rfl | hx
      · exact h2
      · exact h4 x hx
      · exact h1
      · exact h5 x hx

theorem metaLoop_spec (lines : List Str) : ∀ (keys : List Str) (res : Dict Str), keys.Sublist metaKeys →
    (∀ k ∈ keys, res.get k = none) → ∀ key ∈ metaKeys, ∀ v,
      ((metaLoop keys res lines).get key = some v ↔
        (key ∈ keys ∧ FirstHeader key v lines) ∨ (key ∉ keys ∧ res.get key = some v)) := by
  induction lines with
  | nil =>
    intro keys res hs hd key hk v
    simp only [metaLoop]
    have hn : ¬ FirstHeader key v [] := by rintro ⟨pre, l, post, e, -⟩; simp at e
    by_cases hm : key ∈ keys
    · simp [hm, hn, hd key hm]
    · simp [hm]
  | cons line rest ih =>
    intro keys res hs hd key hk v
    unfold metaLoop
    by_cases hke : keys = []
    · subst hke; simp
    rw [if_neg (by simp [hke])]
    by_cases hex : ∃ k ∈ keys, ∃ v', HeaderLine k v' line
    · obtain ⟨k, hkm, v', hh⟩ := hex
      obtain ⟨r, hr⟩ := metaRe_complete hs hkm hh
      rw [hr]
      have g1 : Caps.get [(2, v'), (1, k)] 1 = some k := rfl
      have g2 : Caps.get [(2, v'), (1, k)] 2 = some v' := rfl
      simp only [g1, g2]
      rw [special_iff]
      have hnd : keys.Nodup := hs.nodup (by unfold metaKeys; decide)
      have hkK : k ∈ metaKeys := hs.subset hkm
      have hother : ∀ k', k' ∈ metaKeys → k' ≠ k → ∀ v'', ¬ HeaderLine k' v'' line := fun k' hk' hne v'' h =>
        hne (HeaderLine.unique hk' hkK h hh).1
      by_cases hkk : key = k
      · subst hkk
        have hfirst : FirstHeader key v (line :: rest) ↔ v = v' := by
          rw [firstHeader_cons]
          constructor
          · rintro (h | ⟨h, -⟩)
            · exact (HeaderLine.unique hk hk h hh).2
            · exact absurd hh (h v')
          · rintro rfl; exact Or.inl hh
        have hR : ((key ∈ keys ∧ FirstHeader key v (line :: rest)) ∨ (key ∉ keys ∧ res.get key = some v)) ↔ v' = v := by
          simp [hkm, hfirst, eq_comm]
        rw [hR]
        split
        · rw [Dict.get_set]; simp
        · rw [ih _ _ (List.erase_sublist.trans hs) _ key hk v]
          · have : key ∉ keys.erase key := fun h => (hnd.mem_erase_iff.mp h).1 rfl
            simp only [this, false_and, not_false_eq_true, true_and, false_or]
            rw [Dict.get_set]; simp
          · intro k' hk'
            obtain ⟨n1, n2⟩ := hnd.mem_erase_iff.mp hk'
            rw [Dict.get_set, if_neg (Ne.symm n1)]; exact hd k' n2
      · have hfc : FirstHeader key v (line :: rest) ↔ parseLine line = none ∧ FirstHeader key v rest := by
          rw [firstHeader_cons]
          have := hother key hk hkk
          simp [this]
        have hme : key ∈ keys.erase k ↔ key ∈ keys := by
          rw [hnd.mem_erase_iff]; simp [hkk]
        split
        · rename_i hsp
          rw [Dict.get_set, if_neg (Ne.symm hkk), hfc]
          have : parseLine line ≠ none := by intro h; rw [h] at hsp; simp at hsp
          by_cases hm : key ∈ keys
          · simp [hm, this, hd key hm]
          · simp [hm]
        · rename_i hsp
          rw [ih _ _ (List.erase_sublist.trans hs) _ key hk v]
          · rw [hme, Dict.get_set, if_neg (Ne.symm hkk), hfc]
            have : parseLine line = none := by cases h : parseLine line with
              | none => rfl
              | some f => rw [h] at hsp; simp at hsp
            simp [this]
          · intro k' hk'
            obtain ⟨n1, n2⟩ := hnd.mem_erase_iff.mp hk'
            rw [Dict.get_set, if_neg (Ne.symm n1)]; exact hd k' n2
    · have hno : ∀ k ∈ keys, ∀ v', ¬ HeaderLine k v' line := fun k hk v' h => hex ⟨k, hk, v', h⟩
      have hnone : matchPrefix (metaRe keys) line = none := by
        cases h : matchPrefix (metaRe keys) line with
        | none => rfl
        | some r =>
          obtain ⟨k, hk, v', hh⟩ := metaRe_sound hke h
          exact absurd hh (hno k hk v')
      rw [hnone]
      simp only
      rw [special_iff]
      split
      · rename_i hsp
        have hp : parseLine line ≠ none := by intro h; rw [h] at hsp; simp at hsp
        by_cases hm : key ∈ keys
        · have : ¬ FirstHeader key v (line :: rest) := by
            rw [firstHeader_cons]; simp [hp, hno key hm]
          simp [hm, this, hd key hm]
        · simp [hm]
      · rename_i hsp
        have hp : parseLine line = none := by cases h : parseLine line with
          | none => rfl
          | some f => rw [h] at hsp; simp at hsp
        rw [ih keys res hs hd key hk v]
        by_cases hm : key ∈ keys
        · rw [firstHeader_cons]; simp [hm, hp, hno key hm]
        · simp [hm]

/-- **C43**: the version (and likewise the number of CPUs) of a trace is the value on the first `key = value` line, which
must not come after the first event line; without such a line it is not set. -/
theorem C43_header (lines : List Str) (key : Str) (hk : key = cs!"version" ∨ key = cs!"cpus") (v : Str) :
    (traceMetadata lines).get key = some v ↔ FirstHeader key v lines := by
  unfold traceMetadata
  have hk' : key ∈ metaKeys := by unfold metaKeys; rcases hk with rfl | rfl <;> simp
  have := metaLoop_spec lines metaKeys [] (List.Sublist.refl _) (by intros; rfl) key hk' v
  unfold metaKeys at this hk'
  rw [this]
  simp [hk']

/-- **C43**: nothing after the first event line can change the metadata. -/
theorem C43_only_header (A B B' : List Str) (e : Str) (he : (parseLine e).isSome = true) :
    traceMetadata (A ++ e :: B) = traceMetadata (A ++ e :: B') := by
  unfold traceMetadata
  generalize [cs!"version", cs!"cpus"] = keys
  generalize ([] : Dict Str) = res
  induction A generalizing keys res with
  | nil =>
    simp only [List.nil_append, metaLoop]
    split
    · rfl
    · rw [if_pos (by rw [special_iff]; exact he)]
      rw [if_pos (by rw [special_iff]; exact he)]
  | cons a A ih =>
    simp only [List.cons_append, metaLoop]
    split
    · rfl
    · split
      · rfl
      · exact ih _ _

example : traceMetadata [cs!"version = 6\n", cs!"CPU 0 is empty\n", cs!"cpus=4\n",
      cs!"  <idle>-0 [001] 10.5: sched_switch: a=1\n", cs!"version = 7\n"] = [(cs!"version", cs!"6"), (cs!"cpus", cs!"4")] ∧
    traceMetadata [cs!"version = 6\n", cs!"  <idle>-0 [001] 10.5: sched_switch: a=1\n", cs!"cpus=4\n"] = [(cs!"version", cs!"6")] ∧
    (parseLine cs!"  <idle>-0 [001] 10.5: sched_switch: a=1\n").isSome = true ∧
    FirstHeader cs!"cpus" cs!"4" [cs!"version = 6\n", cs!"cpus=4\n"] := by
  refine ⟨by decide +kernel, by decide +kernel, by decide +kernel, ?_⟩
  exact (C43_header _ _ (Or.inr rfl) _).mp (by decide +kernel)

/-! ## C44 -/

theorem sysDrop_begin (A rest : List Str) (m : Str) (hA : ∀ x ∈ A, beginsTrace x = false) (hm : beginsTrace m = true) :
    sysDrop true true (A ++ m :: rest) = sysDrop false true rest := by
  induction A with
  | nil => simp [sysDrop, hm]
  | cons a A ih =>
    have := hA a (by simp)
    simp only [List.cons_append, sysDrop, if_true, this, Bool.not_false, Bool.not_true, Bool.false_eq_true, if_false]
    exact ih fun x hx => hA x (by simp [hx])

theorem sysDrop_event (C rest : List Str) (hC : ∀ x ∈ C, parseLine x = none) :
    sysDrop false false (C ++ rest) = sysDrop false false rest := by
  induction C with
  | nil => rfl
  | cons a C ih =>
    have : hasntStarted a = true := by rw [hasntStarted_iff, hC a (by simp)]; rfl
    simp only [List.cons_append, sysDrop, Bool.false_eq_true, if_false, Bool.not_false, this, if_true]
    exact ih fun x hx => hC x (by simp [hx])

theorem sysDrop_data (B rest : List Str) (s : Str) (hB : ∀ x ∈ B, opensData x = false) (hs : opensData s = true) :
    sysDrop false true (B ++ s :: rest) = sysDrop false false (s :: rest) := by
  induction B with
  | nil => simp [sysDrop, hs]
  | cons a B ih =>
    have := hB a (by simp)
    simp only [List.cons_append, sysDrop, Bool.false_eq_true, if_false, if_true, this, Bool.not_false, Bool.not_true]
    exact ih fun x hx => hB x (by simp [hx])

/-- A line that starts the systrace proper. -/
def TraceMark (l : Str) : Prop := cs!"<!-- BEGIN TRACE -->" <+: l ∨ cs!"<title>Android System Trace</title>" <+: l
/-- A line that opens the trace data. -/
def DataMark (l : Str) : Prop := cs!"  <script class=\"trace-data\"" <+: l ∨ cs!"  var linuxPerfData" <+: l
/-- The closing line of a script. -/
def CloseMark (l : Str) : Prop := cs!"</script>\n" <:+ l

theorem beginsTrace_iff (l : Str) : beginsTrace l = true ↔ TraceMark l := by
  simp [beginsTrace, startsWith, TraceMark, Bool.or_eq_true, List.isPrefixOf_iff_prefix]
theorem opensData_iff (l : Str) : opensData l = true ↔ DataMark l := by
  simp [opensData, startsWith, DataMark, Bool.or_eq_true, List.isPrefixOf_iff_prefix]
theorem sysNotFinished_iff (l : Str) : sysNotFinished l = false ↔ CloseMark l := by
  simp [sysNotFinished, endsWith, CloseMark, List.isSuffixOf_iff_suffix]

/-- What comes before the data: up to the first trace marker, from there to the first data marker after it. -/
structure SysPrefix (A : List Str) (m : Str) (B : List Str) (s : Str) : Prop where
  noBegin : ∀ x ∈ A, ¬ TraceMark x
  begin_ : TraceMark m
  noData : ∀ x ∈ B, ¬ DataMark x
  data : DataMark s

theorem SysPrefix.drop {A B : List Str} {m s : Str} (h : SysPrefix A m B s) (rest : List Str) :
    sysDrop true true (A ++ m :: (B ++ s :: rest)) = sysDrop false false (s :: rest) := by
  rw [sysDrop_begin A _ m ?_ ((beginsTrace_iff m).mpr h.begin_), sysDrop_data B rest s ?_ ((opensData_iff s).mpr h.data)]
  · intro x hx; have := h.noData x hx; rw [← opensData_iff] at this; simpa using this
  · intro x hx; have := h.noBegin x hx; rw [← beginsTrace_iff] at this; simpa using this

theorem takeWhile_none_closed (L : List Str) (h : ∀ x ∈ L, ¬ CloseMark x) (rest : List Str)
    (hr : ∀ z ∈ rest.head?, CloseMark z) : (L ++ rest).takeWhile sysNotFinished = L := by
  induction L with
  | nil =>
    cases rest with
    | nil => rfl
    | cons z rest =>
      have : sysNotFinished z = false := (sysNotFinished_iff z).mpr (hr z (by simp))
      simp [this]
  | cons a L ih =>
    have : sysNotFinished a = true := by
      have := h a (by simp); rw [← sysNotFinished_iff] at this; simpa using this
    simp only [List.cons_append, List.takeWhile_cons, this, if_true]
    rw [ih fun x hx => h x (by simp [hx])]

/-- **C44**: the parsed lines of a systrace are those from the first event line at or after the data marker up to (and
without) the next closing script line, or to the end of the file if there is none. -/
theorem C44_body (A B C D E : List Str) (m s e : Str) (h : SysPrefix A m B s)
    (hC : ∀ x ∈ s :: C, parseLine x = none) (he : (parseLine e).isSome = true)
    (hD : ∀ x ∈ e :: D, ¬ CloseMark x) (hE : ∀ z ∈ E.head?, CloseMark z) :
    sysBody (A ++ m :: (B ++ s :: (C ++ e :: (D ++ E)))) = e :: D := by
  unfold sysBody
  rw [h.drop, show s :: (C ++ e :: (D ++ E)) = (s :: C) ++ e :: (D ++ E) by rfl, sysDrop_event _ _ hC]
  have : hasntStarted e = false := by rw [hasntStarted_iff]; cases hp : parseLine e <;> simp_all
  simp only [sysDrop, Bool.false_eq_true, if_false, Bool.not_false, if_true, this]
  exact takeWhile_none_closed (e :: D) hD E hE

/-- **C44**: without a trace marker, without a data marker after it, or without an event line after both, nothing is
parsed. -/
theorem C44_nothing (lines : List Str)
    (h : (∀ x ∈ lines, ¬ TraceMark x) ∨
      (∃ A m B, lines = A ++ m :: B ∧ (∀ x ∈ A, ¬ TraceMark x) ∧ TraceMark m ∧ ∀ x ∈ B, ¬ DataMark x) ∨
      (∃ A m B s C, lines = A ++ m :: (B ++ s :: C) ∧ SysPrefix A m B s ∧ ∀ x ∈ s :: C, parseLine x = none)) :
    sysBody lines = [] := by
  unfold sysBody
  rcases h with h | ⟨A, m, B, rfl, hA, hm, hB⟩ | ⟨A, m, B, s, C, rfl, hp, hC⟩
  · have : sysDrop true true lines = [] := by
      induction lines with
      | nil => rfl
      | cons a L ih =>
        have h0 := h a (by simp)
        rw [← beginsTrace_iff] at h0
        have h0 : beginsTrace a = false := by simpa using h0
        simp only [sysDrop, if_true, h0, Bool.not_false, Bool.not_true, Bool.false_eq_true, if_false]
        exact ih fun x hx => h x (by simp [hx])
    rw [this]; rfl
  · rw [sysDrop_begin A B m ?_ ((beginsTrace_iff m).mpr hm)]
    · have : sysDrop false true B = [] := by
        induction B with
        | nil => rfl
        | cons a L ih =>
          have h0 := hB a (by simp)
          rw [← opensData_iff] at h0
          have h0 : opensData a = false := by simpa using h0
          simp only [sysDrop, if_true, h0, Bool.not_false, Bool.not_true, Bool.false_eq_true, if_false]
          exact ih fun x hx => hB x (by simp [hx])
      rw [this]; rfl
    · intro x hx; have := hA x hx; rw [← beginsTrace_iff] at this; simpa using this
  · rw [hp.drop]
    have := sysDrop_event (s :: C) [] hC
    rw [List.append_nil] at this
    rw [this]; rfl

/-- a small systrace -/
def exSys : List Str :=
  [cs!"<html>\n", cs!"<!-- BEGIN TRACE -->\n", cs!"  <script class=\"trace-data\" type=\"x\">\n", cs!"# tracer: nop\n",
   cs!" a-1 [000] 1.0: tracing_mark_write: E\n", cs!"#\n", cs!" a-1 [000] 2.0: tracing_mark_write: E\n", cs!"  </script>\n",
   cs!" a-1 [000] 3.0: tracing_mark_write: E\n"]

example : sysBody exSys = [cs!" a-1 [000] 1.0: tracing_mark_write: E\n", cs!"#\n", cs!" a-1 [000] 2.0: tracing_mark_write: E\n"] := by
  decide +kernel

example : SysPrefix [cs!"<html>\n"] cs!"<!-- BEGIN TRACE -->\n" [] cs!"  <script class=\"trace-data\" type=\"x\">\n" ∧
    (∀ x ∈ [cs!"  <script class=\"trace-data\" type=\"x\">\n", cs!"# tracer: nop\n"], parseLine x = none) ∧
    (parseLine cs!" a-1 [000] 1.0: tracing_mark_write: E\n").isSome = true ∧ CloseMark cs!"  </script>\n" := by
  refine ⟨⟨?_, ?_, by simp, ?_⟩, by decide +kernel, by decide +kernel, ?_⟩
  · intro x hx; simp at hx; subst hx; rw [← beginsTrace_iff]; decide
  · rw [← beginsTrace_iff]; decide
  · rw [← opensData_iff]; decide
  · rw [← sysNotFinished_iff]; decide

/-! ## C45 -/

/-- **C45**: an end marker. -/
theorem C45_end_marker (ch : Char) (hc : isUpper ch = true) (t : Str) (ht : ∀ x ∈ t.head?, x ≠ '|') :
    sysMarker (ch :: t) = some [(cs!"event", .str [ch]), (cs!"pid", .none), (cs!"func", .none), (cs!"data", .none)] := by
  have : matchPrefix systraceEventRe (ch :: t) = some ([(1, [ch])], t) := by
    unfold matchPrefix systraceEventRe
    rw [m.eq_4, m.eq_8, m.eq_3, if_pos hc]
    simp only [opt, cat]
    rw [m.eq_5]
    have hn : ∀ {β : Type} (r : Re) (c : Caps) (k : Str → Caps → Option β), m (.seq (lit '|') r) t c k = none := by
      intro β r c k
      cases t with
      | nil => simp [m, lit]
      | cons x t =>
        rw [m.eq_4, m_lit_ne (ht x (by simp))]
    rw [hn]
    simp [m]
  unfold sysMarker
  rw [this]; rfl

/-- **C45**: a begin marker (`event|pid|func`), for any process and function name. -/
theorem C45_begin_marker (ch : Char) (hc : isUpper ch = true) (pid : Nat) (func : Str) (hf : '|' ∉ func) :
    sysMarker (ch :: '|' :: (natStr pid ++ '|' :: func)) =
      some [(cs!"event", .str [ch]), (cs!"pid", .int pid), (cs!"func", .str func), (cs!"data", .none)] := by
  have hd : ∀ c ∈ natStr pid, isDigit c = true := fun c h => natStr_digits h
  have hne : natStr pid ≠ [] := by unfold natStr; exact Nat.toDigits_ne_nil
  have e1 : ∀ (x r : Str), (x ++ r).take ((x ++ r).length - r.length) = x := by intro x r; simp
  have : matchPrefix systraceEventRe (ch :: '|' :: (natStr pid ++ '|' :: func)) =
      some ([(3, func), (2, natStr pid), (1, [ch])], []) := by
    unfold matchPrefix systraceEventRe
    rw [m.eq_4, m.eq_8, m.eq_3, if_pos hc]
    simp only [opt, cat]
    have key : ∀ c : Caps, m (.seq (lit '|') (.seq (.group 2 (plus isDigit)) (.seq (lit '|') (.seq (.group 3 (.star (· != '|')))
        (.alt (.seq (lit '|') (.group 4 (.star notNl))) .eps))))) ('|' :: (natStr pid ++ '|' :: func)) c
        (fun s' c => some (c, s')) = some ((3, func) :: (2, natStr pid) :: c, []) := by
      intro c
      rw [m.eq_4, m_lit_cons, m.eq_4, m.eq_8]
      apply m_plus_max _ hne hd
      · intro y hy; simp at hy; subst hy; decide
      rw [e1, m.eq_4, m_lit_cons, m.eq_4, m.eq_8, m.eq_6]
      have := mStar_max (p := (· != '|')) func (rest := []) (c := (2, natStr pid) :: c)
        (k := fun s' c' => m (.alt (.seq (lit '|') (.group 4 (.star notNl))) .eps) s' ((3, func.take (func.length - s'.length)) :: c')
          (fun s' c => some (c, s'))) (v := ((3, func) :: (2, natStr pid) :: c, []))
        (by intro y hy; simp only [bne_iff_ne, ne_eq]; rintro rfl; exact hf hy) (by simp) (by simp [m, lit])
      rw [List.append_nil] at this
      exact this
    rw [m.eq_5, key]
    simp
  have hv : natVal (natStr pid) = pid := by
    rw [natVal_eq]; unfold natStr; exact Nat.ofDigitChars_toDigits (by decide) (by decide)
  unfold sysMarker
  rw [this]
  simp only [Option.map_some]
  generalize natStr pid = t at hv
  subst hv
  rfl

/-- **C45**: a counter marker (`event|pid|func|data`), for any process, function name and data. -/
theorem C45_counter_marker (ch : Char) (hc : isUpper ch = true) (pid : Nat) (func data : Str) (hf : '|' ∉ func)
    (hdn : '\n' ∉ data) :
    sysMarker (ch :: '|' :: (natStr pid ++ '|' :: (func ++ '|' :: data))) =
      some [(cs!"event", .str [ch]), (cs!"pid", .int pid), (cs!"func", .str func), (cs!"data", .str data)] := by
  have hd : ∀ c ∈ natStr pid, isDigit c = true := fun c h => natStr_digits h
  have hne : natStr pid ≠ [] := by unfold natStr; exact Nat.toDigits_ne_nil
  have e1 : ∀ (x r : Str), (x ++ r).take ((x ++ r).length - r.length) = x := by intro x r; simp
  have : matchPrefix systraceEventRe (ch :: '|' :: (natStr pid ++ '|' :: (func ++ '|' :: data))) =
      some ([(4, data), (3, func), (2, natStr pid), (1, [ch])], []) := by
    unfold matchPrefix systraceEventRe
    rw [m.eq_4, m.eq_8, m.eq_3, if_pos hc]
    simp only [opt, cat]
    have key : ∀ c : Caps, m (.seq (lit '|') (.seq (.group 2 (plus isDigit)) (.seq (lit '|') (.seq (.group 3 (.star (· != '|')))
        (.alt (.seq (lit '|') (.group 4 (.star notNl))) .eps))))) ('|' :: (natStr pid ++ '|' :: (func ++ '|' :: data))) c
        (fun s' c => some (c, s')) = some ((4, data) :: (3, func) :: (2, natStr pid) :: c, []) := by
      intro c
      rw [m.eq_4, m_lit_cons, m.eq_4, m.eq_8]
      apply m_plus_max _ hne hd
      · intro y hy; simp at hy; subst hy; decide
      rw [e1, m.eq_4, m_lit_cons, m.eq_4, m.eq_8, m.eq_6]
      apply mStar_max func
      · intro y hy; simp only [bne_iff_ne, ne_eq]; rintro rfl; exact hf hy
      · intro y hy; simp at hy; subst hy; rfl
      rw [e1, m.eq_5, m.eq_4, m_lit_cons, m.eq_8, m.eq_6]
      have := mStar_max (p := notNl) data (rest := []) (c := (3, func) :: (2, natStr pid) :: c)
        (k := fun s' c' => (some ((4, data.take (data.length - s'.length)) :: c', s') : Option (Caps × Str)))
        (v := ((4, data) :: (3, func) :: (2, natStr pid) :: c, []))
        (by intro y hy; simp only [notNl, bne_iff_ne, ne_eq]; rintro rfl; exact hdn hy) (by simp) (by simp)
      rw [List.append_nil] at this
      rw [this]
    rw [m.eq_5, key]
    simp
  have hv : natVal (natStr pid) = pid := by
    rw [natVal_eq]; unfold natStr; exact Nat.ofDigitChars_toDigits (by decide) (by decide)
  unfold sysMarker
  rw [this]
  simp only [Option.map_some]
  generalize natStr pid = t at hv
  subst hv
  rfl

example : sysMarker cs!"E" = some [(cs!"event", .str cs!"E"), (cs!"pid", .none), (cs!"func", .none), (cs!"data", .none)] ∧
    sysMarker cs!"B|1234|do frame" =
      some [(cs!"event", .str cs!"B"), (cs!"pid", .int 1234), (cs!"func", .str cs!"do frame"), (cs!"data", .none)] ∧
    sysMarker cs!"C|1|heap|5 kB" =
      some [(cs!"event", .str cs!"C"), (cs!"pid", .int 1), (cs!"func", .str cs!"heap"), (cs!"data", .str cs!"5 kB")] := by
  decide +kernel

/-- **C45**: the row of a marker in a systrace holds exactly the decoded fields. -/
theorem C45_row (data : Str) (d : Dict MVal) (h : sysMarker data = some d) : fallbackRow sysMarker data = d := by
  unfold fallbackRow
  rw [h]
  unfold sysMarker at h
  rw [Option.map_eq_some_iff] at h
  obtain ⟨q, -, rfl⟩ := h
  rfl

/-! ## C88 -/

/-- **C88** is false: the free-form marker text of a systrace is lost when it starts with a capital letter. -/
theorem C88_text_kept_refuted :
    ∃ data : Str, data.length = 11 ∧ ∀ kv ∈ fallbackRow sysMarker data, kv.2 ≠ .str data :=
  ⟨cs!"Hello world", by decide +kernel⟩

/-- **C88**, the part that holds: in an FTrace the text is always kept, and in a systrace when it does not start with a
capital letter. -/
theorem C88_text_kept_partial (data : Str) :
    fallbackRow (fun _ => none) data = [(cs!"string", .str data)] ∧
    ((∀ c ∈ data.head?, isUpper c = false) → fallbackRow sysMarker data = [(cs!"string", .str data)]) := by
  refine ⟨rfl, ?_⟩
  intro h
  have : sysMarker data = none := by
    unfold sysMarker matchPrefix systraceEventRe
    rw [m.eq_4, m.eq_8]
    cases data with
    | nil => simp [m]
    | cons c t =>
      have := h c (by simp)
      simp [m, this]
  unfold fallbackRow
  rw [this]

example : (∀ c ∈ cs!"frame start".head?, isUpper c = false) ∧
    fallbackRow sysMarker cs!"frame start" = [(cs!"string", .str cs!"frame start")] := by decide +kernel

end Trappy
