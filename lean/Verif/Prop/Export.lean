import Verif.Model.Export
import Verif.Lemma.Regex
import Verif.Lemma.Array2
import Verif.Prop.Populate
import Mathlib.Data.List.Forall2
/-!
# C79, C102: notebook export
-/

namespace Trappy
open Py Re

/-! ## Specification -/

/-- **Specification**: the text in quotes between `opening` and `closing` occurs after `pre` -/
def QuotedAt (opening closing line pre p : Str) : Prop := ∃ post, line = pre ++ (opening ++ (p ++ (closing ++ post))) ∧ p ≠ [] ∧ '"' ∉ p

/-- **Specification**: the first such text -/
def Quoted (opening closing line p : Str) : Prop := ∃ pre, QuotedAt opening closing line pre p ∧ ∀ pre' p', QuotedAt opening closing line pre' p' → pre.length ≤ pre'.length

/-- **Specification**: a line that imports a script -/
def Imports (base line file : Str) : Prop := ∃ p, Quoted cs!"/* TRAPPY_PUBLISH_IMPORT = \"" cs!"\" */" line p ∧ file = pathJoin base p

/-- **Specification**: a line that loads a library, and does not import a script -/
def Loads (line url : Str) : Prop :=
  (¬ ∃ p, Quoted cs!"/* TRAPPY_PUBLISH_IMPORT = \"" cs!"\" */" line p) ∧ Quoted cs!"<!-- TRAPPY_PUBLISH_SOURCE_LIB = \"" cs!"\" -->" line url

/-- **Specification**: the lines of an output that are not removed; the flag says whether the text is being removed -/
inductive Visible : Bool → List Str → List Str → Prop where
  | nil {b} : Visible b [] []
  | start {b l ls v} (h : cs!"/* TRAPPY_PUBLISH_REMOVE_START */" <:+: l) (hs : Visible true ls v) : Visible b (l :: ls) v
  | stop {b l ls v} (h1 : ¬ cs!"/* TRAPPY_PUBLISH_REMOVE_START */" <:+: l) (h : cs!"/* TRAPPY_PUBLISH_REMOVE_STOP */" <:+: l) (hs : Visible false ls v) : Visible b (l :: ls) v
  | hidden {b l ls v} (h1 : ¬ cs!"/* TRAPPY_PUBLISH_REMOVE_START */" <:+: l) (h2 : ¬ cs!"/* TRAPPY_PUBLISH_REMOVE_STOP */" <:+: l)
      (h : b = true ∨ cs!"/* TRAPPY_PUBLISH_REMOVE_LINE */" <:+: l) (hs : Visible b ls v) : Visible b (l :: ls) v
  | shown {l ls v} (h1 : ¬ cs!"/* TRAPPY_PUBLISH_REMOVE_START */" <:+: l) (h2 : ¬ cs!"/* TRAPPY_PUBLISH_REMOVE_STOP */" <:+: l)
      (h3 : ¬ cs!"/* TRAPPY_PUBLISH_REMOVE_LINE */" <:+: l) (hs : Visible false ls v) : Visible false (l :: ls) (l :: v)

/-- **Specification**: the lines of a file whose last line may lack its newline; then that line lacks its last character -/
def CutLines (contents : Str) (lines : List Str) : Prop :=
  (∀ l ∈ lines, '\n' ∉ l) ∧ (contents = (lines.map fun l => l ++ ['\n']).flatten ∨
    ∃ init last x, lines = init ++ [last] ∧ x ≠ '\n' ∧ contents = (init.map fun l => l ++ ['\n']).flatten ++ (last ++ [x]))

/-- **Specification**: what stands for a line in the output, given the lines shown before it in all outputs -/
inductive Piece (fs : Str → Option Str) (base : Str) (before : List Str) : Str → List Str → Prop where
  | script {l file contents ls} (h : Imports base l file) (hnew : ¬ ∃ b ∈ before, Imports base b file) (hf : fs file = some contents) (hls : CutLines contents ls) : Piece fs base before l ls
  | again {l file b} (h : Imports base l file) (hb : b ∈ before) (hold : Imports base b file) : Piece fs base before l []
  | lib {l url} (h : Loads l url) (hnew : ¬ ∃ b ∈ before, Loads b url) : Piece fs base before l [cs!"<script src=\"" ++ url ++ cs!"\" type=\"text/javascript\" charset=\"utf-8\"></script>"]
  | libAgain {l url b} (h : Loads l url) (hb : b ∈ before) (hold : Loads b url) : Piece fs base before l []
  | text {l} (h1 : ¬ ∃ file, Imports base l file) (h2 : ¬ ∃ url, Loads l url) : Piece fs base before l [l]

/-- **Specification**: the output for the lines shown -/
inductive Pieces (fs : Str → Option Str) (base : Str) : List Str → List Str → List Str → Prop where
  | nil {before} : Pieces fs base before [] []
  | cons {before l ls p out} (h : Piece fs base before l p) (hs : Pieces fs base (before ++ [l]) ls out) : Pieces fs base before (l :: ls) (p ++ out)

/-- **Specification**: one output after the other -/
inductive Exported (fs : Str → Option Str) (base : Str) : List Str → List Str → List Str → Prop where
  | nil {before} : Exported fs base before [] []
  | cons {before o os lines vis out rs} (ho : o = joinC '\n' lines) (hne : lines ≠ []) (hnl : ∀ l ∈ lines, '\n' ∉ l) (hv : Visible false lines vis) (hp : Pieces fs base before vis out)
      (hs : Exported fs base (before ++ vis) os rs) : Exported fs base before (o :: os) (joinC '\n' out :: rs)

/-! ## The regular expressions -/

theorem quotedAt_min {o c line pre p : Str} (h : QuotedAt o c line pre p) : ∃ p, Quoted o c line p := by
  have key : ∀ (n : Nat) (pre p : Str), pre.length = n → QuotedAt o c line pre p → ∃ p, Quoted o c line p := by
    intro n
    induction n using Nat.strongRecOn with
    | _ n ih =>
      intro pre p hn h
      by_cases hl : ∀ pre' p', QuotedAt o c line pre' p' → pre.length ≤ pre'.length
      · exact ⟨p, pre, h, hl⟩
      · simp only [Classical.not_forall, Nat.not_le] at hl
        obtain ⟨pre', p', h', hlt⟩ := hl
        exact ih pre'.length (by omega) pre' p' rfl h'
  exact key _ pre p rfl h

theorem matches_quoted {o c x : Str} (h : Matches (quotedRe o c) x) : ∃ p, x = o ++ (p ++ c) ∧ p ≠ [] ∧ '"' ∉ p := by
  obtain ⟨u, v, rfl, h1, h2⟩ := matches_seq h
  obtain ⟨w, y, rfl, h3, h4⟩ := matches_seq h2
  obtain ⟨hne, hp⟩ := matches_plus (matches_group h3)
  refine ⟨w, by rw [matches_str h1, matches_str h4], hne, ?_⟩
  intro h'
  have := hp _ h'
  simp [notQuote] at this

theorem search_quoted {o c line p : Str} (hc : c.head? = some '"') (h : Quoted o c line p) : searchGroup (quotedRe o c) line = some p := by
  obtain ⟨pre, ⟨post, e, hne, hq⟩, hmin⟩ := h
  have hm : matchPrefix (quotedRe o c) (o ++ (p ++ (c ++ post))) = some ([(1, p)], post) := by
    unfold matchPrefix quotedRe
    simp only [m]
    rw [m_str]
    apply m_plus_max p hne
    · intro y hy
      simp only [notQuote, bne_iff_ne, ne_eq]
      rintro rfl
      exact hq hy
    · intro y hy
      have : y = '"' := by
        cases c with
        | nil => cases hc
        | cons z c =>
          simp only [List.head?_cons, Option.some.injEq] at hc
          simp only [List.cons_append, List.head?_cons, Option.mem_def, Option.some.injEq] at hy
          rw [← hy, hc]
      subst this
      rfl
    · rw [m_str]
      have : (p ++ (c ++ post)).length - (c ++ post).length = p.length := by rw [List.length_append]; omega
      rw [this, List.take_left]
  have hs : search (quotedRe o c) line = some (0 + pre.length, [(1, p)], post) := by
    unfold search
    rw [e, searchFrom_skip]
    · exact searchFrom_hit _ hm
    · intro T1 T2 eT hT
      apply m_none_of
      intro a b e2 hmat
      obtain ⟨p', rfl, hne', hq'⟩ := matches_quoted hmat
      have h1 : QuotedAt o c line T1 p' := by
        refine ⟨b, ?_, hne', hq'⟩
        rw [e, eT, List.append_assoc, e2]
        simp
      have := hmin _ _ h1
      have : pre.length = T1.length + T2.length := by rw [eT, List.length_append]
      have := List.length_pos_iff.2 hT
      omega
  unfold searchGroup
  rw [hs]
  rfl

theorem search_quoted_none {o c line : Str} (h : ¬ ∃ p, Quoted o c line p) : searchGroup (quotedRe o c) line = none := by
  unfold searchGroup
  cases hs : search (quotedRe o c) line with
  | none => rfl
  | some r =>
    exfalso
    obtain ⟨i, cp, rest⟩ := r
    obtain ⟨pre, mid, e, _, hm, _⟩ := searchFrom_sound hs
    obtain ⟨p, rfl, hne, hq⟩ := matches_quoted hm
    apply h
    exact quotedAt_min (pre := pre) (p := p) ⟨rest, by rw [e]; simp, hne, hq⟩

theorem quoted_iff {o c line p : Str} (hc : c.head? = some '"') : searchGroup (quotedRe o c) line = some p ↔ Quoted o c line p := by
  constructor
  · intro h
    by_cases hq : ∃ p, Quoted o c line p
    · obtain ⟨p', hp'⟩ := hq
      rw [search_quoted hc hp'] at h
      cases h
      exact hp'
    · rw [search_quoted_none hq] at h
      cases h
  · exact search_quoted hc

theorem quoted_none {o c line : Str} (hc : c.head? = some '"') : searchGroup (quotedRe o c) line = none ↔ ¬ ∃ p, Quoted o c line p := by
  constructor
  · rintro h ⟨p, hp⟩
    rw [search_quoted hc hp] at h
    cases h
  · exact search_quoted_none

theorem imports_iff {base line file : Str} : Imports base line file ↔ ∃ p, searchGroup importRe line = some p ∧ file = pathJoin base p := by
  unfold Imports importRe
  simp only [quoted_iff (o := cs!"/* TRAPPY_PUBLISH_IMPORT = \"") (c := cs!"\" */") (line := line) rfl]

theorem loads_iff {line url : Str} : Loads line url ↔ searchGroup importRe line = none ∧ searchGroup sourceRe line = some url := by
  unfold Loads importRe sourceRe
  rw [quoted_iff rfl, quoted_none rfl]

/-! ## Files -/

theorem readLines_cut (contents : Str) : CutLines contents ((readLines contents).map List.dropLast) := by
  have key : ∀ s : Str, (readLines s = [] ∧ s = []) ∨
      (∃ ls : List Str, readLines s = ls.map (fun l => l ++ ['\n']) ∧ (∀ l ∈ ls, '\n' ∉ l) ∧ s = (ls.map fun l => l ++ ['\n']).flatten) ∨
      (∃ (ls : List Str) (last : Str) (x : Char), readLines s = ls.map (fun l => l ++ ['\n']) ++ [last ++ [x]] ∧ (∀ l ∈ ls, '\n' ∉ l) ∧ '\n' ∉ last ∧ x ≠ '\n' ∧
        s = (ls.map fun l => l ++ ['\n']).flatten ++ (last ++ [x])) := by
    intro s
    induction s with
    | nil => exact Or.inl ⟨rfl, rfl⟩
    | cons c s ih =>
      right
      unfold readLines
      by_cases hc : c = '\n'
      · subst hc
        simp only [if_true]
        rcases ih with ⟨h1, h2⟩ | ⟨ls, h1, h2, h3⟩ | ⟨ls, last, x, h1, h2, h3, h4, h5⟩
        · exact Or.inl ⟨[[]], by simp [h1], by simp, by simp [h2]⟩
        · exact Or.inl ⟨[] :: ls, by simp [h1], by simpa using h2, by simp [h3]⟩
        · exact Or.inr ⟨[] :: ls, last, x, by simp [h1], by simpa using h2, h3, h4, by simp [h5]⟩
      · simp only [if_neg hc]
        have hc' : '\n' ≠ c := Ne.symm hc
        rcases ih with ⟨h1, h2⟩ | ⟨ls, h1, h2, h3⟩ | ⟨ls, last, x, h1, h2, h3, h4, h5⟩
        · exact Or.inr ⟨[], [], c, by simp [h1], by simp, by simp, hc, by simp [h2]⟩
        · cases ls with
          | nil =>
            simp only [List.map_nil] at h1
            exact Or.inr ⟨[], [], c, by simp [h1], by simp, by simp, hc, by simp [h3]⟩
          | cons l ls =>
            left
            refine ⟨(c :: l) :: ls, by simp [h1], ?_, by simp [h3]⟩
            intro y hy
            rcases List.mem_cons.1 hy with rfl | hy
            · simp only [List.mem_cons, not_or]
              exact ⟨hc', h2 l List.mem_cons_self⟩
            · exact h2 y (List.mem_cons_of_mem _ hy)
        · right
          cases ls with
          | nil => exact ⟨[], c :: last, x, by simp [h1], by simp, by simp [h3, hc'], h4, by simp [h5]⟩
          | cons l ls =>
            refine ⟨(c :: l) :: ls, last, x, by simp [h1], ?_, h3, h4, by simp [h5]⟩
            intro y hy
            rcases List.mem_cons.1 hy with rfl | hy
            · simp only [List.mem_cons, not_or]
              exact ⟨hc', h2 l List.mem_cons_self⟩
            · exact h2 y (List.mem_cons_of_mem _ hy)
  have hdl : ∀ ls : List Str, (ls.map (fun l => l ++ ['\n'])).map List.dropLast = ls := by
    intro ls
    rw [List.map_map]
    conv => rhs; rw [← List.map_id ls]
    apply List.map_congr_left
    intro l _
    simp
  rcases key contents with ⟨h1, rfl⟩ | ⟨ls, h1, h2, h3⟩ | ⟨ls, last, x, h1, h2, h3, h4, h5⟩
  · rw [h1]
    exact ⟨by simp, Or.inl rfl⟩
  · rw [h1, hdl]
    exact ⟨h2, Or.inl h3⟩
  · rw [h1, List.map_append, hdl]
    simp only [List.map_cons, List.map_nil, List.dropLast_concat]
    refine ⟨?_, Or.inr ⟨ls, last, x, rfl, h4, h5⟩⟩
    intro l hl
    rcases List.mem_append.1 hl with hl | hl
    · exact h2 l hl
    · rw [List.mem_singleton] at hl
      subst hl
      exact h3

/-! ## C79 -/

/-- the attributes of the preprocessor are what was shown before -/
structure ExportInv (base : Str) (before : List Str) (st : ExportState) : Prop where
  inlined : ∀ file, file ∈ st.inlined ↔ ∃ b ∈ before, Imports base b file
  sourced : ∀ url, url ∈ st.sourced ↔ ∃ b ∈ before, Loads b url

theorem exportInv_other {base : Str} {before : List Str} {st : ExportState} {l : Str} (h : ExportInv base before st)
    (h1 : ∀ file, Imports base l file → file ∈ st.inlined) (h2 : ∀ url, Loads l url → url ∈ st.sourced) : ExportInv base (before ++ [l]) st := by
  constructor
  · intro file
    rw [h.inlined]
    constructor
    · rintro ⟨b, hb, hi⟩
      exact ⟨b, by simp [hb], hi⟩
    · rintro ⟨b, hb, hi⟩
      rcases List.mem_append.1 hb with hb | hb
      · exact ⟨b, hb, hi⟩
      · rw [List.mem_singleton] at hb
        subst hb
        exact (h.inlined file).1 (h1 file hi)
  · intro url
    rw [h.sourced]
    constructor
    · rintro ⟨b, hb, hi⟩
      exact ⟨b, by simp [hb], hi⟩
    · rintro ⟨b, hb, hi⟩
      rcases List.mem_append.1 hb with hb | hb
      · exact ⟨b, hb, hi⟩
      · rw [List.mem_singleton] at hb
        subst hb
        exact (h.sourced url).1 (h2 url hi)

theorem filterLines_spec {fs : Str → Option Str} {base : Str} {removing : Bool} {before : List Str} {st : ExportState} {lines : List Str} {out : List Str} {st' : ExportState}
    (h : ExportInv base before st) (hr : filterLines fs base removing st lines = some (out, st')) :
    ∃ vis, Visible removing lines vis ∧ Pieces fs base before vis out ∧ ExportInv base (before ++ vis) st' := by
  induction lines generalizing removing before st out with
  | nil =>
    simp only [filterLines, Option.some.injEq, Prod.mk.injEq] at hr
    obtain ⟨rfl, rfl⟩ := hr
    exact ⟨[], .nil, .nil, by simpa using h⟩
  | cons line lines ih =>
    unfold filterLines at hr
    by_cases hstart : contains removeStart line = true
    · rw [if_pos hstart] at hr
      obtain ⟨vis, h1, h2, h3⟩ := ih h hr
      exact ⟨vis, .start ((contains_iff _ _).1 hstart) h1, h2, h3⟩
    rw [if_neg hstart] at hr
    have n1 : ¬ cs!"/* TRAPPY_PUBLISH_REMOVE_START */" <:+: line := fun h => hstart ((contains_iff _ _).2 h)
    by_cases hstop : contains removeStop line = true
    · rw [if_pos hstop] at hr
      obtain ⟨vis, h1, h2, h3⟩ := ih h hr
      exact ⟨vis, .stop n1 ((contains_iff _ _).1 hstop) h1, h2, h3⟩
    rw [if_neg hstop] at hr
    have n2 : ¬ cs!"/* TRAPPY_PUBLISH_REMOVE_STOP */" <:+: line := fun h => hstop ((contains_iff _ _).2 h)
    by_cases hrem : (removing || contains removeLine line) = true
    · rw [if_pos hrem] at hr
      obtain ⟨vis, h1, h2, h3⟩ := ih h hr
      refine ⟨vis, .hidden n1 n2 ?_ h1, h2, h3⟩
      rw [Bool.or_eq_true] at hrem
      rcases hrem with h | h
      · exact Or.inl h
      · exact Or.inr ((contains_iff _ _).1 h)
    rw [if_neg hrem] at hr
    have hf : removing = false := by
      cases removing with
      | false => rfl
      | true => simp at hrem
    have n3 : ¬ cs!"/* TRAPPY_PUBLISH_REMOVE_LINE */" <:+: line := fun h => hrem (by rw [Bool.or_eq_true]; exact Or.inr ((contains_iff _ _).2 h))
    subst hf
    -- a line that is shown
    have finish : ∀ {st1 : ExportState} {p out1 : List Str}, Piece fs base before line p → ExportInv base (before ++ [line]) st1 →
        filterLines fs base false st1 lines = some (out1, st') → out = p ++ out1 →
        ∃ vis, Visible false (line :: lines) vis ∧ Pieces fs base before vis out ∧ ExportInv base (before ++ vis) st' := by
      rintro st1 p out1 hp hinv hrun rfl
      obtain ⟨vis, h1, h2, h3⟩ := ih hinv hrun
      exact ⟨line :: vis, .shown n1 n2 n3 h1, .cons hp h2, by simpa using h3⟩
    cases himp : searchGroup importRe line with
    | some p =>
      rw [himp] at hr
      simp only at hr
      have hi : Imports base line (pathJoin base p) := imports_iff.2 ⟨p, himp, rfl⟩
      have hno : ∀ url, ¬ Loads line url := by
        intro url hl
        have := (loads_iff.1 hl).1
        rw [himp] at this
        cases this
      have huniq : ∀ file, Imports base line file → file = pathJoin base p := by
        intro file hfile
        obtain ⟨p', h1, h2⟩ := imports_iff.1 hfile
        rw [himp] at h1
        cases h1
        exact h2
      by_cases hin : pathJoin base p ∈ st.inlined
      · rw [if_pos hin] at hr
        obtain ⟨b, hb, hold⟩ := (h.inlined _).1 hin
        exact finish (.again hi hb hold) (exportInv_other h (fun file hfile => huniq file hfile ▸ hin) (fun url hl => absurd hl (hno url))) hr rfl
      · rw [if_neg hin] at hr
        cases hfs : fs (pathJoin base p) with
        | none => rw [hfs] at hr; cases hr
        | some contents =>
          rw [hfs] at hr
          simp only [Option.map_eq_some_iff, Prod.mk.injEq, Prod.exists] at hr
          obtain ⟨out1, st1, hrun, e, rfl⟩ := hr
          refine finish (.script hi (fun hex => hin ((h.inlined _).2 hex)) hfs (readLines_cut contents)) ?_ hrun e.symm
          constructor
          · intro file
            simp only [List.mem_append, List.mem_singleton]
            rw [h.inlined]
            constructor
            · rintro (⟨b, hb, hold⟩ | rfl)
              · exact ⟨b, Or.inl hb, hold⟩
              · exact ⟨line, Or.inr rfl, hi⟩
            · rintro ⟨b, hb | rfl, hold⟩
              · exact Or.inl ⟨b, hb, hold⟩
              · exact Or.inr (huniq file hold)
          · intro url
            simp only [List.mem_append, List.mem_singleton]
            rw [h.sourced]
            constructor
            · rintro ⟨b, hb, hold⟩
              exact ⟨b, Or.inl hb, hold⟩
            · rintro ⟨b, hb | rfl, hold⟩
              · exact ⟨b, hb, hold⟩
              · exact absurd hold (hno url)
    | none =>
      rw [himp] at hr
      simp only at hr
      have hnoi : ∀ file, ¬ Imports base line file := by
        intro file hi
        obtain ⟨p, h1, _⟩ := imports_iff.1 hi
        rw [himp] at h1
        cases h1
      cases hsrc : searchGroup sourceRe line with
      | some url =>
        rw [hsrc] at hr
        simp only at hr
        have hl : Loads line url := loads_iff.2 ⟨himp, hsrc⟩
        have huniq : ∀ u, Loads line u → u = url := by
          intro u hu
          have := (loads_iff.1 hu).2
          rw [hsrc] at this
          cases this
          rfl
        by_cases hin : url ∈ st.sourced
        · rw [if_pos hin] at hr
          obtain ⟨b, hb, hold⟩ := (h.sourced _).1 hin
          exact finish (.libAgain hl hb hold) (exportInv_other h (fun file hi => absurd hi (hnoi file)) (fun u hu => huniq u hu ▸ hin)) hr rfl
        · rw [if_neg hin] at hr
          simp only [Option.map_eq_some_iff, Prod.mk.injEq, Prod.exists] at hr
          obtain ⟨out1, st1, hrun, e, rfl⟩ := hr
          refine finish (.lib hl (fun hex => hin ((h.sourced _).2 hex))) ?_ hrun (by rw [← e]; rfl)
          constructor
          · intro file
            simp only [List.mem_append, List.mem_singleton]
            rw [h.inlined]
            constructor
            · rintro ⟨b, hb, hold⟩
              exact ⟨b, Or.inl hb, hold⟩
            · rintro ⟨b, hb | rfl, hold⟩
              · exact ⟨b, hb, hold⟩
              · exact absurd hold (hnoi file)
          · intro u
            simp only [List.mem_append, List.mem_singleton]
            rw [h.sourced]
            constructor
            · rintro (⟨b, hb, hold⟩ | rfl)
              · exact ⟨b, Or.inl hb, hold⟩
              · exact ⟨line, Or.inr rfl, hl⟩
            · rintro ⟨b, hb | rfl, hold⟩
              · exact Or.inl ⟨b, hb, hold⟩
              · exact Or.inr (huniq u hold)
      | none =>
        rw [hsrc] at hr
        simp only [Option.map_eq_some_iff, Prod.mk.injEq, Prod.exists] at hr
        obtain ⟨out1, st1, hrun, e, rfl⟩ := hr
        have hnol : ∀ url, ¬ Loads line url := by
          intro url hl
          have := (loads_iff.1 hl).2
          rw [hsrc] at this
          cases this
        exact finish (.text (fun ⟨f, hf⟩ => hnoi f hf) (fun ⟨u, hu⟩ => hnol u hu))
          (exportInv_other h (fun file hi => absurd hi (hnoi file)) (fun u hu => absurd hu (hnol u))) hrun (by rw [← e]; rfl)

theorem splitOn_lines (s : Str) : s = joinC '\n' (splitOn '\n' s) ∧ splitOn '\n' s ≠ [] ∧ ∀ l ∈ splitOn '\n' s, '\n' ∉ l := by
  induction s with
  | nil => refine ⟨rfl, by simp [splitOn], by simp [splitOn]⟩
  | cons c s ih =>
    obtain ⟨h1, h2, h3⟩ := ih
    unfold splitOn
    by_cases hc : c = '\n'
    · subst hc
      simp only [beq_self_eq_true, if_true]
      refine ⟨?_, by simp, ?_⟩
      · cases hs : splitOn '\n' s with
        | nil => exact absurd hs h2
        | cons w ws =>
          rw [hs] at h1
          simp only [joinC, List.nil_append]
          rw [← h1]
      · intro l hl
        rcases List.mem_cons.1 hl with rfl | hl
        · simp
        · exact h3 l hl
    · have hcb : (c == '\n') = false := by simpa using hc
      simp only [hcb, Bool.false_eq_true, if_false]
      cases hs : splitOn '\n' s with
      | nil => exact absurd hs h2
      | cons w ws =>
        rw [hs] at h1 h3
        simp only
        refine ⟨?_, by simp, ?_⟩
        · cases ws with
          | nil => simp only [joinC] at h1 ⊢; rw [h1]
          | cons v ws => simp only [joinC, List.cons_append] at h1 ⊢; rw [← h1]
        · intro l hl
          rcases List.mem_cons.1 hl with rfl | hl
          · simp only [List.mem_cons, not_or]
            exact ⟨Ne.symm hc, h3 w List.mem_cons_self⟩
          · exact h3 l (List.mem_cons_of_mem _ hl)

theorem exportAll_spec {fs : Str → Option Str} {base : Str} {before : List Str} {st : ExportState} {outputs results : List Str} (h : ExportInv base before st)
    (hr : exportAll fs base st outputs = some results) : Exported fs base before outputs results := by
  induction outputs generalizing before st results with
  | nil =>
    cases hr
    exact .nil
  | cons o os ih =>
    unfold exportAll at hr
    cases hf : filterOutput fs base st o with
    | none => rw [hf] at hr; cases hr
    | some x =>
      obtain ⟨r, st'⟩ := x
      rw [hf] at hr
      simp only [Option.map_eq_some_iff] at hr
      obtain ⟨rs, hrs, rfl⟩ := hr
      unfold filterOutput at hf
      simp only [Option.map_eq_some_iff, Prod.mk.injEq, Prod.exists] at hf
      obtain ⟨out, st1, hrun, rfl, rfl⟩ := hf
      obtain ⟨vis, h1, h2, h3⟩ := filterLines_spec h hrun
      obtain ⟨e1, e2, e3⟩ := splitOn_lines o
      exact .cons e1 e2 e3 h1 h2 (ih h3 hrs)

theorem exportInv_nil (base : Str) : ExportInv base [] ⟨[], []⟩ := ⟨by simp, by simp⟩

/-- **C79.** The lines that remain are exactly those not between remove markers and not marked; ordinary lines stay as they are and in order; a line that imports a script or loads a library stands for it
if no line shown before it, in this output or an earlier one, did so for the same one, and for nothing otherwise. For all outputs of a notebook and all files. -/
theorem C79_export {fs : Str → Option Str} {base : Str} {outputs results : List Str} (h : exportAll fs base ⟨[], []⟩ outputs = some results) : Exported fs base [] outputs results :=
  exportAll_spec (exportInv_nil base) h

theorem imports_unique {base l f f' : Str} (h : Imports base l f) (h' : Imports base l f') : f = f' := by
  obtain ⟨p, h1, rfl⟩ := imports_iff.1 h
  obtain ⟨p', h2, rfl⟩ := imports_iff.1 h'
  rw [h1] at h2
  cases h2
  rfl

theorem loads_unique {l u u' : Str} (h : Loads l u) (h' : Loads l u') : u = u' := by
  have h1 := (loads_iff.1 h).2
  rw [(loads_iff.1 h').2] at h1
  cases h1
  rfl

theorem not_both {base l f u : Str} (h : Imports base l f) (h' : Loads l u) : False := by
  obtain ⟨p, h1, _⟩ := imports_iff.1 h
  rw [(loads_iff.1 h').1] at h1
  cases h1

/-- **C79 (once).** A script or library that a line shown before already stood for is not emitted again; a line that is neither is itself. -/
theorem C79_once {fs : Str → Option Str} {base l : Str} {before ps : List Str} (h : Piece fs base before l ps) :
    (∀ file, Imports base l file → (∃ b ∈ before, Imports base b file) → ps = []) ∧ (∀ url, Loads l url → (∃ b ∈ before, Loads b url) → ps = []) ∧
    ((¬ ∃ file, Imports base l file) → (¬ ∃ url, Loads l url) → ps = [l]) := by
  cases h with
  | script hi hnew hf hls =>
    refine ⟨fun f hf' hex => absurd (imports_unique hi hf' ▸ hex) hnew, fun u hu _ => (not_both hi hu).elim, fun h1 _ => absurd ⟨_, hi⟩ h1⟩
  | again hi hb hold => exact ⟨fun _ _ _ => rfl, fun _ _ _ => rfl, fun h1 _ => absurd ⟨_, hi⟩ h1⟩
  | lib hl hnew => exact ⟨fun f hf _ => (not_both hf hl).elim, fun u hu hex => absurd (loads_unique hl hu ▸ hex) hnew, fun _ h2 => absurd ⟨_, hl⟩ h2⟩
  | libAgain hl hb hold => exact ⟨fun _ _ _ => rfl, fun _ _ _ => rfl, fun _ h2 => absurd ⟨_, hl⟩ h2⟩
  | text h1 h2 => exact ⟨fun f hf _ => absurd ⟨f, hf⟩ h1, fun u hu _ => absurd ⟨u, hu⟩ h2, fun _ _ => rfl⟩

theorem visible_unique {b : Bool} {ls v v' : List Str} (h : Visible b ls v) (h' : Visible b ls v') : v = v' := by
  induction h generalizing v' with
  | nil => cases h'; rfl
  | start h _ ih =>
    cases h' with
    | start _ hs => exact ih hs
    | stop h1 _ _ => exact absurd h h1
    | hidden h1 _ _ _ => exact absurd h h1
    | shown h1 _ _ _ => exact absurd h h1
  | stop h1 h _ ih =>
    cases h' with
    | start h' _ => exact absurd h' h1
    | stop _ _ hs => exact ih hs
    | hidden _ h2 _ _ => exact absurd h h2
    | shown _ h2 _ _ => exact absurd h h2
  | hidden h1 h2 h _ ih =>
    cases h' with
    | start h' _ => exact absurd h' h1
    | stop _ h' _ => exact absurd h' h2
    | hidden _ _ _ hs => exact ih hs
    | shown _ _ h3 _ =>
      rcases h with h | h
      · cases h
      · exact absurd h h3
  | shown h1 h2 h3 _ ih =>
    cases h' with
    | start h' _ => exact absurd h' h1
    | stop _ h' _ => exact absurd h' h2
    | hidden _ _ h _ =>
      rcases h with h | h
      · cases h
      · exact absurd h h3
    | shown _ _ _ hs => rw [ih hs]

theorem filterLines_none {fs : Str → Option Str} {base : Str} {removing : Bool} {st : ExportState} {lines : List Str} (hst : ∀ f ∈ st.inlined, fs f ≠ none) :
    (filterLines fs base removing st lines = none ↔ ∃ vis, Visible removing lines vis ∧ ∃ l ∈ vis, ∃ file, Imports base l file ∧ fs file = none) ∧
    (∀ out st', filterLines fs base removing st lines = some (out, st') → ∀ f ∈ st'.inlined, fs f ≠ none) := by
  induction lines generalizing removing st with
  | nil =>
    refine ⟨⟨fun h => (by cases h), ?_⟩, ?_⟩
    · rintro ⟨vis, hv, l, hl, _⟩
      cases hv
      cases hl
    · intro out st' h
      simp only [filterLines, Option.some.injEq, Prod.mk.injEq] at h
      rw [← h.2]
      exact hst
  | cons line lines ih =>
    unfold filterLines
    by_cases hstart : contains removeStart line = true
    · rw [if_pos hstart]
      obtain ⟨ih1, ih2⟩ := ih (removing := true) hst
      refine ⟨?_, ih2⟩
      rw [ih1]
      constructor
      · rintro ⟨vis, hv, hx⟩
        exact ⟨vis, .start ((contains_iff _ _).1 hstart) hv, hx⟩
      · rintro ⟨vis, hv, hx⟩
        cases hv with
        | start _ hs => exact ⟨vis, hs, hx⟩
        | stop h1 _ _ => exact absurd ((contains_iff _ _).1 hstart) h1
        | hidden h1 _ _ _ => exact absurd ((contains_iff _ _).1 hstart) h1
        | shown h1 _ _ _ => exact absurd ((contains_iff _ _).1 hstart) h1
    rw [if_neg hstart]
    have n1 : ¬ cs!"/* TRAPPY_PUBLISH_REMOVE_START */" <:+: line := fun h => hstart ((contains_iff _ _).2 h)
    by_cases hstop : contains removeStop line = true
    · rw [if_pos hstop]
      obtain ⟨ih1, ih2⟩ := ih (removing := false) hst
      refine ⟨?_, ih2⟩
      rw [ih1]
      constructor
      · rintro ⟨vis, hv, hx⟩
        exact ⟨vis, .stop n1 ((contains_iff _ _).1 hstop) hv, hx⟩
      · rintro ⟨vis, hv, hx⟩
        cases hv with
        | start h _ => exact absurd h n1
        | stop _ _ hs => exact ⟨vis, hs, hx⟩
        | hidden _ h2 _ _ => exact absurd ((contains_iff _ _).1 hstop) h2
        | shown _ h2 _ _ => exact absurd ((contains_iff _ _).1 hstop) h2
    rw [if_neg hstop]
    have n2 : ¬ cs!"/* TRAPPY_PUBLISH_REMOVE_STOP */" <:+: line := fun h => hstop ((contains_iff _ _).2 h)
    by_cases hrem : (removing || contains removeLine line) = true
    · rw [if_pos hrem]
      obtain ⟨ih1, ih2⟩ := ih (removing := removing) hst
      refine ⟨?_, ih2⟩
      have hr : removing = true ∨ cs!"/* TRAPPY_PUBLISH_REMOVE_LINE */" <:+: line := by
        rw [Bool.or_eq_true] at hrem
        rcases hrem with h | h
        · exact Or.inl h
        · exact Or.inr ((contains_iff _ _).1 h)
      rw [ih1]
      constructor
      · rintro ⟨vis, hv, hx⟩
        exact ⟨vis, .hidden n1 n2 hr hv, hx⟩
      · rintro ⟨vis, hv, hx⟩
        cases hv with
        | start h _ => exact absurd h n1
        | stop _ h _ => exact absurd h n2
        | hidden _ _ _ hs => exact ⟨vis, hs, hx⟩
        | shown _ _ h3 _ =>
          rcases hr with h | h
          · cases h
          · exact absurd h h3
    rw [if_neg hrem]
    have hf : removing = false := by
      cases removing with
      | false => rfl
      | true => simp at hrem
    have n3 : ¬ cs!"/* TRAPPY_PUBLISH_REMOVE_LINE */" <:+: line := fun h => hrem (by rw [Bool.or_eq_true]; exact Or.inr ((contains_iff _ _).2 h))
    subst hf
    have shown_iff : (∃ vis, Visible false (line :: lines) vis ∧ ∃ l ∈ vis, ∃ file, Imports base l file ∧ fs file = none) ↔
        (∃ file, Imports base line file ∧ fs file = none) ∨ ∃ vis, Visible false lines vis ∧ ∃ l ∈ vis, ∃ file, Imports base l file ∧ fs file = none := by
      constructor
      · rintro ⟨vis, hv, l, hl, hx⟩
        cases hv with
        | start h _ => exact absurd h n1
        | stop _ h _ => exact absurd h n2
        | hidden _ _ h _ =>
          rcases h with h | h
          · cases h
          · exact absurd h n3
        | shown _ _ _ hs =>
          rcases List.mem_cons.1 hl with rfl | hl
          · exact Or.inl hx
          · exact Or.inr ⟨_, hs, l, hl, hx⟩
      · rintro (hx | ⟨vis, hv, l, hl, hx⟩)
        · have : ∀ (b : Bool) (ls : List Str), ∃ vis, Visible b ls vis := by
            intro b ls
            induction ls generalizing b with
            | nil => exact ⟨[], .nil⟩
            | cons x ls ih =>
              by_cases h1 : cs!"/* TRAPPY_PUBLISH_REMOVE_START */" <:+: x
              · obtain ⟨v, hv⟩ := ih true
                exact ⟨v, .start h1 hv⟩
              · by_cases h2 : cs!"/* TRAPPY_PUBLISH_REMOVE_STOP */" <:+: x
                · obtain ⟨v, hv⟩ := ih false
                  exact ⟨v, .stop h1 h2 hv⟩
                · by_cases h3 : b = true ∨ cs!"/* TRAPPY_PUBLISH_REMOVE_LINE */" <:+: x
                  · obtain ⟨v, hv⟩ := ih b
                    exact ⟨v, .hidden h1 h2 h3 hv⟩
                  · simp only [not_or, Bool.not_eq_true] at h3
                    obtain ⟨v, hv⟩ := ih b
                    rw [h3.1] at hv ⊢
                    exact ⟨x :: v, .shown h1 h2 h3.2 hv⟩
          obtain ⟨vis, hv⟩ := this false lines
          exact ⟨line :: vis, .shown n1 n2 n3 hv, line, List.mem_cons_self, hx⟩
        · exact ⟨line :: vis, .shown n1 n2 n3 hv, l, List.mem_cons_of_mem _ hl, hx⟩
    rw [shown_iff]
    cases himp : searchGroup importRe line with
    | some p =>
      simp only
      have hi : Imports base line (pathJoin base p) := imports_iff.2 ⟨p, himp, rfl⟩
      have hline : (∃ file, Imports base line file ∧ fs file = none) ↔ fs (pathJoin base p) = none := by
        constructor
        · rintro ⟨f, h1, h2⟩
          rw [imports_unique hi h1]
          exact h2
        · intro h
          exact ⟨_, hi, h⟩
      rw [hline]
      by_cases hin : pathJoin base p ∈ st.inlined
      · rw [if_pos hin]
        obtain ⟨ih1, ih2⟩ := ih (removing := false) hst
        refine ⟨?_, ih2⟩
        rw [ih1]
        constructor
        · exact Or.inr
        · rintro (h | h)
          · exact absurd h (hst _ hin)
          · exact h
      · rw [if_neg hin]
        cases hfs : fs (pathJoin base p) with
        | none => simp
        | some contents =>
          have hst' : ∀ f ∈ ({ st with inlined := st.inlined ++ [pathJoin base p] } : ExportState).inlined, fs f ≠ none := by
            intro f hf
            rcases List.mem_append.1 hf with hf | hf
            · exact hst f hf
            · rw [List.mem_singleton] at hf
              rw [hf, hfs]
              simp
          obtain ⟨ih1, ih2⟩ := ih (removing := false) hst'
          simp only [Option.map_eq_none_iff, reduceCtorEq, false_or]
          refine ⟨ih1, ?_⟩
          intro out st' h
          simp only [Option.map_eq_some_iff, Prod.mk.injEq, Prod.exists] at h
          obtain ⟨o, s, h1, _, rfl⟩ := h
          exact ih2 _ _ h1
    | none =>
      simp only
      have hline : ¬ ∃ file, Imports base line file ∧ fs file = none := by
        rintro ⟨f, h1, _⟩
        obtain ⟨p, h2, _⟩ := imports_iff.1 h1
        rw [himp] at h2
        cases h2
      simp only [hline, false_or]
      cases hsrc : searchGroup sourceRe line with
      | some url =>
        simp only
        by_cases hin : url ∈ st.sourced
        · rw [if_pos hin]
          exact ih (removing := false) hst
        · rw [if_neg hin]
          obtain ⟨ih1, ih2⟩ := ih (removing := false) (st := { st with sourced := st.sourced ++ [url] }) hst
          simp only [Option.map_eq_none_iff]
          refine ⟨ih1, ?_⟩
          intro out st' h
          simp only [Option.map_eq_some_iff, Prod.mk.injEq, Prod.exists] at h
          obtain ⟨o, s, h1, _, rfl⟩ := h
          exact ih2 _ _ h1
      | none =>
        obtain ⟨ih1, ih2⟩ := ih (removing := false) hst
        simp only [Option.map_eq_none_iff]
        refine ⟨ih1, ?_⟩
        intro out st' h
        simp only [Option.map_eq_some_iff, Prod.mk.injEq, Prod.exists] at h
        obtain ⟨o, s, h1, _, rfl⟩ := h
        exact ih2 _ _ h1

theorem exportAll_none {fs : Str → Option Str} {base : Str} {st : ExportState} {outputs : List Str} (hst : ∀ f ∈ st.inlined, fs f ≠ none) :
    exportAll fs base st outputs = none ↔ ∃ o ∈ outputs, ∃ vis, Visible false (splitOn '\n' o) vis ∧ ∃ l ∈ vis, ∃ file, Imports base l file ∧ fs file = none := by
  induction outputs generalizing st with
  | nil => simp [exportAll]
  | cons o os ih =>
    obtain ⟨h1, h2⟩ := filterLines_none (base := base) (removing := false) (lines := splitOn '\n' o) hst
    unfold exportAll filterOutput
    cases hf : filterLines fs base false st (splitOn '\n' o) with
    | none =>
      simp only [Option.map_none, true_iff]
      exact ⟨o, List.mem_cons_self, h1.1 hf⟩
    | some x =>
      obtain ⟨out, st'⟩ := x
      simp only [Option.map_some, Option.map_eq_none_iff]
      rw [ih (h2 _ _ hf)]
      constructor
      · rintro ⟨o', ho, hx⟩
        exact ⟨o', List.mem_cons_of_mem _ ho, hx⟩
      · rintro ⟨o', ho, hx⟩
        rcases List.mem_cons.1 ho with rfl | ho
        · rw [h1.2 hx] at hf
          cases hf
        · exact ⟨o', ho, hx⟩

/-- **C79 (missing files).** The export fails exactly if a line that is shown imports a file that cannot be read. -/
theorem C79_missing (fs : Str → Option Str) (base : Str) (outputs : List Str) :
    exportAll fs base ⟨[], []⟩ outputs = none ↔
      ∃ o ∈ outputs, ∃ lines, lines ≠ [] ∧ o = joinC '\n' lines ∧ (∀ l ∈ lines, '\n' ∉ l) ∧ ∃ vis, Visible false lines vis ∧ ∃ l ∈ vis, ∃ file, Imports base l file ∧ fs file = none := by
  rw [exportAll_none (by simp)]
  constructor
  · rintro ⟨o, ho, hx⟩
    obtain ⟨e1, e2, e3⟩ := splitOn_lines o
    exact ⟨o, ho, _, e2, e1, e3, hx⟩
  · rintro ⟨o, ho, lines, hne, rfl, hnl, hx⟩
    exact ⟨_, ho, by rw [splitOn_join hne hnl]; exact hx⟩

/-- a package with one script -/
def scriptFs (contents : Str) : Str → Option Str := fun f => if f = cs!"/trappy/plotter/js/X.js" then some contents else none

/-- C79: two outputs -/
example : exportAll (scriptFs cs!"var x;\nrun(x);\n") cs!"/trappy" ⟨[], []⟩
    [cs!"<div>\n/* TRAPPY_PUBLISH_REMOVE_START */\nrequire();\n/* TRAPPY_PUBLISH_REMOVE_STOP */\n/* TRAPPY_PUBLISH_IMPORT = \"plotter/js/X.js\" */\nx /* TRAPPY_PUBLISH_REMOVE_LINE */\n</div>",
     cs!"<!-- TRAPPY_PUBLISH_SOURCE_LIB = \"http://a\" -->\n/* TRAPPY_PUBLISH_IMPORT = \"plotter/js/X.js\" */\n<!-- TRAPPY_PUBLISH_SOURCE_LIB = \"http://a\" -->\nend"] =
    some [cs!"<div>\nvar x;\nrun(x);\n</div>", cs!"<script src=\"http://a\" type=\"text/javascript\" charset=\"utf-8\"></script>\nend"] := by decide +kernel

/-- `C79_missing` -/
example : exportAll (scriptFs []) cs!"/trappy" ⟨[], []⟩ [cs!"/* TRAPPY_PUBLISH_IMPORT = \"plotter/js/Y.js\" */"] = none := by decide +kernel

/-! ## C102 -/

theorem cut_unique {contents : Str} {ls : List Str} (h : CutLines contents ls) (hnl : contents = [] ∨ contents.getLast? = some '\n') : contents = (ls.map fun l => l ++ ['\n']).flatten := by
  rcases h.2 with h | ⟨init, last, x, _, hx, e⟩
  · exact h
  · exfalso
    rcases hnl with h | h
    · rw [h] at e
      simp at e
    · rw [e, ← List.append_assoc, List.getLast?_concat] at h
      exact hx (by simpa using h)

/-- **C102 (partial).** If a script is empty or ends with a newline, the lines emitted for it are exactly its lines. For all scripts. -/
theorem C102_complete_partial {fs : Str → Option Str} {base l file contents : Str} {before ps : List Str} (h : Piece fs base before l ps) (hi : Imports base l file) (hf : fs file = some contents)
    (hnew : ¬ ∃ b ∈ before, Imports base b file) (hnl : contents = [] ∨ contents.getLast? = some '\n') : contents = (ps.map fun l => l ++ ['\n']).flatten ∧ ∀ l ∈ ps, '\n' ∉ l := by
  cases h with
  | script hi' hn hf' hls =>
    have := imports_unique hi hi'
    subst this
    rw [hf] at hf'
    cases hf'
    exact ⟨cut_unique hls hnl, hls.1⟩
  | again hi' hb hold => exact absurd ⟨_, hb, imports_unique hi' hi ▸ hold⟩ hnew
  | lib hl _ => exact (not_both hi hl).elim
  | libAgain hl _ _ => exact (not_both hi hl).elim
  | text h1 _ => exact absurd ⟨_, hi⟩ h1

/-- **C102 (refuted).** A script that does not end with a newline loses its last character. -/
theorem C102_complete_refuted : exportAll (scriptFs cs!"run(x);") cs!"/trappy" ⟨[], []⟩ [cs!"/* TRAPPY_PUBLISH_IMPORT = \"plotter/js/X.js\" */"] = some [cs!"run(x)"] := by decide +kernel

/-- C102: a script that ends with a newline is complete (see also the example of C79) -/
example : exportAll (scriptFs cs!"a;\n\nb;\n") cs!"/trappy" ⟨[], []⟩ [cs!"/* TRAPPY_PUBLISH_IMPORT = \"plotter/js/X.js\" */"] = some [cs!"a;\n\nb;"] := by decide +kernel

end Trappy
