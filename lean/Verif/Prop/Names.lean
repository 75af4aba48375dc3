import Verif.Model.Names
import Verif.Prop.Grammar
import Verif.Prop.SuperIndex
/-!
# C108, C109, C110: names in expressions
-/

namespace Trappy
open Py

/-- **Specification**: a name: identifiers joined by dots -/
def DottedName (s : Str) : Prop := GTok.Plain (.name s)

/-- **Specification**: an identifier -/
def Identifier (s : Str) : Prop := DottedName s ∧ '.' ∉ s

theorem takeName_end {s : Str} (h : ∀ pre c post, s = pre ++ c :: post → isIdChar c = true ∨ (c = '.' ∧ ∃ d post', post = d :: post' ∧ isIdStart d = true)) :
    takeName s = (s, []) := by
  induction s with
  | nil => rfl
  | cons c s ih =>
    have ih := ih fun pre x post e => h (c :: pre) x post (by rw [e]; rfl)
    have h0 := h [] c s rfl
    cases s with
    | nil =>
      rcases h0 with h0 | ⟨_, d, post, e, _⟩
      · simp [takeName, h0]
      · cases e
    | cons d s =>
      rw [takeName, ih, if_pos]
      rcases h0 with h0 | ⟨h1, d', post, e, hd⟩
      · simp [h0]
      · simp only [List.cons.injEq] at e
        rw [h1, e.1]
        simp [hd]

theorem takeName_colon {s rest : Str} (h : ∀ pre c post, s = pre ++ c :: post → isIdChar c = true ∨ (c = '.' ∧ ∃ d post', post = d :: post' ∧ isIdStart d = true)) :
    takeName (s ++ ':' :: rest) = (s, ':' :: rest) := by
  have hcol : isIdChar ':' = false := by decide
  induction s with
  | nil =>
    cases rest with
    | nil => rfl
    | cons d rest => simp [takeName, hcol]
  | cons c s ih =>
    have ih := ih fun pre x post e => h (c :: pre) x post (by rw [e]; rfl)
    have h0 := h [] c s rfl
    cases s with
    | nil =>
      simp only [List.nil_append, List.cons_append] at ih ⊢
      rw [takeName, ih, if_pos]
      rcases h0 with h0 | ⟨_, d, post, e, _⟩
      · simp [h0]
      · cases e
    | cons d s =>
      simp only [List.cons_append] at ih ⊢
      rw [takeName, ih, if_pos]
      rcases h0 with h0 | ⟨h1, d', post, e, hd⟩
      · simp [h0]
      · simp only [List.cons.injEq] at e
        rw [h1, e.1]
        simp [hd]

theorem gSkip_name {c : Char} {s : Str} (h : isIdStart c = true) : gSkip (c :: s) = c :: s := by
  unfold gSkip
  rw [if_neg]
  rintro (rfl | rfl | rfl | rfl) <;> revert h <;> decide

theorem lex_name {s : Str} (h : DottedName s) (f : Nat) : gLexLoop (f + 2) s = [.name s] := by
  obtain ⟨⟨c, t, rfl, hc⟩, hs⟩ := h
  rw [gLexLoop, gSkip_name hc]
  simp only [gNext, hc, if_true, takeName_end hs]
  cases f <;> rfl

theorem lex_accessor {e c : Str} (he : DottedName e) (hc : DottedName c) : gLex (e ++ ':' :: c) = [.name e, .colon, .name c] := by
  have he' := he
  obtain ⟨⟨x, t, rfl, hx⟩, hs⟩ := he
  unfold gLex
  rw [gLexLoop, List.cons_append, gSkip_name hx]
  have := takeName_colon (rest := c) hs
  rw [List.cons_append] at this
  simp only [gNext, hx, if_true, this]
  have hlen : ∃ f, (x :: (t ++ ':' :: c)).length = f + 3 := by
    obtain ⟨⟨y, u, rfl, _⟩, _⟩ := hc
    exact ⟨t.length + u.length, by simp; omega⟩
  obtain ⟨f, hf⟩ := hlen
  rw [hf, show f + 3 = (f + 2) + 1 from rfl, gLexLoop]
  have hk : gSkip (':' :: c) = ':' :: c := by rfl
  rw [hk]
  have hn : gNext (':' :: c) = some (.colon, c) := by
    unfold gNext
    simp [show isIdStart ':' = false by decide, show isDigit ':' = false by decide]
  rw [hn]
  simp only
  rw [lex_name hc]

theorem cutName_plain {s : Str} (h : '.' ∉ s) : cutName s = (s, false) := by
  induction s with
  | nil => rfl
  | cons c s ih =>
    simp only [List.mem_cons, not_or] at h
    unfold cutName
    rw [if_neg (fun e => h.1 e.symm), ih h.2]

/-! ## C108 -/

/-- **C108 (partial).** Inspecting `event:column` gives the number of rows selected by the window and the filters, whether the event has the column, its pivot and, in increasing order, the values of the pivot
that occur in the selected rows. For all events that have their pivot column. -/
theorem C108_inspect_partial (o : GOpts) (env : GEnv) {e c : Str} (he : DottedName e) (hc : Identifier c) {ev : GEvent} (hev : gClass env e = .ok ev)
    (hp : ∀ p, ev.pivot = some p → p ∈ ev.columns) :
    ∃ info, gInspect o env (e ++ ':' :: c) = .ok (ev, info) ∧ info.length = (ev.rows.filter fun r => decide (Selected o ev.columns r)).length ∧
      info.column = c ∧ (info.present = true ↔ c ∈ ev.columns) ∧ info.pivot = ev.pivot ∧ (ev.pivot = none → info.pivotValues = none) ∧
      ∀ p, ev.pivot = some p → ∃ vs, info.pivotValues = some vs ∧ vs.Pairwise (· < ·) ∧ ∀ v, v ∈ vs ↔ ∃ r ∈ ev.rows, Selected o ev.columns r ∧ r.cells.get p = some v := by
  unfold gInspect
  rw [lex_accessor he hc.1]
  simp only [cutName_plain hc.2, hev, C65_selection]
  cases hpv : ev.pivot with
  | none =>
    refine ⟨_, rfl, rfl, rfl, by simp, rfl, fun _ => rfl, ?_⟩
    intro p h
    cases h
  | some p =>
    simp only [if_pos (hp p hpv)]
    refine ⟨_, rfl, rfl, rfl, by simp, rfl, ?_, ?_⟩
    · intro h
      cases h
    · intro q hq
      cases hq
      refine ⟨_, rfl, gUnique_sorted _, ?_⟩
      intro v
      rw [mem_gUnique, List.mem_filterMap]
      constructor
      · rintro ⟨r, hr, hv⟩
        rw [List.mem_filter] at hr
        exact ⟨r, hr.1, by simpa using hr.2, hv⟩
      · rintro ⟨r, hr, hs, hv⟩
        exact ⟨r, List.mem_filter.2 ⟨hr, by simpa using hs⟩, hv⟩

/-- **C108 (refuted).** Inspecting an event whose table is empty fails, instead of telling so, if the event has a pivot: an empty table has no columns. For all such events and all columns. -/
theorem C108_empty_refuted (o : GOpts) (env : GEnv) {e c p : Str} (he : DottedName e) (hc : Identifier c) (hev : gClass env e = .ok ⟨[], some p, []⟩) :
    gInspect o env (e ++ ':' :: c) = .error .pivot := by
  unfold gInspect
  rw [lex_accessor he hc.1]
  simp [hev]

/-- **C108 (unknown events).** An accessor of an event that nothing defines is an error. -/
theorem C108_unknown (o : GOpts) (env : GEnv) {e c : Str} (he : DottedName e) (hc : Identifier c) (h1 : env.pvars.get e = none) (h2 : env.classes.get e = none) (h3 : env.attrs.get e = none) :
    gInspect o env (e ++ ':' :: c) = .error .unknown := by
  unfold gInspect
  rw [lex_accessor he hc.1]
  simp [((C94_class env e).2).2 ⟨h1, h2, h3⟩]

/-- **C108 (dots).** A column has no dots: what follows the first dot is ignored, for all names. -/
theorem C108_dots (o : GOpts) (env : GEnv) {e c d : Str} (he : DottedName e) (hc : Identifier c) (hd : DottedName (c ++ '.' :: d)) :
    gInspect o env (e ++ ':' :: (c ++ '.' :: d)) = gInspect o env (e ++ ':' :: c) := by
  have hcut : (cutName (c ++ '.' :: d)).1 = c := by
    have h := hc.2
    clear hc hd
    induction c with
    | nil => rfl
    | cons x c ih =>
      simp only [List.mem_cons, not_or] at h
      rw [List.cons_append, cutName, if_neg (fun e => h.1 e.symm)]
      simp only [List.cons.injEq, true_and]
      exact ih h.2
  unfold gInspect
  rw [lex_accessor he hc.1, lex_accessor he hd]
  simp only [hcut, cutName_plain hc.2]

/-- C108: a column with a dot -/
example : gInspect ⟨0, none, [], true⟩ ⟨[], [(cs!"sched", ⟨[cs!"load"], none, []⟩)], []⟩ cs!"sched:load.avg" = .ok (⟨[cs!"load"], none, []⟩, ⟨none, none, 0, cs!"load", true⟩) := rfl

/-- C108: an event with a pivot, a window and two selected rows -/
example : gInspect ⟨2, none, [], true⟩ ⟨[], [(cs!"sched.x", ⟨[cs!"cpu", cs!"load"], some cs!"cpu", [⟨1, [(cs!"cpu", 7)]⟩, ⟨2, [(cs!"cpu", 3)]⟩, ⟨5, [(cs!"cpu", 1), (cs!"load", 9)]⟩]⟩)], []⟩ cs!"sched.x:load" =
    .ok (⟨[cs!"cpu", cs!"load"], some cs!"cpu", [⟨1, [(cs!"cpu", 7)]⟩, ⟨2, [(cs!"cpu", 3)]⟩, ⟨5, [(cs!"cpu", 1), (cs!"load", 9)]⟩]⟩, ⟨some cs!"cpu", some [1, 3], 2, cs!"load", true⟩) := rfl

/-- C108: an empty event -/
example : gInspect ⟨0, none, [], true⟩ ⟨[], [(cs!"sched", ⟨[], some cs!"cpu", []⟩)], []⟩ cs!"sched:load" = .error .pivot ∧
    gInspect ⟨0, none, [], true⟩ ⟨[], [(cs!"sched", ⟨[], none, []⟩)], []⟩ cs!"sched:load" = .ok (⟨[], none, []⟩, ⟨none, none, 0, cs!"load", false⟩) := ⟨rfl, rfl⟩

/-! ## C109 -/

/-- **Specification**: the identifiers that Python reads as floating point numbers -/
def FloatWord (s : Str) : Prop := lower s ∈ [cs!"nan", cs!"inf", cs!"infinity"]

theorem floatName_none {V G : Type} {s : Str} (h : ¬ FloatWord s) : floatName (V := V) (G := G) s = none := by
  simp only [FloatWord, List.mem_cons, List.not_mem_nil, or_false, not_or] at h
  unfold floatName
  rw [if_neg h.1, if_neg (by rintro (e | e); exacts [h.2.1 e, h.2.2 e])]

theorem solve_name {V : Type} (I : GInterp V) {s : Str} (h : Identifier s) : gSolveText I s = some (I.var s) := by
  unfold gSolveText gLex
  obtain ⟨⟨c, t, hs, hc⟩, _⟩ := h.1
  have : ∃ f, s.length + 1 = f + 2 := ⟨t.length, by rw [hs]; simp⟩
  obtain ⟨f, hf⟩ := this
  rw [hf, lex_name h.1]
  have h0 : ∀ k, k ≤ 6 → GDer I k [.name s] [I.var s] := by
    intro k
    induction k with
    | zero => exact fun _ => .var s h.2
    | succ k ih => exact fun hk => .up k _ _ (by omega) (ih (by omega))
  exact C63_precedence I _ _ (h0 6 (Nat.le_refl _))

/-- **C109 (partial).** In an expression a variable has the value given for it. For all names but those that Python reads as numbers. -/
theorem C109_variables_partial {V G : Type} (env : NEnv V G) (ops : GInterp V) (apply : G → List V → Option V) {s : Str} (hs : Identifier s) (hw : ¬ FloatWord s) {p : PVar V G}
    (h : env.pvars.get s = some p) : gSolveText (namesInterp env ops apply) s = some (some (.bound p)) := by
  rw [solve_name _ hs]
  simp [namesInterp, parseVar, floatName_none hw, h]

/-- **C109 (refuted).** A variable called `nan`, `inf` or `infinity`, in any case, is a number whatever value is given for it. -/
theorem C109_words_refuted {V G : Type} (env : NEnv V G) (ops : GInterp V) (apply : G → List V → Option V) {s : Str} (hs : Identifier s) (hw : FloatWord s) :
    gSolveText (namesInterp env ops apply) s = some (some .nan) ∨ gSolveText (namesInterp env ops apply) s = some (some .inf) := by
  rw [solve_name _ hs]
  simp only [FloatWord, List.mem_cons, List.not_mem_nil, or_false] at hw
  simp only [namesInterp, parseVar, floatName]
  rcases hw with h | h | h <;> simp [h]

/-- **C109 (unknown names, partial).** A name that is given no value is an error, unless there is a column named by its second letter. -/
theorem C109_unknown_partial {V G : Type} (env : NEnv V G) (ops : GInterp V) (apply : G → List V → Option V) {s : Str} (hs : Identifier s) (hw : ¬ FloatWord s)
    (h : env.pvars.get s = none) (hc : ∀ a c t, s = a :: c :: t → env.columns.get [c] = none) : gSolveText (namesInterp env ops apply) s = some none := by
  rw [solve_name _ hs]
  simp only [namesInterp, parseVar, floatName_none hw, h]
  split
  · rw [hc _ _ _ rfl]; rfl
  · rfl

/-- **C109 (unknown names, refuted).** If there is one, the unknown name silently stands for that column. -/
theorem C109_unknown_refuted {V G : Type} (env : NEnv V G) (ops : GInterp V) (apply : G → List V → Option V) {a c : Char} {t : Str} (hs : Identifier (a :: c :: t)) (hw : ¬ FloatWord (a :: c :: t))
    (h : env.pvars.get (a :: c :: t) = none) {v : V} (hc : env.columns.get [c] = some v) : gSolveText (namesInterp env ops apply) (a :: c :: t) = some (some (.column v)) := by
  rw [solve_name _ hs]
  simp [namesInterp, parseVar, floatName_none hw, h, hc]

/-- **C109 (operators).** An operator computes with the values of its operands, left and right, be they columns, numbers or variables, for all operands; so does the minus sign. -/
theorem C109_operators {V G : Type} (env : NEnv V G) (ops : GInterp V) (apply : G → List V → Option V) (o : GOp) (g : Bool) (l r : List GTok) (a b : NVal V G) (x y : V)
    (hl : GDer (namesInterp env ops apply) (precedence o) l [some a]) (hr : GDer (namesInterp env ops apply) (precedence o - 1) r [some b])
    (ha : a = .column x ∨ a = .bound (.value x)) (hb : b = .column y ∨ b = .bound (.value y)) :
    gSolve (namesInterp env ops apply) (l ++ .op o g :: r) = some (some (.column (ops.bin o x y))) ∧
    (namesInterp env ops apply).neg (some a) = some (.column (ops.neg x)) := by
  have hbin : (namesInterp env ops apply).bin o (some a) (some b) = some (.column (ops.bin o x y)) := by
    rcases ha with rfl | rfl <;> rcases hb with rfl | rfl <;> rfl
  refine ⟨?_, by rcases ha with rfl | rfl <;> rfl⟩
  have h0 := GDer.bin o g l r _ _ hl hr
  rw [hbin] at h0
  have hp : precedence o ≤ 6 := by cases o <;> decide
  have up : ∀ k, precedence o ≤ k → k ≤ 6 → GDer (namesInterp env ops apply) k (l ++ .op o g :: r) [some (.column (ops.bin o x y))] := by
    intro k
    induction k with
    | zero => intro h _; have : precedence o = 0 := by omega
              rw [this] at h0; exact h0
    | succ k ih =>
      intro h1 h2
      by_cases e : precedence o = k + 1
      · rw [e] at h0; exact h0
      · exact .up k _ _ (by omega) (ih (by omega) (by omega))
  exact C63_precedence _ _ _ (up 6 hp (by omega))

/-- the environment of the examples -/
def namesEnv : NEnv Int Nat :=
  ⟨[(cs!"LIMIT", .value 70), (cs!"Inf", .value 5), (cs!"f", .func 1 true), (cs!"mean", .func 2 false)], [(cs!"p", 3)], [(cs!"json", 9)], [(cs!"numpy", [(cs!"mean", 4)]), (cs!"a.b", [(cs!"c", 5)])]⟩

/-- apply for the examples: the number of the function and the sum of the arguments -/
def namesApply (g : Nat) (l : List Int) : Option Int := some (100 * g + l.sum)

/-- C109: a variable, a special word, an unknown name with and without such a column -/
example : gSolveText (namesInterp namesEnv intInterp namesApply) cs!"LIMIT + 1" = some (some (.column 71)) ∧
    gSolveText (namesInterp namesEnv intInterp namesApply) cs!"100 - LIMIT" = some (some (.column 30)) ∧
    gSolveText (namesInterp namesEnv intInterp namesApply) cs!"LIMIT - LIMIT - 5" = some (some (.column (-5))) ∧
    gSolveText (namesInterp namesEnv intInterp namesApply) cs!"Inf" = some (some .inf) ∧
    gSolveText (namesInterp namesEnv intInterp namesApply) cs!"speed" = some (some (.column 3)) ∧
    gSolveText (namesInterp namesEnv intInterp namesApply) cs!"temp" = some none := by
  refine ⟨?_, ?_, ?_, ?_, ?_, ?_⟩ <;> decide +kernel

/-! ## C110 -/

theorem rsplitDot_none {s : Str} (h : '.' ∉ s) : rsplitDot s = none := by
  induction s with
  | nil => rfl
  | cons c s ih =>
    simp only [List.mem_cons, not_or] at h
    unfold rsplitDot
    rw [ih h.2]
    simp only
    rw [if_neg fun e => h.1 e.symm]

theorem rsplitDot_last {m a : Str} (h : '.' ∉ a) : rsplitDot (m ++ '.' :: a) = some (m, a) := by
  induction m with
  | nil =>
    rw [List.nil_append, rsplitDot, rsplitDot_none h]
    rfl
  | cons c m ih =>
    rw [List.cons_append, rsplitDot, ih]

/-- **C110 (partial).** A function called in an expression is the Python function given under this name, else the attribute of the module before the last dot, or the global for a name without dot. For all names that
are not given to something else that can be called. -/
theorem C110_functions_partial {V G : Type} (env : NEnv V G) (s : Str) :
    (∀ g, env.pvars.get s = some (.func g true) → resolveFunc env s = some g) ∧
    ((∀ g b, env.pvars.get s ≠ some (.func g b)) → (∀ m a, s = m ++ '.' :: a → '.' ∉ a → resolveFunc env s = (env.modules.get m).bind fun d => d.get a) ∧ ('.' ∉ s → resolveFunc env s = env.globals.get s)) := by
  constructor
  · intro g h
    simp [resolveFunc, h]
  · intro h
    have hr : resolveFunc env s = strToAttr env s := by
      unfold resolveFunc
      split
      · next g hg => exact absurd hg (h g true)
      · rfl
    rw [hr]
    constructor
    · rintro m a rfl ha
      simp [strToAttr, rsplitDot_last ha]
    · intro hd
      simp [strToAttr, rsplitDot_none hd]

/-- **C110 (refuted).** Something that can be called but is not a Python function, as a built-in or a numpy function, is not used although it is given under the name; without a global of this name the expression
fails. For all arguments. -/
theorem C110_callable_refuted {V G : Type} (env : NEnv V G) (ops : GInterp V) (apply : G → List V → Option V) {s : Str} {g : G} (h : env.pvars.get s = some (.func g false)) (hd : '.' ∉ s)
    (hg : env.globals.get s = none) (ts : List GTok) (vs : List (Option (NVal V G))) (hts : GDer (namesInterp env ops apply) 7 ts vs) :
    gSolve (namesInterp env ops apply) (.name s :: .lpar :: (ts ++ [.rpar])) = some none := by
  have hr : resolveFunc env s = none := by simp [resolveFunc, h, strToAttr, rsplitDot_none hd, hg]
  have h0 : ∀ k, k ≤ 6 → GDer (namesInterp env ops apply) k (.name s :: .lpar :: (ts ++ [.rpar])) [(namesInterp env ops apply).call s vs] := by
    intro k
    induction k with
    | zero => exact fun _ => .call s ts vs hts
    | succ k ih => exact fun hk => .up k _ _ (by omega) (ih (by omega))
  rw [C63_precedence _ _ _ (h0 6 (Nat.le_refl _))]
  simp [namesInterp, hr]

/-- **C110 (calls).** A call applies the function found to the values of the arguments, which are computed or given under a name, for all arguments. -/
theorem C110_calls {V G : Type} (env : NEnv V G) (ops : GInterp V) (apply : G → List V → Option V) {s : Str} {g : G} (h : resolveFunc env s = some g) (ts : List GTok) (xs : List V)
    (vs : List (Option (NVal V G))) (hvs : List.Forall₂ (fun x v => v = some (.column x) ∨ v = some (.bound (.value x))) xs vs) (hts : GDer (namesInterp env ops apply) 7 ts vs) :
    gSolve (namesInterp env ops apply) (.name s :: .lpar :: (ts ++ [.rpar])) = some ((apply g xs).map .column) := by
  have h0 : ∀ k, k ≤ 6 → GDer (namesInterp env ops apply) k (.name s :: .lpar :: (ts ++ [.rpar])) [(namesInterp env ops apply).call s vs] := by
    intro k
    induction k with
    | zero => exact fun _ => .call s ts _ hts
    | succ k ih => exact fun hk => .up k _ _ (by omega) (ih (by omega))
  rw [C63_precedence _ _ _ (h0 6 (Nat.le_refl _))]
  have hm : vs.mapM argVal = some xs := by
    clear hts h0
    induction hvs with
    | nil => rfl
    | cons hx _ ih => rcases hx with rfl | rfl <;> simp [ih, argVal]
  simp only [namesInterp, h]
  rw [hm]

/-- C110: a Python function, a callable that is none, functions of modules -/
example : gSolveText (namesInterp namesEnv intInterp namesApply) cs!"f(1, LIMIT * 2)" = some (some (.column 241)) ∧
    gSolveText (namesInterp namesEnv intInterp namesApply) cs!"mean(1)" = some none ∧
    gSolveText (namesInterp namesEnv intInterp namesApply) cs!"numpy.mean(1)" = some (some (.column 401)) ∧
    gSolveText (namesInterp namesEnv intInterp namesApply) cs!"a.b.c(1)" = some (some (.column 501)) := by
  refine ⟨?_, ?_, ?_, ?_⟩ <;> decide +kernel

end Trappy
