import Verif.Lemma.Events
/-!
# C46, C47, C48, C49, C52, C53, C54, C55: particular events
-/

namespace Trappy
open Re Py

/-! ## C46 -/

/-- a `sys_enter` payload as the kernel prints it -/
def sysEnterText (nr : Str) (a0 a1 a2 a3 a4 a5 : Int) : Str :=
  cs!"NR " ++ (nr ++ (cs!" (" ++ (intDigits 16 a0 ++ (cs!", " ++ (intDigits 16 a1 ++ (cs!", " ++ (intDigits 16 a2 ++
    (cs!", " ++ (intDigits 16 a3 ++ (cs!", " ++ (intDigits 16 a4 ++ (cs!", " ++ (intDigits 16 a5 ++ cs!")")))))))))))))

/-- a `sys_exit` payload as the kernel prints it -/
def sysExitText (nr ret : Int) : Str := cs!"NR " ++ (intDigits 10 nr ++ (cs!" = " ++ intDigits 10 ret))

theorem sysRe_first {r : Re} (x : Char) (t : Str) (hx : x ≠ 'N') : matchPrefix (.seq (str cs!"NR ") r) (x :: t) = none := by
  unfold matchPrefix
  simp only [str, m, lit]
  simp [hx]

theorem decode_words (fs : List (Str × Int)) (hk : (fs.map Prod.fst).Nodup)
    (hkey : ∀ f ∈ fs, ∀ c ∈ f.1, c ≠ '=' ∧ isSpace c = false) :
    generateDataDict (joinC ' ' (fs.map fun f => f.1 ++ '=' :: intStr f.2)) = some (fs.map fun f => (f.1, Val.int f.2)) := by
  have hsp : ∀ i : Int, ∀ c ∈ intStr i, isSpace c = false := by
    intro i c hc
    unfold intStr natStr at hc
    split at hc
    · rcases List.mem_cons.mp hc with rfl | hc
      · decide
      · exact isSpace_not_digit (dec_isDigit c hc)
    · exact isSpace_not_digit (dec_isDigit c hc)
  have h := C12_payload_roundtrip (fs.map fun f => ⟨f.1, intStr f.2, []⟩)
    (fun f => match int0 f.first with | some i => .int i | none => .str [])
    (joinC ' ' (fs.map fun f => f.1 ++ '=' :: intStr f.2)) ?_ ?_ ?_ ?_
  · rw [h]
    simp only [List.map_map]
    congr 1
    apply List.map_congr_left
    intro f _
    have : int0 (intStr f.2) = some f.2 :=
      (C13_int_literals _ _).mpr ⟨[], _, [], by simp, allC_nil _, allC_nil _, intLit_intStr f.2⟩
    simp [this]
  · intro f hf
    obtain ⟨x, hx, rfl⟩ := List.mem_map.mp hf
    exact ⟨hkey x hx, hsp x.2, by simp, by simp⟩
  · simpa [List.map_map, Function.comp_def] using hk
  · intro f hf
    obtain ⟨x, hx, rfl⟩ := List.mem_map.mp hf
    have : int0 (intStr x.2) = some x.2 :=
      (C13_int_literals _ _).mpr ⟨[], _, [], by simp, allC_nil _, allC_nil _, intLit_intStr x.2⟩
    simp only [this]
    exact .int (intLit_intStr x.2)
  · have e : (fs.map fun f => (⟨f.1, intStr f.2, []⟩ : Field)).flatMap Field.words = fs.map fun f => f.1 ++ '=' :: intStr f.2 := by
      simp [List.flatMap_map, Field.words]
      clear * -
      induction fs with
      | nil => rfl
      | cons f fs ih => simp [ih]
    rw [e]
    apply spaced_join
    intro w hw
    obtain ⟨x, hx, rfl⟩ := List.mem_map.mp hw
    refine ⟨by simp, ?_⟩
    intro c hc
    rcases List.mem_append.mp hc with hc | hc
    · exact (hkey x hx c hc).2
    · rcases List.mem_cons.mp hc with rfl | hc
      · decide
      · exact hsp _ c hc

/-- **C46, part proved.** For every system call number that is not negative, and all arguments, with any text after the
record and any text without an `N` before it, a `sys_enter` payload is decoded to the printed numbers. -/
theorem C46_sys_enter_partial (nr : Nat) (a0 a1 a2 a3 a4 a5 : Int) (lead trail : Str) (hl : 'N' ∉ lead) :
    sysEnterDict (lead ++ (sysEnterText (intDigits 10 nr) a0 a1 a2 a3 a4 a5 ++ trail)) =
      some [(cs!"nr", .int nr), (cs!"arg0", .int a0), (cs!"arg1", .int a1), (cs!"arg2", .int a2), (cs!"arg3", .int a3),
        (cs!"arg4", .int a4), (cs!"arg5", .int a5)] := by
  have hmatch : matchPrefix sysEnterRe (sysEnterText (intDigits 10 nr) a0 a1 a2 a3 a4 a5 ++ trail) =
      some ([(7, intDigits 16 a5), (6, intDigits 16 a4), (5, intDigits 16 a3), (4, intDigits 16 a2), (3, intDigits 16 a1),
        (2, intDigits 16 a0), (1, intDigits 10 nr)], trail) := by
    unfold matchPrefix sysEnterRe sysEnterText
    simp only [cat, List.append_assoc]
    rw [m.eq_4, m_str, m.eq_4]
    have hnr : intDigits 10 (nr : Int) = Nat.toDigits 10 nr := by simp [intDigits]
    rw [hnr]
    apply m_group
    refine m_plus_max _ Nat.toDigits_ne_nil dec_isDigit (by intro y hy; simp at hy; subst hy; decide) ?_
    simp only [List.length_append, Nat.add_sub_cancel]
    rw [List.take_left' (by rfl), m.eq_4, m_str, m.eq_4]
    refine m_signed_int isSign_not_hex (fun n => hex_isHex) a0 (by intro y hy; simp at hy; subst hy; decide) ?_
    rw [m.eq_4, m_str, m.eq_4]
    refine m_signed_int isSign_not_hex (fun n => hex_isHex) a1 (by intro y hy; simp at hy; subst hy; decide) ?_
    rw [m.eq_4, m_str, m.eq_4]
    refine m_signed_int isSign_not_hex (fun n => hex_isHex) a2 (by intro y hy; simp at hy; subst hy; decide) ?_
    rw [m.eq_4, m_str, m.eq_4]
    refine m_signed_int isSign_not_hex (fun n => hex_isHex) a3 (by intro y hy; simp at hy; subst hy; decide) ?_
    rw [m.eq_4, m_str, m.eq_4]
    refine m_signed_int isSign_not_hex (fun n => hex_isHex) a4 (by intro y hy; simp at hy; subst hy; decide) ?_
    rw [m.eq_4, m_str, m.eq_4]
    refine m_signed_int isSign_not_hex (fun n => hex_isHex) a5 (by intro y hy; simp at hy; subst hy; decide) ?_
    rw [List.singleton_append, m_lit_cons]
  have hs := search_skip (r := sysEnterRe) (ch := 'N') (fun x t hx => sysRe_first x t hx) hl hmatch
  have h10 := intB_intDigits (b := 10) (by decide) (by decide) (nr : Int)
  have h16 := fun i => intB_intDigits (b := 16) (by decide) (by decide) i
  have hexp : sysEnterExplode (lead ++ (sysEnterText (intDigits 10 nr) a0 a1 a2 a3 a4 a5 ++ trail)) =
      some (joinC ' ' ([(cs!"nr", (nr : Int)), (cs!"arg0", a0), (cs!"arg1", a1), (cs!"arg2", a2), (cs!"arg3", a3),
        (cs!"arg4", a4), (cs!"arg5", a5)].map fun f => f.1 ++ '=' :: intStr f.2)) := by
    unfold sysEnterExplode
    rw [hs]
    simp only [bind, Option.bind, Caps.get, List.lookup, Nat.reduceBEq, h10, h16, pure, List.map, joinC,
      List.append_assoc, List.cons_append, List.nil_append]
  unfold sysEnterDict
  rw [hexp, Option.bind_some, decode_words _ (by simp) (by simp; decide)]
  rfl

/-- **C46** for `sys_exit`: all numbers. -/
theorem C46_sys_exit (nr ret : Int) (lead trail : Str) (hl : 'N' ∉ lead) (ht : ∀ c ∈ trail.head?, isDigit c = false) :
    sysExitDict (lead ++ (sysExitText nr ret ++ trail)) = some [(cs!"nr", .int nr), (cs!"ret", .int ret)] := by
  have hmatch : matchPrefix sysExitRe (sysExitText nr ret ++ trail) =
      some ([(2, intDigits 10 ret), (1, intDigits 10 nr)], trail) := by
    unfold matchPrefix sysExitRe sysExitText
    simp only [cat, List.append_assoc]
    rw [m.eq_4, m_str, m.eq_4]
    refine m_signed_int isSign_not_digit (fun n => dec_isDigit) nr (by intro y hy; simp at hy; subst hy; decide) ?_
    rw [m.eq_4, m_str]
    exact m_signed_int isSign_not_digit (fun n => dec_isDigit) ret ht rfl
  have hs := search_skip (r := sysExitRe) (ch := 'N') (fun x t hx => sysRe_first x t hx) hl hmatch
  have h10 := fun i => intB_intDigits (b := 10) (by decide) (by decide) i
  have hexp : sysExitExplode (lead ++ (sysExitText nr ret ++ trail)) =
      some (joinC ' ' ([(cs!"nr", nr), (cs!"ret", ret)].map fun f => f.1 ++ '=' :: intStr f.2)) := by
    unfold sysExitExplode
    rw [hs]
    simp [Caps.get, List.lookup, h10, joinC]
  unfold sysExitDict
  rw [hexp, Option.bind_some, decode_words _ (by simp) (by simp; decide)]
  rfl

/-- **C46 refuted** for `sys_enter` with a negative number (the kernel prints `NR -1` for a call suppressed by a
debugger): the pattern does not match and the parse of the whole trace ends with `ValueError`. -/
theorem C46_negative_number_refuted (n : Nat) (a0 a1 a2 a3 a4 a5 : Int) (hn : n ≠ 0) :
    sysEnterDict (sysEnterText (intDigits 10 (-(n : Int))) a0 a1 a2 a3 a4 a5) = none := by
  have hneg : (-(n : Int)) < 0 := by omega
  have hd : intDigits 10 (-(n : Int)) = '-' :: Nat.toDigits 10 n := by
    unfold intDigits; rw [if_pos hneg]; simp
  have hnoN : ∀ i : Int, 'N' ∉ intDigits 16 i := by
    intro i hi
    unfold intDigits at hi
    have : ∀ n, 'N' ∉ Nat.toDigits 16 n := fun n h => absurd (hex_isHex _ h) (by decide)
    split at hi
    · simp at hi; exact this _ hi
    · exact this _ hi
  have hnoNd : 'N' ∉ Nat.toDigits 10 n := fun h => absurd (dec_isDigit _ h) (by decide)
  -- a match can only start at an `N`, and the only one is at the beginning
  have hfirst : matchPrefix sysEnterRe (sysEnterText (intDigits 10 (-(n : Int))) a0 a1 a2 a3 a4 a5) = none := by
    unfold matchPrefix sysEnterRe sysEnterText
    rw [hd]
    simp only [cat]
    rw [m.eq_4, m_str, m.eq_4, m.eq_8]
    simp [plus, m, isDigit]
  have hrest : ∀ (t : Str) (i : Nat), 'N' ∉ t → searchFrom sysEnterRe i t = none := by
    intro t
    induction t with
    | nil =>
      intro i _
      simp [searchFrom, matchPrefix, sysEnterRe, cat, str, m, lit]
    | cons x t ih =>
      intro i h
      simp only [searchFrom]
      rw [show matchPrefix sysEnterRe (x :: t) = none from sysRe_first x t (by rintro rfl; exact h (by simp))]
      exact ih (i + 1) (fun hm => h (by simp [hm]))
  have hsearch : search sysEnterRe (sysEnterText (intDigits 10 (-(n : Int))) a0 a1 a2 a3 a4 a5) = none := by
    unfold search
    have e : ∃ t, sysEnterText (intDigits 10 (-(n : Int))) a0 a1 a2 a3 a4 a5 = 'N' :: t ∧ 'N' ∉ t := by
      refine ⟨_, rfl, ?_⟩
      rw [hd]
      simp [hnoN, hnoNd]
    obtain ⟨t, e, ht⟩ := e
    rw [e] at hfirst ⊢
    simp only [searchFrom, hfirst]
    exact hrest t 1 ht
  unfold sysEnterDict sysEnterExplode
  rw [hsearch]
  rfl

example : sysEnterDict cs!"NR 64 (1, 7764ee9000, -67, 0, 0, 4)" =
    some [(cs!"nr", .int 64), (cs!"arg0", .int 1), (cs!"arg1", .int 0x7764ee9000), (cs!"arg2", .int (-103)), (cs!"arg3", .int 0),
      (cs!"arg4", .int 0), (cs!"arg5", .int 4)] ∧
    sysExitDict cs!"NR -1 = -38 " = some [(cs!"nr", .int (-1)), (cs!"ret", .int (-38))] ∧
    sysEnterDict cs!"NR -1 (0, 0, 0, 0, 0, 0)" = none := by decide +kernel

/-! ## C47 -/

theorem joinC_cons {c : Char} {w : Str} {ws : List Str} (h : ws ≠ []) : joinC c (w :: ws) = w ++ c :: joinC c ws := by
  cases ws with
  | nil => exact absurd rfl h
  | cons a ws => rfl

theorem joinC_append {c : Char} {a b : List Str} (ha : a ≠ []) (hb : b ≠ []) :
    joinC c (a ++ b) = joinC c a ++ c :: joinC c b := by
  induction a with
  | nil => exact absurd rfl ha
  | cons w a ih =>
    cases a with
    | nil => rw [List.singleton_append, joinC_cons hb]; rfl
    | cons w' a =>
      rw [List.cons_append, joinC_cons (by simp), ih (by simp), joinC_cons (w := w) (ws := w' :: a) (by simp)]
      simp

/-- after a blank between words comes the head of a word -/
theorem after_blank {ws : List Str} (h : ∀ w ∈ ws, (∃ d t, w = d :: t ∧ d ≠ '=') ∧ ' ' ∉ w) :
    ∀ x y, joinC ' ' ws = x ++ ' ' :: y → ∃ d t, y = d :: t ∧ d ≠ '=' := by
  induction ws with
  | nil => intro x y e; simp [joinC] at e
  | cons w ws ih =>
    intro x y e
    by_cases hws : ws = []
    · subst hws
      exfalso
      apply (h w (by simp)).2
      have : w = x ++ ' ' :: y := e
      rw [this]; simp
    · rw [joinC_cons hws] at e
      rcases List.append_eq_append_iff.mp e with ⟨z, e1, e2⟩ | ⟨z, e1, e2⟩
      · cases z with
        | nil =>
          simp at e2
          subst e2
          obtain ⟨w', ws', rfl⟩ := List.exists_cons_of_ne_nil hws
          obtain ⟨d, t, rfl, hd⟩ := (h w' (by simp)).1
          cases ws' with
          | nil => exact ⟨d, t, rfl, hd⟩
          | cons a b => exact ⟨d, _, rfl, hd⟩
        | cons q z =>
          simp at e2
          exact ih (fun w hw => h w (by simp [hw])) z y e2.2
      · cases z with
        | nil =>
          simp at e2
          subst e2
          obtain ⟨w', ws', rfl⟩ := List.exists_cons_of_ne_nil hws
          obtain ⟨d, t, rfl, hd⟩ := (h w' (by simp)).1
          cases ws' with
          | nil => exact ⟨d, t, rfl, hd⟩
          | cons a b => exact ⟨d, _, rfl, hd⟩
        | cons q z =>
          simp at e2
          obtain ⟨rfl, _⟩ := e2
          exact absurd (by rw [e1]; simp) (h w (by simp)).2

/-- **C47**, general form: fields, the arrow, more fields. -/
theorem C47_arrow (fs gs : List Field) (val : Field → Val) (hfs : fs ≠ []) (hgs : gs ≠ [])
    (hwf : ∀ f ∈ fs ++ gs, f.WF) (hne : ∀ f ∈ fs ++ gs, f.key ≠ []) (hkeys : ((fs ++ gs).map Field.key).Nodup)
    (hval : ∀ f ∈ fs ++ gs, f.Means (val f)) :
    schedSwitchDict (joinC ' ' (fs.flatMap Field.words) ++ (cs!" ==> " ++ joinC ' ' (gs.flatMap Field.words))) =
      some ((fs ++ gs).map fun f => (f.key, val f)) := by
  have hword : ∀ hs : List Field, (∀ f ∈ hs, f ∈ fs ++ gs) → ∀ w ∈ hs.flatMap Field.words,
      (∃ d t, w = d :: t ∧ d ≠ '=') ∧ ∀ c ∈ w, isSpace c = false := by
    intro hs hsub w hw
    obtain ⟨f, hf, hw⟩ := List.mem_flatMap.mp hw
    have wf := hwf f (hsub f hf)
    rcases List.mem_cons.mp hw with rfl | hw
    · obtain ⟨d, t, e⟩ := List.exists_cons_of_ne_nil (hne f (hsub f hf))
      refine ⟨⟨d, t ++ '=' :: f.first, by rw [e]; rfl, (wf.key d (by rw [e]; simp)).1⟩, ?_⟩
      intro c hc
      rcases List.mem_append.mp hc with hc | hc
      · exact (wf.key c hc).2
      · rcases List.mem_cons.mp hc with rfl | hc
        · decide
        · exact wf.first c hc
    · obtain ⟨h1, h2⟩ := wf.rest w hw
      obtain ⟨d, t, rfl⟩ := List.exists_cons_of_ne_nil h1
      exact ⟨⟨d, t, rfl, (h2 d (by simp)).1⟩, fun c hc => (h2 c hc).2⟩
  have h1 := hword fs (fun f hf => by simp [hf])
  have hne1 : fs.flatMap Field.words ≠ [] := by
    obtain ⟨f, fs', rfl⟩ := List.exists_cons_of_ne_nil hfs; simp [Field.words]
  have hne2 : gs.flatMap Field.words ≠ [] := by
    obtain ⟨f, fs', rfl⟩ := List.exists_cons_of_ne_nil hgs; simp [Field.words]
  unfold schedSwitchDict
  rw [replace1_first (by simp) ?_]
  · apply C12_payload_roundtrip _ _ _ hwf hkeys hval
    rw [List.flatMap_append, show ∀ t : Str, joinC ' ' (fs.flatMap Field.words) ++ (cs!" " ++ t) =
      joinC ' ' (fs.flatMap Field.words) ++ ' ' :: t from fun t => rfl, ← joinC_append hne1 hne2, ← List.flatMap_append]
    apply spaced_join
    intro w hw
    obtain ⟨⟨d, t, rfl, _⟩, h⟩ := hword _ (fun f hf => hf) w hw
    exact ⟨by simp, h⟩
  · intro x c y e hp
    obtain ⟨u, hu⟩ := hp
    simp only [List.cons_append, List.cons.injEq, List.nil_append] at hu
    obtain ⟨rfl, hu⟩ := hu
    obtain ⟨d, t, rfl, hd⟩ := after_blank (fun w hw => ⟨(h1 w hw).1, fun hb => absurd ((h1 w hw).2 ' ' hb) (by decide)⟩) x y e
    simp at hu
    exact hd hu.1.symm

/-- **C47.** A `sched_switch` payload decodes to its seven fields: for all numbers, all task names made of words where
the later words have no `=` and the first word is not a number, and every state that is not a number. -/
theorem C47_sched_switch (p n : Str) (ps ns : List Str) (st : Str) (ppid pprio npid nprio : Int)
    (hp : ∀ c ∈ p, isSpace c = false) (hn : ∀ c ∈ n, isSpace c = false) (hst : ∀ c ∈ st, isSpace c = false)
    (hps : ∀ w ∈ ps, w ≠ [] ∧ ∀ c ∈ w, c ≠ '=' ∧ isSpace c = false)
    (hns : ∀ w ∈ ns, w ≠ [] ∧ ∀ c ∈ w, c ≠ '=' ∧ isSpace c = false)
    (hpi : ∀ i, ¬ IntLit p i) (hni : ∀ i, ¬ IntLit n i) (hsi : ∀ i, ¬ IntLit st i) :
    schedSwitchDict (joinC ' ' ((cs!"prev_comm=" ++ p) :: ps ++ [cs!"prev_pid=" ++ intStr ppid,
        cs!"prev_prio=" ++ intStr pprio, cs!"prev_state=" ++ st]) ++ (cs!" ==> " ++
        joinC ' ' ((cs!"next_comm=" ++ n) :: ns ++ [cs!"next_pid=" ++ intStr npid, cs!"next_prio=" ++ intStr nprio]))) =
      some [(cs!"prev_comm", .str (joinC ' ' (p :: ps))), (cs!"prev_pid", .int ppid), (cs!"prev_prio", .int pprio),
        (cs!"prev_state", .str st), (cs!"next_comm", .str (joinC ' ' (n :: ns))), (cs!"next_pid", .int npid),
        (cs!"next_prio", .int nprio)] := by
  have hi : ∀ i : Int, int0 (intStr i) = some i := fun i =>
    (C13_int_literals _ _).mpr ⟨[], _, [], by simp, allC_nil _, allC_nil _, intLit_intStr i⟩
  have hno : ∀ s : Str, (∀ c ∈ s, isSpace c = false) → (∀ i, ¬ IntLit s i) → int0 s = none := by
    intro s hs h
    cases e : int0 s with
    | none => rfl
    | some i => rw [int0_core, strip_nospace hs] at e; exact absurd e (h i)
  have hsp : ∀ i : Int, ∀ c ∈ intStr i, isSpace c = false := by
    intro i c hc
    unfold intStr natStr at hc
    split at hc
    · rcases List.mem_cons.mp hc with rfl | hc
      · decide
      · exact isSpace_not_digit (dec_isDigit c hc)
    · exact isSpace_not_digit (dec_isDigit c hc)
  have key : ∀ k ∈ [cs!"prev_comm", cs!"prev_pid", cs!"prev_prio", cs!"prev_state", cs!"next_comm", cs!"next_pid",
      cs!"next_prio"], k ≠ [] ∧ ∀ c ∈ k, c ≠ '=' ∧ isSpace c = false := by decide
  have h := C47_arrow
    [⟨cs!"prev_comm", p, ps⟩, ⟨cs!"prev_pid", intStr ppid, []⟩, ⟨cs!"prev_prio", intStr pprio, []⟩, ⟨cs!"prev_state", st, []⟩]
    [⟨cs!"next_comm", n, ns⟩, ⟨cs!"next_pid", intStr npid, []⟩, ⟨cs!"next_prio", intStr nprio, []⟩]
    (fun f => match int0 f.first with | some i => .int i | none => .str (joinC ' ' (f.first :: f.rest)))
    (by simp) (by simp) ?_ ?_ ?_ ?_
  · simp only [List.flatMap_cons, List.flatMap_nil, Field.words, List.map_cons, List.map_nil, List.cons_append,
      List.nil_append, hi, hno _ hp hpi, hno _ hn hni, hno _ hst hsi, List.append_nil] at h
    simp only [List.cons_append, List.nil_append]
    exact h
  · intro f hf
    simp only [List.cons_append, List.nil_append, List.mem_cons, List.not_mem_nil, or_false] at hf
    rcases hf with rfl | rfl | rfl | rfl | rfl | rfl | rfl
    · exact ⟨(key _ (by simp)).2, hp, hps, fun _ => (key _ (by simp)).1⟩
    · exact ⟨(key _ (by simp)).2, hsp _, by simp, by simp⟩
    · exact ⟨(key _ (by simp)).2, hsp _, by simp, by simp⟩
    · exact ⟨(key _ (by simp)).2, hst, by simp, by simp⟩
    · exact ⟨(key _ (by simp)).2, hn, hns, fun _ => (key _ (by simp)).1⟩
    · exact ⟨(key _ (by simp)).2, hsp _, by simp, by simp⟩
    · exact ⟨(key _ (by simp)).2, hsp _, by simp, by simp⟩
  · intro f hf
    simp only [List.cons_append, List.nil_append, List.mem_cons, List.not_mem_nil, or_false] at hf
    rcases hf with rfl | rfl | rfl | rfl | rfl | rfl | rfl <;> simp
  · simp only [List.cons_append, List.nil_append, List.map_cons, List.map_nil]; decide
  · intro f hf
    simp only [List.cons_append, List.nil_append, List.mem_cons, List.not_mem_nil, or_false] at hf
    rcases hf with rfl | rfl | rfl | rfl | rfl | rfl | rfl
    · simp only [hno _ hp hpi]; exact .str hpi
    · simp only [hi]; exact .int (intLit_intStr _)
    · simp only [hi]; exact .int (intLit_intStr _)
    · simp only [hno _ hst hsi]; exact .str hsi
    · simp only [hno _ hn hni]; exact .str hni
    · simp only [hi]; exact .int (intLit_intStr _)
    · simp only [hi]; exact .int (intLit_intStr _)

/-- the hypotheses hold for ordinary names; a task whose name is a number is read as that number -/
example : schedSwitchDict cs!"prev_comm=Binder 1 x prev_pid=7 prev_prio=120 prev_state=S ==> next_comm=swapper/0 next_pid=0 next_prio=-1" =
    some [(cs!"prev_comm", .str cs!"Binder 1 x"), (cs!"prev_pid", .int 7), (cs!"prev_prio", .int 120),
      (cs!"prev_state", .str cs!"S"), (cs!"next_comm", .str cs!"swapper/0"), (cs!"next_pid", .int 0),
      (cs!"next_prio", .int (-1))] ∧
    schedSwitchDict cs!"prev_comm=0x10 a prev_pid=7 ==> next_comm=b" =
    some [(cs!"prev_comm", .int 16), (cs!"prev_pid", .int 7), (cs!"next_comm", .str cs!"b")] := by decide +kernel

/-! ## C48 -/

theorem countOnes_bits (n : Nat) : ∃ l : List Nat, l.Nodup ∧ (∀ i, i ∈ l ↔ n.testBit i = true) ∧ countOnes n = l.length := by
  induction n using Nat.strongRecOn with
  | _ n ih =>
    by_cases hn : n < 2
    · have : n = 0 ∨ n = 1 := by omega
      rcases this with rfl | rfl
      · exact ⟨[], by simp, by simp, by decide⟩
      · refine ⟨[0], by simp, ?_, by decide⟩
        intro i
        simp [Nat.testBit_one_eq_true_iff_self_eq_zero]
    · obtain ⟨l, h1, h2, h3⟩ := ih (n / 2) (Nat.div_lt_self (by omega) (by decide))
      have hc : countOnes n = countOnes (n / 2) + n % 2 := by
        unfold countOnes
        rw [Nat.toDigits_eq_if (by decide), if_neg hn, List.count_append]
        have : n % 2 = 0 ∨ n % 2 = 1 := by omega
        rcases this with h | h <;> rw [h] <;> rfl
      refine ⟨(if n % 2 = 1 then [0] else []) ++ l.map (· + 1), ?_, ?_, ?_⟩
      · rw [List.nodup_append]
        refine ⟨by split <;> simp, ?_, ?_⟩
        · exact List.Nodup.map (fun a b h => by simpa using h) h1
        · intro a ha b hb
          split at ha
          · simp at ha; subst ha
            simp at hb; omega
          · simp at ha
      · intro i
        cases i with
        | zero =>
          simp only [List.mem_append, List.mem_map, Nat.testBit_zero, decide_eq_true_eq]
          constructor
          · rintro (h | ⟨a, _, h⟩)
            · split at h
              · assumption
              · simp at h
            · omega
          · intro h; left; simp [h]
        | succ i =>
          rw [Nat.testBit_succ, ← h2]
          simp only [List.mem_append, List.mem_map]
          constructor
          · rintro (h | ⟨a, ha, h⟩)
            · split at h <;> simp at h
            · have : a = i := by omega
              rwa [← this]
          · intro h; exact Or.inr ⟨i, h, rfl⟩
      · rw [hc, h3]
        have : n % 2 = 0 ∨ n % 2 = 1 := by omega
        rcases this with h | h <;> simp [h]

theorem filter_comma (s : Str) : (s.flatMap fun x => if x = ',' then [] else [x]) = s.filter (· ≠ ',') := by
  induction s with
  | nil => rfl
  | cons c s ih =>
    rw [List.flatMap_cons, ih]
    by_cases h : c = ',' <;> simp [h]

/-- **C48.** For every mask whose characters other than commas are hexadecimal digits (in either case) of the number `n`,
the result is the number of bits set in `n`. -/
theorem C48_popcount (mask : Str) (n : Nat) (h : Digits 16 (mask.filter (· ≠ ',')) n) :
    ∃ l : List Nat, l.Nodup ∧ (∀ i, i ∈ l ↔ n.testBit i = true) ∧ numCpusInMask mask = some l.length := by
  obtain ⟨l, h1, h2, h3⟩ := countOnes_bits n
  refine ⟨l, h1, h2, ?_⟩
  unfold numCpusInMask
  rw [replace_char, filter_comma, (intB_digits (by decide) h).1]
  simp [h3]

theorem digits_zero {b : Nat} (hb : 0 < b) {s : Str} {n : Nat} (h : Digits b s n) : Digits b ('0' :: s) n := by
  have z : IsDigitOf b '0' 0 := ⟨hb, Or.inl rfl⟩
  induction h with
  | one h => have := Digits.snoc (.one z) h; simpa using this
  | snoc hs h ih => exact Digits.snoc ih h
  | under hs h ih => exact Digits.under ih h

/-- **C48** for printed masks: leading zeros and commas anywhere. -/
theorem C48_printed (mask : Str) (k n : Nat) (h : mask.filter (· ≠ ',') = List.replicate k '0' ++ Nat.toDigits 16 n) :
    ∃ l : List Nat, l.Nodup ∧ (∀ i, i ∈ l ↔ n.testBit i = true) ∧ numCpusInMask mask = some l.length := by
  apply C48_popcount
  rw [h]
  clear h
  induction k with
  | zero => exact digits_toDigits (by decide) (by decide) n
  | succ k ih => rw [List.replicate_succ]; exact digits_zero (by decide) ih

example : numCpusInMask cs!"ff,000000F0" = some 12 ∧ numCpusInMask cs!"00000000" = some 0 ∧
    (cs!"0f,000000f0".filter (· ≠ ',')) = List.replicate 1 '0' ++ Nat.toDigits 16 0xf000000f0 ∧
    numCpusInMask cs!"" = none := by decide +kernel

/-! ## C49 -/

/-- **C49.** The padded mask has at least eight characters, it is zeros followed by the text of the cell, it is the text
itself if that has eight characters or more, and padding again changes nothing. -/
theorem C49_pad (v : Val) :
    8 ≤ (pad8 v).length ∧ (∃ k, pad8 v = List.replicate k '0' ++ v.text) ∧ (8 ≤ v.text.length → pad8 v = v.text) ∧
      pad8 (.str (pad8 v)) = pad8 v := by
  have hl : (pad8 v).length = (8 - v.text.length) + v.text.length := by simp [pad8]
  refine ⟨by omega, ⟨_, rfl⟩, ?_, ?_⟩
  · intro h
    unfold pad8
    rw [Nat.sub_eq_zero_of_le h]; rfl
  · have e : pad8 (.str (pad8 v)) = List.replicate (8 - (pad8 v).length) '0' ++ pad8 v := rfl
    rw [e, Nat.sub_eq_zero_of_le (by omega)]
    rfl

theorem digits_dec_unique {s : Str} {n : Nat} (h : Digits 10 s n) (hu : '_' ∉ s) :
    (s.head? ≠ some '0' → s = Nat.toDigits 10 n) ∧ (n = 0 → s = List.replicate s.length '0') := by
  have hc : ∀ {c d}, IsDigitOf 10 c d → c = Nat.digitChar d := by
    rintro c d ⟨hd, h⟩
    have : lowerDigits[d]? = some (Nat.digitChar d) ∧ upperDigits[d]? = some (Nat.digitChar d) := by
      clear h; revert d; decide
    rw [this.1, this.2] at h
    simpa using h.elim (fun h => h.symm) (fun h => h.symm)
  induction h with
  | @one c d h =>
    have e := hc h
    refine ⟨fun _ => ?_, ?_⟩
    · rw [Nat.toDigits_eq_if (by decide), if_pos h.1, e]
    · rintro rfl; simp [e]
  | @snoc s n c d hs h ih =>
    have e := hc h
    have ih := ih (fun hm => hu (by simp [hm]))
    obtain ⟨x, t, _, rfl, _⟩ := hs.head
    refine ⟨fun hh => ?_, ?_⟩
    · have i1 := ih.1 (by simpa using hh)
      have hn : n ≠ 0 := by
        rintro rfl
        have := ih.2 rfl
        simp [List.replicate_succ] at this
        simp [this.1] at hh
      rw [Nat.toDigits_eq_if (by decide), if_neg (by omega)]
      have h1 : (n * 10 + d) / 10 = n := by have := h.1; omega
      have h2 : (n * 10 + d) % 10 = d := by have := h.1; omega
      rw [h1, h2, ← i1, e]
    · intro h0
      have hn : n = 0 := by omega
      have hd : d = 0 := by omega
      have := ih.2 hn
      subst hd
      rw [e, List.length_append, List.replicate_add, ← this]
      rfl
  | under hs h ih => exact absurd (by simp) hu

/-- **C49, part proved** (from the printed mask to the table): a hexadecimal mask of at most eight digits that does not
begin with `0b` comes out as itself with leading zeros up to eight digits. -/
theorem C49_mask_partial (mask : Str) (hh : ∀ c ∈ mask, isHex c = true) (hne : mask ≠ []) (hl : mask.length ≤ 8)
    (hb : ∀ x t, mask = '0' :: x :: t → x ≠ 'b' ∧ x ≠ 'B') :
    pad8 (stringCastInt mask) = List.replicate (8 - mask.length) '0' ++ mask := by
  have hu : '_' ∉ mask := fun h => absurd (hh _ h) (by decide)
  have hsp : ∀ c ∈ mask, isSpace c = false := by
    intro c hc
    have := hh c hc
    cases e : isSpace c with
    | false => rfl
    | true =>
      exfalso
      simp only [isHex, isDigit, isSpace, Bool.or_eq_true, Bool.and_eq_true, decide_eq_true_eq, beq_iff_eq] at this e
      omega
  by_cases hi : ∃ i, IntLit mask i
  · obtain ⟨i, hi⟩ := hi
    rw [((C13_cast mask hsp).1 i).mpr hi]
    cases hi with
    | @plain _ n h =>
      cases h with
      | dec hd h0 =>
        obtain ⟨u1, u2⟩ := digits_dec_unique hd hu
        by_cases hz : mask.head? = some '0'
        · have hn : n = 0 := h0.resolve_left (fun h => h hz)
          subst hn
          have e := u2 rfl
          have hlen : 0 < mask.length := by cases mask with
            | nil => exact absurd rfl hne
            | cons => simp
          rw [e, List.length_replicate, ← List.replicate_add]
          have : 8 - mask.length + mask.length = 8 := by omega
          rw [this]
          rfl
        · have e := u1 hz
          have ht : (Val.int (n : Int)).text = mask := by
            rw [e]; simp [Val.text, intStr, natStr]
          unfold pad8
          rw [ht]
      | @pre x b s n hx hs =>
        exfalso
        have hxh := hh x (by simp)
        obtain ⟨h1, h2⟩ := hb x s rfl
        rcases hx with ⟨rfl | rfl, _⟩ | ⟨rfl | rfl, _⟩ | ⟨rfl | rfl, _⟩
        · exact absurd hxh (by decide)
        · exact absurd hxh (by decide)
        · exact absurd hxh (by decide)
        · exact absurd hxh (by decide)
        · exact h1 rfl
        · exact h2 rfl
      | preUnder hx hs => exact absurd (by simp) hu
    | plus h => exact absurd (hh '+' (by simp)) (by decide)
    | minus h => exact absurd (hh '-' (by simp)) (by decide)
  · rw [(C13_cast mask hsp).2 (fun i h => hi ⟨i, h⟩)]
    rfl

/-- **C49 refuted** for a mask that begins with `0b`: the cast to an integer reads it as a binary number. -/
theorem C49_binary_mask_refuted :
    pad8 (stringCastInt cs!"0b000011") = cs!"00000003" ∧
    numCpusInMask cs!"0b000011" = some 5 ∧ numCpusInMask (pad8 (stringCastInt cs!"0b000011")) = some 2 := by decide +kernel

example : pad8 (stringCastInt cs!"3f") = cs!"0000003f" ∧ pad8 (stringCastInt cs!"00000010") = cs!"00000010" ∧
    pad8 (stringCastInt cs!"10") = cs!"00000010" ∧ pad8 (stringCastInt cs!"000") = cs!"00000000" := by decide +kernel

/-! ## C52 -/

/-- **C52.** Every cell of every row: 4294967295 becomes -1, anything else (and every column name) is unchanged. -/
theorem C52_idle (rows : List (List (Str × Option Val))) (i j : Nat) :
    ((finalizeIdle rows)[i]?.bind fun r => r[j]?) =
      (rows[i]?.bind fun r => r[j]?).map fun x => (x.1, if x.2 = some (.int (2 ^ 32 - 1)) then some (.int (-1)) else x.2) := by
  have hd : ∀ v, decodeIdle v = if v = some (.int (2 ^ 32 - 1)) then some (.int (-1)) else v := by
    intro v
    cases v with
    | none => rfl
    | some v =>
      cases v with
      | int i => by_cases h : i = 4294967295 <;> simp [decodeIdle, h]
      | str s => simp [decodeIdle]
  unfold finalizeIdle
  rw [List.getElem?_map]
  cases rows[i]? with
  | none => rfl
  | some r => simp [List.getElem?_map, hd]

/-- **C52.** Decoding twice is the same as once. -/
theorem C52_idempotent (rows : List (List (Str × Option Val))) : finalizeIdle (finalizeIdle rows) = finalizeIdle rows := by
  have hd : ∀ v, decodeIdle (decodeIdle v) = decodeIdle v := by
    intro v
    cases v with
    | none => rfl
    | some v =>
      cases v with
      | int i => by_cases h : i = 4294967295 <;> simp [decodeIdle, h]
      | str s => simp [decodeIdle]
  simp [finalizeIdle, hd]

example : finalizeIdle [[(cs!"state", some (.int 4294967295)), (cs!"cpu_id", some (.int 3))], [(cs!"state", some (.int 4294967294)),
    (cs!"cpu_id", none)]] = [[(cs!"state", some (.int (-1))), (cs!"cpu_id", some (.int 3))],
    [(cs!"state", some (.int 4294967294)), (cs!"cpu_id", none)]] := by decide +kernel

/-! ## C53 -/

theorem pairUp_flat (ps : List (Str × Str)) (t : List Str) (ht : t.length ≤ 1) :
    pairUp ((ps.flatMap fun p => [p.1, p.2]) ++ t) = ps := by
  induction ps with
  | nil =>
    match t, ht with
    | [], _ => rfl
    | [_], _ => rfl
  | cons p ps ih => simp [pairUp, ih]

/-- **C53.** Names and values without blanks, with single blanks between them, and possibly one odd word. -/
theorem C53_ext4 (ps : List (Str × Str)) (odd : List Str) (ho : odd.length ≤ 1)
    (h : ∀ p ∈ ps, ' ' ∉ p.1 ∧ ' ' ∉ p.2) (hodd : ∀ w ∈ odd, ' ' ∉ w) :
    ext4Pairs (joinC ' ' ((ps.flatMap fun p => [p.1, p.2]) ++ odd)) = ps.map fun p => (p.1, .str p.2) := by
  unfold ext4Pairs
  by_cases hne : (ps.flatMap fun p => [p.1, p.2]) ++ odd = []
  · have h1 : ps = [] := by
      cases ps with
      | nil => rfl
      | cons => simp at hne
    subst h1
    simp at hne
    subst hne
    rfl
  · rw [splitOn_join hne, pairUp_flat ps odd ho]
    intro w hw
    rcases List.mem_append.mp hw with hw | hw
    · obtain ⟨p, hp, hw⟩ := List.mem_flatMap.mp hw
      simp at hw
      rcases hw with rfl | rfl
      · exact (h p hp).1
      · exact (h p hp).2
    · exact hodd w hw

example : ext4Pairs cs!"dev 254,32 ino 6 pos 0 len" =
    [(cs!"dev", .str cs!"254,32"), (cs!"ino", .str cs!"6"), (cs!"pos", .str cs!"0")] := by decide +kernel

/-! ## C54 -/

/-- `name = value, name = value` -/
def f2fsText : List (Str × Str) → Str
  | [] => []
  | [(n, v)] => n ++ (cs!" = " ++ v)
  | (n, v) :: fs => n ++ (cs!" = " ++ (v ++ (cs!", " ++ f2fsText fs)))

/-- after the first replacement -/
def f2fsText1 : List (Str × Str) → Str
  | [] => []
  | [(n, v)] => n ++ (cs!"=" ++ v)
  | (n, v) :: fs => n ++ (cs!"=" ++ (v ++ (cs!", " ++ f2fsText1 fs)))

/-- A name or value: no blanks, commas or `=`. -/
def Plain (s : Str) : Prop := ∀ c ∈ s, isSpace c = false ∧ c ≠ ',' ∧ c ≠ '='

theorem Plain.sp {s : Str} (h : Plain s) : ' ' ∉ s := fun hm => absurd (h _ hm).1 (by decide)

theorem f2fs_step1 (fs : List (Str × Str)) (h : ∀ f ∈ fs, f.1 ≠ [] ∧ Plain f.1 ∧ Plain f.2) :
    replace cs!" = " cs!"=" (f2fsText fs) = f2fsText1 fs := by
  have skip : ∀ (a s : Str), ' ' ∉ a → replace cs!" = " cs!"=" (a ++ s) = a ++ replace cs!" = " cs!"=" s := by
    intro a s ha
    apply replace_skip (by simp)
    rintro x c y rfl ⟨u, hu⟩
    simp at hu
    exact ha (by simp [← hu.1])
  induction fs with
  | nil => rfl
  | cons f fs ih =>
    obtain ⟨n, v⟩ := f
    obtain ⟨hn, pn, pv⟩ := h (n, v) (by simp)
    cases fs with
    | nil =>
      simp only [f2fsText, f2fsText1]
      rw [skip n _ pn.sp, replace_hit (by simp)]
      have := skip v [] pv.sp
      rw [List.append_nil, replace_nil, List.append_nil] at this
      rw [this]
    | cons g gs =>
      have ih := ih (fun f hf => h f (by simp [hf]))
      simp only [f2fsText, f2fsText1] at ih ⊢
      rw [skip n _ pn.sp, replace_hit (by simp), skip v _ pv.sp]
      rw [show ∀ t : Str, cs!", " ++ t = [','] ++ (cs!" " ++ t) from fun t => rfl, skip [','] _ (by decide)]
      rw [replace_skip (a := cs!" ") (by simp) ?_, ih]
      · rfl
      · intro x c y e hp
        obtain ⟨g1, g2⟩ := g
        obtain ⟨hg, pg, _⟩ := h (g1, g2) (by simp)
        obtain ⟨d, t, rfl⟩ := List.exists_cons_of_ne_nil hg
        have hx : x = [] ∧ c = ' ' ∧ y = [] := by
          cases x with
          | nil => simp at e; exact ⟨rfl, e.1.symm, e.2⟩
          | cons a x => simp at e
        obtain ⟨rfl, rfl, rfl⟩ := hx
        obtain ⟨u, hu⟩ := hp
        have hd := (pg d (by simp)).2.2
        cases gs with
        | nil => simp [f2fsText] at hu; exact hd hu.1.symm
        | cons g' gs => simp [f2fsText] at hu; exact hd hu.1.symm

theorem flatMap_comma (new s : Str) (h : ',' ∉ s) : (s.flatMap fun x => if x = ',' then new else [x]) = s := by
  induction s with
  | nil => rfl
  | cons c s ih =>
    have hc : c ≠ ',' := by rintro rfl; exact h (by simp)
    rw [List.flatMap_cons, if_neg hc, ih (fun hm => h (by simp [hm]))]
    rfl

theorem f2fs_step2 (fs : List (Str × Str)) (h : ∀ f ∈ fs, f.1 ≠ [] ∧ Plain f.1 ∧ Plain f.2) :
    Spaced (fs.map fun f => f.1 ++ '=' :: f.2) (replace cs!"," cs!" " (f2fsText1 fs)) := by
  rw [replace_char]
  have word : ∀ n v : Str, Plain n → Plain v → (∀ c ∈ n ++ '=' :: v, isSpace c = false) ∧ ',' ∉ n ++ '=' :: v := by
    intro n v hn hv
    constructor
    · intro c hc
      rcases List.mem_append.mp hc with hc | hc
      · exact (hn c hc).1
      · rcases List.mem_cons.mp hc with rfl | hc
        · decide
        · exact (hv c hc).1
    · intro hc
      rcases List.mem_append.mp hc with hc | hc
      · exact (hn _ hc).2.1 rfl
      · rcases List.mem_cons.mp hc with hc | hc
        · exact absurd hc (by decide)
        · exact (hv _ hc).2.1 rfl
  induction fs with
  | nil => exact .nil (allC_nil _)
  | cons f fs ih =>
    obtain ⟨n, v⟩ := f
    obtain ⟨hn, pn, pv⟩ := h (n, v) (by simp)
    obtain ⟨w1, w2⟩ := word n v pn pv
    cases fs with
    | nil =>
      have e : f2fsText1 [(n, v)] = n ++ '=' :: v := rfl
      rw [e, flatMap_comma _ _ w2]
      have := Spaced.last (lead := []) (trail := []) (allC_nil _) (w := n ++ '=' :: v) (by simp) w1 (allC_nil _)
      simpa using this
    | cons g gs =>
      have ih := ih (fun f hf => h f (by simp [hf]))
      have e : f2fsText1 ((n, v) :: g :: gs) = (n ++ '=' :: v) ++ (cs!", " ++ f2fsText1 (g :: gs)) := by
        simp [f2fsText1]
      rw [e, List.flatMap_append, flatMap_comma _ _ w2]
      rw [List.flatMap_append]
      have := Spaced.cons (lead := []) (allC_nil _) (w := n ++ '=' :: v) (by simp) w1 (sp := ' ') (by decide)
        (Spaced.lead_blank ih)
      simpa using this

/-- **C54, part proved**: names and values without blanks, commas or `=`. -/
theorem C54_f2fs_partial (fs : List (Str × Str)) (h : ∀ f ∈ fs, f.1 ≠ [] ∧ Plain f.1 ∧ Plain f.2)
    (hk : (fs.map Prod.fst).Nodup) : f2fsDict (f2fsText fs) = some (fs.map fun f => (f.1, stringCastInt f.2)) := by
  unfold f2fsDict
  rw [f2fs_step1 fs h]
  have hs := f2fs_step2 fs h
  have hc := C12_payload_roundtrip (fs.map fun f => ⟨f.1, f.2, []⟩) (fun f => stringCastInt f.first)
    (replace cs!"," cs!" " (f2fsText1 fs)) ?_ ?_ ?_ ?_
  · rw [hc]; simp [List.map_map, Function.comp_def]
  · intro f hf
    obtain ⟨x, hx, rfl⟩ := List.mem_map.mp hf
    obtain ⟨_, h1, h2⟩ := h x hx
    exact ⟨fun c hc => ⟨(h1 c hc).2.2, (h1 c hc).1⟩, fun c hc => (h2 c hc).1, by simp, by simp⟩
  · simpa [List.map_map, Function.comp_def] using hk
  · intro f hf
    obtain ⟨x, hx, rfl⟩ := List.mem_map.mp hf
    obtain ⟨c1, c2⟩ := C13_cast x.2 (fun c hc => ((h x hx).2.2 c hc).1)
    by_cases hi : ∃ i, IntLit x.2 i
    · obtain ⟨i, hi⟩ := hi
      simp only [(c1 i).mpr hi]
      exact .int hi
    · have hi : ∀ i, ¬ IntLit x.2 i := fun i h => hi ⟨i, h⟩
      simp only [c2 hi]
      exact .str hi
  · have e : (fs.map fun f => (⟨f.1, f.2, []⟩ : Field)).flatMap Field.words = fs.map fun f => f.1 ++ '=' :: f.2 := by
      clear * -
      induction fs with
      | nil => rfl
      | cons f fs ih => simp [Field.words] at ih ⊢; exact ih
    rw [e]; exact hs

/-- **C54 refuted** for values with a comma, such as the device numbers the kernel prints: the comma is lost. -/
theorem C54_comma_refuted :
    f2fsDict cs!"dev = (254,0), ino = 5" = some [(cs!"dev", .str cs!"(254 0)"), (cs!"ino", .int 5)] ∧
    f2fsDict cs!"dev = (254,0), ino = 5" ≠ some [(cs!"dev", .str cs!"(254,0)"), (cs!"ino", .int 5)] := by
  refine ⟨?_, ?_⟩ <;> decide +kernel

example : f2fsDict (f2fsText [(cs!"ino", cs!"6"), (cs!"pos", cs!"0x10"), (cs!"name", cs!"x")]) =
    some [(cs!"ino", .int 6), (cs!"pos", .int 16), (cs!"name", .str cs!"x")] ∧
    f2fsText [(cs!"ino", cs!"6"), (cs!"pos", cs!"0x10")] = cs!"ino = 6, pos = 0x10" ∧
    f2fsSyncExitDict cs!"ino = 6, checkpoint is not needed, datasync = 0" =
      some [(cs!"ino", .int 6), (cs!"checkpoint", .str cs!"not needed"), (cs!"datasync", .int 0)] := by
  refine ⟨?_, ?_, ?_⟩ <;> decide +kernel

/-- a field `name = first word, other words` of an f2fs payload: no blanks, commas or `=` in the words -/
structure F2fsField (f : Field) : Prop where
  key : f.key ≠ [] ∧ Plain f.key
  first : f.first ≠ [] ∧ Plain f.first
  rest : ∀ w ∈ f.rest, w ≠ [] ∧ Plain w

/-- the text of a value -/
def Field.valueText (f : Field) : Str := joinC ' ' (f.first :: f.rest)

/-- the fields as names and texts of values -/
def f2fsPairs (fs : List Field) : List (Str × Str) := fs.map fun f => (f.key, f.valueText)

theorem joinC_not_mem {d : Char} (hd : d ≠ ' ') : ∀ ws : List Str, (∀ w ∈ ws, d ∉ w) → d ∉ joinC ' ' ws
  | [], _ => by simp [joinC]
  | [w], h => by simpa [joinC] using h
  | w :: v :: ws, h => by
    have ih := joinC_not_mem hd (v :: ws) fun x hx => h x (by simp [hx])
    simp only [joinC, List.mem_append, List.mem_cons, not_or]
    exact ⟨h w (by simp), hd, ih⟩

theorem F2fsField.value_eq {f : Field} (h : F2fsField f) : '=' ∉ f.valueText := by
  refine joinC_not_mem (by decide) _ ?_
  intro w hw hm
  rcases List.mem_cons.mp hw with rfl | hw
  · exact (h.first.2 _ hm).2.2 rfl
  · exact ((h.rest w hw).2 _ hm).2.2 rfl

theorem F2fsField.value_comma {f : Field} (h : F2fsField f) : ',' ∉ f.valueText := by
  refine joinC_not_mem (by decide) _ ?_
  intro w hw hm
  rcases List.mem_cons.mp hw with rfl | hw
  · exact (h.first.2 _ hm).2.1 rfl
  · exact ((h.rest w hw).2 _ hm).2.1 rfl

theorem f2fs_words_step1 (fs : List (Str × Str)) (h : ∀ f ∈ fs, f.1 ≠ [] ∧ Plain f.1 ∧ '=' ∉ f.2) :
    replace cs!" = " cs!"=" (f2fsText fs) = f2fsText1 fs := by
  have skip : ∀ (a s : Str), ' ' ∉ a → replace cs!" = " cs!"=" (a ++ s) = a ++ replace cs!" = " cs!"=" s := by
    intro a s ha
    apply replace_skip (by simp)
    rintro x c y rfl ⟨u, hu⟩
    simp at hu
    exact ha (by simp [← hu.1])
  have skipv : ∀ (a s : Str), '=' ∉ a → (∀ c ∈ s.head?, c ≠ '=') → replace cs!" = " cs!"=" (a ++ s) = a ++ replace cs!" = " cs!"=" s := by
    intro a s ha hs
    apply replace_skip (by simp)
    rintro x c y rfl ⟨u, hu⟩
    cases y with
    | nil =>
      cases s with
      | nil => simp at hu
      | cons d s =>
        simp at hu
        exact hs d (by simp) hu.2.1.symm
    | cons d y =>
      simp at hu
      exact ha (by simp [← hu.2.1])
  induction fs with
  | nil => rfl
  | cons f fs ih =>
    obtain ⟨n, v⟩ := f
    obtain ⟨hn, pn, pv⟩ := h (n, v) (by simp)
    cases fs with
    | nil =>
      simp only [f2fsText, f2fsText1]
      rw [skip n _ pn.sp, replace_hit (by simp)]
      have := skipv v [] pv (by simp)
      rw [List.append_nil, replace_nil, List.append_nil] at this
      rw [this]
    | cons g gs =>
      have ih := ih (fun f hf => h f (by simp [hf]))
      simp only [f2fsText, f2fsText1] at ih ⊢
      rw [skip n _ pn.sp, replace_hit (by simp), skipv v _ pv (by simp)]
      rw [show ∀ t : Str, cs!", " ++ t = [','] ++ (cs!" " ++ t) from fun t => rfl, skip [','] _ (by decide)]
      rw [skipv cs!" " _ (by decide) ?_, ih]
      · rfl
      · intro c hc
        obtain ⟨g1, g2⟩ := g
        obtain ⟨hg, pg, _⟩ := h (g1, g2) (by simp)
        obtain ⟨d, t, rfl⟩ := List.exists_cons_of_ne_nil hg
        have hd := (pg d (by simp)).2.2
        cases gs with
        | nil => simp [f2fsText] at hc; exact hc ▸ hd
        | cons g' gs => simp [f2fsText] at hc; exact hc ▸ hd

theorem spaced_words_append {ws vs : List Str} {a b : Str} (hw : ∀ w ∈ ws, w ≠ [] ∧ ∀ c ∈ w, isSpace c = false)
    (hne : ws ≠ []) (ha : a = joinC ' ' ws) (hb : Spaced vs b) : Spaced (ws ++ vs) (a ++ ' ' :: b) := by
  subst ha
  induction ws with
  | nil => exact absurd rfl hne
  | cons w ws ih =>
    obtain ⟨h1, h2⟩ := hw w (by simp)
    cases ws with
    | nil =>
      have := Spaced.cons (lead := []) (allC_nil _) h1 h2 (sp := ' ') (by decide) hb
      simpa [joinC] using this
    | cons v ws =>
      have ih := ih (fun x hx => hw x (by simp [hx])) (by simp)
      have := Spaced.cons (lead := []) (allC_nil _) h1 h2 (sp := ' ') (by decide) ih
      simpa [joinC] using this

theorem Field.text_eq (f : Field) : f.key ++ '=' :: f.valueText = joinC ' ' f.words := by
  unfold Field.valueText Field.words
  cases f.rest with
  | nil => simp [joinC]
  | cons w ws => simp [joinC]

theorem F2fsField.words_ok {f : Field} (h : F2fsField f) : ∀ w ∈ f.words, w ≠ [] ∧ ∀ c ∈ w, isSpace c = false := by
  intro w hw
  unfold Field.words at hw
  rcases List.mem_cons.mp hw with rfl | hw
  · refine ⟨by simp, ?_⟩
    intro c hc
    rcases List.mem_append.mp hc with hc | hc
    · exact (h.key.2 c hc).1
    · rcases List.mem_cons.mp hc with rfl | hc
      · decide
      · exact (h.first.2 c hc).1
  · exact ⟨(h.rest w hw).1, fun c hc => ((h.rest w hw).2 c hc).1⟩

theorem f2fs_words_step2 (fs : List Field) (h : ∀ f ∈ fs, F2fsField f) :
    Spaced (fs.flatMap Field.words) (replace cs!"," cs!" " (f2fsText1 (f2fsPairs fs))) := by
  rw [replace_char]
  have comma : ∀ f ∈ fs, ',' ∉ f.key ++ '=' :: f.valueText := by
    intro f hf hc
    rcases List.mem_append.mp hc with hc | hc
    · exact ((h f hf).key.2 _ hc).2.1 rfl
    · rcases List.mem_cons.mp hc with hc | hc
      · exact absurd hc (by decide)
      · exact (h f hf).value_comma hc
  induction fs with
  | nil => exact .nil (allC_nil _)
  | cons f fs ih =>
    have hf := h f (by simp)
    have hw : f.words ≠ [] := by simp [Field.words]
    cases fs with
    | nil =>
      have e : f2fsText1 (f2fsPairs [f]) = f.key ++ '=' :: f.valueText := rfl
      rw [e, flatMap_comma _ _ (comma f (by simp)), Field.text_eq]
      simp only [List.flatMap_cons, List.flatMap_nil, List.append_nil]
      exact spaced_join _ hf.words_ok
    | cons g gs =>
      have ih := ih (fun f hf => h f (by simp [hf])) (fun f hf => comma f (by simp [hf]))
      have e : f2fsText1 (f2fsPairs (f :: g :: gs)) = (f.key ++ '=' :: f.valueText) ++ (cs!", " ++ f2fsText1 (f2fsPairs (g :: gs))) := by
        simp [f2fsText1, f2fsPairs]
      rw [e, List.flatMap_append, flatMap_comma _ _ (comma f (by simp)), List.flatMap_append, List.flatMap_cons]
      exact spaced_words_append hf.words_ok hw f.text_eq (Spaced.lead_blank ih)

theorem F2fsField.wf {f : Field} (h : F2fsField f) : f.WF where
  key := fun c hc => ⟨(h.key.2 c hc).2.2, (h.key.2 c hc).1⟩
  first := fun c hc => (h.first.2 c hc).1
  rest := fun w hw => ⟨(h.rest w hw).1, fun c hc => ⟨((h.rest w hw).2 c hc).2.2, ((h.rest w hw).2 c hc).1⟩⟩
  keyNe := fun _ => h.key.1

/-- **C54, part proved**, values of several words: no blanks, commas or `=` in the words. -/
theorem C54_f2fs_words_partial (fs : List Field) (val : Field → Val) (h : ∀ f ∈ fs, F2fsField f)
    (hk : (fs.map Field.key).Nodup) (hval : ∀ f ∈ fs, f.Means (val f)) :
    f2fsDict (f2fsText (f2fsPairs fs)) = some (fs.map fun f => (f.key, val f)) := by
  unfold f2fsDict
  rw [f2fs_words_step1]
  · exact C12_payload_roundtrip fs val _ (fun f hf => (h f hf).wf) hk hval (f2fs_words_step2 fs h)
  · intro x hx
    obtain ⟨f, hf, rfl⟩ := List.mem_map.mp hx
    exact ⟨(h f hf).key.1, (h f hf).key.2, (h f hf).value_eq⟩

/-- The payload of `f2fs_sync_file_exit`: fields, `checkpoint is` and a text, fields. -/
def f2fsExitText (pre : List Field) (value : Str) (post : List Field) : Str :=
  (if pre = [] then [] else f2fsText (f2fsPairs pre) ++ cs!", ") ++
    (cs!"checkpoint is " ++ (value ++ if post = [] then [] else cs!", " ++ f2fsText (f2fsPairs post)))

theorem f2fsText_append (xs : List (Str × Str)) (y : Str × Str) (ys : List (Str × Str)) :
    f2fsText (xs ++ y :: ys) = (if xs = [] then [] else f2fsText xs ++ cs!", ") ++ f2fsText (y :: ys) := by
  induction xs with
  | nil => rfl
  | cons x xs ih =>
    obtain ⟨n, v⟩ := x
    cases xs with
    | nil => simp [f2fsText]
    | cons z zs =>
      simp only [List.cons_append, f2fsText] at ih ⊢
      rw [ih]
      simp

theorem checkpoint_skip (a s : Str) (ha : ¬ cs!"checkpoint" <:+: a) (hlast : a = [] ∨ a.getLast? = some ' ' ∨ s = []) :
    replace cs!"checkpoint is " cs!"checkpoint = " (a ++ s) = a ++ replace cs!"checkpoint is " cs!"checkpoint = " s := by
  apply replace_skip (by simp)
  rintro x c y rfl ⟨u, hu⟩
  apply ha
  rcases hlast with h | h | rfl
  · simp at h
  · have hl : (c :: y).getLast? = some ' ' := by
      rw [List.getLast?_append] at h
      cases hg : (c :: y).getLast? with
      | none => simp at hg
      | some d => rw [hg] at h; simpa using h
    by_cases hlen : 10 ≤ (c :: y).length
    · have h1 : cs!"checkpoint" <+: (c :: y) ++ s := ⟨cs!" is " ++ u, by simpa using hu⟩
      have h2 : cs!"checkpoint" <+: c :: y := List.prefix_of_prefix_length_le h1 (List.prefix_append _ _) (by simpa using hlen)
      exact h2.isInfix.trans (List.suffix_append x (c :: y)).isInfix
    · exfalso
      have h1 : c :: y <+: cs!"checkpoint" := by
        refine List.prefix_of_prefix_length_le (l₃ := (c :: y) ++ s) (List.prefix_append _ _) ⟨cs!" is " ++ u, by simpa using hu⟩ ?_
        simp only [List.length_cons, List.length_nil] at hlen ⊢
        omega
      have h2 : ' ' ∈ c :: y := List.mem_of_getLast? hl
      have := h1.subset h2
      revert this; decide
  · have h1 : cs!"checkpoint" <+: c :: y := ⟨cs!" is " ++ u, by
      rw [List.append_nil] at hu; rw [← hu]; simp⟩
    exact h1.isInfix.trans (List.suffix_append x (c :: y)).isInfix

/-- **C54** for `f2fs_sync_file_exit`: `checkpoint is` and a text of several words becomes the column `checkpoint` if the word
occurs only once. -/
theorem C54_sync_exit_partial (pre post : List Field) (f : Field) (val : Field → Val) (hc : f.key = cs!"checkpoint")
    (h : ∀ g ∈ pre ++ f :: post, F2fsField g) (hk : ((pre ++ f :: post).map Field.key).Nodup)
    (hval : ∀ g ∈ pre ++ f :: post, g.Means (val g))
    (h1 : ¬ cs!"checkpoint" <:+: f2fsText (f2fsPairs pre))
    (h2 : ¬ cs!"checkpoint" <:+: f.valueText ++ if post = [] then [] else cs!", " ++ f2fsText (f2fsPairs post)) :
    f2fsSyncExitDict (f2fsExitText pre f.valueText post) = some ((pre ++ f :: post).map fun g => (g.key, val g)) := by
  have key : replace cs!"checkpoint is " cs!"checkpoint = " (f2fsExitText pre f.valueText post) =
      f2fsText (f2fsPairs (pre ++ f :: post)) := by
    unfold f2fsExitText
    rw [checkpoint_skip, replace_hit (by simp), ← List.append_nil (f.valueText ++ _), checkpoint_skip _ _ h2 (Or.inr (Or.inr rfl)), replace_nil]
    · rw [show f2fsPairs (pre ++ f :: post) = f2fsPairs pre ++ (f.key, f.valueText) :: f2fsPairs post by simp [f2fsPairs],
        f2fsText_append]
      simp only [show f2fsPairs pre = [] ↔ pre = [] by simp [f2fsPairs], List.append_nil]
      congr 1
      cases post with
      | nil => simp [f2fsText, f2fsPairs, hc]
      | cons p ps => simp [f2fsText, f2fsPairs, hc]
    · split
      · decide
      · intro hi
        rw [show ∀ t : Str, t ++ cs!", " = (t ++ [',']) ++ [' '] by simp, List.infix_concat_iff, List.infix_concat_iff] at hi
        rcases hi with hi | hi | hi
        · have := hi.getLast (by simp)
          simp at this
        · have := hi.getLast (by simp)
          simp at this
        · exact h1 hi
    · split
      · exact Or.inl rfl
      · right; left; simp
  unfold f2fsSyncExitDict
  rw [key]
  exact C54_f2fs_words_partial _ val h hk hval

example : f2fsExitText [⟨cs!"ino", cs!"6", []⟩] cs!"no needed" [⟨cs!"datasync", cs!"0", []⟩, ⟨cs!"ret", cs!"-5", []⟩] =
      cs!"ino = 6, checkpoint is no needed, datasync = 0, ret = -5" ∧
    f2fsSyncExitDict cs!"ino = 6, checkpoint is no needed, datasync = 0, ret = -5" =
      some [(cs!"ino", .int 6), (cs!"checkpoint", .str cs!"no needed"), (cs!"datasync", .int 0), (cs!"ret", .int (-5))] ∧
    (¬ cs!"checkpoint" <:+: f2fsText [(cs!"ino", cs!"6")]) := by
  refine ⟨by decide +kernel, by decide +kernel, ?_⟩
  rw [← contains_iff]; decide +kernel

/-! ## C55 -/

/-- **C55.** A clock payload: the name, a blank, then fields as in C12. The row has the fields and the clock name. -/
theorem C55_clock (name : Str) (fs : List Field) (val : Field → Val) (data : Str) (hname : ' ' ∉ name)
    (hwf : ∀ f ∈ fs, f.WF) (hkeys : (fs.map Field.key).Nodup) (hval : ∀ f ∈ fs, f.Means (val f))
    (hdata : Spaced (fs.flatMap Field.words) data) (hclk : cs!"clk_name" ∉ fs.map Field.key) :
    clkDict (name ++ ' ' :: data) = some ((fs.map fun f => (f.key, val f)) ++ [(cs!"clk_name", .str name)]) := by
  unfold clkDict
  rw [split1_append hname]
  simp only [C12_payload_roundtrip fs val data hwf hkeys hval hdata, Option.map_some]
  congr 1
  clear * - hclk
  induction fs with
  | nil => rfl
  | cons f fs ih =>
    simp only [List.map_cons, List.mem_cons, not_or] at hclk
    simp only [List.map_cons, Dict.set, List.cons_append]
    rw [if_neg (fun h => hclk.1 h.symm), ih hclk.2]

/-- **C55.** Whatever the fields, the name is kept, and the other columns are those of the fields alone. -/
theorem C55_name (name data : Str) (hname : ' ' ∉ name) (d : Dict Val) (hd : clkDict (name ++ ' ' :: data) = some d) :
    d.get cs!"clk_name" = some (.str name) ∧
    ∃ e, generateDataDict data = some e ∧ ∀ k, k ≠ cs!"clk_name" → d.get k = e.get k := by
  unfold clkDict at hd
  rw [split1_append hname] at hd
  simp only [Option.map_eq_some_iff] at hd
  obtain ⟨e, he, rfl⟩ := hd
  refine ⟨by rw [Dict.get_set, if_pos rfl], e, he, ?_⟩
  intro k hk
  rw [Dict.get_set, if_neg (fun h => hk h.symm)]

/-- **C55.** A payload without a blank raises. -/
theorem C55_no_fields (data : Str) (h : ' ' ∉ data) : clkDict data = none := by
  unfold clkDict
  rw [split1_eq_none.mpr h]

example : clkDict cs!"bus_clk state=19200000 cpu_id=2" =
    some [(cs!"state", .int 19200000), (cs!"cpu_id", .int 2), (cs!"clk_name", .str cs!"bus_clk")] ∧
    clkDict cs!"bus_clk" = none := by decide +kernel

/-! ## C89 -/

/-- **C89.** Finalising renames `cpu_id` and `state` (and `ino`), in place: every column keeps its position and its
data, and every other name is unchanged. -/
theorem C89_rename {α : Type} (cols : List (Str × α)) (i : Nat) :
    (finalizeCpuFrequency cols)[i]? = cols[i]?.map (fun x =>
      (if x.1 = cs!"cpu_id" then cs!"cpu" else if x.1 = cs!"state" then cs!"frequency" else x.1, x.2)) ∧
    (finalizeCpuCapacity cols)[i]? = cols[i]?.map (fun x =>
      (if x.1 = cs!"cpu_id" then cs!"cpu" else if x.1 = cs!"state" then cs!"capacity" else x.1, x.2)) ∧
    (finalizeClkSetRate cols)[i]? = cols[i]?.map (fun x => (if x.1 = cs!"state" then cs!"rate" else x.1, x.2)) ∧
    (finalizeFs cols)[i]? = cols[i]?.map (fun x => (if x.1 = cs!"ino" then cs!"inode" else x.1, x.2)) := by
  have h1 : ∀ a b (cols : List (Str × α)), (renameCol a b cols)[i]? = cols[i]?.map fun x => (if x.1 = a then b else x.1, x.2) := by
    intro a b cols
    unfold renameCol
    rw [List.getElem?_map]
    congr 1
    funext x
    split <;> rfl
  refine ⟨?_, ?_, h1 _ _ _, h1 _ _ _⟩
  all_goals
    first | unfold finalizeCpuFrequency | unfold finalizeCpuCapacity
    rw [h1, h1, Option.map_map]
    congr 1
    funext x
    by_cases h : x.1 = cs!"cpu_id"
    · simp [h]
    · simp [h]

/-- **C89.** If the names are distinct and the new name is not among them, the renamed column is found under its new name
only. -/
theorem C89_lookup {α : Type} (a b : Str) (cols : List (Str × α)) (v : α) (hm : (a, v) ∈ cols)
    (hn : (cols.map Prod.fst).Nodup) (hb : b ∉ cols.map Prod.fst) :
    ((renameCol a b cols).map Prod.fst).Nodup ∧ (b, v) ∈ renameCol a b cols ∧ a ∉ (renameCol a b cols).map Prod.fst := by
  have e : (renameCol a b cols).map Prod.fst = (cols.map Prod.fst).map fun n => if n = a then b else n := by
    simp only [renameCol, List.map_map]
    apply List.map_congr_left
    intro x _
    simp only [Function.comp_apply]
    split <;> rfl
  have hab : a ≠ b := by
    rintro rfl
    exact hb (List.mem_map.mpr ⟨_, hm, rfl⟩)
  refine ⟨?_, ?_, ?_⟩
  · rw [e]
    apply List.Nodup.map_on _ hn
    intro x hx y hy h
    by_cases h1 : x = a
    · by_cases h2 : y = a
      · rw [h1, h2]
      · rw [if_pos h1, if_neg h2] at h; exact absurd (h ▸ hy) hb
    · by_cases h2 : y = a
      · rw [if_neg h1, if_pos h2] at h; exact absurd (h ▸ hx) hb
      · rwa [if_neg h1, if_neg h2] at h
  · exact List.mem_map.mpr ⟨(a, v), hm, by simp⟩
  · rw [e]
    intro h
    obtain ⟨x, _, h⟩ := List.mem_map.mp h
    split at h
    · exact hab h.symm
    · contradiction

/-- the renamed table; a trace that already has a column `cpu` gets two columns of that name -/
example : finalizeCpuFrequency [(cs!"state", 1), (cs!"x", 2), (cs!"cpu_id", 3)] = [(cs!"frequency", 1), (cs!"x", 2), (cs!"cpu", 3)] ∧
    finalizeCpuFrequency [(cs!"cpu", 1), (cs!"cpu_id", 3)] = [(cs!"cpu", 1), (cs!"cpu", 3)] := by decide +kernel

end Trappy
