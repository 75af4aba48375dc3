import Verif.Lemma.LineExact
import Verif.Prop.Header
import Verif.Prop.Line
/-!
# C01, C02: exactly which lines are read as they were printed
-/

namespace Trappy
open Re Py PrintedLine

/-- **C02 refuted**, for every line without a newline whose data have a dash followed by something like a header: the line is recognised, and
the name recorded for the task begins with everything printed up to that dash, the real header included. -/
theorem C02_forged_refuted (l : PrintedLine) (h : l.WF) (hnl : '\n' ∉ l.text) {a x : Str} (hd : l.data = a ++ '-' :: x) (hx : QuotesHeader x) :
    ∃ f hdr, parseLine l.text = some f ∧ l.text = l.lead ++ (hdr ++ l.data) ∧ l.comm ++ ['-'] <+: hdr ∧ hdr ++ a <+: f.comm := by
  have hnl' : AllC notNl l.text := by
    intro y hy
    simp only [notNl, bne_iff_ne]
    rintro rfl
    exact hnl hy
  obtain ⟨comm, c, r, hdr, e, hp, hc, hm, h1⟩ := match_dash h hnl' hd hx
  have hs := special_iff l.text
  rw [hm] at hs
  obtain ⟨f, hf⟩ := Option.isSome_iff_exists.mp hs.symm
  refine ⟨f, hdr, hf, e, hp, ?_⟩
  unfold parseLine at hf
  rw [hm] at hf
  simp only [Caps.get, h1] at hf
  split at hf
  · rename_i e1 _ _ _ _
    cases e1
    cases hf
    exact hc
  · cases hf

/-- data that begin like another event are recorded without that beginning -/
theorem m_events_data_short {s : Str} (hl : LooksLikeEvent s) (hnl : AllC notNl s) (c : Caps) :
    ∃ d rest c', m (.seq (.many eventRe) (.group 7 (plus notNl))) s c (fun s' c => some (c, s')) = some ((7, d) :: c', rest) ∧ d.length < s.length := by
  obtain ⟨w, sp, rest, e, hne, hw, hsp, hr⟩ := hl
  have hrnl : AllC notNl rest := fun y hy => hnl y (by rw [e]; simp [hy])
  have hM : Matches eventRe (w ++ ([':'] ++ [sp])) :=
    .group (.seq (matches_plus_of hne hw) (.seq (matches_lit_of _) (matches_plus_of (by simp) (by simpa using hsp))))
  let K : Str → Caps → Option (Caps × Str) := fun s' c' => m (.group 7 (plus notNl)) s' c' fun s' c => some (c, s')
  have hKs : ∀ n c', (mMany (m eventRe) n rest c' K).isSome := by
    intro n c'
    have h0 : (K rest c').isSome := by
      have := m_data hr hrnl c' (fun s' c => some (c, s')) (v := ((7, rest) :: c', [])) rfl
      exact Option.isSome_iff_exists.mpr ⟨_, this⟩
    cases n with
    | zero => exact h0
    | succ n =>
      rw [mMany]
      split
      · rfl
      · exact h0
  have hlen : rest.length < s.length := by rw [e]; simp; omega
  have hsome : (m eventRe s c fun s' c' => if s'.length < s.length then mMany (m eventRe) s.length s' c' K else none).isSome := by
    have es : s = (w ++ ([':'] ++ [sp])) ++ rest := by rw [e]; simp
    have := m_complete eventRe (by simp [eventRe, cat, Simple, plus, lit]) (w ++ ([':'] ++ [sp])) rest c
      (fun s' c' => if s'.length < s.length then mMany (m eventRe) s.length s' c' K else none) hM (by
        intro c'
        simp only [if_pos hlen]
        exact hKs _ c')
    rw [← es] at this
    exact this
  obtain ⟨v, hv⟩ := Option.isSome_iff_exists.mp hsome
  have hv0 := hv
  obtain ⟨pre, post, c1, _, _, hv⟩ := m_sound _ hv
  split at hv
  · rename_i hpl
    have hmany : m (.seq (.many eventRe) (.group 7 (plus notNl))) s c (fun s' c => some (c, s')) = some v := by
      rw [m, m, mMany, hv0]
    obtain ⟨post2, c2, hsuf, h2⟩ : ∃ post2 c2, post2 <:+ post ∧ K post2 c2 = some v := by
      have key : ∀ n (p : Str) (c : Caps), mMany (m eventRe) n p c K = some v → ∃ post2 c2, post2 <:+ p ∧ K post2 c2 = some v := by
        intro n
        induction n with
        | zero => intro p c h; exact ⟨p, c, List.suffix_refl _, h⟩
        | succ n ih =>
          intro p c h
          rw [mMany] at h
          split at h
          · rename_i w hw
            cases h
            obtain ⟨pre, post, c', e, _, h⟩ := m_sound _ hw
            split at h
            · obtain ⟨p2, c2, hs, h2⟩ := ih _ _ h
              exact ⟨p2, c2, hs.trans ⟨pre, e.symm⟩, h2⟩
            · cases h
          · exact ⟨p, c, List.suffix_refl _, h⟩
      exact key _ _ _ hv
    simp only [K] at h2
    rw [m] at h2
    obtain ⟨pre3, post3, c3, e3, _, h3⟩ := m_sound _ h2
    cases h3
    refine ⟨_, _, _, hmany, ?_⟩
    have := hsuf.length_le
    rw [List.length_take]
    omega
  · cases hv

/-- **C01**, exactly: a line without a newline is read as it was printed if and only if its data quote no header and do not begin like another event. -/
theorem C01_exact (l : PrintedLine) (h : l.WF) (hnl : '\n' ∉ l.text) (p q : Nat) (hp : IsDecimal l.pid p) (hq : IsDecimal l.cpu q) :
    parseLine l.text = some { comm := l.comm, pid := p, cpu := q, ts := l.tsText, us := l.frac.map ('.' :: ·), data := l.data } ↔
      ¬ l.Quotes ∧ ¬ LooksLikeEvent l.data := by
  constructor
  · intro hf
    have hnl' : AllC notNl l.text := by
      intro y hy
      simp only [notNl, bne_iff_ne]
      rintro rfl
      exact hnl hy
    have nodash : ¬ ∃ a x, l.data = a ++ '-' :: x ∧ QuotesHeader x := by
      rintro ⟨a, x, hd, hx⟩
      obtain ⟨f, hdr, hf', _, h1, h2⟩ := C02_forged_refuted l h hnl hd hx
      rw [hf] at hf'
      cases hf'
      have h1 := h1.length_le
      have h2 := h2.length_le
      simp only [List.length_append, List.length_cons, List.length_nil] at h1 h2
      omega
    have nq : ¬ l.Quotes := by
      rintro (hq | ⟨ht, a, x, hd, hx⟩)
      · exact nodash hq
      · cases ht' : l.tgid with
        | none => exact ht ht'
        | some wt =>
          obtain ⟨w, t⟩ := wt
          obtain ⟨v, s', hm, hsx, hcp⟩ := m_tgid_paren h hnl' ht' hd hx ((2, l.pid) :: (1, l.comm) :: [])
          obtain ⟨d, hl, hdl⟩ := cpuPart_data hcp
          have hsl := hsx.length_le
          have hsp : matchPrefix specialFieldsRe l.text = some v := m_special_of h nodash (by
            rw [afterComm_eq, m, m_lit_cons, m, m]
            apply m_plus_max l.pid h.pidNe h.pid (tgid_cpu_head h)
            rw [take_sub_len]
            exact hm)
          unfold parseLine at hf
          rw [hsp] at hf
          simp only [Caps.get, hl] at hf
          split at hf
          · rename_i e7
            cases e7
            simp only [Option.some.injEq, Fields.mk.injEq] at hf
            have := congrArg List.length hd
            rw [← hf.2.2.2.2.2] at this
            simp only [List.length_append, List.length_cons] at this
            omega
          · cases hf
    refine ⟨nq, fun hl => ?_⟩
    obtain ⟨ch, rest, hev, _⟩ := h.eventHead
    obtain ⟨d, r, c', hm, hd⟩ := m_events_data_short hl h.dataNl
      ((6, l.event ++ ':' :: l.ws3) :: tsCaps l.secs l.frac ((3, l.cpu) :: (2, l.pid) :: (1, l.comm) :: []))
    have hts : m tsDataRe l.tailText ((3, l.cpu) :: (2, l.pid) :: (1, l.comm) :: []) (fun s' c => some (c, s')) =
        some ((7, d) :: c', r) := by
      have e : l.tsText = tsOf l.secs l.frac := rfl
      simp only [tsDataRe, cat, m, tailText, e]
      simp only [List.cons_append, List.nil_append]
      apply m_timestamp h.secs h.secsNe h.frac
      have := m_str (α := Caps × Str) [':', ' '] (l.event ++ ':' :: (l.ws3 ++ l.data))
      simp only [List.cons_append, List.nil_append] at this
      rw [this]
      simp only [many1, m]
      apply m_event h.event (by simp [hev]) h.ws3 h.ws3Ne h.dataHead
      simpa only [m] using hm
    have key := m_special h nq hts
    unfold parseLine at hf
    rw [key] at hf
    simp only [Caps.get] at hf
    split at hf
    · rename_i e7
      simp only [List.lookup, beq_self_eq_true, Option.some.injEq] at e7
      simp only [Option.some.injEq, Fields.mk.injEq] at hf
      rw [e7, hf.2.2.2.2.2] at hd
      exact absurd hd (by omega)
    · cases hf
  · rintro ⟨h1, h2⟩
    exact C01_line_roundtrip l h h1 h2 p q hp hq

/-- **C02 refuted**, for every line with a tgid and without a newline whose data have a closing parenthesis followed by something like the second half of a header, and no dash followed by a whole one:
the task and its pid are the printed ones, but the CPU, the timestamp and the payload recorded are all taken from the data after the parenthesis. -/
theorem C02_paren_refuted (l : PrintedLine) (h : l.WF) (hnl : '\n' ∉ l.text) (ht : l.tgid ≠ none) {a x : Str} (hd : l.data = a ++ ')' :: x) (hx : QuotesCpu x)
    (hn : ¬ ∃ a x, l.data = a ++ '-' :: x ∧ QuotesHeader x) (p : Nat) (hp : IsDecimal l.pid p) :
    ∃ f, parseLine l.text = some f ∧ f.comm = l.comm ∧ f.pid = p ∧ (∃ cpu, cpu <:+: x ∧ PrintedLine.Digits cpu ∧ f.cpu = natVal cpu) ∧ f.ts <:+: x ∧ f.data <:+: x := by
  have hnl' : AllC notNl l.text := by
    intro y hy
    simp only [notNl, bne_iff_ne]
    rintro rfl
    exact hnl hy
  cases ht' : l.tgid with
  | none => exact absurd ht' ht
  | some wt =>
    obtain ⟨w, t⟩ := wt
    obtain ⟨v, s', hm, hsx, hcp⟩ := m_tgid_paren h hnl' ht' hd hx ((2, l.pid) :: (1, l.comm) :: [])
    have hsp : matchPrefix specialFieldsRe l.text = some v := m_special_of h hn (by
      rw [afterComm_eq, m, m_lit_cons, m, m]
      apply m_plus_max l.pid h.pidNe h.pid (tgid_cpu_head h)
      rw [take_sub_len]
      exact hm)
    obtain ⟨cpu, ts, d, k3, c3, i3, k4, i4, k7, i7, k1, k2⟩ := cpuPart_caps hcp
    have k1' : v.1.lookup 1 = some l.comm := k1
    have k2' : v.1.lookup 2 = some l.pid := k2
    refine ⟨
      { comm := l.comm, pid := p, cpu := natVal cpu, ts := ts, us := v.1.lookup 5, data := d }, ?_, rfl, rfl, ⟨cpu, i3.trans hsx.isInfix, c3, rfl⟩, i4.trans hsx.isInfix, i7.trans hsx.isInfix⟩
    unfold parseLine
    rw [hsp]
    simp only [Caps.get, k1', k2', k3, k4, k7, natVal_decimal hp]

/-- **C02** (partial): for a line without a tgid and without a newline, the header recorded is the printed one, whatever the numbers, if and only
if the data quote no header. -/
theorem C02_exact_partial (l : PrintedLine) (h : l.WF) (hnl : '\n' ∉ l.text) (ht : l.tgid = none) (p q : Nat) (hp : IsDecimal l.pid p) (hq : IsDecimal l.cpu q) :
    (∃ d, parseLine l.text = some { comm := l.comm, pid := p, cpu := q, ts := l.tsText, us := l.frac.map ('.' :: ·), data := d }) ↔
      ¬ ∃ a x, l.data = a ++ '-' :: x ∧ QuotesHeader x := by
  constructor
  · rintro ⟨d, hf⟩ ⟨a, x, hd, hx⟩
    obtain ⟨f, hdr, hf', _, h1, h2⟩ := C02_forged_refuted l h hnl hd hx
    rw [hf] at hf'
    cases hf'
    have h1 := h1.length_le
    have h2 := h2.length_le
    simp only [List.length_append, List.length_cons, List.length_nil] at h1 h2
    omega
  · intro hn
    obtain ⟨d, hd, _⟩ := C02_header_independent_of_data_partial l h (by
      rintro (h' | ⟨h', _⟩)
      · exact hn h'
      · exact h' ht) p q hp hq
    exact ⟨d, hd⟩

/-- brackets, dashes, colons and times in the data -/
def bracketLine : PrintedLine :=
  { exampleLine with data := cs!"comm=foo-1 pid=7 runtime=11 [ns] vruntime=[003] 5: x: y", tgid := none }

example : bracketLine.WF ∧ '\n' ∉ bracketLine.text ∧ parseLine bracketLine.text = some
    { comm := cs!"my [9] task-42 (x)", pid := 123, cpu := 3, ts := cs!"1234.567891", us := some cs!".567891", data := cs!"comm=foo-1 pid=7 runtime=11 [ns] vruntime=[003] 5: x: y" } :=
  ⟨wf_of_wfB (by decide +kernel), by decide +kernel, by decide +kernel⟩

/-- and so, by `C01_exact`, the data quote no header -/
example : ¬ bracketLine.Quotes ∧ ¬ LooksLikeEvent bracketLine.data :=
  (C01_exact bracketLine (wf_of_wfB (by decide +kernel)) (by decide +kernel) 123 3 ⟨2, by decide +kernel⟩ ⟨2, by decide +kernel⟩).1 (by decide +kernel)

/-- the line that quotes another one -/
example : forgedLine.WF ∧ '\n' ∉ forgedLine.text ∧ forgedLine.data = cs!"saw sh" ++ '-' :: cs!"99 [003] 9.5: open: f" ∧
    QuotesHeader cs!"99 [003] 9.5: open: f" := by
  refine ⟨wf_of_wfB (by decide +kernel), by decide +kernel, by decide +kernel, cs!"99", [], cs!" [003] 9.5: open: f", by decide +kernel, ?_, .inl rfl,
    cs!" ", cs!"003", [], cs!" ", cs!"9", cs!".5", cs!"open", ' ', cs!"f", by decide +kernel, ?_, ?_, .inl rfl, ?_, ?_, .inr ⟨cs!"5", by decide +kernel, ?_⟩, by decide +kernel, ?_, by decide +kernel, by decide +kernel⟩
  · exact ⟨by decide +kernel, by unfold AllC; decide +kernel⟩
  · exact ⟨by decide +kernel, by unfold AllC; decide +kernel⟩
  · exact ⟨by decide +kernel, by unfold AllC; decide +kernel⟩
  · exact ⟨by decide +kernel, by unfold AllC; decide +kernel⟩
  · exact ⟨by decide +kernel, by unfold AllC; decide +kernel⟩
  · exact ⟨by decide +kernel, by unfold AllC; decide +kernel⟩
  · unfold AllC; decide +kernel

/-- a line with a tgid whose data quote the second half of a header -/
def parenLine : PrintedLine :=
  { exampleLine with data := cs!"f(x) [003] 9.5: open: g" }

example : parenLine.WF ∧ '\n' ∉ parenLine.text ∧ parenLine.tgid ≠ none ∧ parenLine.data = cs!"f(x" ++ ')' :: cs!" [003] 9.5: open: g" ∧ parseLine parenLine.text = some
    { comm := cs!"my [9] task-42 (x)", pid := 123, cpu := 3, ts := cs!"9.5", us := some cs!".5", data := cs!"g" } :=
  ⟨wf_of_wfB (by decide +kernel), by decide +kernel, by decide +kernel, by decide +kernel, by decide +kernel⟩

example : QuotesCpu cs!" [003] 9.5: open: g" ∧ ¬ ∃ a x, parenLine.data = a ++ '-' :: x ∧ QuotesHeader x := by
  refine ⟨⟨cs!" ", cs!"003", [], cs!" ", cs!"9", cs!".5", cs!"open", ' ', cs!"g", by decide +kernel, ?_, ?_, .inl rfl, ?_, ?_, .inr ⟨cs!"5", by decide +kernel, ?_⟩, by decide +kernel, ?_, by decide +kernel, by decide +kernel⟩, ?_⟩
  · exact ⟨by decide +kernel, by unfold AllC; decide +kernel⟩
  · exact ⟨by decide +kernel, by unfold AllC; decide +kernel⟩
  · exact ⟨by decide +kernel, by unfold AllC; decide +kernel⟩
  · exact ⟨by decide +kernel, by unfold AllC; decide +kernel⟩
  · exact ⟨by decide +kernel, by unfold AllC; decide +kernel⟩
  · unfold AllC; decide +kernel
  · rintro ⟨a, x, e, _⟩
    have : '-' ∈ parenLine.data := by rw [e]; simp
    exact absurd this (by decide +kernel)

end Trappy
