import Verif.Lemma.Regex
import Verif.Model.Line
import Verif.Spec.Line
/-! Helper lemmas for the round trip of printed trace lines. -/

namespace Trappy
open Re Py PrintedLine

theorem isSpace_not_digit {ch : Char} (h : isDigit ch = true) : isSpace ch = false := by
  simp only [isDigit, Bool.and_eq_true, decide_eq_true_eq] at h
  simp only [isSpace, Bool.or_eq_false_iff, Bool.and_eq_false_iff, decide_eq_false_iff_not, beq_eq_false_iff_ne]
  omega

theorem isSpace_not_word {ch : Char} (h : isWord ch = true) : isSpace ch = false := by
  simp only [isWord, isDigit, isUpper, isLower, Bool.or_eq_true, Bool.and_eq_true, decide_eq_true_eq, beq_iff_eq] at h
  rcases h with ((h | h) | h) | h
  · simp only [isSpace, Bool.or_eq_false_iff, Bool.and_eq_false_iff, decide_eq_false_iff_not, beq_eq_false_iff_ne]
    omega
  · simp only [isSpace, Bool.or_eq_false_iff, Bool.and_eq_false_iff, decide_eq_false_iff_not, beq_eq_false_iff_ne]
    omega
  · simp only [isSpace, Bool.or_eq_false_iff, Bool.and_eq_false_iff, decide_eq_false_iff_not, beq_eq_false_iff_ne]
    omega
  · subst h; decide

theorem digit_ne {ch d : Char} (h : isDigit ch = true) (hd : isDigit d = false) : ch ≠ d := by
  rintro rfl; simp [h] at hd

theorem space_ne {ch d : Char} (h : isSpace ch = true) (hd : isSpace d = false) : ch ≠ d := by
  rintro rfl; simp [h] at hd

theorem word_ne {ch d : Char} (h : isWord ch = true) (hd : isWord d = false) : ch ≠ d := by
  rintro rfl; simp [h] at hd

/-- the captured text of a group that consumed `x`. -/
theorem take_sub_len (x r : Str) : (x ++ r).take ((x ++ r).length - r.length) = x := by
  simp

/-- step: the data group and the end of the pattern. -/
theorem m_data {α : Type} {d : Str} (hne : d ≠ []) (hnl : AllC notNl d) (c : Caps) (k : Str → Caps → Option α)
    {v : α} (hk : k [] ((7, d) :: c) = some v) : m (.group 7 (plus notNl)) d c k = some v := by
  simp only [m]
  have := m_plus_max (p := notNl) d (rest := []) (c := c)
    (k := fun s' c' => k s' ((7, d.take (d.length - s'.length)) :: c')) (v := v) hne hnl (by simp) (by simpa using hk)
  simpa using this

/-- a text that does not look like an event: if one is matched, nothing is left -/
theorem eventRe_none {α : Type} {d : Str} (h : ¬ LooksLikeEvent d) (c : Caps) (k : Str → Caps → Option α) (hk : ∀ c', k [] c' = none) :
    m eventRe d c k = none := by
  cases hm : m eventRe d c k with
  | none => rfl
  | some v0 =>
  exfalso
  obtain ⟨pre, post, c', e, hm, hk'⟩ := m_sound _ hm
  have h1 := matches_group hm
  simp only [cat] at h1
  obtain ⟨u, v, e1, hu, hv⟩ := matches_seq h1
  obtain ⟨u2, v2, e2, hu2, hv2⟩ := matches_seq hv
  obtain ⟨hne, hw⟩ := matches_plus hu
  have := matches_lit hu2
  obtain ⟨hne2, hs⟩ := matches_plus hv2
  subst e1 e2 this
  cases v2 with
  | nil => exact hne2 rfl
  | cons sp r =>
    by_cases hr : r ++ post = []
    · rw [List.append_eq_nil_iff] at hr
      rw [hr.2, hk c'] at hk'
      cases hk'
    · exact h ⟨u, sp, r ++ post, by simp [e], hne, hw, hs sp (by simp), hr⟩

theorem m_event {α : Type} {ev ws d : Str} (hev : AllC isWord ev) (hne : ev ≠ []) (hws : AllC isSpace ws)
    (hwne : ws ≠ []) (hd : ∀ ch ∈ d.head?, isSpace ch = false) (c : Caps) (k : Str → Caps → Option α) {v : α}
    (hk : k d ((6, ev ++ ':' :: ws) :: c) = some v) :
    m eventRe (ev ++ ':' :: (ws ++ d)) c k = some v := by
  simp only [eventRe, cat, m]
  apply m_plus_max ev hne hev
  · intro y hy; simp at hy; subst hy; decide
  · rw [m_lit_cons]
    apply m_plus_max ws hwne hws hd
    have : (ev ++ ':' :: (ws ++ d)) = (ev ++ ':' :: ws) ++ d := by simp
    rw [this, take_sub_len]; exact hk

/-- step: `(\w+:\s+)+` followed by the data. -/
theorem m_events_data {α : Type} {ev ws d : Str} (hev : AllC isWord ev) (hne : ev ≠ []) (hws : AllC isSpace ws)
    (hwne : ws ≠ []) (hd : ∀ ch ∈ d.head?, isSpace ch = false) (hdne : d ≠ []) (hdnl : AllC notNl d)
    (hde : ¬ LooksLikeEvent d) (c : Caps) (k : Str → Caps → Option α) {v : α}
    (hk : k [] ((7, d) :: (6, ev ++ ':' :: ws) :: c) = some v) :
    m (cat [many1 eventRe, .group 7 (plus notNl)]) (ev ++ ':' :: (ws ++ d)) c k = some v := by
  simp only [cat, many1, m]
  apply m_event hev hne hws hwne hd
  rw [mMany]
  rw [eventRe_none hde]
  · exact m_data hdne hdnl _ _ hk
  · intro c'
    have : ∀ n, mMany (m eventRe) n [] c' (fun s' c' => m (.group 7 (plus notNl)) s' c' k) = none := by
      intro n
      cases n with
      | zero => rfl
      | succ n => rfl
    split
    · exact this _
    · rfl

/-- Captures after the timestamp. -/
def tsCaps (secs : Str) (frac : Option Str) (c : Caps) : Caps :=
  match frac with
  | none => (4, secs) :: c
  | some f => (4, secs ++ '.' :: f) :: (5, '.' :: f) :: c

/-- Text of the timestamp. -/
def tsOf (secs : Str) (frac : Option Str) : Str :=
  match frac with
  | none => secs
  | some f => secs ++ '.' :: f

theorem m_timestamp {α : Type} {secs : Str} {frac : Option Str} {rest : Str} (hs : AllC isDigit secs)
    (hne : secs ≠ []) (hf : ∀ f, frac = some f → f ≠ [] ∧ AllC isDigit f) (c : Caps)
    (k : Str → Caps → Option α) {v : α}
    (hk : k (':' :: rest) (tsCaps secs frac c) = some v) :
    m timestampRe (tsOf secs frac ++ ':' :: rest) c k = some v := by
  cases frac with
  | none =>
    simp only [tsCaps, tsOf] at hk ⊢
    simp only [timestampRe, m, opt]
    apply m_plus_max secs hne hs
    · intro y hy; simp at hy; subst hy; decide
    · rw [m_lit_ne (by decide)]
      simpa using hk
  | some f =>
    obtain ⟨fne, fd⟩ := hf f rfl
    simp only [tsCaps, tsOf] at hk ⊢
    simp only [timestampRe, m, opt]
    have e : secs ++ '.' :: f ++ ':' :: rest = secs ++ ('.' :: f ++ ':' :: rest) := by simp
    rw [e]
    apply m_plus_max secs hne hs
    · intro y hy; simp at hy; subst hy; decide
    · have hx := m_plus_max (p := isDigit) f (rest := ':' :: rest) (c := c)
        (k := fun s' c' => k s' ((4, List.take ((secs ++ ('.' :: f ++ ':' :: rest)).length - s'.length)
          (secs ++ ('.' :: f ++ ':' :: rest))) ::
          (5, List.take (('.' :: f ++ ':' :: rest).length - s'.length) ('.' :: f ++ ':' :: rest)) :: c'))
        (v := v) fne fd (by intro y hy; simp at hy; subst hy; decide) (by
          have e1 := take_sub_len (secs ++ '.' :: f) (':' :: rest)
          have e2 := take_sub_len ('.' :: f) (':' :: rest)
          rw [← e]
          rw [e1, e2]; exact hk)
      simp only [List.cons_append, m_lit_cons] at hx ⊢
      rw [hx]

/-- step: timestamp, event name(s) and data. -/
theorem m_tsData {l : PrintedLine} (h : l.WF) (hde : ¬ LooksLikeEvent l.data) {α : Type} (c : Caps) (k : Str → Caps → Option α) {v : α}
    (hk : k [] ((7, l.data) :: (6, l.event ++ ':' :: l.ws3) :: tsCaps l.secs l.frac c) = some v) :
    m tsDataRe l.tailText c k = some v := by
  obtain ⟨ch, rest, hev, _⟩ := h.eventHead
  have e : l.tsText = tsOf l.secs l.frac := rfl
  simp only [tsDataRe, cat, m, tailText, e]
  simp only [List.cons_append, List.nil_append]
  apply m_timestamp h.secs h.secsNe h.frac
  have := m_str (α := α) [':', ' '] (l.event ++ ':' :: (l.ws3 ++ l.data))
  simp only [List.cons_append, List.nil_append] at this
  rw [this]
  have := m_events_data h.event (by simp [hev]) h.ws3 h.ws3Ne h.dataHead h.dataNe h.dataNl hde _ _ hk
  simpa only [cat, m] using this

theorem matches_ts_head {x : Str} (h : Matches tsDataRe x) : ∃ d r, x = d :: r ∧ isDigit d = true := by
  simp only [tsDataRe, cat] at h
  obtain ⟨u, v, e, hu, _⟩ := matches_seq h
  have hu := matches_group hu
  obtain ⟨u1, v1, e1, hu1, _⟩ := matches_seq hu
  obtain ⟨hne, hd⟩ := matches_plus hu1
  cases u1 with
  | nil => exact absurd rfl hne
  | cons a b => exact ⟨a, b ++ v1 ++ v, by simp [e, e1], hd a (by simp)⟩

/-- If `s = a ++ x :: t` with `a` all in the class and `x` not, then any prefix in the class is within `a`. -/
theorem class_prefix {p : Char → Bool} {a pre post t : Str} {x : Char} (hp : ∀ y ∈ pre, p y = true)
    (hx : p x = false) (e : a ++ x :: t = pre ++ post) : ∃ b, a = pre ++ b ∧ post = b ++ x :: t := by
  induction pre generalizing a with
  | nil => exact ⟨a, rfl, by simpa using e.symm⟩
  | cons y pre ih =>
    cases a with
    | nil =>
      simp at e
      have := hp y (by simp)
      rw [← e.1, hx] at this; cases this
    | cons z a =>
      simp only [List.cons_append, List.cons.injEq] at e
      obtain ⟨b, e1, e2⟩ := ih (fun w hw => hp w (by simp [hw])) e.2
      exact ⟨b, by simp [e.1, e1], e2⟩

/-- A dropped suffix of `a ++ b`. -/
theorem append_split {a b pre post : Str} (e : a ++ b = pre ++ post) :
    (∃ u, a = pre ++ u ∧ post = u ++ b) ∨ (∃ u, pre = a ++ u ∧ b = u ++ post) := by
  rcases List.append_eq_append_iff.mp e with ⟨u, h1, h2⟩ | ⟨u, h1, h2⟩
  · exact .inr ⟨u, h1, h2⟩
  · exact .inl ⟨u, h1, h2⟩


theorem tsOf_head {l : PrintedLine} (h : l.WF) : ∃ d r, l.tailText = d :: r ∧ isDigit d = true := by
  have hs := h.secs; have hne := h.secsNe
  cases e : l.secs with
  | nil => exact absurd e hne
  | cons a b =>
    have : isDigit a = true := hs a (by simp [e])
    unfold tailText tsText
    cases l.frac with
    | none => exact ⟨a, _, by simp [e]; rfl, this⟩
    | some f => exact ⟨a, _, by simp [e]; rfl, this⟩

theorem m_ws_ts {l : PrintedLine} (h : l.WF) {α : Type} {w : Str} (hw : AllC isSpace w) (hne : w ≠ []) (c : Caps)
    (k : Str → Caps → Option α) {v : α}
    (hk : m tsDataRe l.tailText c k = some v) :
    m (.seq (plus isSpace) tsDataRe) (w ++ l.tailText) c k = some v := by
  simp only [m]
  obtain ⟨d, r, e, hd⟩ := tsOf_head h
  apply m_plus_max w hne hw
  · intro y hy; rw [e] at hy; simp at hy; subst hy; exact isSpace_not_digit hd
  · exact hk

/-- no blank in the timestamp text -/
theorem tsText_nospace {l : PrintedLine} (h : l.WF) : ∀ ch ∈ l.tsText, isSpace ch = false := by
  intro ch hch
  unfold tsText at hch
  cases hf : l.frac with
  | none => rw [hf] at hch; exact isSpace_not_digit (h.secs ch hch)
  | some f =>
    rw [hf] at hch
    simp only [List.mem_append, List.mem_cons] at hch
    rcases hch with hch | rfl | hch
    · exact isSpace_not_digit (h.secs ch hch)
    · decide
    · exact isSpace_not_digit ((h.frac f hf).2 ch hch)

theorem tsText_ne {l : PrintedLine} (h : l.WF) : l.tsText ≠ [] := by
  unfold tsText
  have := h.secsNe
  cases l.frac <;> simp [this]

/-- Dropping at most four characters of the tail never leaves "blanks then a digit". -/
theorem tail_drop {l : PrintedLine} (h : l.WF) {u w post : Str} {d : Char} (hu : u.length ≤ 4)
    (hw : AllC isSpace w) (hne : w ≠ []) (hd : isDigit d = true) (e : l.tailText = u ++ (w ++ d :: post)) : False := by
  cases w with
  | nil => exact hne rfl
  | cons x w =>
  have hx : isSpace x = true := hw x (by simp)
  have hns := tsText_nospace h
  unfold tailText at e
  rcases append_split e with ⟨b, e1, e2⟩ | ⟨b, e1, e2⟩
  · -- `u` ends inside the timestamp
    cases b with
    | nil =>
      simp at e2
      have := e2.1; subst this; revert hx; decide
    | cons y b =>
      simp at e2
      have : y = x := e2.1.symm
      subst this
      have := hns y (by rw [e1]; simp)
      rw [this] at hx; cases hx
  · have hl : 1 ≤ l.tsText.length := by
      have := tsText_ne h
      cases hq : l.tsText with
      | nil => exact absurd hq this
      | cons _ _ => simp
    have hlu : l.tsText.length + b.length ≤ 4 := by rw [e1] at hu; simpa using hu
    obtain ⟨ec, er, hev, hed⟩ := h.eventHead
    match b, hlu with
    | [], _ => simp at e2; have := e2.1; subst this; revert hx; decide
    | [b1], _ =>
      simp only [List.cons_append, List.nil_append, List.cons.injEq] at e2
      obtain ⟨_, e3, e4⟩ := e2
      -- after the blank comes the event name
      have hec : isSpace ec = false := isSpace_not_word (h.event ec (by simp [hev]))
      cases w with
      | nil =>
        rw [hev] at e4; simp at e4
        rw [e4.1] at hed; simp [hd] at hed
      | cons y w =>
        rw [hev] at e4; simp at e4
        have := hw y (by simp)
        rw [← e4.1, hec] at this; cases this
    | [b1, b2], _ =>
      simp only [List.cons_append, List.nil_append, List.cons.injEq] at e2
      obtain ⟨_, _, e4⟩ := e2
      have hec : isSpace ec = false := isSpace_not_word (h.event ec (by simp [hev]))
      rw [hev] at e4; simp at e4
      rw [← e4.1, hec] at hx; cases hx
    | b1 :: b2 :: b3 :: bs, hlu =>
      have : bs = [] := by
        cases bs with
        | nil => rfl
        | cons _ _ => simp at hlu; omega
      subst this
      simp only [List.cons_append, List.nil_append, List.cons.injEq] at e2
      obtain ⟨_, _, e4⟩ := e2
      rw [hev] at e4; simp at e4
      have e4 := e4.2
      cases er with
      | nil => simp at e4; rw [← e4.1] at hx; revert hx; decide
      | cons z er =>
        simp at e4
        have : isSpace z = false := isSpace_not_word (h.event z (by simp [hev]))
        rw [← e4.1, this] at hx; cases hx

theorem flags_none {l : PrintedLine} (h : l.WF) (hf : l.flags = none) {α : Type} (c : Caps)
    (k : Str → Caps → Option α) :
    m flagsRe (l.ws2 ++ l.tailText) c (fun s' c' => m (.seq (plus isSpace) tsDataRe) s' c' k) = none := by
  cases hm : m flagsRe (l.ws2 ++ l.tailText) c (fun s' c' => m (.seq (plus isSpace) tsDataRe) s' c' k) with
  | none => rfl
  | some v =>
    exfalso
    obtain ⟨pre, post, c', e, hp, hk⟩ := m_sound _ hm
    obtain ⟨p2, q2, _, e2, hp2, _⟩ := m_sound _ hk
    obtain ⟨u, t, e3, hu, ht⟩ := matches_seq hp2
    obtain ⟨une, ud⟩ := matches_plus hu
    obtain ⟨dg, r, e4, hdg⟩ := matches_ts_head ht
    simp only [flagsRe, cat] at hp
    obtain ⟨w, f, e5, hw, hf4⟩ := matches_seq hp
    obtain ⟨wne, wd⟩ := matches_plus hw
    obtain ⟨f1, g1, e6, h6, hg1⟩ := matches_seq hf4
    obtain ⟨f2, g2, e7, h7, hg2⟩ := matches_seq hg1
    obtain ⟨f3, f4, e8, h8, h9⟩ := matches_seq hg2
    obtain ⟨y1, rfl, _⟩ := matches_chr h6
    obtain ⟨y2, rfl, _⟩ := matches_chr h7
    obtain ⟨y3, rfl, _⟩ := matches_chr h8
    obtain ⟨y4, rfl, _⟩ := matches_chr h9
    have hlen := h.ws2Len hf
    have hwl : 1 ≤ w.length := by cases w with
      | nil => exact absurd rfl wne
      | cons _ _ => simp
    obtain ⟨td, tr, et, htd⟩ := tsOf_head h
    -- the whole decomposition
    have E : l.ws2 ++ l.tailText = (w ++ [y1, y2, y3, y4]) ++ (u ++ dg :: (r ++ q2)) := by
      rw [e, e5, e6, e7, e8, e2, e3, e4]; simp
    have E' : l.ws2 ++ td :: tr = w ++ ([y1, y2, y3, y4] ++ (u ++ dg :: (r ++ q2))) := by
      rw [← et, E]; simp
    obtain ⟨b, hb, _⟩ := class_prefix wd (isSpace_not_digit htd) E'
    rcases append_split E with ⟨b2, g1, g2⟩ | ⟨b2, g1, g2⟩
    · -- the blanks extend over the four characters: impossible, at most five blanks
      cases b2 with
      | nil =>
        simp at g2
        rw [et] at g2
        cases u with
        | nil => exact une rfl
        | cons x u =>
          simp at g2
          have := ud x (by simp)
          rw [g2.1, isSpace_not_digit htd] at this; cases this
      | cons x b2 =>
        have := congrArg List.length g1
        simp at this; omega
    · apply tail_drop h (u := b2) (w := u) (d := dg) (post := r ++ q2) _ ud une hdg g2
      have := congrArg List.length g1
      have hb' := congrArg List.length hb
      simp at this hb'; omega

theorem m_flags {l : PrintedLine} (h : l.WF) {α : Type} (c : Caps) (k : Str → Caps → Option α) {v : α}
    (hk : m tsDataRe l.tailText c k = some v) :
    m (cat [opt flagsRe, plus isSpace, tsDataRe]) (l.flagsText ++ (l.ws2 ++ l.tailText)) c k = some v := by
  have hmain := m_ws_ts h h.ws2 h.ws2Ne c k hk
  simp only [cat, opt]
  rw [m]; rw [m]
  unfold flagsText
  cases hf : l.flags with
  | none =>
    simp only [List.nil_append]
    rw [flags_none h hf]
    simpa only [m] using hmain
  | some wf =>
    obtain ⟨w, f⟩ := wf
    obtain ⟨wne, hw, hl, hfc⟩ := h.flags w f hf
    match f, hl with
    | [f1, f2, f3, f4], _ =>
      have hns : ∀ x ∈ [f1, f2, f3, f4], isSpace x = false ∧ notNl x = true := by
        intro x hx
        have := hfc x hx
        simp only [Bool.and_eq_true, Bool.not_eq_true'] at this
        refine ⟨this.1, ?_⟩
        simp only [notNl, bne_iff_ne]
        rintro rfl
        exact absurd this.1 (by decide)
      have key : m flagsRe (w ++ ([f1, f2, f3, f4] ++ (l.ws2 ++ l.tailText))) c
          (fun s' c' => m (.seq (plus isSpace) tsDataRe) s' c' k) = some v := by
        simp only [flagsRe, cat]
        rw [m]
        apply m_plus_max w wne hw
        · intro y hy; simp at hy; subst hy; exact (hns _ (by simp)).1
        · simp only [List.cons_append, List.nil_append, m, (hns f1 (by simp)).2, (hns f2 (by simp)).2,
            (hns f3 (by simp)).2, (hns f4 (by simp)).2, if_true]
          simpa only [m] using hmain
      have e : w ++ [f1, f2, f3, f4] ++ (l.ws2 ++ l.tailText) = w ++ ([f1, f2, f3, f4] ++ (l.ws2 ++ l.tailText)) := by
        simp
      simp only [e, key]

/-- where a dash or a closing parenthesis can stand after the bracket of the cpu: in the data or in the flags -/
theorem tail_locate {l : PrintedLine} (h : l.WF) {ch : Char} (hch : isSpace ch = false ∧ isWord ch = false ∧ ch ≠ '.' ∧ ch ≠ ':') {pre x : Str}
    (e : l.flagsText ++ (l.ws2 ++ l.tailText) = pre ++ ch :: x) :
    (∃ a, l.data = a ++ ch :: x) ∨ ∃ f, (∀ y ∈ f, isSpace y = false) ∧ x = f ++ (l.ws2 ++ l.tailText) := by
  obtain ⟨h1, h2, h3, h4⟩ := hch
  have hdig : isDigit ch = false := by
    cases hd : isDigit ch with
    | false => rfl
    | true => simp [isWord, hd] at h2
  -- a part without the character
  have skip : ∀ {p q pre x : Str}, ch ∉ p → p ++ q = pre ++ ch :: x → ∃ pre', q = pre' ++ ch :: x := by
    intro p q pre x hp e
    rcases append_split e with ⟨u, e1, e2⟩ | ⟨u, e1, e2⟩
    · cases u with
      | nil => exact ⟨[], by simpa using e2.symm⟩
      | cons y u =>
        simp only [List.cons_append, List.cons.injEq] at e2
        exact absurd (by rw [e1, ← e2.1]; simp) hp
    · exact ⟨u, e2⟩
  rcases append_split e with ⟨u, e1, e2⟩ | ⟨u, e1, e2⟩
  · cases u with
    | nil =>
      simp only [List.nil_append] at e2
      have hw := h.ws2
      cases hw2 : l.ws2 with
      | nil => exact absurd hw2 h.ws2Ne
      | cons y w =>
        rw [hw2] at e2
        simp only [List.cons_append, List.cons.injEq] at e2
        have := hw y (by simp [hw2])
        rw [← e2.1, h1] at this
        cases this
    | cons y u =>
      simp only [List.cons_append, List.cons.injEq] at e2
      obtain ⟨rfl, e2⟩ := e2
      right
      unfold flagsText at e1
      cases hf : l.flags with
      | none => simp [hf] at e1
      | some wf =>
        obtain ⟨w, f⟩ := wf
        obtain ⟨_, hw, _, hfc⟩ := h.flags w f hf
        rw [hf] at e1
        change w ++ f = _ at e1
        obtain ⟨b, hb⟩ := skip (p := w) (q := f) (pre := pre) (x := u) (by
          intro hc
          rw [hw _ hc] at h1
          cases h1) e1
        refine ⟨u, ?_, e2⟩
        intro z hz
        have := hfc z (by rw [hb]; simp [hz])
        simp only [Bool.and_eq_true, Bool.not_eq_true'] at this
        exact this.1
  · left
    obtain ⟨p1, e3⟩ := skip (fun hc => by rw [h.ws2 _ hc] at h1; cases h1) e2
    unfold tailText at e3
    obtain ⟨p2, e4⟩ := skip (by
      intro hc
      unfold tsText at hc
      cases hf : l.frac with
      | none => rw [hf] at hc; rw [h.secs _ hc] at hdig; cases hdig
      | some f =>
        rw [hf] at hc
        simp only [List.mem_append, List.mem_cons] at hc
        rcases hc with hc | hc | hc
        · rw [h.secs _ hc] at hdig; cases hdig
        · exact h3 hc
        · rw [(h.frac f hf).2 _ hc] at hdig; cases hdig) e3
    obtain ⟨p3, e5⟩ := skip (p := [':', ' ']) (by
      intro hc
      simp only [List.mem_cons, List.not_mem_nil, or_false] at hc
      rcases hc with hc | hc
      · exact h4 hc
      · subst hc; revert h1; decide) e4
    obtain ⟨p4, e6⟩ := skip (fun hc => by rw [h.event _ hc] at h2; cases h2) e5
    obtain ⟨p5, e7⟩ := skip (p := [':']) (q := l.ws3 ++ l.data) (by
      intro hc
      exact h4 (List.mem_singleton.1 hc)) e6
    exact skip (fun hc => by rw [h.ws3 _ hc] at h1; cases h1) e7

/-- the first character after some blanks -/
theorem blanks_next {w w' r r' : Str} {a b : Char} (hw : AllC isSpace w) (hw' : AllC isSpace w') (ha : isSpace a = false) (hb : isSpace b = false)
    (e : w ++ a :: r = w' ++ b :: r') : a = b := by
  induction w generalizing w' with
  | nil =>
    cases w' with
    | nil => simp at e; exact e.1
    | cons y w' =>
      simp only [List.nil_append, List.cons_append, List.cons.injEq] at e
      have := hw' y (by simp)
      rw [← e.1, ha] at this
      cases this
  | cons x w ih =>
    cases w' with
    | nil =>
      simp only [List.nil_append, List.cons_append, List.cons.injEq] at e
      have := hw x (by simp)
      rw [e.1, hb] at this
      cases this
    | cons y w' =>
      simp only [List.cons_append, List.cons.injEq] at e
      exact ih (fun z hz => hw z (by simp [hz])) (fun z hz => hw' z (by simp [hz])) e.2

/-- the second half of a header does not begin after the flags -/
theorem not_cpu_ws2 {l : PrintedLine} (h : l.WF) (hq : QuotesCpu (l.ws2 ++ l.tailText)) : False := by
  obtain ⟨ws1, cpu, flags, ws2, secs, frac, event, sp, rest, e, hw, -⟩ := hq
  obtain ⟨d, r, et, hd⟩ := tsOf_head h
  rw [et] at e
  have := blanks_next h.ws2 hw.2 (isSpace_not_digit hd) (by decide) e
  subst this
  revert hd
  decide

theorem cat_cons (r s : Re) (rs : List Re) : cat (r :: s :: rs) = .seq r (cat (s :: rs)) := rfl

theorem cat_one (r : Re) : cat [r] = r := rfl

/-- `SPECIAL_FIELDS_RE` from the cpu bracket on. -/
def cpuPartRe : Re :=
  cat [plus isSpace, lit '[', .group 3 (plus isDigit), lit ']', opt flagsRe, plus isSpace, tsDataRe]

/-- The text of a printed line from the blanks before the cpu on. -/
def cpuText (l : PrintedLine) : Str := l.ws1 ++ ('[' :: (l.cpu ++ (']' :: (l.flagsText ++ (l.ws2 ++ l.tailText)))))

theorem m_cpu {l : PrintedLine} (h : l.WF) {α : Type} (c : Caps) (k : Str → Caps → Option α) {v : α}
    (hk : m tsDataRe l.tailText ((3, l.cpu) :: c) k = some v) : m cpuPartRe (cpuText l) c k = some v := by
  have hmain := m_flags h ((3, l.cpu) :: c) k hk
  unfold cpuPartRe cpuText
  rw [cat_cons]
  rw [m]
  apply m_plus_max l.ws1 h.ws1Ne h.ws1
  · intro y hy; simp at hy; subst hy; decide
  · rw [cat_cons]
    rw [m, m_lit_cons, cat_cons]
    rw [m, m]
    apply m_plus_max l.cpu h.cpuNe h.cpu
    · intro y hy; simp at hy; subst hy; decide
    · rw [cat_cons]
      rw [m, m_lit_cons, take_sub_len]
      exact hmain

/-- A text that begins with a match of the part from the timestamp on. -/
theorem matches_tsData {p : Str} (h : Matches tsDataRe p) :
    ∃ secs frac event sp rest, p = secs ++ (frac ++ ':' :: ' ' :: (event ++ ':' :: sp :: rest)) ∧ Digits secs ∧ (frac = [] ∨ ∃ f, frac = '.' :: f ∧ Digits f) ∧
      event ≠ [] ∧ AllC isWord event ∧ isSpace sp = true ∧ rest ≠ [] := by
  simp only [tsDataRe, cat, timestampRe, many1, eventRe] at h
  obtain ⟨t, v1, e1, h1, g1⟩ := matches_seq h
  obtain ⟨c, v2, e2, h2, g2⟩ := matches_seq g1
  obtain ⟨u, d, e3, h3, hd⟩ := matches_seq g2
  obtain ⟨ev, evs, e4, h4, _⟩ := matches_seq h3
  obtain ⟨secs, frac, e5, h5, h6⟩ := matches_seq (matches_group h1)
  have hc := matches_str h2
  obtain ⟨w, z, e7, h7, h8⟩ := matches_seq (matches_group h4)
  obtain ⟨z1, z2, e8, h9, h10⟩ := matches_seq h8
  have hz1 := matches_lit h9
  obtain ⟨z2ne, hz2⟩ := matches_plus h10
  obtain ⟨dne, _⟩ := matches_plus (matches_group hd)
  obtain ⟨wne, hw⟩ := matches_plus h7
  cases z2 with
  | nil => exact absurd rfl z2ne
  | cons sp z2 =>
    refine ⟨secs, frac, w, sp, z2 ++ (evs ++ d), ?_, matches_plus h5, ?_, wne, hw, hz2 sp (by simp), by simp [dne]⟩
    · rw [e1, e2, e3, e4, e5, e7, e8, hz1, hc]; simp
    · cases h6 with
      | altL h6 =>
        right
        obtain ⟨p1, p2, e9, h11, h12⟩ := matches_seq (matches_group h6)
        have := matches_lit h11
        exact ⟨p2, by rw [e9, this]; rfl, matches_plus h12⟩
      | altR h6 => left; cases h6; rfl

/-- A text that begins with a match of the cpu part looks like the second half of a header. -/
theorem matches_cpu {p : Str} (h : Matches cpuPartRe p) (post : Str) : QuotesCpu (p ++ post) := by
  simp only [cpuPartRe, cat] at h
  obtain ⟨u1, v1, e1, h1, g1⟩ := matches_seq h
  obtain ⟨u2, v2, e2, h2, g2⟩ := matches_seq g1
  obtain ⟨u3, v3, e3, h3, g3⟩ := matches_seq g2
  obtain ⟨u4, v4, e4, h4, g4⟩ := matches_seq g3
  obtain ⟨u5, v5, e5, h5, g5⟩ := matches_seq g4
  obtain ⟨u6, v6, e6, h6, g6⟩ := matches_seq g5
  have := matches_lit h2; subst this
  have := matches_lit h4; subst this
  obtain ⟨secs, frac, event, sp, rest, e7, k1, k2, k3, k4, k5, k6⟩ := matches_tsData g6
  refine ⟨u1, u3, u5, u6, secs, frac, event, sp, rest ++ post, ?_, matches_plus h1, matches_plus (matches_group h3), ?_, matches_plus h6, k1, k2, k3, k4, k5, by simp [k6]⟩
  · rw [e1, e2, e3, e4, e5, e6, e7]; simp
  · cases h5 with
    | altL h5 =>
      right
      simp only [flagsRe, cat] at h5
      obtain ⟨w, f, e8, hw, hf⟩ := matches_seq h5
      obtain ⟨f1, g1, e9, k7, hg1⟩ := matches_seq hf
      obtain ⟨f2, g2, e10, k8, hg2⟩ := matches_seq hg1
      obtain ⟨f3, f4, e11, k9, k10⟩ := matches_seq hg2
      obtain ⟨y1, rfl, _⟩ := matches_chr k7
      obtain ⟨y2, rfl, _⟩ := matches_chr k8
      obtain ⟨y3, rfl, _⟩ := matches_chr k9
      obtain ⟨y4, rfl, _⟩ := matches_chr k10
      exact ⟨w, y1, y2, y3, y4, by rw [e8, e9, e10, e11]; rfl, matches_plus hw⟩
    | altR h5 => left; cases h5; rfl

/-- a closing parenthesis before the second half of a header is in the data -/
theorem cpuText_paren {l : PrintedLine} (h : l.WF) {pre x : Str} (e : cpuText l = pre ++ ')' :: x) (hq : QuotesCpu x) :
    ∃ a, l.data = a ++ ')' :: x := by
  have hno : ')' ∉ l.ws1 ++ '[' :: (l.cpu ++ [']']) := by
    intro hx
    simp only [List.mem_append, List.mem_cons, List.not_mem_nil, or_false] at hx
    rcases hx with hx | hx | hx | hx
    · exact space_ne (h.ws1 _ hx) (by decide) rfl
    · exact absurd hx (by decide)
    · exact digit_ne (h.cpu _ hx) (by decide) rfl
    · exact absurd hx (by decide)
  have e' : (l.ws1 ++ '[' :: (l.cpu ++ [']'])) ++ (l.flagsText ++ (l.ws2 ++ l.tailText)) = pre ++ ')' :: x := by
    rw [← e]; simp [cpuText]
  have key : ∀ p, l.flagsText ++ (l.ws2 ++ l.tailText) = p ++ ')' :: x → ∃ a, l.data = a ++ ')' :: x := by
    intro p e2
    rcases tail_locate h (by decide) e2 with ha | ⟨f, hf, rfl⟩
    · exact ha
    · exfalso
      cases f with
      | nil => exact not_cpu_ws2 h hq
      | cons y f =>
        obtain ⟨ws1, _, _, _, _, _, _, _, _, e3, hw, _⟩ := hq
        cases ws1 with
        | nil => exact hw.1 rfl
        | cons z ws1 =>
          simp only [List.cons_append, List.cons.injEq] at e3
          have := hw.2 z (by simp)
          rw [← e3.1, hf y (by simp)] at this
          cases this
  rcases append_split e' with ⟨b, e1, e2⟩ | ⟨b, e1, e2⟩
  · cases b with
    | nil => exact key [] (by simpa using e2.symm)
    | cons y b =>
      simp only [List.cons_append, List.cons.injEq] at e2
      exact absurd (by rw [e1, ← e2.1]; simp) hno
  · exact key b e2

theorem m_tgid {l : PrintedLine} (h : l.WF) (hbr : ¬ l.Quotes) {α : Type} (c : Caps) (k : Str → Caps → Option α) {v : α}
    (hk : m tsDataRe l.tailText ((3, l.cpu) :: c) k = some v) :
    m (.seq (opt tgidRe) cpuPartRe) (l.tgidText ++ cpuText l) c k = some v := by
  have hmain := m_cpu h c k hk
  rw [m, opt, m]
  unfold tgidText
  cases ht : l.tgid with
  | none =>
    have : m tgidRe ([] ++ cpuText l) c (fun s' c' => m cpuPartRe s' c' k) = none := by
      apply m_none_of
      intro pre post e hm
      simp only [tgidRe, cat] at hm
      obtain ⟨u1, v1, e1, h1, g1⟩ := matches_seq hm
      obtain ⟨u2, v2, e2, h2, g2⟩ := matches_seq g1
      have := matches_lit h2; subst this
      obtain ⟨_, hs⟩ := matches_plus h1
      have E : l.ws1 ++ '[' :: (l.cpu ++ (']' :: (l.flagsText ++ (l.ws2 ++ l.tailText)))) = u1 ++ ('(' :: (v2 ++ post)) := by
        have := e
        unfold cpuText at this
        simp only [List.nil_append] at this
        rw [this, e1, e2]; simp
      obtain ⟨b, _, hb⟩ := class_prefix hs (by decide) E
      cases b with
      | nil => simp at hb
      | cons x b =>
        simp at hb
        rename_i hws
        have : '(' ∈ l.ws1 := by rw [hws, ← hb.1]; simp
        exact space_ne (h.ws1 _ this) (by decide) rfl
    simp only [this]
    simpa [m] using hmain
  | some wt =>
    obtain ⟨w, t⟩ := wt
    obtain ⟨wne, hw, htc⟩ := h.tgid w t ht
    have htnl : AllC notNl t := by
      intro x hx
      rcases htc with htc | htc
      · have := htc x hx
        simp only [Bool.or_eq_true, beq_iff_eq] at this
        rcases this with rfl | hd
        · decide
        · simp only [notNl, bne_iff_ne]; exact digit_ne hd (by decide)
      · have := htc x hx; simp only [beq_iff_eq] at this; subst this; decide
    have key : m tgidRe (w ++ ('(' :: (t ++ (')' :: cpuText l)))) c (fun s' c' => m cpuPartRe s' c' k) = some v := by
      rw [tgidRe, cat_cons]
      rw [m]
      apply m_plus_max w wne hw
      · intro y hy; simp at hy; subst hy; decide
      · rw [cat_cons]
        rw [m, m_lit_cons, cat_cons]
        rw [m, cat_one, m]
        apply mStar_exact t htnl
        · rw [m_lit_cons]; exact hmain
        · intro pre post e hpne
          cases hm : m (lit ')') post c (fun s' c' => m cpuPartRe s' c' k) with
          | none => rfl
          | some v' =>
            exfalso
            obtain ⟨p1, q1, _, e1, hp1, hk1⟩ := m_sound _ hm
            have := matches_lit hp1; subst this
            obtain ⟨p2, q2, _, e2, hp2, _⟩ := m_sound _ hk1
            have hq := matches_cpu hp2 q2
            cases pre with
            | nil => exact hpne rfl
            | cons x pre =>
              simp only [List.cons_append, List.cons.injEq] at e
              have : cpuText l = pre ++ ')' :: q1 := by rw [e.2, e1]; simp
              rw [← e2] at hq
              obtain ⟨a, ha⟩ := cpuText_paren h this hq
              exact hbr (.inr ⟨by rw [ht]; simp, a, q1, ha, hq⟩)
    have e : w ++ '(' :: t ++ [')'] ++ cpuText l = w ++ ('(' :: (t ++ (')' :: cpuText l))) := by simp
    simp only [e, key]

theorem afterComm_eq : afterCommRe = .seq (lit '-') (.seq (.group 2 (plus isDigit)) (.seq (opt tgidRe) cpuPartRe)) := by
  rfl

theorem tgid_cpu_head {l : PrintedLine} (h : l.WF) : ∀ y ∈ (l.tgidText ++ cpuText l).head?, isDigit y = false := by
  intro y hy
  have key : isSpace y = true := by
    unfold tgidText at hy
    cases ht : l.tgid with
    | none =>
      rw [ht] at hy
      unfold cpuText at hy
      cases hw : l.ws1 with
      | nil => exact absurd hw h.ws1Ne
      | cons a b => rw [hw] at hy; simp at hy; subst hy; exact h.ws1 _ (by simp [hw])
    | some wt =>
      obtain ⟨w, t⟩ := wt
      obtain ⟨wne, hw, _⟩ := h.tgid w t ht
      cases w with
      | nil => exact absurd rfl wne
      | cons a b => rw [ht] at hy; simp at hy; subst hy; exact hw _ (by simp)
  cases hd : isDigit y with
  | false => rfl
  | true => rw [isSpace_not_digit hd] at key; cases key

theorem m_afterComm {l : PrintedLine} (h : l.WF) (hbr : ¬ l.Quotes) {α : Type} (c : Caps) (k : Str → Caps → Option α) {v : α}
    (hk : m tsDataRe l.tailText ((3, l.cpu) :: (2, l.pid) :: c) k = some v) :
    m afterCommRe ('-' :: (l.pid ++ (l.tgidText ++ cpuText l))) c k = some v := by
  rw [afterComm_eq, m, m_lit_cons, m, m]
  apply m_plus_max l.pid h.pidNe h.pid (tgid_cpu_head h)
  rw [take_sub_len]
  exact m_tgid h hbr _ _ hk

/-- A text that begins with a match of the part after the task name looks like a header. -/
theorem matches_afterComm {p : Str} (h : Matches afterCommRe p) (post : Str) : ∃ x, p ++ post = '-' :: x ∧ QuotesHeader x := by
  rw [afterComm_eq] at h
  obtain ⟨u1, v1, e1, h1, g1⟩ := matches_seq h
  obtain ⟨u2, v2, e2, h2, g2⟩ := matches_seq g1
  obtain ⟨u3, v3, e3, h3, g3⟩ := matches_seq g2
  have := matches_lit h1; subst this
  refine ⟨v1 ++ post, by rw [e1]; simp, u2, u3, v3 ++ post, by rw [e2, e3]; simp, matches_plus (matches_group h2), ?_, matches_cpu g3 post⟩
  cases h3 with
  | altL h3 =>
    right
    simp only [tgidRe, cat] at h3
    obtain ⟨w, z1, e4, hw, h4⟩ := matches_seq h3
    obtain ⟨z2, z3, e5, h5, h6⟩ := matches_seq h4
    obtain ⟨z4, z5, e6, h7, h8⟩ := matches_seq h6
    have := matches_lit h5; subst this
    have := matches_lit h8; subst this
    exact ⟨w, z4, by rw [e4, e5, e6]; simp, matches_plus hw⟩
  | altR h3 => left; cases h3; rfl

/-- what follows the pid of a header: a blank -/
theorem quotesHeader_blank {x : Str} (h : QuotesHeader x) : ∃ pid sp r, x = pid ++ sp :: r ∧ Digits pid ∧ isSpace sp = true ∧
    ∃ w ch r', sp :: r = w ++ ch :: r' ∧ AllC isSpace w ∧ (ch = '(' ∨ ch = '[') := by
  obtain ⟨pid, t, y, e, hp, ht, hy⟩ := h
  rcases ht with rfl | ⟨w, z, rfl, hw⟩
  · obtain ⟨ws1, cpu, flags, ws2, secs, frac, event, sp, rest, e2, hw, -⟩ := hy
    cases ws1 with
    | nil => exact absurd rfl hw.1
    | cons s ws1 => exact ⟨pid, s, _, by rw [e, e2]; rfl, hp, hw.2 s (by simp), s :: ws1, '[', _, rfl, hw.2, .inr rfl⟩
  · cases w with
    | nil => exact absurd rfl hw.1
    | cons s w => exact ⟨pid, s, _, by rw [e]; rfl, hp, hw.2 s (by simp), s :: w, '(', z ++ ([')'] ++ y), by simp, hw.2, .inl rfl⟩

/-- the text before the first blank -/
theorem until_blank {p f r r' : Str} {a b : Char} (hp : ∀ z ∈ p, isSpace z = false) (hf : ∀ z ∈ f, isSpace z = false)
    (ha : isSpace a = true) (hb : isSpace b = true) (e : p ++ a :: r = f ++ b :: r') : p = f := by
  induction p generalizing f with
  | nil =>
    cases f with
    | nil => rfl
    | cons x f =>
      simp only [List.nil_append, List.cons_append, List.cons.injEq] at e
      have := hf x (by simp)
      rw [← e.1, ha] at this
      cases this
  | cons y p ih =>
    cases f with
    | nil =>
      simp only [List.nil_append, List.cons_append, List.cons.injEq] at e
      have := hp y (by simp)
      rw [e.1, hb] at this
      cases this
    | cons x f =>
      simp only [List.cons_append, List.cons.injEq] at e
      rw [e.1, ih (fun z hz => hp z (by simp [hz])) (fun z hz => hf z (by simp [hz])) e.2]

/-- a dash before a header is in the data -/
theorem later_header {l : PrintedLine} (h : l.WF) {pre x : Str} (hq : QuotesHeader x)
    (e : l.pid ++ (l.tgidText ++ cpuText l) = pre ++ '-' :: x) : ∃ a, l.data = a ++ '-' :: x := by
  obtain ⟨d, t, hxd, hd⟩ : ∃ d t, x = d :: t ∧ isDigit d = true := by
    obtain ⟨pid, _, _, e', hp, _⟩ := hq
    cases pid with
    | nil => exact absurd rfl hp.1
    | cons d pid => exact ⟨d, _, e', hp.2 d (by simp)⟩
  have key : ∀ p, l.flagsText ++ (l.ws2 ++ l.tailText) = p ++ '-' :: x → ∃ a, l.data = a ++ '-' :: x := by
    intro p e2
    rcases tail_locate h (by decide) e2 with ha | ⟨f, hf, hx⟩
    · exact ha
    · exfalso
      obtain ⟨pid, sp, r, e3, hp, hsp, w, ch, r', e4, hw, hch⟩ := quotesHeader_blank hq
      have hfp : f = pid := by
        rw [e3] at hx
        have hws := h.ws2
        cases hw : l.ws2 with
        | nil => exact absurd hw h.ws2Ne
        | cons y w =>
          rw [hw] at hx
          exact (until_blank (fun z hz => isSpace_not_digit (hp.2 z hz)) hf hsp (hws y (by simp [hw])) hx).symm
      subst hfp
      rw [e3] at hx
      have hx := List.append_cancel_left hx
      rw [e4] at hx
      obtain ⟨dd, rr, et, hdd⟩ := tsOf_head h
      rw [et] at hx
      have hc : isSpace ch = false := by rcases hch with rfl | rfl <;> decide
      have := blanks_next hw h.ws2 hc (isSpace_not_digit hdd) hx
      subst this
      rcases hch with rfl | rfl <;> revert hdd <;> decide
  have hcpu : ∀ p, cpuText l = p ++ '-' :: x → ∃ a, l.data = a ++ '-' :: x := by
    intro p e'
    have e'' : (l.ws1 ++ '[' :: (l.cpu ++ [']'])) ++ (l.flagsText ++ (l.ws2 ++ l.tailText)) = p ++ '-' :: x := by
      rw [← e']; simp [cpuText]
    rcases append_split e'' with ⟨b, e1, e2⟩ | ⟨b, e1, e2⟩
    · cases b with
      | nil => exact key [] (by simpa using e2.symm)
      | cons y b =>
        simp at e2
        have hx : '-' ∈ l.ws1 ++ '[' :: (l.cpu ++ [']']) := by rw [e1, ← e2.1]; simp
        simp only [List.mem_append, List.mem_cons, List.not_mem_nil, or_false] at hx
        rcases hx with hx | hx | hx | hx
        · exact absurd rfl (space_ne (h.ws1 _ hx) (by decide))
        · exact absurd hx (by decide)
        · exact absurd rfl (digit_ne (h.cpu _ hx) (by decide))
        · exact absurd hx (by decide)
    · exact key b e2
  rcases append_split e with ⟨b, e1, e2⟩ | ⟨b, e1, e2⟩
  · exfalso
    cases b with
    | nil =>
      simp at e2
      cases ht : l.tgid with
      | none =>
        have hw := h.ws1Ne
        unfold tgidText cpuText at e2
        rw [ht] at e2
        cases hw' : l.ws1 with
        | nil => exact hw hw'
        | cons a b => rw [hw'] at e2; simp at e2; exact space_ne (h.ws1 a (by simp [hw'])) (by decide) e2.1.symm
      | some wt =>
        obtain ⟨w, tt⟩ := wt
        obtain ⟨wne, hw, _⟩ := h.tgid w tt ht
        unfold tgidText at e2
        rw [ht] at e2
        cases w with
        | nil => exact wne rfl
        | cons a b => simp at e2; exact space_ne (hw a (by simp)) (by decide) e2.1.symm
    | cons y b =>
      simp at e2
      have : '-' ∈ l.pid := by rw [e1, ← e2.1]; simp
      exact digit_ne (h.pid _ this) (by decide) rfl
  · -- inside the tgid or later
    rw [hxd] at e2 hcpu ⊢
    rcases append_split e2 with ⟨b2, e3, e4⟩ | ⟨b2, e3, e4⟩
    · unfold tgidText at e3
      cases ht : l.tgid with
      | none =>
        rw [ht] at e3
        simp at e3
        obtain ⟨rfl, rfl⟩ := e3
        exact hcpu [] (by simpa using e4.symm)
      | some wt =>
        obtain ⟨w, tt⟩ := wt
        obtain ⟨wne, hw, htc⟩ := h.tgid w tt ht
        rw [ht] at e3
        simp only at e3
        cases b2 with
        | nil => exact hcpu [] (by simpa using e4.symm)
        | cons x b2 =>
          simp only [List.cons_append, List.cons.injEq] at e4
          obtain ⟨rfl, e4⟩ := e4
          -- '-' inside the tgid text, followed by a digit
          cases b2 with
          | nil =>
            have := (List.append_inj' e3 rfl).2
            simp at this
          | cons y b2 =>
            simp only [List.cons_append, List.cons.injEq] at e4
            obtain ⟨rfl, _⟩ := e4
            have m1 : '-' ∈ w ++ '(' :: tt ++ [')'] := by rw [e3]; simp
            have m2 : d ∈ w ++ '(' :: tt ++ [')'] := by rw [e3]; simp
            simp only [List.mem_append, List.mem_cons, List.not_mem_nil, or_false] at m1 m2
            have n1 : '-' ∈ tt := by
              rcases m1 with (m1 | m1 | m1) | m1
              · exact absurd rfl (space_ne (hw _ m1) (by decide))
              · exact absurd m1 (by decide)
              · exact m1
              · exact absurd m1 (by decide)
            have n2 : d ∈ tt := by
              rcases m2 with (m2 | m2 | m2) | m2
              · have := hw _ m2; rw [isSpace_not_digit hd] at this; cases this
              · subst m2; exact absurd hd (by decide)
              · exact m2
              · subst m2; exact absurd hd (by decide)
            rcases htc with htc | htc
            · have := htc _ n1; exact absurd this (by decide)
            · have := htc _ n2; simp only [beq_iff_eq] at this; subst this; exact absurd hd (by decide)
    · exact hcpu b2 e4

/-- without a later header, the name of the task is the printed one -/
theorem m_special_of {l : PrintedLine} (h : l.WF) (hbr : ¬ ∃ a x, l.data = a ++ '-' :: x ∧ QuotesHeader x) {v : Caps × Str}
    (hk : m afterCommRe ('-' :: (l.pid ++ (l.tgidText ++ cpuText l))) ((1, l.comm) :: []) (fun s' c => some (c, s')) = some v) :
    matchPrefix specialFieldsRe l.text = some v := by
  have htext : l.text = l.lead ++ (l.comm ++ ('-' :: (l.pid ++ (l.tgidText ++ cpuText l)))) := rfl
  rw [htext, matchPrefix, specialFieldsRe, cat_cons]
  rw [m, m]
  apply mStar_max l.lead h.lead
  · intro y hy
    cases hc : l.comm with
    | nil => rw [hc] at hy; simp at hy; subst hy; decide
    | cons a b => rw [hc] at hy; simp at hy; subst hy; exact h.commHead _ (by simp [hc])
  · rw [cat_cons]
    rw [cat_one, m, m, m]
    apply mStar_exact l.comm h.commNl
    · rw [take_sub_len]
      exact hk
    · intro pre post e hpne
      cases hm : m afterCommRe post ((1, List.take ((l.comm ++ '-' :: (l.pid ++ (l.tgidText ++ cpuText l))).length - post.length)
          (l.comm ++ '-' :: (l.pid ++ (l.tgidText ++ cpuText l)))) :: []) (fun s' c => some (c, s')) with
      | none => rfl
      | some v =>
        exfalso
        obtain ⟨p1, q1, _, e1, hp1, _⟩ := m_sound _ hm
        obtain ⟨x, e2, hx⟩ := matches_afterComm hp1 q1
        cases pre with
        | nil => exact hpne rfl
        | cons y pre =>
          simp only [List.cons_append, List.cons.injEq] at e
          obtain ⟨a, ha⟩ := later_header h hx (pre := pre) (by rw [e.2, e1, e2])
          exact hbr ⟨a, x, ha, hx⟩

theorem m_special {l : PrintedLine} (h : l.WF) (hbr : ¬ l.Quotes) {v : Caps × Str}
    (hk : m tsDataRe l.tailText ((3, l.cpu) :: (2, l.pid) :: (1, l.comm) :: []) (fun s' c => some (c, s')) = some v) :
    matchPrefix specialFieldsRe l.text = some v :=
  m_special_of h (fun hq => hbr (.inl hq)) (m_afterComm h hbr _ _ hk)

end Trappy
