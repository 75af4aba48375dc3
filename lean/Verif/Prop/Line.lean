import Verif.Lemma.Line
/-!
# C01, C02: header fields of a trace line
-/

namespace Trappy
open Re Py PrintedLine

/-- An executable test for `PrintedLine.WF`, used only to exhibit concrete well-formed lines. -/
def PrintedLine.wfB (l : PrintedLine) : Bool :=
  let sp (s : Str) := s.all isSpace && !s.isEmpty
  let dg (s : Str) := s.all isDigit && !s.isEmpty
  l.lead.all isSpace && l.comm.all notNl && (l.comm.head?.all fun c => !isSpace c) && dg l.pid &&
  (match l.tgid with
    | none => true
    | some (w, t) => sp w && (t.all (fun c => c == ' ' || isDigit c) || t.all (· == '-'))) &&
  sp l.ws1 && dg l.cpu &&
  (match l.flags with
    | none => l.ws2.length ≤ 5
    | some (w, f) => sp w && f.length == 4 && f.all (fun c => !isSpace c && c != ']')) &&
  sp l.ws2 && dg l.secs && (match l.frac with | none => true | some f => dg f) &&
  l.event.all isWord && (match l.event with | [] => false | c :: _ => !isDigit c) &&
  sp l.ws3 && !l.data.isEmpty && l.data.all notNl && (l.data.head?.all fun c => !isSpace c)

theorem PrintedLine.wf_of_wfB {l : PrintedLine} (h : l.wfB = true) : l.WF := by
  obtain ⟨lead, comm, pid, tgid, ws1, cpu, flags, ws2, secs, frac, event, ws3, data⟩ := l
  simp only [wfB, Bool.and_eq_true, List.all_eq_true, Bool.not_eq_true', List.isEmpty_eq_false_iff,
    Option.all_eq_true] at h
  obtain ⟨⟨⟨⟨⟨⟨⟨⟨⟨⟨⟨⟨⟨⟨⟨⟨h1, h2⟩, h3⟩, h4⟩, h5⟩, h6⟩, h7⟩, h8⟩, h9⟩, h10⟩, h11⟩, h12⟩, h13⟩, h14⟩, h15⟩, h16⟩, h17⟩ := h
  refine ⟨h1, h2, h3, h4.1, h4.2, ?_, h6.1, h6.2, h7.1, h7.2, ?_, h9.1, h9.2, ?_, h10.1, h10.2, ?_, h12, ?_, h14.1,
    h14.2, h15, h16, h17⟩
  · intro w t e
    subst e
    simp only [Bool.and_eq_true, Bool.or_eq_true, List.all_eq_true] at h5
    exact ⟨by simpa using h5.1.2, h5.1.1, by simpa only [AllC, Bool.or_eq_true] using h5.2⟩
  · intro w f e
    subst e
    simp only [Bool.and_eq_true, List.all_eq_true, beq_iff_eq] at h8
    exact ⟨by simpa using h8.1.1.2, h8.1.1.1, h8.1.2, fun ch hc => by simpa using h8.2 ch hc⟩
  · intro e
    subst e
    simpa using h8
  · intro f e
    subst e
    simp only [Bool.and_eq_true, List.all_eq_true] at h11
    exact ⟨by simpa using h11.2, h11.1⟩
  · cases event with
    | nil => simp at h13
    | cons c r => exact ⟨c, r, rfl, by simpa using h13⟩

/-- data without a closing bracket quote no header -/
theorem PrintedLine.not_quotes {l : PrintedLine} (h : ']' ∉ l.data) : ¬ l.Quotes := by
  have key : ∀ {x : Str}, QuotesCpu x → ']' ∈ x := by
    rintro x ⟨_, _, _, _, _, _, _, _, _, e, -⟩
    rw [e]; simp
  rintro (⟨a, x, e, _, _, y, e2, _, _, hy⟩ | ⟨_, a, x, e, hx⟩)
  · exact h (by rw [e, e2]; simp [key hy])
  · exact h (by rw [e]; simp [key hx])

/-- decimal text, possibly with leading zeros, of a number -/
def IsDecimal (s : Str) (n : Nat) : Prop := ∃ z, s = List.replicate z '0' ++ Nat.toDigits 10 n

theorem natVal_decimal {s : Str} {n : Nat} (h : IsDecimal s n) : natVal s = n := by
  obtain ⟨z, rfl⟩ := h
  have : ∀ t, natVal t = Nat.ofDigitChars 10 t 0 := by
    intro t; rw [Nat.ofDigitChars_eq_foldl]; rfl
  rw [this, Nat.ofDigitChars_append]
  simp

/-- **C01** (`ftrace.py` `SPECIAL_FIELDS_RE`): for every well-formed printed line — any task name, with or without
thread-group id and flags, any timestamp — parsing returns exactly the printed comm, pid, cpu, timestamp text,
fraction text and data, provided the data does not quote a header (`Quotes`) and does not itself start with a `name: `
prefix.  Both conditions are exact: `C01_exact`. -/
theorem C01_line_roundtrip (l : PrintedLine) (h : l.WF) (hb : ¬ l.Quotes) (he : ¬ LooksLikeEvent l.data)
    (p q : Nat) (hp : IsDecimal l.pid p) (hq : IsDecimal l.cpu q) :
    parseLine l.text =
      some { comm := l.comm, pid := p, cpu := q, ts := l.tsText, us := l.frac.map ('.' :: ·), data := l.data } := by
  have key := m_special h hb (v := ((7, l.data) :: (6, l.event ++ ':' :: l.ws3) ::
    tsCaps l.secs l.frac ((3, l.cpu) :: (2, l.pid) :: (1, l.comm) :: []), [])) (m_tsData h he _ _ rfl)
  unfold parseLine
  rw [key]
  cases hf : l.frac with
  | none => simp [Caps.get, List.lookup, tsCaps, tsText, hf, natVal_decimal hp, natVal_decimal hq]
  | some f => simp [Caps.get, List.lookup, tsCaps, tsText, hf, natVal_decimal hp, natVal_decimal hq]

/-- A line with blanks, dashes, digits, brackets and parentheses in the task name. -/
def exampleLine : PrintedLine :=
  { lead := cs!"   ", comm := cs!"my [9] task-42 (x)", pid := cs!"00123", tgid := some (cs!" ", cs!"-----"),
    ws1 := cs!" ", cpu := cs!"003", flags := some (cs!" ", cs!"d..2"), ws2 := cs!"  ", secs := cs!"1234",
    frac := some cs!"567891", event := cs!"sched_switch", ws3 := cs!"  ", data := cs!"prev_comm=a b-1 next={1 2}" }

example : exampleLine.WF ∧ ¬ exampleLine.Quotes ∧ ¬ LooksLikeEvent exampleLine.data ∧
    IsDecimal exampleLine.pid 123 ∧ IsDecimal exampleLine.cpu 3 := by
  refine ⟨wf_of_wfB (by decide +kernel), not_quotes (by decide +kernel), ?_, ⟨2, by decide +kernel⟩, ⟨2, by decide +kernel⟩⟩
  rintro ⟨w, sp, rest, e, _⟩
  have : ':' ∈ exampleLine.data := by rw [e]; simp
  revert this; decide +kernel

example : parseLine exampleLine.text = some
    { comm := cs!"my [9] task-42 (x)", pid := 123, cpu := 3, ts := cs!"1234.567891", us := some cs!".567891", data := cs!"prev_comm=a b-1 next={1 2}" } := by decide +kernel

/-- a line whose data quotes another trace line -/
def forgedLine : PrintedLine :=
  { lead := [], comm := cs!"app", pid := cs!"7", tgid := none, ws1 := cs!" ", cpu := cs!"000",
    flags := none, ws2 := cs!" ", secs := cs!"1", frac := some cs!"5", event := cs!"print", ws3 := cs!" ",
    data := cs!"saw sh-99 [003] 9.5: open: f" }

/-- **C02 refuted**: there is a well-formed printed line whose data overrides comm, pid, cpu and timestamp. -/
theorem C02_data_can_forge_header_refuted :
    ∃ l : PrintedLine, l.WF ∧ ∃ f, parseLine l.text = some f ∧
      f.comm ≠ l.comm ∧ f.pid ≠ natVal l.pid ∧ f.cpu ≠ natVal l.cpu ∧ f.ts ≠ l.tsText :=
  ⟨forgedLine, wf_of_wfB (by decide +kernel),
    { comm := cs!"app-7 [000] 1.5: print: saw sh", pid := 99, cpu := 3, ts := cs!"9.5", us := some cs!".5",
      data := cs!"f" }, by decide +kernel⟩

/-- Helper: event names and data after the timestamp always give some data. -/
theorem m_events_data_some {s : Str} (hne : s ≠ []) (hnl : AllC notNl s) (c : Caps) :
    ∃ d rest c', m (.seq (.many eventRe) (.group 7 (plus notNl))) s c (fun s' c => some (c, s')) =
      some ((7, d) :: c', rest) ∧ Ext [6] c c' ∧ d <:+: s := by
  have hs : ∃ v, m (.seq (.many eventRe) (.group 7 (plus notNl))) s c (fun s' c => some (c, s')) = some v := by
    rw [m, m, mMany]
    split
    · exact ⟨_, rfl⟩
    · exact ⟨_, m_data hne hnl _ _ rfl⟩
  obtain ⟨v, hv⟩ := hs
  have hv' := hv
  rw [m] at hv'
  obtain ⟨pre, post, c1, e1, _, x1, h1⟩ := m_sound_caps _ hv'
  rw [m] at h1
  obtain ⟨pre2, post2, c2, e2, _, x2, h2⟩ := m_sound_caps _ h1
  obtain ⟨e, hc2, hx2⟩ := x2
  have : e = [] := by
    cases e with
    | nil => rfl
    | cons a b => have := hx2 a (by simp); simp [plus, groups] at this
  subst this
  simp only [List.nil_append] at hc2
  subst hc2
  refine ⟨pre2, post2, c2, ?_, x1.mono (by intro n hn; simpa [groups, eventRe, cat, plus, lit] using hn), ?_⟩
  · rw [hv, ← h2]
    subst e2
    simp
  · exact ⟨pre, post2, by rw [e1, e2]; simp⟩

theorem Re.Ext.lookup {g : List Nat} {c c' : Caps} (h : Ext g c c') {n : Nat} (hn : n ∉ g) :
    c'.lookup n = c.lookup n := by
  obtain ⟨e, rfl, hx⟩ := h
  induction e with
  | nil => rfl
  | cons a e ih =>
    have : a.1 ≠ n := by rintro rfl; exact hn (hx a (by simp))
    have h2 : (n == a.1) = false := by simpa using fun h => this h.symm
    simp only [List.cons_append, List.lookup, h2]
    exact ih (fun x hx' => hx x (by simp [hx']))

/-- **C02** (partial): data that do not quote a header can never change the header: the line is recognised and its
comm, pid, cpu and timestamp are the printed ones, even if the data starts with further `name: ` prefixes; the data
recorded is a part of the printed data.  Missing: data that quote a header, for which the claim is false (`C02_forged_refuted`). -/
theorem C02_header_independent_of_data_partial (l : PrintedLine) (h : l.WF) (hb : ¬ l.Quotes)
    (p q : Nat) (hp : IsDecimal l.pid p) (hq : IsDecimal l.cpu q) :
    ∃ d, parseLine l.text =
      some { comm := l.comm, pid := p, cpu := q, ts := l.tsText, us := l.frac.map ('.' :: ·), data := d } ∧
      d <:+: l.data := by
  obtain ⟨ch, rest, hev, _⟩ := h.eventHead
  obtain ⟨d, r, c', hm, hx, hd⟩ := m_events_data_some h.dataNe h.dataNl
    ((6, l.event ++ ':' :: l.ws3) :: tsCaps l.secs l.frac ((3, l.cpu) :: (2, l.pid) :: (1, l.comm) :: []))
  have hts : m tsDataRe l.tailText ((3, l.cpu) :: (2, l.pid) :: (1, l.comm) :: []) (fun s' c => some (c, s')) =
      some ((7, d) :: c', r) := by
    have e : l.tsText = tsOf l.secs l.frac := rfl
    simp only [tsDataRe, cat, m, tailText, e]
    simp only [List.cons_append, List.nil_append]
    apply m_timestamp h.secs h.secsNe h.frac
    have := m_str (α := Caps × Str) [':', ' '] (l.event ++ ':' :: (l.ws3 ++ l.data))
    simp only [List.cons_append, List.nil_append] at this
    rw [this]
    simp only [many1, m]
    apply m_event h.event (by simp [hev]) h.ws3 h.ws3Ne h.dataHead
    simpa only [m] using hm
  have key := m_special h hb hts
  refine ⟨d, ?_, hd⟩
  unfold parseLine
  rw [key]
  have g : ∀ n, n ∉ [6] → c'.lookup n = _ := fun n hn => hx.lookup hn
  cases hf : l.frac with
  | none =>
    simp [Caps.get, List.lookup, g 1 (by simp), g 2 (by simp), g 3 (by simp), g 4 (by simp), g 5 (by simp),
      tsCaps, tsText, hf, natVal_decimal hp, natVal_decimal hq]
  | some f =>
    simp [Caps.get, List.lookup, g 1 (by simp), g 2 (by simp), g 3 (by simp), g 4 (by simp), g 5 (by simp),
      tsCaps, tsText, hf, natVal_decimal hp, natVal_decimal hq]

/-- non-vacuity: data that starts with further `name: ` prefixes -/
example : ({ exampleLine with data := cs!"tracing_mark_write: hello: x" } : PrintedLine).WF :=
  wf_of_wfB (by decide +kernel)

end Trappy
