import Verif.Lemma.Line
import Verif.Lemma.Regex2
/-! Lines whose payload quotes a header: the matcher takes the last one. -/

namespace Trappy
open Re Py PrintedLine

/-- a greedy repetition that can take `u` takes `u` or more -/
theorem Re.mStar_longest {α : Type} {p : Char → Bool} (u : Str) {v : Str} {c : Caps} {k : Str → Caps → Option α}
    (hu : ∀ y ∈ u, p y = true) (hk : (k v c).isSome) :
    ∃ u' v', u ++ v = u' ++ v' ∧ u <+: u' ∧ mStar p (u ++ v) c k = k v' c ∧ (k v' c).isSome := by
  induction u with
  | nil =>
    obtain ⟨w, hw⟩ := Option.isSome_iff_exists.mp (mStar_complete (p := p) [] v c k (by simp) hk)
    obtain ⟨pre, post, e, _, h⟩ := mStar_sound hw
    exact ⟨pre, post, e, List.nil_prefix, hw.trans h.symm, by rw [h]; rfl⟩
  | cons x u ih =>
    obtain ⟨u', v', e, hp, hm, hs⟩ := ih fun y hy => hu y (by simp [hy])
    refine ⟨x :: u', v', by simp [e], by simpa using hp, ?_, hs⟩
    obtain ⟨w, hw⟩ := Option.isSome_iff_exists.mp hs
    simp only [List.cons_append, mStar, hu x (by simp), if_true]
    rw [hm, hw]

theorem matches_plus_of {p : Char → Bool} {x : Str} (hne : x ≠ []) (h : ∀ y ∈ x, p y = true) : Matches (plus p) x := by
  cases x with
  | nil => exact absurd rfl hne
  | cons a x => exact .seq (x := [a]) (.chr (h a (by simp))) (.star fun y hy => h y (by simp [hy]))

theorem matches_lit_of (ch : Char) : Matches (lit ch) [ch] := .chr (by simp)

/-- what looks like the second half of a header is matched by that part of the pattern -/
theorem matches_of_quotesCpu {x : Str} (h : QuotesCpu x) (hnl : AllC notNl x) : Matches cpuPartRe x := by
  obtain ⟨ws1, cpu, flags, ws2, secs, frac, event, sp, rest, e, h1, h2, h3, h4, h5, h6, h7, h8, h9, h10⟩ := h
  have hts : Matches timestampRe (secs ++ frac) := by
    refine .group (.seq (matches_plus_of h5.1 h5.2) ?_)
    rcases h6 with rfl | ⟨f, rfl, hf⟩
    · exact .altR .eps
    · exact .altL (.group (.seq (x := ['.']) (matches_lit_of _) (matches_plus_of hf.1 hf.2)))
  have hev : Matches eventRe (event ++ ([':'] ++ [sp])) :=
    .group (.seq (matches_plus_of h7 h8) (.seq (matches_lit_of _) (matches_plus_of (by simp) (by simpa using h9))))
  have hfl : Matches (opt flagsRe) flags := by
    rcases h3 with rfl | ⟨w, a, b, c, d, rfl, hw⟩
    · exact .altR .eps
    · have hn : ∀ y ∈ [a, b, c, d], notNl y = true := by
        intro y hy
        apply hnl
        rw [e]
        simp only [List.mem_append, List.mem_cons]
        exact .inr (.inr (.inr (.inr (.inl (.inr (by simpa using hy))))))
      refine .altL (.seq (matches_plus_of hw.1 hw.2) ?_)
      exact .seq (x := [a]) (.chr (hn a (by simp))) (.seq (x := [b]) (.chr (hn b (by simp)))
        (.seq (x := [c]) (.chr (hn c (by simp))) (.chr (hn d (by simp)))))
  have hstr : Matches (str [':', ' ']) ([':'] ++ ([' '] ++ [])) :=
    .seq (matches_lit_of _) (.seq (matches_lit_of _) .eps)
  have hd : Matches (.group 7 (plus notNl)) rest := by
    refine .group (matches_plus_of h10 fun y hy => hnl y ?_)
    rw [e]; simp [hy]
  have htd : Matches tsDataRe ((secs ++ frac) ++ (([':'] ++ ([' '] ++ [])) ++ (((event ++ ([':'] ++ [sp])) ++ []) ++ rest))) :=
    .seq hts (.seq hstr (.seq (.seq hev .manyNil) hd))
  have := Matches.seq (matches_plus_of h1.1 h1.2) (.seq (matches_lit_of '[') (.seq (.group (n := 3) (matches_plus_of h2.1 h2.2))
    (.seq (matches_lit_of ']') (.seq hfl (.seq (matches_plus_of h4.1 h4.2) htd)))))
  rw [e]
  simpa [cpuPartRe, cat] using this

/-- what looks like a header is matched by the pattern after the name of the task -/
theorem matches_of_quotesHeader {x : Str} (h : QuotesHeader x) (hnl : AllC notNl x) : Matches afterCommRe ('-' :: x) := by
  obtain ⟨pid, t, y, e, hp, ht, hy⟩ := h
  have hy' := matches_of_quotesCpu hy fun z hz => hnl z (by rw [e]; simp [hz])
  have hto : Matches (opt tgidRe) t := by
    rcases ht with rfl | ⟨w, z, rfl, hw⟩
    · exact .altR .eps
    · have := Matches.seq (matches_plus_of hw.1 hw.2) (.seq (matches_lit_of '(') (.seq (.star (p := notNl) (x := z) fun y hy =>
        hnl y (by rw [e]; simp [hy])) (matches_lit_of ')')))
      refine .altL ?_
      simpa [tgidRe, cat] using this
  rw [afterComm_eq, e]
  exact .seq (x := ['-']) (matches_lit_of _) (.seq (.group (matches_plus_of hp.1 hp.2)) (.seq hto hy'))

theorem cpuPartRe_simple : cpuPartRe.Simple := by
  simp [cpuPartRe, cat, Simple, plus, lit, opt, flagsRe, tsDataRe, timestampRe, str, many1, eventRe]

theorem afterCommRe_simple : afterCommRe.Simple := by
  rw [afterComm_eq]
  simp [Simple, plus, lit, opt, tgidRe, cat, cpuPartRe_simple]

/-- the second part of a sequence is matched against an end of the text -/
theorem m_seq_peel {α : Type} {a b : Re} {s : Str} {c : Caps} {k : Str → Caps → Option α} {v : α} (h : m (.seq a b) s c k = some v) :
    ∃ s' c', s' <:+ s ∧ m b s' c' k = some v := by
  rw [m] at h
  obtain ⟨pre, post, c', e, _, h⟩ := m_sound _ h
  exact ⟨post, c', ⟨pre, e.symm⟩, h⟩

/-- the payload recorded is a part of the text matched -/
theorem cpuPart_data {s : Str} {c : Caps} {v : Caps × Str} (h : m cpuPartRe s c (fun s' c => some (c, s')) = some v) :
    ∃ d, v.1.lookup 7 = some d ∧ d.length ≤ s.length := by
  simp only [cpuPartRe, cat] at h
  obtain ⟨s1, _, l1, h⟩ := m_seq_peel h
  obtain ⟨s2, _, l2, h⟩ := m_seq_peel h
  obtain ⟨s3, _, l3, h⟩ := m_seq_peel h
  obtain ⟨s4, _, l4, h⟩ := m_seq_peel h
  obtain ⟨s5, _, l5, h⟩ := m_seq_peel h
  obtain ⟨s6, _, l6, h⟩ := m_seq_peel h
  simp only [tsDataRe, cat] at h
  obtain ⟨s7, _, l7, h⟩ := m_seq_peel h
  obtain ⟨s8, _, l8, h⟩ := m_seq_peel h
  obtain ⟨s9, _, l9, h⟩ := m_seq_peel h
  have hlen := (((((((((l9.trans l8).trans l7).trans l6).trans l5).trans l4).trans l3).trans l2).trans l1)).length_le
  rw [m] at h
  obtain ⟨pre, post, c', e, _, h⟩ := m_sound _ h
  simp only [Option.some.injEq] at h
  subst h
  refine ⟨_, rfl, ?_⟩
  rw [List.length_take]
  omega

/-- the text of the line after the name of the task ends in the payload -/
theorem afterText_data (l : PrintedLine) : ∃ h, '-' :: (l.pid ++ (l.tgidText ++ cpuText l)) = h ++ l.data :=
  ⟨'-' :: (l.pid ++ (l.tgidText ++ (l.ws1 ++ '[' :: (l.cpu ++ ']' :: (l.flagsText ++ (l.ws2 ++ (l.tsText ++ ([':', ' '] ++ (l.event ++ ([':'] ++ l.ws3)))))))))),
    by simp [cpuText, tailText]⟩

theorem cpuText_data (l : PrintedLine) : ∃ h, cpuText l = h ++ l.data :=
  ⟨l.ws1 ++ '[' :: (l.cpu ++ ']' :: (l.flagsText ++ (l.ws2 ++ (l.tsText ++ ([':', ' '] ++ (l.event ++ ([':'] ++ l.ws3))))))),
    by simp [cpuText, tailText]⟩

/-- a line without a newline whose payload has a dash and a header: the name of the task reaches up to a dash that is not before it -/
theorem match_dash {l : PrintedLine} (h : l.WF) (hnl : AllC notNl l.text) {a x : Str} (hd : l.data = a ++ '-' :: x) (hx : QuotesHeader x) :
    ∃ comm c r hd, l.text = l.lead ++ (hd ++ l.data) ∧ l.comm ++ ['-'] <+: hd ∧ hd ++ a <+: comm ∧ matchPrefix specialFieldsRe l.text = some (c, r) ∧ c.lookup 1 = some comm := by
  have htext : l.text = l.lead ++ (l.comm ++ ('-' :: (l.pid ++ (l.tgidText ++ cpuText l)))) := rfl
  obtain ⟨hh, ehh⟩ := afterText_data l
  have hhead : ∃ h', hh = '-' :: h' := by
    cases hh with
    | nil =>
      exfalso
      have h1 := congrArg List.length ehh
      obtain ⟨h2, e2⟩ := cpuText_data l
      rw [e2] at h1
      simp only [List.length_cons, List.length_append, List.length_nil] at h1
      omega
    | cons y h' => simp only [List.cons_append, List.cons.injEq] at ehh; exact ⟨h', by rw [ehh.1]⟩
  obtain ⟨h', rfl⟩ := hhead
  have hsplit : l.comm ++ ('-' :: (l.pid ++ (l.tgidText ++ cpuText l))) = (l.comm ++ ('-' :: h' ++ a)) ++ ('-' :: x) := by
    rw [ehh, hd]; simp
  have hxnl : AllC notNl x := by
    intro y hy
    apply hnl
    rw [htext, hsplit]; simp [hy]
  have hm := matches_of_quotesHeader hx hxnl
  let k1 : Str → Caps → Option (Caps × Str) := fun s' c' => m afterCommRe s'
    ((1, ((l.comm ++ ('-' :: h' ++ a)) ++ ('-' :: x)).take (((l.comm ++ ('-' :: h' ++ a)) ++ ('-' :: x)).length - s'.length)) :: c') fun s' c => some (c, s')
  obtain ⟨u', v', e1, hp, hs, hsome⟩ := mStar_longest (p := notNl) (l.comm ++ ('-' :: h' ++ a)) (v := '-' :: x) (c := []) (k := k1)
    (by
      intro y hy
      apply hnl
      rw [htext, hsplit]
      exact List.mem_append_right _ (List.mem_append_left _ hy))
    (by
      have := m_complete afterCommRe afterCommRe_simple ('-' :: x) [] ((1, l.comm ++ ('-' :: h' ++ a)) :: []) (fun s' c => some (c, s')) hm fun _ => rfl
      rw [List.append_nil] at this
      change (m afterCommRe ('-' :: x) _ _).isSome
      rw [take_sub_len]
      exact this)
  obtain ⟨⟨c, r⟩, hv⟩ := Option.isSome_iff_exists.mp hsome
  refine ⟨u', c, r, l.comm ++ ('-' :: h'), by rw [htext, ehh]; simp, ⟨h', by simp⟩, by simpa using hp, ?_, ?_⟩
  · rw [htext, matchPrefix, specialFieldsRe, cat_cons]
    rw [m, m]
    apply mStar_max l.lead h.lead
    · intro y hy
      cases hc : l.comm with
      | nil => rw [hc] at hy; simp at hy; subst hy; decide
      | cons a b => rw [hc] at hy; simp at hy; subst hy; exact h.commHead _ (by simp [hc])
    · rw [cat_cons, cat_one, m, m, m, hsplit]
      exact hs.trans hv
  · have hv' : m afterCommRe v' ((1, u') :: []) (fun s' c => some (c, s')) = some (c, r) := by
      have := hv
      simp only [k1] at this
      rw [e1, take_sub_len] at this
      exact this
    obtain ⟨_, _, c', _, _, hext, he⟩ := m_sound_caps _ hv'
    simp only [Option.some.injEq, Prod.mk.injEq] at he
    obtain ⟨rfl, _⟩ := he
    obtain ⟨e, rfl, hx'⟩ := hext
    have hno : ∀ y ∈ e, y.1 ≠ 1 := by
      intro y hy hy1
      have := hx' y hy
      rw [hy1] at this
      revert this
      decide
    clear hv hv' hs hsome
    induction e with
    | nil => rfl
    | cons y e ih =>
      have h2 : (1 == y.1) = false := by simpa using fun h => hno y (by simp) h.symm
      simp only [List.cons_append, List.lookup, h2]
      exact ih (fun z hz => hx' z (by simp [hz])) fun z hz => hno z (by simp [hz])

/-- a line with a tgid whose payload has a parenthesis and the second half of a header: the payload recorded comes after the parenthesis -/
theorem m_tgid_paren {l : PrintedLine} (h : l.WF) (hnl : AllC notNl l.text) {w t a x : Str} (ht : l.tgid = some (w, t)) (hd : l.data = a ++ ')' :: x) (hx : QuotesCpu x) (c : Caps) :
    ∃ v s, m (.seq (opt tgidRe) cpuPartRe) (l.tgidText ++ cpuText l) c (fun s' c => some (c, s')) = some v ∧ s <:+ x ∧ m cpuPartRe s c (fun s' c => some (c, s')) = some v := by
  obtain ⟨wne, hw, _⟩ := h.tgid w t ht
  obtain ⟨hh, ehh⟩ := cpuText_data l
  have htext : l.text = l.lead ++ (l.comm ++ ('-' :: (l.pid ++ (l.tgidText ++ cpuText l)))) := rfl
  have htg : l.tgidText = w ++ '(' :: (t ++ [')']) := by unfold tgidText; rw [ht]; simp
  have hin : ∀ y ∈ t ++ ')' :: cpuText l, notNl y = true := by
    intro y hy
    apply hnl
    rw [htext, htg]
    simp only [List.mem_append, List.mem_cons] at hy
    simp only [List.mem_append, List.mem_cons]
    rcases hy with hy | hy | hy
    · simp [hy]
    · simp [hy]
    · simp [hy]
  have hsplit : t ++ ')' :: cpuText l = (t ++ ')' :: (hh ++ a)) ++ ')' :: x := by rw [ehh, hd]; simp
  have hxnl : AllC notNl x := fun y hy => hin y (by rw [hsplit]; simp [hy])
  have hm := matches_of_quotesCpu hx hxnl
  let k1 : Str → Caps → Option (Caps × Str) := fun s' c' => m (lit ')') s' c' fun s' c' => m cpuPartRe s' c' fun s' c => some (c, s')
  obtain ⟨u', v', e1, hp, hs, hsome⟩ := mStar_longest (p := notNl) (t ++ ')' :: (hh ++ a)) (v := ')' :: x) (c := c) (k := k1)
    (fun y hy => hin y (by rw [hsplit]; exact List.mem_append_left _ hy))
    (by
      have := m_complete cpuPartRe cpuPartRe_simple x [] c (fun s' c => some (c, s')) hm fun _ => rfl
      rw [List.append_nil] at this
      simp only [k1, m_lit_cons]
      exact this)
  obtain ⟨v, hv⟩ := Option.isSome_iff_exists.mp hsome
  have hsuf : v' <:+ ')' :: x := by
    obtain ⟨u2, rfl⟩ := hp
    rw [List.append_assoc (t ++ ')' :: (hh ++ a)) u2 v'] at e1
    exact ⟨u2, (List.append_cancel_left e1).symm⟩
  obtain ⟨pre, post, c', e2, hlit, hext, hv2⟩ := m_sound_caps _ hv
  have := matches_lit hlit
  subst this
  have hc : c' = c := by
    obtain ⟨e, rfl, he⟩ := hext
    cases e with
    | nil => rfl
    | cons a e => exact absurd (he a (by simp)) (by simp [groups, lit])
  rw [hc] at hv2
  refine ⟨v, post, ?_, ?_, hv2⟩
  · rw [m, opt, m, htg]
    have : m tgidRe (w ++ ('(' :: (t ++ (')' :: cpuText l)))) c (fun s' c' => m cpuPartRe s' c' fun s' c => some (c, s')) = some v := by
      rw [tgidRe, cat_cons]
      rw [m]
      apply m_plus_max w wne hw
      · intro y hy; simp at hy; subst hy; decide
      · rw [cat_cons]
        rw [m, m_lit_cons, cat_cons]
        rw [m, cat_one, m, hsplit]
        exact hs.trans hv
    have e3 : w ++ '(' :: (t ++ [')']) ++ cpuText l = w ++ ('(' :: (t ++ (')' :: cpuText l))) := by simp
    rw [e3, this]
  · rw [e2, List.singleton_append] at hsuf
    rcases List.suffix_cons_iff.1 hsuf with h' | h'
    · rw [(List.cons.inj h').2]
      exact List.suffix_refl _
    · exact (List.suffix_cons _ _).trans h'

/-- the CPU, the timestamp and the payload recorded are parts of the text matched -/
theorem cpuPart_caps {s : Str} {c : Caps} {v : Caps × Str} (h : m cpuPartRe s c (fun s' c => some (c, s')) = some v) :
    ∃ cpu ts d, v.1.lookup 3 = some cpu ∧ Digits cpu ∧ cpu <:+: s ∧ v.1.lookup 4 = some ts ∧ ts <:+: s ∧ v.1.lookup 7 = some d ∧ d <:+: s ∧ v.1.lookup 1 = c.lookup 1 ∧ v.1.lookup 2 = c.lookup 2 := by
  have key : ∀ (e : Caps) (c : Caps) (n : Nat), (∀ x ∈ e, x.1 ≠ n) → (e ++ c).lookup n = c.lookup n := by
    intro e c n he
    induction e with
    | nil => rfl
    | cons a e ih =>
      have h2 : (n == a.1) = false := by simpa using fun h => he a (by simp) h.symm
      simp only [List.cons_append, List.lookup, h2]
      exact ih fun x hx => he x (by simp [hx])
  have hlook : ∀ {g : List Nat} {c c' : Caps}, Ext g c c' → ∀ n, n ∉ g → c'.lookup n = c.lookup n := by
    rintro g c c' ⟨e, rfl, he⟩ n hn
    exact key e c n fun x hx hxn => hn (hxn ▸ he x hx)
  have h0 := m_sound_caps _ h
  obtain ⟨_, _, c0, _, _, x0, h0⟩ := h0
  cases h0
  have hcap : ∀ (n : Nat) (r b : Re) (s : Str) (c : Caps) (w : Caps × Str), n ∉ groups b → m (.seq (.group n r) b) s c (fun s' c => some (c, s')) = some w →
      ∃ t s' c', w.1.lookup n = some t ∧ Matches r t ∧ t <:+: s ∧ s' <:+ s ∧ m b s' c' (fun s' c => some (c, s')) = some w := by
    intro n r b s c w hn hm
    rw [m, m] at hm
    obtain ⟨pre, post, c', e, hr, _, hm⟩ := m_sound_caps _ hm
    have hm' := hm
    obtain ⟨_, _, c2, _, _, x2, hm2⟩ := m_sound_caps _ hm'
    cases hm2
    refine ⟨pre, post, _, ?_, hr, ⟨[], post, by rw [e]; rfl⟩, ⟨pre, e.symm⟩, hm⟩
    rw [hlook x2 n hn, e, take_sub_len]
    simp [List.lookup]
  have hg : groups cpuPartRe = [3, 4, 5, 6, 6, 7] := by decide
  have k1 := hlook x0 1 (by rw [hg]; decide)
  have k2 := hlook x0 2 (by rw [hg]; decide)
  simp only [cpuPartRe, cat] at h
  obtain ⟨s1, _, l1, h⟩ := m_seq_peel h
  obtain ⟨s2, _, l2, h⟩ := m_seq_peel h
  obtain ⟨cpu, s3, _, a1, a0, a2, l3, h⟩ := hcap 3 _ _ _ _ _ (by decide) h
  obtain ⟨s4, _, l4, h⟩ := m_seq_peel h
  obtain ⟨s5, _, l5, h⟩ := m_seq_peel h
  obtain ⟨s6, _, l6, h⟩ := m_seq_peel h
  simp only [tsDataRe, cat, timestampRe] at h
  have q3 := (l2.trans l1)
  have q6 := ((l6.trans l5).trans l4).trans (l3.trans q3)
  obtain ⟨ts, s7, _, b1, _, b2, l7, h⟩ := hcap 4 _ _ _ _ _ (by decide) h
  obtain ⟨s8, _, l8, h⟩ := m_seq_peel h
  obtain ⟨s9, _, l9, h⟩ := m_seq_peel h
  have q9 := ((l9.trans l8).trans l7).trans q6
  rw [m] at h
  obtain ⟨pre, post, c', e, _, h⟩ := m_sound _ h
  simp only [Option.some.injEq] at h
  refine ⟨cpu, ts, pre, a1, matches_plus a0, a2.trans q3.isInfix, b1, b2.trans q6.isInfix, ?_, List.IsInfix.trans ⟨[], post, by rw [e]; rfl⟩ q9.isInfix, k1, k2⟩
  have h' := congrArg (fun p => p.1.lookup 7) h
  simp only at h'
  rw [← h', e, take_sub_len]
  simp [List.lookup]

end Trappy
