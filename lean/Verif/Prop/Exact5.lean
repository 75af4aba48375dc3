import Mathlib.Tactic.Common
import Verif.Prop.Data
import Verif.Prop.Array
import Verif.Prop.Header
import Verif.Prop.Layout
import Verif.Prop.Builtin
/-!
# C19, C86, C87, C88, C97, C99 and C116, exactly
-/

namespace Trappy
open Re Py

/-! ## C19 -/

/-- **C19 (the end), refuted.** Whatever comes before it, an empty array at the end of a payload stays, although those before it are removed. For all payloads. -/
theorem C19_end_refuted (segs : List (Str × Str)) (pre name : Str) (hs : ∀ x ∈ segs, Before x.1 ∧ x.2 ≠ [] ∧ ∀ c ∈ x.2, Py.isWord c = true)
    (hl : ¬ (cs!"={} " <:+: pre ++ name ++ cs!"={}")) :
    cleanData ((segs.map fun x => x.1 ++ (x.2 ++ cs!"={} ")).flatten ++ (pre ++ name ++ cs!"={}")) = (segs.map Prod.fst).flatten ++ (pre ++ name ++ cs!"={}") := by
  unfold cleanData
  rw [if_pos]
  · exact sub_segments segs _ hs hl _ (by omega)
  · rw [contains_iff]
    exact ⟨(segs.map fun x => x.1 ++ (x.2 ++ cs!"={} ")).flatten ++ (pre ++ name), [], by simp⟩

example : (∀ x ∈ [(cs!"x=1 ", cs!"a")], Before x.1 ∧ x.2 ≠ [] ∧ ∀ c ∈ x.2, Py.isWord c = true) ∧ ¬ (cs!"={} " <:+: cs!"y=2 " ++ cs!"b" ++ cs!"={}") ∧
    cleanData cs!"x=1 a={} y=2 b={}" = cs!"x=1 y=2 b={}" := by
  refine ⟨?_, ?_, by decide +kernel⟩
  · intro x hx
    rw [List.mem_singleton] at hx
    subst hx
    exact ⟨⟨by rw [← contains_iff]; decide +kernel, by decide⟩, by decide, by decide⟩
  · rw [← contains_iff]
    decide +kernel

/-! ## C86 -/

theorem find_last_of_nodup {α : Type} {e : Dict α} (hn : (e.map Prod.fst).Nodup) {k : Str} {v : α} (h : (k, v) ∈ e) :
    (e.reverse.find? fun x => x.1 == k).map Prod.snd = some v := by
  rw [find_reverse_get hn]
  exact Dict.get_of_mem hn h

/-- **C86, exactly.** A row holds a header value if and only if its payload has no other value of the name of the header column; and every value of the payload is in the row. For all payloads. -/
theorem C86_exact (comm : Str) (pid cpu line : Nat) (payload : Dict Val) (hn : (payload.map Prod.fst).Nodup) :
    let row := parsedRow comm pid cpu line payload
    (∀ k v, (k, v) ∈ payload → row.get k = some v) ∧
    (row.get cs!"__comm" = some (.str comm) ↔ ∀ v, (cs!"__comm", v) ∈ payload → v = .str comm) ∧
    (row.get cs!"__pid" = some (.int pid) ↔ ∀ v, (cs!"__pid", v) ∈ payload → v = .int pid) ∧
    (row.get cs!"__cpu" = some (.int cpu) ↔ ∀ v, (cs!"__cpu", v) ∈ payload → v = .int cpu) ∧
    (row.get cs!"__line" = some (.int line) ↔ ∀ v, (cs!"__line", v) ∈ payload → v = .int line) := by
  have hp : ∀ k v, (k, v) ∈ payload → (parsedRow comm pid cpu line payload).get k = some v := by
    intro k v h
    unfold parsedRow
    rw [get_update, find_last_of_nodup hn h]
    rfl
  have key : ∀ (k : Str) (v : Val), (Dict.get ([(cs!"__comm", .str comm), (cs!"__pid", .int pid), (cs!"__cpu", .int cpu), (cs!"__line", .int line)] : Dict Val) k = some v) →
      ((parsedRow comm pid cpu line payload).get k = some v ↔ ∀ w, (k, w) ∈ payload → w = v) := by
    intro k v hh
    constructor
    · intro h w hw
      rw [hp k w hw] at h
      exact Option.some.inj h
    · intro h
      by_cases hk : k ∈ payload.map Prod.fst
      · obtain ⟨⟨k', w⟩, hw, rfl⟩ := List.mem_map.1 hk
        rw [hp _ w hw, h w hw]
      · unfold parsedRow
        rw [get_update_of_not_mem _ _ _ hk]
        exact hh
  exact ⟨hp, key _ _ (by simp [Dict.get]), key _ _ (by simp [Dict.get]), key _ _ (by simp [Dict.get]), key _ _ (by simp [Dict.get])⟩

example : generateDataDict cs!"x=1 __pid=7" = some [(cs!"x", .int 1), (cs!"__pid", .int 7)] ∧
    (([(cs!"x", .int 1), (cs!"__pid", .int 7)] : Dict Val).map Prod.fst).Nodup ∧
    (parsedRow cs!"task" 7 2 3 [(cs!"x", .int 1), (cs!"__pid", .int 7)]).get cs!"__pid" = some (.int 7) ∧
    (parsedRow cs!"task" 1 2 3 [(cs!"x", .int 1), (cs!"__pid", .int 7)]).get cs!"__pid" ≠ some (.int 1) := by decide +kernel

/-! ## C87 -/

/-- **C87 (events nobody registered), refuted.** If no class has the event as its name or unique word, the request with a colon always has another unique word than the one without, ending in two colons.
For all registries and events. -/
theorem C87_unregistered_refuted (r : Registry) (e : Str)
    (h : ∀ m d, (m, d) ∈ r.known → d.word ∉ [e, e ++ [':'], e ++ [':', ':']] ∧ d.name ∉ [e, e ++ [':']]) :
    (eventClass r.known e).word = e ++ [':'] ∧ (eventClass r.known (e ++ [':'])).word = e ++ [':', ':'] ∧
    (eventClass r.known (e ++ [':'])).word ≠ (eventClass r.known e).word := by
  have key : ∀ q : Str, q = e ∨ q = e ++ [':'] → (eventClass r.known q).word = q ++ [':'] := by
    intro q hq
    unfold eventClass
    rw [List.find?_eq_none.2]
    rintro ⟨m, d⟩ hmd
    obtain ⟨h1, h2⟩ := h m d hmd
    simp only [List.mem_cons, List.not_mem_nil, or_false, not_or] at h1 h2
    simp only [matchesEvent, Bool.or_eq_true, beq_iff_eq, not_or]
    rcases hq with rfl | rfl
    · exact ⟨⟨fun h => h1.1 h.symm, fun h => h1.2.1 h.symm⟩, fun h => h2.1 h.symm⟩
    · exact ⟨⟨fun h => h1.2.1 h.symm, fun h => h1.2.2 (by rw [← h]; simp)⟩, fun h => h2.2 h.symm⟩
  have h1 := key e (.inl rfl)
  have h2 := key (e ++ [':']) (.inr rfl)
  refine ⟨h1, by rw [h2]; simp, ?_⟩
  rw [h1, h2]
  intro h'
  have := congrArg List.length h'
  simp at this

example : let r := runOps [.reg exThermal cs!"thermal", .reg exSwitch cs!"sched"] Registry.empty
    (∀ x ∈ r.known, x.2.word ∉ [cs!"foo", cs!"foo:", cs!"foo::"] ∧ x.2.name ∉ [cs!"foo", cs!"foo:"]) ∧ r.known.length = 2 := by decide +kernel

/-! ## C88 -/

/-- what the matcher captures is no longer than the text -/
theorem m_caps_len {α : Type} (r : Re) : ∀ {s : Str} {c : Caps} {k : Str → Caps → Option α} {v : α}, m r s c k = some v →
    ∃ s' c', k s' c' = some v ∧ s'.length ≤ s.length ∧ ∀ x ∈ c', x ∈ c ∨ x.2.length ≤ s.length := by
  induction r with
  | eps => intro s c k v h; exact ⟨s, c, h, Nat.le_refl _, fun x hx => .inl hx⟩
  | chr p =>
    intro s c k v h
    cases s with
    | nil => simp [m] at h
    | cons x s =>
      simp only [m] at h
      split at h
      · exact ⟨s, c, h, by simp, fun x hx => .inl hx⟩
      · cases h
  | seq a b iha ihb =>
    intro s c k v h
    simp only [m] at h
    obtain ⟨s1, c1, h1, l1, x1⟩ := iha h
    obtain ⟨s2, c2, h2, l2, x2⟩ := ihb h1
    refine ⟨s2, c2, h2, by omega, fun x hx => ?_⟩
    rcases x2 x hx with h | h
    · exact x1 x h
    · exact .inr (by omega)
  | alt a b iha ihb =>
    intro s c k v h
    simp only [m] at h
    split at h
    · rename_i w hw
      cases h
      exact iha hw
    · exact ihb h
  | star p =>
    intro s c k v h
    simp only [m] at h
    obtain ⟨pre, post, e, _, hk⟩ := mStar_sound h
    exact ⟨post, c, hk, by simp [e], fun x hx => .inl hx⟩
  | many r ih =>
    intro s c k v h
    simp only [m] at h
    have key : ∀ (n : Nat) (s : Str) (c : Caps), mMany (m r) n s c k = some v →
        ∃ s' c', k s' c' = some v ∧ s'.length ≤ s.length ∧ ∀ x ∈ c', x ∈ c ∨ x.2.length ≤ s.length := by
      intro n
      induction n with
      | zero => intro s c h; exact ⟨s, c, h, Nat.le_refl _, fun x hx => .inl hx⟩
      | succ n ihn =>
        intro s c h
        unfold mMany at h
        split at h
        · rename_i w hw
          cases h
          obtain ⟨s1, c1, h1, l1, x1⟩ := ih hw
          split at h1
          · obtain ⟨s2, c2, h2, l2, x2⟩ := ihn s1 c1 h1
            refine ⟨s2, c2, h2, by omega, fun x hx => ?_⟩
            rcases x2 x hx with h | h
            · exact x1 x h
            · exact .inr (by omega)
          · cases h1
        · exact ⟨s, c, h, Nat.le_refl _, fun x hx => .inl hx⟩
    exact key _ s c h
  | group n r ih =>
    intro s c k v h
    simp only [m] at h
    obtain ⟨s1, c1, h1, l1, x1⟩ := ih h
    refine ⟨s1, _, h1, l1, fun x hx => ?_⟩
    rcases List.mem_cons.1 hx with rfl | hx
    · exact .inr (by simp)
    · exact x1 x hx
  | notNext p =>
    intro s c k v h
    cases s with
    | nil => simp only [m] at h; exact ⟨[], c, h, Nat.le_refl _, fun x hx => .inl hx⟩
    | cons x s =>
      simp only [m] at h
      split at h
      · cases h
      · exact ⟨x :: s, c, h, Nat.le_refl _, fun x hx => .inl hx⟩

/-- **C88, exactly.** The text of a marker in a systrace is kept if and only if it does not start with a capital letter or has only this letter. For all texts. -/
theorem C88_exact (data : Str) : (∃ kv ∈ fallbackRow sysMarker data, kv.2 = .str data) ↔ (∀ c ∈ data.head?, isUpper c = false) ∨ data.length = 1 := by
  by_cases hd : ∀ c ∈ data.head?, isUpper c = false
  · rw [(C88_text_kept_partial data).2 hd]
    exact iff_of_true ⟨_, List.mem_singleton.2 rfl, rfl⟩ (.inl hd)
  · simp only [hd, false_or]
    cases data with
    | nil => simp at hd
    | cons ch t =>
      have hc : isUpper ch = true := by simpa using hd
      -- the pattern matches
      obtain ⟨⟨c, rest⟩, hm⟩ : ∃ p, matchPrefix systraceEventRe (ch :: t) = some p := by
        unfold matchPrefix systraceEventRe
        rw [m.eq_4, m.eq_8, m.eq_3, if_pos hc]
        unfold opt
        rw [m.eq_5]
        split
        · exact ⟨_, rfl⟩
        · rw [m.eq_1]; exact ⟨_, rfl⟩
      have hcaps : ∀ x ∈ c, x = (1, [ch]) ∨ x.2.length ≤ t.length := by
        have h := hm
        unfold matchPrefix systraceEventRe at h
        rw [m.eq_4, m.eq_8, m.eq_3, if_pos hc] at h
        obtain ⟨s', c', h1, _, h3⟩ := m_caps_len _ h
        cases h1
        intro x hx
        rcases h3 x hx with h | h
        · left
          rw [List.mem_singleton] at h
          rw [h]
          simp
        · exact .inr h
      have hone : c.get 1 = some [ch] := by
        have h := hm
        unfold matchPrefix systraceEventRe at h
        rw [m.eq_4, m.eq_8, m.eq_3, if_pos hc] at h
        obtain ⟨pre, post, c', _, _, ⟨e, he, hg⟩, h1⟩ := m_sound_caps _ h
        cases h1
        have hne : ∀ x ∈ e, x.1 ≠ 1 := by
          intro x hx h
          have := hg x hx
          rw [h] at this
          revert this
          decide
        rw [he]
        have : ∀ (e : Caps) (x : Str), (∀ y ∈ e, y.1 ≠ 1) → Caps.get (e ++ [(1, x)]) 1 = some x := by
          intro e x
          induction e with
          | nil => intro _; simp [Caps.get]
          | cons y e ih =>
            intro h
            have hy := h y List.mem_cons_self
            have := ih fun z hz => h z (List.mem_cons_of_mem _ hz)
            unfold Caps.get at this ⊢
            rw [List.cons_append, List.lookup_cons, show (1 == y.1) = false by simpa using Ne.symm hy]
            exact this
        have h1 := this e (List.take ((ch :: t).length - t.length) (ch :: t)) hne
        refine h1.trans ?_
        simp
      have hrow : fallbackRow sysMarker (ch :: t) = [(cs!"event", MVal.ofGroup (c.get 1)),
          (cs!"pid", match c.get 2 with | some s => .int (Py.natVal s) | none => .none), (cs!"func", MVal.ofGroup (c.get 3)), (cs!"data", MVal.ofGroup (c.get 4))] := by
        apply C45_row
        unfold sysMarker
        rw [hm]
        rfl
      have hget : ∀ n x, n ≠ 1 → c.get n = some x → x.length ≤ t.length := by
        intro n x hn hx
        have hmem : (n, x) ∈ c := by
          have : ∀ (c : Caps), c.lookup n = some x → (n, x) ∈ c := by
            intro c
            induction c with
            | nil => intro h; cases h
            | cons y c ih =>
              intro h
              rw [List.lookup_cons] at h
              split at h
              · rename_i hy
                cases h
                rw [beq_iff_eq] at hy
                rw [hy]
                exact List.mem_cons_self
              · exact List.mem_cons_of_mem _ (ih h)
          exact this c hx
        rcases hcaps _ hmem with h | h
        · exact absurd (congrArg Prod.fst h) hn
        · exact h
      rw [hrow, hone]
      constructor
      · rintro ⟨kv, hkv, e⟩
        simp only [List.mem_cons, List.not_mem_nil, or_false] at hkv
        have hg : ∀ n, n ≠ 1 → MVal.ofGroup (c.get n) ≠ .str (ch :: t) := by
          intro n hn h
          cases hx : c.get n with
          | none => rw [hx] at h; cases h
          | some x =>
            rw [hx] at h
            cases h
            have := hget n _ hn hx
            simp at this
        rcases hkv with rfl | rfl | rfl | rfl
        · cases e
          rfl
        · simp only at e
          split at e <;> cases e
        · exact absurd e (hg 3 (by decide))
        · exact absurd e (hg 4 (by decide))
      · intro h
        have : t = [] := by simpa using h
        subst this
        exact ⟨_, List.mem_cons_self, rfl⟩

example : (∃ kv ∈ fallbackRow sysMarker cs!"E", kv.2 = .str cs!"E") ∧ (¬ ∃ kv ∈ fallbackRow sysMarker cs!"Hello world", kv.2 = .str cs!"Hello world") ∧
    (∃ kv ∈ fallbackRow sysMarker cs!"hello", kv.2 = .str cs!"hello") := by decide +kernel

/-! ## C97 -/

/-- **C97, exactly.** A concatenated plot draws the series of constraint number k, and nothing else, on cell k of the grid if and only if each constraint with data has its own number as trace index. For
all constraints whose trace indices are below their number, pivots and numbers of plots per line. -/
theorem C97_exact {perLine : Nat} (hl : 0 < perLine) {cs : List SConstraint} (hc : cs ≠ []) (pivots : List Val) (hb : ∀ x ∈ cs, x.traceIdx < cs.length) :
    staticPlot perLine true cs pivots = .ok (ownBlocks (min perLine cs.length) pivots 0 cs) ↔
      ∀ (j : Nat) (x : SConstraint), cs[j]? = some x → (∃ p ∈ pivots, p ∈ x.keys) → x.traceIdx = j := by
  have hn : 0 < cs.length := List.length_pos_iff.2 hc
  obtain ⟨l, h⟩ := (C69_when perLine cs.length).2 ⟨hn, hl⟩
  obtain ⟨_, _, h3, h4, _⟩ := mkLayout_spec h
  have hcell : ∀ k', k' < cs.length → axisOf l k' = some (k' / l.cols, k' % l.cols) := fun k' hk' => axisOf_cell h (by omega)
  -- placing on the own blocks
  have key : ∀ (xs : List SConstraint) (k i : Nat), k + xs.length = cs.length → (∀ x ∈ xs, x.traceIdx < cs.length) →
      (placeAll l true i (cpPairs pivots k xs) = some (ownBlocks l.cols pivots k xs) ↔
        ∀ (j : Nat) (x : SConstraint), xs[j]? = some x → (∃ p ∈ pivots, p ∈ x.keys) → x.traceIdx = k + j) := by
    intro xs
    induction xs with
    | nil => intro k i _ _; simp [cpPairs, placeAll, ownBlocks]
    | cons x xs ih =>
      intro k i hk hb
      rw [List.length_cons] at hk
      have hx := hb x List.mem_cons_self
      have ih' := fun i => ih (k + 1) i (by omega) fun y hy => hb y (List.mem_cons_of_mem _ hy)
      have hsplit : (∀ (j : Nat) (y : SConstraint), (x :: xs)[j]? = some y → (∃ p ∈ pivots, p ∈ y.keys) → y.traceIdx = k + j) ↔
          ((∃ p ∈ pivots, p ∈ x.keys) → x.traceIdx = k) ∧
          ∀ (j : Nat) (y : SConstraint), xs[j]? = some y → (∃ p ∈ pivots, p ∈ y.keys) → y.traceIdx = k + 1 + j := by
        constructor
        · intro h
          refine ⟨fun hp => by simpa using h 0 x rfl hp, fun j y hy hp => ?_⟩
          have := h (j + 1) y (by simpa using hy) hp
          omega
        · rintro ⟨h1, h2⟩ j y hy hp
          cases j with
          | zero => simp at hy; subst hy; simpa using h1 hp
          | succ j => have := h2 j y (by simpa using hy) hp; omega
      rw [hsplit, cpPairs, ownBlocks]
      -- all series of a constraint go to one axis
      have hpl := (placeAll_own l l.cols x.traceIdx x.traceIdx (cpPairs pivots (k + 1) xs) [] i (hcell _ hx) i)
      have hmany : ∀ (ps : List Val) (i : Nat), placeAll l true i (ps.map (fun p => (⟨k, x.traceIdx, p⟩ : SSeries)) ++ cpPairs pivots (k + 1) xs) =
          (placeAll l true (i + ps.length) (cpPairs pivots (k + 1) xs)).map fun r => ps.map (fun p => ((⟨k, x.traceIdx, p⟩ : SSeries), (x.traceIdx / l.cols, x.traceIdx % l.cols))) ++ r := by
        intro ps
        induction ps with
        | nil => intro i; simp
        | cons p ps ihp =>
          intro i
          rw [List.map_cons, List.cons_append, placeAll]
          simp only [if_true]
          rw [hcell _ hx, ihp (i + 1), show i + (p :: ps).length = i + 1 + ps.length by simp; omega]
          cases placeAll l true (i + 1 + ps.length) (cpPairs pivots (k + 1) xs) <;> simp
      rw [hmany]
      generalize hps : (pivots.filter fun p => decide (p ∈ x.keys)) = ps
      have hne : (∃ p ∈ pivots, p ∈ x.keys) ↔ ps ≠ [] := by
        rw [← hps, ne_eq, List.filter_eq_nil_iff]
        simp
      rw [hne, ← ih' (i + ps.length)]
      cases hr : placeAll l true (i + ps.length) (cpPairs pivots (k + 1) xs) with
      | none => simp
      | some r =>
        simp only [Option.map_some, Option.some.injEq]
        constructor
        · intro e
          obtain ⟨e1, e2⟩ := List.append_inj e (by simp)
          refine ⟨fun hp => ?_, e2⟩
          cases ps with
          | nil => exact absurd rfl hp
          | cons p ps =>
            simp only [List.map_cons, List.cons.injEq, Prod.mk.injEq] at e1
            exact cell_inj (by rw [Prod.mk.injEq]; exact e1.1.2)
        · rintro ⟨h1, rfl⟩
          cases ps with
          | nil => rfl
          | cons p ps => rw [h1 (by simp)]
  unfold staticPlot
  simp only [if_true]
  rw [h]
  simp only
  have key0 := key cs 0 0 (by simp) hb
  simp only [Nat.zero_add] at key0
  rw [← key0]
  cases hp : placeAll l true 0 (cpPairs pivots 0 cs) with
  | none => simp
  | some ps =>
    simp only [Option.some.injEq]
    constructor
    · intro e
      split at e
      · cases e
        rw [h3]
      · cases e
    · rintro rfl
      rw [if_pos]
      · rw [h3]
      · unfold legendFits
        rw [List.all_eq_true]
        intro q _
        rw [decide_eq_true_iff]
        exact ownBlocks_count _ _ _ _ _

/-- **C97 (one trace), refuted.** If a single trace is drawn with several columns, and one after the first has data, its series are not on their own cells. For all constraints and pivots. -/
theorem C97_one_trace_refuted {perLine : Nat} (hl : 0 < perLine) {a : SConstraint} {as : List SConstraint} {x : SConstraint} {p : Val} (pivots : List Val) (h0 : ∀ y ∈ a :: as, y.traceIdx = 0)
    (hx : x ∈ as) (hp : p ∈ pivots) (hpx : p ∈ x.keys) : staticPlot perLine true (a :: as) pivots ≠ .ok (ownBlocks (min perLine (a :: as).length) pivots 0 (a :: as)) := by
  intro h
  rw [C97_exact hl (by simp) pivots fun y hy => by rw [h0 y hy]; simp] at h
  obtain ⟨j, hj⟩ := List.getElem?_of_mem hx
  have := h (j + 1) x (by simpa using hj) ⟨p, hp, hpx⟩
  rw [h0 x (List.mem_cons_of_mem _ hx)] at this
  omega

example : staticPlot 2 true [⟨[.int 7], 0⟩, ⟨[], 0⟩] [.int 7] = .ok [(⟨0, 0, .int 7⟩, (0, 0))] ∧
    staticPlot 2 true [⟨[.int 7], 0⟩, ⟨[.int 8], 0⟩] [.int 7, .int 8] ≠ .ok (ownBlocks 2 [.int 7, .int 8] 0 [⟨[.int 7], 0⟩, ⟨[.int 8], 0⟩]) :=
  ⟨rfl, C97_one_trace_refuted (perLine := 2) (by decide) (p := .int 8) _ (by decide) (List.mem_singleton.2 rfl) (by decide) (by decide)⟩

/-! ## C116 -/

theorem builtin_known : ∀ c ∈ builtins, builtinRegistry.known.get c.name = some c.toP := by decide +kernel

theorem builtin_get_none {e : Str} (he : ∀ c ∈ builtins, c.name ≠ e) : builtinRegistry.known.get e = none := by
  cases h : builtinRegistry.known.get e with
  | none => rfl
  | some p =>
    have hm := Dict.get_mem h
    have : ∀ x ∈ builtinRegistry.known, ∃ c ∈ builtins, c.name = x.1 := by decide +kernel
    obtain ⟨c, hc, hn⟩ := this _ hm
    exact absurd hn (he c hc)

theorem all_get (e k : Str) : (classDefinitions builtinRegistry cs!"all" [e]).get k =
    (builtinRegistry.known.get k).or (Dict.get [((eventClass builtinRegistry.known e).name, eventClass builtinRegistry.known e)] k) := by
  have n1 : (builtinRegistry.thermal.map Prod.fst).Nodup := by decide +kernel
  have n2 : (builtinRegistry.sched.map Prod.fst).Nodup := by decide +kernel
  have n3 : (builtinRegistry.dynamic.map Prod.fst).Nodup := by decide +kernel
  have hd : addEvents builtinRegistry [e] = [((eventClass builtinRegistry.known e).name, eventClass builtinRegistry.known e)] := rfl
  have hs : classDefinitions builtinRegistry cs!"all" [e] = Dict.update (Dict.update (Dict.update (addEvents builtinRegistry [e]) builtinRegistry.thermal) builtinRegistry.sched) builtinRegistry.dynamic := by
    unfold classDefinitions
    simp only
    rw [if_neg (by decide), if_neg (by decide), if_pos (by decide)]
  rw [hs, hd]
  generalize (eventClass builtinRegistry.known e) = ec
  unfold Registry.known
  rw [Dict.get_update_nodup _ n3, Dict.get_update_nodup _ n2, Dict.get_update_nodup _ n1, Dict.get_update_nodup _ n3, Dict.get_update_nodup _ n2, Dict.get_update_nodup _ n1]
  cases builtinRegistry.dynamic.get k <;> cases builtinRegistry.sched.get k <;> cases builtinRegistry.thermal.get k <;> rfl

/-- **C116, exactly.** With the default scope an event can be requested along with the parsers that come with TRAPpy if and only if one of them is for it, or its unique word and those of all of them are
apart. For all events. -/
theorem C116_exact (e : Str) : wordsAccepted (classDefinitions builtinRegistry cs!"all" [e]) = true ↔
    (∃ c ∈ builtins, eventClass builtinRegistry.known e = c.toP) ∨ ∀ c ∈ builtins, Apart (e ++ [':']) c.word := by
  constructor
  · intro h
    rw [C28_accepted_iff, List.pairwise_map] at h
    by_cases hL : ∃ c ∈ builtins, eventClass builtinRegistry.known e = c.toP
    · exact .inl hL
    · right
      have he := (eventClass_cases builtinRegistry_holds e).resolve_left hL
      have hnames : ∀ c ∈ builtins, c.name ≠ e := by
        rintro c hc rfl
        apply hL
        have hmem := Dict.get_mem (builtin_known c hc)
        have hall : ∀ x ∈ builtinRegistry.known, ∃ c ∈ builtins, x.2 = c.toP := by decide +kernel
        unfold eventClass
        cases hf : builtinRegistry.known.find? (fun kc => matchesEvent c.name kc.2) with
        | none =>
          rw [List.find?_eq_none] at hf
          exact absurd (by simp [matchesEvent, ParserClass.toP]) (hf _ hmem)
        | some kc => exact hall kc (List.mem_of_find?_eq_some hf)
      intro c hc
      have m1 : (c.name, c.toP) ∈ classDefinitions builtinRegistry cs!"all" [e] := by
        apply Dict.get_mem
        rw [all_get, builtin_known c hc]
        rfl
      have m2 : (e, ({ id := none, name := e, word := e ++ [':'] } : PClass)) ∈ classDefinitions builtinRegistry cs!"all" [e] := by
        apply Dict.get_mem
        rw [all_get, builtin_get_none hnames, he]
        simp [Dict.get]
      have hsym : ∀ x ∈ classDefinitions builtinRegistry cs!"all" [e], ∀ y ∈ classDefinitions builtinRegistry cs!"all" [e], x ≠ y → Apart x.2.word y.2.word := by
        have : Std.Symm fun (x y : Str × PClass) => x ≠ y → Apart x.2.word y.2.word := ⟨fun x y hxy hne => ⟨(hxy hne.symm).2, (hxy hne.symm).1⟩⟩
        have := List.Pairwise.forall_of_forall (R := fun (x y : Str × PClass) => x ≠ y → Apart x.2.word y.2.word) (l := classDefinitions builtinRegistry cs!"all" [e])
          (fun x _ hne => absurd rfl hne) (List.Pairwise.imp (fun {x y} hxy _ => ⟨hxy.1, hxy.2⟩) h)
        exact fun x hx y hy => this hx hy
      exact hsym _ m2 _ m1 fun h => hnames c hc (congrArg Prod.fst h).symm
  · intro h
    refine C116_builtins_accepted_partial _ builtinRegistry_holds _ _ ?_ ?_
    · intro e' he'
      rw [List.mem_singleton] at he'
      rw [he']
      exact h
    · intro e' he' f hf hne
      rw [List.mem_singleton] at he' hf
      exact absurd (he'.trans hf.symm) hne

example : (∀ c ∈ builtins, Apart (cs!"irq_handler_entry" ++ [':']) c.word) ∧ ¬ (∀ c ∈ builtins, Apart (cs!"cpu_idle_miss" ++ [':']) c.word) ∧
    ¬ (∃ c ∈ builtins, eventClass builtinRegistry.known cs!"cpu_idle_miss" = c.toP) := by
  refine ⟨by decide +kernel, by decide +kernel, by decide +kernel⟩

/-! ## C99 -/

/-- **C99, exactly.** The titles are the names of the traces in their order, one for each plot, and `IndexError` is raised if and only if there are more plots than traces. For all pairs. -/
theorem C99_exact (names : List Str) (pairs : List (Nat × Val)) :
    permTitles names 0 pairs = if pairs.length ≤ names.length then some (names.take pairs.length) else none := by
  split
  · rename_i h
    simpa using permTitles_spec names pairs 0 (by omega)
  · rename_i h
    have key : ∀ (pairs : List (Nat × Val)) (i : Nat), i ≤ names.length → names.length < i + pairs.length → permTitles names i pairs = none := by
      intro pairs
      induction pairs with
      | nil => intro i h1 h2; simp at h2; omega
      | cons p ps ih =>
        intro i h1 h2
        unfold permTitles
        by_cases hi : i < names.length
        · rw [ih (i + 1) (by omega) (by simp at h2; omega)]
          cases names[i]? <;> rfl
        · rw [List.getElem?_eq_none (by omega)]
    exact key pairs 0 (by omega) (by omega)

/-- **C99 (several pivot values), refuted.** With at least one trace and at least two pivot values no plot with permutation can be drawn. For all traces and values. -/
theorem C99_several_refuted (names : List Str) (pivots : List Val) (h1 : names ≠ []) (h2 : 2 ≤ pivots.length) :
    permTitles names 0 ((List.range names.length).flatMap fun i => pivots.map fun p => (i, p)) = none := by
  rw [C99_exact, if_neg]
  have : 0 < names.length := List.length_pos_iff.2 h1
  have e : ∀ l : List Nat, (l.flatMap fun i => pivots.map fun p => (i, p)).length = l.length * pivots.length := by
    intro l
    induction l with
    | nil => simp
    | cons x l ih => rw [List.flatMap_cons, List.length_append, ih, List.length_map, List.length_cons, Nat.add_mul]; omega
  rw [e, List.length_range, Nat.not_le]
  calc names.length < names.length * 2 := by omega
    _ ≤ names.length * pivots.length := Nat.mul_le_mul_left _ h2

example : permTitles [cs!"first", cs!"second"] 0 [(0, .int 0), (1, .int 1)] = some [cs!"first", cs!"second"] ∧
    permTitles [cs!"first"] 0 ((List.range 1).flatMap fun i => [Val.int 0, .int 1].map fun p => (i, p)) = none := ⟨rfl, rfl⟩

end Trappy
