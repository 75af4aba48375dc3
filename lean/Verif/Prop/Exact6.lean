import Verif.Prop.Events
import Verif.Prop.Correlator
import Verif.Prop.Constraint
import Verif.Prop.Merge
import Verif.Prop.EventPlotJs
/-!
# C49, C62, C96, C111 and C131, exactly
-/

namespace Trappy
open Re Py

/-! ## C49 -/

/-- **Specification**: the mask reads like a binary number -/
def LooksBinary (mask : Str) : Prop := ∃ x t, mask = '0' :: x :: t ∧ (x = 'b' ∨ x = 'B') ∧ t ≠ [] ∧ ∀ c ∈ t, c = '0' ∨ c = '1'

theorem digits_two {t : Str} (hne : t ≠ []) (h : ∀ c ∈ t, c = '0' ∨ c = '1') : ∃ n, Digits 2 t n := by
  have dig : ∀ c, c = '0' ∨ c = '1' → ∃ d, IsDigitOf 2 c d := by
    rintro c (rfl | rfl)
    · exact ⟨0, by decide, by decide⟩
    · exact ⟨1, by decide, by decide⟩
  induction t using List.reverseRecOn with
  | nil => exact absurd rfl hne
  | append_singleton t c ih =>
    obtain ⟨d, hd⟩ := dig c (h c (by simp))
    by_cases ht : t = []
    · subst ht
      exact ⟨d, .one hd⟩
    · obtain ⟨n, hn⟩ := ih ht fun c hc => h c (by simp [hc])
      exact ⟨_, .snoc hn hd⟩

theorem digitVal_lt_two {c : Char} {d : Nat} (h : digitVal c = some d) (hd : d < 2) : c = '0' ∨ c = '1' := by
  have := isDigitOf_iff.2 ⟨h, hd⟩
  obtain ⟨_, h⟩ := this
  have : d = 0 ∨ d = 1 := by omega
  rcases this with rfl | rfl
  · left; rcases h with h | h <;> exact (Option.some.inj h).symm
  · right; rcases h with h | h <;> exact (Option.some.inj h).symm

/-- **C49, exactly.** A hexadecimal mask of at most eight digits comes out as itself with leading zeros if and only if it does not read like a binary number: `0b` and binary digits. For all masks. -/
theorem C49_exact (mask : Str) (hh : ∀ c ∈ mask, isHex c = true) (hne : mask ≠ []) (hl : mask.length ≤ 8) :
    pad8 (stringCastInt mask) = List.replicate (8 - mask.length) '0' ++ mask ↔ ¬ LooksBinary mask := by
  have hu : '_' ∉ mask := fun h => absurd (hh _ h) (by decide)
  have hsp : ∀ c ∈ mask, isSpace c = false := by
    intro c hc
    have := hh c hc
    cases e : isSpace c with
    | false => rfl
    | true =>
      exfalso
      simp only [isHex, isDigit, isSpace, Bool.or_eq_true, Bool.and_eq_true, decide_eq_true_eq, beq_iff_eq] at this e
      omega
  constructor
  · rintro h ⟨x, t, rfl, hx, ht, hb⟩
    obtain ⟨n, hn⟩ := digits_two ht hb
    have hi : IntLit ('0' :: x :: t) n := .plain (.pre (.inr (.inr ⟨hx, rfl⟩)) hn)
    rw [((C13_cast _ hsp).1 n).2 hi] at h
    have hmem : x ∈ pad8 (.int n) := by rw [h]; simp
    unfold pad8 at hmem
    rcases List.mem_append.1 hmem with hm | hm
    · obtain ⟨_, rfl⟩ := List.mem_replicate.1 hm
      rcases hx with h | h <;> exact absurd h (by decide)
    · have hd : isDigit x = true := natStr_digits (i := n) (by
        simp only [Val.text, intStr, natStr] at hm
        rw [if_neg (by omega)] at hm
        simpa using hm)
      rcases hx with rfl | rfl <;> exact absurd hd (by decide)
  · intro hnb
    by_cases hb : ∀ x t, mask = '0' :: x :: t → x ≠ 'b' ∧ x ≠ 'B'
    · exact C49_mask_partial mask hh hne hl hb
    · obtain ⟨x, t, rfl, hx⟩ : ∃ x t, mask = '0' :: x :: t ∧ (x = 'b' ∨ x = 'B') := by
        by_contra hc
        refine hb fun x t e => ⟨fun h => hc ⟨x, t, e, .inl h⟩, fun h => hc ⟨x, t, e, .inr h⟩⟩
      have hno : ∀ i, ¬ IntLit ('0' :: x :: t) i := by
        intro i hi
        have hxd : ∀ d, digitVal x = some d → ¬ d < 10 := by
          rcases hx with rfl | rfl
          · intro d h; rw [show digitVal 'b' = some 11 by decide] at h; cases h; decide
          · intro d h; rw [show digitVal 'B' = some 11 by decide] at h; cases h; decide
        have hx_ : x ≠ '_' := by rcases hx with rfl | rfl <;> decide
        cases hi with
        | plain h =>
          cases h with
          | dec hd _ =>
            obtain ⟨d, h1, h2⟩ := digits_all hd x (by simp) hx_
            exact hxd d h1 h2
          | @pre _ b _ _ hx' hs =>
            have hb2 : b = 2 := by
              rcases hx' with ⟨h, _⟩ | ⟨h, _⟩ | ⟨_, h⟩
              · rcases hx with rfl | rfl <;> exact absurd h (by decide)
              · rcases hx with rfl | rfl <;> exact absurd h (by decide)
              · exact h
            subst hb2
            refine hnb ⟨x, t, rfl, hx, ?_, ?_⟩
            · obtain ⟨c, s, _, e, _⟩ := hs.head
              rw [e]; simp
            · intro c hc
              obtain ⟨d, h1, h2⟩ := digits_all hs c hc fun h => hu (by rw [← h]; simp [hc])
              exact digitVal_lt_two h1 h2
          | preUnder hx' hs => exact hu (by simp)
      rw [(C13_cast _ hsp).2 hno]
      rfl

example : LooksBinary cs!"0b000011" ∧ ¬ LooksBinary cs!"0b0f" ∧ pad8 (stringCastInt cs!"0b0f") = cs!"00000b0f" ∧ pad8 (stringCastInt cs!"0b10") = cs!"00000002" := by
  refine ⟨⟨'b', cs!"000011", rfl, .inl rfl, by decide, by decide⟩, ?_, by decide +kernel, by decide +kernel⟩
  rintro ⟨x, t, e, _, _, h⟩
  cases e
  exact absurd (h 'f' (by simp)) (by decide)

/-! ## C62 -/

/-- **C62 (NaN), refuted.** If NaN comes before the first activity of the first series, with nothing but zeros before it, the first activities do not coincide after aligning at the front. For all series. -/
theorem C62_nan_front_refuted (x y : List (Option Rat)) (p a b : Nat) (hz : ∀ j < p, x[j]? = some (some 0)) (hn : x[p]? = some none) (ha : FirstActive x a) (hp : p < a) (hy : Defined y)
    (hb : FirstActive y b) : ¬ ∃ q, FirstActive (alignSeries .front x y).1 q ∧ FirstActive (alignSeries .front x y).2.1 q := by
  have hpx : pickPos .front (flatNonzero 0 x) = some p := by
    have hs := flatNonzero_sorted x 0
    have hm := flatNonzero_mem x 0
    have h1 : p ∈ flatNonzero 0 x := (hm p).2 ⟨Nat.zero_le _, none, by simpa using hn, by simp⟩
    have h2 : ∀ j ∈ flatNonzero 0 x, p ≤ j := by
      intro j hj
      by_contra hlt
      obtain ⟨_, v, e, hv⟩ := (hm j).1 hj
      rw [Nat.sub_zero, hz j (by omega)] at e
      exact hv (Option.some.inj e).symm
    simp only [pickPos]
    cases hf : flatNonzero 0 x with
    | nil => rw [hf] at h1; cases h1
    | cons k l =>
      rw [hf] at h1 h2 hs
      rw [List.pairwise_cons] at hs
      rw [List.head?_cons]
      rcases List.mem_cons.1 h1 with rfl | h
      · rfl
      · have := hs.1 p h
        have := h2 k List.mem_cons_self
        omega
  have hpy : pickPos .front (flatNonzero 0 y) = some b := ((pickPos_spec .front y hy).1 b).2 hb
  have huniq : ∀ (s : List (Option Rat)) (i j : Nat), FirstActive s i → FirstActive s j → i = j := by
    intro s i j hi hj
    rcases Nat.lt_trichotomy i j with h | h | h
    · exact absurd hi.1 (hj.2 i h)
    · exact h
    · exact absurd hj.1 (hi.2 j h)
  rintro ⟨q, h1, h2⟩
  simp only [alignSeries, hpx, hpy, shiftSeries] at h1 h2
  by_cases hlt : (p : Int) - b > 0
  · rw [if_pos hlt] at h1 h2
    simp only at h1 h2
    -- the activity of the second series is at `p`, if it is still there
    have e1 := huniq x q a h1 ha
    have hq : q < y.length := by rw [← shiftRight_length]; exact active_lt _ _ h2.1
    have := (active_shift _ y q hq).1 h2.1
    have hk : ((p : Int) - b).toNat = p - b := by omega
    rw [hk] at this h2
    have hby := active_shift (p - b) y p (by omega)
    have : Active (shiftRight (p - b) y) p := hby.2 ⟨by omega, by rw [show p - (p - b) = b by omega]; exact hb.1⟩
    exact h2.2 p (by omega) this
  · rw [if_neg hlt] at h1 h2
    simp only at h1 h2
    have e2 := huniq y q b h2 hb
    have hq : q < x.length := by rw [← shiftRight_length]; exact active_lt _ _ h1.1
    obtain ⟨h3, h4⟩ := (active_shift _ x q hq).1 h1.1
    have hk : (-1 * ((p : Int) - b)).toNat = b - p := by omega
    rw [hk] at h3 h4
    exact ha.2 _ (by omega) h4

example : (∀ j < 0, ([none, some 0, some 5] : List (Option Rat))[j]? = some (some 0)) ∧ Defined [some 0, some 0, some 5] ∧
    alignSeries .front [none, some 0, some 5] [some 0, some 0, some 5] = ([none, none, none], [some 0, some 0, some 5], -2) := by
  refine ⟨by simp, ?_, by decide +kernel⟩
  intro v hv
  simp at hv
  rcases hv with rfl | rfl <;> simp

/-! ## C96 -/

/-- **C96, exactly.** With permutation the constraints are those of all lists stretched to the longest: as many as its length squared, at place i n + j the trace and template number i and the column number
j. For all lists that can be stretched. -/
theorem C96_exact {τ κ : Type} {traces : List τ} {columns : List Str} {templates : List κ} {cs : List (CArgs τ κ)} {n : Nat} (hn : n = longest traces columns templates)
    (h : constraintArgs false traces columns templates = .ok cs) :
    cs.length = n * n ∧ ∀ i, i < n → ∀ j, j < n → ∃ c, cs[i * n + j]? = some c ∧ traces[if traces.length = n then i else 0]? = some c.trace ∧
      columns[if columns.length = n then j else 0]? = some c.column ∧ templates[if templates.length = n then i else 0]? = some c.template ∧ c.traceIdx = i := by
  unfold constraintArgs at h
  split at h
  · cases h
  next e he =>
    simp only [Bool.false_eq_true, if_false, Except.ok.injEq] at h
    subst h
    obtain ⟨_, h1, h2, h3, _⟩ := expandLists_ok he
    rw [← hn] at h1 h2 h3
    obtain ⟨a, b⟩ := permuteConstraints_spec e.columns _ e.traces e.templates 0 h1.1 h3.1
    rw [h2.1] at a b
    refine ⟨a, fun i hi j hj => ?_⟩
    obtain ⟨t, c, k, x1, x2, x3, x4⟩ := b i hi j hj
    obtain ⟨t', y1, y2⟩ := h1.2 i hi
    obtain ⟨c', z1, z2⟩ := h2.2 j hj
    obtain ⟨k', w1, w2⟩ := h3.2 i hi
    rw [x1] at y1
    rw [x2] at z1
    rw [x3] at w1
    cases y1
    cases z1
    cases w1
    exact ⟨_, x4, y2, z2, w2, by simp⟩

/-- **C96 (number), refuted.** There is one constraint for each trace and each column if and only if there are as many columns as traces, and not more templates. For all lists that can be stretched. -/
theorem C96_number_refuted {τ κ : Type} {traces : List τ} {columns : List Str} {templates : List κ} {cs : List (CArgs τ κ)} (ht : traces ≠ []) (hc : columns ≠ [])
    (h : constraintArgs false traces columns templates = .ok cs) : cs.length = traces.length * columns.length ↔ traces.length = columns.length ∧ templates.length ≤ traces.length := by
  rw [(C96_exact rfl h).1]
  have h1 : 0 < traces.length := List.length_pos_iff.2 ht
  have h2 : 0 < columns.length := List.length_pos_iff.2 hc
  have e : longest traces columns templates = max traces.length (max columns.length templates.length) := rfl
  rw [e]
  constructor
  · intro h
    by_contra hne
    have : traces.length * columns.length < max traces.length (max columns.length templates.length) * max traces.length (max columns.length templates.length) := by
      by_cases hlt : traces.length < max traces.length (max columns.length templates.length)
      · calc traces.length * columns.length < max traces.length (max columns.length templates.length) * columns.length := Nat.mul_lt_mul_of_pos_right hlt h2
          _ ≤ _ := Nat.mul_le_mul_left _ (by omega)
      · have hm : max traces.length (max columns.length templates.length) = traces.length := by omega
        rw [hm]
        exact Nat.mul_lt_mul_of_pos_left (by omega) h1
    omega
  · rintro ⟨h3, h4⟩
    have hm : max traces.length (max columns.length templates.length) = traces.length := by omega
    rw [hm, h3]

example : constraintArgs false ["t0", "t1"] [cs!"a"] [()] =
    .ok [⟨"t0", cs!"a", (), 0⟩, ⟨"t0", cs!"a", (), 0⟩, ⟨"t1", cs!"a", (), 1⟩, ⟨"t1", cs!"a", (), 1⟩] ∧ longest ["t0", "t1"] [cs!"a"] [()] = 2 := ⟨rfl, rfl⟩

/-! ## C111 -/

/-- **C111, exactly.** Merging two or more series raises if and only if one of them has two equal times after spreading, and not all of them have the same times. For all series and styles. -/
theorem C111_exact (style : Option Str) (d : Dict LineSeries) (h2 : 2 ≤ d.length) :
    fixIndexes style d = .error .duplicateAxis ↔
      (∃ e ∈ d, ¬ ((spread e.2).map Prod.fst).Nodup) ∧ ∃ e ∈ d, ∃ f ∈ d, (spread e.2).map Prod.fst ≠ (spread f.2).map Prod.fst := by
  have hmc : ∀ (index : List Rat) (d : Dict LineSeries), mergeColumns index d = none ↔ ∃ e ∈ d, e.2.map Prod.fst ≠ index ∧ ¬ (e.2.map Prod.fst).Nodup := by
    intro index d
    induction d with
    | nil => simp [mergeColumns]
    | cons e d ih =>
      obtain ⟨l, s⟩ := e
      have h1 : mergeColumn index s = none ↔ s.map Prod.fst ≠ index ∧ ¬ (s.map Prod.fst).Nodup := by
        unfold mergeColumn
        split
        · rename_i h; simp [h]
        · rename_i h
          split
          · rename_i h'; simp [h']
          · rename_i h'; simp [h, h']
      rw [mergeColumns]
      simp only [List.mem_cons, exists_eq_or_imp]
      rw [← h1, ← ih]
      cases mergeColumn index s <;> cases mergeColumns index d <;> simp
  unfold fixIndexes
  rw [if_neg (by omega)]
  simp only
  set dd : Dict LineSeries := d.map fun (l, s) => (l, handleDup maxDeltaDefault s) with hdd
  have hmem : ∀ P : List Rat → Prop, (∃ e ∈ dd, P (e.2.map Prod.fst)) ↔ ∃ e ∈ d, P ((spread e.2).map Prod.fst) := by
    intro P
    rw [hdd]
    constructor
    · rintro ⟨e, he, hp⟩
      obtain ⟨f, hf, rfl⟩ := List.mem_map.1 he
      exact ⟨f, hf, hp⟩
    · rintro ⟨f, hf, hp⟩
      exact ⟨_, List.mem_map_of_mem hf, hp⟩
  have hres : (match mergeColumns (mergedIndex (dd.map fun e => e.2.map Prod.fst)) dd with
      | none => (.error .duplicateAxis : Except MergeErr (List Rat × Dict (List (Option Rat))))
      | some cols => .ok (mergedIndex (dd.map fun (e : Str × LineSeries) => e.2.map Prod.fst), cols.map fun (l, c) => (l, fillCol style c))) = .error .duplicateAxis ↔
      mergeColumns (mergedIndex (dd.map fun e => e.2.map Prod.fst)) dd = none := by
    cases mergeColumns (mergedIndex (dd.map fun e => e.2.map Prod.fst)) dd <;> simp
  refine Iff.trans hres ?_
  rw [hmc, ← hmem fun t => ¬ t.Nodup]
  have hdiff : (∃ e ∈ d, ∃ f ∈ d, (spread e.2).map Prod.fst ≠ (spread f.2).map Prod.fst) ↔ ∃ e ∈ dd, ∃ f ∈ dd, e.2.map Prod.fst ≠ f.2.map Prod.fst := by
    rw [← hmem fun t => ∃ f ∈ d, t ≠ (spread f.2).map Prod.fst]
    constructor
    · rintro ⟨e, he, hf⟩
      exact ⟨e, he, (hmem fun t => e.2.map Prod.fst ≠ t).2 hf⟩
    · rintro ⟨e, he, hf⟩
      exact ⟨e, he, (hmem fun t => e.2.map Prod.fst ≠ t).1 hf⟩
  rw [hdiff]
  have hlen : dd ≠ [] := by
    rw [hdd]
    intro h
    have := congrArg List.length h
    simp at this
    subst this
    simp at h2
  clear_value dd
  clear hmem hres hdiff hdd
  cases dd with
  | nil => exact absurd rfl hlen
  | cons e0 es =>
    rw [List.map_cons]
    unfold mergedIndex
    simp only
    split
    · rename_i hall
      have heq : ∀ e ∈ e0 :: es, e.2.map Prod.fst = e0.2.map Prod.fst := by
        intro e he
        rcases List.mem_cons.1 he with rfl | he
        · rfl
        · simpa using List.all_eq_true.1 hall _ (List.mem_map_of_mem (f := fun (e : Str × LineSeries) => e.2.map Prod.fst) he)
      constructor
      · rintro ⟨e, he, h, _⟩
        exact absurd (heq e he) h
      · rintro ⟨_, e, he, f, hf, h⟩
        exact absurd ((heq e he).trans (heq f hf).symm) h
    · rename_i hall
      have hnd : ((e0.2.map Prod.fst :: es.map fun (e : Str × LineSeries) => e.2.map Prod.fst).flatten.foldl (fun acc t => insertRat t acc) []).Nodup :=
        ratSorted_nodup (foldRat_sorted _ [] List.Pairwise.nil)
      constructor
      · rintro ⟨e, he, h, h'⟩
        refine ⟨⟨e, he, h'⟩, ?_⟩
        by_contra hc
        apply hall
        rw [List.all_eq_true]
        intro t ht
        obtain ⟨f, hf, rfl⟩ := List.mem_map.1 ht
        rw [beq_iff_eq]
        by_contra hne
        exact hc ⟨f, List.mem_cons_of_mem _ hf, e0, List.mem_cons_self, hne⟩
      · rintro ⟨⟨e, he, h⟩, _⟩
        exact ⟨e, he, fun h' => h (h' ▸ hnd), h⟩

example : ¬ ((spread [(1, some 1), (1, some 2), (1, some 3), (1, some 4), (1000001 / 1000000, some 5)]).map Prod.fst).Nodup ∧
    (spread [(1, some 1), (1, some 2), (1, some 3), (1, some 4), (1000001 / 1000000, some 5)]).map Prod.fst ≠ (spread [(5, some 0)]).map Prod.fst := by decide +kernel

/-! ## C131 -/

/-- **C131 (clicks beside the plot), refuted.** A marker is drawn wherever it was clicked, within the window or not. For all states and times. -/
theorem C131_beside_refuted (st : MarkerState) (t : Rat) : (markerStep st (.clickA t)).start = some ⟨t, true⟩ ∧ (markerStep st (.clickB t)).stop = some ⟨t, true⟩ := by
  have hdelta : ∀ s : MarkerState, (deltaText s).start = s.start ∧ (deltaText s).stop = s.stop := by
    intro s
    unfold deltaText
    split <;> simp
  exact ⟨(hdelta _).1, (hdelta _).2⟩

/-- **C131 (sign), refuted.** The number after the label `A - B = ` is never A − B, unless both markers are at one time. For all states and clicks. -/
theorem C131_sign_refuted (st : MarkerState) (e : MarkerEvent) (h : ∀ lo hi, e ≠ .window lo hi) (a b : Marker) (ha : (markerStep st e).start = some a) (hb : (markerStep st e).stop = some b)
    (hne : a.pos ≠ b.pos) : deltaPrefix = cs!"A - B = " ∧ (markerStep st e).delta ≠ some (a.pos - b.pos) := by
  refine ⟨rfl, ?_⟩
  rw [C131_difference st e h a b ha hb]
  intro he
  have := Option.some.inj he
  exact hne (by linarith)

example : (markerStep ⟨0, 10, some ⟨3, true⟩, none, none⟩ (.clickB 50)) = ⟨0, 10, some ⟨3, true⟩, some ⟨50, true⟩, some 47⟩ := by decide +kernel

end Trappy
