import Verif.Model.Correlator
import Verif.Lemma.Power
import Mathlib.Data.Rat.Floor
/-!
# C62, C84, C85: correlation
-/

namespace Trappy

/-! ## C62 -/

/-- a sample is active: a number other than zero -/
def Active (s : List (Option Rat)) (i : Nat) : Prop := ∃ v : Rat, s[i]? = some (some v) ∧ v ≠ 0

/-- `i` is the first active sample -/
def FirstActive (s : List (Option Rat)) (i : Nat) : Prop := Active s i ∧ ∀ j, j < i → ¬ Active s j

/-- `i` is the last active sample -/
def LastActive (s : List (Option Rat)) (i : Nat) : Prop := Active s i ∧ ∀ j, i < j → ¬ Active s j

/-- front or back -/
def EndActive : AlignMode → List (Option Rat) → Nat → Prop
  | .front => FirstActive
  | .back => LastActive

/-- no sample is NaN -/
def Defined (s : List (Option Rat)) : Prop := ∀ v ∈ s, v ≠ none

theorem flatNonzero_mem (s : List (Option Rat)) (i k : Nat) : k ∈ flatNonzero i s ↔ i ≤ k ∧ ∃ v, s[k - i]? = some v ∧ v ≠ some 0 := by
  induction s generalizing i with
  | nil => simp [flatNonzero]
  | cons v vs ih =>
    have key : k ∈ flatNonzero (i + 1) vs ↔ i + 1 ≤ k ∧ ∃ w, (v :: vs)[k - i]? = some w ∧ w ≠ some 0 := by
      rw [ih]
      refine and_congr_right fun h => ?_
      have : k - i = (k - (i + 1)) + 1 := by omega
      rw [this, List.getElem?_cons_succ]
    unfold flatNonzero
    split
    · rename_i h
      rw [key]
      constructor
      · rintro ⟨h1, h2⟩; exact ⟨by omega, h2⟩
      · rintro ⟨h1, w, h2, h3⟩
        refine ⟨?_, w, h2, h3⟩
        rcases Nat.lt_or_ge i k with hik | hik
        · exact hik
        · have : k - i = 0 := by omega
          rw [this] at h2
          simp at h2
          exact absurd (h2.symm.trans h) h3
    · rename_i h
      rw [List.mem_cons, key]
      constructor
      · rintro (rfl | ⟨h1, h2⟩)
        · exact ⟨Nat.le_refl _, v, by simp, h⟩
        · exact ⟨by omega, h2⟩
      · rintro ⟨h1, h2⟩
        rcases Nat.lt_or_ge i k with hik | hik
        · exact Or.inr ⟨hik, h2⟩
        · exact Or.inl (by omega)

theorem flatNonzero_sorted (s : List (Option Rat)) (i : Nat) : (flatNonzero i s).Pairwise (· < ·) := by
  induction s generalizing i with
  | nil => simp [flatNonzero]
  | cons v vs ih =>
    unfold flatNonzero
    split
    · exact ih _
    · refine List.pairwise_cons.mpr ⟨?_, ih _⟩
      intro k hk
      have := (flatNonzero_mem vs (i + 1) k).mp hk
      omega

theorem active_iff (s : List (Option Rat)) (hd : Defined s) (k : Nat) : k ∈ flatNonzero 0 s ↔ Active s k := by
  rw [flatNonzero_mem]
  simp only [Nat.zero_le, Nat.sub_zero, true_and]
  constructor
  · rintro ⟨v, h1, h2⟩
    cases v with
    | none => exact absurd rfl (hd none (List.mem_of_getElem? h1))
    | some q => exact ⟨q, h1, fun e => h2 (by rw [e])⟩
  · rintro ⟨q, h1, h2⟩
    exact ⟨some q, h1, fun e => h2 (Option.some.inj e)⟩

theorem pickPos_spec (mode : AlignMode) (s : List (Option Rat)) (hd : Defined s) :
    (∀ i, pickPos mode (flatNonzero 0 s) = some i ↔ EndActive mode s i) ∧
    (pickPos mode (flatNonzero 0 s) = none ↔ ∀ i, ¬ Active s i) := by
  have hs := flatNonzero_sorted s 0
  have hm := active_iff s hd
  generalize flatNonzero 0 s = l at hs hm
  refine ⟨?_, ?_⟩
  · intro i
    cases mode with
    | front =>
      simp only [pickPos, EndActive, FirstActive]
      cases l with
      | nil => simp only [List.head?_nil, reduceCtorEq, false_iff, not_and]; intro h; exact absurd ((hm i).mpr h) (by simp)
      | cons a l =>
        rw [List.pairwise_cons] at hs
        simp only [List.head?_cons, Option.some.injEq]
        constructor
        · rintro rfl
          refine ⟨(hm a).mp (by simp), ?_⟩
          intro j hj ha
          rcases List.mem_cons.mp ((hm j).mpr ha) with rfl | h
          · omega
          · have := hs.1 j h; omega
        · rintro ⟨h1, h2⟩
          rcases List.mem_cons.mp ((hm i).mpr h1) with rfl | h
          · rfl
          · exact absurd ((hm a).mp (by simp)) (h2 a (hs.1 i h))
    | back =>
      simp only [pickPos, EndActive, LastActive]
      rcases List.eq_nil_or_concat l with rfl | ⟨l', b, rfl⟩
      · simp only [List.getLast?_nil, reduceCtorEq, false_iff, not_and]; intro h; exact absurd ((hm i).mpr h) (by simp)
      · rw [List.concat_eq_append] at hs hm ⊢
        rw [List.pairwise_append] at hs
        simp only [List.getLast?_append, List.getLast?_singleton, Option.some_or, Option.some.injEq]
        constructor
        · rintro rfl
          refine ⟨(hm b).mp (by simp), ?_⟩
          intro j hj ha
          rcases List.mem_append.mp ((hm j).mpr ha) with h | h
          · have := hs.2.2 j h b (by simp); omega
          · simp at h; omega
        · rintro ⟨h1, h2⟩
          rcases List.mem_append.mp ((hm i).mpr h1) with h | h
          · exact absurd ((hm b).mp (by simp)) (h2 b (hs.2.2 i h b (by simp)))
          · simp at h; exact h.symm
  · have : pickPos mode l = none ↔ l = [] := by cases mode <;> simp [pickPos]
    rw [this]
    constructor
    · rintro rfl i h; exact absurd ((hm i).mpr h) (by simp)
    · intro h
      cases l with
      | nil => rfl
      | cons a l => exact absurd ((hm a).mp (by simp)) (h a)

theorem shiftRight_length (k : Nat) (s : List (Option Rat)) : (shiftRight k s).length = s.length := by
  simp [shiftRight]

theorem shiftRight_get (k : Nat) (s : List (Option Rat)) (i : Nat) (hi : i < s.length) :
    (shiftRight k s)[i]? = if i < k then some none else s[i - k]? := by
  unfold shiftRight
  rw [List.getElem?_take_of_lt hi]
  split
  · rename_i h
    rw [List.getElem?_append_left (by simpa using h)]
    simp [h]
  · rename_i h
    rw [List.getElem?_append_right (by simpa using h)]
    simp

theorem active_shift (k : Nat) (s : List (Option Rat)) (i : Nat) (hi : i < s.length) : Active (shiftRight k s) i ↔ k ≤ i ∧ Active s (i - k) := by
  unfold Active
  rw [shiftRight_get k s i hi]
  split
  · constructor
    · rintro ⟨v, h, _⟩; simp at h
    · rintro ⟨h, _⟩; omega
  · rename_i h
    constructor
    · intro h'; exact ⟨by omega, h'⟩
    · exact fun h' => h'.2

theorem active_lt (s : List (Option Rat)) (i : Nat) (h : Active s i) : i < s.length := by
  obtain ⟨v, h, _⟩ := h
  exact (List.getElem?_eq_some_iff.mp h).1

theorem endActive_shift (mode : AlignMode) (k p : Nat) (s : List (Option Rat)) (hp : EndActive mode s p) (hlt : p + k < s.length) :
    EndActive mode (shiftRight k s) (p + k) := by
  cases mode with
  | front =>
    refine ⟨(active_shift k s _ hlt).mpr ⟨by omega, by rw [Nat.add_sub_cancel]; exact hp.1⟩, ?_⟩
    intro j hj ha
    have hjl : j < s.length := by omega
    obtain ⟨h1, h2⟩ := (active_shift k s j hjl).mp ha
    exact hp.2 (j - k) (by omega) h2
  | back =>
    refine ⟨(active_shift k s _ hlt).mpr ⟨by omega, by rw [Nat.add_sub_cancel]; exact hp.1⟩, ?_⟩
    intro j hj ha
    have hjl : j < s.length := by rw [← shiftRight_length k s]; exact active_lt _ _ ha
    obtain ⟨h1, h2⟩ := (active_shift k s j hjl).mp ha
    exact hp.2 (j - k) (by omega) h2

theorem endActive_active (mode : AlignMode) (s : List (Option Rat)) (i : Nat) (h : EndActive mode s i) : Active s i := by
  cases mode <;> exact h.1

/-- **C62, partial**: for all series of one length without NaN, both active, aligned at the front or back: the first (last) active samples
coincide, the lengths stay, one of the series is unchanged and the other one only gets empty samples in front, and the shift
reported is the difference of the positions. If one of the series is never active nothing is changed. -/
theorem C62_align_partial (mode : AlignMode) (x y : List (Option Rat)) (hlen : x.length = y.length) (hx : Defined x) (hy : Defined y) :
    (∀ px py, EndActive mode x px → EndActive mode y py →
      ∃ x' y', alignSeries mode x y = (x', y', (px : Int) - py) ∧ x'.length = x.length ∧ y'.length = y.length ∧
        (∃ p, EndActive mode x' p ∧ EndActive mode y' p ∧ p = max px py) ∧
        (py ≤ px → x' = x ∧ y' = (List.replicate (px - py) none ++ y).take y.length) ∧
        (px ≤ py → y' = y ∧ x' = (List.replicate (py - px) none ++ x).take x.length)) ∧
    (((∀ i, ¬ Active x i) ∨ (∀ i, ¬ Active y i)) → alignSeries mode x y = (x, y, 0)) := by
  obtain ⟨hx1, hx2⟩ := pickPos_spec mode x hx
  obtain ⟨hy1, hy2⟩ := pickPos_spec mode y hy
  refine ⟨?_, ?_⟩
  · intro px py hpx hpy
    have hlx := active_lt x px (endActive_active mode x px hpx)
    have hly := active_lt y py (endActive_active mode y py hpy)
    simp only [alignSeries, (hx1 px).mpr hpx, (hy1 py).mpr hpy, shiftSeries]
    by_cases h : (px : Int) - (py : Int) > 0
    · rw [if_pos h]
      have hk : ((px : Int) - (py : Int)).toNat = px - py := by omega
      refine ⟨_, _, rfl, rfl, shiftRight_length _ _, ⟨px, hpx, ?_, by omega⟩, ?_, by omega⟩
      · rw [hk]
        have := endActive_shift mode (px - py) py y hpy (by omega)
        rwa [show py + (px - py) = px by omega] at this
      · intro _; rw [hk]; exact ⟨rfl, rfl⟩
    · rw [if_neg h]
      have hk : (-1 * ((px : Int) - (py : Int))).toNat = py - px := by omega
      refine ⟨_, _, rfl, shiftRight_length _ _, rfl, ⟨py, ?_, hpy, by omega⟩, ?_, ?_⟩
      · rw [hk]
        have := endActive_shift mode (py - px) px x hpx (by omega)
        rwa [show px + (py - px) = py by omega] at this
      · intro hle
        have : py - px = 0 := by omega
        rw [hk, this]
        have h0 : px - py = 0 := by omega
        rw [h0]
        simp [shiftRight]
      · intro _; rw [hk]; exact ⟨rfl, rfl⟩
  · rintro (h | h)
    · simp only [alignSeries, hx2.mpr h]
    · simp only [alignSeries, hy2.mpr h]
      cases pickPos mode (flatNonzero 0 x) <;> rfl

/-- **C62, refuted** for series with NaN, as resampling produces before the first sample of a series: NaN is taken for activity. Here the only
activity of the first series is lost. -/
theorem C62_nan_refuted : alignSeries .front [none, some 0, some 5] [some 0, some 0, some 5] =
      ([none, none, none], [some 0, some 0, some 5], -2) ∧
    FirstActive [none, some 0, some 5] 2 ∧ FirstActive [some 0, some 0, some 5] 2 := by
  refine ⟨by decide +kernel, ⟨⟨5, rfl, by decide⟩, ?_⟩, ⟨⟨5, rfl, by decide⟩, ?_⟩⟩
  · intro j hj
    rcases j with _ | _ | j
    · rintro ⟨v, h, _⟩; simp at h
    · rintro ⟨v, h, h2⟩; simp at h; exact h2 h.symm
    · omega
  · intro j hj
    rcases j with _ | _ | j
    · rintro ⟨v, h, h2⟩; simp at h; exact h2 h.symm
    · rintro ⟨v, h, h2⟩; simp at h; exact h2 h.symm
    · omega

example : alignSeries .front [some 0, some 0, some 3, some 4, some 0] [some 7, some 0, some 0, some 8, some 0] =
      ([some 0, some 0, some 3, some 4, some 0], [none, none, some 7, some 0, some 0], 2) ∧
    alignSeries .back [some 0, some 3, some 4, some 0] [some 7, some 0, some 0, some 8] =
      ([none, some 0, some 3, some 4], [some 7, some 0, some 0, some 8], -1) := by decide +kernel

/-! ## C85 -/

/-- **C85.** For every start, end and positive step: the uniform index has the values `start + i * delta` for `i = 0, 1, …`, all of them
that are below the end and nothing else. -/
theorem C85_uniform (start stop delta : Rat) (hd : 0 < delta) :
    (∀ i : Nat, (arangeR start stop delta)[i]? = if start + i * delta < stop then some (start + i * delta) else none) ∧
    (∀ t ∈ arangeR start stop delta, start ≤ t ∧ t < stop) := by
  have key : ∀ i : Nat, i < ((stop - start) / delta).ceil.toNat ↔ start + i * delta < stop := by
    intro i
    have h1 : i < ((stop - start) / delta).ceil.toNat ↔ (i : Int) < ((stop - start) / delta).ceil := by omega
    rw [h1, Rat.lt_ceil_iff]
    rw [lt_div_iff₀ hd]
    push_cast
    constructor <;> intro h <;> linarith
  have hget : ∀ i : Nat, (arangeR start stop delta)[i]? = if start + i * delta < stop then some (start + i * delta) else none := by
    intro i
    unfold arangeR
    rw [List.getElem?_map]
    by_cases h : start + i * delta < stop
    · rw [if_pos h, List.getElem?_range ((key i).mpr h)]; rfl
    · rw [if_neg h, List.getElem?_eq_none (by simpa using fun h' => h ((key i).mp h'))]; rfl
  refine ⟨hget, ?_⟩
  intro t ht
  obtain ⟨i, hi⟩ := List.getElem?_of_mem ht
  rw [hget] at hi
  split at hi
  · rename_i h
    simp only [Option.some.injEq] at hi
    subst hi
    have : (0 : Rat) ≤ i := Nat.cast_nonneg i
    have := mul_nonneg this hd.le
    exact ⟨by linarith, h⟩
  · simp at hi

theorem padScan_none (t : Rat) (last : Option (Option Rat)) (s : List (Rat × Option Rat)) (h : ∀ x ∈ s, t < x.1) : padScan t last s = last.join := by
  cases s with
  | nil => rfl
  | cons x s =>
    obtain ⟨u, v⟩ := x
    have := h (u, v) (by simp)
    simp only at this
    rw [padScan, if_neg (not_le.mpr this)]

/-- **C85.** Padding: for every series with increasing times, a sample has the value of the last entry at or before its time, and is NaN if
there is no such entry. -/
theorem C85_pad (t : Rat) (s : List (Rat × Option Rat)) (hs : (s.map Prod.fst).Pairwise (· < ·)) :
    (∀ u v, (u, v) ∈ s → u ≤ t → (∀ x ∈ s, x.1 ≤ t → x.1 ≤ u) → padScan t none s = v) ∧
    ((∀ x ∈ s, t < x.1) → padScan t none s = none) := by
  refine ⟨?_, fun h => by rw [padScan_none t none s h]; rfl⟩
  have : ∀ (s : List (Rat × Option Rat)) (last : Option (Option Rat)), (s.map Prod.fst).Pairwise (· < ·) →
      ∀ u v, (u, v) ∈ s → u ≤ t → (∀ x ∈ s, x.1 ≤ t → x.1 ≤ u) → padScan t last s = v := by
    intro s
    induction s with
    | nil => intro last _ u v h; simp at h
    | cons x s ih =>
      intro last hp u v hm hu hmax
      rw [List.map_cons, List.pairwise_cons] at hp
      obtain ⟨a, b⟩ := x
      rcases List.mem_cons.mp hm with h | h
      · simp only [Prod.mk.injEq] at h
        obtain ⟨rfl, rfl⟩ := h
        rw [padScan, if_pos hu, padScan_none]
        · rfl
        · intro x hx
          rcases lt_or_ge t x.1 with h | h
          · exact h
          · have h1 := hmax x (by simp [hx]) h
            have h2 := hp.1 x.1 (List.mem_map.mpr ⟨x, hx, rfl⟩)
            simp only at h1 h2
            exact absurd h1 (not_le.mpr h2)
      · have ha := hp.1 u (List.mem_map.mpr ⟨(u, v), h, rfl⟩)
        simp only at ha
        rw [padScan, if_pos (le_of_lt (lt_of_lt_of_le ha hu))]
        exact ih _ hp.2 u v h hu (fun x hx => hmax x (by simp [hx]))
  exact this s none hs

/-- **C85.** Resampling a series: the times are the uniform ones from the first time of the index, below the last, with the padded values. The
last time of the index is never sampled. -/
theorem C85_resample (index : List Rat) (a b delta : Rat) (hd : 0 < delta) (ha : index.head? = some a) (hb : index.getLast? = some b)
    (s : List (Rat × Option Rat)) :
    ∃ r, resample index delta s = some r ∧
      (∀ i : Nat, r[i]? = if a + i * delta < b then some (a + i * delta, padScan (a + i * delta) none s) else none) ∧
      (∀ x ∈ r, x.1 ≠ b) := by
  obtain ⟨h1, h2⟩ := C85_uniform a b delta hd
  refine ⟨(arangeR a b delta).map fun t => (t, padScan t none s), by simp only [resample, getUniform, ha, hb, Option.map_some], ?_, ?_⟩
  · intro i
    rw [List.getElem?_map, h1 i]
    split <;> rfl
  · intro x hx
    obtain ⟨t, ht, rfl⟩ := List.mem_map.mp hx
    exact ne_of_lt (h2 t ht).2

example : resample [0, 1, 3] (1/2) [(1, some 4), (3, some 5)] =
    some [(0, none), (1/2, none), (1, some 4), (3/2, some 4), (2, some 4), (5/2, some 4)] := by decide +kernel

/-! ## C84 -/

/-- the terms of the defined coefficients -/
def weightedSum : List Nat → List (Option Rat) → Rat
  | w :: ws, some c :: cs => w * c + weightedSum ws cs
  | _ :: ws, none :: cs => weightedSum ws cs
  | _, _ => 0

theorem corrLoop_sum (W : Nat) (hW : W ≠ 0) (ws : List Nat) (cs : List (Option Rat)) (t : Rat) :
    corrLoop W (ws.zip cs) t = some (t + weightedSum ws cs / W) := by
  induction ws generalizing cs t with
  | nil => simp [corrLoop, weightedSum]
  | cons w ws ih =>
    cases cs with
    | nil => simp [corrLoop, weightedSum]
    | cons c cs =>
      cases c with
      | none => simp only [List.zip_cons_cons, corrLoop, weightedSum]; exact ih cs t
      | some c =>
        simp only [List.zip_cons_cons, corrLoop, weightedSum, if_neg hW]
        rw [ih]
        congr 1
        ring

/-- **C84.** For all weights that are not all zero: the total is the sum of weight times coefficient over the defined coefficients,
divided by the sum of *all* weights; and it lies between -1 and 1 if the coefficients do. -/
theorem C84_total (ws : List Nat) (cs : List (Option Rat)) (hW : ws.sum ≠ 0) :
    corrTotal ws cs = some (weightedSum ws cs / ws.sum) ∧
    ((∀ c, some c ∈ cs → -1 ≤ c ∧ c ≤ 1) → ∀ t, corrTotal ws cs = some t → -1 ≤ t ∧ t ≤ 1) := by
  have h1 : corrTotal ws cs = some (weightedSum ws cs / ws.sum) := by
    unfold corrTotal; rw [corrLoop_sum _ hW]; simp
  refine ⟨h1, ?_⟩
  intro hc t ht
  rw [h1] at ht
  simp only [Option.some.injEq] at ht
  subst ht
  have hb : ∀ (ws : List Nat) (cs : List (Option Rat)), (∀ c, some c ∈ cs → -1 ≤ c ∧ c ≤ 1) →
      -((ws.sum : Nat) : Rat) ≤ weightedSum ws cs ∧ weightedSum ws cs ≤ ((ws.sum : Nat) : Rat) := by
    intro ws
    induction ws with
    | nil => intro cs _; simp [weightedSum]
    | cons w ws ih =>
      intro cs hc
      have hw : (0 : Rat) ≤ w := Nat.cast_nonneg w
      have hs : (0 : Rat) ≤ ((ws.sum : Nat) : Rat) := Nat.cast_nonneg _
      cases cs with
      | nil =>
        simp only [weightedSum, List.sum_cons]
        push_cast at hs ⊢
        constructor <;> linarith
      | cons c cs =>
        obtain ⟨i1, i2⟩ := ih cs (fun c hm => hc c (by simp [hm]))
        cases c with
        | none =>
          simp only [weightedSum, List.sum_cons]
          push_cast at i1 i2 ⊢
          constructor <;> linarith
        | some c =>
          obtain ⟨c1, c2⟩ := hc c (by simp)
          simp only [weightedSum, List.sum_cons]
          have e1 := mul_le_mul_of_nonneg_left c2 hw
          have e2 := mul_le_mul_of_nonneg_left c1 hw
          push_cast at i1 i2 ⊢
          constructor <;> linarith
  have hpos : (0 : Rat) < ((ws.sum : Nat) : Rat) := by exact_mod_cast Nat.pos_of_ne_zero hW
  obtain ⟨b1, b2⟩ := hb ws cs hc
  refine ⟨?_, ?_⟩
  · rw [le_div_iff₀ hpos]; linarith
  · rw [div_le_iff₀ hpos]; linarith

/-- **C84, partial**: if all coefficients are defined and the series have no NaN, the total is the average of the coefficients, weighted by the
numbers of active samples of both series. -/
theorem C84_average_partial (corr : List (Option Rat) → List (Option Rat) → Option Rat) (coef : List (Option Rat) → List (Option Rat) → Rat)
    (groups : List (List (Option Rat) × List (Option Rat))) (hdef : ∀ g ∈ groups, corr g.1 g.2 = some (coef g.1 g.2))
    (active : List (Option Rat) → Nat) (hact : ∀ g ∈ groups, Defined g.1 ∧ Defined g.2 ∧
      (∃ l : List Nat, l.Nodup ∧ l.length = active g.1 ∧ ∀ i, i ∈ l ↔ Active g.1 i) ∧
      (∃ l : List Nat, l.Nodup ∧ l.length = active g.2 ∧ ∀ i, i ∈ l ↔ Active g.2 i))
    (hW : (groups.map fun g => active g.1 + active g.2).sum ≠ 0) :
    correlateGroups corr 0 groups = (groups.map fun g => some (coef g.1 g.2),
      some ((groups.map fun g => ((active g.1 + active g.2 : Nat) : Rat) * coef g.1 g.2).sum /
        (((groups.map fun g => active g.1 + active g.2).sum : Nat) : Rat))) := by
  have hshift : (groups.map fun g => shiftSeries g.1 g.2 0) = groups := by
    have : ∀ g : List (Option Rat) × List (Option Rat), shiftSeries g.1 g.2 0 = g := by
      intro g; simp [shiftSeries, shiftRight]
    simp [this]
  have hcount : ∀ (s : List (Option Rat)), Defined s → ∀ n, (∃ l : List Nat, l.Nodup ∧ l.length = n ∧ ∀ i, i ∈ l ↔ Active s i) → countNonzero s = n := by
    rintro s hd n ⟨l, h1, h2, h3⟩
    have hlen : ∀ (s : List (Option Rat)) (i : Nat), (flatNonzero i s).length = countNonzero s := by
      intro s
      induction s with
      | nil => intro i; rfl
      | cons v vs ih =>
        intro i
        unfold flatNonzero countNonzero
        by_cases h : v = some 0
        · rw [if_pos h, List.filter_cons_of_neg (by simpa using h)]; exact ih _
        · rw [if_neg h, List.filter_cons_of_pos (by simpa using h), List.length_cons, List.length_cons, ih (i + 1)]; rfl
    have hnd : (flatNonzero 0 s).Nodup := (flatNonzero_sorted s 0).imp (fun h => Nat.ne_of_lt h)
    have hp : (flatNonzero 0 s).Perm l := (List.perm_ext_iff_of_nodup hnd h1).mpr (fun i => by rw [active_iff s hd, h3])
    rw [← hlen s 0, hp.length_eq, h2]
  have hw : (groups.map fun g => countNonzero g.1 + countNonzero g.2) = groups.map fun g => active g.1 + active g.2 := by
    apply List.map_congr_left
    intro g hg
    obtain ⟨d1, d2, a1, a2⟩ := hact g hg
    rw [hcount _ d1 _ a1, hcount _ d2 _ a2]
  have hc : (groups.map fun g => corr g.1 g.2) = groups.map fun g => some (coef g.1 g.2) := List.map_congr_left hdef
  unfold correlateGroups
  rw [hshift]
  simp only
  rw [hw, hc, (C84_total _ _ hW).1]
  have : ∀ gs : List (List (Option Rat) × List (Option Rat)),
      weightedSum (gs.map fun g => active g.1 + active g.2) (gs.map fun g => some (coef g.1 g.2)) =
        (gs.map fun g => ((active g.1 + active g.2 : Nat) : Rat) * coef g.1 g.2).sum := by
    intro gs
    induction gs with
    | nil => rfl
    | cons g gs ih => simp only [List.map_cons, weightedSum, List.sum_cons, ih]
  rw [this]

/-- **C84, refuted**: the weight of a group with undefined correlation still counts, so the total of the defined ones (all 1) is 1/2; and samples that
are NaN, such as the ones a shift brings in, count as active. -/
theorem C84_undefined_refuted : corrTotal [4, 4] [some 1, none] = some (1/2) ∧
    (∃ s : List (Option Rat), (∀ i, ¬ Active s i) ∧ countNonzero s = 2) := by
  refine ⟨by decide +kernel, [none, some 0, none], ?_, by decide +kernel⟩
  intro i
  rintro ⟨v, h, h2⟩
  rcases i with _ | _ | _ | i
  · simp at h
  · simp at h; exact h2 h.symm
  · simp at h
  · simp at h

example : corrTotal [1, 3] [some (-1), some 1] = some (1/2) ∧
    correlateGroups (fun _ _ => some (1/2)) 0 [([some 1, some 0], [some 2, some 2]), ([some 0], [some 1])] = ([some (1/2), some (1/2)], some (1/2)) := by
  decide +kernel

end Trappy
