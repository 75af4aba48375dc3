import Verif.Model.HistTitle
import Verif.Prop.Data
import Verif.Lemma.Events
import Mathlib.Analysis.Real.Sqrt
import Mathlib.Tactic.Linarith
import Mathlib.Tactic.NormNum
import Mathlib.Tactic.FieldSimp
import Mathlib.Tactic.Ring

/-!
# C181: titles, labels and limits of histograms and of temperature plots
-/

namespace Trappy

/-! ## Titles -/

/-- **C181 (titles).** With a name the title is the name, a dash and what is shown; without one it is what is shown. -/
theorem C181_title_partial (title name : Str) :
    (name ≠ [] → normalizeTitle title ⟨true, name⟩ = name ++ cs!" - " ++ title) ∧ normalizeTitle title ⟨true, []⟩ = title := by
  constructor
  · intro h
    cases name with
    | nil => exact absurd rfl h
    | cons c s => rfl
  · rfl

/-- **C181 (titles, refuted).** An empty byte string of Python 2 is not the empty string of the module: for every title, a dash with nothing before it is shown. -/
theorem C181_title_refuted (title : Str) : normalizeTitle title ⟨false, []⟩ = cs!" - " ++ title ∧ normalizeTitle title ⟨false, []⟩ ≠ title := by
  refine ⟨rfl, fun h => ?_⟩
  have := congrArg List.length h
  simp [normalizeTitle] at this
  omega

theorem normalizeTitle_inj (title a b : Str) : normalizeTitle title ⟨true, a⟩ = normalizeTitle title ⟨true, b⟩ ↔ a = b := by
  constructor
  · intro h
    cases a with
    | nil =>
      cases b with
      | nil => rfl
      | cons y b =>
        have := congrArg List.length h
        simp [normalizeTitle] at this
        omega
    | cons x a =>
      cases b with
      | nil =>
        have := congrArg List.length h
        simp [normalizeTitle] at this
        omega
      | cons y b =>
        have h : (x :: a) ++ cs!" - " ++ title = (y :: b) ++ cs!" - " ++ title := h
        rw [List.append_assoc, List.append_assoc] at h
        exact List.append_cancel_right h
  · rintro rfl; rfl

theorem normalizeTitle_last (title : Str) (x : Char) (name : TextObj) : (normalizeTitle (title ++ [x]) name).getLast? = some x := by
  unfold normalizeTitle
  split
  · simp
  · rw [← List.append_assoc, List.getLast?_append]; simp

/-- **C181 (legend).** In a temperature plot the entries of the legend are all different exactly if the runs have different names; an entry for the temperature is never that of a control temperature. -/
theorem C181_legend (runs : List (Bool × Str)) :
    ((runs.map fun r => tempLegend r.1 ⟨true, r.2⟩).flatten).Nodup ↔ (runs.map Prod.snd).Nodup := by
  have hdiff : ∀ a b : Str, normalizeTitle cs!"Temperature" ⟨true, a⟩ ≠ normalizeTitle cs!"Control" ⟨true, b⟩ := by
    intro a b h
    have h1 := normalizeTitle_last cs!"Temperatur" 'e' ⟨true, a⟩
    have h2 := normalizeTitle_last cs!"Contro" 'l' ⟨true, b⟩
    have h1 : (normalizeTitle cs!"Temperature" ⟨true, a⟩).getLast? = some 'e' := h1
    have h2 : (normalizeTitle cs!"Control" ⟨true, b⟩).getLast? = some 'l' := h2
    rw [h, h2] at h1
    exact absurd h1 (by decide)
  have hmem : ∀ (c : Bool) (a x : Str), x ∈ tempLegend c ⟨true, a⟩ ↔ x = normalizeTitle cs!"Temperature" ⟨true, a⟩ ∨ (c = true ∧ x = normalizeTitle cs!"Control" ⟨true, a⟩) := by
    intro c a x
    cases c <;> simp [tempLegend]
  have hdis : ∀ (c d : Bool) (a b : Str), List.Disjoint (tempLegend c ⟨true, a⟩) (tempLegend d ⟨true, b⟩) ↔ a ≠ b := by
    intro c d a b
    constructor
    · rintro h rfl
      exact h ((hmem c a _).2 (.inl rfl)) ((hmem d a _).2 (.inl rfl))
    · intro hab x h1 h2
      rcases (hmem c a x).1 h1 with rfl | ⟨_, rfl⟩ <;> rcases (hmem d b _).1 h2 with h | ⟨_, h⟩
      · exact hab ((normalizeTitle_inj _ _ _).1 h)
      · exact hdiff _ _ h
      · exact hdiff _ _ h.symm
      · exact hab ((normalizeTitle_inj _ _ _).1 h)
  rw [List.nodup_flatten, List.pairwise_map, List.Nodup, List.pairwise_map]
  constructor
  · rintro ⟨_, h⟩
    exact h.imp fun {a b} hab => (hdis _ _ _ _).1 hab
  · intro h
    refine ⟨?_, h.imp fun {a b} hab => (hdis _ _ _ _).2 hab⟩
    intro l hl
    obtain ⟨r, _, rfl⟩ := List.mem_map.1 hl
    cases hr : r.1
    · simp [tempLegend]
    · simpa [tempLegend] using hdiff _ _

/-- C181: two runs -/
example : (([(true, cs!"old"), (false, cs!"new")] : List (Bool × Str)).map fun r => tempLegend r.1 ⟨true, r.2⟩).flatten = [cs!"old - Temperature", cs!"old - Control", cs!"new - Temperature"] := by
  decide +kernel

/-! ## Mean and standard deviation -/

/-- **Specification**: the text of a number with two decimals; `n` is the number of hundredths -/
def HundredthText (s : Str) (n : Nat) : Prop :=
  ∃ w a b p d e, s = w ++ ['.', a, b] ∧ Digits 10 w p ∧ '_' ∉ w ∧ IsDigitOf 10 a d ∧ IsDigitOf 10 b e ∧ n = p * 100 + d * 10 + e

/-- **Specification**: the text of a number with two decimals, as near to `x` as possible -/
def Shows (s : Str) (x : ℝ) : Prop :=
  ∃ n, (0 ≤ x ∧ HundredthText s n ∧ |(n : ℝ) / 100 - x| ≤ 1 / 200) ∨ (x < 0 ∧ ∃ t, s = '-' :: t ∧ HundredthText t n ∧ |-((n : ℝ) / 100) - x| ≤ 1 / 200)

theorem digitStr (d : Nat) (h : d < 10) : ∃ c, Py.natStr d = [c] ∧ IsDigitOf 10 c d := by
  refine ⟨Nat.digitChar d, ?_, ?_⟩
  · exact Nat.toDigits_of_lt_base h
  · have : ∀ d : Fin 10, IsDigitOf 10 (Nat.digitChar d) d := by
      unfold IsDigitOf
      decide +kernel
    exact this ⟨d, h⟩

theorem hundredthsStr_text (n : Nat) : HundredthText (hundredthsStr n) n := by
  obtain ⟨a, ha, ha'⟩ := digitStr (n / 10 % 10) (by omega)
  obtain ⟨b, hb, hb'⟩ := digitStr (n % 10) (by omega)
  refine ⟨Py.natStr (n / 100), a, b, n / 100, n / 10 % 10, n % 10, by rw [hundredthsStr, ha, hb]; simp, digits_toDigits (by omega) (by omega) _, ?_, ha', hb', by omega⟩
  intro h
  obtain ⟨d, hd, e⟩ := toDigits_mem (by omega) (by omega) _ _ h
  have : ∀ d : Fin 10, '_' ≠ Nat.digitChar d := by decide +kernel
  exact this ⟨d, hd⟩ e

theorem roundUpAt_near (y : ℝ) (x' m' : Rat) (f : Nat) (h1 : (f : ℝ) ≤ y) (h2 : y < f + 1) (hlt : x' < m' → y ≤ f + 1 / 2) (hgt : m' < x' → (f : ℝ) + 1 / 2 ≤ y)
    (heq : x' = m' → y = f + 1 / 2) : |((roundUpAt x' m' f : Nat) : ℝ) - y| ≤ 1 / 2 := by
  unfold roundUpAt
  rw [abs_le]
  split
  · rename_i h
    have := hlt h
    constructor <;> linarith
  · split
    · rename_i h
      have := hgt h
      push_cast
      constructor <;> linarith
    · rename_i h h'
      have := heq (le_antisymm (not_lt.1 h') (not_lt.1 h))
      split <;> push_cast <;> constructor <;> linarith

theorem floor_toNat {q : Rat} (h : 0 ≤ q) : ((q.floor.toNat : Nat) : Rat) ≤ q ∧ q < (q.floor.toNat : Nat) + 1 := by
  have h0 : 0 ≤ q.floor := Int.floor_nonneg.2 h
  have e : ((q.floor.toNat : Nat) : Rat) = (q.floor : Rat) := by
    have : ((q.floor.toNat : Int) : Rat) = (q.floor : Rat) := by rw [Int.toNat_of_nonneg h0]
    exact_mod_cast this
  rw [e]
  exact ⟨Int.floor_le q, Int.lt_floor_add_one q⟩

theorem hundredths_near {q : Rat} (h : 0 ≤ q) : |((hundredths q : Nat) : ℝ) / 100 - q| ≤ 1 / 200 := by
  obtain ⟨h1, h2⟩ := floor_toNat (q := q * 100) (by linarith)
  have key : |((hundredths q : Nat) : ℝ) - (q : ℝ) * 100| ≤ 1 / 2 := by
    unfold hundredths
    refine roundUpAt_near _ _ _ _ (by exact_mod_cast h1) (by exact_mod_cast h2) (fun h => ?_) (fun h => ?_) (fun h => ?_)
    · have : ((q * 100 : Rat) : ℝ) < ((((q * 100).floor.toNat : Nat) + 1 / 2 : Rat) : ℝ) := by exact_mod_cast h
      push_cast at this
      linarith
    · have : ((((q * 100).floor.toNat : Nat) + 1 / 2 : Rat) : ℝ) < ((q * 100 : Rat) : ℝ) := by exact_mod_cast h
      push_cast at this
      linarith
    · have : ((q * 100 : Rat) : ℝ) = ((((q * 100).floor.toNat : Nat) + 1 / 2 : Rat) : ℝ) := by exact_mod_cast h
      push_cast at this
      linarith
  rw [abs_le] at key ⊢
  constructor <;> linarith [key.1, key.2]

theorem sqrtHundredths_near {v : Rat} (h : 0 ≤ v) : |((sqrtHundredths v : Nat) : ℝ) / 100 - √(v : ℝ)| ≤ 1 / 200 := by
  obtain ⟨h1, h2⟩ := floor_toNat (q := v * 10000) (by linarith)
  have hv : (0 : ℝ) ≤ v := by exact_mod_cast h
  have hx : √((v : ℝ) * 10000) = √(v : ℝ) * 100 := by
    rw [Real.sqrt_mul hv, show (10000 : ℝ) = 100 ^ 2 by norm_num, Real.sqrt_sq (by norm_num)]
  have h1' : (((v * 10000).floor.toNat : Nat) : ℝ) ≤ (v : ℝ) * 10000 := by exact_mod_cast h1
  have h2' : (v : ℝ) * 10000 < ((v * 10000).floor.toNat : Nat) + 1 := by exact_mod_cast h2
  have key : |((sqrtHundredths v : Nat) : ℝ) - √((v : ℝ) * 10000)| ≤ 1 / 2 := by
    unfold sqrtHundredths
    generalize hN : (v * 10000).floor.toNat = N at h1' h2'
    have hs1 : ((Nat.sqrt N : Nat) : ℝ) ^ 2 ≤ N := by exact_mod_cast Nat.sqrt_le' N
    have hs2 : (N : ℝ) + 1 ≤ ((Nat.sqrt N : Nat) + 1 : ℝ) ^ 2 := by exact_mod_cast Nat.lt_succ_sqrt' N
    have hp : (0 : ℝ) ≤ (Nat.sqrt N : Nat) := by positivity
    refine roundUpAt_near _ _ _ _ ?_ ?_ (fun h => ?_) (fun h => ?_) (fun h => ?_)
    · exact Real.le_sqrt_of_sq_le (hs1.trans h1')
    · rw [Real.sqrt_lt' (by linarith)]
      linarith
    · have : ((v * 10000 : Rat) : ℝ) < ((((Nat.sqrt N : Nat) + 1 / 2) * ((Nat.sqrt N : Nat) + 1 / 2) : Rat) : ℝ) := by exact_mod_cast h
      push_cast at this
      apply le_of_lt
      rw [Real.sqrt_lt' (by linarith)]
      nlinarith
    · have : ((((Nat.sqrt N : Nat) + 1 / 2) * ((Nat.sqrt N : Nat) + 1 / 2) : Rat) : ℝ) < ((v * 10000 : Rat) : ℝ) := by exact_mod_cast h
      push_cast at this
      refine Real.le_sqrt_of_sq_le ?_
      nlinarith
    · have : ((v * 10000 : Rat) : ℝ) = ((((Nat.sqrt N : Nat) + 1 / 2) * ((Nat.sqrt N : Nat) + 1 / 2) : Rat) : ℝ) := by exact_mod_cast h
      push_cast at this
      rw [this, ← sq, Real.sqrt_sq (by linarith)]
  rw [hx, abs_le] at key
  rw [abs_le]
  constructor <;> linarith [key.1, key.2]

theorem meanStr_shows (q : Rat) : Shows (meanStr (some q)) q := by
  simp only [meanStr]
  by_cases h : q < 0
  · rw [if_pos h]
    refine ⟨hundredths (-q), .inr ⟨by exact_mod_cast h, _, rfl, hundredthsStr_text _, ?_⟩⟩
    have := hundredths_near (q := -q) (by linarith)
    push_cast at this
    rw [abs_le] at this ⊢
    constructor <;> linarith [this.1, this.2]
  · rw [if_neg h]
    exact ⟨_, .inl ⟨by exact_mod_cast not_lt.1 h, hundredthsStr_text _, hundredths_near (not_lt.1 h)⟩⟩

theorem stdStr_shows {v : Rat} (h : 0 ≤ v) : Shows (stdStr (some v)) √(v : ℝ) :=
  ⟨_, .inl ⟨Real.sqrt_nonneg _, hundredthsStr_text _, sqrtHundredths_near h⟩⟩

/-- **Specification**: the mean of values -/
noncomputable def meanOf (l : List Rat) : Rat := l.sum / l.length

/-- **Specification**: the standard deviation of a sample -/
noncomputable def stdOf (l : List Rat) : ℝ := √(((l.map fun x => (x - meanOf l) ^ 2).sum / (l.length - 1) : Rat) : ℝ)

theorem sum_squares_nonneg (l : List Rat) (m : Rat) : 0 ≤ (l.map fun x => (x - m) * (x - m)).sum := by
  induction l with
  | nil => simp
  | cons x l ih =>
    simp only [List.map_cons, List.sum_cons]
    have := mul_self_nonneg (x - m)
    linarith

/-- **C181 (histogram).** The title of a histogram ends with the mean and the standard deviation of its values, each with two decimals and as near as possible, the mean with its unit; of a single value the
deviation is not a number. The values are all in the histogram, the labels have the unit, and the limits are the ones that were given. For all axes, titles, units and values. -/
theorem C181_hist (data : List Rat) (ax : HistAxis) (title unit xlabel : Str) (xlim ylim : LimArg) (hne : data ≠ []) :
    ∃ ax' m s, plotHist data ax title unit xlabel xlim ylim = ax' ∧ ax'.data = data ∧
      ax'.title = title ++ cs!" (mean = " ++ m ++ unit ++ cs!", std = " ++ s ++ cs!")" ∧ ax'.xlabel = xlabel ++ cs!" (" ++ unit ++ cs!")" ∧ ax'.ylabel = cs!"count" ∧
      ax'.xlim = setLim ax.xlim xlim ∧ ax'.ylim = setLim ax.ylim ylim ∧
      Shows m (meanOf data) ∧ (data.length = 1 → s = cs!"nan") ∧ (1 < data.length → Shows s (stdOf data)) := by
  have hm : seriesMean data = some (meanOf data) := by
    unfold seriesMean meanOf
    rw [if_neg (by simpa using hne)]
  refine ⟨_, meanStr (seriesMean data), stdStr (seriesVar data), rfl, ?_⟩
  have ht : (title ++ cs!" (mean = " ++ meanStr (seriesMean data) ++ unit ++ cs!", std = " ++ stdStr (seriesVar data) ++ cs!")").isEmpty = false := by simp
  unfold plotHist postPlotSetup
  simp only [ht, Bool.false_eq_true, if_false, true_and]
  refine ⟨by rw [hm]; exact meanStr_shows _, fun h => ?_, fun h => ?_⟩
  · simp [seriesVar, hm, h, stdStr]
  · have : seriesVar data = some ((data.map fun x => (x - meanOf data) * (x - meanOf data)).sum / ((data.length - 1 : Nat) : Rat)) := by
      unfold seriesVar
      rw [hm]
      simp only
      rw [if_neg (by omega)]
    rw [this]
    have hn : 0 ≤ (data.map fun x => (x - meanOf data) * (x - meanOf data)).sum / ((data.length - 1 : Nat) : Rat) := div_nonneg (sum_squares_nonneg _ _) (by positivity)
    have := stdStr_shows hn
    unfold stdOf
    have e : ((data.map fun x => (x - meanOf data) ^ 2).sum / ((data.length : Rat) - 1) : Rat) = (data.map fun x => (x - meanOf data) * (x - meanOf data)).sum / ((data.length - 1 : Nat) : Rat) := by
      rw [Nat.cast_sub (by omega)]
      simp only [sq, Nat.cast_one]
    rw [e]
    exact this

/-- C181: three values; halves of hundredths go to the even hundredth -/
example : (plotHist [321/8, 41, -1/2] ⟨[], [], [], (0, 1), (0, 1), []⟩ cs!"run - Temperature" cs!"C" cs!"Temperature" (.limits 0 41) .default).title =
    cs!"run - Temperature (mean = 26.88C, std = 23.71)" := by decide +kernel

/-! ## Limits -/

/-- **Specification**: a value is between the limits of the axis, which may run backwards -/
def InXlim (ax : HistAxis) (x : Rat) : Prop := (ax.xlim.1 ≤ x ∧ x ≤ ax.xlim.2) ∨ (ax.xlim.2 ≤ x ∧ x ≤ ax.xlim.1)

theorem largestOf_spec (m : Rat) (l : List Rat) : (∀ x ∈ m :: l, x ≤ largestOf m l) ∧ largestOf m l ∈ m :: l := by
  induction l generalizing m with
  | nil => simp [largestOf]
  | cons y l ih =>
    obtain ⟨h1, h2⟩ := ih (max m y)
    have e : largestOf m (y :: l) = largestOf (max m y) l := rfl
    rw [e]
    have h0 := h1 _ List.mem_cons_self
    constructor
    · intro x hx
      rcases List.mem_cons.1 hx with rfl | hx
      · exact (le_max_left _ _).trans h0
      · rcases List.mem_cons.1 hx with rfl | hx
        · exact (le_max_right _ _).trans h0
        · exact h1 x (List.mem_cons_of_mem _ hx)
    · rcases List.mem_cons.1 h2 with h | h
      · rw [h]
        rcases max_choice m y with h | h <;> rw [h] <;> simp
      · simp [h]

/-- **C181 (all temperatures are seen, exactly).** If the highest temperature is not 0, all temperatures of a histogram are between the limits of its axis exactly if none is below 0, or if all are the same. -/
theorem C181_seen_exact (ax : HistAxis) (name : TextObj) (temps : List Rat) (hne : temps ≠ []) (h0 : ∀ t ∈ temps, (∀ u ∈ temps, u ≤ t) → t ≠ 0) :
    ∃ ax', plotTempHist ax name temps = some ax' ∧ ax'.data = temps.map (fun t => t / 1000) ∧
      ((∀ t ∈ temps, InXlim ax' (t / 1000)) ↔ (∀ t ∈ temps, 0 ≤ t) ∨ ∀ t ∈ temps, ∀ u ∈ temps, t = u) := by
  obtain ⟨t0, ts, rfl⟩ := List.exists_cons_of_ne_nil hne
  obtain ⟨hmax, hmem⟩ := largestOf_spec (t0 / 1000) (ts.map fun t => t / 1000)
  generalize hM : largestOf (t0 / 1000) (ts.map fun t => t / 1000) = M at hmax hmem
  refine ⟨_, rfl, ?_, ?_⟩
  · obtain ⟨ax', m, s, h1, h2, _⟩ := C181_hist (t0 / 1000 :: ts.map fun t => t / 1000) ax (normalizeTitle cs!"Temperature" name) cs!"C" cs!"Temperature"
      (.limits 0 (largestOf (t0 / 1000) (ts.map fun t => t / 1000))) .default (by simp)
    rw [h1, h2]; rfl
  · obtain ⟨ax', m, s, h1, _, _, _, _, h2, _⟩ := C181_hist (t0 / 1000 :: ts.map fun t => t / 1000) ax (normalizeTitle cs!"Temperature" name) cs!"C" cs!"Temperature"
      (.limits 0 (largestOf (t0 / 1000) (ts.map fun t => t / 1000))) .default (by simp)
    rw [h1]
    rw [hM] at h2
    have h2 : ax'.xlim = (0, M) := h2
    obtain ⟨tm, htm, htM⟩ : ∃ t ∈ t0 :: ts, t / 1000 = M := by
      have : M ∈ (t0 :: ts).map fun t => t / 1000 := hmem
      simpa using List.mem_map.1 this
    have hle : ∀ t ∈ t0 :: ts, t / 1000 ≤ M := fun t ht => hmax _ (show t / 1000 ∈ (t0 :: ts).map fun t => t / 1000 from List.mem_map.2 ⟨t, ht, rfl⟩)
    have htm0 : tm ≠ 0 := h0 tm htm fun u hu => by
      have := hle u hu
      rw [← htM] at this
      linarith
    simp only [InXlim, h2]
    rcases lt_or_gt_of_ne htm0 with hneg | hpos
    · -- the axis runs backwards
      have hM0 : M < 0 := by rw [← htM]; linarith
      constructor
      · intro h
        right
        have heq : ∀ t ∈ t0 :: ts, t = tm := by
          intro t ht
          have h1 := hle t ht
          rcases h t ht with h | h
          · linarith [h.1, h.2]
          · have : t / 1000 = tm / 1000 := by rw [htM]; exact le_antisymm h1 h.1
            linarith
        intro t ht u hu
        rw [heq t ht, heq u hu]
      · rintro (h | h) t ht
        · have := h tm htm; linarith
        · right
          rw [h t ht tm htm, htM]
          exact ⟨le_refl _, hM0.le⟩
    · have hM0 : 0 < M := by rw [← htM]; linarith
      constructor
      · intro h
        left
        intro t ht
        rcases h t ht with h | h
        · linarith [h.1]
        · linarith [h.1, h.2]
      · rintro (h | h) t ht
        · left
          have := h t ht
          exact ⟨by linarith, hle t ht⟩
        · left
          rw [h t ht tm htm, htM]
          exact ⟨hM0.le, le_refl _⟩

/-- **C181 (refuted).** A temperature below 0 is not between the limits, whenever some temperature is above 0; yet it counts for the mean. -/
theorem C181_below_refuted (ax ax' : HistAxis) (name : TextObj) (temps : List Rat) (t u : Rat) (ht : t ∈ temps) (hu : u ∈ temps) (htn : t < 0) (hup : 0 < u)
    (h : plotTempHist ax name temps = some ax') : ¬ InXlim ax' (t / 1000) ∧ t / 1000 ∈ ax'.data := by
  have hne : temps ≠ [] := List.ne_nil_of_mem ht
  obtain ⟨ax2, h1, h2, _⟩ := C181_seen_exact ax name temps hne (fun x hx hall => by have := hall u hu; linarith)
  have e : ax2 = ax' := by rw [h1] at h; exact Option.some.inj h
  subst e
  refine ⟨?_, by rw [h2]; exact List.mem_map.2 ⟨t, ht, rfl⟩⟩
  obtain ⟨t0, ts, rfl⟩ := List.exists_cons_of_ne_nil hne
  have h1 := Option.some.inj h1
  obtain ⟨ax3, m, s, g1, _, _, _, _, g2, _⟩ := C181_hist (t0 / 1000 :: ts.map fun t => t / 1000) ax (normalizeTitle cs!"Temperature" name) cs!"C" cs!"Temperature"
    (.limits 0 (largestOf (t0 / 1000) (ts.map fun t => t / 1000))) .default (by simp)
  have h1 : plotHist (t0 / 1000 :: ts.map fun t => t / 1000) ax (normalizeTitle cs!"Temperature" name) cs!"C" cs!"Temperature" (.limits 0 (largestOf (t0 / 1000) (ts.map fun t => t / 1000))) .default = ax2 := h1
  rw [g1] at h1
  subst h1
  have g2 : ax3.xlim = (0, largestOf (t0 / 1000) (ts.map fun t => t / 1000)) := g2
  have hmax := (largestOf_spec (t0 / 1000) (ts.map fun t => t / 1000)).1 (u / 1000) (show u / 1000 ∈ (t0 :: ts).map fun t => t / 1000 from List.mem_map.2 ⟨u, hu, rfl⟩)
  simp only [InXlim, g2]
  rintro (h | h)
  · linarith [h.1]
  · linarith [h.1]

/-- C181: a cold start -/
example : (plotTempHist ⟨[], [], [], (0, 1), (0, 1), []⟩ ⟨true, cs!"run"⟩ [40125, 41000, -500]).map (fun a => (a.title, a.xlim)) =
    some (cs!"run - Temperature (mean = 26.88C, std = 23.71)", (0, 41)) := by decide +kernel

/-- C181: no table, no histogram -/
example (ax : HistAxis) (name : TextObj) : plotTempHist ax name [] = none := rfl

end Trappy
