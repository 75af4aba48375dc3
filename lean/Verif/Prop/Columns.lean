import Verif.Model.Columns
import Verif.Prop.Whole
import Verif.Prop.Json
/-!
# C169: the numbers of a line are those of the table
-/

namespace Trappy
open F64

/-- **Specification**: the number in a cell -/
def PdCell.number : PdCell → Option Rat
  | .obj (.int n) => some n
  | .obj (.str _) => none
  | .float neg b => some (if neg then -val b else val b)
  | .nan => none

/-- **Specification**: an integer of at most 53 binary digits, and zeros after them -/
def Digits53 (n : Int) : Prop := ∃ m e : Nat, m < 2 ^ 53 ∧ n.natAbs = m * 2 ^ e

/-- **Specification**: what keeps a column from becoming floats: every row has it, or a row has a text in it, or a row has an integer in it that does not fit (with `big`: one that does not fit with a sign, and one
that does not fit without a sign) -/
def StaysExact (big : Bool) (rows : List (Dict Val)) (key : Str) : Prop :=
  (∀ r ∈ rows, ∃ v, Dict.get r key = some v) ∨ (∃ r ∈ rows, ∃ s, Dict.get r key = some (.str s)) ∨
    ((∃ r ∈ rows, ∃ m, Dict.get r key = some (.int m) ∧ (m < -2 ^ 63 ∨ 2 ^ 63 ≤ m)) ∧
      (big = true → ∃ r ∈ rows, ∃ m, Dict.get r key = some (.int m) ∧ (m < 0 ∨ 2 ^ 64 ≤ m)))

theorem columnInts_none {cs : List (Option Val)} : columnInts cs = none ↔ ∃ s, some (.str s) ∈ cs := by
  induction cs with
  | nil => simp [columnInts]
  | cons c cs ih =>
    match c with
    | none => simp [columnInts, ih]
    | some (.int n) => simp [columnInts, ih]
    | some (.str s) => simp [columnInts]

theorem columnInts_mem {cs : List (Option Val)} : ∀ {ns : List Int}, columnInts cs = some ns → ∀ n, n ∈ ns ↔ some (.int n) ∈ cs := by
  induction cs with
  | nil => intro ns h n; simp [columnInts] at h; simp [h]
  | cons c cs ih =>
    intro ns h n
    match c with
    | none => simp only [columnInts] at h; simp [ih h n]
    | some (.int m) =>
      simp only [columnInts, Option.map_eq_some_iff] at h
      obtain ⟨ms, h, rfl⟩ := h
      simp [ih h n]
    | some (.str s) => simp [columnInts] at h

theorem columnKind_float (big : Bool) (cs : List (Option Val)) : columnKind big cs = .f ↔
    none ∈ cs ∧ (∀ s, some (.str s) ∉ cs) ∧ ((∀ n, some (.int n) ∈ cs → fits64 n = true) ∨ big = true ∧ ∀ n, some (.int n) ∈ cs → fitsU64 n = true) := by
  unfold columnKind
  cases h : columnInts cs with
  | none =>
    obtain ⟨s, hs⟩ := columnInts_none.1 h
    simp only [reduceCtorEq, false_iff]
    exact fun h' => h'.2.1 s hs
  | some ns =>
    have hm := columnInts_mem h
    have hs : ∀ s, some (.str s) ∉ cs := by
      intro s hs
      have := columnInts_none.2 ⟨s, hs⟩
      rw [h] at this
      cases this
    have ha : ∀ p : Int → Bool, ns.all p = true ↔ ∀ n, some (.int n) ∈ cs → p n = true := by
      intro p
      rw [List.all_eq_true]
      exact ⟨fun h n hn => h n ((hm n).2 hn), fun h n hn => h n ((hm n).1 hn)⟩
    have hn : cs.any Option.isNone = true ↔ none ∈ cs := by
      rw [List.any_eq_true]
      constructor
      · rintro ⟨x, hx, h⟩
        rw [Option.isNone_iff_eq_none] at h
        exact h ▸ hx
      · intro h
        exact ⟨none, h, rfl⟩
    simp only
    by_cases h1 : none ∈ cs
    · rw [if_pos (hn.2 h1)]
      by_cases h2 : (ns.all fits64 || (big && ns.all fitsU64)) = true
      · rw [if_pos h2]
        rw [Bool.or_eq_true, Bool.and_eq_true, ha, ha] at h2
        simp only [true_iff]
        exact ⟨h1, hs, h2⟩
      · rw [if_neg h2]
        rw [Bool.or_eq_true, Bool.and_eq_true, ha, ha] at h2
        simp only [reduceCtorEq, false_iff]
        exact fun h => h2 h.2.2
    · rw [if_neg (fun h => h1 (hn.1 h))]
      constructor
      · intro h
        split at h
        · cases h
        · split at h <;> cases h
      · exact fun h => absurd h.1 h1

theorem fits64_false {n : Int} : fits64 n = false ↔ n < -2 ^ 63 ∨ 2 ^ 63 ≤ n := by
  unfold fits64
  simp only [decide_eq_false_iff_not]
  omega

theorem fitsU64_false {n : Int} : fitsU64 n = false ↔ n < 0 ∨ 2 ^ 64 ≤ n := by
  unfold fitsU64
  simp only [decide_eq_false_iff_not]
  omega

theorem column_mem {rows : List (Dict Val)} {key : Str} {x : Option Val} : x ∈ rows.map (fun r => Dict.get r key) ↔ ∃ r ∈ rows, Dict.get r key = x := List.mem_map

theorem staysExact_iff (big : Bool) (rows : List (Dict Val)) (key : Str) : StaysExact big rows key ↔ columnKind big (rows.map fun r => Dict.get r key) ≠ .f := by
  rw [Ne, columnKind_float]
  constructor
  · rintro (h | ⟨r, hr, s, hs⟩ | ⟨⟨r, hr, m, hm, hb⟩, h⟩) ⟨h1, h2, h3⟩
    · obtain ⟨r, hr, e⟩ := column_mem.1 h1
      obtain ⟨v, hv⟩ := h r hr
      rw [e] at hv
      cases hv
    · exact h2 s (column_mem.2 ⟨r, hr, hs⟩)
    · rcases h3 with h3 | ⟨hbig, h3⟩
      · have := h3 m (column_mem.2 ⟨r, hr, hm⟩)
        rw [fits64_false.2 hb] at this
        cases this
      · obtain ⟨r', hr', m', hm', hb'⟩ := h hbig
        have := h3 m' (column_mem.2 ⟨r', hr', hm'⟩)
        rw [fitsU64_false.2 hb'] at this
        cases this
  · intro h
    by_cases h1 : none ∈ rows.map fun r => Dict.get r key
    · by_cases h2 : ∃ r ∈ rows, ∃ s, Dict.get r key = some (.str s)
      · exact .inr (.inl h2)
      · have h2' : ∀ s, some (.str s) ∉ rows.map fun r => Dict.get r key := by
          intro s hs
          obtain ⟨r, hr, e⟩ := column_mem.1 hs
          exact h2 ⟨r, hr, s, e⟩
        have key' : ∀ p : Int → Bool, (¬ ∀ n, some (.int n) ∈ rows.map (fun r => Dict.get r key) → p n = true) → ∃ r ∈ rows, ∃ m, Dict.get r key = some (.int m) ∧ p m = false := by
          intro p hp
          by_contra hc
          refine hp fun n hn => ?_
          obtain ⟨r, hr, e⟩ := column_mem.1 hn
          cases hpn : p n with
          | true => rfl
          | false => exact absurd ⟨r, hr, n, e, hpn⟩ hc
        refine .inr (.inr ⟨?_, fun hb => ?_⟩)
        · obtain ⟨r, hr, m, hm, hp⟩ := key' fits64 fun h3 => h ⟨h1, h2', .inl h3⟩
          exact ⟨r, hr, m, hm, fits64_false.1 hp⟩
        · obtain ⟨r, hr, m, hm, hp⟩ := key' fitsU64 fun h3 => h ⟨h1, h2', .inr ⟨hb, h3⟩⟩
          exact ⟨r, hr, m, hm, fitsU64_false.1 hp⟩
    · left
      intro r hr
      cases hg : Dict.get r key with
      | none => exact absurd (column_mem.2 ⟨r, hr, hg⟩) h1
      | some v => exact ⟨v, rfl⟩

theorem pdColumn_get {big : Bool} {rows : List (Dict Val)} {key : Str} {i : Nat} {r : Dict Val} (hi : rows[i]? = some r) :
    (pdColumn big rows key)[i]? = some (pdCell (columnKind big (rows.map fun r => Dict.get r key)) (Dict.get r key)) := by
  simp [pdColumn, hi]

/-- the integers with 53 digits are those that are binary64 numbers -/
theorem digits53_double {n : Nat} (hn : n < 2 ^ 64) : (∃ m e : Nat, m < 2 ^ 53 ∧ n = m * 2 ^ e) ↔ uval (ofRat n 1) = n * unit := by
  constructor
  · rintro ⟨m, e, hm, rfl⟩
    have hb : ∃ b ≤ inf, uval b = m * 2 ^ e * unit := by
      rcases Nat.eq_zero_or_pos m with rfl | hp
      · exact ⟨0, by decide, by simp [uval_zero]⟩
      have hL : m.log2 ≤ 52 := by
        have := (Nat.log2_lt (by omega : m ≠ 0) (k := 53)).2 hm
        omega
      have h1 : 2 ^ m.log2 ≤ m := Nat.log2_self_le (by omega)
      have h2 : m < 2 ^ (m.log2 + 1) := Nat.lt_log2_self
      have e1 : 2 ^ m.log2 * 2 ^ (52 - m.log2) = M := by rw [← Nat.pow_add]; congr 1; omega
      have e2 : 2 ^ (m.log2 + 1) * 2 ^ (52 - m.log2) = 2 * M := by rw [← Nat.pow_add, M, ← Nat.pow_succ']; congr 1; omega
      have g1 : M ≤ m * 2 ^ (52 - m.log2) := by rw [← e1]; exact Nat.mul_le_mul_right _ h1
      have g2 : m * 2 ^ (52 - m.log2) < 2 * M := by rw [← e2]; exact Nat.mul_lt_mul_of_pos_right h2 (Nat.pow_pos (by decide))
      have he : e < 64 := by
        have : 2 ^ e ≤ m * 2 ^ e := Nat.le_mul_of_pos_left _ hp
        exact (Nat.pow_lt_pow_iff_right (by decide : 1 < 2)).1 (Nat.lt_of_le_of_lt this hn)
      refine ⟨(1022 + m.log2 + e + 1) * M + (m * 2 ^ (52 - m.log2) - M), ?_, ?_⟩
      · have : inf = 2047 * M := rfl
        have h3 : (1022 + m.log2 + e + 1) * M ≤ 1139 * M := Nat.mul_le_mul_right _ (by omega)
        omega
      · rw [uval_form _ _ (by omega), Nat.add_sub_cancel' g1, Nat.mul_assoc, ← Nat.pow_add, unit, Nat.mul_assoc, ← Nat.pow_add]
        congr 2
        omega
    obtain ⟨b, hb, he⟩ := hb
    have := round_exact (b := b) (d := 1) (by omega) hb
    rw [Nat.mul_one, he] at this
    unfold ofRat
    rw [this, he]
  · intro h
    generalize ofRat n 1 = b at h
    rcases form b with hb | ⟨x, m, hm, rfl⟩
    · rw [uval_lt hb] at h
      have h1 : M < unit := by unfold M unit; exact Nat.pow_lt_pow_right (by decide) (by decide)
      rcases Nat.eq_zero_or_pos n with rfl | hp
      · exact ⟨0, 0, by decide, rfl⟩
      · have : unit ≤ n * unit := Nat.le_mul_of_pos_left _ hp
        omega
    · rw [uval_form _ _ hm] at h
      have hM : M = 2 ^ 52 := rfl
      rcases Nat.lt_or_ge x 1074 with hx | hx
      · refine ⟨n, 0, ?_, by simp⟩
        have e : unit = 2 ^ (1074 - x) * 2 ^ x := by rw [unit, ← Nat.pow_add]; congr 1; omega
        rw [e, ← Nat.mul_assoc] at h
        have h' := Nat.eq_of_mul_eq_mul_right (Nat.pow_pos (by decide)) h
        have : n ≤ n * 2 ^ (1074 - x) := Nat.le_mul_of_pos_right _ (Nat.pow_pos (by decide))
        omega
      · refine ⟨M + m, x - 1074, by omega, ?_⟩
        have e : 2 ^ x = 2 ^ (x - 1074) * unit := by rw [unit, ← Nat.pow_add]; congr 1; omega
        rw [e, ← Nat.mul_assoc] at h
        exact (Nat.eq_of_mul_eq_mul_right (Nat.pow_pos (by decide) : 0 < unit) h).symm

theorem val_nat (b n : Nat) : val b = (n : Rat) ↔ uval b = n * unit := by
  have hpos : (0 : Rat) < (unit : Rat) := by exact_mod_cast (Nat.pow_pos (by decide) : 0 < unit)
  have hu : (2 : Rat) ^ 1074 = (unit : Rat) := by rw [unit, Nat.cast_pow]; rfl
  unfold val
  rw [hu, div_eq_iff (ne_of_gt hpos), ← Nat.cast_mul, Nat.cast_inj]

theorem cast_natAbs_pos {n : Int} (h : 0 ≤ n) : ((n.natAbs : Nat) : Rat) = n := by
  rw [← Int.cast_natCast, Int.natCast_natAbs, abs_of_nonneg h]

theorem cast_natAbs_neg {n : Int} (h : n < 0) : ((n.natAbs : Nat) : Rat) = -n := by
  rw [← Int.cast_natCast, Int.natCast_natAbs, abs_of_neg h, Int.cast_neg]

theorem floatOfInt_number (n : Int) : (floatOfInt n).number = some (n : Rat) ↔ uval (ofRat n.natAbs 1) = n.natAbs * unit := by
  rw [← val_nat]
  unfold floatOfInt PdCell.number
  simp only [Option.some.injEq]
  by_cases h : n < 0
  · rw [if_pos (by simpa using h), cast_natAbs_neg h]
    exact neg_eq_iff_eq_neg
  · rw [if_neg (by simpa using h), cast_natAbs_pos (by omega)]

/-- **C169 (exactly).** The cell of the table for an integer of a line is that number exactly if the column does not become floats or the integer has at most 53 digits. For all tables. -/
theorem C169_exact_partial (big : Bool) (rows : List (Dict Val)) (i : Nat) (r : Dict Val) (key : Str) (n : Int) (hi : rows[i]? = some r) (hn : Dict.get r key = some (.int n)) :
    ∃ c, (pdColumn big rows key)[i]? = some c ∧ (c.number = some (n : Rat) ↔ StaysExact big rows key ∨ Digits53 n) ∧ (c = .obj (.int n) ↔ StaysExact big rows key) := by
  refine ⟨_, pdColumn_get hi, ?_⟩
  rw [staysExact_iff, hn]
  unfold pdCell
  by_cases hk : columnKind big (rows.map fun r => Dict.get r key) = .f
  · simp only [hk, if_true, ne_eq, not_true, false_or, iff_false]
    refine ⟨?_, by unfold floatOfInt; simp⟩
    have hlt : n.natAbs < 2 ^ 64 := by
      have hm : some (.int n) ∈ rows.map fun r => Dict.get r key := column_mem.2 ⟨r, List.mem_of_getElem? hi, hn⟩
      rcases ((columnKind_float _ _).1 hk).2.2 with h | ⟨_, h⟩
      · have := h n hm
        simp only [fits64, decide_eq_true_eq] at this
        omega
      · have := h n hm
        simp only [fitsU64, decide_eq_true_eq] at this
        omega
    rw [floatOfInt_number, ← digits53_double hlt]
    rfl
  · simp only [hk, if_false, ne_eq, not_false_eq_true, true_or, iff_true, and_true]
    rfl

/-- **C169 (texts and missing cells).** Texts are never changed, and a row without the column has NaN. -/
theorem C169_texts (big : Bool) (rows : List (Dict Val)) (i : Nat) (r : Dict Val) (key : Str) (hi : rows[i]? = some r) :
    (∀ s, Dict.get r key = some (.str s) → (pdColumn big rows key)[i]? = some (.obj (.str s))) ∧ (Dict.get r key = none → (pdColumn big rows key)[i]? = some .nan) := by
  rw [pdColumn_get hi]
  exact ⟨fun s h => by rw [h]; rfl, fun h => by rw [h]; rfl⟩

/-- **C169 (small integers).** An integer up to `2^53`, of either sign, is always kept. -/
theorem C169_small (big : Bool) (rows : List (Dict Val)) (i : Nat) (r : Dict Val) (key : Str) (n : Int) (hi : rows[i]? = some r) (hn : Dict.get r key = some (.int n)) (h : n.natAbs ≤ 2 ^ 53) :
    ∃ c, (pdColumn big rows key)[i]? = some c ∧ c.number = some (n : Rat) := by
  obtain ⟨c, h1, h2, _⟩ := C169_exact_partial big rows i r key n hi hn
  refine ⟨c, h1, h2.2 (.inr ?_)⟩
  rcases Nat.lt_or_ge n.natAbs (2 ^ 53) with hl | hg
  · exact ⟨n.natAbs, 0, hl, by simp⟩
  · exact ⟨1, 53, by decide, by omega⟩

/-- **C169 (refuted).** If one row of the table lacks the column and the others have integers of 64 bits in it, every odd integer above `2^53` becomes another number, the nearest one that is a binary64 number. -/
theorem C169_missing_refuted (big : Bool) (rows : List (Dict Val)) (i : Nat) (r r' : Dict Val) (key : Str) (n : Int) (hi : rows[i]? = some r) (hn : Dict.get r key = some (.int n))
    (ho : n % 2 = 1) (hl : 2 ^ 53 < n) (hr : r' ∈ rows) (hr' : Dict.get r' key = none)
    (hall : ∀ x ∈ rows, ∀ v, Dict.get x key = some v → ∃ m, v = .int m ∧ -2 ^ 63 ≤ m ∧ m < 2 ^ 63) :
    ∃ b, (pdColumn big rows key)[i]? = some (.float false b) ∧ NearestEven n b ∧ val b ≠ n := by
  have hk : columnKind big (rows.map fun r => Dict.get r key) = .f := by
    rw [columnKind_float]
    refine ⟨column_mem.2 ⟨r', hr, hr'⟩, ?_, .inl ?_⟩
    · intro s hs
      obtain ⟨x, hx, e⟩ := column_mem.1 hs
      obtain ⟨m, hm, _⟩ := hall x hx _ e
      cases hm
    · intro m hm
      obtain ⟨x, hx, e⟩ := column_mem.1 hm
      obtain ⟨m', hm', h1, h2⟩ := hall x hx _ e
      cases hm'
      simp only [fits64, decide_eq_true_eq]
      exact ⟨h1, h2⟩
  have hlt : n < 2 ^ 63 := by
    obtain ⟨m, hm, _, h2⟩ := hall r (List.mem_of_getElem? hi) _ hn
    cases hm
    exact h2
  have hcell : (pdColumn big rows key)[i]? = some (.float false (ofRat n.natAbs 1)) := by
    rw [pdColumn_get hi, hn, hk]
    simp only [pdCell, if_true, floatOfInt]
    have : decide (n < 0) = false := by
      rw [decide_eq_false_iff_not]
      omega
    rw [this]
  have hcast : ((n.natAbs : Nat) : Rat) / (1 : Nat) = n := by
    rw [cast_natAbs_pos (by omega), Nat.cast_one, div_one]
  refine ⟨_, hcell, ?_, ?_⟩
  · rw [← hcast]
    refine ofRat_nearestEven (by decide) (ofRat_lt_inf (by decide) ?_)
    rw [hcast]
    have h1 : (n : Rat) ≤ 2 ^ 63 := by exact_mod_cast hlt.le
    refine h1.trans ?_
    unfold val
    rw [le_div_iff₀ (by positivity)]
    have : 2 ^ 63 * 2 ^ 1074 ≤ uval (inf - 1) := by decide +kernel
    exact_mod_cast this
  · intro hv
    refine C146_integers_refuted n.natAbs (by omega) (by omega) (ofRat n.natAbs 1) ?_
    rw [← floatOfInt_number]
    unfold floatOfInt PdCell.number
    have : decide (n < 0) = false := by
      rw [decide_eq_false_iff_not]
      omega
    rw [this]
    simp [hv]

/-- **C169 (optimize).** `optimize_dataframe` changes no column that pandas makes of the lines, so it never makes a table smaller. -/
theorem C169_optimize (big : Bool) (cat : List PdCell → List PdCell) (rows : List (Dict Val)) (key : Str) :
    optimizeColumn cat (columnKind big (rows.map fun r => Dict.get r key)) (pdColumn big rows key) = pdColumn big rows key := by
  have h : ∀ cs, columnKind big cs ≠ .S := by
    intro cs
    unfold columnKind
    split
    · simp
    · repeat' split
      all_goals simp
  unfold optimizeColumn
  split
  · rfl
  · rfl
  · rename_i h'
    exact absurd h' (h _)
  · rfl

/-! ### From the file -/

theorem tableWith_cells {cells : TraceEvent → List (Str × Val)} {ev : Str} : ∀ {is : List TraceItem} {k : Nat} {ts : List Nat}, ts.length = (TraceItem.times is).length →
    (TraceItem.tableWith cells ev k is ts).map (fun r => r.cells.drop 4) = (TraceItem.eventsOf ev is).map cells
  | [], _, ts, _ => by cases ts <;> rfl
  | .other l :: is, k, ts, h => by
    unfold TraceItem.tableWith TraceItem.eventsOf
    exact tableWith_cells h
  | .event e :: is, k, [], h => by simp [TraceItem.times] at h
  | .event e :: is, k, t :: ts, h => by
    unfold TraceItem.tableWith TraceItem.eventsOf
    have h' : ts.length = (TraceItem.times is).length := by simpa [TraceItem.times] using h
    split
    · rw [List.map_cons, List.map_cons, tableWith_cells h']
      rfl
    · exact tableWith_cells h'

/-- **C169 (from the file).** For every printed trace and every parser in it: the table has the rows of the lines of the event, and an integer of a line is kept exactly if all lines of the event have the field, or one of them has a text
in it, or an integer that does not fit, or it has at most 53 digits. All lines of the file count, also those outside of the window. -/
theorem C169_file_partial (big : Bool) (fuel : Nat) (ps : List ParserClass) (hps : ∀ p ∈ ps, p ∈ builtins) (hnd : ps.Nodup)
    (header : List Str) (items : List TraceItem) (h : TraceFile ps header items)
    (cells : ParserClass → TraceEvent → List (Str × Val))
    (hc : ∀ p ∈ ps, ClassReads fuel p.name (TraceItem.eventsOf p.event items) (cells p))
    (hm : ∀ p ∈ ps, EvenMasks p.name (TraceItem.eventsOf p.event items) (cells p)) (i : Nat) (p : ParserClass) (hp : ps[i]? = some p) :
    ∃ rows, classFrame fuel p.name ((populate (ps.map ParserClass.toCls) 0 (header ++ items.map TraceItem.text)).tables i) = .rows rows ∧
      rows.length = (TraceItem.eventsOf p.event items).length ∧
      ∀ (j : Nat) (e : TraceEvent) (key : Str) (n : Int), (TraceItem.eventsOf p.event items)[j]? = some e → key ∉ headerColumns → Dict.get (cells p e) key = some (.int n) →
        ∃ c, (pdColumn big (rows.map TRow.cells) key)[j]? = some c ∧
          (c.number = some (n : Rat) ↔ StaysExact big ((TraceItem.eventsOf p.event items).map (cells p)) key ∨ Digits53 n) := by
  obtain ⟨out, h1, _, _, _, _, hparts⟩ := file_parts fuel ps hps hnd header items h cells hc hm
  refine ⟨_, (hparts i p hp).1, ?_, ?_⟩
  · have := congrArg List.length (tableWith_cells (cells := cells p) (ev := p.event) (is := items) (k := 0) (TraceItem.MinimalTimes_length h1))
    simpa using this
  · intro j e key n hj hk hn
    have hrow : ∀ r ∈ TraceItem.tableWith (cells p) p.event 0 items out, Dict.get r.cells key = Dict.get (r.cells.drop 4) key := by
      intro r hr
      obtain ⟨-, e, _, m, he⟩ := mem_tableWith hr
      rw [he]
      exact Dict.get_append_none (d := [(cs!"__comm", Val.str e.line.comm), (cs!"__pid", Val.int e.pid), (cs!"__cpu", Val.int e.cpu), (cs!"__line", Val.int m)]) hk
    have hcol : ((TraceItem.tableWith (cells p) p.event 0 items out).map TRow.cells).map (fun r => Dict.get r key) = ((TraceItem.eventsOf p.event items).map (cells p)).map fun r => Dict.get r key := by
      rw [← tableWith_cells (k := 0) (TraceItem.MinimalTimes_length h1), List.map_map, List.map_map]
      exact List.map_congr_left fun r hr => hrow r hr
    have hpd : pdColumn big ((TraceItem.tableWith (cells p) p.event 0 items out).map TRow.cells) key = pdColumn big ((TraceItem.eventsOf p.event items).map (cells p)) key := by
      unfold pdColumn
      rw [hcol]
    rw [hpd]
    obtain ⟨c, c1, c2, _⟩ := C169_exact_partial big ((TraceItem.eventsOf p.event items).map (cells p)) j (cells p e) key n (by rw [List.getElem?_map, hj]; rfl) hn
    exact ⟨c, c1, c2⟩

/-- three rows, of which the last has no `vruntime` -/
def exVruntime : List (Dict Val) := [[(cs!"pid", .int 7), (cs!"vruntime", .int 9007199254740993)], [(cs!"pid", .int 8), (cs!"vruntime", .int 12)], [(cs!"pid", .int 9)]]

/-- C169: 9007199254740993 becomes 9007199254740992, and 12 and the pids are kept -/
example : (((pdColumn false exVruntime cs!"vruntime")[0]?).bind PdCell.number) = some 9007199254740992 ∧ (((pdColumn false exVruntime cs!"vruntime")[1]?).bind PdCell.number) = some 12 ∧
    (pdColumn false exVruntime cs!"vruntime")[2]? = some .nan ∧ pdColumn false exVruntime cs!"pid" = [.obj (.int 7), .obj (.int 8), .obj (.int 9)] := by
  refine ⟨?_, ?_, ?_, ?_⟩ <;> decide +kernel

/-- C169: with a text, or a number that does not fit, it is kept -/
example : pdColumn false ([(cs!"vruntime", .str cs!"?")] :: exVruntime) cs!"vruntime" = [.obj (.str cs!"?"), .obj (.int 9007199254740993), .obj (.int 12), .nan] ∧
    pdColumn true ([(cs!"vruntime", .int (2 ^ 64))] :: exVruntime) cs!"vruntime" = [.obj (.int (2 ^ 64)), .obj (.int 9007199254740993), .obj (.int 12), .nan] ∧
    (((pdColumn true ([(cs!"vruntime", .int (2 ^ 63))] :: exVruntime) cs!"vruntime")[1]?).bind PdCell.number) = some 9007199254740992 := by
  refine ⟨?_, ?_, ?_⟩ <;> decide +kernel

/-- the hypotheses of `C169_missing_refuted` are met -/
example : ∃ b, (pdColumn false exVruntime cs!"vruntime")[0]? = some (.float false b) ∧ NearestEven ((9007199254740993 : Int) : Rat) b ∧ val b ≠ ((9007199254740993 : Int) : Rat) :=
  C169_missing_refuted false exVruntime 0 _ [(cs!"pid", .int 9)] cs!"vruntime" 9007199254740993 rfl (by decide +kernel) (by decide) (by decide) (by decide) (by decide +kernel) (by
    intro x hx v hv
    simp only [exVruntime, List.mem_cons, List.not_mem_nil, or_false] at hx
    rcases hx with rfl | rfl | rfl
    · have : v = .int 9007199254740993 := by
        have h : Dict.get [(cs!"pid", Val.int 7), (cs!"vruntime", .int 9007199254740993)] cs!"vruntime" = some (.int 9007199254740993) := by decide +kernel
        exact (Option.some.inj (h.symm.trans hv)).symm
      exact ⟨_, this, by decide, by decide⟩
    · have : v = .int 12 := by
        have h : Dict.get [(cs!"pid", Val.int 8), (cs!"vruntime", .int 12)] cs!"vruntime" = some (.int 12) := by decide +kernel
        exact (Option.some.inj (h.symm.trans hv)).symm
      exact ⟨_, this, by decide, by decide⟩
    · have h : Dict.get [(cs!"pid", Val.int 9)] cs!"vruntime" = none := by decide +kernel
      rw [h] at hv
      cases hv)

/-- the hypotheses of `C169_file_partial` are met -/
example : (∀ p ∈ exParsers, p ∈ builtins) ∧ exParsers.Nodup ∧ TraceFile exParsers exHeader exItems ∧
    (∀ p ∈ exParsers, ClassReads 5 p.name (TraceItem.eventsOf p.event exItems) exCells) ∧
    (∀ p ∈ exParsers, EvenMasks p.name (TraceItem.eventsOf p.event exItems) exCells) :=
  ⟨by decide +kernel, by decide +kernel, exFile_ok, exTrace_reads.1, exTrace_reads.2⟩

/-- the numbers of a column of the table of `cpu_frequency` of a file -/
def exNumbers (lines : List Str) (key : Str) : Option (List (Option Rat)) :=
  match classFrame 5 cs!"cpu_frequency" ((populate [(unnamed cs!"cpu_frequency:").toCls] 0 lines).tables 0) with
  | .rows rows => some ((pdColumn false (rows.map TRow.cells) key).map PdCell.number)
  | _ => none

/-- C169: the last digit of the first line depends on the second line -/
example : exNumbers [cs!"a-1 [000] 1.5: cpu_frequency: state=9007199254740993 cpu_id=3\n", cs!"a-1 [000] 2.5: cpu_frequency: state=9 cpu_id=4\n"] cs!"state" = some [some 9007199254740993, some 9] ∧
    exNumbers [cs!"a-1 [000] 1.5: cpu_frequency: state=9007199254740993 cpu_id=3\n", cs!"a-1 [000] 2.5: cpu_frequency: cpu_id=4\n"] cs!"state" = some [some 9007199254740992, none] := by
  constructor <;> decide +kernel

end Trappy
