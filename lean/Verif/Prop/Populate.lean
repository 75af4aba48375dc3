import Verif.Lemma.Populate2
import Verif.Lemma.Float64Q
import Mathlib.Data.List.TakeWhile
/-!
# C03 – C11: reading a trace file

`populate cls 0 lines` is the model of parsing a file for the first time; `tables i` are the rows appended to the
`i`-th parser.  The hypothesis `endtime < inf` excludes timestamps that overflow binary64;
`C04_no_overflow` gives a condition on the input that ensures it.
-/

namespace Trappy
open F64

/-! ## Helper: `in` on strings -/

theorem contains_iff (w l : Str) : Py.contains w l = true ↔ w <:+: l := by
  induction l with
  | nil => simp [Py.contains]
  | cons c l ih =>
    simp only [Py.contains, Bool.or_eq_true, ih, List.isPrefixOf_iff_prefix, List.infix_cons_iff]

/-- the events of a file -/
def fileEvents (cls : List Cls) (lines : List Str) : List Ev :=
  eventsFrom (fun l => getTraceClass l cls) 0 (lines.dropWhile fun l => (parseLine l).isNone)

theorem ftraceBody_eq (lines : List Str) : ftraceBody lines = lines.dropWhile fun l => (parseLine l).isNone := by
  unfold ftraceBody; congr 1; funext l; exact hasntStarted_iff l

theorem populate_spec (cls : List Cls) (base0 : Nat) (lines : List Str) :
    let evs := fileEvents cls lines
    let out := assign 0 (evs.map fun e => tsValue e.fields)
    let r := populate cls base0 lines
    r.endtime = lastTime 0 out ∧ (∀ i, r.tables i = rowsFor i evs out) ∧
    r.basetime = (if base0 = 0 then out.head?.getD 0 else base0) ∧
    (r.endtime < inf → MinimalTimes 0 (evs.map fun e => tsValue e.fields) out) := by
  unfold populate fileEvents
  rw [ftraceBody_eq]
  exact populateBody_spec cls base0 _

/-! ## Concrete file used in the examples -/

/-- two parsers: `sched_switch` and a fallback -/
def exCls : List Cls :=
  [{ word := cs!"sched_switch:", fallback := false }, { word := cs!"print:", fallback := true }]

/-- a file with a header, a foreign line in the middle, a repeated and a decreasing timestamp -/
def exFile : List Str :=
  [cs!"version = 6\n",
   cs!"a-1 [000] 10.5: sched_switch: x=1\n",
   cs!"CPU 3 is empty\n",
   cs!"b c-2 [001] 10.5: print: hello\n",
   cs!"b-2 [001] 9.0: other: y=2\n",
   cs!"b-2 [001] 11.0: sched_switch: x=2\n"]

example : (populate exCls 0 exFile).endtime < inf ∧ ((populate exCls 0 exFile).tables 0).length = 2 ∧
    ((populate exCls 0 exFile).tables 1).map (·.line) = [2] := by decide +kernel

/-! ## C03 -/

theorem dropWhile_append_all {p : Str → Bool} {A B : List Str} (h : ∀ a ∈ A, p a = true) :
    (A ++ B).dropWhile p = B.dropWhile p := by
  induction A with
  | nil => rfl
  | cons a A ih => simp [h a (by simp), ih (fun x hx => h x (by simp [hx]))]

theorem dropWhile_append_some {p : Str → Bool} {A B : List Str} (h : ¬ ∀ a ∈ A, p a = true) :
    (A ++ B).dropWhile p = A.dropWhile p ++ B := by
  induction A with
  | nil => simp at h
  | cons a A ih =>
    cases ha : p a with
    | true =>
      simp only [List.cons_append, List.dropWhile_cons, ha, if_true]
      apply ih; intro h'; apply h; intro x hx
      rcases List.mem_cons.mp hx with rfl | hx
      · exact ha
      · exact h' x hx
    | false => simp [ha]

/-- **C03**: a line `l` that is not an event, anywhere in the file, changes neither basetime nor endtime nor any
table, except that the line numbers of the rows after it grow by one if the trace had started before it. -/
theorem C03_foreign_line (cls : List Cls) (A B : List Str) (l : Str)
    (h1 : parseLine l = none) (h2 : parseLine (Py.rstrip l) = none) :
    let k := (A.dropWhile fun a => (parseLine a).isNone).length
    let r := populate cls 0 (A ++ l :: B)
    let r' := populate cls 0 (A ++ B)
    r.basetime = r'.basetime ∧ r.endtime = r'.endtime ∧
    ∀ i, r.tables i = (r'.tables i).map fun x => if k = 0 ∨ x.line < k then x else { x with line := x.line + 1 } := by
  intro k r r'
  have hr := populate_spec cls 0 (A ++ l :: B)
  have hr' := populate_spec cls 0 (A ++ B)
  by_cases hA : ∀ a ∈ A, (fun a => (parseLine a).isNone) a = true
  · have hk : k = 0 := by
      have : (A.dropWhile fun a => (parseLine a).isNone) = [] := by
        have := dropWhile_append_all (B := []) hA
        simpa using this
      simp only [k, this, List.length_nil]
    have : fileEvents cls (A ++ l :: B) = fileEvents cls (A ++ B) := by
      unfold fileEvents
      rw [dropWhile_append_all hA, dropWhile_append_all hA]
      simp [h1]
    rw [this] at hr
    refine ⟨by rw [hr.2.2.1, hr'.2.2.1], by rw [hr.1, hr'.1], ?_⟩
    intro i
    rw [hr.2.1, hr'.2.1]
    simp [hk]
  · obtain ⟨X, hX⟩ : ∃ X, X = A.dropWhile fun a => (parseLine a).isNone := ⟨_, rfl⟩
    have hkX : k = X.length := by simp only [k, hX]
    have hkpos : k ≠ 0 := by
      rw [hkX]
      intro h0
      apply hA
      have : X = [] := List.length_eq_zero_iff.mp h0
      rw [hX, List.dropWhile_eq_nil_iff] at this
      exact this
    have ev : fileEvents cls (A ++ B) = eventsFrom (fun l => getTraceClass l cls) 0 X ++
        eventsFrom (fun l => getTraceClass l cls) k B := by
      unfold fileEvents
      rw [dropWhile_append_some hA, eventsFrom_append, ← hX, hkX, Nat.zero_add]
    have ev' : fileEvents cls (A ++ l :: B) = (fileEvents cls (A ++ B)).map
        (fun e => if e.line < k then e else { e with line := e.line + 1 }) := by
      rw [ev]
      unfold fileEvents
      rw [dropWhile_append_some hA, eventsFrom_append, ← hX, List.map_append, ← hkX, Nat.zero_add]
      congr 1
      · symm
        have hid : ∀ e ∈ eventsFrom (fun l => getTraceClass l cls) 0 X,
            (if e.line < k then e else { e with line := e.line + 1 }) = id e := by
          intro e he
          have := eventsFrom_line _ X 0 e he
          rw [if_pos (by omega)]; rfl
        rw [List.map_congr_left hid, List.map_id]
      · simp only [eventsFrom, h2, eventsFrom_shift]
        apply List.map_congr_left
        intro e he
        have := eventsFrom_line _ B k e he
        rw [if_neg (by omega)]
    have evt : ((fileEvents cls (A ++ l :: B)).map fun e => tsValue e.fields) =
        (fileEvents cls (A ++ B)).map fun e => tsValue e.fields := by
      rw [ev', List.map_map]
      apply List.map_congr_left
      intro e _
      simp only [Function.comp]
      split <;> rfl
    refine ⟨by rw [hr.2.2.1, hr'.2.2.1, evt], by rw [hr.1, hr'.1, evt], ?_⟩
    intro i
    rw [hr.2.1, hr'.2.1, evt, ev']
    rw [rowsFor_map i _ _ _ (fun x => if k = 0 ∨ x.line < k then x else { x with line := x.line + 1 })]
    · intro e _; split <;> rfl
    · intro e _ t
      simp only [hkpos, false_or]
      by_cases hl : e.line < k
      · rw [if_pos hl, if_pos (by simpa [Ev.row] using hl)]
      · rw [if_neg hl, if_neg (by simpa [Ev.row] using hl)]; rfl

example : parseLine cs!"CPU 3 is empty\n" = none ∧ parseLine (Py.rstrip cs!"CPU 3 is empty\n") = none := by
  decide +kernel

/-! ## C04, C05 -/

/-- times and line numbers of two rows of any two tables -/
theorem rows_order {cls : List Cls} {lines : List Str} (hfin : (populate cls 0 lines).endtime < inf)
    {i j : Nat} {a b : Rec} (ha : a ∈ (populate cls 0 lines).tables i) (hb : b ∈ (populate cls 0 lines).tables j) :
    (a.line < b.line → a.time < b.time) ∧ (a.line = b.line → i = j ∧ a = b) := by
  have hs := populate_spec cls 0 lines
  rw [hs.2.1] at ha hb
  obtain ⟨p, e, t, h1, h2, h3, rfl⟩ := rowsFor_mem ha
  obtain ⟨q, e', t', g1, g2, g3, rfl⟩ := rowsFor_mem hb
  have hm := hs.2.2.2 hfin
  have hpw := hm.pairwise.1
  have hl := eventsFrom_pairwise (fun l => getTraceClass l cls) (lines.dropWhile fun l => (parseLine l).isNone) 0
  have lt : ∀ {x y : Nat} {ex ey : Ev}, (fileEvents cls lines)[x]? = some ex → (fileEvents cls lines)[y]? = some ey →
      x < y → ex.line < ey.line := by
    intro x y ex ey hx hy hxy
    obtain ⟨hx1, hx2⟩ := List.getElem?_eq_some_iff.mp hx
    obtain ⟨hy1, hy2⟩ := List.getElem?_eq_some_iff.mp hy
    have := (List.pairwise_iff_getElem.mp hl) x y hx1 hy1 hxy
    rw [← hx2, ← hy2]; exact this
  have ltt : ∀ {x y tx ty : Nat}, (assign 0 ((fileEvents cls lines).map fun e => tsValue e.fields))[x]? = some tx →
      (assign 0 ((fileEvents cls lines).map fun e => tsValue e.fields))[y]? = some ty → x < y → tx < ty := by
    intro x y tx ty hx hy hxy
    obtain ⟨hx1, hx2⟩ := List.getElem?_eq_some_iff.mp hx
    obtain ⟨hy1, hy2⟩ := List.getElem?_eq_some_iff.mp hy
    have := (List.pairwise_iff_getElem.mp hpw) x y hx1 hy1 hxy
    rw [← hx2, ← hy2]; exact this
  constructor
  · intro hlt
    rcases Nat.lt_trichotomy p q with h | h | h
    · exact ltt h2 g2 h
    · subst h; rw [h1] at g1; cases g1; exact absurd hlt (by simp [Ev.row])
    · have := lt g1 h1 h; simp only [Ev.row] at hlt; omega
  · intro he
    rcases Nat.lt_trichotomy p q with h | h | h
    · have := lt h1 g1 h; simp only [Ev.row] at he; omega
    · subst h
      rw [h1] at g1; cases g1
      rw [h2] at g2; cases g2
      rw [h3] at g3; cases g3
      exact ⟨rfl, rfl⟩
    · have := lt g1 h1 h; simp only [Ev.row] at he; omega

/-- **C04**: over all tables together times are strictly increasing in file order (rows of the same line are the
same row), and each table is strictly increasing in time. -/
theorem C04_times_strictly_increase (cls : List Cls) (lines : List Str)
    (hfin : (populate cls 0 lines).endtime < inf) :
    (∀ i j a b, a ∈ (populate cls 0 lines).tables i → b ∈ (populate cls 0 lines).tables j →
      (a.line < b.line → val a.time < val b.time) ∧ (a.line = b.line → i = j ∧ a = b)) ∧
    ∀ i, ((populate cls 0 lines).tables i).Pairwise fun a b => a.line < b.line ∧ val a.time < val b.time := by
  have h1 : ∀ i j a b, a ∈ (populate cls 0 lines).tables i → b ∈ (populate cls 0 lines).tables j →
      (a.line < b.line → val a.time < val b.time) ∧ (a.line = b.line → i = j ∧ a = b) := by
    intro i j a b ha hb
    have := rows_order hfin ha hb
    exact ⟨fun h => val_lt_iff.mpr (this.1 h), this.2⟩
  refine ⟨h1, ?_⟩
  intro i
  have hs := populate_spec cls 0 lines
  have hl : ((populate cls 0 lines).tables i).Pairwise fun a b => a.line < b.line := by
    rw [hs.2.1]
    apply List.Pairwise.sublist (rowsFor_sublist i _ _)
    have hp := eventsFrom_pairwise (fun l => getTraceClass l cls) (lines.dropWhile fun l => (parseLine l).isNone) 0
    change (fileEvents cls lines).Pairwise _ at hp
    generalize fileEvents cls lines = es at hp
    generalize assign 0 (es.map fun e => tsValue e.fields) = out
    induction es generalizing out with
    | nil => simp
    | cons e es ih =>
      cases out with
      | nil => simp
      | cons t out =>
        rw [List.zipWith_cons_cons]
        have hp' := List.pairwise_cons.mp hp
        refine List.pairwise_cons.mpr ⟨?_, ih hp'.2 out⟩
        intro r hr
        rw [List.mem_iff_getElem?] at hr
        obtain ⟨k, hk⟩ := hr
        rw [List.getElem?_zipWith] at hk
        split at hk
        · rename_i a b ha hb
          cases hk
          exact hp'.1 a (List.mem_iff_getElem?.mpr ⟨k, ha⟩)
        · cases hk
  exact hl.imp_of_mem fun ha hb h => ⟨h, (h1 i i _ _ ha hb).1 h⟩

/-- **C04** (input condition): if every printed time is at most 10^300 seconds and the file has fewer than 2^52
lines, no overflow happens. -/
theorem C04_no_overflow (cls : List Cls) (lines : List Str)
    (ht : ∀ l ∈ lines, ∀ f, parseLine (Py.rstrip l) = some f → tsValue f < inf ∧ val (tsValue f) ≤ 10 ^ 300)
    (hn : lines.length < 2 ^ 52) : (populate cls 0 lines).endtime < inf := by
  have hs := populate_spec cls 0 lines
  rw [hs.1]
  have hmem : ∀ e ∈ fileEvents cls lines, tsValue e.fields ≤ floorBits (10 ^ 300 * 2 ^ 1074) := by
    intro e he
    obtain ⟨l, h1, _, h3, _⟩ := eventsFrom_mem _ _ _ e he
    have hl : l ∈ lines := (List.dropWhile_suffix _).subset (List.mem_of_getElem? h1)
    have := (ht l hl _ h3).2
    rw [le_floorBits_iff]
    unfold val at this
    rw [div_le_iff₀ (by positivity)] at this
    exact_mod_cast this
  have hlen : (fileEvents cls lines).length ≤ lines.length := by
    have : ∀ (A : List Str) n d, (eventsFrom d n A).length ≤ A.length := by
      intro A
      induction A with
      | nil => simp [eventsFrom]
      | cons a A ih =>
        intro n d
        simp only [eventsFrom]
        have := ih (n + 1) d
        split <;> simp <;> omega
    calc _ ≤ (lines.dropWhile fun l => (parseLine l).isNone).length := this _ _ _
      _ ≤ _ := (List.dropWhile_suffix _).length_le
  have hb : ∀ (B prev : Nat) (ts : List Nat), B + ts.length < inf → prev ≤ B → (∀ t ∈ ts, t ≤ B) →
      lastTime prev (assign prev ts) ≤ B + ts.length := by
    intro B prev ts
    induction ts generalizing B prev with
    | nil => intro _ h _; simpa [assign, lastTime] using h
    | cons t ts ih =>
      intro hB hp hts
      simp only [assign, lastTime_cons, List.length_cons] at hB ⊢
      have := ih (B + 1) (nextTimestamp prev t) (by omega)
        (by have := hts t (by simp); unfold nextTimestamp nextafter; split
            · omega
            · split <;> omega)
        (fun x hx => by have := hts x (by simp [hx]); omega)
      omega
  have hc : floorBits (10 ^ 300 * 2 ^ 1074) + 2 ^ 52 < inf := by decide +kernel
  have := hb (floorBits (10 ^ 300 * 2 ^ 1074)) 0 ((fileEvents cls lines).map fun e => tsValue e.fields)
    (by simp only [List.length_map]; omega) (by omega)
    (by intro t h; simp only [List.mem_map] at h; obtain ⟨e, he, rfl⟩ := h; exact hmem e he)
  simp only [List.length_map] at this
  omega

/-- the example file meets the condition of `C04_no_overflow` -/
example : ∀ l ∈ exFile, ∀ f, parseLine (Py.rstrip l) = some f → tsValue f ≤ floorBits (100 * 2 ^ 1074) := by
  have : ∀ l ∈ exFile, ((parseLine (Py.rstrip l)).map fun f => decide (tsValue f ≤ floorBits (100 * 2 ^ 1074))) ≠ some false := by
    decide +kernel
  intro l hl f hf
  have := this l hl
  rw [hf] at this
  simpa using this

/-- a file with two events at a timestamp of 400 digits (seconds) -/
def hugeFile : List Str :=
  let l := cs!"a-1 [000] " ++ List.replicate 400 '9' ++ cs!".0: sched_switch: x=1\n"
  [l, l]

/-- **C04 refuted without the finiteness hypothesis**: with timestamps that overflow to infinity two events get the
same time. -/
theorem C04_overflow_refuted :
    ∃ (cls : List Cls) (lines : List Str), ∃ a b, (populate cls 0 lines).tables 0 = [a, b] ∧
      a.line < b.line ∧ a.time = b.time := by
  have h : (populate exCls 0 hugeFile).tables 0 =
      [{ time := inf, comm := cs!"a", pid := 1, cpu := 0, line := 0, data := cs!"x=1" },
       { time := inf, comm := cs!"a", pid := 1, cpu := 0, line := 1, data := cs!"x=1" }] := by decide +kernel
  exact ⟨exCls, hugeFile, _, _, h, by decide, rfl⟩

/-- **C05**: the times of the events, in file order, are the least numbers that are not below the printed
timestamps and above the times of all earlier events; the tables hold exactly these times. -/
theorem C05_minimal_adjustment (cls : List Cls) (lines : List Str)
    (hfin : (populate cls 0 lines).endtime < inf) :
    ∃ out : List Nat, out.length = (fileEvents cls lines).length ∧
      (∀ i, (populate cls 0 lines).tables i = rowsFor i (fileEvents cls lines) out) ∧
      ∀ (k : Nat) (e : Ev) (o : Nat), (fileEvents cls lines)[k]? = some e → out[k]? = some o →
        (tsValue e.fields ≤ o ∧ 0 < o ∧ ∀ j o', j < k → out[j]? = some o' → o' < o) ∧
        ∀ x, tsValue e.fields ≤ x → 0 < x → (∀ j o', j < k → out[j]? = some o' → o' < x) → o ≤ x := by
  have hs := populate_spec cls 0 lines
  refine ⟨_, ?_, hs.2.1, ?_⟩
  · simp [assign_length]
  · intro k e o he ho
    have := (hs.2.2.2 hfin).least (k := k) (t := tsValue e.fields) (o := o) (by simp [he]) ho
    exact ⟨⟨this.1, this.2.1, this.2.2.1⟩, this.2.2.2⟩

/-- **C05** (special case): increasing positive timestamps are kept exactly as printed. -/
theorem C05_increasing_kept (cls : List Cls) (lines : List Str)
    (h : (0 :: (fileEvents cls lines).map fun e => tsValue e.fields).Pairwise (· < ·)) (i : Nat) :
    (populate cls 0 lines).tables i =
      rowsFor i (fileEvents cls lines) ((fileEvents cls lines).map fun e => tsValue e.fields) := by
  have hs := populate_spec cls 0 lines
  rw [hs.2.1, assign_increasing h]

example : (0 :: (fileEvents exCls (exFile.take 2 ++ exFile.drop 5)).map fun e => tsValue e.fields).Pairwise (· < ·) ∧
    (fileEvents exCls (exFile.take 2 ++ exFile.drop 5)).length = 2 := by decide +kernel

/-! ## C06 -/

theorem split1_dot {a b : Str} (ha : '.' ∉ a) : Py.split1 '.' (a ++ '.' :: b) = some (a, b) := by
  induction a with
  | nil => simp [Py.split1]
  | cons c a ih =>
    have hc : (c == '.') = false := by
      simp only [beq_eq_false_iff_ne, ne_eq]; rintro rfl; exact ha (by simp)
    simp only [List.cons_append, Py.split1, hc, Bool.false_eq_true, if_false]
    rw [ih (by intro h; exact ha (by simp [h]))]

theorem split1_none {a : Str} (ha : '.' ∉ a) : Py.split1 '.' a = none := by
  induction a with
  | nil => rfl
  | cons c a ih =>
    have hc : (c == '.') = false := by
      simp only [beq_eq_false_iff_ne, ne_eq]; rintro rfl; exact ha (by simp)
    simp only [Py.split1, hc, Bool.false_eq_true, if_false]
    rw [ih (by intro h; exact ha (by simp [h]))]

theorem natVal_eq (t : Str) : Py.natVal t = Nat.ofDigitChars 10 t 0 := by
  rw [Nat.ofDigitChars_eq_foldl]; rfl

/-- **C06** (seconds): a timestamp `S.F` with integer part `s` and `F` of `k` digits standing for `n` is recorded as
the binary64 number nearest to `s + n/10^k` (ties to even), if that does not exceed the largest binary64 number. -/
theorem C06_seconds (f : Fields) (S F : Str) (s n z : Nat) (hS : S = Nat.toDigits 10 s)
    (hF : F = List.replicate z '0' ++ Nat.toDigits 10 n) (hts : f.ts = S ++ '.' :: F) (hus : f.us = some ('.' :: F))
    (hmax : (s : ℚ) + n / 10 ^ F.length ≤ val (inf - 1)) :
    NearestEven (s + n / 10 ^ F.length) (tsValue f) := by
  have hdig : ∀ m, '.' ∉ Nat.toDigits 10 m := by
    intro m h
    have := Nat.isDigit_of_mem_toDigits (by omega) (by omega) h
    simp [Char.isDigit] at this
  have hv : tsValue f = ofRat (s * 10 ^ F.length + n) (10 ^ F.length) := by
    unfold tsValue floatOfText
    simp only [hus, hts]
    rw [split1_dot (by rw [hS]; exact hdig s)]
    simp only
    congr 1
    rw [natVal_eq, Nat.ofDigitChars_append, hS, Nat.ofDigitChars_ten_toDigits, hF, Nat.ofDigitChars_append,
      Nat.ofDigitChars_replicate_zero, Nat.ofDigitChars_eq_ofDigitChars_zero, Nat.ofDigitChars_ten_toDigits]
    simp only [List.length_append, List.length_replicate]
    rw [Nat.pow_add]; ring
  have hq : ((s * 10 ^ F.length + n : Nat) : ℚ) / ((10 ^ F.length : Nat) : ℚ) = s + n / 10 ^ F.length := by
    push_cast; field_simp
  rw [hv]
  have := ofRat_nearestEven (p := s * 10 ^ F.length + n) (q := 10 ^ F.length) (by positivity)
    (ofRat_lt_inf (by positivity) (by rw [hq]; exact hmax))
  rwa [hq] at this

/-- **C06** (nanoseconds): a timestamp without fraction is the nearest binary64 number to its value divided by
1e9, rounded again. -/
theorem C06_nanoseconds (f : Fields) (n : Nat) (hts : f.ts = Nat.toDigits 10 n) (hus : f.us = none)
    (hmax : (n : ℚ) ≤ val (inf - 1)) :
    ∃ x, NearestEven n x ∧ NearestEven (val x / 10 ^ 9) (tsValue f) := by
  have hdig : '.' ∉ Nat.toDigits 10 n := by
    intro h
    have := Nat.isDigit_of_mem_toDigits (by omega) (by omega) h
    simp [Char.isDigit] at this
  have hv : tsValue f = divE9 (ofRat n 1) := by
    unfold tsValue floatOfText
    simp only [hus, hts]
    rw [split1_none hdig, natVal_eq, Nat.ofDigitChars_ten_toDigits]
  have hlt : ofRat n 1 < inf := ofRat_lt_inf (by omega) (by simpa using hmax)
  refine ⟨ofRat n 1, ?_, ?_⟩
  · simpa using ofRat_nearestEven (p := n) (q := 1) (by omega) hlt
  · rw [hv]; exact divE9_nearestEven hlt

/-- Times below 2^53 ns are exact before the division, so the recorded time is the correctly rounded instant. -/
theorem C06_nanoseconds_exact (f : Fields) (n : Nat) (hts : f.ts = Nat.toDigits 10 n) (hus : f.us = none)
    (hn : n < 2 ^ 53) : NearestEven (n / 10 ^ 9) (tsValue f) := by
  have hx : ∃ x, x < inf ∧ val x = n := by
    rcases Nat.eq_zero_or_pos n with rfl | hpos
    · exact ⟨0, by decide, by simp [val, uval, M]⟩
    · have hlog : n.log2 ≤ 52 := by
        have := (Nat.log2_lt (by omega)).mpr hn; omega
      have h2 : n * 2 ^ (52 - n.log2) < 2 * M ∧ M ≤ n * 2 ^ (52 - n.log2) := by
        have l1 := Nat.lt_log2_self (n := n)
        have l2 := Nat.log2_self_le (n := n) (by omega)
        have e : 2 ^ n.log2 * 2 ^ (52 - n.log2) = M := by
          rw [← Nat.pow_add]; unfold M; congr 1; omega
        constructor
        · calc n * 2 ^ (52 - n.log2) < 2 ^ (n.log2 + 1) * 2 ^ (52 - n.log2) :=
                Nat.mul_lt_mul_of_pos_right l1 (Nat.pow_pos (by omega))
            _ = 2 * M := by rw [Nat.pow_succ, ← e]; ring
        · rw [← e]; exact Nat.mul_le_mul_right _ l2
      have e1 : (n.log2 + 1023) * M + (n * 2 ^ (52 - n.log2) - M) < inf := by
        have : inf = 2047 * M := rfl
        have : (n.log2 + 1023) * M ≤ 1075 * M := Nat.mul_le_mul_right _ (by omega)
        omega
      have e2 : uval ((n.log2 + 1023) * M + (n * 2 ^ (52 - n.log2) - M)) = n * 2 ^ 1074 := by
        have hM := M_pos
        unfold uval
        have hlt : n * 2 ^ (52 - n.log2) - M < M := by omega
        rw [if_neg (by have : M ≤ (n.log2 + 1023) * M := Nat.le_mul_of_pos_left _ (by omega)
                       omega)]
        rw [Nat.mul_add_mod_of_lt hlt, Nat.add_comm ((n.log2 + 1023) * M), Nat.add_mul_div_right _ _ hM,
          Nat.div_eq_of_lt hlt]
        rw [show M + (n * 2 ^ (52 - n.log2) - M) = n * 2 ^ (52 - n.log2) by omega, Nat.mul_assoc, ← Nat.pow_add]
        exact congrArg (fun e => n * 2 ^ e) (by omega)
      refine ⟨_, e1, ?_⟩
      unfold val; rw [e2]; push_cast; field_simp
  obtain ⟨x, hx1, hx2⟩ := hx
  have hmax : (n : ℚ) ≤ val (inf - 1) := by rw [← hx2, val_le_iff]; omega
  obtain ⟨y, hy1, hy2⟩ := C06_nanoseconds f n hts hus hmax
  have hy : val y = n := by
    have := (hy1.2 x hx1).1
    rw [hx2] at this
    simp only [sub_self, abs_zero, abs_nonpos_iff] at this
    linarith
  rwa [hy] at hy2

example : ∃ f : Fields, f.ts = Nat.toDigits 10 123 ++ '.' :: (List.replicate 2 '0' ++ Nat.toDigits 10 45) ∧
    f.us = some ('.' :: (List.replicate 2 '0' ++ Nat.toDigits 10 45)) ∧
    parseLine cs!"a-1 [000] 123.0045: e: x=1" = some f :=
  ⟨{ comm := cs!"a", pid := 1, cpu := 0, ts := cs!"123.0045", us := some cs!".0045", data := cs!"x=1" }, by decide +kernel⟩

example : ∃ f : Fields, f.ts = Nat.toDigits 10 123456789012 ∧ f.us = none ∧
    parseLine cs!"a-1 [000] 123456789012: e: x=1" = some f :=
  ⟨{ comm := cs!"a", pid := 1, cpu := 0, ts := cs!"123456789012", us := none, data := cs!"x=1" }, by decide +kernel⟩

end Trappy
