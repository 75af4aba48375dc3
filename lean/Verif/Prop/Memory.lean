import Verif.Model.Memory
import Verif.Prop.Pivots
import Verif.Prop.Whole
/-!
# C167: the memory checks while rows are made
-/

namespace Trappy
open Py

/-! ## The rows -/

theorem memLoop_rows (dict : Str → Option (List (Str × Val))) (free : Option Int) (used : Nat → Int) (rs : List Rec) (ds : List Str) (i : Nat) (count : Int) (check : Bool) :
    (memLoop dict free used i count check rs ds).1 = rowsBy dict rs ds := by
  induction rs generalizing ds i count check with
  | nil => cases ds <;> rfl
  | cons r rs ih =>
    cases ds with
    | nil => rfl
    | cons d ds =>
      unfold memLoop rowsBy
      cases dict d with
      | none => rfl
      | some payload =>
        simp only
        split
        · split
          · simp only [ih]; cases rowsBy dict rs ds <;> rfl
          · simp only [ih]; cases rowsBy dict rs ds <;> rfl
        · simp only [ih]; cases rowsBy dict rs ds <;> rfl

/-- **C167 (rows).** The rows of an event are the same whatever the memory of the machine and of the process is. For all events and readings. -/
theorem C167_rows (dict : Str → Option (List (Str × Val))) (meminfo : Option (List Str)) (used : Nat → Int) (rs : List Rec) (ds : List Str) :
    (genParsed dict meminfo used rs ds).1 = rowsBy dict rs ds := memLoop_rows dict _ used rs ds 0 1 true

/-! ## The warning -/

/-- **Specification**: event `i` is reached: it exists, and it and all events before it can be parsed -/
def Reached (dict : Str → Option (List (Str × Val))) (rs : List Rec) (ds : List Str) (i : Nat) : Prop :=
  i < rs.length ∧ ∀ k ≤ i, ∃ d payload, ds[k]? = some d ∧ dict d = some payload

/-- **Specification**: nine tenths of the free memory, which is known and not zero, are used -/
def Low (free : Option Int) (used : Int) : Prop := ∃ f, free = some f ∧ f ≠ 0 ∧ (f : Rat) * (9 / 10) < used

theorem low_iff (free : Option Int) (used : Int) : lowMemory free used = true ↔ Low free used := by
  unfold lowMemory Low
  cases free with
  | none => simp
  | some f =>
    simp only [Bool.and_eq_true, decide_eq_true_eq, Option.some.injEq, exists_eq_left']
    have : (f : Rat) * (9 / 10) < used ↔ f * 9 < used * 10 := by
      constructor
      · intro h
        have : (f : Rat) * 9 < used * 10 := by linarith
        exact_mod_cast this
      · intro h
        have : (f : Rat) * 9 < used * 10 := by exact_mod_cast h
        linarith
    rw [this]

theorem reached_cons (dict : Str → Option (List (Str × Val))) {r : Rec} {rs : List Rec} {d : Str} {ds : List Str} {payload : List (Str × Val)} (h : dict d = some payload) (i : Nat) :
    Reached dict (r :: rs) (d :: ds) (i + 1) ↔ Reached dict rs ds i := by
  unfold Reached
  constructor
  · rintro ⟨h1, h2⟩
    refine ⟨by simpa using h1, fun k hk => ?_⟩
    simpa using h2 (k + 1) (by omega)
  · rintro ⟨h1, h2⟩
    refine ⟨by simpa using h1, fun k hk => ?_⟩
    cases k with
    | zero => exact ⟨d, payload, rfl, h⟩
    | succ k => simpa using h2 k (by omega)

theorem memLoop_off (dict : Str → Option (List (Str × Val))) (free : Option Int) (used : Nat → Int) (rs : List Rec) (ds : List Str) (i : Nat) (count : Int) :
    (memLoop dict free used i count false rs ds).2 = [] := by
  induction rs generalizing ds i count with
  | nil => cases ds <;> rfl
  | cons r rs ih =>
    cases ds with
    | nil => rfl
    | cons d ds =>
      unfold memLoop
      cases dict d with
      | none => rfl
      | some payload => simp [ih]

/-- with `c` events to go to the next check, the warnings are the first event at a check where the memory is low -/
theorem memLoop_warn (dict : Str → Option (List (Str × Val))) (free : Option Int) (used : Nat → Int) (rs : List Rec) (ds : List Str) (i c : Nat) (hc : c < 10000) (hic : (i + c) % 10000 = 0) (n : Nat) :
    (∀ l, (memLoop dict free used i (c + 1) true rs ds).2 = l → l.length ≤ 1) ∧
    (n ∈ (memLoop dict free used i (c + 1) true rs ds).2 ↔ i ≤ n ∧ Reached dict rs ds (n - i) ∧ n % 10000 = 0 ∧ Low free (used n) ∧ ∀ m, i ≤ m → m < n → m % 10000 = 0 → ¬ Low free (used m)) := by
  induction rs generalizing ds i c with
  | nil =>
    have : (memLoop dict free used i (c + 1) true [] ds).2 = [] := by cases ds <;> rfl
    rw [this]
    simp [Reached]
  | cons r rs ih =>
    cases ds with
    | nil =>
      have : (memLoop dict free used i (c + 1) true (r :: rs) []).2 = [] := rfl
      rw [this]
      refine ⟨by simp, by simp, ?_⟩
      rintro ⟨_, ⟨_, h⟩, _⟩
      obtain ⟨d, _, h, _⟩ := h 0 (by omega)
      simp at h
    | cons d ds =>
      cases hd : dict d with
      | none =>
        have : (memLoop dict free used i (c + 1) true (r :: rs) (d :: ds)).2 = [] := by
          unfold memLoop
          rw [hd]
        rw [this]
        refine ⟨by simp, by simp, ?_⟩
        rintro ⟨_, ⟨_, h⟩, _⟩
        obtain ⟨d', p, h, h'⟩ := h 0 (by omega)
        simp only [List.getElem?_cons_zero, Option.some.injEq] at h
        rw [← h, hd] at h'
        cases h'
      | some payload =>
        have hstep : ∀ m, i + 1 ≤ m → (Reached dict (r :: rs) (d :: ds) (m - i) ↔ Reached dict rs ds (m - (i + 1))) := by
          intro m hm
          have : m - i = (m - (i + 1)) + 1 := by omega
          rw [this]
          exact reached_cons dict hd _
        have h0 : Reached dict (r :: rs) (d :: ds) 0 := by
          refine ⟨by simp, fun k hk => ?_⟩
          obtain rfl : k = 0 := by omega
          exact ⟨d, payload, rfl, hd⟩
        by_cases hc0 : c = 0
        · subst hc0
          have hi : i % 10000 = 0 := by simpa using hic
          by_cases hl : lowMemory free (used i) = true
          · have e : (memLoop dict free used i ((0 : Nat) + 1) true (r :: rs) (d :: ds)).2 = [i] := by
              unfold memLoop
              rw [hd]
              simp [hl, memLoop_off]
            rw [e]
            refine ⟨by rintro l rfl; simp, ?_⟩
            have hl' := (low_iff _ _).1 hl
            constructor
            · intro h
              obtain rfl : n = i := by simpa using h
              exact ⟨le_refl _, by simpa using h0, hi, hl', fun m h1 h2 => by omega⟩
            · rintro ⟨h1, _, _, _, h⟩
              by_cases hn : n = i
              · simp [hn]
              · exact absurd hl' (h i (le_refl _) (by omega) hi)
          · have e : (memLoop dict free used i ((0 : Nat) + 1) true (r :: rs) (d :: ds)).2 = (memLoop dict free used (i + 1) ((9999 : Nat) + 1) true rs ds).2 := by
              rw [memLoop, hd]
              simp [hl, checkMemCount]
            rw [e]
            have hl' : ¬ Low free (used i) := fun h => hl ((low_iff _ _).2 h)
            obtain ⟨i1, i2⟩ := ih ds (i + 1) 9999 (by omega) (by omega)
            refine ⟨i1, i2.trans ?_⟩
            constructor
            · rintro ⟨h1, h2, h3, h4, h5⟩
              refine ⟨by omega, (hstep n h1).2 h2, h3, h4, fun m hm hmn hm0 => ?_⟩
              by_cases hmi : m = i
              · rw [hmi]; exact hl'
              · exact h5 m (by omega) hmn hm0
            · rintro ⟨h1, h2, h3, h4, h5⟩
              have hni : n ≠ i := fun h => hl' (h ▸ h4)
              have h1' : i + 1 ≤ n := by omega
              exact ⟨h1', (hstep n h1').1 h2, h3, h4, fun m hm => h5 m (by omega)⟩
        · obtain ⟨c, rfl⟩ := Nat.exists_eq_succ_of_ne_zero hc0
          have e : (memLoop dict free used i ((c + 1 : Nat) + 1) true (r :: rs) (d :: ds)).2 = (memLoop dict free used (i + 1) ((c : Nat) + 1) true rs ds).2 := by
            rw [memLoop, hd]
            have e1 : ¬ ((c : Int) + 1 = 0) := by omega
            simp [e1]
          have e' : (memLoop dict free used i (((c.succ : Nat) : Int) + 1) true (r :: rs) (d :: ds)).2 = (memLoop dict free used (i + 1) ((c : Nat) + 1) true rs ds).2 := e
          rw [e']
          have hi : ¬ i % 10000 = 0 := by
            simp only [Nat.succ_eq_add_one] at hic hc
            omega
          obtain ⟨i1, i2⟩ := ih ds (i + 1) c (by omega) (by rw [← hic]; congr 1; omega)
          refine ⟨i1, i2.trans ?_⟩
          constructor
          · rintro ⟨h1, h2, h3, h4, h5⟩
            refine ⟨by omega, (hstep n h1).2 h2, h3, h4, fun m hm hmn hm0 => ?_⟩
            by_cases hmi : m = i
            · exact absurd (hmi ▸ hm0) hi
            · exact h5 m (by omega) hmn hm0
          · rintro ⟨h1, h2, h3, h4, h5⟩
            have hni : n ≠ i := fun h => hi (h ▸ h3)
            have h1' : i + 1 ≤ n := by omega
            exact ⟨h1', (hstep n h1').1 h2, h3, h4, fun m hm => h5 m (by omega)⟩

/-- **C167 (warning).** There is at most one warning, and it is at the first event numbered by a multiple of 10000, from zero, at which nine tenths of the free memory are used. For all events and readings. -/
theorem C167_warning (dict : Str → Option (List (Str × Val))) (meminfo : Option (List Str)) (used : Nat → Int) (rs : List Rec) (ds : List Str) (n : Nat) :
    (genParsed dict meminfo used rs ds).2.length ≤ 1 ∧
    (n ∈ (genParsed dict meminfo used rs ds).2 ↔
      Reached dict rs ds n ∧ n % 10000 = 0 ∧ Low (freeMemoryKb meminfo) (used n) ∧ ∀ m < n, m % 10000 = 0 → ¬ Low (freeMemoryKb meminfo) (used m)) := by
  obtain ⟨h1, h2⟩ := memLoop_warn dict (freeMemoryKb meminfo) used rs ds 0 0 (by omega) (by omega) n
  refine ⟨h1 _ rfl, ?_⟩
  have e : genParsed dict meminfo used rs ds = memLoop dict (freeMemoryKb meminfo) used 0 ((0 : Nat) + 1) true rs ds := rfl
  rw [e, h2]
  simp

/-! ## The free memory -/

theorem memSplit_iff (t : Str) (ws : List Str) : Py.split t = ws ↔ Spaced ws t := by
  constructor
  · rintro rfl
    exact spaced_split t
  · exact split_spaced

/-- **C167 (free memory).** The free memory is known exactly if the first line with `MemFree` has three words, the second of them an integer. For all contents of `/proc/meminfo`. -/
theorem C167_meminfo (meminfo : Option (List Str)) (n : Int) :
    freeMemoryKb meminfo = some n ↔
      ∃ before l after a kb b, meminfo = some (before ++ l :: after) ∧ (∀ x ∈ before, ¬ cs!"MemFree" <:+: x) ∧ cs!"MemFree" <:+: l ∧ Spaced [a, kb, b] l ∧ SignedLit 10 (strip kb) n := by
  constructor
  · intro h
    cases meminfo with
    | none => simp [freeMemoryKb] at h
    | some lines =>
      simp only [freeMemoryKb] at h
      cases hf : lines.filter (contains cs!"MemFree") with
      | nil => rw [hf] at h; simp at h
      | cons l rest =>
        rw [hf] at h
        obtain ⟨before, after, rfl, h1, h2, _⟩ := List.filter_eq_cons_iff.1 hf
        simp only at h
        cases hs : Py.split l with
        | nil => rw [hs] at h; simp at h
        | cons a ws =>
          match ws, hs with
          | [], hs => rw [hs] at h; simp at h
          | [_], hs => rw [hs] at h; simp at h
          | [kb, b], hs =>
            rw [hs] at h
            exact ⟨before, l, after, a, kb, b, rfl, fun x hx hc => h1 x hx ((contains_iff _ _).2 hc), (contains_iff _ _).1 h2, (memSplit_iff _ _).1 hs, intB_iff.1 h⟩
          | _ :: _ :: _ :: _, hs => rw [hs] at h; simp at h
  · rintro ⟨before, l, after, a, kb, b, rfl, h1, h2, h3, h4⟩
    have hf : (before ++ l :: after).filter (contains cs!"MemFree") = l :: after.filter (contains cs!"MemFree") := by
      rw [List.filter_append, List.filter_eq_nil_iff.2 (fun x hx h => h1 x hx ((contains_iff _ _).1 h)), List.nil_append, List.filter_cons_of_pos ((contains_iff _ _).2 h2)]
    simp only [freeMemoryKb, hf]
    rw [(memSplit_iff _ _).2 h3]
    exact intB_iff.2 h4

/-! ## What is not seen -/

/-- **C167 (refuted, short events).** An event with at most 10000 lines is checked only at its first line: if the memory is not low then, there is no warning, however low it gets. -/
theorem C167_short_refuted (dict : Str → Option (List (Str × Val))) (meminfo : Option (List Str)) (used : Nat → Int) (rs : List Rec) (ds : List Str) (hlen : rs.length ≤ 10000)
    (h0 : ¬ Low (freeMemoryKb meminfo) (used 0)) : (genParsed dict meminfo used rs ds).2 = [] := by
  apply List.eq_nil_iff_forall_not_mem.2
  intro n hn
  obtain ⟨⟨h1, _⟩, h2, h3, _⟩ := (C167_warning dict meminfo used rs ds n).2.1 hn
  have : n = 0 := by omega
  exact h0 (this ▸ h3)

/-- **C167 (refuted, no memory).** If there is no free memory at all, there is no warning, whatever is used. -/
theorem C167_none_refuted (dict : Str → Option (List (Str × Val))) (meminfo : Option (List Str)) (h : freeMemoryKb meminfo = some 0) (used : Nat → Int) (rs : List Rec) (ds : List Str) :
    (genParsed dict meminfo used rs ds).2 = [] := by
  apply List.eq_nil_iff_forall_not_mem.2
  intro n hn
  obtain ⟨_, _, ⟨f, h1, h2, _⟩, _⟩ := (C167_warning dict meminfo used rs ds n).2.1 hn
  rw [h] at h1
  cases h1
  exact h2 rfl

/-- **C167 (complete for growing use).** The peak use of memory never falls; so if it is low at some event, there is a warning at most 9999 events later, if the event has that many lines. -/
theorem C167_growing_partial (dict : Str → Option (List (Str × Val))) (meminfo : Option (List Str)) (used : Nat → Int) (hmono : ∀ i j, i ≤ j → used i ≤ used j) (rs : List Rec) (ds : List Str) (i : Nat)
    (hlow : Low (freeMemoryKb meminfo) (used i)) (hr : Reached dict rs ds (i + 9999)) : ∃ n ≤ i + 9999, (genParsed dict meminfo used rs ds).2 = [n] := by
  classical
  have hup : ∀ j, i ≤ j → Low (freeMemoryKb meminfo) (used j) := by
    rintro j hj
    obtain ⟨f, h1, h2, h3⟩ := hlow
    refine ⟨f, h1, h2, lt_of_lt_of_le h3 ?_⟩
    exact_mod_cast hmono i j hj
  have hex : ∃ n, n % 10000 = 0 ∧ Low (freeMemoryKb meminfo) (used n) := ⟨(i + 9999) / 10000 * 10000, by omega, hup _ (by omega)⟩
  have hle : Nat.find hex ≤ i + 9999 := le_trans (Nat.find_min' hex (m := (i + 9999) / 10000 * 10000) ⟨by omega, hup _ (by omega)⟩) (by omega)
  have hspec := Nat.find_spec hex
  have hmem : Nat.find hex ∈ (genParsed dict meminfo used rs ds).2 := by
    refine (C167_warning dict meminfo used rs ds _).2.2 ⟨⟨by have := hr.1; omega, fun k hk => hr.2 k (by omega)⟩, hspec.1, hspec.2, ?_⟩
    intro m hm h0 hl
    exact Nat.find_min hex hm ⟨h0, hl⟩
  refine ⟨Nat.find hex, hle, ?_⟩
  have hlen := (C167_warning dict meminfo used rs ds 0).1
  match h : (genParsed dict meminfo used rs ds).2 with
  | [] => rw [h] at hmem; simp at hmem
  | [x] => rw [h] at hmem; simp at hmem; rw [hmem]
  | _ :: _ :: _ => rw [h] at hlen; simp at hlen

/-- a file of memory figures -/
def meminfoEx : List Str := [cs!"MemTotal:       16384 kB\n", cs!"MemFree:          1000 kB\n", cs!"MemAvailable:     9000 kB\n"]

/-- two lines of an event -/
def memRecs : List Rec × List Str := ([⟨1, cs!"a", 1, 0, 0, []⟩, ⟨2, cs!"b", 2, 1, 1, []⟩], [cs!"x=1", cs!"x=2"])

/-- C167: low at once; never low; low only at the second event, which is not checked; no free memory -/
example : freeMemoryKb (some meminfoEx) = some 1000 ∧
    genParsed generateDataDict (some meminfoEx) (fun _ => 901) memRecs.1 memRecs.2 = (rowsBy generateDataDict memRecs.1 memRecs.2, [0]) ∧
    (genParsed generateDataDict (some meminfoEx) (fun _ => 900) memRecs.1 memRecs.2).2 = [] ∧
    (genParsed generateDataDict (some meminfoEx) (fun i => if i = 0 then 0 else 5000) memRecs.1 memRecs.2).2 = [] ∧
    (genParsed generateDataDict (some [cs!"MemFree: 0 kB\n"]) (fun _ => 5000) memRecs.1 memRecs.2).2 = [] ∧
    (genParsed generateDataDict (some [cs!"MemFree: much\n"]) (fun _ => 5000) memRecs.1 memRecs.2).2 = [] := by decide +kernel

/-- the hypotheses of `C167_growing_partial` are met -/
example : ∃ rs ds, Low (freeMemoryKb (some meminfoEx)) 950 ∧ Reached generateDataDict rs ds (5 + 9999) :=
  ⟨List.replicate 20000 ⟨1, cs!"a", 1, 0, 0, []⟩, List.replicate 20000 cs!"x=1", ⟨1000, by decide +kernel, by norm_num, by norm_num⟩, by rw [List.length_replicate]; omega,
    fun k hk => ⟨cs!"x=1", [(cs!"x", .int 1)], by rw [List.getElem?_replicate, if_pos (by omega)], by decide +kernel⟩⟩

end Trappy
