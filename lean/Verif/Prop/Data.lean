import Verif.Lemma.Data
import Verif.Prop.Populate
/-!
# Properties of payload parsing (C12, C13, C14, C86)
-/

namespace Trappy
open Py

/-! ## C12 -/

/-- **C12.** A payload printed as fields `key=first rest…`, with any blanks between and around the words, is read back
as exactly the list of keys with the values the fields stand for, in order. -/
theorem C12_payload_roundtrip (fs : List Field) (val : Field → Val) (data : Str)
    (hwf : ∀ f ∈ fs, f.WF) (hkeys : (fs.map Field.key).Nodup) (hval : ∀ f ∈ fs, f.Means (val f))
    (hdata : Spaced (fs.flatMap Field.words) data) :
    generateDataDict data = some (fs.map fun f => (f.key, val f)) := by
  unfold generateDataDict
  rw [split_spaced hdata]
  obtain ⟨q, hq⟩ := loop_fields (Py.contains cs!"FAILED TO PARSE" data) fs hwf val hval [] none hkeys (by simp)
  rw [hq]
  simp

/-! ## C13 -/

/-- **C13.** `int(s, 0)` accepts exactly the integer literals surrounded by blanks, with their value. -/
theorem C13_int_literals (s : Str) (i : Int) :
    Py.int0 s = some i ↔ ∃ a core b, s = a ++ core ++ b ∧ AllC Py.isSpace a ∧ AllC Py.isSpace b ∧ IntLit core i := by
  rw [int0_core]
  constructor
  · intro h
    obtain ⟨a, b, e, ha, hb⟩ := strip_decomp s
    exact ⟨a, strip s, b, e, ha, hb, h⟩
  · rintro ⟨a, core, b, rfl, ha, hb, h⟩
    rw [strip_core ha hb h.ends.1 h.ends.2]
    exact h

/-- **C13.** A value without blanks becomes an integer exactly if it is an integer literal; every other value is left
as it is. -/
theorem C13_cast (s : Str) (hs : ∀ c ∈ s, Py.isSpace c = false) :
    (∀ i, stringCastInt s = .int i ↔ IntLit s i) ∧
    ((∀ i, ¬ IntLit s i) → stringCastInt s = .str s) := by
  have key : ∀ i, Py.int0 s = some i ↔ IntLit s i := by
    intro i; rw [int0_core, strip_nospace hs]
  unfold stringCastInt
  constructor
  · intro i
    rw [← key]
    cases Py.int0 s <;> simp
  · intro h
    cases hi : Py.int0 s with
    | none => rfl
    | some i => exact absurd ((key i).mp hi) (h i)

theorem digitChar_isDigitOf {b d : Nat} (hd : d < b) (hb : b ≤ 16) : IsDigitOf b (Nat.digitChar d) d := by
  refine ⟨hd, .inl ?_⟩
  have : d < 16 := by omega
  clear hd hb
  revert d
  decide

theorem digits_toDigits {b : Nat} (hb1 : 1 < b) (hb : b ≤ 16) (n : Nat) : Digits b (Nat.toDigits b n) n := by
  induction n using Nat.strongRecOn with
  | _ n ih =>
    rw [Nat.toDigits_eq_if hb1]
    split
    · rename_i h; exact .one (digitChar_isDigitOf h hb)
    · rename_i h
      have := Digits.snoc (ih (n / b) (Nat.div_lt_self (by omega) hb1))
        (digitChar_isDigitOf (Nat.mod_lt n (by omega : b > 0)) hb)
      rwa [Nat.mul_comm, Nat.div_add_mod] at this

theorem toDigits_head {b : Nat} (hb1 : 1 < b) (hb : b ≤ 16) (n : Nat) :
    (Nat.toDigits b n).head? ≠ some '0' ∨ n = 0 := by
  induction n using Nat.strongRecOn with
  | _ n ih =>
    rw [Nat.toDigits_eq_if hb1]
    split
    · rename_i h
      have : n < 16 := by omega
      clear ih h hb
      revert n
      decide
    · rename_i h
      have hpos : 0 < n / b := Nat.div_pos (by omega) (by omega)
      rcases ih (n / b) (Nat.div_lt_self (by omega) hb1) with h1 | h1
      · left
        cases hd : Nat.toDigits b (n / b) with
        | nil => exact absurd hd Nat.toDigits_ne_nil
        | cons c t => rw [hd] at h1; simpa using h1
      · omega

theorem natLit_dec (n : Nat) : NatLit (Nat.toDigits 10 n) n :=
  .dec (digits_toDigits (by decide) (by decide) n) (toDigits_head (by decide) (by decide) n)

theorem intLit_intStr (i : Int) : IntLit (Py.intStr i) i := by
  unfold Py.intStr Py.natStr
  split
  · have h := IntLit.minus (natLit_dec i.natAbs)
    have : -(i.natAbs : Int) = i := by omega
    rwa [this] at h
  · have h := IntLit.plain (natLit_dec i.natAbs)
    have : (i.natAbs : Int) = i := by omega
    rwa [this] at h

/-- **C13.** Every integer printed in decimal is decoded to itself. -/
theorem C13_decimal_roundtrip (i : Int) : stringCastInt (Py.intStr i) = .int i := by
  have : Py.int0 (Py.intStr i) = some i :=
    (C13_int_literals _ _).mpr ⟨[], _, [], by simp, allC_nil _, allC_nil _, intLit_intStr i⟩
  simp [stringCastInt, this]

/-- **C13.** Every natural number printed in hexadecimal with `0x` is decoded to itself. -/
theorem C13_hex_roundtrip (n : Nat) : stringCastInt (cs!"0x" ++ Nat.toDigits 16 n) = .int n := by
  have : Py.int0 (cs!"0x" ++ Nat.toDigits 16 n) = some (n : Int) :=
    (C13_int_literals _ _).mpr ⟨[], _, [], by simp, allC_nil _, allC_nil _,
      .plain (.pre (.inl ⟨.inl rfl, rfl⟩) (digits_toDigits (by decide) (by decide) n))⟩
  unfold stringCastInt; rw [this]

/-- a literal stands for one number only -/
theorem intLit_unique {s : Str} {i j : Int} (h1 : IntLit s i) (h2 : IntLit s j) : i = j := by
  have a := (C13_int_literals s i).mpr ⟨[], s, [], by simp, allC_nil _, allC_nil _, h1⟩
  have b := (C13_int_literals s j).mpr ⟨[], s, [], by simp, allC_nil _, allC_nil _, h2⟩
  rw [a] at b; exact Option.some.inj b

/-- examples of literals and non-literals -/
example : stringCastInt cs!"-0x_fF" = .int (-255) ∧ stringCastInt cs!"007" = .str cs!"007" ∧
    stringCastInt cs!"00" = .int 0 ∧ stringCastInt cs!"1_000" = .int 1000 ∧ stringCastInt cs!"1__0" = .str cs!"1__0" ∧
    stringCastInt cs!"1.5" = .str cs!"1.5" ∧ stringCastInt cs!"+0b101" = .int 5 ∧ stringCastInt [] = .str [] := by
  decide +kernel

/-- An instance of C12 with a multi-word value and a number. -/
def exFields : List Field :=
  [⟨cs!"prev_comm", cs!"my", [cs!"long", cs!"name"]⟩, ⟨cs!"pid", cs!"-12", []⟩, ⟨cs!"flags", cs!"a=b|c", []⟩]

def exVals (f : Field) : Val :=
  if f.key = cs!"pid" then .int (-12) else .str (Py.joinC ' ' (f.first :: f.rest))

theorem exFields_ok : (∀ f ∈ exFields, f.WF) ∧ (exFields.map Field.key).Nodup ∧ (∀ f ∈ exFields, f.Means (exVals f)) ∧
    Spaced (exFields.flatMap Field.words) (Py.joinC ' ' (exFields.flatMap Field.words)) := by
  have hnot : ∀ s : Str, Py.int0 s = none → (∀ c ∈ s, Py.isSpace c = false) → ∀ i, ¬ IntLit s i := by
    intro s h hs i hl
    rw [(C13_int_literals s i).mpr ⟨[], s, [], by simp, allC_nil _, allC_nil _, hl⟩] at h
    cases h
  refine ⟨?_, by decide, ?_, spaced_join _ (by decide)⟩
  · intro f hf
    simp only [exFields, List.mem_cons, List.not_mem_nil, or_false] at hf
    rcases hf with rfl | rfl | rfl <;> exact ⟨by decide, by decide, by decide, by decide⟩
  · intro f hf
    simp only [exFields, List.mem_cons, List.not_mem_nil, or_false] at hf
    rcases hf with rfl | rfl | rfl
    · exact .str (hnot _ (by decide +kernel) (by decide))
    · exact .int (((C13_cast cs!"-12" (by decide)).1 (-12)).mp (by decide +kernel))
    · exact .str (hnot _ (by decide +kernel) (by decide))

example : generateDataDict cs!"prev_comm=my long name pid=-12 flags=a=b|c" =
    some [(cs!"prev_comm", .str cs!"my long name"), (cs!"pid", .int (-12)), (cs!"flags", .str cs!"a=b|c")] :=
  C12_payload_roundtrip exFields exVals _ exFields_ok.1 exFields_ok.2.1 exFields_ok.2.2.1 exFields_ok.2.2.2

/-! ## C14 -/

/-- **C14.** A payload of words `ws` raises `TrappyParseError` exactly if it does not contain `FAILED TO PARSE` and some
word without `=` is not preceded by a word with a non-empty key before `=` (more exactly: no word with `=` comes before
it, or the last such word begins with `=`). -/
theorem C14_error_iff (ws : List Str) (data : Str) (h : Spaced ws data) :
    generateDataDict data = none ↔
      ¬ (cs!"FAILED TO PARSE" <:+: data) ∧
      ∃ pre w post, ws = pre ++ w :: post ∧ '=' ∉ w ∧
        ((∀ u ∈ pre, '=' ∉ u) ∨ ∃ a u b, pre = a ++ u :: b ∧ u.head? = some '=' ∧ ∀ x ∈ b, '=' ∉ x) := by
  unfold generateDataDict
  rw [split_spaced h]
  by_cases hf : cs!"FAILED TO PARSE" <:+: data
  · rw [(contains_iff _ _).mpr hf]
    simp only [Option.map_eq_none_iff, hf, not_true_eq_false, false_and, iff_false]
    exact dataLoop_failed ws _
  · have : Py.contains cs!"FAILED TO PARSE" data = false := by
      cases hc : Py.contains cs!"FAILED TO PARSE" data with
      | false => rfl
      | true => exact absurd ((contains_iff _ _).mp hc) hf
    rw [this]
    simp only [Option.map_eq_none_iff, hf, not_false_eq_true, true_and, dataLoop_none_iff, lastKey_falsy]
    constructor
    · rintro ⟨pre, w, post, e, hw, h⟩
      exact ⟨pre, w, post, e, hw, h.imp (fun h => h.1) id⟩
    · rintro ⟨pre, w, post, e, hw, h⟩
      exact ⟨pre, w, post, e, hw, h.imp (fun h => ⟨h, .inl rfl⟩) id⟩

/-- **C14.** In particular a payload whose words with `=` all have a key fails only on a leading bare word. -/
theorem C14_leading_word (w : Str) (ws : List Str) (data : Str) (h : Spaced (w :: ws) data)
    (hk : ∀ u ∈ w :: ws, u.head? ≠ some '=') :
    generateDataDict data = none ↔ ¬ (cs!"FAILED TO PARSE" <:+: data) ∧ '=' ∉ w := by
  rw [C14_error_iff _ _ h]
  constructor
  · rintro ⟨hf, pre, w', post, e, hw, hp⟩
    refine ⟨hf, ?_⟩
    rcases hp with hp | ⟨a, u, b, rfl, hu, _⟩
    · cases pre with
      | nil => simp at e; rw [e.1]; exact hw
      | cons p pre => simp at e; rw [e.1]; exact hp p (by simp)
    · exact absurd hu (hk u (by rw [e]; simp))
  · rintro ⟨hf, hw⟩
    exact ⟨hf, [], w, ws, rfl, hw, .inl (by simp)⟩

/-- Both sides of C14 occur. -/
example : Spaced [cs!"hello", cs!"a=1"] cs!"hello a=1" ∧ Spaced [cs!"a=1", cs!"=2", cs!"x"] cs!"a=1 =2 x" ∧
    generateDataDict cs!"hello a=1" = none ∧ generateDataDict cs!"a=1 =2 x" = none ∧
    generateDataDict cs!"a=1 hello" = some [(cs!"a", .int 1)] ∧
    generateDataDict cs!"[FAILED TO PARSE] a=1" = some [(cs!"a", .int 1)] :=
  ⟨spaced_join [cs!"hello", cs!"a=1"] (by decide), spaced_join [cs!"a=1", cs!"=2", cs!"x"] (by decide),
    by decide +kernel, by decide +kernel, by decide +kernel, by decide +kernel⟩

/-! ## C86 -/

/-- the columns that come from the line header -/
def headerCols : List Str := [cs!"__comm", cs!"__pid", cs!"__cpu", cs!"__line"]

theorem get_update {α : Type} (d e : Dict α) (k : Str) :
    (d.update e).get k = ((e.reverse.find? fun x => x.1 == k).map Prod.snd).or (d.get k) := by
  unfold Dict.update
  induction e generalizing d with
  | nil => simp
  | cons x e ih =>
    obtain ⟨k1, v1⟩ := x
    rw [List.foldl_cons, ih, Dict.get_set]
    simp only [List.reverse_cons, List.find?_append, List.find?_singleton]
    cases hf : List.find? (fun x => x.1 == k) e.reverse with
    | some y => simp
    | none =>
      by_cases hk : k1 = k
      · simp [hk]
      · simp [hk]

theorem get_update_of_not_mem {α : Type} (d e : Dict α) (k : Str) (h : k ∉ e.map Prod.fst) :
    (d.update e).get k = d.get k := by
  rw [get_update]
  have : e.reverse.find? (fun x => x.1 == k) = none := by
    rw [List.find?_eq_none]
    intro x hx
    simp only [beq_iff_eq]
    rintro rfl
    exact h (List.mem_map_of_mem (by simpa using hx))
  simp [this]

/-- **C86 refuted.** The payload can replace the header columns: a userspace event that prints `__pid=7` changes the
`__pid` of its row. -/
theorem C86_header_columns_refuted :
    ∃ data payload, generateDataDict data = some payload ∧
      (parsedRow cs!"task" 1 2 3 payload).get cs!"__pid" = some (.int 7) :=
  ⟨cs!"x=1 __pid=7", [(cs!"x", .int 1), (cs!"__pid", .int 7)], by decide +kernel, by decide +kernel⟩

/-- **C86, the part that holds.** If no key of the payload is a header column, the row holds the header values and, in
all other columns, the payload values.  Missing: payloads with such keys (refuted above). -/
theorem C86_header_columns_partial (comm : Str) (pid cpu line : Nat) (payload : Dict Val)
    (h : ∀ k ∈ headerCols, k ∉ payload.map Prod.fst) :
    let row := parsedRow comm pid cpu line payload
    row.get cs!"__comm" = some (.str comm) ∧ row.get cs!"__pid" = some (.int pid) ∧
    row.get cs!"__cpu" = some (.int cpu) ∧ row.get cs!"__line" = some (.int line) := by
  simp only
  unfold parsedRow
  rw [get_update_of_not_mem _ _ _ (h _ (by decide)), get_update_of_not_mem _ _ _ (h _ (by decide)),
    get_update_of_not_mem _ _ _ (h _ (by decide)), get_update_of_not_mem _ _ _ (h _ (by decide))]
  exact ⟨by simp [Dict.get], by simp [Dict.get], by simp [Dict.get], by simp [Dict.get]⟩

/-- **C86.** The payload columns of a row: with distinct keys every payload entry is found in the row, and there are no
columns besides the header's and the payload's. -/
theorem C86_payload_columns (comm : Str) (pid cpu line : Nat) (payload : Dict Val)
    (hn : (payload.map Prod.fst).Nodup) :
    (∀ k v, (k, v) ∈ payload → (parsedRow comm pid cpu line payload).get k = some v) ∧
    ∀ k v, (parsedRow comm pid cpu line payload).get k = some v → k ∈ headerCols ∨ (k, v) ∈ payload := by
  constructor
  · intro k v hkv
    unfold parsedRow
    rw [get_update]
    have : payload.reverse.find? (fun x => x.1 == k) = some (k, v) := by
      have hn' : (payload.reverse.map Prod.fst).Nodup := by
        rw [List.map_reverse]; exact List.nodup_reverse.mpr hn
      have hm : (k, v) ∈ payload.reverse := by simpa using hkv
      clear hn hkv
      generalize payload.reverse = l at hn' hm
      induction l with
      | nil => simp at hm
      | cons x l ih =>
        simp only [List.map_cons, List.nodup_cons] at hn'
        rcases List.mem_cons.mp hm with rfl | hm
        · simp
        · have : x.1 ≠ k := by
            rintro rfl; exact hn'.1 (List.mem_map.mpr ⟨_, hm, rfl⟩)
          simp only [List.find?_cons, beq_eq_false_iff_ne.mpr this]
          exact ih hn'.2 hm
    simp [this]
  · intro k v h
    unfold parsedRow at h
    rw [get_update] at h
    cases hf : payload.reverse.find? (fun x => x.1 == k) with
    | some x =>
      rw [hf] at h
      simp at h
      have h1 := List.find?_some hf
      have h2 := List.mem_of_find?_eq_some hf
      simp at h1 h2
      right
      obtain ⟨k1, v1⟩ := x
      simp at h h1; subst h; subst h1; exact h2
    | none =>
      rw [hf] at h
      left
      have : (Dict.get [(cs!"__comm", Val.str comm), (cs!"__pid", .int pid), (cs!"__cpu", .int cpu), (cs!"__line", .int line)] k).isSome := by
        simp at h; rw [h]; rfl
      rw [Dict.get_isSome] at this
      simpa [headerCols] using this

example : (∀ k ∈ headerCols, k ∉ ([(cs!"x", Val.int 1), (cs!"pid", .int 7)] : Dict Val).map Prod.fst) ∧
    (([(cs!"x", Val.int 1), (cs!"pid", .int 7)] : Dict Val).map Prod.fst).Nodup := by decide

end Trappy
