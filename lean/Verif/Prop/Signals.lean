import Verif.Model.Signals
import Verif.Lemma.Regex
import Verif.Lemma.Data
import Verif.Lemma.Array
import Verif.Prop.Pivots
import Mathlib.Data.List.Forall2
import Mathlib.Data.List.TakeWhile
/-!
# C75, C80, C100: signals, colours, forwarded arguments
-/

namespace Trappy
open Py Re

/-! ## C75: signals -/

/-- **Specification**: a signal is an event and a column, neither empty nor with a colon, with a colon between them; what follows the column begins with a colon. -/
def SignalShape (s event column tail : Str) : Prop :=
  s = event ++ ':' :: (column ++ tail) ∧ event ≠ [] ∧ ':' ∉ event ∧ column ≠ [] ∧ ':' ∉ column ∧ (tail = [] ∨ ∃ t, tail = ':' :: t)

/-- **Specification**: the text of the colour: what follows the second colon, up to the end of the line, if it is not empty -/
def colourText : Str → Option Str
  | ':' :: c :: t => if c = '\n' then none else some (c :: t.takeWhile fun x => x != '\n')
  | _ => none

theorem notColon_all {w : Str} : (∀ y ∈ w, notColon y = true) ↔ ':' ∉ w := by
  constructor
  · intro h hm
    have := h _ hm
    revert this
    decide
  · intro h y hy
    simp only [notColon, bne_iff_ne, ne_eq]
    rintro rfl
    exact h hy

theorem takeWhile_nl (t : Str) : ∃ post, t = (t.takeWhile fun x => x != '\n') ++ post ∧ ∀ y ∈ post.head?, notNl y = false := by
  refine ⟨t.dropWhile fun x => x != '\n', (List.takeWhile_append_dropWhile).symm, ?_⟩
  intro y hy
  cases h : t.dropWhile fun x => x != '\n' with
  | nil => rw [h] at hy; cases hy
  | cons z zs =>
    rw [h] at hy
    simp only [List.head?_cons, Option.mem_def, Option.some.injEq] at hy
    subst hy
    have := List.head_dropWhile_not (fun x : Char => x != '\n') (w := by rw [h]; simp) (l := t)
    simp only [h, List.head_cons] at this
    exact this

theorem colour_part (tail : Str) (ht : tail = [] ∨ ∃ t, tail = ':' :: t) (c : Caps) :
    ∃ rest, m (opt (.group 3 (.seq (lit ':') (plus notNl)))) tail c (fun s' c' => some (c', s')) =
      some ((match colourText tail with | none => c | some t => (3, ':' :: t) :: c), rest) := by
  have hnone : ∀ tail : Str, m (.group 3 (.seq (lit ':') (plus notNl))) tail c (fun s' c' => some (c', s')) = none →
      m (opt (.group 3 (.seq (lit ':') (plus notNl)))) tail c (fun s' c' => some (c', s')) = some (c, tail) := by
    intro tail h
    simp only [opt, m] at h ⊢
    rw [h]
  rcases ht with rfl | ⟨t, rfl⟩
  · exact ⟨_, hnone _ (by simp [m, lit])⟩
  · cases t with
    | nil => exact ⟨_, hnone _ (by simp [m, lit, plus])⟩
    | cons x t =>
      by_cases hx : x = '\n'
      · subst hx
        exact ⟨_, hnone _ (by simp [m, lit, plus, notNl])⟩
      · have e : colourText (':' :: x :: t) = some (x :: t.takeWhile fun x => x != '\n') := by
          simp [colourText, hx]
        rw [e]
        simp only
        obtain ⟨post, hp1, hp2⟩ := takeWhile_nl t
        refine ⟨post, ?_⟩
        have : m (.group 3 (.seq (lit ':') (plus notNl))) (':' :: x :: t) c (fun s' c' => some (c', s')) =
            some ((3, ':' :: x :: t.takeWhile fun x => x != '\n') :: c, post) := by
          simp only [m]
          rw [m_lit_cons]
          have hsplit : x :: t = (x :: t.takeWhile fun x => x != '\n') ++ post := by rw [List.cons_append, ← hp1]
          rw [hsplit]
          apply m_plus_max _ (by simp) _ hp2
          · have hl : (':' :: ((x :: t.takeWhile fun x => x != '\n') ++ post)).length - post.length = (':' :: x :: t.takeWhile fun x => x != '\n').length := by
              simp
              omega
            rw [hl]
            rw [← List.cons_append, List.take_left']
            rfl
          · intro y hy
            rcases List.mem_cons.1 hy with rfl | hy
            · simpa [notNl] using hx
            · exact List.mem_takeWhile_imp (p := fun x => x != '\n') hy
        simp only [opt]
        unfold m
        rw [this]

/-- the match of a signal -/
theorem signal_match {s event column tail : Str} (h : SignalShape s event column tail) :
    ∃ c rest, matchPrefix signalRe s = some (c, rest) ∧ c.get 1 = some event ∧ c.get 2 = some column ∧
      c.get 3 = (colourText tail).map fun t => ':' :: t := by
  obtain ⟨rfl, h1, h2, h3, h4, h5⟩ := h
  have htail : ∀ y ∈ tail.head?, notColon y = false := by
    rcases h5 with rfl | ⟨t, rfl⟩
    · intro y hy; cases hy
    · intro y hy
      simp only [List.head?_cons, Option.mem_def, Option.some.injEq] at hy
      rw [← hy]
      decide
  obtain ⟨rest, hu⟩ := colour_part tail h5 [(2, column), (1, event)]
  refine ⟨(match colourText tail with | none => [(2, column), (1, event)] | some t => (3, ':' :: t) :: [(2, column), (1, event)]), rest, ?_, ?_, ?_, ?_⟩
  · unfold matchPrefix signalRe
    simp only [m]
    apply m_plus_max event h1 (notColon_all.2 h2) (by intro y hy; simp only [List.head?_cons, Option.mem_def, Option.some.injEq] at hy; rw [← hy]; decide)
    rw [m_lit_cons]
    apply m_plus_max column h3 (notColon_all.2 h4) htail
    have e1 : (event ++ ':' :: (column ++ tail)).take ((event ++ ':' :: (column ++ tail)).length - (':' :: (column ++ tail)).length) = event := by
      have : (event ++ ':' :: (column ++ tail)).length - (':' :: (column ++ tail)).length = event.length := by
        rw [List.length_append]
        omega
      rw [this, List.take_left]
    have e2 : (column ++ tail).take ((column ++ tail).length - tail.length) = column := by
      have : (column ++ tail).length - tail.length = column.length := by
        rw [List.length_append]
        omega
      rw [this, List.take_left]
    rw [e1, e2]
    exact hu
  · split <;> rfl
  · split <;> rfl
  · split
    next h => rw [h]; rfl
    next t h => rw [h]; rfl

/-- If there is a match the signal has the shape. -/
theorem signal_shape {s : Str} {r : Caps × Str} (h : matchPrefix signalRe s = some r) : ∃ event column tail, SignalShape s event column tail := by
  obtain ⟨pre, post, _, e, hm, _⟩ := m_sound signalRe h
  obtain ⟨u, v, rfl, h1, h2⟩ := matches_seq hm
  obtain ⟨w, x, rfl, h3, h4⟩ := matches_seq h2
  obtain ⟨y, z, rfl, h5, _⟩ := matches_seq h4
  obtain ⟨e1, e2⟩ := matches_plus (matches_group h1)
  obtain ⟨e3, e4⟩ := matches_plus (matches_group h5)
  rw [matches_lit h3] at e
  subst e
  have hy : ∀ l : Str, y ++ l = (y ++ l.takeWhile notColon) ++ l.dropWhile notColon := by
    intro l
    rw [List.append_assoc, List.takeWhile_append_dropWhile]
  refine ⟨u, y ++ (z ++ post).takeWhile notColon, (z ++ post).dropWhile notColon, ?_, e1, notColon_all.1 e2, by simp [e3], ?_, ?_⟩
  · rw [← hy]
    simp
  · rw [List.mem_append]
    rintro (h | h)
    · exact notColon_all.1 e4 h
    · have := List.mem_takeWhile_imp h
      revert this
      decide
  · cases hd : (z ++ post).dropWhile notColon with
    | nil => exact Or.inl rfl
    | cons a b =>
      right
      have := List.head_dropWhile_not notColon (w := by rw [hd]; simp) (l := z ++ post)
      simp only [hd, List.head_cons, notColon, bne_eq_false_iff_eq] at this
      exact ⟨b, by rw [this]⟩

/-- **Specification**: an integer in a colour: hexadecimal if it begins with `0x`, else decimal; blanks around it are allowed by `int` -/
def ColourLit (w : Str) (i : Int) : Prop :=
  (cs!"0x" <+: w ∧ SignedLit 16 (strip w) i) ∨ (¬ cs!"0x" <+: w ∧ SignedLit 10 (strip w) i)

theorem colourInt_iff (w : Str) (i : Int) : colourInt w = some i ↔ ColourLit w i := by
  unfold colourInt ColourLit startsWith
  by_cases h : cs!"0x" <+: w
  · rw [if_pos (List.isPrefixOf_iff_prefix.2 h), intB_iff]
    simp [h]
  · rw [if_neg (fun h' => h (List.isPrefixOf_iff_prefix.1 h')), intB_iff]
    simp [h]

theorem digits_no_comma {b : Nat} {s : Str} {n : Nat} (h : Digits b s n) : ',' ∉ s := by
  have hd : ∀ {c : Char} {d : Nat}, IsDigitOf b c d → c ≠ ',' := by
    intro c d h e
    subst e
    obtain ⟨_, h | h⟩ := h
    · have := List.mem_of_getElem? h
      revert this
      decide
    · have := List.mem_of_getElem? h
      revert this
      decide
  induction h with
  | one h => simpa using fun e => hd h e.symm
  | snoc _ h ih =>
    rw [List.mem_append, List.mem_singleton]
    rintro (h' | h')
    · exact ih h'
    · exact hd h h'.symm
  | under _ h ih =>
    rw [List.mem_append, List.mem_cons, List.mem_singleton]
    rintro (h' | h' | h')
    · exact ih h'
    · revert h'; decide
    · exact hd h h'.symm

theorem signedLit_no_comma {b : Nat} {s : Str} {i : Int} (h : SignedLit b s i) : ',' ∉ s := by
  have hb : ∀ {s : Str} {n : Nat}, BaseLit b s n → ',' ∉ s := by
    intro s n h
    cases h with
    | digits h => exact digits_no_comma h
    | hex _ hx h =>
      rw [List.mem_cons, List.mem_cons]
      rintro (h' | h' | h')
      · revert h'; decide
      · rcases hx with rfl | rfl <;> (revert h'; decide)
      · exact digits_no_comma h h'
    | hexUnder _ hx h =>
      rw [List.mem_cons, List.mem_cons, List.mem_cons]
      rintro (h' | h' | h' | h')
      · revert h'; decide
      · rcases hx with rfl | rfl <;> (revert h'; decide)
      · revert h'; decide
      · exact digits_no_comma h h'
  cases h with
  | plain h => exact hb h
  | plus h =>
    rw [List.mem_cons]
    rintro (h' | h')
    · revert h'; decide
    · exact hb h h'
  | minus h =>
    rw [List.mem_cons]
    rintro (h' | h')
    · revert h'; decide
    · exact hb h h'

theorem colourLit_no_comma {w : Str} {i : Int} (h : ColourLit w i) : ',' ∉ w := by
  have hs : ',' ∉ strip w := by
    rcases h with ⟨_, h⟩ | ⟨_, h⟩ <;> exact signedLit_no_comma h
  obtain ⟨a, b, e, ha, hb⟩ := strip_decomp w
  rw [e, List.mem_append, List.mem_append]
  rintro ((h' | h') | h')
  · have := ha _ h'
    revert this
    decide
  · exact hs h'
  · have := hb _ h'
    revert this
    decide

theorem colourInts_iff (ws : List Str) (is : List Int) : colourInts ws = some is ↔ List.Forall₂ ColourLit ws is := by
  induction ws generalizing is with
  | nil =>
    constructor
    · intro h; cases h; exact .nil
    · intro h; cases h; rfl
  | cons w ws ih =>
    unfold colourInts
    constructor
    · intro h
      cases hw : colourInt w with
      | none => rw [hw] at h; cases h
      | some i =>
        rw [hw] at h
        simp only [Option.map_eq_some_iff] at h
        obtain ⟨r, h1, rfl⟩ := h
        exact .cons ((colourInt_iff _ _).1 hw) ((ih r).1 h1)
    · intro h
      cases h with
      | cons h1 h2 =>
        rw [(colourInt_iff _ _).2 h1]
        simp only
        rw [(ih _).2 h2]
        rfl

theorem splitComma2_join (t : Str) : joinC ',' (splitComma2 t) = t ∧ splitComma2 t ≠ [] ∧ (splitComma2 t).length ≤ 3 := by
  unfold splitComma2
  cases h : split1 ',' t with
  | none => simp [joinC]
  | some p =>
    obtain ⟨a, b⟩ := p
    obtain ⟨e1, _⟩ := split1_some h
    simp only
    cases h' : split1 ',' b with
    | none => simp [joinC, e1]
    | some q =>
      obtain ⟨c, d⟩ := q
      obtain ⟨e2, _⟩ := split1_some h'
      simp [joinC, e1, e2]

theorem splitComma2_of (ws : List Str) (hne : ws ≠ []) (hl : ws.length ≤ 3) (hc : ∀ w ∈ ws, ',' ∉ w) : splitComma2 (joinC ',' ws) = ws := by
  match ws with
  | [] => exact absurd rfl hne
  | [a] =>
    unfold splitComma2
    rw [joinC, split1_eq_none.2 (hc a (by simp))]
  | [a, b] =>
    unfold splitComma2
    rw [joinC, split1_append (hc a (by simp))]
    · simp only
      rw [joinC, split1_eq_none.2 (hc b (by simp))]
    · simp
  | [a, b, c] =>
    unfold splitComma2
    rw [joinC, split1_append (hc a (by simp))]
    · simp only
      rw [joinC, split1_append (hc b (by simp))]
      · simp [joinC]
      · simp
    · simp
  | a :: b :: c :: d :: r => simp at hl

/-- **Specification**: the colour of a text: none without a text, else one to three numbers separated by commas -/
def ColourOf (text : Option Str) (colour : Option (List Int)) : Prop :=
  match text with
  | none => colour = none
  | some t => ∃ ws is, ws ≠ [] ∧ ws.length ≤ 3 ∧ joinC ',' ws = t ∧ List.Forall₂ ColourLit ws is ∧ colour = some is

theorem signalColour_iff (text : Option Str) (colour : Option (List Int)) :
    signalColour (text.map fun t => ':' :: t) = some colour ↔ ColourOf text colour := by
  cases text with
  | none => simp [signalColour, ColourOf, eq_comm]
  | some t =>
    simp only [Option.map_some, signalColour, ColourOf, Option.map_eq_some_iff]
    obtain ⟨j1, j2, j3⟩ := splitComma2_join t
    constructor
    · rintro ⟨is, h, rfl⟩
      exact ⟨_, is, j2, j3, j1, (colourInts_iff _ _).1 h, rfl⟩
    · rintro ⟨ws, is, h1, h2, rfl, h4, rfl⟩
      refine ⟨is, ?_, rfl⟩
      rw [splitComma2_of ws h1 h2, colourInts_iff]
      · exact h4
      · intro w hw
        have : ∀ (ws : List Str) (is : List Int), List.Forall₂ ColourLit ws is → ∀ w ∈ ws, ',' ∉ w := by
          intro ws is h
          induction h with
          | nil => intro w hw; cases hw
          | cons h1 _ ih =>
            intro w hw
            rcases List.mem_cons.1 hw with rfl | hw
            · exact colourLit_no_comma h1
            · exact ih w hw
        exact this ws is h4 w hw

/-- **Specification**: `k` is the class of the event in the first trace that defines the event. -/
def FirstClass {κ : Type} (defs : List (Dict κ)) (event : Str) (k : κ) : Prop :=
  ∃ a d b, defs = a ++ d :: b ∧ d.get event = some k ∧ ∀ x ∈ a, x.get event = none

theorem firstDef_iff {κ : Type} (defs : List (Dict κ)) (event : Str) (k : κ) : firstDef defs event = some k ↔ FirstClass defs event k := by
  unfold firstDef FirstClass
  rw [List.findSome?_eq_some_iff]

/-- `_event_map` only holds what the traces define. -/
def MapOk {κ : Type} (defs : List (Dict κ)) (emap : Dict κ) : Prop := ∀ e k, emap.get e = some k → FirstClass defs e k

/-- **C75 (decoding).** A signal definition is accepted exactly if it has an event and a column, without colons and not empty, separated by a colon, followed by nothing or by a colour of up to three
numbers, and some trace has the event; it is decoded to the class of the event in the first trace that has it, the column and the colour. For all strings, traces and after any earlier signals. -/
theorem C75_decode {κ : Type} {defs : List (Dict κ)} {emap : Dict κ} (hm : MapOk defs emap) (s : Str) (k : κ) (column : Str) (colour : Option (List Int)) :
    (∃ emap', parseValue defs emap s = .ok ((k, column, colour), emap') ∧ MapOk defs emap') ↔
      ∃ event tail, SignalShape s event column tail ∧ ColourOf (colourText tail) colour ∧ FirstClass defs event k := by
  constructor
  · rintro ⟨emap', h, _⟩
    unfold parseValue at h
    cases hr : matchPrefix signalRe s with
    | none => rw [hr] at h; cases h
    | some r =>
      obtain ⟨event, col, tail, hs⟩ := signal_shape hr
      obtain ⟨c, rest, h1, h2, h3, h4⟩ := signal_match hs
      rw [h1] at h
      simp only [h2, h3, h4] at h
      cases hc : signalColour ((colourText tail).map fun t => ':' :: t) with
      | none => rw [hc] at h; simp at h
      | some co =>
        rw [hc] at h
        simp only at h
        cases he : emap.get event with
        | some k' =>
          rw [he] at h
          cases h
          exact ⟨event, tail, hs, (signalColour_iff _ _).1 hc, hm _ _ he⟩
        | none =>
          rw [he] at h
          simp only at h
          cases hf : firstDef defs event with
          | none => rw [hf] at h; cases h
          | some k' =>
            rw [hf] at h
            cases h
            exact ⟨event, tail, hs, (signalColour_iff _ _).1 hc, (firstDef_iff _ _ _).1 hf⟩
  · rintro ⟨event, tail, hs, hc, hk⟩
    obtain ⟨c, rest, h1, h2, h3, h4⟩ := signal_match hs
    have hk' := (firstDef_iff _ _ _).2 hk
    have hc' := (signalColour_iff _ _).2 hc
    unfold parseValue
    rw [h1]
    simp only [h2, h3, h4, hc']
    cases he : emap.get event with
    | some k' =>
      have := (firstDef_iff _ _ _).2 (hm _ _ he)
      rw [hk'] at this
      cases this
      exact ⟨emap, rfl, hm⟩
    | none =>
      simp only [hk']
      refine ⟨_, rfl, ?_⟩
      intro e k'' h
      rw [Dict.get_set] at h
      split at h
      next he' =>
        cases h
        rw [← he']
        exact hk
      next => exact hm _ _ h

/-- **C75 (rejection).** A string without a colon between two non-empty parts is rejected as an invalid definition. -/
theorem C75_invalid {κ : Type} (defs : List (Dict κ)) (emap : Dict κ) (s : Str) :
    parseValue defs emap s = .error .invalid ↔ ¬ ∃ event column tail, SignalShape s event column tail := by
  unfold parseValue
  cases hr : matchPrefix signalRe s with
  | none =>
    simp only [true_iff]
    rintro ⟨event, column, tail, h⟩
    obtain ⟨c, rest, h1, _⟩ := signal_match h
    rw [hr] at h1
    cases h1
  | some r =>
    obtain ⟨event, col, tail, hs⟩ := signal_shape hr
    obtain ⟨c, rest, h1, h2, h3, h4⟩ := signal_match hs
    rw [hr] at h1
    cases h1
    simp only [h2, h3]
    constructor
    · intro h
      exfalso
      cases hc : signalColour (c.get 3) with
      | none => rw [hc] at h; simp at h
      | some co =>
        rw [hc] at h
        simp only at h
        split at h
        · cases h
        · split at h <;> cases h
    · intro h
      exact absurd ⟨event, col, tail, hs⟩ h

/-- **C75 (unknown event).** A well-formed definition, with a readable colour, of an event that no trace has is rejected. -/
theorem C75_unknown {κ : Type} {defs : List (Dict κ)} {emap : Dict κ} (hm : MapOk defs emap) {s event column tail : Str} {colour : Option (List Int)}
    (hs : SignalShape s event column tail) (hc : ColourOf (colourText tail) colour) (he : ∀ d ∈ defs, d.get event = none) :
    parseValue defs emap s = .error .unknown := by
  obtain ⟨c, rest, h1, h2, h3, h4⟩ := signal_match hs
  have hf : firstDef defs event = none := by
    unfold firstDef
    rw [List.findSome?_eq_none_iff]
    exact he
  have hg : emap.get event = none := by
    cases h : emap.get event with
    | none => rfl
    | some k => rw [(firstDef_iff _ _ _).2 (hm _ _ h)] at hf; cases hf
  unfold parseValue
  rw [h1]
  simp only [h2, h3, h4, (signalColour_iff _ _).2 hc, hg, hf]

/-- **Specification**: a signal definition and what it denotes -/
def Denotes {κ : Type} (defs : List (Dict κ)) (s : Str) (r : κ × Str × Option (List Int)) : Prop :=
  ∃ event tail, SignalShape s event r.2.1 tail ∧ ColourOf (colourText tail) r.2.2 ∧ FirstClass defs event r.1

/-- **C75 (lists).** A list of signals is accepted exactly if each of them is, and gives what each of them gives alone. -/
theorem C75_list {κ : Type} (defs : List (Dict κ)) (ss : List Str) (rs : List (κ × Str × Option (List Int))) :
    describeLoop defs [] ss = .ok rs ↔ List.Forall₂ (Denotes defs) ss rs := by
  have key : ∀ (ss : List Str) (emap : Dict κ) (rs : List (κ × Str × Option (List Int))), MapOk defs emap →
      (describeLoop defs emap ss = .ok rs ↔ List.Forall₂ (Denotes defs) ss rs) := by
    intro ss
    induction ss with
    | nil =>
      intro emap rs _
      constructor
      · intro h; cases h; exact .nil
      · intro h; cases h; rfl
    | cons s ss ih =>
      intro emap rs hm
      unfold describeLoop
      constructor
      · intro h
        cases hp : parseValue defs emap s with
        | error e => rw [hp] at h; cases h
        | ok p =>
          obtain ⟨⟨k, column, colour⟩, emap'⟩ := p
          rw [hp] at h
          simp only at h
          have hok : MapOk defs emap' := by
            unfold parseValue at hp
            cases hr : matchPrefix signalRe s with
            | none => rw [hr] at hp; cases hp
            | some r =>
              obtain ⟨event, col, tail, hs⟩ := signal_shape hr
              obtain ⟨c, rest, h1, h2, h3, h4⟩ := signal_match hs
              rw [h1] at hp
              simp only [h2, h3] at hp
              cases hc : signalColour (c.get 3) with
              | none => rw [hc] at hp; simp at hp
              | some co =>
                rw [hc] at hp
                simp only at hp
                cases he : emap.get event with
                | some k' => rw [he] at hp; cases hp; exact hm
                | none =>
                  rw [he] at hp
                  simp only at hp
                  cases hf : firstDef defs event with
                  | none => rw [hf] at hp; cases hp
                  | some k' =>
                    rw [hf] at hp
                    cases hp
                    intro e k'' h'
                    rw [Dict.get_set] at h'
                    split at h'
                    next he' => cases h'; rw [← he']; exact (firstDef_iff _ _ _).1 hf
                    next => exact hm _ _ h'
          cases hl : describeLoop defs emap' ss with
          | error e => rw [hl] at h; cases h
          | ok rs' =>
            rw [hl] at h
            cases h
            exact .cons ((C75_decode hm s k column colour).1 ⟨emap', hp, hok⟩) ((ih emap' rs' hok).1 hl)
      · intro h
        cases h with
        | cons h1 h2 =>
          rename_i r rs'
          obtain ⟨k, column, colour⟩ := r
          obtain ⟨emap', hp, hok⟩ := (C75_decode hm s k column colour).2 h1
          rw [hp]
          simp only
          rw [(ih emap' _ hok).2 h2]
  exact key ss [] rs fun e k h => by cases h

/-- C75: a signal with a colour, one without; the first trace with the event counts -/
example : describeLoop [[(cs!"cpu_idle", 1)], [(cs!"cpu_idle", 2), (cs!"cpu_frequency", 3)]] [] [cs!"cpu_frequency:frequency:0xff,0x0, 12", cs!"cpu_idle:state"] =
    .ok [(3, cs!"frequency", some [255, 0, 12]), (1, cs!"state", none)] := rfl

/-- C75: errors -/
example : parseValue [[(cs!"cpu_idle", 1)]] [] cs!"cpu_idle" = .error .invalid ∧ parseValue [[(cs!"cpu_idle", 1)]] [] cs!":state" = .error .invalid ∧
    parseValue [[(cs!"cpu_idle", 1)]] [] cs!"cpu_idle:state:red" = .error .colour ∧ parseValue [[(cs!"cpu_idle", 1)]] [] cs!"cpu:state" = .error .unknown := ⟨rfl, rfl, rfl, rfl⟩

/-! ## C100: colours of signals -/

theorem joinComma_eq : ∀ is : List Int, joinComma is = (cs!", ").intercalate (is.map intStr)
  | [] => rfl
  | [i] => by simp [joinComma, List.intercalate]
  | i :: j :: is => by
    rw [joinComma, joinComma_eq (j :: is)]
    · simp [List.intercalate]
    · simp

/-- **C100, partial.** If all signals have a colour, the table of colours has that of each signal, in order, scaled to 1; the interactive plot gets as many. For all signals. -/
theorem C100_colours_partial {κ : Type} {rs : List (κ × Str × List Int)} (hne : rs ≠ []) (hc : ∀ r ∈ rs, r.2.2 ≠ []) :
    signalColours (rs.map fun r => (r.1, r.2.1, some r.2.2)) = some (rs.map fun r => some r.2.2) ∧
    rgbCmap (rs.map fun r => some r.2.2) = some (rs.map fun r => (r.2.2.take 3).map fun x : Int => (x : Rat) / 255) ∧
    dygraphColours (rs.map fun r => some r.2.2) = some (rs.map fun r => cs!"rgb(" ++ (cs!", ").intercalate (r.2.2.map intStr) ++ cs!")") := by
  refine ⟨?_, ?_, ?_⟩
  · unfold signalColours
    rw [if_pos]
    · simp
    · cases rs with
      | nil => exact absurd rfl hne
      | cons r rs =>
        have := hc r List.mem_cons_self
        simp [this]
  · clear hne hc
    induction rs with
    | nil => rfl
    | cons r rs ih => simp only [List.map_cons, rgbCmap]; rw [ih]; rfl
  · clear hne hc
    induction rs with
    | nil => rfl
    | cons r rs ih => simp only [List.map_cons, dygraphColours]; rw [ih, joinComma_eq]; rfl

/-- **C100 (no colours), partial.** If no signal has a colour, the default colours are used. -/
theorem C100_none_partial {κ : Type} {rs : List (κ × Str × Option (List Int))} (hc : ∀ r ∈ rs, r.2.2 = none) : signalColours rs = none := by
  unfold signalColours
  rw [if_neg]
  rw [Bool.not_eq_true, List.any_eq_false]
  intro r hr
  rw [hc r hr]
  simp

/-- **C100, refuted.** If some signals have a colour and others have none, `TypeError` is raised by either kind of plot. For all such signals. -/
theorem C100_mixed_refuted {κ : Type} {rs : List (κ × Str × Option (List Int))} {a b : κ × Str × Option (List Int)} (ha : a ∈ rs) (hb : b ∈ rs) {l : List Int} (hl : a.2.2 = some l)
    (hne : l ≠ []) (hn : b.2.2 = none) :
    ∃ colours, signalColours rs = some colours ∧ rgbCmap colours = none ∧ dygraphColours colours = none := by
  refine ⟨rs.map fun r => r.2.2, ?_, ?_, ?_⟩
  · unfold signalColours
    rw [if_pos]
    rw [List.any_eq_true]
    exact ⟨a, ha, by simp [hl, hne]⟩
  · have : none ∈ rs.map fun r => r.2.2 := List.mem_map.2 ⟨b, hb, hn⟩
    generalize rs.map (fun r => r.2.2) = cs at this
    clear ha hb
    induction cs with
    | nil => cases this
    | cons c cs ih =>
      cases c with
      | none => rfl
      | some c =>
        have : none ∈ cs := by simpa using this
        unfold rgbCmap
        rw [ih this]
        rfl
  · have : none ∈ rs.map fun r => r.2.2 := List.mem_map.2 ⟨b, hb, hn⟩
    generalize rs.map (fun r => r.2.2) = cs at this
    clear ha hb
    induction cs with
    | nil => cases this
    | cons c cs ih =>
      cases c with
      | none => rfl
      | some c =>
        have : none ∈ cs := by simpa using this
        unfold dygraphColours
        rw [ih this]
        rfl

/-- `C100_mixed_refuted`: the signals of the example of C75 -/
example : signalColours [(3, cs!"frequency", some [255, 0, 12]), (1, cs!"state", none)] = some [some [255, 0, 12], none] ∧
    dygraphColours [some [255, 0, 12], none] = none ∧ dygraphColours [some [255, 0, 12], some [1, 2, 3]] = some [cs!"rgb(255, 0, 12)", cs!"rgb(1, 2, 3)"] := ⟨rfl, rfl, rfl⟩

/-! ## C80: forwarded arguments -/

theorem removeFirst_eq_erase (a : Str) (l : List Str) (hn : l.Nodup) : (removeFirst a l).Nodup ∧ ∀ x, x ∈ removeFirst a l ↔ x ∈ l ∧ x ≠ a := by
  induction l with
  | nil => simp [removeFirst]
  | cons y l ih =>
    rw [List.nodup_cons] at hn
    obtain ⟨h1, h2⟩ := ih hn.2
    unfold removeFirst
    split
    next h =>
      subst h
      refine ⟨hn.2, fun x => ?_⟩
      rw [List.mem_cons]
      constructor
      · intro hx
        exact ⟨Or.inr hx, fun e => hn.1 (e ▸ hx)⟩
      · rintro ⟨hx | hx, h'⟩
        · exact absurd hx h'
        · exact hx
    next h =>
      refine ⟨?_, fun x => ?_⟩
      · rw [List.nodup_cons]
        exact ⟨fun hy => hn.1 ((h2 y).1 hy).1, h1⟩
      · rw [List.mem_cons, h2, List.mem_cons]
        constructor
        · rintro (rfl | ⟨h3, h4⟩)
          · exact ⟨Or.inl rfl, h⟩
          · exact ⟨Or.inr h3, h4⟩
        · rintro ⟨rfl | h3, h4⟩
          · exact Or.inl rfl
          · exact Or.inr ⟨h3, h4⟩

/-- **Specification**: after the calls (latest last) an argument is forwarded: its last call registered it, or it was forwarded at first and no call mentions it. -/
def ForwardedAfter (l : List Str) (a : Str) : List ForwardOp → Prop
  | ops => (∃ p q, ops = p ++ .register a :: q ∧ .unregister a ∉ q) ∨ (a ∈ l ∧ .unregister a ∉ ops)

/-- **C80.** After any calls an argument is forwarded exactly if it was registered after its last removal, or is forwarded by default and was never removed; no argument is listed twice. For all
histories of calls. -/
theorem C80_forward {l : List Str} (hl : l.Nodup) (ops : List ForwardOp) :
    (forwardRun l ops).Nodup ∧ ∀ a, a ∈ forwardRun l ops ↔ ForwardedAfter l a ops := by
  induction ops generalizing l with
  | nil => exact ⟨hl, fun a => by simp [forwardRun, ForwardedAfter]⟩
  | cons op ops ih =>
    have hstep : (forwardStep l op).Nodup := by
      cases op with
      | register a =>
        simp only [forwardStep]
        split
        · exact hl
        next h =>
          rw [List.nodup_append]
          refine ⟨hl, by simp, ?_⟩
          intro x hx y hy e
          rw [List.mem_singleton] at hy
          exact h (hy ▸ e ▸ hx)
      | unregister a => exact (removeFirst_eq_erase a l hl).1
    obtain ⟨h1, h2⟩ := ih hstep
    refine ⟨h1, fun a => ?_⟩
    have : forwardRun l (op :: ops) = forwardRun (forwardStep l op) ops := rfl
    rw [this, h2]
    unfold ForwardedAfter
    constructor
    · rintro (⟨p, q, e, h3⟩ | ⟨h3, h4⟩)
      · exact Or.inl ⟨op :: p, q, by rw [e]; rfl, h3⟩
      · cases op with
        | register b =>
          simp only [forwardStep] at h3
          by_cases hab : b = a
          · subst hab
            exact Or.inl ⟨[], ops, rfl, h4⟩
          · right
            refine ⟨?_, by simpa using h4⟩
            split at h3
            · exact h3
            · rcases List.mem_append.1 h3 with h3 | h3
              · exact h3
              · exact absurd (List.mem_singleton.1 h3).symm hab
        | unregister b =>
          simp only [forwardStep] at h3
          obtain ⟨h5, h6⟩ := ((removeFirst_eq_erase b l hl).2 a).1 h3
          right
          refine ⟨h5, ?_⟩
          rw [List.mem_cons]
          rintro (h7 | h7)
          · cases h7
            exact h6 rfl
          · exact h4 h7
    · rintro (⟨p, q, e, h3⟩ | ⟨h3, h4⟩)
      · cases p with
        | nil =>
          simp only [List.nil_append, List.cons.injEq] at e
          obtain ⟨rfl, rfl⟩ := e
          right
          refine ⟨?_, h3⟩
          simp only [forwardStep]
          split
          next h => exact h
          next => simp
        | cons o p =>
          simp only [List.cons_append, List.cons.injEq] at e
          exact Or.inl ⟨p, q, e.2, h3⟩
      · right
        rw [List.mem_cons, not_or] at h4
        refine ⟨?_, h4.2⟩
        cases op with
        | register b =>
          simp only [forwardStep]
          split
          · exact h3
          · exact List.mem_append_left _ h3
        | unregister b =>
          simp only [forwardStep]
          exact ((removeFirst_eq_erase b l hl).2 a).2 ⟨h3, fun e => h4.1 (by rw [e])⟩

theorem splitArgs_spec {α : Type} (l : List Str) (kw : Dict α) (r : Dict α × Dict α) (hn : (kw.map Prod.fst).Nodup) (k : Str) :
    (splitArgs l kw r).1.get k = (if k ∈ l ∧ k ∈ kw.map Prod.fst then kw.get k else r.1.get k) ∧
    (splitArgs l kw r).2.get k = (if k ∉ l ∧ k ∈ kw.map Prod.fst then kw.get k else r.2.get k) := by
  induction kw generalizing r with
  | nil => simp [splitArgs]
  | cons e kw ih =>
    obtain ⟨k', v⟩ := e
    rw [List.map_cons, List.nodup_cons] at hn
    unfold splitArgs
    obtain ⟨h1, h2⟩ := ih (if k' ∈ l then (r.1.set k' v, r.2) else (r.1, r.2.set k' v)) hn.2
    rw [h1, h2]
    by_cases hk : k' = k
    · subst hk
      have hno : k' ∉ kw.map Prod.fst := hn.1
      by_cases hl : k' ∈ l
      · simp [hl, hno, Dict.get, Dict.get_set]
      · simp [hl, hno, Dict.get, Dict.get_set]
    · have hm : k ∈ ((k', v) :: kw).map Prod.fst ↔ k ∈ kw.map Prod.fst := by
        rw [List.map_cons, List.mem_cons]
        exact ⟨fun h => h.resolve_left fun e => hk e.symm, Or.inr⟩
      simp only [hm]
      by_cases hl : k' ∈ l
      · simp [hl, hk, Dict.get, Dict.get_set]
      · simp [hl, hk, Dict.get, Dict.get_set]

/-- **C80 (use).** A keyword argument of a plot is handed to matplotlib exactly if it is registered, with its value; the others become attributes of the plot. -/
theorem C80_args {α : Type} (l : List Str) {kw : Dict α} (hn : (kw.map Prod.fst).Nodup) (k : Str) :
    (splitArgs l kw ([], [])).1.get k = (if k ∈ l then kw.get k else none) ∧
    (splitArgs l kw ([], [])).2.get k = (if k ∈ l then none else kw.get k) := by
  obtain ⟨h1, h2⟩ := splitArgs_spec l kw ([], []) hn k
  rw [h1, h2]
  have hg : k ∉ kw.map Prod.fst → kw.get k = none := by
    intro h
    rw [← Dict.get_isSome] at h
    simpa using h
  by_cases hl : k ∈ l <;> by_cases hk : k ∈ kw.map Prod.fst
  all_goals simp [hl, hk, Dict.get, hg]

/-- **C80 (defaults).** In a program that registers and removes nothing, the arguments handed to matplotlib are the six of markers, lines and drawing styles. -/
theorem C80_defaults {α : Type} {kw : Dict α} (hn : (kw.map Prod.fst).Nodup) (k : Str) :
    (splitArgs (forwardRun defaultForward []) kw ([], [])).1.get k =
      if k ∈ [cs!"marker", cs!"markersize", cs!"markevery", cs!"linestyle", cs!"linewidth", cs!"drawstyle"] then kw.get k else none :=
  (C80_args _ hn k).1

/-- C80: registering twice, removing once -/
example : forwardRun defaultForward [.register cs!"alpha", .register cs!"alpha", .unregister cs!"marker", .unregister cs!"alpha", .register cs!"color"] =
    [cs!"markersize", cs!"markevery", cs!"linestyle", cs!"linewidth", cs!"drawstyle", cs!"color"] ∧ defaultForward.Nodup := by
  refine ⟨by decide, by decide⟩

/-- `C80_args` -/
example : splitArgs defaultForward [(cs!"marker", 1), (cs!"title", 2)] ([], []) = ([(cs!"marker", 1)], [(cs!"title", 2)]) := by decide

end Trappy
