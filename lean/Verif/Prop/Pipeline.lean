import Verif.Spec.Pipeline
import Verif.Lemma.Regex2
import Verif.Prop.Builtin
import Verif.Prop.Array
import Verif.Prop.Window
import Verif.Lemma.Power
/-!
# C121: a printed trace is read back exactly
-/

namespace Trappy
open Py F64 PrintedLine

theorem specialFieldsRe_simple : specialFieldsRe.Simple := by
  repeat constructor

theorem parseLine_isSome (s : Str) : (parseLine s).isSome = (Re.matchPrefix specialFieldsRe s).isSome := by
  have := hasntStarted_iff s
  unfold hasntStarted at this
  cases h1 : parseLine s <;> cases h2 : Re.matchPrefix specialFieldsRe s <;> simp [h1, h2] at this ⊢

/-- a line stays an event if something is put behind it -/
theorem parseLine_append {s : Str} (t : Str) (h : (parseLine s).isSome) : (parseLine (s ++ t)).isSome := by
  rw [parseLine_isSome, Re.matchPrefix_isSome specialFieldsRe_simple] at h ⊢
  obtain ⟨x, y, rfl, hm⟩ := h
  exact ⟨x, y ++ t, by simp, hm⟩

theorem rstrip_append {s t : Str} (ht : AllC isSpace t) (hne : s ≠ []) (hl : ∀ c ∈ s.getLast?, isSpace c = false) :
    rstrip (s ++ t) = s := by
  unfold rstrip
  rw [List.reverse_append, List.dropWhile_append_of_pos (by intro c hc; exact ht c (List.mem_reverse.mp hc))]
  cases hr : s.reverse with
  | nil => exact absurd (List.reverse_eq_nil_iff.mp hr) hne
  | cons c r =>
    have hc : s.getLast? = some c := by
      rw [← List.head?_reverse, hr]; rfl
    rw [List.dropWhile_cons_of_neg (by simp [hl c hc]), ← hr, List.reverse_reverse]

theorem text_getLast {l : PrintedLine} (h : l.data ≠ []) : l.text.getLast? = l.data.getLast? := by
  have : l.text = (l.lead ++ (l.comm ++ ('-' :: (l.pid ++ (l.tgidText ++ (l.ws1 ++ ('[' :: (l.cpu ++ (']' ::
        (l.flagsText ++ (l.ws2 ++ (l.tsText ++ ([':', ' '] ++ (l.event ++ ':' :: l.ws3)))))))))))))) ++ l.data := by
    simp [PrintedLine.text, PrintedLine.tailText]
  rw [this, List.getLast?_append]
  cases hd : l.data.getLast? with
  | none => exact absurd (List.getLast?_eq_none_iff.mp hd) h
  | some c => rfl

/-- a payload of fields does not look like another event -/
theorem not_looksLikeEvent {fs : List Field} {data : Str} (hwf : ∀ f ∈ fs, f.WF) (hs : Spaced (fs.flatMap Field.words) data)
    (hh : ∀ c ∈ data.head?, isSpace c = false) : ¬ LooksLikeEvent data := by
  rintro ⟨w, sp, rest, e, hne, hw, hsp, _⟩
  have hsplit := split_spaced hs
  have hw' : ∀ c ∈ w ++ [':'], isSpace c = false := by
    intro c hc
    rcases List.mem_append.mp hc with hc | hc
    · by_contra hcon
      have h1 := isSpace_isWord (c := c) (by simpa using hcon)
      rw [hw c hc] at h1; cases h1
    · rw [List.mem_singleton.mp hc]; decide
  have e2 : data = (w ++ [':']) ++ sp :: rest := by rw [e]; simp
  rw [e2, split_append_space _ _ _ hsp] at hsplit
  have e3 : split (w ++ [':']) = [w ++ [':']] := by
    have := split_spaced (ws := [w ++ [':']]) (t := [] ++ (w ++ [':']) ++ []) (Spaced.last (by intro c hc; cases hc) (by simp) hw' (by intro c hc; cases hc))
    simpa using this
  rw [e3] at hsplit
  cases fs with
  | nil => simp at hsplit
  | cons f fs =>
    simp only [List.flatMap_cons, Field.words, List.cons_append, List.nil_append, List.cons.injEq] at hsplit
    have hm : '=' ∈ w ++ [':'] := by rw [hsplit.1]; simp
    rcases List.mem_append.mp hm with hm | hm
    · have := hw _ hm; revert this; decide
    · simp at hm

namespace TraceEvent

/-- the header fields of the event -/
def parsedFields (e : TraceEvent) : Fields :=
  { comm := e.line.comm, pid := e.pid, cpu := e.cpu, ts := e.line.tsText, us := e.line.frac.map ('.' :: ·), data := e.line.data }

theorem digits_no_dot {s : Str} {n : Nat} (h : IsDecimal s n) : '.' ∉ s := by
  obtain ⟨z, rfl⟩ := h
  intro hm
  rcases List.mem_append.mp hm with hm | hm
  · have := (List.mem_replicate.mp hm).2
    revert this; decide
  · have := Nat.isDigit_of_mem_toDigits (by omega) (by omega) hm
    simp [Char.isDigit] at this

theorem tsValue_stamp {e : TraceEvent} (h : Stamp e.line e.time) : tsValue e.parsedFields = e.time := by
  unfold Stamp at h
  unfold tsValue floatOfText parsedFields
  cases hf : e.line.frac with
  | none =>
    simp only [hf] at h
    obtain ⟨n, x, h1, h2, h3, h4⟩ := h
    simp only [tsText, hf, Option.map_none]
    rw [split1_none (digits_no_dot h1), natVal_decimal h1]
    have hlt : ofRat n 1 < inf := ofRat_lt_inf (by omega) (by simpa using h2)
    have hx : ofRat n 1 = x := by
      have := ofRat_nearestEven (p := n) (q := 1) (by omega) hlt
      simp only [Nat.cast_one, div_one] at this
      exact NearestEven.unique this h3
    simp only [hx]
    rw [hx] at hlt
    exact NearestEven.unique (divE9_nearestEven hlt) h4
  | some F =>
    simp only [hf] at h
    obtain ⟨s, n, h1, h2, h3, h4⟩ := h
    simp only [tsText, hf, Option.map_some]
    rw [split1_dot (digits_no_dot h1)]
    simp only
    have hv : natVal (e.line.secs ++ F) = s * 10 ^ F.length + n := by
      have a1 := natVal_decimal h1
      have a2 := natVal_decimal h2
      rw [natVal_eq] at a1 a2 ⊢
      rw [Nat.ofDigitChars_append, a1, Nat.ofDigitChars_eq_ofDigitChars_zero, a2]
      ring
    have hq : ((s * 10 ^ F.length + n : Nat) : ℚ) / ((10 ^ F.length : Nat) : ℚ) = s + n / 10 ^ F.length := by
      push_cast; field_simp
    rw [hv]
    have := ofRat_nearestEven (p := s * 10 ^ F.length + n) (q := 10 ^ F.length) (by positivity)
      (ofRat_lt_inf (by positivity) (by rw [hq]; exact h3))
    rw [hq] at this
    exact NearestEven.unique this h4

theorem parse_text {e : TraceEvent} (h : e.Head) :
    parseLine (rstrip e.text) = some e.parsedFields ∧ (parseLine e.text).isSome := by
  have h1 := C01_line_roundtrip e.line h.line h.bracket h.plain e.pid e.cpu h.pid h.cpu
  have h2 : rstrip e.text = e.line.text := by
    apply rstrip_append h.trail
    · intro he
      have := text_getLast h.line.dataNe
      rw [he] at this
      exact h.line.dataNe (List.getLast?_eq_none_iff.mp this.symm)
    · rw [text_getLast h.line.dataNe]; exact h.last
  refine ⟨by rw [h2, h1]; rfl, parseLine_append _ (by rw [h1]; rfl)⟩

end TraceEvent

namespace TraceItem

/-- the events are good, and the other lines do not have the form of an event -/
def Ok (good : TraceEvent → Prop) : TraceItem → Prop
  | .event e => good e
  | .other l => parseLine (rstrip l) = none

theorem events_times (d : Str → Option Nat) (is : List TraceItem) (n : Nat)
    (h : ∀ i ∈ is, i.Ok TraceEvent.Head) :
    ((eventsFrom d n (is.map text)).map fun ev => tsValue ev.fields) = times is := by
  induction is generalizing n with
  | nil => rfl
  | cons i is ih =>
    have ih := fun n => ih n fun i hi => h i (by simp [hi])
    have hi := h i (by simp)
    cases i with
    | other l =>
      simp only [List.map_cons, text, eventsFrom, (show parseLine (rstrip l) = none from hi), times]
      exact ih _
    | event e =>
      simp only [List.map_cons, text, eventsFrom, (TraceEvent.parse_text (e := e) hi).1, times, TraceEvent.tsValue_stamp (e := e) (TraceEvent.Head.time hi)]
      rw [ih]

/-- the records of parser `i` for the items -/
def recs (ev : Str) : Nat → List TraceItem → List Nat → List Rec
  | k, .other _ :: is, ts => recs ev (k + 1) is ts
  | k, .event e :: is, t :: ts =>
    if e.line.event = ev then
      { time := t, comm := e.line.comm, pid := e.pid, cpu := e.cpu, line := k, data := cleanData e.line.data } :: recs ev (k + 1) is ts
    else recs ev (k + 1) is ts
  | _, _, _ => []

theorem rowsFor_items (d : Str → Option Nat) (j : Nat) (ev : Str) (is : List TraceItem) (n : Nat) (ts : List Nat)
    (h : ∀ i ∈ is, i.Ok TraceEvent.Head)
    (hd : ∀ e, TraceItem.event e ∈ is → (d e.text = some j ↔ e.line.event = ev)) :
    rowsFor j (eventsFrom d n (is.map text)) ts = recs ev n is ts := by
  induction is generalizing n ts with
  | nil => cases ts <;> rfl
  | cons i is ih =>
    have ih := fun n ts => ih n ts (fun i hi => h i (by simp [hi])) fun e he => hd e (by simp [he])
    have hi := h i (by simp)
    cases i with
    | other l =>
      simp only [List.map_cons, text, eventsFrom, (show parseLine (rstrip l) = none from hi), recs]
      exact ih _ _
    | event e =>
      simp only [List.map_cons, text, eventsFrom, (TraceEvent.parse_text (e := e) hi).1]
      cases ts with
      | nil => rfl
      | cons t ts =>
        simp only [rowsFor, recs, hd e (by simp)]
        split
        · rw [ih]; rfl
        · exact ih _ _

/-- the lines of an event with their numbers and times -/
def picked (ev : Str) : Nat → List TraceItem → List Nat → List (TraceEvent × Nat × Nat)
  | k, .other _ :: is, ts => picked ev (k + 1) is ts
  | k, .event e :: is, t :: ts =>
    if e.line.event = ev then (e, k, t) :: picked ev (k + 1) is ts else picked ev (k + 1) is ts
  | _, _, _ => []

/-- the record of a line -/
def recOf (x : TraceEvent × Nat × Nat) : Rec :=
  { time := x.2.2, comm := x.1.line.comm, pid := x.1.pid, cpu := x.1.cpu, line := x.2.1, data := cleanData x.1.line.data }

theorem picked_spec (fs : TraceEvent → List Field) (ev : Str) (is : List TraceItem) (n : Nat) (ts : List Nat) :
    recs ev n is ts = (picked ev n is ts).map recOf ∧
    table fs ev n is ts = (picked ev n is ts).map (fun x => x.1.rowOf (fs x.1) x.2.1 x.2.2) ∧
    (ts.length = (times is).length → (picked ev n is ts).map Prod.fst = eventsOf ev is) := by
  induction is generalizing n ts with
  | nil => exact ⟨rfl, rfl, fun _ => rfl⟩
  | cons i is ih =>
    cases i with
    | other l => exact ih _ _
    | event e =>
      cases ts with
      | nil => exact ⟨rfl, rfl, fun h => by simp [times] at h⟩
      | cons t ts =>
        obtain ⟨h1, h2, h3⟩ := ih (n + 1) ts
        simp only [recs, picked, table, eventsOf, times, List.length_cons, Nat.add_right_cancel_iff]
        split
        · exact ⟨by rw [h1]; rfl, by rw [h2]; rfl, fun h => by rw [List.map_cons, h3 h]⟩
        · exact ⟨h1, h2, h3⟩

theorem MinimalTimes_length {ts out : List Nat} {p : Nat} (h : MinimalTimes p ts out) : out.length = ts.length := h.length

end TraceItem

theorem no_empty_array {data : Str} (h : ∀ c ∈ data, c ≠ '{' ∧ c ≠ '}') : cleanData data = data := by
  apply C19_no_empty_array
  rintro ⟨s, t, rfl⟩
  exact (h '{' (by simp)).1 rfl

theorem update_new {α : Type} (d e : Dict α) (hn : (e.map Prod.fst).Nodup) (hd : ∀ x ∈ e, x.1 ∉ d.map Prod.fst) :
    d.update e = d ++ e := by
  unfold Dict.update
  induction e generalizing d with
  | nil => simp
  | cons x e ih =>
    rw [List.foldl_cons, Dict.set_new _ _ _ (hd x (by simp))]
    simp only [List.map_cons, List.nodup_cons] at hn
    rw [ih _ hn.2]
    · simp
    · intro y hy
      simp only [List.map_append, List.map_cons, List.map_nil, List.mem_append, List.mem_singleton, not_or]
      refine ⟨hd y (by simp [hy]), ?_⟩
      intro he
      exact hn.1 (he ▸ List.mem_map_of_mem hy)

theorem TraceEvent.parsedRow_eq {e : TraceEvent} {fs : List Field} (h : e.Cells fs) (k t : Nat) :
    ({ time := t, cells := parsedRow e.line.comm e.pid e.cpu k (fs.map fun f => (f.key, e.value f)) } : TRow) = e.rowOf fs k t := by
  unfold parsedRow rowOf
  rw [update_new]
  · simpa [Function.comp_def] using h.keys
  · intro x hx
    obtain ⟨f, hf, rfl⟩ := List.mem_map.mp hx
    simpa using h.header f hf

theorem dataDict_of_split {fs : List Field} {val : Field → Val} {data : Str}
    (hwf : ∀ f ∈ fs, f.WF) (hkeys : (fs.map Field.key).Nodup) (hval : ∀ f ∈ fs, f.Means (val f))
    (hdata : split data = fs.flatMap Field.words) : generateDataDict data = some (fs.map fun f => (f.key, val f)) := by
  unfold generateDataDict
  rw [hdata]
  obtain ⟨q, hq⟩ := loop_fields (Py.contains cs!"FAILED TO PARSE" data) fs hwf val hval [] none hkeys (by simp)
  rw [hq]
  simp

/-- payloads whose words are those of fields become the rows of these fields -/
theorem parsedRows_picked (fs : TraceEvent → List Field) (txt : TraceEvent → Str) (xs : List (TraceEvent × Nat × Nat))
    (h : ∀ x ∈ xs, x.1.Cells (fs x.1) ∧ split (txt x.1) = (fs x.1).flatMap Field.words) :
    parsedRows (xs.map TraceItem.recOf) (xs.map fun x => txt x.1) = some (xs.map fun x => x.1.rowOf (fs x.1) x.2.1 x.2.2) := by
  induction xs with
  | nil => rfl
  | cons x xs ih =>
    have h1 := h x (by simp)
    rw [List.map_cons, List.map_cons, List.map_cons, parsedRows,
      dataDict_of_split h1.1.fields h1.1.keys h1.1.value h1.2, ih fun y hy => h y (by simp [hy])]
    simp only
    rw [← TraceEvent.parsedRow_eq h1.1]
    rfl

theorem createFrame_plain (fuel : Nat) (xs : List (TraceEvent × Nat × Nat)) (h : ∀ x ∈ xs, x.1.WF) :
    createFrame fuel (xs.map TraceItem.recOf) = .rows (xs.map fun x => x.1.rowOf x.1.fields x.2.1 x.2.2) := by
  have hdata : (xs.map TraceItem.recOf).map Rec.data = xs.map fun x => x.1.line.data := by
    rw [List.map_map]
    refine List.map_congr_left fun x hx => ?_
    exact no_empty_array (h x hx).brace
  have he : explodeTable fuel ((xs.map TraceItem.recOf).map Rec.data) = some (some ((xs.map TraceItem.recOf).map Rec.data)) := by
    rw [hdata]
    cases xs with
    | nil => rfl
    | cons x xs =>
      apply C18_no_array_first
      exact brace_free_none (fun x hx => by obtain ⟨u, v, h, _⟩ := matches_patArray hx; exact ⟨u, v, h⟩) (h x (by simp)).brace
  have hp := parsedRows_picked (fun e => e.fields) (fun e => e.line.data) xs fun x hx => ⟨(h x hx).toCells, split_spaced (h x hx).data⟩
  unfold createFrame
  rw [he]
  simp only [hdata, hp]

theorem elems_fields (name : Str) (vs : List Str) (k : Nat) :
    Arr.elems name k vs = (vs.zipIdx k).flatMap fun x => Field.words ⟨name ++ Nat.toDigits 10 x.2, x.1, []⟩ := by
  induction vs generalizing k with
  | nil => rfl
  | cons v vs ih => simp [Arr.elems, Field.words, List.zipIdx_cons, ih]

theorem MaxLens.unique {ps : List ArrPayload} {M N : Str → Nat} (hM : MaxLens ps M) (hN : MaxLens ps N) : M = N := by
  have key : ∀ {M N : Str → Nat}, MaxLens ps M → MaxLens ps N → ∀ k, M k ≤ N k := by
    intro M N hM hN k
    rcases hM.attained k with h | ⟨p, hp, x, hx, h1, h2⟩
    · omega
    · rw [← h2, ← h1]; exact hN.upper p hp x hx
  exact funext fun k => Nat.le_antisymm (key hM hN k) (key hN hM k)

theorem createFrame_arrays (fuel : Nat) (M : Str → Nat) (xs : List (TraceEvent × Nat × Nat)) (h : ∀ x ∈ xs, x.1.ArrWF ∧ x.1.Cells (x.1.allFields M))
    (hM : MaxLens (xs.map fun x => x.1.payload) M) (hfirst : ∀ x ∈ xs.head?, x.1.segs ≠ []) (hfuel : ∀ x ∈ xs, x.1.segs.length < fuel) :
    createFrame fuel (xs.map TraceItem.recOf) = .rows (xs.map fun x => x.1.rowOf (x.1.allFields M) x.2.1 x.2.2) := by
  have hdata : (xs.map TraceItem.recOf).map Rec.data = (xs.map fun x => x.1.payload).map (·.textWith Arr.text) := by
    rw [List.map_map, List.map_map]
    refine List.map_congr_left fun x hx => ?_
    show cleanData x.1.line.data = _
    rw [C19_no_empty_array _ (h x hx).1.full, Function.comp_apply, (h x hx).1.data]
  have he : explodeTable fuel ((xs.map TraceItem.recOf).map Rec.data) =
      some (some (xs.map fun x => x.1.payload.textWith fun a => a.exploded (M a.name))) := by
    rw [hdata]
    cases xs with
    | nil => rfl
    | cons x xs =>
      obtain ⟨N, hN, e⟩ := C16_equal_columns x.1.payload (xs.map fun x => x.1.payload)
        (by
          intro q hq
          rw [← List.map_cons (f := fun x : TraceEvent × Nat × Nat => x.1.payload)] at hq
          obtain ⟨y, hy, rfl⟩ := List.mem_map.mp hq
          exact (h y hy).1.payload)
        (by
          intro q hq
          rw [← List.map_cons (f := fun x : TraceEvent × Nat × Nat => x.1.payload)] at hq
          obtain ⟨y, hy, rfl⟩ := List.mem_map.mp hq
          intro z hz
          obtain ⟨s, hs, rfl⟩ := List.mem_map.mp hz
          exact (h y hy).1.names s hs)
        (by
          have := hfirst x (by simp)
          simpa [TraceEvent.payload] using this)
        fuel
        (by
          intro q hq
          rw [← List.map_cons (f := fun x : TraceEvent × Nat × Nat => x.1.payload)] at hq
          obtain ⟨y, hy, rfl⟩ := List.mem_map.mp hq
          simpa [TraceEvent.payload] using hfuel y hy)
      rw [← List.map_cons (f := fun x : TraceEvent × Nat × Nat => x.1.payload)] at hN e
      rw [MaxLens.unique hM hN, e, List.map_map]
      rfl
  have hp := parsedRows_picked (fun e => e.allFields M) (fun e => e.payload.textWith fun a => a.exploded (M a.name)) xs (by
    intro x hx
    obtain ⟨h1, h2⟩ := h x hx
    refine ⟨h2, ?_⟩
    rw [C16_words M x.1.payload h1.payload]
    · unfold TraceEvent.payload TraceEvent.allFields
      simp only
      rw [split_spaced h1.lead, List.flatMap_append, List.flatMap_map, List.flatMap_assoc]
      congr 1
      have : ∀ ss : List Seg, (∀ s ∈ ss, Spaced (s.fields.flatMap Field.words) s.text) →
          (ss.flatMap fun s => Arr.elems s.arr.name 0 (s.arr.vals ++ List.replicate (M s.arr.name - s.arr.vals.length) ['0']) ++ split s.text) =
          ss.flatMap fun s => (TraceEvent.elemFields s.arr (M s.arr.name) ++ s.fields).flatMap Field.words := by
        intro ss
        induction ss with
        | nil => intro _; rfl
        | cons s ss ih =>
          intro hs
          rw [List.flatMap_cons, List.flatMap_cons, ih fun s hs' => hs s (by simp [hs']), split_spaced (hs s (by simp)),
            List.flatMap_append, elems_fields, TraceEvent.elemFields, List.flatMap_map]
      exact this x.1.segs h1.segs
    · intro z hz
      obtain ⟨s, hs, rfl⟩ := List.mem_map.mp hz
      refine ⟨?_, h1.vals s hs, h1.blank s hs⟩
      intro c hc
      by_contra hcon
      have a1 := isSpace_isWord (c := c) (by simpa using hcon)
      have a2 := h1.names s hs c hc
      rw [a1] at a2; cases a2)
  unfold createFrame
  rw [he]
  simp only [hp]

/-- The words of the parsers in use are not in the task name and the payload; the event is that of one of the parsers or has the word of
none in its name. -/
structure TraceEvent.Readable (ps : List ParserClass) (e : TraceEvent) : Prop where
  comm : ∀ p ∈ ps, ¬ p.word <:+: e.line.comm
  data : ∀ p ∈ ps, ¬ p.word <:+: e.line.data
  event : (∃ p ∈ ps, e.line.event = p.event) ∨ ∀ p ∈ ps, ¬ p.word <:+: e.line.event ++ [':']

theorem TraceEvent.dispatched {ps : List ParserClass} (hps : ∀ p ∈ ps, p ∈ builtins) (hnd : ps.Nodup) {e : TraceEvent} (h : e.Head)
    (hr : e.Readable ps) {i : Nat} {p : ParserClass} (hi : ps[i]? = some p) :
    getTraceClass e.text (ps.map ParserClass.toCls) = some i ↔ e.line.event = p.event := by
  have hp := List.mem_of_getElem? hi
  have uniq : ∀ {j : Nat}, ps[j]? = some p → j = i := by
    intro j hj
    have hil := (List.getElem?_eq_some_iff.mp hi).1
    exact ((hnd.getElem_inj_iff (hi := (List.getElem?_eq_some_iff.mp hj).1) (hj := hil)).mp (by
      rw [(List.getElem?_eq_some_iff.mp hj).2, (List.getElem?_eq_some_iff.mp hi).2]))
  constructor
  · intro hg
    rcases hr.event with ⟨c, hc, hev⟩ | hev
    · obtain ⟨j, h1, h2⟩ := C117_own_lines_partial e.line h.line e.trail h.trail ps hps c hc hev hr.comm hr.data
      rw [show e.line.text ++ e.trail = e.text from rfl, hg] at h1
      cases h1
      rw [h2] at hi; cases hi
      exact hev
    · have := C117_foreign_lines_partial e.line h.line e.trail h.trail ps hps hev hr.comm hr.data
      rw [show e.line.text ++ e.trail = e.text from rfl, hg] at this
      cases this
  · intro hev
    obtain ⟨j, h1, h2⟩ := C117_own_lines_partial e.line h.line e.trail h.trail ps hps p hp hev hr.comm hr.data
    rw [uniq h2] at h1
    exact h1

theorem rstrip_parse {l : Str} (h : parseLine l = none) : parseLine (rstrip l) = none := by
  cases hr : parseLine (rstrip l) with
  | none => rfl
  | some f =>
    exfalso
    have hl : l = rstrip l ++ (l.reverse.takeWhile isSpace).reverse := by
      unfold rstrip
      rw [← List.reverse_append, List.takeWhile_append_dropWhile, List.reverse_reverse]
    have := parseLine_append (l.reverse.takeWhile isSpace).reverse (s := rstrip l) (by rw [hr]; rfl)
    rw [← hl, h] at this
    cases this

/-- The file: lines that are not taken for events, then the events with other lines between them. -/
structure TraceFile (ps : List ParserClass) (header : List Str) (items : List TraceItem) : Prop where
  headerLines : ∀ l ∈ header, parseLine l = none
  start : ∀ i ∈ items.head?, ∃ e, i = .event e
  lines : ∀ i ∈ items, i.Ok fun e => e.Head ∧ e.Readable ps
  /-- no more lines and no later times than a double can tell apart -/
  times : ∀ t ∈ TraceItem.times items, val t ≤ 10 ^ 300
  length : header.length + items.length < 2 ^ 52

theorem fileEvents_items {ps : List ParserClass} {header : List Str} {items : List TraceItem}
    (h : TraceFile ps header items) :
    fileEvents (ps.map ParserClass.toCls) (header ++ items.map TraceItem.text) =
      eventsFrom (fun l => getTraceClass l (ps.map ParserClass.toCls)) 0 (items.map TraceItem.text) := by
  unfold fileEvents
  rw [dropWhile_append_all (by intro a ha; simp [h.headerLines a ha])]
  congr 1
  cases hi : items with
  | nil => rfl
  | cons i is =>
    obtain ⟨e, rfl⟩ := h.start i (by simp [hi])
    have he : e.Head ∧ e.Readable ps := h.lines (.event e) (by simp [hi])
    have := (TraceEvent.parse_text he.1).2
    rw [List.map_cons, List.dropWhile_cons_of_neg]
    rw [Option.isSome_iff_ne_none] at this
    simp [TraceItem.text, this]

theorem file_populate {ps : List ParserClass} (hps : ∀ p ∈ ps, p ∈ builtins) (hnd : ps.Nodup)
    {header : List Str} {items : List TraceItem} (h : TraceFile ps header items) :
    ∃ out, MinimalTimes 0 (TraceItem.times items) out ∧ (∀ i p, ps[i]? = some p →
      (populate (ps.map ParserClass.toCls) 0 (header ++ items.map TraceItem.text)).tables i =
        TraceItem.recs p.event 0 items out) ∧
      (populate (ps.map ParserClass.toCls) 0 (header ++ items.map TraceItem.text)).basetime = out.head?.getD 0 ∧
      (populate (ps.map ParserClass.toCls) 0 (header ++ items.map TraceItem.text)).endtime = lastTime 0 out ∧
      (populate (ps.map ParserClass.toCls) 0 (header ++ items.map TraceItem.text)).endtime < inf := by
  have hitems : ∀ i ∈ items, i.Ok TraceEvent.Head := by
    intro i hi
    have := h.lines i hi
    cases i with
    | other l => exact this
    | event e => exact this.1
  have hev := fileEvents_items h
  have hs := populate_spec (ps.map ParserClass.toCls) 0 (header ++ items.map TraceItem.text)
  have hfin := C04_no_overflow (ps.map ParserClass.toCls) (header ++ items.map TraceItem.text) (by
    intro l hl f hf
    rcases List.mem_append.mp hl with hl | hl
    · rw [rstrip_parse (h.headerLines l hl)] at hf; cases hf
    · obtain ⟨i, hi, rfl⟩ := List.mem_map.mp hl
      have ho := hitems i hi
      cases i with
      | other l =>
        rw [TraceItem.text, (show parseLine (rstrip l) = none from ho)] at hf; cases hf
      | event e =>
        have ho : e.Head := ho
        rw [TraceItem.text, (TraceEvent.parse_text ho).1] at hf
        cases hf
        rw [TraceEvent.tsValue_stamp ho.time]
        refine ⟨?_, h.times _ ?_⟩
        · have := ho.time
          unfold TraceEvent.Stamp at this
          split at this
          · obtain ⟨_, _, _, _, _, h4⟩ := this; exact h4.1
          · obtain ⟨_, _, _, _, _, h4⟩ := this; exact h4.1
        · clear * - hi
          induction items with
          | nil => cases hi
          | cons j js ih =>
            rcases List.mem_cons.mp hi with rfl | hi'
            · simp [TraceItem.times]
            · cases j <;> simp [TraceItem.times, ih hi']) (by simpa using h.length)
  rw [hev] at hs
  simp only [TraceItem.events_times _ items 0 hitems] at hs
  refine ⟨_, hs.2.2.2 hfin, ?_, by simpa using hs.2.2.1, hs.1, hfin⟩
  intro i p hi
  rw [hs.2.1 i]
  refine TraceItem.rowsFor_items _ i p.event items 0 _ hitems ?_
  intro e he
  have := h.lines _ he
  exact TraceEvent.dispatched hps hnd this.1 this.2 hi

theorem file_tables {ps : List ParserClass} (hps : ∀ p ∈ ps, p ∈ builtins) (hnd : ps.Nodup)
    {header : List Str} {items : List TraceItem} (h : TraceFile ps header items) :
    ∃ out, MinimalTimes 0 (TraceItem.times items) out ∧ ∀ i p, ps[i]? = some p →
      (populate (ps.map ParserClass.toCls) 0 (header ++ items.map TraceItem.text)).tables i =
        TraceItem.recs p.event 0 items out := by
  obtain ⟨out, h1, h2, _⟩ := file_populate hps hnd h
  exact ⟨out, h1, h2⟩

/-- **C121.** A printed trace is read back exactly: for every choice of built-in parsers in any order, the table of a parser has one
row for each line of its event and no others, in the order of the file, with the task name, pid, CPU and line number of the line and
the values of the fields of its payload; the times are the least ones that increase and do not lie before the printed ones. -/
theorem C121_read_back (ps : List ParserClass) (hps : ∀ p ∈ ps, p ∈ builtins) (hnd : ps.Nodup)
    (header : List Str) (items : List TraceItem) (h : TraceFile ps header items) :
    ∃ out, MinimalTimes 0 (TraceItem.times items) out ∧
      ∀ i p fuel, ps[i]? = some p → p.name ∉ ownParsing → (∀ e ∈ TraceItem.eventsOf p.event items, e.WF) →
        frameOf fuel ps (header ++ items.map TraceItem.text) i =
          some (.rows (TraceItem.table TraceEvent.fields p.event 0 items out)) := by
  obtain ⟨out, h1, h2⟩ := file_tables hps hnd h
  refine ⟨out, h1, ?_⟩
  intro i p fuel hi hown hwf
  obtain ⟨a1, a2, a3⟩ := TraceItem.picked_spec TraceEvent.fields p.event items 0 out
  unfold frameOf
  rw [hi]
  simp only [if_neg hown, h2 i p hi, a1, a2]
  rw [createFrame_plain]
  intro x hx
  exact hwf _ (a3 h1.length ▸ List.mem_map_of_mem hx)

/-- **C121.** Tables with arrays: if the first line of the event has an array, all arrays of one name get the same number of columns,
that of the longest one, shorter ones are filled up with zeros, and the rest is as before. `M` is the number of elements of the
longest array by name. -/
theorem C121_read_back_arrays (ps : List ParserClass) (hps : ∀ p ∈ ps, p ∈ builtins) (hnd : ps.Nodup)
    (header : List Str) (items : List TraceItem) (h : TraceFile ps header items) :
    ∃ out, MinimalTimes 0 (TraceItem.times items) out ∧
      ∀ i p fuel M, ps[i]? = some p → p.name ∉ ownParsing →
        MaxLens ((TraceItem.eventsOf p.event items).map TraceEvent.payload) M →
        (∀ e ∈ (TraceItem.eventsOf p.event items).head?, e.segs ≠ []) →
        (∀ e ∈ TraceItem.eventsOf p.event items, e.ArrWF ∧ e.Cells (e.allFields M) ∧ e.segs.length < fuel) →
        frameOf fuel ps (header ++ items.map TraceItem.text) i =
          some (.rows (TraceItem.table (fun e => e.allFields M) p.event 0 items out)) := by
  obtain ⟨out, h1, h2⟩ := file_tables hps hnd h
  refine ⟨out, h1, ?_⟩
  intro i p fuel M hi hown hM hfirst hwf
  obtain ⟨a1, a2, a3⟩ := TraceItem.picked_spec (fun e => e.allFields M) p.event items 0 out
  have a3 := a3 h1.length
  unfold frameOf
  rw [hi]
  simp only [if_neg hown, h2 i p hi, a1, a2]
  rw [← a3] at hM hfirst hwf
  rw [createFrame_arrays fuel M]
  · intro x hx
    have := hwf _ (List.mem_map_of_mem hx)
    exact ⟨this.1, this.2.1⟩
  · simpa [Function.comp_def] using hM
  · intro x hx
    exact hfirst x.1 (by rw [List.head?_map, hx]; rfl)
  · intro x hx
    exact (hwf _ (List.mem_map_of_mem hx)).2.2

theorem MinimalTimes.of_increasing {prev : Nat} {ts out : List Nat} (h : (prev :: ts).Pairwise (· < ·)) (hm : MinimalTimes prev ts out) :
    out = ts := by
  induction ts generalizing prev out with
  | nil => cases out with
    | nil => rfl
    | cons o out => cases hm
  | cons t ts ih => cases out with
    | nil => cases hm
    | cons o out =>
      obtain ⟨⟨h1, h2, h3⟩, h4⟩ := hm
      have hpt : prev < t := (List.pairwise_cons.mp h).1 t (by simp)
      have : o = t := Nat.le_antisymm (h3 t hpt (Nat.le_refl _)) h2
      subst this
      rw [ih (List.pairwise_cons.mp h).2 h4]

/-- **C121.** If the printed times increase, the rows have exactly these times. -/
theorem C121_read_back_times (ps : List ParserClass) (hps : ∀ p ∈ ps, p ∈ builtins) (hnd : ps.Nodup)
    (header : List Str) (items : List TraceItem) (h : TraceFile ps header items)
    (hinc : (0 :: TraceItem.times items).Pairwise (· < ·)) (i : Nat) (p : ParserClass) (fuel : Nat)
    (hi : ps[i]? = some p) (hown : p.name ∉ ownParsing) (hwf : ∀ e ∈ TraceItem.eventsOf p.event items, e.WF) :
    frameOf fuel ps (header ++ items.map TraceItem.text) i =
      some (.rows (TraceItem.table TraceEvent.fields p.event 0 items (TraceItem.times items))) := by
  obtain ⟨out, h1, h2⟩ := C121_read_back ps hps hnd header items h
  rw [h2 i p fuel hi hown hwf, h1.of_increasing hinc]

/-! A trace that meets the hypotheses: two events of one parser with another line between them, an event of another parser and
one without a parser. -/

def exEvent (secs : Nat) (event : Str) : TraceEvent :=
  { line := { exampleLine with secs := Nat.toDigits 10 secs, event := event, data := joinC ' ' (exFields.flatMap Field.words) }
    pid := 123, cpu := 3, time := ofRat (secs * 10 ^ 6 + 567891) (10 ^ 6), fields := exFields, value := exVals, trail := ['\n'] }

theorem exEvent_head (secs : Nat) (event : Str) (hw : (exEvent secs event).line.wfB = true)
    (hb : (secs : ℚ) + (567891 : Nat) / 10 ^ 6 ≤ val (inf - 1)) : (exEvent secs event).Head where
  line := PrintedLine.wf_of_wfB hw
  pid := ⟨2, show exampleLine.pid = List.replicate 2 '0' ++ Nat.toDigits 10 123 by decide +kernel⟩
  cpu := ⟨2, show exampleLine.cpu = List.replicate 2 '0' ++ Nat.toDigits 10 3 by decide +kernel⟩
  time := by
    have hq : ((secs * 10 ^ 6 + 567891 : Nat) : ℚ) / ((10 ^ 6 : Nat) : ℚ) = secs + (567891 : Nat) / 10 ^ 6 := by
      push_cast; field_simp; ring
    have := ofRat_nearestEven (p := secs * 10 ^ 6 + 567891) (q := 10 ^ 6) (by positivity)
      (ofRat_lt_inf (by positivity) (by rw [hq]; exact hb))
    rw [hq] at this
    exact ⟨secs, 567891, ⟨0, rfl⟩, ⟨0, by decide +kernel⟩, hb, this⟩
  trail := by intro c hc; rw [List.mem_singleton.mp hc]; decide
  last := by
    have : ((exEvent 0 []).line.data.getLast?.map fun c => isSpace c) = some false := by decide +kernel
    intro c hc
    change c ∈ (exEvent 0 []).line.data.getLast? at hc
    rw [hc] at this
    simpa using this
  bracket := PrintedLine.not_quotes (by
    show ']' ∉ (exEvent 0 []).line.data
    decide +kernel)
  plain := not_looksLikeEvent exFields_ok.1 exFields_ok.2.2.2 (PrintedLine.wf_of_wfB hw).dataHead

theorem exEvent_wf (secs : Nat) (event : Str) : (exEvent secs event).WF where
  fields := exFields_ok.1
  keys := exFields_ok.2.1
  header := by
    show ∀ f ∈ exFields, f.key ∉ [cs!"__comm", cs!"__pid", cs!"__cpu", cs!"__line"]
    decide +kernel
  value := exFields_ok.2.2.1
  data := exFields_ok.2.2.2
  brace := by
    show ∀ c ∈ (exEvent 0 []).line.data, c ≠ '{' ∧ c ≠ '}'
    decide +kernel

def exHeader : List Str := [cs!"version = 6\n", cs!"cpus=8\n"]

def exItems : List TraceItem :=
  [.event (exEvent 3 cs!"sched_wakeup"), .other cs!"CPU 2 is empty\n", .event (exEvent 4 cs!"cpu_frequency"),
   .event (exEvent 4 cs!"irq_handler_entry"), .event (exEvent 5 cs!"sched_wakeup")]

def exParsers : List ParserClass :=
  [unnamed cs!"cpu_frequency:", dynamicClass cs!"SchedWakeup" cs!"sched_wakeup:" true, unnamed cs!"sys_enter"]

theorem exEvent_readable (secs : Nat) (event : Str)
    (h : (∃ p ∈ exParsers, event = p.event) ∨ ∀ p ∈ exParsers, Py.contains p.word (event ++ [':']) = false) :
    (exEvent secs event).Readable exParsers where
  comm := by
    have : ∀ p ∈ exParsers, Py.contains p.word (exEvent 0 []).line.comm = false := by decide +kernel
    intro p hp hc
    rw [← contains_iff] at hc
    have := this p hp
    rw [show (exEvent 0 []).line.comm = (exEvent secs event).line.comm from rfl, hc] at this
    cases this
  data := by
    have : ∀ p ∈ exParsers, Py.contains p.word (exEvent 0 []).line.data = false := by decide +kernel
    intro p hp hc
    rw [← contains_iff] at hc
    have := this p hp
    rw [show (exEvent 0 []).line.data = (exEvent secs event).line.data from rfl, hc] at this
    cases this
  event := by
    rcases h with h | h
    · exact Or.inl h
    · right
      intro p hp hc
      rw [← contains_iff] at hc
      have := h p hp
      rw [show event ++ [':'] = (exEvent secs event).line.event ++ [':'] from rfl, hc] at this
      cases this

theorem exFile_ok : TraceFile exParsers exHeader exItems where
  headerLines := by decide +kernel
  start := by
    intro i hi
    cases hi
    exact ⟨_, rfl⟩
  lines := by
    intro i hi
    simp only [exItems, List.mem_cons, List.not_mem_nil, or_false] at hi
    rcases hi with rfl | rfl | rfl | rfl | rfl
    · exact ⟨exEvent_head _ _ (by decide +kernel) (by decide +kernel), exEvent_readable _ _ (Or.inl (by decide +kernel))⟩
    · show parseLine _ = none
      decide +kernel
    · exact ⟨exEvent_head _ _ (by decide +kernel) (by decide +kernel), exEvent_readable _ _ (Or.inl (by decide +kernel))⟩
    · exact ⟨exEvent_head _ _ (by decide +kernel) (by decide +kernel), exEvent_readable _ _ (Or.inr (by decide +kernel))⟩
    · exact ⟨exEvent_head _ _ (by decide +kernel) (by decide +kernel), exEvent_readable _ _ (Or.inl (by decide +kernel))⟩
  times := by decide +kernel
  length := by decide +kernel

theorem exItems_wf (ev : Str) : ∀ e ∈ TraceItem.eventsOf ev exItems, e.WF := by
  have : ∀ is : List TraceItem, (∀ i ∈ is, ∀ e, i = .event e → e.WF) → ∀ e ∈ TraceItem.eventsOf ev is, e.WF := by
    intro is
    induction is with
    | nil => intro _ e he; cases he
    | cons i is ih =>
      intro h e he
      have ih := ih fun i hi => h i (by simp [hi])
      cases i with
      | other l => exact ih e he
      | event e' =>
        simp only [TraceItem.eventsOf] at he
        split at he
        · rcases List.mem_cons.mp he with rfl | he
          · exact h _ (by simp) _ rfl
          · exact ih e he
        · exact ih e he
  apply this
  intro i hi e rfl
  simp only [exItems, List.mem_cons, List.not_mem_nil, or_false, TraceItem.event.injEq, reduceCtorEq, false_or] at hi
  rcases hi with rfl | rfl | rfl | rfl <;> exact exEvent_wf _ _

example : (∀ p ∈ exParsers, p ∈ builtins) ∧ exParsers.Nodup ∧ TraceFile exParsers exHeader exItems ∧
    (∀ e ∈ TraceItem.eventsOf cs!"sched_wakeup" exItems, e.WF) ∧
    exItems.head?.map TraceItem.text =
      some cs!"   my [9] task-42 (x)-00123 (-----) [003] d..2  3.567891: sched_wakeup:  prev_comm=my long name pid=-12 flags=a=b|c\n" := by
  refine ⟨by decide +kernel, by decide +kernel, exFile_ok, exItems_wf _, by decide +kernel⟩

/-- the two events printed at the same time are 1 ulp apart, so the parsed trace has different times -/
example : frameOf 5 exParsers (exHeader ++ exItems.map TraceItem.text) 1 = some (.rows
    [⟨(exEvent 3 []).time, [(cs!"__comm", .str cs!"my [9] task-42 (x)"), (cs!"__pid", .int 123), (cs!"__cpu", .int 3), (cs!"__line", .int 0),
      (cs!"prev_comm", .str cs!"my long name"), (cs!"pid", .int (-12)), (cs!"flags", .str cs!"a=b|c")]⟩,
     ⟨(exEvent 5 []).time, [(cs!"__comm", .str cs!"my [9] task-42 (x)"), (cs!"__pid", .int 123), (cs!"__cpu", .int 3), (cs!"__line", .int 4),
      (cs!"prev_comm", .str cs!"my long name"), (cs!"pid", .int (-12)), (cs!"flags", .str cs!"a=b|c")]⟩]) := by
  decide +kernel

example : (0 :: TraceItem.times (exItems.take 3)).Pairwise (· < ·) := by decide +kernel

/-! Two events with arrays of different lengths. -/

def exArrEvent (secs : Nat) (data : Str) (fields : List Field) (lead : Str) (segs : List Seg) : TraceEvent :=
  { line := { exampleLine with secs := Nat.toDigits 10 secs, event := cs!"thermal_power_allocator", data := data }
    pid := 123, cpu := 3, time := ofRat (secs * 10 ^ 6 + 567891) (10 ^ 6), fields := fields
    value := fun f => stringCastInt f.first, lead := lead, segs := segs, trail := ['\n'] }

def exArrEvent1 : TraceEvent :=
  exArrEvent 3 cs!"zone=0 req={1 20} max={7} t=-5" [⟨cs!"zone", cs!"0", []⟩] cs!"zone=0 "
    [⟨⟨cs!"req", [cs!"1", cs!"20"]⟩, cs!" ", []⟩, ⟨⟨cs!"max", [cs!"7"]⟩, cs!" t=-5", [⟨cs!"t", cs!"-5", []⟩]⟩]

def exArrEvent2 : TraceEvent := exArrEvent 4 cs!"req={0x9}" [] [] [⟨⟨cs!"req", [cs!"0x9"]⟩, [], []⟩]

def exArrLens (k : Str) : Nat := if k = cs!"req" then 2 else if k = cs!"max" then 1 else 0

def exArrParser : ParserClass := { name := cs!"thermal_governor", word := cs!"thermal_power_allocator:" }

theorem exArr_head (secs : Nat) (data : Str) (fields : List Field) (lead : Str) (segs : List Seg)
    (hw : (exArrEvent secs data fields lead segs).line.wfB = true)
    (hb : (secs : ℚ) + (567891 : Nat) / 10 ^ 6 ≤ val (inf - 1)) (hl : ∀ c ∈ data.getLast?, isSpace c = false)
    (hbr : ']' ∉ data) (hco : ':' ∉ data) : (exArrEvent secs data fields lead segs).Head where
  line := PrintedLine.wf_of_wfB hw
  pid := ⟨2, show exampleLine.pid = List.replicate 2 '0' ++ Nat.toDigits 10 123 by decide +kernel⟩
  cpu := ⟨2, show exampleLine.cpu = List.replicate 2 '0' ++ Nat.toDigits 10 3 by decide +kernel⟩
  time := by
    have hq : ((secs * 10 ^ 6 + 567891 : Nat) : ℚ) / ((10 ^ 6 : Nat) : ℚ) = secs + (567891 : Nat) / 10 ^ 6 := by
      push_cast; field_simp; ring
    have := ofRat_nearestEven (p := secs * 10 ^ 6 + 567891) (q := 10 ^ 6) (by positivity)
      (ofRat_lt_inf (by positivity) (by rw [hq]; exact hb))
    rw [hq] at this
    exact ⟨secs, 567891, ⟨0, rfl⟩, ⟨0, by decide +kernel⟩, hb, this⟩
  trail := by intro c hc; rw [List.mem_singleton.mp hc]; decide
  last := hl
  bracket := PrintedLine.not_quotes hbr
  plain := by
    rintro ⟨w, sp, rest, e, _⟩
    exact hco (by rw [show data = _ from e]; simp)

theorem exArr_means (f : Field) (h1 : f.rest = []) (h2 : ∀ c ∈ f.first, isSpace c = false) : f.Means (stringCastInt f.first) := by
  have := C13_cast f.first h2
  cases hc : stringCastInt f.first with
  | int i => exact .int ((this.1 i).mp hc)
  | str s =>
    have hno : ∀ i, ¬ IntLit f.first i := by
      intro i hi
      rw [(this.1 i).mpr hi] at hc; cases hc
    have hs : s = f.first := by
      have := this.2 hno
      rw [this] at hc
      exact (Val.str.inj hc).symm
    have h := Field.Means.str hno
    rw [h1] at h
    rw [hs]
    exact h

theorem exArr_cells (e : TraceEvent) (hv : e.value = fun f => stringCastInt f.first) (fs : List Field)
    (h : (fs.all fun f => f.key.all (fun c => c != '=' && !isSpace c) && f.first.all (fun c => !isSpace c) && f.rest.isEmpty &&
      !([cs!"__comm", cs!"__pid", cs!"__cpu", cs!"__line"].contains f.key)) = true) (hk : (fs.map Field.key).Nodup) : e.Cells fs := by
  have h' : ∀ f ∈ fs, (∀ c ∈ f.key, c ≠ '=' ∧ isSpace c = false) ∧ (∀ c ∈ f.first, isSpace c = false) ∧ f.rest = [] ∧
      f.key ∉ [cs!"__comm", cs!"__pid", cs!"__cpu", cs!"__line"] := by
    intro f hf
    have := List.all_eq_true.mp h f hf
    simpa [and_assoc] using this
  constructor
  · intro f hf
    obtain ⟨a, b, c, _⟩ := h' f hf
    exact ⟨a, b, by rw [c]; simp, by rw [c]; simp⟩
  · exact hk
  · exact fun f hf => (h' f hf).2.2.2
  · intro f hf
    rw [hv]
    exact exArr_means f (h' f hf).2.2.1 (h' f hf).2.1

theorem exArr1_wf : exArrEvent1.ArrWF where
  payload := ⟨⟨by decide +kernel, by decide +kernel⟩,
    by
      intro x hx
      simp only [exArrEvent1, exArrEvent, TraceEvent.payload, List.map_cons, List.map_nil, List.mem_cons, List.not_mem_nil, or_false] at hx
      rcases hx with rfl | rfl <;> exact ⟨by decide, by decide, by decide, by decide, by decide⟩,
    by decide +kernel, by decide +kernel⟩
  data := by decide +kernel
  lead := Spaced.last (lead := []) (w := cs!"zone=0") (trail := [' ']) (by decide) (by decide) (by decide) (by decide)
  segs := by
    intro s hs
    simp only [exArrEvent1, exArrEvent, List.mem_cons, List.not_mem_nil, or_false] at hs
    rcases hs with rfl | rfl
    · exact Spaced.nil (by decide)
    · exact Spaced.last (lead := [' ']) (w := cs!"t=-5") (trail := []) (by decide) (by decide) (by decide) (by decide)
  blank := by decide +kernel
  names := by decide +kernel
  vals := by decide +kernel
  full := by rw [← contains_iff]; decide +kernel

theorem exArr2_wf : exArrEvent2.ArrWF where
  payload := ⟨⟨by decide +kernel, by decide +kernel⟩,
    by
      intro x hx
      simp only [exArrEvent2, exArrEvent, TraceEvent.payload, List.map_cons, List.map_nil, List.mem_cons, List.not_mem_nil, or_false] at hx
      subst hx
      exact ⟨by decide, by decide, by decide, by decide, by decide⟩,
    by decide +kernel, by decide +kernel⟩
  data := by decide +kernel
  lead := Spaced.nil (by decide)
  segs := by
    intro s hs
    simp only [exArrEvent2, exArrEvent, List.mem_cons, List.not_mem_nil, or_false] at hs
    subst hs
    exact Spaced.nil (by decide)
  blank := by decide +kernel
  names := by decide +kernel
  vals := by decide +kernel
  full := by rw [← contains_iff]; decide +kernel

/-- the hypotheses of the theorem on arrays are met -/
example : exArrParser ∈ builtins ∧ exArrParser.name ∉ ownParsing ∧
    (∀ e ∈ [exArrEvent1, exArrEvent2], e.Head ∧ e.ArrWF ∧ e.Cells (e.allFields exArrLens) ∧ e.segs.length < 5) ∧
    MaxLens (TraceItem.eventsOf exArrParser.event [.event exArrEvent1, .event exArrEvent2] |>.map TraceEvent.payload) exArrLens ∧
    exArrEvent1.segs ≠ [] := by
  refine ⟨by decide +kernel, by decide +kernel, ?_, ?_, by decide +kernel⟩
  · intro e he
    simp only [List.mem_cons, List.not_mem_nil, or_false] at he
    rcases he with rfl | rfl
    · exact ⟨exArr_head _ _ _ _ _ (by decide +kernel) (by decide +kernel) (by decide +kernel) (by decide +kernel) (by decide +kernel),
        exArr1_wf, exArr_cells _ rfl _ (by decide +kernel) (by decide +kernel), by decide +kernel⟩
    · exact ⟨exArr_head _ _ _ _ _ (by decide +kernel) (by decide +kernel) (by decide +kernel) (by decide +kernel) (by decide +kernel),
        exArr2_wf, exArr_cells _ rfl _ (by decide +kernel) (by decide +kernel), by decide +kernel⟩
  · have e : TraceItem.eventsOf exArrParser.event [.event exArrEvent1, .event exArrEvent2] = [exArrEvent1, exArrEvent2] := by
      have h1 : exArrEvent1.line.event = exArrParser.event := by decide +kernel
      have h2 : exArrEvent2.line.event = exArrParser.event := by decide +kernel
      simp [TraceItem.eventsOf, h1, h2]
    rw [e]
    constructor
    · decide +kernel
    · intro k
      by_cases h1 : k = cs!"req"
      · right
        exact ⟨exArrEvent1.payload, by simp, (⟨cs!"req", [cs!"1", cs!"20"]⟩, cs!" "), by decide +kernel, h1.symm, by rw [h1]; decide +kernel⟩
      · by_cases h2 : k = cs!"max"
        · right
          exact ⟨exArrEvent1.payload, by simp, (⟨cs!"max", [cs!"7"]⟩, cs!" t=-5"), by decide +kernel, h2.symm, by rw [h2]; decide +kernel⟩
        · left; simp [exArrLens, h1, h2]

example : frameOf 5 [exArrParser] [exArrEvent1.text, exArrEvent2.text] 0 = some (.rows
    [⟨exArrEvent1.time, [(cs!"__comm", .str cs!"my [9] task-42 (x)"), (cs!"__pid", .int 123), (cs!"__cpu", .int 3), (cs!"__line", .int 0),
      (cs!"zone", .int 0), (cs!"req0", .int 1), (cs!"req1", .int 20), (cs!"max0", .int 7), (cs!"t", .int (-5))]⟩,
     ⟨exArrEvent2.time, [(cs!"__comm", .str cs!"my [9] task-42 (x)"), (cs!"__pid", .int 123), (cs!"__cpu", .int 3), (cs!"__line", .int 1),
      (cs!"req0", .int 9), (cs!"req1", .int 0)]⟩]) := by
  decide +kernel

theorem explodeTable_length (fuel : Nat) (data out : List Str) (h : explodeTable fuel data = some (some out)) : out.length = data.length := by
  unfold explodeTable at h
  split at h
  · cases h; rfl
  · rename_i lens hlens
    clear hlens
    induction data generalizing out with
    | nil => cases h; rfl
    | cons d ds ih =>
      rw [List.foldr_cons] at h
      split at h
      · rename_i x xs _ h2
        cases h
        simp [ih xs h2]
      · cases h
      · cases h
      · cases h

theorem parsedRows_times (rs : List Rec) (ds : List Str) (rows : List TRow) (hl : ds.length = rs.length) (h : parsedRows rs ds = some rows) :
    rows.map TRow.time = rs.map Rec.time := by
  induction rs generalizing ds rows with
  | nil => simp only [parsedRows] at h; cases h; rfl
  | cons r rs ih =>
    cases ds with
    | nil => simp at hl
    | cons d ds =>
      simp only [parsedRows] at h
      split at h
      · cases h
      · split at h
        · cases h
        · rename_i rows' hr
          cases h
          rw [List.map_cons, List.map_cons, ih ds rows' (by simpa using hl) hr]

/-- **C121.** Whatever the lines are: a table that is made has a row for each record, at its time; no row is dropped because
of its payload. -/
theorem C121_all_or_none (fuel : Nat) (rs : List Rec) (rows : List TRow) (h : createFrame fuel rs = .rows rows) :
    rows.map TRow.time = rs.map Rec.time := by
  unfold createFrame at h
  split at h
  · cases h
  · cases h
  · rename_i ds hds
    split at h
    · cases h
    · rename_i rows' hr
      cases h
      exact parsedRows_times rs ds _ (by rw [explodeTable_length fuel _ ds hds, List.length_map]) hr

/-- C121: a table is made of two records -/
example : ∃ rows, createFrame 3 [⟨5, cs!"a", 1, 0, 0, cs!"x=1"⟩, ⟨7, cs!"b", 2, 1, 3, cs!"x=2"⟩] = .rows rows ∧ rows.map TRow.time = [5, 7] :=
  ⟨_, rfl, by decide +kernel⟩

end Trappy
