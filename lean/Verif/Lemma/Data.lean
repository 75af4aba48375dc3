import Verif.Lemma.IntLit
import Verif.Lemma.Regex
/-! Lemmas on words, dictionaries and the payload loop. -/

namespace Trappy
open Py

theorem allC_nil (p : Char → Bool) : AllC p [] := by intro c h; cases h

/-! ## split -/

theorem splitAux_word (w : Str) (hw : ∀ c ∈ w, isSpace c = false) (cur t : Str) :
    splitAux cur (w ++ t) = splitAux (w.reverse ++ cur) t := by
  induction w generalizing cur with
  | nil => rfl
  | cons c w ih =>
    simp only [List.cons_append, splitAux, hw c (by simp), Bool.false_eq_true, if_false]
    rw [ih (fun x hx => hw x (by simp [hx]))]
    simp

theorem splitAux_lead (l t : Str) (hl : AllC isSpace l) : splitAux [] (l ++ t) = splitAux [] t := by
  induction l with
  | nil => rfl
  | cons c l ih =>
    simp only [List.cons_append, splitAux, hl c (by simp), if_true, List.isEmpty_nil]
    exact ih (fun x hx => hl x (by simp [hx]))

theorem split_spaced {ws : List Str} {t : Str} (h : Spaced ws t) : split t = ws := by
  unfold split
  induction h with
  | @nil t h =>
    have := splitAux_lead t [] h
    simp only [List.append_nil] at this
    rw [this]; rfl
  | @last lead w trail h1 hw h2 h3 =>
    rw [List.append_assoc, splitAux_lead _ _ h1, splitAux_word w h2]
    cases trail with
    | nil => simp [splitAux, hw]
    | cons c trail =>
      have hc := h3 c (by simp)
      have := splitAux_lead trail [] (fun x hx => h3 x (by simp [hx]))
      simp only [List.append_nil] at this
      simp [splitAux, hc, this, hw]
  | @cons lead w t sp ws h1 hw h2 h3 ht ih =>
    rw [List.append_assoc, splitAux_lead _ _ h1, splitAux_word w h2]
    simp only [splitAux, h3, if_true, List.append_nil, List.isEmpty_reverse, List.reverse_reverse]
    simp [hw, ih]

theorem Spaced.lead {ws : List Str} {t : Str} (h : Spaced ws t) {c : Char} (hc : isSpace c = true) :
    Spaced ws (c :: t) := by
  cases h with
  | nil h => exact .nil (by intro x hx; rcases List.mem_cons.mp hx with rfl | hx; exact hc; exact h x hx)
  | @last lead w trail h1 hw h2 h3 =>
    have : Spaced [w] ((c :: lead) ++ w ++ trail) :=
      .last (by intro x hx; rcases List.mem_cons.mp hx with rfl | hx; exact hc; exact h1 x hx) hw h2 h3
    simpa using this
  | @cons lead w t sp ws h1 hw h2 h3 ht =>
    have : Spaced (w :: ws) ((c :: lead) ++ w ++ sp :: t) :=
      .cons (by intro x hx; rcases List.mem_cons.mp hx with rfl | hx; exact hc; exact h1 x hx) hw h2 h3 ht
    simpa using this

theorem spaced_splitAux (t : Str) : ∀ cur : Str, (∀ c ∈ cur, isSpace c = false) →
    Spaced (splitAux cur t) (cur.reverse ++ t) := by
  induction t with
  | nil =>
    intro cur hcur
    unfold splitAux
    split
    · rename_i h; rw [List.isEmpty_iff] at h; subst h; exact .nil (allC_nil _)
    · rename_i h
      have hne : cur.reverse ≠ [] := by simpa using h
      have := Spaced.last (lead := []) (trail := []) (w := cur.reverse) (allC_nil _) hne
        (by intro c hc; exact hcur c (List.mem_reverse.mp hc)) (allC_nil _)
      simpa using this
  | cons c t ih =>
    intro cur hcur
    unfold splitAux
    split
    · rename_i hc
      split
      · rename_i h; rw [List.isEmpty_iff] at h; subst h
        exact (ih [] (by simp)).lead hc
      · rename_i h
        have hne : cur.reverse ≠ [] := by simpa using h
        have := Spaced.cons (lead := []) (w := cur.reverse) (sp := c) (allC_nil _) hne
          (by intro c hc; exact hcur c (List.mem_reverse.mp hc)) hc (ih [] (by simp))
        simpa using this
    · rename_i hc
      have := ih (c :: cur) (by
        intro x hx; rcases List.mem_cons.mp hx with rfl | hx
        · simpa using hc
        · exact hcur x hx)
      simpa using this

/-- Every text is the words that `split()` finds with blanks around them. -/
theorem spaced_split (t : Str) : Spaced (split t) t := spaced_splitAux t [] (by simp)

theorem Spaced.words {ws : List Str} {t : Str} (h : Spaced ws t) :
    ∀ w ∈ ws, w ≠ [] ∧ ∀ c ∈ w, isSpace c = false := by
  induction h with
  | nil h => simp
  | last h1 hw h2 h3 => intro w h; simp at h; subst h; exact ⟨hw, h2⟩
  | cons h1 hw h2 h3 ht ih =>
    intro w h
    rcases List.mem_cons.mp h with rfl | h
    · exact ⟨hw, h2⟩
    · exact ih w h

theorem spaced_join (ws : List Str) (h : ∀ w ∈ ws, w ≠ [] ∧ ∀ c ∈ w, isSpace c = false) :
    Spaced ws (joinC ' ' ws) := by
  induction ws with
  | nil => exact .nil (allC_nil _)
  | cons w ws ih =>
    have hw := h w (by simp)
    cases ws with
    | nil =>
      have := Spaced.last (lead := []) (trail := []) (w := w) (allC_nil _) hw.1 hw.2 (allC_nil _)
      simpa [joinC] using this
    | cons v vs =>
      have := Spaced.cons (lead := []) (w := w) (sp := ' ') (allC_nil _) hw.1 hw.2 (by decide)
        (ih fun x hx => h x (by simp [hx]))
      simpa [joinC] using this

/-! ## split1 -/

theorem split1_append {ch : Char} {a b : Str} (ha : ch ∉ a) : split1 ch (a ++ ch :: b) = some (a, b) := by
  induction a with
  | nil => simp [split1]
  | cons c a ih =>
    have hc : (c == ch) = false := by
      simp only [beq_eq_false_iff_ne, ne_eq]; rintro rfl; exact ha (by simp)
    simp only [List.cons_append, split1, hc, Bool.false_eq_true, if_false]
    rw [ih (by intro h; exact ha (by simp [h]))]

theorem split1_eq_none {ch : Char} {a : Str} : split1 ch a = none ↔ ch ∉ a := by
  induction a with
  | nil => simp [split1]
  | cons c a ih =>
    unfold split1
    by_cases hc : c = ch
    · subst hc; simp
    · have : (c == ch) = false := by simpa using hc
      simp only [this, Bool.false_eq_true, if_false]
      cases h : split1 ch a with
      | none => simp [ih.mp h, Ne.symm hc]
      | some x =>
        have : ch ∈ a := by
          apply Classical.byContradiction
          intro hn; rw [ih.mpr hn] at h; cases h
        simp [this]

theorem split1_some {ch : Char} {s a b : Str} (h : split1 ch s = some (a, b)) : s = a ++ ch :: b ∧ ch ∉ a := by
  induction s generalizing a b with
  | nil => simp [split1] at h
  | cons c s ih =>
    unfold split1 at h
    by_cases hc : c = ch
    · subst hc; simp at h; obtain ⟨rfl, rfl⟩ := h; simp
    · have h' : (c == ch) = false := by simpa using hc
      simp only [h', Bool.false_eq_true, if_false] at h
      cases h2 : split1 ch s with
      | none => rw [h2] at h; cases h
      | some x =>
        obtain ⟨u, v⟩ := x
        rw [h2] at h; simp at h
        obtain ⟨rfl, rfl⟩ := h
        obtain ⟨e, hn⟩ := ih h2
        refine ⟨by rw [e]; rfl, ?_⟩
        simp [hn, Ne.symm hc]

/-! ## Dictionaries -/

theorem Dict.get_append_none {α : Type} {d e : Dict α} {k : Str} (h : k ∉ d.map Prod.fst) :
    Dict.get (d ++ e) k = Dict.get e k := by
  induction d with
  | nil => rfl
  | cons x d ih =>
    obtain ⟨k', v'⟩ := x
    simp only [List.map_cons, List.mem_cons, not_or] at h
    simp only [List.cons_append, Dict.get]
    rw [if_neg (Ne.symm h.1), ih h.2]

theorem Dict.set_append_new {α : Type} {d e : Dict α} {k : Str} {v : α} (h : k ∉ d.map Prod.fst) :
    Dict.set (d ++ e) k v = d ++ Dict.set e k v := by
  induction d with
  | nil => rfl
  | cons x d ih =>
    obtain ⟨k', v'⟩ := x
    simp only [List.map_cons, List.mem_cons, not_or] at h
    simp only [List.cons_append, Dict.set]
    rw [if_neg (Ne.symm h.1), ih h.2]

theorem Dict.get_set {α : Type} (d : Dict α) (k k' : Str) (v : α) :
    Dict.get (d.set k v) k' = if k = k' then some v else Dict.get d k' := by
  induction d with
  | nil => simp [Dict.set, Dict.get]
  | cons x d ih =>
    obtain ⟨k1, v1⟩ := x
    simp only [Dict.set]
    by_cases h1 : k1 = k
    · subst h1; simp only [if_true, Dict.get]
      by_cases h2 : k1 = k'
      · simp [h2]
      · simp [h2]
    · simp only [if_neg h1, Dict.get, ih]
      by_cases h2 : k1 = k'
      · subst h2; simp [Ne.symm h1]
      · simp [h2]

theorem Dict.keys_set {α : Type} (d : Dict α) (k k' : Str) (v : α) :
    k' ∈ (d.set k v).map Prod.fst ↔ k' ∈ d.map Prod.fst ∨ k' = k := by
  induction d with
  | nil => simp [Dict.set]
  | cons x d ih =>
    obtain ⟨k1, v1⟩ := x
    simp only [Dict.set]
    by_cases h1 : k1 = k
    · subst h1; simp only [if_true, List.map_cons, List.mem_cons]
      constructor
      · rintro (h | h)
        · exact .inr h
        · exact .inl (.inr h)
      · rintro ((h | h) | h)
        · exact .inl h
        · exact .inr h
        · exact .inl h
    · simp only [if_neg h1, List.map_cons, List.mem_cons, ih]
      constructor
      · rintro (h | h | h)
        · exact .inl (.inl h)
        · exact .inl (.inr h)
        · exact .inr h
      · rintro ((h | h) | h)
        · exact .inl h
        · exact .inr (.inl h)
        · exact .inr (.inr h)

theorem Dict.get_isSome {α : Type} (d : Dict α) (k : Str) : (Dict.get d k).isSome ↔ k ∈ d.map Prod.fst := by
  induction d with
  | nil => simp [Dict.get]
  | cons x d ih =>
    obtain ⟨k1, v1⟩ := x
    simp only [Dict.get]
    by_cases h1 : k1 = k
    · subst h1; simp
    · simp [h1, ih, Ne.symm h1]

/-! ## The payload loop -/

theorem dataLoop_append (f : Bool) (a b : List Str) (s : DState) :
    dataLoop f s (a ++ b) = (dataLoop f s a).bind fun s' => dataLoop f s' b := by
  induction a generalizing s with
  | nil => rfl
  | cons w a ih =>
    simp only [List.cons_append, dataLoop]
    cases dataStep f s w with
    | none => rfl
    | some s' => exact ih s'

/-- `prev_key` is always a key of the dictionary, so `data_dict[prev_key]` never raises. -/
theorem dataStep_prev_present {f : Bool} {s s' : DState} {w : Str} (h : dataStep f s w = some s')
    (hp : ∀ k, s.prev = some k → (s.dict.get k).isSome) : ∀ k, s'.prev = some k → (s'.dict.get k).isSome := by
  unfold dataStep at h
  split at h
  · split at h
    · split at h
      · cases h; exact hp
      · cases h
    · split at h
      · cases h; exact hp
      · cases h
    · split at h
      · cases h
        intro k hk
        rw [Dict.get_set]
        split
        · rfl
        · exact hp k hk
      · cases h; exact hp
  · cases h
    intro k hk
    simp only [Option.some.injEq] at hk
    subst hk
    rw [Dict.get_set]; simp

theorem joinC_merge (c : Char) (a w : Str) (ws : List Str) :
    joinC c (a :: w :: ws) = joinC c ((a ++ c :: w) :: ws) := by
  cases ws with
  | nil => rfl
  | cons x xs => simp [joinC]

theorem loop_rest (f : Bool) (ws : List Str) (hw : ∀ w ∈ ws, '=' ∉ w) (d : Dict Val) (k : Str) (hk : k ≠ [])
    (hd : k ∉ d.map Prod.fst) (v : Str) :
    dataLoop f { dict := d ++ [(k, .str v)], prev := some k } ws =
      some { dict := d ++ [(k, .str (joinC ' ' (v :: ws)))], prev := some k } := by
  induction ws generalizing v with
  | nil => simp [dataLoop, joinC]
  | cons w ws ih =>
    cases k with
    | nil => exact absurd rfl hk
    | cons c k =>
      have h1 : dataStep f { dict := d ++ [(c :: k, .str v)], prev := some (c :: k) } w =
          some { dict := d ++ [(c :: k, .str (v ++ ' ' :: w))], prev := some (c :: k) } := by
        unfold dataStep
        rw [split1_eq_none.mpr (hw w (by simp))]
        simp [Dict.get_append_none hd, Dict.set_append_new hd, Dict.get, Dict.set]
      simp only [dataLoop, h1]
      rw [ih (fun x hx => hw x (by simp [hx])), joinC_merge]

theorem loop_rest_int (f : Bool) (ws : List Str) (hw : ∀ w ∈ ws, '=' ∉ w) (d : Dict Val) (k : Str)
    (hk : ws ≠ [] → k ≠ []) (hd : k ∉ d.map Prod.fst) (i : Int) :
    dataLoop f { dict := d ++ [(k, .int i)], prev := some k } ws =
      some { dict := d ++ [(k, .int i)], prev := some k } := by
  induction ws with
  | nil => simp [dataLoop]
  | cons w ws ih =>
    cases k with
    | nil => exact absurd rfl (hk (by simp))
    | cons c k =>
      have h1 : dataStep f { dict := d ++ [(c :: k, .int i)], prev := some (c :: k) } w =
          some { dict := d ++ [(c :: k, .int i)], prev := some (c :: k) } := by
        unfold dataStep
        rw [split1_eq_none.mpr (hw w (by simp))]
        simp [Dict.get_append_none hd, Dict.get]
      simp only [dataLoop, h1]
      exact ih (fun x hx => hw x (by simp [hx])) (by simp)

theorem strip_nospace {s : Str} (h : ∀ c ∈ s, isSpace c = false) : strip s = s := by
  have := strip_core (a := []) (b := []) (core := s) (allC_nil _) (allC_nil _)
    (fun c hc => h c (List.mem_of_mem_head? hc)) (fun c hc => h c (List.mem_of_mem_getLast? hc))
  simpa using this

theorem loop_field (f : Bool) (fl : Field) (hf : fl.WF) (d : Dict Val) (p : Option Str)
    (hd : fl.key ∉ d.map Prod.fst) (v : Val) (hv : fl.Means v) :
    dataLoop f { dict := d, prev := p } fl.words = some { dict := d ++ [(fl.key, v)], prev := some fl.key } := by
  unfold Field.words
  have h1 : dataStep f { dict := d, prev := p } (fl.key ++ '=' :: fl.first) =
      some { dict := d ++ [(fl.key, stringCastInt fl.first)], prev := some fl.key } := by
    unfold dataStep
    rw [split1_append (fun h => (hf.key _ h).1 rfl)]
    have := Dict.set_append_new (e := []) (v := stringCastInt fl.first) hd
    simp only [List.append_nil] at this
    simp [this, Dict.set]
  simp only [dataLoop, h1]
  have hs := strip_nospace hf.first
  cases hv with
  | @int i h =>
    have : stringCastInt fl.first = .int i := by
      unfold stringCastInt; rw [int0_core.mpr (by rw [hs]; exact h)]
    rw [this]
    exact loop_rest_int f fl.rest (fun w hw h => ((hf.rest w hw).2 _ h).1 rfl) d fl.key hf.keyNe hd _
  | str h =>
    have : stringCastInt fl.first = .str fl.first := by
      unfold stringCastInt
      cases hi : int0 fl.first with
      | none => rfl
      | some i => exact absurd (by rw [← hs]; exact int0_core.mp hi) (h i)
    rw [this]
    by_cases hr : fl.rest = []
    · rw [hr]; simp [dataLoop, joinC]
    · exact loop_rest f fl.rest (fun w hw h => ((hf.rest w hw).2 _ h).1 rfl) d fl.key (hf.keyNe hr) hd _

theorem loop_fields (f : Bool) (fs : List Field) (hwf : ∀ x ∈ fs, x.WF) (v : Field → Val)
    (hv : ∀ x ∈ fs, x.Means (v x)) (d : Dict Val) (p : Option Str) (hnd : (fs.map (·.key)).Nodup)
    (hd : ∀ x ∈ fs, x.key ∉ d.map Prod.fst) :
    ∃ q, dataLoop f { dict := d, prev := p } (fs.flatMap Field.words) =
      some { dict := d ++ fs.map (fun x => (x.key, v x)), prev := q } := by
  induction fs generalizing d p with
  | nil => exact ⟨p, by simp [dataLoop]⟩
  | cons x fs ih =>
    have hn := List.nodup_cons.mp (by simpa using hnd : (x.key :: fs.map (·.key)).Nodup)
    obtain ⟨q, hq⟩ := ih (fun y hy => hwf y (by simp [hy])) (fun y hy => hv y (by simp [hy]))
      (d ++ [(x.key, v x)]) (some x.key) hn.2 (by
        intro y hy
        simp only [List.map_append, List.mem_append, List.map_cons, List.map_nil, List.mem_singleton, not_or]
        refine ⟨hd y (by simp [hy]), ?_⟩
        intro he; apply hn.1; rw [← he]; exact List.mem_map_of_mem hy)
    refine ⟨q, ?_⟩
    rw [List.flatMap_cons, dataLoop_append, loop_field f x (hwf x (by simp)) d p (hd x (by simp)) _ (hv x (by simp))]
    simp only [Option.bind_some, hq, List.map_cons, List.append_assoc, List.cons_append, List.nil_append]

/-! ## Errors -/

/-- key seen last, starting from `p` -/
def lastKey (p : Option Str) : List Str → Option Str
  | [] => p
  | w :: ws => lastKey (match split1 '=' w with | none => p | some (k, _) => some k) ws

/-- no usable key: Python's `not prev_key` -/
def Falsy (p : Option Str) : Prop := p = none ∨ p = some []

theorem dataStep_bare {s : DState} {w : Str} (h : '=' ∉ w) :
    (dataStep false s w = none ↔ Falsy s.prev) ∧ ∀ s', dataStep false s w = some s' → s'.prev = s.prev := by
  unfold dataStep
  rw [split1_eq_none.mpr h]
  unfold Falsy
  rcases hp : s.prev with _ | ⟨_ | ⟨k, ks⟩⟩
  · simp
  · simp
  · simp only
    constructor
    · constructor
      · intro h; split at h <;> cases h
      · rintro (h | h) <;> cases h
    · intro s' h'
      split at h'
      · cases h'; rfl
      · cases h'; exact hp

theorem dataLoop_none_iff (ws : List Str) (s : DState) :
    dataLoop false s ws = none ↔ ∃ pre w post, ws = pre ++ w :: post ∧ '=' ∉ w ∧ Falsy (lastKey s.prev pre) := by
  induction ws generalizing s with
  | nil => simp [dataLoop]
  | cons w ws ih =>
    by_cases hw : '=' ∈ w
    · cases hsp : split1 '=' w with
      | none => exact absurd hw (split1_eq_none.mp hsp)
      | some kv =>
        obtain ⟨k, v⟩ := kv
        have h1 : dataStep false s w = some { dict := s.dict.set k (stringCastInt v), prev := some k } := by
          simp [dataStep, hsp]
        simp only [dataLoop, h1, ih]
        constructor
        · rintro ⟨pre, u, post, rfl, hu, hf⟩
          exact ⟨w :: pre, u, post, rfl, hu, by simpa [lastKey, hsp] using hf⟩
        · rintro ⟨pre, u, post, e, hu, hf⟩
          cases pre with
          | nil => simp at e; exact absurd (e.1 ▸ hw) hu
          | cons x pre =>
            simp at e
            obtain ⟨rfl, rfl⟩ := e
            exact ⟨pre, u, post, rfl, hu, by simpa [lastKey, hsp] using hf⟩
    · have hb := dataStep_bare (s := s) hw
      have hsp := split1_eq_none.mpr hw
      cases h1 : dataStep false s w with
      | none =>
        simp only [dataLoop, h1, true_iff]
        exact ⟨[], w, ws, rfl, hw, hb.1.mp h1⟩
      | some s' =>
        have hp := hb.2 s' h1
        simp only [dataLoop, h1, ih]
        constructor
        · rintro ⟨pre, u, post, rfl, hu, hf⟩
          exact ⟨w :: pre, u, post, rfl, hu, by rw [hp] at hf; simpa [lastKey, hsp] using hf⟩
        · rintro ⟨pre, u, post, e, hu, hf⟩
          cases pre with
          | nil =>
            have : Falsy s.prev := hf
            rw [hb.1.mpr this] at h1; cases h1
          | cons x pre =>
            simp at e
            obtain ⟨rfl, rfl⟩ := e
            exact ⟨pre, u, post, rfl, hu, by rw [hp]; simpa [lastKey, hsp] using hf⟩

theorem dataLoop_failed (ws : List Str) (s : DState) : dataLoop true s ws ≠ none := by
  induction ws generalizing s with
  | nil => simp [dataLoop]
  | cons w ws ih =>
    unfold dataLoop
    have : dataStep true s w ≠ none := by
      unfold dataStep
      split
      · split
        · simp
        · simp
        · split <;> simp
      · simp
    cases h : dataStep true s w with
    | none => exact absurd h this
    | some s' => exact ih s'

theorem lastKey_falsy (p : Option Str) (ws : List Str) :
    Falsy (lastKey p ws) ↔ ((∀ u ∈ ws, '=' ∉ u) ∧ Falsy p) ∨
      ∃ a u b, ws = a ++ u :: b ∧ u.head? = some '=' ∧ ∀ x ∈ b, '=' ∉ x := by
  induction ws generalizing p with
  | nil => simp [lastKey]
  | cons w ws ih =>
    simp only [lastKey, ih]
    constructor
    · rintro (⟨h1, h2⟩ | ⟨a, u, b, rfl, h⟩)
      · cases hs : split1 '=' w with
        | none =>
          rw [hs] at h2
          left
          refine ⟨?_, h2⟩
          intro u hu
          rcases List.mem_cons.mp hu with rfl | hu
          · exact split1_eq_none.mp hs
          · exact h1 u hu
        | some kv =>
          obtain ⟨k, v⟩ := kv
          rw [hs] at h2
          right
          rcases h2 with h2 | h2
          · cases h2
          · simp at h2; subst h2
            have := (split1_some hs).1
            exact ⟨[], w, ws, rfl, by rw [this]; rfl, h1⟩
      · exact .inr ⟨w :: a, u, b, rfl, h⟩
    · rintro (⟨h1, h2⟩ | ⟨a, u, b, e, h, h'⟩)
      · left
        rw [split1_eq_none.mpr (h1 w (by simp))]
        exact ⟨fun u hu => h1 u (by simp [hu]), h2⟩
      · cases a with
        | nil =>
          simp at e
          obtain ⟨rfl, rfl⟩ := e
          left
          refine ⟨h', ?_⟩
          cases w with
          | nil => simp at h
          | cons c w =>
            simp at h; subst h
            simp [split1, Falsy]
        | cons x a =>
          simp at e
          obtain ⟨rfl, rfl⟩ := e
          exact .inr ⟨a, u, b, rfl, h, h'⟩

end Trappy
