import Verif.Model.Registry
import Verif.Lemma.Regex
import Verif.Lemma.Data
import Verif.Prop.Data
/-! Lemmas on dictionaries, the registry and attribute names. -/

namespace Trappy

variable {α : Type}

/-! ## Dictionaries -/

theorem Dict.nodup_set {d : Dict α} (h : (d.map Prod.fst).Nodup) (k : Str) (v : α) :
    ((d.set k v).map Prod.fst).Nodup := by
  induction d with
  | nil => simp [Dict.set]
  | cons x d ih =>
    obtain ⟨k', v'⟩ := x
    simp only [List.map_cons, List.nodup_cons] at h
    unfold Dict.set
    split
    · rename_i e; subst e; simpa using h
    · rename_i e
      simp only [List.map_cons, List.nodup_cons]
      refine ⟨?_, ih h.2⟩
      intro hm
      rcases (Dict.keys_set d k k' v).mp hm with h' | h'
      · exact h.1 h'
      · exact e h'

theorem Dict.nodup_update {d : Dict α} (h : (d.map Prod.fst).Nodup) (e : Dict α) :
    ((d.update e).map Prod.fst).Nodup := by
  unfold Dict.update
  induction e generalizing d with
  | nil => exact h
  | cons x e ih => exact ih (Dict.nodup_set h x.1 x.2)

theorem Dict.get_mem {d : Dict α} {k : Str} {v : α} (h : d.get k = some v) : (k, v) ∈ d := by
  induction d with
  | nil => cases h
  | cons x d ih =>
    obtain ⟨k', v'⟩ := x
    unfold Dict.get at h
    split at h
    · rename_i e; subst e; cases h; simp
    · exact List.mem_cons_of_mem _ (ih h)

theorem Dict.get_of_mem {d : Dict α} (hn : (d.map Prod.fst).Nodup) {k : Str} {v : α} (h : (k, v) ∈ d) :
    d.get k = some v := by
  induction d with
  | nil => cases h
  | cons x d ih =>
    obtain ⟨k', v'⟩ := x
    simp only [List.map_cons, List.nodup_cons] at hn
    unfold Dict.get
    rcases List.mem_cons.mp h with h | h
    · cases h; simp
    · split
      · rename_i e; subst e
        exact absurd (List.mem_map_of_mem (f := Prod.fst) h) hn.1
      · exact ih hn.2 h

theorem find_reverse_get {e : Dict α} (hn : (e.map Prod.fst).Nodup) (k : Str) :
    (e.reverse.find? fun x => x.1 == k).map Prod.snd = e.get k := by
  cases hg : e.get k with
  | none =>
    have : k ∉ e.map Prod.fst := by
      intro hk; have := (Dict.get_isSome e k).mpr hk; rw [hg] at this; cases this
    have : e.reverse.find? (fun x => x.1 == k) = none := by
      rw [List.find?_eq_none]
      intro x hx
      simp only [beq_iff_eq]
      rintro rfl
      exact this (List.mem_map_of_mem (by simpa using hx))
    rw [this]; rfl
  | some v =>
    have hm := Dict.get_mem hg
    cases hf : e.reverse.find? (fun x => x.1 == k) with
    | none =>
      rw [List.find?_eq_none] at hf
      have := hf (k, v) (by simpa using hm)
      simp at this
    | some x =>
      have h1 := List.find?_some hf
      have h2 : x ∈ e := by have := List.mem_of_find?_eq_some hf; simpa using this
      obtain ⟨k', v'⟩ := x
      simp at h1; subst h1
      have := Dict.get_of_mem hn h2
      rw [hg] at this; cases this; rfl

theorem Dict.get_update_nodup (d : Dict α) {e : Dict α} (hn : (e.map Prod.fst).Nodup) (k : Str) :
    (d.update e).get k = (e.get k).or (d.get k) := by
  rw [get_update, find_reverse_get hn]

theorem Dict.set_filter {d : Dict α} (hn : (d.map Prod.fst).Nodup) (k : Str) (v : α) (p : Str × α → Bool)
    (hp : p (k, v) = false) :
    (d.set k v).filter p = (d.filter fun e => decide (e.1 ≠ k)).filter p := by
  induction d with
  | nil => simp [Dict.set, hp]
  | cons x d ih =>
    obtain ⟨k', v'⟩ := x
    simp only [List.map_cons, List.nodup_cons] at hn
    unfold Dict.set
    split
    · rename_i e; subst e
      have : d.filter (fun e => decide (e.1 ≠ k')) = d := by
        rw [List.filter_eq_self]
        intro y hy
        simp only [decide_eq_true_eq]
        rintro e
        exact hn.1 (e ▸ List.mem_map_of_mem hy)
      simp only [List.filter_cons, hp, Bool.false_eq_true, if_false, ne_eq, not_true_eq_false, decide_false]
      simp only [ne_eq] at this
      rw [this]
    · rename_i e
      have hd : decide (((k', v') : Str × α).1 ≠ k) = true := by simpa using e
      rw [List.filter_cons_of_pos (l := d) hd]
      simp only [List.filter_cons]
      rw [ih hn.2]

theorem Dict.nodup_filter {d : Dict α} (h : (d.map Prod.fst).Nodup) (p : Str × α → Bool) :
    ((d.filter p).map Prod.fst).Nodup := h.sublist (List.filter_sublist.map _)

theorem Dict.get_filter {d : Dict α} (h : (d.map Prod.fst).Nodup) (p : Str × α → Bool) (k : Str) :
    Dict.get (d.filter p) k = (d.get k).filter fun v => p (k, v) := by
  induction d with
  | nil => rfl
  | cons x d ih =>
    obtain ⟨k', v'⟩ := x
    simp only [List.map_cons, List.nodup_cons] at h
    by_cases hk : k' = k
    · subst hk
      rw [show Dict.get ((k', v') :: d) k' = some v' by simp [Dict.get]]
      cases hp : p (k', v') with
      | true => simp [hp, Dict.get, Option.filter]
      | false =>
        simp only [List.filter_cons, hp, Bool.false_eq_true, if_false, Option.filter]
        cases hg : Dict.get (d.filter p) k' with
        | none => rfl
        | some v =>
          have := List.mem_of_mem_filter (Dict.get_mem hg)
          exact absurd (List.mem_map_of_mem (f := Prod.fst) this) h.1
    · rw [show Dict.get ((k', v') :: d) k = Dict.get d k by simp [Dict.get, hk]]
      cases hp : p (k', v') with
      | true => simp only [List.filter_cons, hp, if_true]; rw [show Dict.get ((k', v') :: d.filter p) k = Dict.get (d.filter p) k by simp [Dict.get, hk]]; exact ih h.2
      | false => simp only [List.filter_cons, hp, Bool.false_eq_true, if_false]; exact ih h.2

/-! ## Names -/

open Re Py

theorem mp_upper_none {c : Char} {s : Str} (h : isUpper c = false) :
    matchPrefix (.group 1 (plus isUpper)) (c :: s) = none := by
  simp [matchPrefix, m, plus, h]

theorem mp_upper_run {r rest : Str} (hne : r ≠ []) (hr : ∀ c ∈ r, isUpper c = true)
    (hrest : ∀ c ∈ rest.head?, isUpper c = false) :
    matchPrefix (.group 1 (plus isUpper)) (r ++ rest) = some ([(1, r)], rest) := by
  unfold matchPrefix
  rw [m.eq_8]
  apply m_plus_max r hne hr hrest
  simp

theorem subCapitals_lower {r rest : Str} (hr : ∀ c ∈ r, isUpper c = false) {n : Nat} (hn : r.length + rest.length < n) :
    ∃ n', rest.length < n' ∧ subCapitals n (r ++ rest) = r ++ subCapitals n' rest := by
  induction r generalizing n with
  | nil => exact ⟨n, by simpa using hn, rfl⟩
  | cons c r ih =>
    cases n with
    | zero => omega
    | succ n =>
      obtain ⟨n', h1, h2⟩ := ih (fun x hx => hr x (by simp [hx])) (n := n) (by simp at hn; omega)
      refine ⟨n', h1, ?_⟩
      rw [List.cons_append, subCapitals, mp_upper_none (hr c (by simp))]
      simp only
      rw [h2]; rfl

theorem subCapitals_upper {r rest : Str} (hne : r ≠ []) (hr : ∀ c ∈ r, isUpper c = true)
    (hrest : ∀ c ∈ rest.head?, isUpper c = false) {n : Nat} :
    subCapitals (n + 1) (r ++ rest) = '_' :: (r ++ subCapitals n rest) := by
  obtain ⟨c, r', rfl⟩ := List.exists_cons_of_ne_nil hne
  rw [List.cons_append, subCapitals, ← List.cons_append, mp_upper_run hne hr hrest]
  rfl

theorem upper_ne_us {c : Char} : isUpper c = true → lowerChar c ≠ '_' := by
  intro h
  unfold lowerChar
  rw [if_pos h]
  unfold isUpper at h
  simp at h
  have : ∀ n, n ≤ 90 → 65 ≤ n → Char.ofNat (n + 32) ≠ '_' := by decide
  exact this _ h.2 h.1

end Trappy
