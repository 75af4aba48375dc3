import Verif.Model.Regex
/-! Lemmas about the regular-expression matcher: a declarative language, soundness, and rules for computing. -/

namespace Trappy
namespace Re

/-- The texts a pattern can match, ignoring preferences and lookahead. -/
inductive Matches : Re → Str → Prop where
  | eps : Matches .eps []
  | chr {p : Char → Bool} {x : Char} (h : p x = true) : Matches (.chr p) [x]
  | seq {a b : Re} {x y : Str} (ha : Matches a x) (hb : Matches b y) : Matches (.seq a b) (x ++ y)
  | altL {a b : Re} {x : Str} (h : Matches a x) : Matches (.alt a b) x
  | altR {a b : Re} {x : Str} (h : Matches b x) : Matches (.alt a b) x
  | star {p : Char → Bool} {x : Str} (h : ∀ y ∈ x, p y = true) : Matches (.star p) x
  | manyNil {r : Re} : Matches (.many r) []
  | manyCons {r : Re} {x y : Str} (hx : Matches r x) (hy : Matches (.many r) y) : Matches (.many r) (x ++ y)
  | group {n : Nat} {r : Re} {x : Str} (h : Matches r x) : Matches (.group n r) x
  | notNext {p : Char → Bool} : Matches (.notNext p) []

theorem mStar_sound {α : Type} {p : Char → Bool} {s : Str} {c : Caps} {k : Str → Caps → Option α} {v : α}
    (h : mStar p s c k = some v) :
    ∃ pre post, s = pre ++ post ∧ (∀ y ∈ pre, p y = true) ∧ k post c = some v := by
  induction s with
  | nil => exact ⟨[], [], rfl, by simp, h⟩
  | cons x s ih =>
    unfold mStar at h
    split at h
    · rename_i hp
      cases hm : mStar p s c k with
      | some w =>
        rw [hm] at h
        obtain ⟨pre, post, h1, h2, h3⟩ := ih (by rw [hm]; exact h)
        exact ⟨x :: pre, post, by simp [h1], by simpa [hp] using h2, h3⟩
      | none =>
        rw [hm] at h
        exact ⟨[], x :: s, rfl, by simp, h⟩
    · exact ⟨[], x :: s, rfl, by simp, h⟩

/-- Numbers of the groups of a pattern. -/
def groups : Re → List Nat
  | .seq a b => groups a ++ groups b
  | .alt a b => groups a ++ groups b
  | .many r => groups r
  | .group n r => n :: groups r
  | _ => []

/-- `c'` extends `c` by captures of groups in `g`. -/
def Ext (g : List Nat) (c c' : Caps) : Prop := ∃ e : Caps, c' = e ++ c ∧ ∀ x ∈ e, x.1 ∈ g

theorem Ext.refl (g : List Nat) (c : Caps) : Ext g c c := ⟨[], rfl, by simp⟩

theorem Ext.trans {g : List Nat} {a b c : Caps} (h1 : Ext g a b) (h2 : Ext g b c) : Ext g a c := by
  obtain ⟨e1, rfl, k1⟩ := h1
  obtain ⟨e2, rfl, k2⟩ := h2
  refine ⟨e2 ++ e1, by simp, ?_⟩
  intro x hx
  rcases List.mem_append.mp hx with hx | hx
  · exact k2 x hx
  · exact k1 x hx

theorem Ext.mono {g g' : List Nat} {a b : Caps} (h : Ext g a b) (hg : ∀ n ∈ g, n ∈ g') : Ext g' a b := by
  obtain ⟨e, h1, h2⟩ := h
  exact ⟨e, h1, fun x hx => hg _ (h2 x hx)⟩

theorem mMany_sound {α : Type} {f : Str → Caps → (Str → Caps → Option α) → Option α} {P : Str → Prop}
    (g : List Nat)
    (hf : ∀ s c k v, f s c k = some v → ∃ pre post c', s = pre ++ post ∧ P pre ∧ Ext g c c' ∧ k post c' = some v)
    (M : Str → Prop) (hnil : M []) (hcons : ∀ x y, P x → M y → M (x ++ y)) (n : Nat) :
    ∀ {s : Str} {c : Caps} {k : Str → Caps → Option α} {v : α}, mMany f n s c k = some v →
    ∃ pre post c', s = pre ++ post ∧ M pre ∧ Ext g c c' ∧ k post c' = some v := by
  induction n with
  | zero => intro s c k v h; exact ⟨[], s, c, rfl, hnil, .refl _ _, h⟩
  | succ n ih =>
    intro s c k v h
    unfold mMany at h
    split at h
    · rename_i w hw
      obtain ⟨pre, post, c', h1, h2, hx, h3⟩ := hf _ _ _ _ hw
      split at h3
      · obtain ⟨pre2, post2, c2, g1, g2, hx2, g3⟩ := ih h3
        refine ⟨pre ++ pre2, post2, c2, by simp [h1, g1], hcons _ _ h2 g2, hx.trans hx2, ?_⟩
        rw [g3]; exact h
      · exact absurd h3 (by simp)
    · exact ⟨[], s, c, rfl, hnil, .refl _ _, h⟩

/-- Soundness: if the matcher succeeds, a prefix is in the language, the continuation accepted the rest, and only
groups of the pattern were captured. -/
theorem m_sound_caps {α : Type} (r : Re) : ∀ {s : Str} {c : Caps} {k : Str → Caps → Option α} {v : α},
    m r s c k = some v →
    ∃ pre post c', s = pre ++ post ∧ Matches r pre ∧ Ext (groups r) c c' ∧ k post c' = some v := by
  induction r with
  | eps => intro s c k v h; exact ⟨[], s, c, rfl, .eps, .refl _ _, h⟩
  | chr p =>
    intro s c k v h
    cases s with
    | nil => simp [m] at h
    | cons x s =>
      simp only [m] at h
      split at h
      · rename_i hp; exact ⟨[x], s, c, rfl, .chr hp, .refl _ _, h⟩
      · simp at h
  | seq a b iha ihb =>
    intro s c k v h
    simp only [m] at h
    obtain ⟨p1, q1, c1, e1, m1, x1, h1⟩ := iha h
    obtain ⟨p2, q2, c2, e2, m2, x2, h2⟩ := ihb h1
    refine ⟨p1 ++ p2, q2, c2, by simp [e1, e2], .seq m1 m2, ?_, h2⟩
    exact (x1.mono (by intro n hn; simp [groups, hn])).trans (x2.mono (by intro n hn; simp [groups, hn]))
  | alt a b iha ihb =>
    intro s c k v h
    simp only [m] at h
    split at h
    · rename_i w hw
      obtain ⟨p, q, c', e, hm, hx, hk⟩ := iha hw
      exact ⟨p, q, c', e, .altL hm, hx.mono (by intro n hn; simp [groups, hn]), by rw [hk]; exact h⟩
    · obtain ⟨p, q, c', e, hm, hx, hk⟩ := ihb h
      exact ⟨p, q, c', e, .altR hm, hx.mono (by intro n hn; simp [groups, hn]), hk⟩
  | star p =>
    intro s c k v h
    simp only [m] at h
    obtain ⟨pre, post, e, hp, hk⟩ := mStar_sound h
    exact ⟨pre, post, c, e, .star hp, .refl _ _, hk⟩
  | many r ih =>
    intro s c k v h
    simp only [m] at h
    exact mMany_sound (P := Matches r) (groups r) (fun s c k v h => ih h) (Matches (.many r)) .manyNil
      (fun x y hx hy => .manyCons hx hy) _ h
  | group n r ih =>
    intro s c k v h
    simp only [m] at h
    obtain ⟨p, q, c', e, hm, hx, hk⟩ := ih h
    refine ⟨p, q, _, e, .group hm, ?_, hk⟩
    exact (hx.mono (by intro i hi; simp [groups, hi])).trans ⟨[_], rfl, by simp [groups]⟩
  | notNext p =>
    intro s c k v h
    cases s with
    | nil => simp only [m] at h; exact ⟨[], [], c, rfl, .notNext, .refl _ _, h⟩
    | cons x s =>
      simp only [m] at h
      split at h
      · simp at h
      · exact ⟨[], x :: s, c, rfl, .notNext, .refl _ _, h⟩

/-- Soundness without the captures. -/
theorem m_sound {α : Type} (r : Re) {s : Str} {c : Caps} {k : Str → Caps → Option α} {v : α}
    (h : m r s c k = some v) : ∃ pre post c', s = pre ++ post ∧ Matches r pre ∧ k post c' = some v := by
  obtain ⟨p, q, c', e, hm, _, hk⟩ := m_sound_caps r h
  exact ⟨p, q, c', e, hm, hk⟩

/-- The greedy star stops at the first character outside the class if the continuation accepts there. -/
theorem mStar_max {α : Type} {p : Char → Bool} (xs : Str) {rest : Str} {c : Caps}
    {k : Str → Caps → Option α} {v : α} (hx : ∀ y ∈ xs, p y = true)
    (hr : ∀ y ∈ rest.head?, p y = false) (hk : k rest c = some v) :
    mStar p (xs ++ rest) c k = some v := by
  induction xs with
  | nil =>
    cases rest with
    | nil => simpa [mStar] using hk
    | cons y rest =>
      have : p y = false := hr y (by simp)
      simp [mStar, this, hk]
  | cons x xs ih =>
    have hp : p x = true := hx x (by simp)
    have := ih (fun y hy => hx y (by simp [hy]))
    simp [mStar, hp, this]

/-- The greedy star picks `xs` if the continuation accepts there and at no later position in the class run. -/
theorem mStar_exact {α : Type} {p : Char → Bool} (xs : Str) {rest : Str} {c : Caps}
    {k : Str → Caps → Option α} {v : α} (hx : ∀ y ∈ xs, p y = true) (hk : k rest c = some v)
    (hno : ∀ pre post, rest = pre ++ post → pre ≠ [] → k post c = none) :
    mStar p (xs ++ rest) c k = some v := by
  induction xs with
  | nil =>
    cases rest with
    | nil => simpa [mStar] using hk
    | cons y rest =>
      simp only [List.nil_append, mStar]
      split
      · cases hm : mStar p rest c k with
        | some w =>
          obtain ⟨pre, post, e, _, hkp⟩ := mStar_sound hm
          rw [hno (y :: pre) post (by simp [e]) (by simp)] at hkp
          simp at hkp
        | none => exact hk
      · exact hk
  | cons x xs ih =>
    have hp : p x = true := hx x (by simp)
    have := ih (fun y hy => hx y (by simp [hy]))
    simp [mStar, hp, this]

theorem m_lit_cons {α : Type} (ch : Char) (s : Str) (c : Caps) (k : Str → Caps → Option α) :
    m (lit ch) (ch :: s) c k = k s c := by
  simp [lit, m]

theorem m_lit_ne {α : Type} {ch x : Char} (h : x ≠ ch) (s : Str) (c : Caps) (k : Str → Caps → Option α) :
    m (lit ch) (x :: s) c k = none := by
  simp [lit, m, h]

theorem m_str {α : Type} (w s : Str) (c : Caps) (k : Str → Caps → Option α) :
    m (str w) (w ++ s) c k = k s c := by
  induction w with
  | nil => simp [str, m]
  | cons x w ih => simp only [str, m, List.cons_append, m_lit_cons, ih]

theorem m_plus_max {α : Type} {p : Char → Bool} (xs : Str) {rest : Str} {c : Caps}
    {k : Str → Caps → Option α} {v : α} (hne : xs ≠ []) (hx : ∀ y ∈ xs, p y = true)
    (hr : ∀ y ∈ rest.head?, p y = false) (hk : k rest c = some v) :
    m (plus p) (xs ++ rest) c k = some v := by
  cases xs with
  | nil => exact absurd rfl hne
  | cons x xs =>
    have hp : p x = true := hx x (by simp)
    simp only [plus, m, List.cons_append, hp, if_true]
    exact mStar_max xs (fun y hy => hx y (by simp [hy])) hr hk

theorem matches_plus {p : Char → Bool} {x : Str} (h : Matches (plus p) x) :
    x ≠ [] ∧ ∀ y ∈ x, p y = true := by
  unfold plus at h
  cases h with
  | seq ha hb =>
    cases ha with
    | chr h1 =>
      cases hb with
      | star h2 => exact ⟨by simp, by intro y hy; simp at hy; exact hy.elim (fun e => e ▸ h1) (h2 y)⟩

theorem matches_lit {ch : Char} {x : Str} (h : Matches (lit ch) x) : x = [ch] := by
  unfold lit at h
  cases h with
  | chr h => simp at h; simp [h]

theorem matches_str {w x : Str} (h : Matches (str w) x) : x = w := by
  induction w generalizing x with
  | nil => unfold str at h; cases h; rfl
  | cons c w ih =>
    unfold str at h
    cases h with
    | seq ha hb => rw [matches_lit ha, ih hb]; rfl

theorem matches_seq {a b : Re} {x : Str} (h : Matches (.seq a b) x) :
    ∃ u v, x = u ++ v ∧ Matches a u ∧ Matches b v := by
  cases h with
  | seq ha hb => exact ⟨_, _, rfl, ha, hb⟩

theorem matches_group {n : Nat} {r : Re} {x : Str} (h : Matches (.group n r) x) : Matches r x := by
  cases h with
  | group h => exact h

theorem matches_star {p : Char → Bool} {x : Str} (h : Matches (.star p) x) : ∀ y ∈ x, p y = true := by
  cases h with
  | star h => exact h

theorem matches_chr {p : Char → Bool} {x : Str} (h : Matches (.chr p) x) : ∃ y, x = [y] ∧ p y = true := by
  cases h with
  | chr h => exact ⟨_, rfl, h⟩

/-- Failure of a sequence from failure of its language on all prefixes. -/
theorem m_none_of {α : Type} {r : Re} {s : Str} {c : Caps} {k : Str → Caps → Option α}
    (h : ∀ pre post, s = pre ++ post → Matches r pre → False) : m r s c k = none := by
  cases hm : m r s c k with
  | none => rfl
  | some v =>
    obtain ⟨p, q, _, e, hmt, _⟩ := m_sound r hm
    exact (h p q e hmt).elim

end Re
end Trappy
