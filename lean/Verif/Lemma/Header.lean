import Verif.Model.Header
import Verif.Spec.Header
import Verif.Lemma.Regex
import Verif.Lemma.Data
import Verif.Lemma.Line
/-! Lemmas for header metadata and paths. -/

namespace Trappy
open Re Py

theorem isSpace_isWord {c : Char} (h : isSpace c = true) : isWord c = false := by
  cases hw : isWord c with
  | false => rfl
  | true => exact absurd (isSpace_not_word hw) (by simp [h])

/-- the keys looked for -/
def metaKeys : List Str := [cs!"version", cs!"cpus"]

theorem m_altStr {α : Type} {keys : List Str} (hs : keys.Sublist metaKeys) {key : Str} (hk : key ∈ keys) (s : Str) (c : Caps)
    (k : Str → Caps → Option α) {v : α} (hv : k s c = some v) : m (altStr keys) (key ++ s) c k = some v := by
  have hcases : keys = [] ∨ keys = [cs!"version"] ∨ keys = [cs!"cpus"] ∨ keys = [cs!"version", cs!"cpus"] := by
    unfold metaKeys at hs
    rcases List.sublist_cons_iff.mp hs with h | ⟨r, e1, h⟩
    · rcases List.sublist_cons_iff.mp h with h2 | ⟨r2, e2, h2⟩
      · left; exact List.sublist_nil.mp h2
      · have := List.sublist_nil.mp h2
        subst this; right; right; left; exact e2
    · rcases List.sublist_cons_iff.mp h with h2 | ⟨r2, e2, h2⟩
      · have := List.sublist_nil.mp h2
        subst this; right; left; exact e1
      · have := List.sublist_nil.mp h2
        subst this; subst e2; right; right; right; exact e1
  rcases hcases with rfl | rfl | rfl | rfl
  · simp at hk
  · simp at hk; subst hk; simp only [altStr]; rw [m_str]; exact hv
  · simp at hk; subst hk; simp only [altStr]; rw [m_str]; exact hv
  · simp only [List.mem_cons, List.not_mem_nil, or_false] at hk
    rcases hk with rfl | rfl
    · simp only [altStr, m]; rw [m_str, hv]
    · simp only [altStr, m]
      rw [m_str]
      have : m (str cs!"version") (cs!"cpus" ++ s) c k = none := by
        simp [str, m, lit]
      rw [this]; exact hv

theorem matches_altStr {keys : List Str} {x : Str} (hne : keys ≠ []) (h : Matches (altStr keys) x) : x ∈ keys := by
  induction keys with
  | nil => exact absurd rfl hne
  | cons k ks ih =>
    cases ks with
    | nil => simp only [altStr] at h; simp [matches_str h]
    | cons k2 ks =>
      simp only [altStr] at h
      cases h with
      | altL h => simp [matches_str h]
      | altR h => exact List.mem_cons_of_mem _ (ih (by simp) h)

theorem metaRe_complete {keys : List Str} (hs : keys.Sublist metaKeys) {key v line : Str} (hk : key ∈ keys)
    (h : HeaderLine key v line) :
    ∃ rest, matchPrefix (metaRe keys) line = some ([(2, v), (1, key)], rest) := by
  obtain ⟨w1, w2, rest, rfl, h1, h2, hne, hd, hr⟩ := h
  refine ⟨rest, ?_⟩
  unfold matchPrefix metaRe
  simp only [cat]
  rw [m.eq_4, m.eq_8]
  apply m_altStr hs hk
  have e1 : ∀ (x r : Str), (x ++ r).take ((x ++ r).length - r.length) = x := by
    intro x r; simp
  rw [e1, m.eq_4]
  have hn : ∀ {β : Type} (k : Str → Caps → Option β) (c : Caps), m (.notNext isWord) (w1 ++ '=' :: (w2 ++ (v ++ rest))) c k =
      k (w1 ++ '=' :: (w2 ++ (v ++ rest))) c := by
    intro β k c
    cases w1 with
    | nil => simp [m, isWord, isDigit, isUpper, isLower]
    | cons a w1 =>
      have := isSpace_isWord (h1 a (by simp))
      simp [m, this]
  rw [hn, m.eq_4, m.eq_6]
  apply mStar_max w1 h1
  · intro y hy; simp at hy; subst hy; decide
  rw [m.eq_4, m_lit_cons, m.eq_4, m.eq_6]
  apply mStar_max w2 h2
  · intro y hy
    cases v with
    | nil => exact absurd rfl hne
    | cons a v => simp at hy; subst hy; exact isSpace_not_digit (hd a (by simp))
  rw [m.eq_8]
  apply m_plus_max v hne hd hr
  rw [e1]

theorem mem_takeWhile_p {α : Type} {p : α → Bool} {l : List α} {c : α} (h : c ∈ l.takeWhile p) : p c = true := by
  induction l with
  | nil => simp at h
  | cons a l ih =>
    rw [List.takeWhile_cons] at h
    split at h
    · rename_i hp
      rcases List.mem_cons.mp h with rfl | h
      · exact hp
      · exact ih h
    · simp at h

theorem metaRe_sound {keys : List Str} (hne : keys ≠ []) {line : Str} {r : Caps × Str}
    (h : matchPrefix (metaRe keys) line = some r) : ∃ key ∈ keys, ∃ v, HeaderLine key v line := by
  unfold matchPrefix at h
  obtain ⟨pre, post, c', e, hm, -⟩ := m_sound _ h
  simp only [metaRe, cat] at hm
  obtain ⟨x1, y1, rfl, a1, b1⟩ := matches_seq hm
  obtain ⟨x2, y2, rfl, a2, b2⟩ := matches_seq b1
  obtain ⟨x3, y3, rfl, a3, b3⟩ := matches_seq b2
  obtain ⟨x4, y4, rfl, a4, b4⟩ := matches_seq b3
  obtain ⟨x5, y5, rfl, a5, b5⟩ := matches_seq b4
  have k1 := matches_altStr hne (matches_group a1)
  have : x2 = [] := by cases a2; rfl
  subst this
  have e4 := matches_lit a4
  subst e4
  have b5 := matches_group b5
  have hd : y5 ≠ [] ∧ ∀ c ∈ y5, isDigit c = true := by
    obtain ⟨u, w, rfl, g1, g2⟩ := matches_seq b5
    obtain ⟨z, rfl, hz⟩ := matches_chr g1
    refine ⟨by simp, ?_⟩
    intro c hc
    rcases List.mem_append.mp hc with hc | hc
    · simp at hc; subst hc; exact hz
    · exact matches_star g2 c hc
  refine ⟨x1, k1, y5 ++ post.takeWhile isDigit, x3, x5, post.dropWhile isDigit, ?_, matches_star a3, matches_star a5, ?_, ?_, ?_⟩
  · rw [e]; simp [List.takeWhile_append_dropWhile]
  · simp [hd.1]
  · intro c hc
    rcases List.mem_append.mp hc with hc | hc
    · exact hd.2 c hc
    · exact mem_takeWhile_p hc
  · intro c hc
    cases hdw : post.dropWhile isDigit with
    | nil => rw [hdw] at hc; simp at hc
    | cons a l =>
      rw [hdw] at hc; simp at hc; subst hc
      have := List.head_dropWhile_not (p := isDigit) (by rw [hdw]; simp : post.dropWhile isDigit ≠ [])
      simpa [hdw] using this

theorem HeaderLine.unique {k1 k2 v1 v2 line : Str} (m1 : k1 ∈ metaKeys) (m2 : k2 ∈ metaKeys) (h1 : HeaderLine k1 v1 line)
    (h2 : HeaderLine k2 v2 line) : k1 = k2 ∧ v1 = v2 := by
  obtain ⟨r1, e1⟩ := metaRe_complete (List.Sublist.refl _) m1 h1
  obtain ⟨r2, e2⟩ := metaRe_complete (List.Sublist.refl _) m2 h2
  rw [e1] at e2
  simp at e2
  exact ⟨e2.1.2, e2.1.1⟩

end Trappy
