import Verif.Lemma.Regex
/-! Completeness of the matcher: what a pattern can match, `re.match` finds. -/

namespace Trappy
namespace Re

/-- patterns without lookahead -/
def Simple : Re → Prop
  | .eps => True
  | .chr _ => True
  | .seq a b => a.Simple ∧ b.Simple
  | .alt a b => a.Simple ∧ b.Simple
  | .star _ => True
  | .many r => r.Simple
  | .group _ r => r.Simple
  | .notNext _ => False

theorem matches_many {r : Re} {x : Str} (h : Matches (.many r) x) : ∃ xs : List Str, x = xs.flatten ∧ ∀ p ∈ xs, Matches r p := by
  generalize hr : Re.many r = r' at h
  induction h with
  | manyNil => exact ⟨[], rfl, by simp⟩
  | manyCons hx hy _ ih2 =>
    cases hr
    obtain ⟨xs, e, h⟩ := ih2 rfl
    refine ⟨_ :: xs, by rw [List.flatten_cons, e], ?_⟩
    intro p hp
    rcases List.mem_cons.mp hp with rfl | hp
    · exact hx
    · exact h p hp
  | _ => cases hr

theorem mStar_complete {α : Type} {p : Char → Bool} (x y : Str) (c : Caps) (k : Str → Caps → Option α)
    (hx : ∀ ch ∈ x, p ch = true) (hk : (k y c).isSome) : (mStar p (x ++ y) c k).isSome := by
  induction x with
  | nil =>
    cases y with
    | nil => simpa [mStar] using hk
    | cons b y =>
      simp only [List.nil_append, mStar]
      split
      · split
        · rfl
        · exact hk
      · exact hk
  | cons a x ih =>
    simp only [List.cons_append, mStar, hx a (by simp), if_true]
    have := ih fun ch hc => hx ch (by simp [hc])
    split
    · rfl
    · rename_i hn
      rw [hn] at this; cases this

theorem m_complete {α : Type} (r : Re) : r.Simple → ∀ (x y : Str) (c : Caps) (k : Str → Caps → Option α), Matches r x →
    (∀ c', (k y c').isSome) → (m r (x ++ y) c k).isSome := by
  induction r generalizing α with
  | eps => intro _ x y c k h hk; cases h; exact hk c
  | chr p => intro _ x y c k h hk; cases h with | chr hp => simpa [m, hp] using hk c
  | seq a b iha ihb =>
    intro hs x y c k h hk
    cases h with
    | seq ha hb =>
      rw [List.append_assoc]
      exact iha hs.1 _ _ c _ ha fun c' => ihb hs.2 _ _ c' k hb hk
  | alt a b iha ihb =>
    intro hs x y c k h hk
    rw [m]
    split
    · rfl
    · rename_i hn
      cases h with
      | altL h => have := iha hs.1 _ _ c k h hk; rw [hn] at this; cases this
      | altR h => exact ihb hs.2 _ _ c k h hk
  | star p => intro _ x y c k h hk; exact mStar_complete x y c k (matches_star h) (hk c)
  | many r ih =>
    intro hs x y c k h hk
    obtain ⟨xs, rfl, hxs⟩ := matches_many h
    rw [m]
    have gen : ∀ (xs : List Str) (n : Nat) (c : Caps), (∀ p ∈ xs, Matches r p) → (xs.flatten ++ y).length < n →
        (mMany (m r) n (xs.flatten ++ y) c k).isSome := by
      intro xs
      induction xs with
      | nil =>
        intro n c _ _
        cases n with
        | zero => exact hk c
        | succ n =>
          simp only [List.flatten_nil, List.nil_append, mMany]
          split
          · rfl
          · exact hk c
      | cons p xs ihx =>
        intro n c hp hn
        cases n with
        | zero => omega
        | succ n =>
          by_cases hpe : p = []
          · subst hpe
            simpa using ihx (n + 1) c (fun q hq => hp q (by simp [hq])) (by simpa using hn)
          · rw [List.flatten_cons, List.append_assoc, mMany]
            have hlen : 0 < p.length := List.length_pos_iff.mpr hpe
            simp only [List.flatten_cons, List.append_assoc, List.length_append] at hn
            have := ih hs p (xs.flatten ++ y) c
              (fun s' c' => if s'.length < (p ++ (xs.flatten ++ y)).length then mMany (m r) n s' c' k else none) (hp p (by simp)) (by
                intro c'
                rw [if_pos (by simp only [List.length_append]; omega)]
                exact ihx n c' (fun q hq => hp q (by simp [hq])) (by simp only [List.length_append]; omega))
            split
            · rfl
            · rename_i hn'
              rw [hn'] at this; cases this
    exact gen xs _ c hxs (by omega)
  | group n r ih =>
    intro hs x y c k h hk
    rw [m]
    exact ih hs x y c _ (matches_group h) fun c' => hk _
  | notNext p => intro hs; cases hs

/-- **`re.match`** succeeds iff some prefix is in the language of the pattern. -/
theorem matchPrefix_isSome {r : Re} (hs : r.Simple) (s : Str) : (matchPrefix r s).isSome ↔ ∃ x y, s = x ++ y ∧ Matches r x := by
  constructor
  · intro h
    obtain ⟨v, hv⟩ := Option.isSome_iff_exists.mp h
    obtain ⟨pre, post, _, e, hm, _⟩ := m_sound r hv
    exact ⟨pre, post, e, hm⟩
  · rintro ⟨x, y, rfl, h⟩
    exact m_complete r hs x y [] _ h fun _ => rfl

end Re
end Trappy
