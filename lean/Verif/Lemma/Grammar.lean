import Verif.Model.Grammar
/-!
# Lemmas about the expression parser
-/

namespace Trappy

/-- size of the tokens; a name counts twice since it may leave a dot behind -/
def gw : List GTok → Nat
  | [] => 0
  | .name _ :: ts => gw ts + 2
  | _ :: ts => gw ts + 1

theorem gw_le (ts : List GTok) : gw ts ≤ 2 * ts.length := by
  induction ts with
  | nil => simp [gw]
  | cons t ts ih => cases t <;> simp only [gw, List.length_cons] <;> omega

theorem gw_tail (t : GTok) (ts : List GTok) : gw ts < gw (t :: ts) := by
  cases t <;> simp only [gw] <;> omega

theorem gw_ident (s : Str) (rest : List GTok) : gw (identTok s rest).2 ≤ gw rest + 1 := by
  unfold identTok
  simp only
  split
  · simp [gw]
  · omega

/-- reading consumes tokens -/
theorem g_consumes {V : Type} (I : GInterp V) (f : Nat) :
    (∀ toks v r, gAtom I f toks = some (v, r) → gw r < gw toks) ∧
    (∀ toks v r, gArgs I f toks = some (v, r) → gw r < gw toks) ∧
    (∀ k toks v r, gLev I f k toks = some (v, r) → gw r < gw toks) ∧
    (∀ k acc toks v r, gChain I f k acc toks = (v, r) → gw r ≤ gw toks) := by
  induction f with
  | zero =>
    refine ⟨?_, ?_, ?_, ?_⟩
    · intro toks v r h; simp [gAtom] at h
    · intro toks v r h; simp [gArgs] at h
    · intro k toks v r h; simp [gLev] at h
    · intro k acc toks v r h; simp only [gChain, Prod.mk.injEq] at h; rw [h.2]; exact Nat.le_refl _
  | succ f ih =>
    obtain ⟨iA, iG, iL, iC⟩ := ih
    refine ⟨?_, ?_, ?_, ?_⟩
    · intro toks v r h
      unfold gAtom at h
      split at h
      · rename_i s rest
        split at h
        · rename_i vs r' hg
          simp only [Option.some.injEq, Prod.mk.injEq] at h
          obtain ⟨_, rfl⟩ := h
          have := iG _ _ _ hg
          simp only [gw] at this ⊢; omega
        · simp only [Option.some.injEq, Prod.mk.injEq] at h
          obtain ⟨_, rfl⟩ := h
          have := gw_ident s (.lpar :: rest)
          simp only [gw] at this ⊢; omega
        · split at h
          · simp only [Option.some.injEq, Prod.mk.injEq] at h
            obtain ⟨_, rfl⟩ := h
            simp only [gw]; omega
          · simp only [Option.some.injEq, Prod.mk.injEq] at h
            obtain ⟨_, rfl⟩ := h
            have := gw_ident s (.lpar :: rest)
            simp only [gw] at this ⊢; omega
      · rename_i s c rest
        simp only [Option.some.injEq, Prod.mk.injEq] at h
        obtain ⟨_, rfl⟩ := h
        have := gw_ident c rest
        simp only [gw]; omega
      · rename_i s rest _ _
        simp only [Option.some.injEq, Prod.mk.injEq] at h
        obtain ⟨_, rfl⟩ := h
        have := gw_ident s rest
        simp only [gw]; omega
      · simp only [Option.some.injEq, Prod.mk.injEq] at h
        obtain ⟨_, rfl⟩ := h
        simp only [gw]; omega
      · simp only [Option.some.injEq, Prod.mk.injEq] at h
        obtain ⟨_, rfl⟩ := h
        simp only [gw]; omega
      · simp only [Option.some.injEq, Prod.mk.injEq] at h
        obtain ⟨_, rfl⟩ := h
        simp only [gw]; omega
      · split at h
        · rename_i hg
          simp only [Option.some.injEq, Prod.mk.injEq] at h
          obtain ⟨_, rfl⟩ := h
          have := iL _ _ _ _ hg
          simp only [gw] at this ⊢; omega
        · simp at h
      · simp at h
    · intro toks v r h
      unfold gArgs at h
      split at h
      · simp at h
      · rename_i v' r' hg
        have h1 := iL _ _ _ _ hg
        split at h
        · rename_i hg'
          simp only [Option.some.injEq, Prod.mk.injEq] at h
          obtain ⟨_, rfl⟩ := h
          have := iG _ _ _ hg'
          simp only [gw] at h1; omega
        · simp only [Option.some.injEq, Prod.mk.injEq] at h
          obtain ⟨_, rfl⟩ := h
          exact h1
      · rename_i hg
        have h1 := iL _ _ _ _ hg
        simp only [Option.some.injEq, Prod.mk.injEq] at h
        obtain ⟨_, rfl⟩ := h
        exact h1
    · intro k toks v r h
      unfold gLev at h
      split at h
      · exact iA _ _ _ h
      · split at h
        · split at h
          · split at h
            · rename_i hg
              simp only [Option.some.injEq, Prod.mk.injEq] at h
              obtain ⟨_, rfl⟩ := h
              have := iL _ _ _ _ hg
              simp only [gw]; omega
            · exact iL _ _ _ _ h
          · split at h
            · rename_i hg
              simp only [Option.some.injEq, Prod.mk.injEq] at h
              obtain ⟨_, rfl⟩ := h
              have := iL _ _ _ _ hg
              simp only [gw]; omega
            · exact iL _ _ _ _ h
          · exact iL _ _ _ _ h
        · split at h
          · simp at h
          · rename_i v' r' hg
            have h1 := iL _ _ _ _ hg
            have h2 := iC k v' r' v r (by simpa using h)
            omega
    · intro k acc toks v r h
      unfold gChain at h
      split at h
      · split at h
        · split at h
          · rename_i hg
            have h1 := iL _ _ _ _ hg
            have h2 := iC _ _ _ _ _ h
            simp only [gw]; omega
          · simp only [Prod.mk.injEq] at h; rw [h.2]; exact Nat.le_refl _
        · simp only [Prod.mk.injEq] at h; rw [h.2]; exact Nat.le_refl _
      · simp only [Prod.mk.injEq] at h; rw [h.2]; exact Nat.le_refl _

theorem level_le (o : GOp) : o.level ≤ 6 := by cases o <;> decide

/-- enough fuel is enough -/
theorem g_stable {V : Type} (I : GInterp V) (n : Nat) : ∀ toks, gw toks = n →
    (∀ f f', 10 * n + 1 ≤ f → 10 * n + 1 ≤ f' → gAtom I f toks = gAtom I f' toks) ∧
    (∀ k acc f f', 10 * n + 1 ≤ f → 10 * n + 1 ≤ f' → gChain I f k acc toks = gChain I f' k acc toks) ∧
    (∀ k f f', k ≤ 6 → 10 * n + k + 2 ≤ f → 10 * n + k + 2 ≤ f' → gLev I f k toks = gLev I f' k toks) ∧
    (∀ f f', 10 * n + 9 ≤ f → 10 * n + 9 ≤ f' → gArgs I f toks = gArgs I f' toks) := by
  induction n using Nat.strongRecOn with
  | ind n ih =>
  intro toks hw
  have sL : ∀ r, gw r < n → ∀ k f f', k ≤ 6 → 10 * n ≤ f → 10 * n ≤ f' → gLev I f k r = gLev I f' k r := by
    intro r hr k f f' hk hf hf'
    exact (ih (gw r) hr r rfl).2.2.1 k f f' hk (by omega) (by omega)
  have sG : ∀ r, gw r < n → ∀ f f', 10 * n ≤ f → 10 * n ≤ f' → gArgs I f r = gArgs I f' r := by
    intro r hr f f' hf hf'
    exact (ih (gw r) hr r rfl).2.2.2 f f' (by omega) (by omega)
  have sC : ∀ r, gw r < n → ∀ k acc f f', 10 * n ≤ f → 10 * n ≤ f' → gChain I f k acc r = gChain I f' k acc r := by
    intro r hr k acc f f' hf hf'
    exact (ih (gw r) hr r rfl).2.1 k acc f f' (by omega) (by omega)
  have hA : ∀ f f', 10 * n + 1 ≤ f → 10 * n + 1 ≤ f' → gAtom I f toks = gAtom I f' toks := by
    intro f f' hf hf'
    cases f with
    | zero => omega
    | succ f =>
      cases f' with
      | zero => omega
      | succ f' =>
        unfold gAtom
        split
        · rename_i s rest
          rw [sG rest (by simp only [gw] at hw; omega) f f' (by omega) (by omega)]
        · rfl
        · rfl
        · rfl
        · rfl
        · rfl
        · rename_i rest
          rw [sL rest (by simp only [gw] at hw; omega) 6 f f' (by omega) (by omega) (by omega)]
        · rfl
  have hC : ∀ k acc f f', 10 * n + 1 ≤ f → 10 * n + 1 ≤ f' → gChain I f k acc toks = gChain I f' k acc toks := by
    intro k acc f f' hf hf'
    cases f with
    | zero => omega
    | succ f =>
      cases f' with
      | zero => omega
      | succ f' =>
        unfold gChain
        split
        · rename_i o g r
          split
          · rename_i hk
            have hr : gw r < n := by simp only [gw] at hw; omega
            rw [sL r hr (k - 1) f f' (by have := level_le o; omega) (by omega) (by omega)]
            cases hg : gLev I f' (k - 1) r with
            | none => rfl
            | some x =>
              obtain ⟨v, r'⟩ := x
              have h1 := (g_consumes I f').2.2.1 _ _ _ _ hg
              exact sC r' (by omega) k _ f f' (by omega) (by omega)
          · rfl
        · rfl
  have hL : ∀ k f f', k ≤ 6 → 10 * n + k + 2 ≤ f → 10 * n + k + 2 ≤ f' → gLev I f k toks = gLev I f' k toks := by
    intro k
    induction k with
    | zero =>
      intro f f' _ hf hf'
      cases f with
      | zero => omega
      | succ f =>
        cases f' with
        | zero => omega
        | succ f' =>
          unfold gLev
          rw [if_pos rfl, if_pos rfl]
          exact hA f f' (by omega) (by omega)
    | succ k ihk =>
      intro f f' hk hf hf'
      cases f with
      | zero => omega
      | succ f =>
        cases f' with
        | zero => omega
        | succ f' =>
          have hsame := ihk f f' (by omega) (by omega) (by omega)
          unfold gLev
          have h0 : ¬ k + 1 = 0 := by omega
          rw [if_neg h0, if_neg h0]
          by_cases h2 : k + 1 = 2
          · rw [if_pos h2, if_pos h2]
            have hk1 : k = 1 := by omega
            subst hk1
            split
            · rename_i g r
              rw [sL r (by simp only [gw] at hw; omega) 2 f f' (by omega) (by omega) (by omega), hsame]
            · rename_i g r
              rw [sL r (by simp only [gw] at hw; omega) 2 f f' (by omega) (by omega) (by omega), hsame]
            · exact hsame
          · rw [if_neg h2, if_neg h2]
            simp only [Nat.add_sub_cancel]
            rw [hsame]
            cases hg : gLev I f' k toks with
            | none => rfl
            | some x =>
              obtain ⟨v, r⟩ := x
              have h1 := (g_consumes I f').2.2.1 _ _ _ _ hg
              simp only
              rw [sC r (by omega) (k + 1) v f f' (by omega) (by omega)]
  refine ⟨hA, hC, hL, ?_⟩
  intro f f' hf hf'
  cases f with
  | zero => omega
  | succ f =>
    cases f' with
    | zero => omega
    | succ f' =>
      unfold gArgs
      rw [hL 6 f f' (by omega) (by omega) (by omega)]
      cases hg : gLev I f' 6 toks with
      | none => rfl
      | some x =>
        obtain ⟨v, r⟩ := x
        have h1 := (g_consumes I f').2.2.1 _ _ _ _ hg
        cases r with
        | nil => rfl
        | cons t r =>
          cases t <;> try rfl
          simp only
          rw [sG r (by simp only [gw] at h1; omega) f f' (by omega) (by omega)]

/-- the fuel `solve` gives is enough -/
theorem gLev_fuel {V : Type} (I : GInterp V) (toks : List GTok) (f : Nat) (hf : 20 * toks.length + 10 ≤ f) :
    gLev I f 6 toks = gLev I (20 * toks.length + 10) 6 toks := by
  have := gw_le toks
  exact (g_stable I (gw toks) toks rfl).2.2.1 6 _ _ (by omega) (by omega) (by omega)

end Trappy
