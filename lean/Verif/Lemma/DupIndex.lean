import Verif.Model.DupIndex
import Mathlib.Tactic.Linarith
import Mathlib.Tactic.Positivity
import Mathlib.Tactic.FieldSimp
import Mathlib.Tactic.Ring
import Mathlib.Algebra.Order.Field.Rat
/-!
# Lemmas about duplicate times
-/

namespace Trappy

theorem bsearch_prefix (p : Rat → Bool) (a : List Rat) (k : Nat) (hp : ∀ i x, a[i]? = some x → (p x = true ↔ i < k)) :
    ∀ fuel lo hi, hi - lo ≤ fuel → lo ≤ k → k ≤ hi → hi ≤ a.length → bsearch p a fuel lo hi = k := by
  intro fuel
  induction fuel with
  | zero =>
    intro lo hi h1 h2 h3 h4
    simp only [bsearch]; omega
  | succ fuel ih =>
    intro lo hi h1 h2 h3 h4
    unfold bsearch
    split
    · rename_i hlt
      have hmid : lo + (hi - lo) / 2 < a.length := by omega
      simp only [List.getElem?_eq_getElem hmid]
      have := hp _ _ (List.getElem?_eq_getElem hmid)
      split
      · rename_i h
        have := this.mp h
        exact ih _ _ (by omega) (by omega) h3 h4
      · rename_i h
        have : ¬ lo + (hi - lo) / 2 < k := fun hk => h (this.mpr hk)
        exact ih _ _ (by omega) h2 (by omega) (by omega)
    · omega

theorem bsearch_split (p : Rat → Bool) (pre rest : List Rat) (h1 : ∀ x ∈ pre, p x = true) (h2 : ∀ x ∈ rest, p x = false) :
    bsearch p (pre ++ rest) (pre ++ rest).length 0 (pre ++ rest).length = pre.length := by
  apply bsearch_prefix
  · intro i x hi
    by_cases h : i < pre.length
    · rw [List.getElem?_append_left h] at hi
      simp [h, h1 x (List.mem_of_getElem? hi)]
    · rw [List.getElem?_append_right (by omega)] at hi
      simp [h, h2 x (List.mem_of_getElem? hi)]
  · omega
  · omega
  · simp
  · exact Nat.le_refl _

/-- the times added to one group: `d + delta, d + 2 delta, d + 4 delta, …` -/
def spreadTail (d : Rat) : Rat → Nat → List Rat
  | _, 0 => []
  | delta, n + 1 => (d + delta) :: spreadTail d (delta + delta) n

theorem modify_at (pre t : List Rat) (x : Rat) (f : Rat → Rat) : (pre ++ x :: t).modify pre.length f = pre ++ f x :: t := by
  induction pre with
  | nil => simp
  | cons a pre ih => simp [ih]

theorem addDeltas_spread (d : Rat) (post : List Rat) (n : Nat) : ∀ (pre : List Rat) (delta : Rat),
    addDeltas n pre.length delta (pre ++ List.replicate n d ++ post) = pre ++ spreadTail d delta n ++ post := by
  induction n with
  | zero => intro pre delta; simp [addDeltas, spreadTail]
  | succ n ih =>
    intro pre delta
    have e : (pre ++ List.replicate (n + 1) d ++ post).modify pre.length (· + delta) =
        (pre ++ [d + delta]) ++ List.replicate n d ++ post := by
      rw [List.replicate_succ, List.append_assoc, List.cons_append, modify_at]
      simp
    have hl : pre.length + 1 = (pre ++ [d + delta]).length := by simp
    simp only [addDeltas, e, hl, ih, spreadTail]
    simp

/-- the delta of a group of `k` equal times followed by `next` -/
def groupDelta (M d : Rat) (k : Nat) (next : Option Rat) : Rat :=
  let delta := match next with
    | some x => (x - d) / k
    | none => M
  if M < delta then M else delta

theorem fixGroup_eq (M d : Rat) (pre post : List Rat) (k : Nat) (hk : 0 < k) (h1 : ∀ x ∈ pre, x < d) (h2 : ∀ x ∈ post, d < x) :
    fixGroup M (pre ++ List.replicate k d ++ post) d =
      pre ++ d :: spreadTail d (groupDelta M d k post.head?) (k - 1) ++ post := by
  have hl : searchLeft (pre ++ List.replicate k d ++ post) d = pre.length := by
    unfold searchLeft
    rw [List.append_assoc]
    apply bsearch_split
    · intro x hx; simpa using h1 x hx
    · intro x hx
      rcases List.mem_append.mp hx with hx | hx
      · rw [List.eq_of_mem_replicate hx]; simp
      · have := h2 x hx; simp; linarith
  have hr : searchRight (pre ++ List.replicate k d ++ post) d = pre.length + k := by
    unfold searchRight
    have : pre.length + k = (pre ++ List.replicate k d).length := by simp
    rw [this]
    apply bsearch_split
    · intro x hx
      rcases List.mem_append.mp hx with hx | hx
      · have := h1 x hx; simp; linarith
      · rw [List.eq_of_mem_replicate hx]; simp
    · intro x hx; have := h2 x hx; simpa using this
  have hn : (pre ++ List.replicate k d ++ post)[pre.length + k]? = post.head? := by
    have : pre.length + k = (pre ++ List.replicate k d).length := by simp
    rw [this, List.getElem?_append_right (by omega), Nat.sub_self, List.head?_eq_getElem?]
  unfold fixGroup
  simp only [hl, hr, hn]
  have e1 : pre.length + k - pre.length = k := by omega
  have e2 : pre.length + k - (pre.length + 1) = k - 1 := by omega
  rw [e1, e2]
  have e3 : pre ++ List.replicate k d ++ post = (pre ++ [d]) ++ List.replicate (k - 1) d ++ post := by
    have : List.replicate k d = d :: List.replicate (k - 1) d := by
      rw [← List.replicate_succ]; congr 1; omega
    rw [this]; simp
  have e4 : pre.length + 1 = (pre ++ [d]).length := by simp
  rw [e3, e4, addDeltas_spread]
  cases post.head? <;> simp [groupDelta]

/-! ## Groups -/

/-- the list of times of a list of groups -/
def flat (gs : List (Rat × Nat)) : List Rat := gs.flatMap fun g => List.replicate g.2 g.1

/-- the new times of a list of groups -/
def spreadAll (M : Rat) : List (Rat × Nat) → List Rat
  | [] => []
  | g :: gs => (g.1 :: spreadTail g.1 (groupDelta M g.1 g.2 (gs.head?.map Prod.fst)) (g.2 - 1)) ++ spreadAll M gs

/-- values increase, no group is empty -/
def GroupsOk (gs : List (Rat × Nat)) : Prop := (gs.map Prod.fst).Pairwise (· < ·) ∧ ∀ g ∈ gs, 0 < g.2

theorem GroupsOk.tail {g : Rat × Nat} {gs : List (Rat × Nat)} (h : GroupsOk (g :: gs)) : GroupsOk gs :=
  ⟨(List.pairwise_cons.mp h.1).2, fun x hx => h.2 x (by simp [hx])⟩

theorem GroupsOk.lt {g : Rat × Nat} {gs : List (Rat × Nat)} (h : GroupsOk (g :: gs)) : ∀ x ∈ flat gs, g.1 < x := by
  intro x hx
  obtain ⟨g', hg', hx⟩ := List.mem_flatMap.mp hx
  rw [List.eq_of_mem_replicate hx]
  exact (List.pairwise_cons.mp h.1).1 _ (List.mem_map.mpr ⟨g', hg', rfl⟩)

theorem flat_head {gs : List (Rat × Nat)} (h : GroupsOk gs) : (flat gs).head? = gs.head?.map Prod.fst := by
  cases gs with
  | nil => rfl
  | cons g gs =>
    have := h.2 g (by simp)
    obtain ⟨k, hk⟩ : ∃ k, g.2 = k + 1 := ⟨g.2 - 1, by omega⟩
    simp [flat, hk, List.replicate_succ]

/-- every sorted list is made of groups -/
theorem exists_groups (a : List Rat) (h : a.Pairwise (· ≤ ·)) : ∃ gs, GroupsOk gs ∧ a = flat gs := by
  induction a with
  | nil => exact ⟨[], ⟨by simp, by simp⟩, rfl⟩
  | cons x a ih =>
    rw [List.pairwise_cons] at h
    obtain ⟨gs, hg, rfl⟩ := ih h.2
    cases gs with
    | nil => exact ⟨[(x, 1)], ⟨by simp, by simp⟩, by simp [flat]⟩
    | cons g gs =>
      have hx : x ≤ g.1 := h.1 _ (by
        have := hg.2 g (by simp)
        simp only [flat, List.flatMap_cons, List.mem_append, List.mem_replicate]
        left; exact ⟨by omega, trivial⟩)
      by_cases e : x = g.1
      · refine ⟨(g.1, g.2 + 1) :: gs, ⟨hg.1, ?_⟩, ?_⟩
        · intro y hy
          rcases List.mem_cons.mp hy with rfl | hy
          · simp
          · exact hg.2 y (by simp [hy])
        · simp [flat, List.replicate_succ, e]
      · refine ⟨(x, 1) :: g :: gs, ⟨?_, ?_⟩, ?_⟩
        · rw [List.map_cons, List.pairwise_cons]
          refine ⟨?_, hg.1⟩
          have hlt : x < g.1 := lt_of_le_of_ne hx e
          intro y hy
          rcases List.mem_cons.mp hy with rfl | hy
          · exact hlt
          · exact lt_trans hlt ((List.pairwise_cons.mp hg.1).1 y hy)
        · intro y hy
          rcases List.mem_cons.mp hy with rfl | hy
          · simp
          · exact hg.2 y hy
        · simp [flat]

theorem dupsAux_replicate_seen (d : Rat) (seen out rest : List Rat) (hs : d ∈ seen) (ho : d ∈ out) (n : Nat) :
    dupsAux seen out (List.replicate n d ++ rest) = dupsAux seen out rest := by
  induction n with
  | zero => rfl
  | succ n ih => simp only [List.replicate_succ, List.cons_append, dupsAux, hs, ho, if_true, ih]

theorem dupsAux_flat (gs : List (Rat × Nat)) (h : GroupsOk gs) : ∀ seen out : List Rat,
    (∀ g ∈ gs, g.1 ∉ seen) → (∀ g ∈ gs, g.1 ∉ out) →
    dupsAux seen out (flat gs) = out.reverse ++ (gs.filter fun g => 2 ≤ g.2).map Prod.fst := by
  induction gs with
  | nil => intro seen out _ _; simp [flat, dupsAux]
  | cons g gs ih =>
    intro seen out hs ho
    obtain ⟨d, k⟩ := g
    have hk : 0 < k := h.2 (d, k) (by simp)
    have hd := (List.pairwise_cons.mp h.1).1
    have hne : ∀ g ∈ gs, g.1 ≠ d := by
      intro g hg e
      have := hd g.1 (List.mem_map.mpr ⟨g, hg, rfl⟩)
      simp only at this
      rw [e] at this
      exact lt_irrefl _ this
    have hsd : d ∉ seen := hs (d, k) (by simp)
    have hod : d ∉ out := ho (d, k) (by simp)
    have hseen : ∀ g ∈ gs, g.1 ∉ d :: seen := by
      intro g hg hm
      rcases List.mem_cons.mp hm with e | hm
      · exact hne g hg e
      · exact hs g (by simp [hg]) hm
    rw [flat, List.flatMap_cons]
    change dupsAux seen out (List.replicate k d ++ flat gs) = _
    obtain ⟨n, rfl⟩ : ∃ n, k = n + 1 := ⟨k - 1, by omega⟩
    rw [List.replicate_succ, List.cons_append, dupsAux, if_neg hsd]
    cases n with
    | zero =>
      rw [List.replicate_zero, List.nil_append, ih h.tail _ _ hseen (fun g hg => ho g (by simp [hg]))]
      simp
    | succ n =>
      have hin : d ∈ d :: seen := by simp
      rw [List.replicate_succ, List.cons_append, dupsAux, if_pos hin, if_neg hod,
        dupsAux_replicate_seen d _ _ _ hin (by simp), ih h.tail _ _ hseen ?_]
      · simp
      · intro g hg hm
        rcases List.mem_cons.mp hm with e | hm
        · exact hne g hg e
        · exact ho g (by simp [hg]) hm

theorem dupsOf_flat (gs : List (Rat × Nat)) (h : GroupsOk gs) :
    dupsOf (flat gs) = (gs.filter fun g => 2 ≤ g.2).map Prod.fst := by
  unfold dupsOf
  rw [dupsAux_flat gs h [] [] (by simp) (by simp)]
  simp

/-- the new times of a group stay before the next group -/
def SpreadFits (M : Rat) : List (Rat × Nat) → Prop
  | [] => True
  | g :: gs => (∀ x ∈ spreadTail g.1 (groupDelta M g.1 g.2 (gs.head?.map Prod.fst)) (g.2 - 1),
      ∀ y ∈ gs.head?.map Prod.fst, x < y) ∧ SpreadFits M gs

theorem fold_groups (M : Rat) (gs : List (Rat × Nat)) (h : GroupsOk gs) (hf : SpreadFits M gs) : ∀ pre : List Rat,
    (∀ g ∈ gs, ∀ x ∈ pre, x < g.1) →
    ((gs.filter fun g => 2 ≤ g.2).map Prod.fst).foldl (fixGroup M) (pre ++ flat gs) = pre ++ spreadAll M gs := by
  induction gs with
  | nil => intro pre _; simp [flat, spreadAll]
  | cons g gs ih =>
    intro pre hpre
    obtain ⟨d, k⟩ := g
    have hk : 0 < k := h.2 (d, k) (by simp)
    have hd := (List.pairwise_cons.mp h.1).1
    have hlt : ∀ g ∈ gs, d < g.1 := fun g hg => hd g.1 (List.mem_map.mpr ⟨g, hg, rfl⟩)
    have hflat : flat ((d, k) :: gs) = List.replicate k d ++ flat gs := by simp [flat]
    -- the new times of this group are before the later groups
    have hbefore : ∀ g ∈ gs, ∀ x ∈ pre ++ d :: spreadTail d (groupDelta M d k (gs.head?.map Prod.fst)) (k - 1), x < g.1 := by
      intro g hg x hx
      rcases List.mem_append.mp hx with hx | hx
      · exact hpre g (by simp [hg]) x hx
      · rcases List.mem_cons.mp hx with rfl | hx
        · exact hlt g hg
        · cases gs with
          | nil => simp at hg
          | cons g0 gs =>
            have h0 : x < g0.1 := hf.1 x hx g0.1 (by simp)
            rcases List.mem_cons.mp hg with rfl | hg
            · exact h0
            · exact lt_trans h0 ((List.pairwise_cons.mp h.tail.1).1 g.1 (List.mem_map.mpr ⟨g, hg, rfl⟩))
    by_cases h2 : 2 ≤ k
    · rw [List.filter_cons_of_pos (by simpa using h2), List.map_cons, List.foldl_cons, hflat, ← List.append_assoc,
        fixGroup_eq M d pre (flat gs) k hk (fun x hx => hpre (d, k) (by simp) x hx) h.lt, flat_head h.tail]
      rw [ih h.tail hf.2 _ hbefore]
      simp [spreadAll]
    · have hk1 : k = 1 := by omega
      subst hk1
      rw [List.filter_cons_of_neg (by simp), hflat, ← List.append_assoc]
      have := ih h.tail hf.2 (pre ++ [d]) (by
        intro g hg x hx
        exact hbefore g hg x (by simpa [spreadTail] using hx))
      simp only [List.replicate_one]
      rw [this]
      simp [spreadAll, spreadTail]

theorem fixIndex_groups (M : Rat) (gs : List (Rat × Nat)) (h : GroupsOk gs) (hf : SpreadFits M gs) :
    fixIndex M (flat gs) = spreadAll M gs := by
  unfold fixIndex
  rw [dupsOf_flat gs h]
  have := fold_groups M gs h hf [] (by simp)
  simpa using this

/-! ## The arithmetic -/

theorem spreadTail_mem (d : Rat) (n : Nat) : ∀ delta : Rat, 0 < delta → ∀ x ∈ spreadTail d delta n,
    d < x ∧ x ≤ d + delta * 2 ^ (n - 1) := by
  induction n with
  | zero => intro delta _ x hx; simp [spreadTail] at hx
  | succ n ih =>
    intro delta hd x hx
    simp only [spreadTail, List.mem_cons] at hx
    have h1 : (1 : Rat) ≤ 2 ^ n := one_le_pow₀ (by norm_num)
    rcases hx with rfl | hx
    · refine ⟨by linarith, ?_⟩
      simp only [Nat.add_sub_cancel]
      nlinarith
    · obtain ⟨i1, i2⟩ := ih (delta + delta) (by linarith) x hx
      refine ⟨i1, ?_⟩
      cases n with
      | zero => simp [spreadTail] at hx
      | succ n =>
        simp only [Nat.add_sub_cancel] at i2 ⊢
        rw [pow_succ]
        linarith

theorem spreadTail_length (d : Rat) (n : Nat) : ∀ delta : Rat, (spreadTail d delta n).length = n := by
  induction n with
  | zero => intro _; rfl
  | succ n ih => intro delta; simp [spreadTail, ih]

theorem spreadTail_sorted (d : Rat) (n : Nat) : ∀ delta : Rat, 0 < delta → (spreadTail d delta n).Pairwise (· < ·) := by
  induction n with
  | zero => intro _ _; simp [spreadTail]
  | succ n ih =>
    intro delta hd
    simp only [spreadTail, List.pairwise_cons]
    refine ⟨?_, ih _ (by linarith)⟩
    intro x hx
    -- all later elements are at least d + 2 delta
    have : ∀ (n : Nat) (e : Rat), 0 < e → ∀ x ∈ spreadTail d e n, d + e ≤ x := by
      intro n
      induction n with
      | zero => intro e _ x hx; simp [spreadTail] at hx
      | succ n ih2 =>
        intro e he x hx
        simp only [spreadTail, List.mem_cons] at hx
        rcases hx with rfl | hx
        · exact le_refl _
        · have := ih2 (e + e) (by linarith) x hx; linarith
    have := this n (delta + delta) (by linarith) x hx
    linarith

theorem groupDelta_pos (M d : Rat) (k : Nat) (next : Option Rat) (hM : 0 < M) (hk : 0 < k) (hn : ∀ x ∈ next, d < x) :
    0 < groupDelta M d k next := by
  unfold groupDelta
  have hk' : (0 : Rat) < k := by exact_mod_cast hk
  cases next with
  | none => simp [hM]
  | some x =>
    have : d < x := hn x (by simp)
    have hpos : 0 < (x - d) / k := div_pos (by linarith) hk'
    simp only
    split
    · exact hM
    · exact hpos

end Trappy
