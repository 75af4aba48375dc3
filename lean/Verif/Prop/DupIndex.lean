import Verif.Lemma.DupIndex
/-!
# C56, C57: duplicate times
-/

namespace Trappy

/-- the condition under which a group of equal times fits before the next time: at most three equal times, or a gap that
is wide enough for the doubled steps -/
def Roomy (M : Rat) (a : List Rat) : Prop :=
  ∀ d ∈ a, ∀ x ∈ a, d < x → (∀ y ∈ a, ¬ (d < y ∧ y < x)) → a.count d ≤ 3 ∨ M * 2 ^ (a.count d - 2) < x - d

theorem count_flat {g : Rat × Nat} {gs : List (Rat × Nat)} (h : GroupsOk (g :: gs)) : (flat (g :: gs)).count g.1 = g.2 := by
  have e : flat (g :: gs) = List.replicate g.2 g.1 ++ flat gs := by simp [flat]
  have h0 : (flat gs).count g.1 = 0 := by
    rw [List.count_eq_zero]
    intro hm
    exact lt_irrefl _ (h.lt _ hm)
  rw [e, List.count_append, h0]
  simp

theorem roomy_fits (M : Rat) (hM : 0 < M) (gs : List (Rat × Nat)) (h : GroupsOk gs) (hr : Roomy M (flat gs)) :
    SpreadFits M gs := by
  induction gs with
  | nil => trivial
  | cons g gs ih =>
    have hflat : flat (g :: gs) = List.replicate g.2 g.1 ++ flat gs := by simp [flat]
    refine ⟨?_, ih h.tail ?_⟩
    · intro x hx y hy
      cases gs with
      | nil => simp at hy
      | cons g1 gs =>
        simp at hy
        subst hy
        have hk := h.2 g (by simp)
        have hk1 := h.2 g1 (by simp)
        have hlt : g.1 < g1.1 := (List.pairwise_cons.mp h.1).1 _ (by simp)
        have hm1 : g1.1 ∈ flat (g1 :: gs) := by
          simp only [flat, List.flatMap_cons, List.mem_append, List.mem_replicate]
          left; exact ⟨by omega, trivial⟩
        have hroom := hr g.1 (by rw [hflat]; simp; left; omega) g1.1 (by rw [hflat]; simp [hm1]) hlt (by
          rintro y hy ⟨h1, h2⟩
          rw [hflat] at hy
          rcases List.mem_append.mp hy with hy | hy
          · rw [List.eq_of_mem_replicate hy] at h1; exact lt_irrefl _ h1
          · have e : flat (g1 :: gs) = List.replicate g1.2 g1.1 ++ flat gs := by simp [flat]
            rw [e] at hy
            rcases List.mem_append.mp hy with hy | hy
            · rw [List.eq_of_mem_replicate hy] at h2; exact lt_irrefl _ h2
            · have := h.tail.lt _ hy; exact lt_irrefl _ (lt_trans this h2))
        rw [count_flat h] at hroom
        have hdp := groupDelta_pos M g.1 g.2 (some g1.1) hM hk (by simpa using hlt)
        simp only [List.head?_cons, Option.map_some] at hx
        obtain ⟨_, hle⟩ := spreadTail_mem g.1 (g.2 - 1) _ hdp x hx
        have hk2 : 2 ≤ g.2 := by
          by_contra hc
          have : g.2 - 1 = 0 := by omega
          rw [this] at hx
          simp [spreadTail] at hx
        have hd1 : groupDelta M g.1 g.2 (some g1.1) ≤ M := by
          unfold groupDelta; simp only; split
          · exact le_refl _
          · rename_i h; exact not_lt.mp h
        have hkq : (0 : Rat) < g.2 := by exact_mod_cast hk
        have hd2 : groupDelta M g.1 g.2 (some g1.1) * g.2 ≤ g1.1 - g.1 := by
          unfold groupDelta; simp only; split
          · rename_i h; exact le_of_lt (by rwa [lt_div_iff₀ hkq] at h)
          · rw [div_mul_cancel₀ _ (ne_of_gt hkq)]
        rcases hroom with h3 | h3
        · have : g.2 = 2 ∨ g.2 = 3 := by omega
          rcases this with e | e
          · rw [e] at hle hd2 hdp
            norm_num at hle hd2
            linarith
          · rw [e] at hle hd2 hdp
            norm_num at hle hd2
            linarith
        · have e : g.2 - 1 - 1 = g.2 - 2 := by omega
          rw [e] at hle
          have hp : (0 : Rat) ≤ 2 ^ (g.2 - 2) := by positivity
          have := mul_le_mul_of_nonneg_right hd1 hp
          linarith
    · intro d hd x hx hdx hno
      have hd' := h.lt d hd
      have := hr d (by rw [hflat]; simp [hd]) x (by rw [hflat]; simp [hx]) hdx (by
        rintro y hy ⟨h1, h2⟩
        rw [hflat] at hy
        rcases List.mem_append.mp hy with hy | hy
        · rw [List.eq_of_mem_replicate hy] at h1
          exact lt_irrefl _ (lt_trans h1 hd')
        · exact hno y hy ⟨h1, h2⟩)
      have hc : (flat (g :: gs)).count d = (flat gs).count d := by
        rw [hflat, List.count_append, List.count_eq_zero.mpr, Nat.zero_add]
        intro hm
        rw [List.eq_of_mem_replicate hm] at hd'
        exact lt_irrefl _ hd'
      rwa [hc] at this

theorem spreadAll_ge (M : Rat) (hM : 0 < M) (gs : List (Rat × Nat)) (h : GroupsOk gs) :
    ∀ x ∈ spreadAll M gs, ∀ y ∈ gs.head?.map Prod.fst, y ≤ x := by
  induction gs with
  | nil => simp [spreadAll]
  | cons g gs ih =>
    intro x hx y hy
    simp at hy
    subst hy
    have hk := h.2 g (by simp)
    simp only [spreadAll] at hx
    rcases List.mem_append.mp hx with hx | hx
    · rcases List.mem_cons.mp hx with rfl | hx
      · exact le_refl _
      · refine (spreadTail_mem g.1 _ _ (groupDelta_pos M g.1 g.2 _ hM hk ?_) x hx).1.le
        intro y hy
        cases gs with
        | nil => simp at hy
        | cons g1 gs => simp at hy; rw [← hy]; exact (List.pairwise_cons.mp h.1).1 _ (by simp)
    · cases gs with
      | nil => simp [spreadAll] at hx
      | cons g1 gs =>
        have := ih h.tail x hx g1.1 (by simp)
        exact le_trans ((List.pairwise_cons.mp h.1).1 g1.1 (by simp)).le this

theorem spreadAll_sorted (M : Rat) (hM : 0 < M) (gs : List (Rat × Nat)) (h : GroupsOk gs) (hf : SpreadFits M gs) :
    (spreadAll M gs).Pairwise (· < ·) := by
  induction gs with
  | nil => simp [spreadAll]
  | cons g gs ih =>
    have hk := h.2 g (by simp)
    have hdp : 0 < groupDelta M g.1 g.2 (gs.head?.map Prod.fst) := by
      apply groupDelta_pos M g.1 g.2 _ hM hk
      intro y hy
      cases gs with
      | nil => simp at hy
      | cons g1 gs => simp at hy; rw [← hy]; exact (List.pairwise_cons.mp h.1).1 _ (by simp)
    simp only [spreadAll]
    rw [List.pairwise_append]
    refine ⟨?_, ih h.tail hf.2, ?_⟩
    · rw [List.pairwise_cons]
      exact ⟨fun x hx => (spreadTail_mem g.1 _ _ hdp x hx).1, spreadTail_sorted g.1 _ _ hdp⟩
    · intro x hx y hy
      cases gs with
      | nil => simp [spreadAll] at hy
      | cons g1 gs =>
        have h1 := spreadAll_ge M hM _ h.tail y hy g1.1 (by simp)
        rcases List.mem_cons.mp hx with rfl | hx
        · exact lt_of_lt_of_le ((List.pairwise_cons.mp h.1).1 g1.1 (by simp)) h1
        · exact lt_of_lt_of_le (hf.1 x hx g1.1 (by simp)) h1

theorem spreadAll_first (M : Rat) (gs : List (Rat × Nat)) (h : GroupsOk gs) (i : Nat)
    (hi : i = 0 ∨ (flat gs)[i - 1]? ≠ (flat gs)[i]?) : (spreadAll M gs)[i]? = (flat gs)[i]? := by
  induction gs generalizing i with
  | nil => simp [spreadAll, flat]
  | cons g gs ih =>
    have hk := h.2 g (by simp)
    have e : flat (g :: gs) = List.replicate g.2 g.1 ++ flat gs := by simp [flat]
    have hlen : (g.1 :: spreadTail g.1 (groupDelta M g.1 g.2 (gs.head?.map Prod.fst)) (g.2 - 1)).length = g.2 := by
      simp [spreadTail_length]; omega
    rw [e] at hi ⊢
    simp only [spreadAll]
    by_cases hik : i < g.2
    · have h0 : i = 0 := by
        rcases hi with hi | hi
        · exact hi
        · by_contra hne
          apply hi
          rw [List.getElem?_append_left (by simp; omega), List.getElem?_append_left (by simpa using hik)]
          rw [List.getElem?_replicate, List.getElem?_replicate, if_pos (by omega), if_pos hik]
      subst h0
      rw [List.getElem?_append_left (by simp), List.getElem?_append_left (by simpa using hik), List.getElem?_replicate,
        if_pos hik]
      simp
    · rw [List.getElem?_append_right (by rw [hlen]; omega), List.getElem?_append_right (by simpa using hik), hlen,
        List.length_replicate]
      apply ih h.tail
      rcases hi with hi | hi
      · omega
      · by_cases h0 : i - g.2 = 0
        · left; exact h0
        · right
          rw [List.getElem?_append_right (by simp; omega), List.getElem?_append_right (by simpa using hik)] at hi
          simp only [List.length_replicate] at hi
          have e2 : i - 1 - g.2 = i - g.2 - 1 := by omega
          rwa [e2] at hi

theorem spreadAll_length (M : Rat) (gs : List (Rat × Nat)) (h : GroupsOk gs) : (spreadAll M gs).length = (flat gs).length := by
  induction gs with
  | nil => rfl
  | cons g gs ih =>
    have hk := h.2 g (by simp)
    have e : flat (g :: gs) = List.replicate g.2 g.1 ++ flat gs := by simp [flat]
    rw [e]
    simp only [spreadAll, List.length_append, ih h.tail, List.length_cons, spreadTail_length, List.length_replicate]
    omega

/-- **C56, part proved.** For every sorted series and every positive `max_delta`: if every group of equal times has at
most three entries or a gap after it that is wide enough, the new times strictly increase. -/
theorem C56_unique_partial {β : Type} (M : Rat) (hM : 0 < M) (s : List (Rat × β)) (hs : (s.map Prod.fst).Pairwise (· ≤ ·))
    (hr : Roomy M (s.map Prod.fst)) : ((handleDup M s).map Prod.fst).Pairwise (· < ·) := by
  obtain ⟨gs, hg, e⟩ := exists_groups _ hs
  have hf := roomy_fits M hM gs hg (by rwa [← e])
  unfold handleDup
  rw [List.map_fst_zip]
  · rw [e, fixIndex_groups M gs hg hf]
    exact spreadAll_sorted M hM gs hg hf
  · rw [e, fixIndex_groups M gs hg hf, spreadAll_length M gs hg, ← e]; simp

/-- **C57, part proved.** Under the same condition all rows are kept in order, and the times of unique entries and of the
first entry of each group are unchanged. -/
theorem C57_rows_partial {β : Type} (M : Rat) (hM : 0 < M) (s : List (Rat × β)) (hs : (s.map Prod.fst).Pairwise (· ≤ ·))
    (hr : Roomy M (s.map Prod.fst)) :
    (handleDup M s).map Prod.snd = s.map Prod.snd ∧
    ∀ i : Nat, (i = 0 ∨ (s.map Prod.fst)[i - 1]? ≠ (s.map Prod.fst)[i]?) → (handleDup M s)[i]? = s[i]? := by
  obtain ⟨gs, hg, e⟩ := exists_groups _ hs
  have hf := roomy_fits M hM gs hg (by rwa [← e])
  have hlen : (fixIndex M (s.map Prod.fst)).length = (s.map Prod.snd).length := by
    rw [e, fixIndex_groups M gs hg hf, spreadAll_length M gs hg, ← e]; simp
  unfold handleDup
  refine ⟨List.map_snd_zip (by omega), ?_⟩
  intro i hi
  have h1 : (fixIndex M (s.map Prod.fst))[i]? = (s.map Prod.fst)[i]? := by
    rw [e, fixIndex_groups M gs hg hf]
    apply spreadAll_first M gs hg
    rwa [← e]
  rw [List.zip, List.getElem?_zipWith, h1]
  simp only [List.getElem?_map]
  cases s[i]? <;> rfl

theorem addDeltas_length (n i : Nat) (d : Rat) (a : List Rat) : (addDeltas n i d a).length = a.length := by
  induction n generalizing i d a with
  | zero => rfl
  | succ n ih => simp [addDeltas, ih]

/-- **C57.** For every input, sorted or not, and all group sizes: no row is lost and the order of the rows is kept. -/
theorem C57_rows {β : Type} (M : Rat) (s : List (Rat × β)) : (handleDup M s).map Prod.snd = s.map Prod.snd := by
  have : ∀ (ds a : List Rat), (ds.foldl (fixGroup M) a).length = a.length := by
    intro ds
    induction ds with
    | nil => intro a; rfl
    | cons d ds ih => intro a; rw [List.foldl_cons, ih]; exact addDeltas_length _ _ _ _
  unfold handleDup
  apply List.map_snd_zip
  unfold fixIndex
  rw [this]
  simp

theorem dupsAux_nodup (a : List Rat) : ∀ seen : List Rat, a.Nodup → (∀ x ∈ a, x ∉ seen) → dupsAux seen [] a = [] := by
  induction a with
  | nil => intro seen _ _; rfl
  | cons x a ih =>
    intro seen h1 h2
    rw [List.nodup_cons] at h1
    rw [dupsAux, if_neg (h2 x (by simp))]
    apply ih _ h1.2
    intro y hy hm
    rcases List.mem_cons.mp hm with rfl | hm
    · exact h1.1 hy
    · exact h2 y (by simp [hy]) hm

/-- **C57.** Without duplicates nothing changes, sorted or not. -/
theorem C57_identity {β : Type} (M : Rat) (s : List (Rat × β)) (h : (s.map Prod.fst).Nodup) : handleDup M s = s := by
  unfold handleDup fixIndex dupsOf
  rw [dupsAux_nodup _ [] h (by simp)]
  simp only [List.foldl_nil]
  rw [List.zip_map']
  simp

theorem insertByLine_perm {β : Type} (x : Rat × Nat × β) (l : List (Rat × Nat × β)) : (insertByLine x l).Perm (x :: l) := by
  induction l with
  | nil => exact .refl _
  | cons y ys ih =>
    unfold insertByLine
    split
    · exact (ih.cons y).trans (.swap x y ys)
    · exact .refl _

/-- rows in the order of time, then line -/
def RowLe {β : Type} (x y : Rat × Nat × β) : Prop := x.1 < y.1 ∨ (x.1 = y.1 ∧ x.2.1 ≤ y.2.1)

theorem RowLe.trans {β : Type} {x y z : Rat × Nat × β} (h1 : RowLe x y) (h2 : RowLe y z) : RowLe x z := by
  rcases h1 with h1 | ⟨h1, h1'⟩ <;> rcases h2 with h2 | ⟨h2, h2'⟩
  · exact Or.inl (lt_trans h1 h2)
  · exact Or.inl (h2 ▸ h1)
  · exact Or.inl (h1 ▸ h2)
  · exact Or.inr ⟨h1.trans h2, le_trans h1' h2'⟩

theorem sortByLine_spec {β : Type} (l : List (Rat × Nat × β)) : (sortByLine l).Perm l ∧ (sortByLine l).Pairwise RowLe := by
  induction l with
  | nil => exact ⟨.refl _, .nil⟩
  | cons x l ih =>
    refine ⟨(insertByLine_perm x _).trans (ih.1.cons x), ?_⟩
    simp only [sortByLine]
    have hs := ih.2
    generalize sortByLine l = m at hs
    clear ih
    induction m with
    | nil => simp [insertByLine]
    | cons y ys ih =>
      have hs := List.pairwise_cons.mp hs
      unfold insertByLine
      split
      · rename_i h
        refine List.pairwise_cons.mpr ⟨?_, ih hs.2⟩
        intro z hz
        rcases List.mem_cons.mp ((insertByLine_perm x ys).mem_iff.mp hz) with rfl | hz
        · exact h
        · exact hs.1 z hz
      · rename_i h
        refine List.pairwise_cons.mpr ⟨?_, List.pairwise_cons.mpr hs⟩
        have hxy : RowLe x y := by
          by_cases h1 : x.1 < y.1
          · exact Or.inl h1
          · have h2 : ¬ y.1 < x.1 := fun hh => h (Or.inl hh)
            have h3 : x.1 = y.1 := le_antisymm (not_lt.mp h2) (not_lt.mp h1)
            right
            refine ⟨h3, ?_⟩
            by_contra hc
            exact h (Or.inr ⟨h3.symm, by omega⟩)
        intro z hz
        rcases List.mem_cons.mp hz with rfl | hz
        · exact hxy
        · exact hxy.trans (hs.1 z hz)

/-- **C57** for tables: the rows come out in the order of their times and, for equal times, of their lines; none is lost;
and under the condition of C56 the new times strictly increase in that order. -/
theorem C57_frame {β : Type} (M : Rat) (hM : 0 < M) (s : List (Rat × Nat × β)) (hr : Roomy M (s.map Prod.fst)) :
    (∃ t : List (Rat × Nat × β), t.Perm s ∧ t.Pairwise RowLe ∧ (handleDupFrame M s).map Prod.snd = t.map Prod.snd) ∧
    ((handleDupFrame M s).map Prod.fst).Pairwise (· < ·) := by
  obtain ⟨h1, h2⟩ := sortByLine_spec s
  refine ⟨⟨sortByLine s, h1, h2, C57_rows M _⟩, ?_⟩
  apply C56_unique_partial M hM
  · rw [List.pairwise_map]
    refine h2.imp ?_
    intro a b h
    rcases h with h | ⟨h, _⟩
    · exact h.le
    · exact h.le
  · have hp : ((sortByLine s).map Prod.fst).Perm (s.map Prod.fst) := h1.map _
    intro d hd x hx hdx hno
    rw [hp.count_eq]
    exact hr d (hp.mem_iff.mp hd) x (hp.mem_iff.mp hx) hdx (fun y hy => hno y (hp.mem_iff.mpr hy))

/-- the conditions are met: three equal times one microsecond before the next, and six at the end -/
def exDups : List (Rat × Nat) := [(1, 0), (2, 1), (2, 2), (2, 3), (2000001 / 1000000, 4), (3, 5), (3, 6), (3, 7), (3, 8), (3, 9), (3, 10)]

example : (exDups.map Prod.fst).Pairwise (· ≤ ·) ∧ Roomy (1 / 1000000) (exDups.map Prod.fst) ∧
    (handleDup (1 / 1000000) exDups).map Prod.fst = [1, 2, 2 + 1 / 3000000, 2 + 2 / 3000000, 2000001 / 1000000, 3, 3000001 / 1000000,
      3000002 / 1000000, 3000004 / 1000000, 3000008 / 1000000, 3000016 / 1000000] := by
  refine ⟨by decide +kernel, by unfold Roomy; decide +kernel, by decide +kernel⟩

/-- **C56 refuted**: for every group of four or more equal times followed by a time that is not more than
`max_delta * 2 ^ (k - 2)` later (one microsecond for the default and four entries), the new times do not strictly
increase. Times in a trace have a resolution of one microsecond. -/
theorem C56_four_duplicates_refuted (M d g : Rat) (k : Nat) (hM : 0 < M) (hk : 4 ≤ k) (hg : 0 < g) (hle : g ≤ M * 2 ^ (k - 2)) :
    ¬ (fixIndex M (List.replicate k d ++ [d + g])).Pairwise (· < ·) := by
  have hok : GroupsOk [(d, k), (d + g, 1)] := ⟨by simp [hg], by simp; omega⟩
  have e : List.replicate k d ++ [d + g] = flat [(d, k), (d + g, 1)] := by simp [flat]
  have hdups : dupsOf (List.replicate k d ++ [d + g]) = [d] := by
    rw [e, dupsOf_flat _ hok]
    have : 2 ≤ k := by omega
    simp [this]
  have hfix := fixGroup_eq M d [] [d + g] k (by omega) (by simp) (by simp [hg])
  unfold fixIndex
  rw [hdups, List.foldl_cons, List.foldl_nil]
  rw [List.nil_append, List.nil_append] at hfix
  rw [hfix]
  have hkq : (0 : Rat) < k := by exact_mod_cast (by omega : 0 < k)
  have hpow : ∀ k : Nat, 4 ≤ k → k ≤ 2 ^ (k - 2) := by
    intro k hk
    obtain ⟨n, rfl⟩ : ∃ n, k = n + 4 := ⟨k - 4, by omega⟩
    clear hk
    induction n with
    | zero => decide
    | succ n ih =>
      have e : n + 1 + 4 - 2 = (n + 4 - 2) + 1 := by omega
      rw [e, Nat.pow_succ]; omega
  have hpowq : (k : Rat) ≤ 2 ^ (k - 2) := by exact_mod_cast hpow k hk
  -- the step of the last entry reaches the next time
  have hlast : g ≤ groupDelta M d k (some (d + g)) * 2 ^ (k - 2) := by
    unfold groupDelta
    simp only [add_sub_cancel_left]
    split
    · exact hle
    · rw [div_mul_eq_mul_div, le_div_iff₀ hkq]
      exact mul_le_mul_of_nonneg_left hpowq hg.le
  -- the last entry
  have hmem : ∀ (n : Nat) (delta : Rat), d + delta * 2 ^ n ∈ spreadTail d delta (n + 1) := by
    intro n
    induction n with
    | zero => intro delta; simp [spreadTail]
    | succ n ih =>
      intro delta
      rw [spreadTail]
      have := ih (delta + delta)
      rw [show d + delta * 2 ^ (n + 1) = d + (delta + delta) * 2 ^ n by rw [pow_succ]; ring]
      exact List.mem_cons_of_mem _ this
  intro hp
  rw [List.pairwise_append] at hp
  have hk1 : k - 1 = (k - 2) + 1 := by omega
  have := hp.2.2 (d + groupDelta M d k (some (d + g)) * 2 ^ (k - 2)) (by
    rw [hk1]
    exact List.mem_cons_of_mem _ (hmem (k - 2) _)) (d + g) (by simp)
  linarith

/-- **C56 refuted**, concretely: two rows end up with the same time. -/
theorem C56_collision_refuted :
    (handleDup (1 / 1000000) [(1, cs!"a"), (1, cs!"b"), (1, cs!"c"), (1, cs!"d"), (1000001 / 1000000, cs!"e")]).map Prod.fst =
      [1, 1 + 1 / 4000000, 1 + 1 / 2000000, 1000001 / 1000000, 1000001 / 1000000] := by decide +kernel

/-- **C57 refuted** (times of first entries): five equal times, then two more five microseconds later. The first group
runs past the second, the search then mistakes where the second begins, and its first entry is moved. -/
theorem C57_first_moved_refuted :
    fixIndex (1 / 1000000) [0, 0, 0, 0, 0, 5 / 1000000, 5 / 1000000] =
      [0, 1 / 1000000, 2 / 1000000, 4 / 1000000, 8 / 1000000, 6 / 1000000, 7 / 1000000] := by decide +kernel

end Trappy
