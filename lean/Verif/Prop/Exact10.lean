import Verif.Prop.Aggregate
import Mathlib.Tactic.Ring
/-!
# C61: what repeated calls without an aggregation function give
-/

namespace Trappy

/-- the sum of the other nodes of the group is added to a cell -/
theorem foldSadd_cell (base : Nat → TSeries) (f : Nat → Rat) (i : Nat) (ns : List Nat) (acc : TSeries) (x : Rat)
    (hacc : (acc.map Prod.snd)[i]? = some (some x)) (hf : ∀ n ∈ ns, ((base n).map Prod.snd)[i]? = some (some (f n))) :
    ((ns.foldl (fun a m => saddVals a (base m)) acc).map Prod.snd)[i]? = some (some (x + (ns.map f).sum)) := by
  induction ns generalizing acc x with
  | nil => simpa using hacc
  | cons n ns ih =>
    have h1 := saddVals_snd acc (base n) i (some x) (some (f n)) hacc (hf n (by simp))
    have h2 := ih (saddVals acc (base n)) (x + f n) h1 fun m hm => hf m (by simp [hm])
    rw [List.foldl_cons, h2, List.map_cons, List.sum_cons, add_assoc]

theorem runPlain_group (index nodes : List Nat) (gs : List TrigGen) (base : Nat → TSeries) (g : Nat) (ns : List Nat) (hgn : g ∉ ns) (k : Nat) :
    ∀ (a : AggObj) (store : List (Nat × TSeries)) (acc : TSeries), a.prepare index nodes gs = .ok ⟨store, true⟩ → store.lookup g = some acc →
    (∀ n ∈ ns, store.lookup n = some (base n)) →
    ∃ v, (a.runPlain index nodes gs (List.replicate (k + 1) [g :: ns]))[k]? = some (.ok [v]) ∧
      ∀ (i : Nat) (f : Nat → Rat) (x : Rat), (acc.map Prod.snd)[i]? = some (some x) → (∀ n ∈ ns, ((base n).map Prod.snd)[i]? = some (some (f n))) →
        (v.map Prod.snd)[i]? = some (some (x + (k + 1) * (ns.map f).sum)) := by
  induction k with
  | zero =>
    intro a store acc hp hg hb
    obtain ⟨store', e1, e2, e3⟩ := addInPlace_ok g ns hgn base store acc hg hb
    refine ⟨ns.foldl (fun a m => saddVals a (base m)) acc, ?_, ?_⟩
    · simp only [List.replicate, AggObj.runPlain, AggObj.callPlain, hp, aggregatePlain, aggGroups, hg, e1, List.filterMap_cons, e2,
        List.filterMap_nil, List.getElem?_cons_zero]
    · intro i f x hx hf
      rw [foldSadd_cell base f i ns acc x hx hf]
      norm_num
  | succ k ih =>
    intro a store acc hp hg hb
    obtain ⟨store', e1, e2, e3⟩ := addInPlace_ok g ns hgn base store acc hg hb
    obtain ⟨v, h1, h2⟩ := ih ⟨store', true⟩ store' (ns.foldl (fun a m => saddVals a (base m)) acc) (by simp [AggObj.prepare]) e2 (by
      intro n hn
      rw [e3 n (by rintro rfl; exact hgn hn)]
      exact hb n hn)
    refine ⟨v, ?_, ?_⟩
    · rw [List.replicate_succ, AggObj.runPlain]
      simp only [AggObj.callPlain, hp, aggregatePlain, aggGroups, hg, e1, List.getElem?_cons_succ]
      exact h1
    · intro i f x hx hf
      rw [h2 i f _ (foldSadd_cell base f i ns acc x hx hf) hf]
      congr 2
      push_cast
      ring

/-- **C61 refuted without an aggregation function, for all data**: the n-th call for the same group gives the series of its first node plus
n times the sum of the series of the others. So the second call gives the sum of the group only where the others sum to zero. -/
theorem C61_accumulates_refuted (index nodes : List Nat) (hnd : nodes.Nodup) (gs : List TrigGen) (hgs : gs ≠ [])
    (hg : ∀ g ∈ gs, TrigOk index nodes g) (g : Nat) (ns : List Nat) (hgn : g ∉ ns) (hin : ∀ n ∈ g :: ns, n ∈ nodes) :
    ∃ base : Nat → TSeries, (∀ n ∈ nodes, IsBase index gs n (base n)) ∧ ∀ k, ∃ v,
      (AggObj.new.runPlain index nodes gs (List.replicate (k + 1) [g :: ns]))[k]? = some (.ok [v]) ∧
      ∀ (i : Nat) (f : Nat → Rat), (∀ n ∈ g :: ns, ((base n).map Prod.snd)[i]? = some (some (f n))) →
        (v.map Prod.snd)[i]? = some (some (f g + (k + 1) * (ns.map f).sum)) := by
  obtain ⟨store, h1, h2⟩ := C61_base index nodes hnd gs hgs hg
  have hbase : ∀ n, ∃ r, n ∈ nodes → store.lookup n = some r ∧ IsBase index gs n r := by
    intro n
    by_cases hn : n ∈ nodes
    · obtain ⟨r, hr⟩ := h2 n hn; exact ⟨r, fun _ => hr⟩
    · exact ⟨[], fun h => absurd h hn⟩
  choose base hb using hbase
  refine ⟨base, fun n hn => (hb n hn).2, fun k => ?_⟩
  obtain ⟨v, g1, g2⟩ := runPlain_group index nodes gs base g ns hgn k AggObj.new store (base g)
    (by simp [AggObj.prepare, AggObj.new, h1]) (hb g (hin g (by simp))).1 (fun n hn => (hb n (hin n (by simp [hn]))).1)
  exact ⟨v, g1, fun i f hf => g2 i f (f g) (hf g (by simp)) fun n hn => hf n (by simp [hn])⟩

/-- the hypotheses are met; the third call gives six instead of two -/
example : (∀ g ∈ [aggTrig], TrigOk [5, 7] [0, 1] g) ∧ (AggObj.new.runPlain [5, 7] [0, 1] [aggTrig] (List.replicate 3 [[0, 1]]))[2]? =
    some (.ok [[(5, some 1), (7, some 6)]]) :=
  ⟨by simpa using aggTrig_ok, by decide +kernel⟩

end Trappy
