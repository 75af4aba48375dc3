import Verif.Prop.LinePage
/-!
# C178: the order of the rows of synchronised plots
-/

namespace Trappy

/-- **Specification**: the rows of a plot are its own ones, `d`, possibly with a row before and one after them -/
def RowsOf (d : List Rat) (g : LineGraph) : Prop :=
  (g.padFront = false ∧ g.padBack = false ∧ g.raw = d) ∨ (g.padFront = true ∧ g.padBack = true ∧ ∃ lo hi, g.raw = lo :: d ++ [hi])

theorem syncGraph_raw {d : List Rat} {g : LineGraph} (h : RowsOf d g) (x y : Rat × Rat) :
    (syncGraph x y g).raw = x.1 :: d ++ [x.2] ∧ RowsOf d (syncGraph x y g) := by
  have : (syncGraph x y g).raw = x.1 :: d ++ [x.2] := by
    rcases h with ⟨h1, h2, h3⟩ | ⟨h1, h2, lo, hi, h3⟩
    · simp [syncGraph, padFront, padBack, h1, h2, h3]
    · have e : (x.1 :: (d ++ [hi])).dropLast = x.1 :: d := by
        rw [← List.cons_append, List.dropLast_concat]
      simp [syncGraph, padFront, padBack, h1, h2, h3, e]
  exact ⟨this, .inr ⟨rfl, rfl, _, _, this⟩⟩

theorem padded_sorted {d : List Rat} (hd : d.Pairwise (· ≤ ·)) (hne : d ≠ []) (lo hi : Rat) :
    (lo :: d ++ [hi]).Pairwise (· ≤ ·) ↔ (∀ t ∈ d, lo ≤ t) ∧ ∀ t ∈ d, t ≤ hi := by
  rw [List.pairwise_append, List.pairwise_cons]
  constructor
  · rintro ⟨⟨h1, _⟩, _, h2⟩
    exact ⟨h1, fun t ht => h2 t (List.mem_cons_of_mem _ ht) hi (by simp)⟩
  · rintro ⟨h1, h2⟩
    refine ⟨⟨h1, hd⟩, List.pairwise_singleton _ _, ?_⟩
    intro a ha b hb
    have hb : b = hi := by simpa using hb
    subst hb
    rcases List.mem_cons.1 ha with rfl | ha
    · obtain ⟨t, ht⟩ := List.exists_mem_of_ne_nil d hne
      exact le_trans (h1 t ht) (h2 t ht)
    · exact h2 a ha

/-- **C178, exactly.** When a group of at least two plots is synchronised, the rows of a plot of it are in the order of time afterwards if and only if
some plot of the group shows a range that starts at or before all rows of this one, and some plot one that ends at or after them. -/
theorem C178_exact (group : Str) (graphs : Dict LineGraph) (h2 : 2 ≤ (inGroup group graphs).length) (name : Str) (g : LineGraph)
    (hg : (name, g) ∈ graphs) (hgr : g.group = group) (d : List Rat) (hd : RowsOf d g) (hs : d.Pairwise (· ≤ ·)) (hne : d ≠ []) :
    ∃ g', (name, g') ∈ syncGroup group graphs ∧ RowsOf d g' ∧
      (g'.raw.Pairwise (· ≤ ·) ↔
        (∃ q ∈ inGroup group graphs, ∀ t ∈ d, q.xr.1 ≤ t) ∧ ∃ q ∈ inGroup group graphs, ∀ t ∈ d, t ≤ q.xr.2) := by
  have hfold : ∀ (f : LineGraph → Rat × Rat) (l : List LineGraph) (acc : Option (Rat × Rat)),
      l.foldl (fun acc g => widen acc (f g)) acc = (l.map f).foldl widen acc := by
    intro f l
    induction l with
    | nil => intro acc; rfl
    | cons a l ih => intro acc; simp [ih]
  have hne' : inGroup group graphs ≠ [] := by intro e; rw [e] at h2; simp at h2
  obtain ⟨x, hx, hxu⟩ := union_spec ((inGroup group graphs).map (·.xr)) (by simpa using hne')
  obtain ⟨y, hy, hyu⟩ := union_spec ((inGroup group graphs).map (·.yr)) (by simpa using hne')
  have hsync : syncGroup group graphs = graphs.map fun g => if g.2.group = group then (g.1, syncGraph x y g.2) else g := by
    unfold syncGroup
    simp only [hfold (·.xr), hfold (·.yr)]
    unfold inGroup at hx hy h2
    rw [hx, hy]
    simp only [ge_iff_le, if_pos h2]
  obtain ⟨k1, k2⟩ := syncGraph_raw hd x y
  refine ⟨syncGraph x y g, ?_, k2, ?_⟩
  · rw [hsync]
    exact List.mem_map.2 ⟨(name, g), hg, by simp [hgr]⟩
  · rw [k1, padded_sorted hs hne]
    obtain ⟨u1, ⟨l, hl, hl'⟩, ⟨m, hm, hm'⟩⟩ := hxu
    obtain ⟨ql, hql, rfl⟩ := List.mem_map.1 hl
    obtain ⟨qm, hqm, rfl⟩ := List.mem_map.1 hm
    constructor
    · rintro ⟨a, b⟩
      exact ⟨⟨ql, hql, fun t ht => by rw [hl']; exact a t ht⟩, ⟨qm, hqm, fun t ht => by rw [hm']; exact b t ht⟩⟩
    · rintro ⟨⟨q, hq, a⟩, ⟨r, hr, b⟩⟩
      exact ⟨fun t ht => le_trans (u1 _ (List.mem_map.2 ⟨q, hq, rfl⟩)).1 (a t ht),
        fun t ht => le_trans (b t ht) (u1 _ (List.mem_map.2 ⟨r, hr, rfl⟩)).2⟩

/-- one plot from 0 to 10 and one from 2 to 3: both have all rows in order; with both zoomed to 2..3 the first has not -/
example :
    let a : LineGraph := ⟨cs!"g", (0, 10), (0, 1), [0, 5, 10], false, false⟩
    let b : LineGraph := ⟨cs!"g", (2, 3), (0, 1), [2, 3], false, false⟩
    ((syncGroup cs!"g" [(cs!"a", a), (cs!"b", b)]).map fun q => q.2.raw) = [[0, 0, 5, 10, 10], [0, 2, 3, 10]] ∧
    ((syncGroup cs!"g" [(cs!"a", { a with xr := (2, 3) }), (cs!"b", b)]).map fun q => q.2.raw) = [[2, 0, 5, 10, 3], [2, 2, 3, 3]] := by
  decide +kernel

/-! ## Pages on which nothing was zoomed -/

/-- the rows of a plot are in order and in its range -/
def LineGraph.Good (g : LineGraph) : Prop :=
  g.raw.Pairwise (· ≤ ·) ∧ (∀ t ∈ g.raw, g.xr.1 ≤ t ∧ t ≤ g.xr.2) ∧ g.xr.1 ≤ g.xr.2

theorem syncGraph_good {g : LineGraph} (h : g.Good) (x y : Rat × Rat) (hx : x.1 ≤ g.xr.1 ∧ g.xr.2 ≤ x.2) : (syncGraph x y g).Good := by
  obtain ⟨h1, h2, h3⟩ := h
  have hlh : x.1 ≤ x.2 := le_trans hx.1 (le_trans h3 hx.2)
  have hall : ∀ t ∈ g.raw, x.1 ≤ t ∧ t ≤ x.2 := fun t ht => ⟨le_trans hx.1 (h2 t ht).1, le_trans (h2 t ht).2 hx.2⟩
  have hf : (padFront x.1 g.padFront g.raw).Pairwise (· ≤ ·) ∧ ∀ t ∈ padFront x.1 g.padFront g.raw, x.1 ≤ t ∧ t ≤ x.2 := by
    unfold padFront
    split
    · split
      · exact ⟨List.Pairwise.nil, by simp⟩
      · rename_i a rest he
        rw [he] at h1 hall
        refine ⟨List.pairwise_cons.2 ⟨fun t ht => (hall t (List.mem_cons_of_mem _ ht)).1, (List.pairwise_cons.1 h1).2⟩, ?_⟩
        intro t ht
        rcases List.mem_cons.1 ht with rfl | ht
        · exact ⟨le_refl _, hlh⟩
        · exact hall t (List.mem_cons_of_mem _ ht)
    · refine ⟨List.pairwise_cons.2 ⟨fun t ht => (hall t ht).1, h1⟩, ?_⟩
      intro t ht
      rcases List.mem_cons.1 ht with rfl | ht
      · exact ⟨le_refl _, hlh⟩
      · exact hall t ht
  have hb : ∀ l : List Rat, l.Pairwise (· ≤ ·) → (∀ t ∈ l, x.1 ≤ t ∧ t ≤ x.2) →
      (l ++ [x.2]).Pairwise (· ≤ ·) ∧ ∀ t ∈ l ++ [x.2], x.1 ≤ t ∧ t ≤ x.2 := by
    intro l p1 p2
    constructor
    · rw [List.pairwise_append]
      refine ⟨p1, List.pairwise_singleton _ _, fun a ha b hb => ?_⟩
      have hb : b = x.2 := by simpa using hb
      rw [hb]; exact (p2 a ha).2
    · intro t ht
      rcases List.mem_append.1 ht with ht | ht
      · exact p2 t ht
      · have ht : t = x.2 := by simpa using ht
        rw [ht]; exact ⟨hlh, le_refl _⟩
  have hraw : (syncGraph x y g).raw = padBack x.2 g.padBack (padFront x.1 g.padFront g.raw) := rfl
  have key : (syncGraph x y g).raw.Pairwise (· ≤ ·) ∧ ∀ t ∈ (syncGraph x y g).raw, x.1 ≤ t ∧ t ≤ x.2 := by
    rw [hraw]
    unfold padBack
    split
    · exact hb _ (hf.1.sublist (List.dropLast_sublist _)) fun t ht => hf.2 t (List.mem_of_mem_dropLast ht)
    · exact hb _ hf.1 hf.2
  exact ⟨key.1, key.2, hlh⟩

theorem syncGroup_good (group : Str) (graphs : Dict LineGraph) (h : ∀ q ∈ graphs, q.2.Good) : ∀ q ∈ syncGroup group graphs, q.2.Good := by
  by_cases h2 : 2 ≤ (inGroup group graphs).length
  · have hfold : ∀ (f : LineGraph → Rat × Rat) (l : List LineGraph) (acc : Option (Rat × Rat)),
        l.foldl (fun acc g => widen acc (f g)) acc = (l.map f).foldl widen acc := by
      intro f l
      induction l with
      | nil => intro acc; rfl
      | cons a l ih => intro acc; simp [ih]
    have hne' : inGroup group graphs ≠ [] := by intro e; rw [e] at h2; simp at h2
    obtain ⟨x, hx, hxu⟩ := union_spec ((inGroup group graphs).map (·.xr)) (by simpa using hne')
    obtain ⟨y, hy, hyu⟩ := union_spec ((inGroup group graphs).map (·.yr)) (by simpa using hne')
    have hsync : syncGroup group graphs = graphs.map fun g => if g.2.group = group then (g.1, syncGraph x y g.2) else g := by
      unfold syncGroup
      simp only [hfold (·.xr), hfold (·.yr)]
      unfold inGroup at hx hy h2
      rw [hx, hy]
      simp only [ge_iff_le, if_pos h2]
    rw [hsync]
    intro q hq
    obtain ⟨r, hr, rfl⟩ := List.mem_map.1 hq
    by_cases hg : r.2.group = group
    · rw [if_pos hg]
      refine syncGraph_good (h r hr) x y (hxu.1 _ (List.mem_map.2 ⟨r.2, ?_, rfl⟩))
      exact List.mem_map.2 ⟨r, List.mem_filter.2 ⟨hr, by simpa using hg⟩, rfl⟩
    · rw [if_neg hg]; exact h r hr
  · rw [(C133_ranges group graphs).2 (by omega)]
    exact h

/-- **Specification**: a figure is drawn with its rows in order and within the range that it shows; or output is removed -/
def PageEvent.Plain : PageEvent → Prop
  | .figure _ _ x _ raw _ => raw.Pairwise (· ≤ ·) ∧ (∀ t ∈ raw, x.1 ≤ t ∧ t ≤ x.2) ∧ x.1 ≤ x.2
  | .removed _ => True
  | .zoomed _ _ _ => False

/-- **C178.** As long as no figure is drawn with limits within its data and nothing is zoomed, the rows of all figures are in the order
of time, whatever is drawn and removed. -/
theorem C178_plain_partial (es : List PageEvent) (h : ∀ e ∈ es, e.Plain) (name : Str) (g : LineGraph)
    (hg : (name, g) ∈ (pageRun LinePage.empty es).graphs) : g.raw.Pairwise (· ≤ ·) := by
  have key : ∀ (es : List PageEvent) (p : LinePage), (∀ e ∈ es, e.Plain) → (∀ q ∈ p.graphs, q.2.Good) →
      ∀ q ∈ (pageRun p es).graphs, q.2.Good := by
    intro es
    induction es with
    | nil => exact fun p _ hp => hp
    | cons e es ih =>
      intro p he hp
      refine ih (pageEvent p e) (fun e' he' => he e' (List.mem_cons_of_mem _ he')) ?_
      have hp' := he e List.mem_cons_self
      cases e with
      | figure n gr x y raw z =>
        refine syncGroup_good gr _ ?_
        intro q hq
        rcases dict_mem_set (List.mem_filter.1 hq).1 with rfl | hq
        · exact hp'
        · exact hp q hq
      | removed ns => exact hp
      | zoomed n x y => exact hp'.elim
  exact (key es LinePage.empty h (by intro q hq; cases hq) _ hg).1

example : (∀ e ∈ [PageEvent.figure cs!"a" cs!"g" (0, 10) (0, 1) [0, 5, 10] true, .figure cs!"b" cs!"g" (2, 12) (0, 1) [2, 12] true], e.Plain) ∧
    ((pageRun LinePage.empty [.figure cs!"a" cs!"g" (0, 10) (0, 1) [0, 5, 10] true, .figure cs!"b" cs!"g" (2, 12) (0, 1) [2, 12] true]).graphs.map
      fun q => q.2.raw) = [[0, 0, 5, 10, 12], [0, 2, 12, 12]] := by
  refine ⟨?_, by decide +kernel⟩
  intro e he
  simp only [List.mem_cons, List.not_mem_nil, or_false] at he
  rcases he with rfl | rfl
  · exact ⟨by decide +kernel, by decide +kernel, by decide +kernel⟩
  · exact ⟨by decide +kernel, by decide +kernel, by decide +kernel⟩

/-- **C178 (refuted with limits).** Two figures of one plot, or of one group, with the same limits `x` (`xlim` of `ILinePlot`): if the first
has a row before the limits, or after them, its rows are not in the order of time. With `xlim` the row before the limits and the one
after them are always kept (C95). -/
theorem C178_limits_refuted (a b group : Str) (hab : a ≠ b) (x y y' : Rat × Rat) (d d' : List Rat) (z z' : Bool)
    (ht : (∃ t ∈ d, t < x.1) ∨ ∃ t ∈ d, x.2 < t) :
    ∃ g, (a, g) ∈ (pageRun LinePage.empty [.figure a group x y d z, .figure b group x y' d' z']).graphs ∧ ¬ g.raw.Pairwise (· ≤ ·) := by
  have e1 : (pageRun LinePage.empty [.figure a group x y d z]).graphs = [(a, ⟨group, x, y, d, false, false⟩)] := by
    simp [pageRun, pageEvent, LinePage.empty, Dict.set, purgeGraphs, syncGroup, widen]
  have e2 : (pageRun LinePage.empty [.figure a group x y d z]).divs = [a] := rfl
  let A : LineGraph := ⟨group, x, y, d, false, false⟩
  let B : LineGraph := ⟨group, x, y', d', false, false⟩
  have e3 : (pageRun LinePage.empty [.figure a group x y d z, .figure b group x y' d' z']).graphs = syncGroup group [(a, A), (b, B)] := by
    show (pageEvent (pageRun LinePage.empty [.figure a group x y d z]) (.figure b group x y' d' z')).graphs = _
    simp only [pageEvent, e1, e2]
    simp [Dict.set, hab, purgeGraphs, A, B]
  have hs : syncGroup group [(a, A), (b, B)] = [(a, syncGraph x (min y.1 y'.1, max y.2 y'.2) A), (b, syncGraph x (min y.1 y'.1, max y.2 y'.2) B)] := by
    simp only [syncGroup, A, B, List.filter_cons, List.filter_nil, List.map_cons, List.map_nil, List.foldl_cons, List.foldl_nil, widen,
      decide_true, if_true, List.length_cons, List.length_nil]
    simp only [lt_irrefl, if_false]
    have h1 : (if y'.1 < y.1 then y'.1 else y.1) = min y.1 y'.1 := by
      split
      · rename_i h; rw [min_eq_right (le_of_lt h)]
      · rename_i h; rw [min_eq_left (not_lt.1 h)]
    have h2 : (if y.2 < y'.2 then y'.2 else y.2) = max y.2 y'.2 := by
      split
      · rename_i h; rw [max_eq_right (le_of_lt h)]
      · rename_i h; rw [max_eq_left (not_lt.1 h)]
    rw [h1, h2]
    simp
  rw [e3, hs]
  refine ⟨_, List.mem_cons_self, ?_⟩
  rw [(syncGraph_raw (d := d) (.inl ⟨rfl, rfl, rfl⟩) x _).1, List.pairwise_append, List.pairwise_cons]
  rintro ⟨⟨h1, _⟩, _, h2⟩
  rcases ht with ⟨t, ht, hlt⟩ | ⟨t, ht, hlt⟩
  · exact absurd (h1 t ht) (not_le.2 hlt)
  · exact absurd (h2 t (List.mem_cons_of_mem _ ht) x.2 (by simp)) (not_le.2 hlt)

/-- `xlim=(2, 3)`, with the rows around it -/
example : ((pageRun LinePage.empty [.figure cs!"a" cs!"g" (2, 3) (0, 1) [1, 5 / 2, 4] true, .figure cs!"b" cs!"g" (2, 3) (0, 1) [1, 4] true]).graphs.map
      fun q => q.2.raw) = [[2, 1, 5 / 2, 4, 3], [2, 1, 4, 3]] := by decide +kernel

end Trappy
