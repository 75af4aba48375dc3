import Verif.Model.LinePage
import Verif.Lemma.Power
import Verif.Lemma.Registry
import Verif.Prop.EventPlotJs
/-!
# C149: interactive line plots on one page
-/

namespace Trappy

/-! ## Specification -/

/-- **Specification**: the names of the figures that are drawn, in order -/
def figuresOf : List PageEvent → List Str
  | [] => []
  | .figure name .. :: es => name :: figuresOf es
  | _ :: es => figuresOf es

/-- **Specification**: the names of the figures of a group, in order -/
def figuresIn (g : Str) : List PageEvent → List Str
  | [] => []
  | .figure name group .. :: es => if group = g then name :: figuresIn g es else figuresIn g es
  | _ :: es => figuresIn g es

/-- **Specification**: the figures of a group with their ranges and times, in order -/
def figsIn (g : Str) : List PageEvent → List (Str × (Rat × Rat) × (Rat × Rat) × List Rat × Bool)
  | [] => []
  | .figure name group x y raw zoom :: es => if group = g then (name, x, y, raw, zoom) :: figsIn g es else figsIn g es
  | _ :: es => figsIn g es

/-- **Specification**: an event of a group: a figure of it, a zoom in such a figure, or that one of them is removed -/
def concerns (g : Str) (names : List Str) : PageEvent → Bool
  | .figure _ group .. => decide (group = g)
  | .removed ns => ns.any fun n => decide (n ∈ names)
  | .zoomed name .. => decide (name ∈ names)

/-- **Specification**: the graphs of a group that are on the page -/
def shownOf (g : Str) (p : LinePage) : Dict LineGraph := p.graphs.filter fun x => decide (x.2.group = g) && decide (x.1 ∈ p.divs)

/-! ## Proofs -/

theorem syncGroup_filter {g : Str} {S : List Str} {G : Dict LineGraph} (h : ∀ x ∈ G, x.1 ∈ S ↔ x.2.group = g) :
    (syncGroup g G).filter (fun x => decide (x.1 ∈ S)) = syncGroup g (G.filter fun x => decide (x.1 ∈ S)) := by
  have hm : (G.filter fun x => decide (x.1 ∈ S)).filter (fun x => decide (x.2.group = g)) = G.filter (fun x => decide (x.2.group = g)) := by
    rw [List.filter_filter]
    refine List.filter_congr fun x hx => ?_
    have := h x hx
    by_cases h1 : x.2.group = g <;> simp [h1, this]
  unfold syncGroup
  rw [hm]
  simp only
  split
  · split
    · rw [List.filter_map]
      congr 1
      refine List.filter_congr fun x hx => ?_
      simp only [Function.comp]
      split <;> rfl
    · rfl
  · rfl

theorem syncGroup_other {g g' : Str} (hne : g' ≠ g) {S : List Str} {G : Dict LineGraph} (h : ∀ x ∈ G, x.1 ∈ S ↔ x.2.group = g) :
    (syncGroup g' G).filter (fun x => decide (x.1 ∈ S)) = G.filter fun x => decide (x.1 ∈ S) := by
  unfold syncGroup
  simp only
  split
  · split
    · rw [List.filter_map]
      rw [List.filter_congr (q := fun x => decide (x.1 ∈ S)) fun x hx => by simp only [Function.comp]; split <;> rfl]
      conv_rhs => rw [← List.map_id (G.filter fun x => decide (x.1 ∈ S))]
      refine List.map_congr_left fun x hx => ?_
      rw [List.mem_filter] at hx
      have := (h x hx.1).1 (by simpa using hx.2)
      simp [this, Ne.symm hne]
    · rfl
  · rfl

theorem syncGroup_keys (g : Str) (G : Dict LineGraph) : (syncGroup g G).map (fun x => (x.1, x.2.group)) = G.map fun x => (x.1, x.2.group) := by
  unfold syncGroup
  simp only
  split
  · split
    · rw [List.map_map]
      refine List.map_congr_left fun x _ => ?_
      simp only [Function.comp]
      split <;> rfl
    · rfl
  · rfl

/-- the pages of all events and of the events of a group -/
structure SamePart (g : Str) (S : List Str) (p q : LinePage) : Prop where
  divs : ∀ n ∈ S, n ∈ p.divs ↔ n ∈ q.divs
  seen : (purgeGraphs p.divs p.graphs).filter (fun x => decide (x.1 ∈ S)) = (purgeGraphs q.divs q.graphs).filter fun x => decide (x.1 ∈ S)
  left : ∀ x ∈ p.graphs, x.1 ∈ S ↔ x.2.group = g
  right : ∀ x ∈ q.graphs, x.1 ∈ S ↔ x.2.group = g
  zoom : ∀ n ∈ S, p.zoom.get n = q.zoom.get n
  coupled : p.coupled.get g = q.coupled.get g
  namesL : ∀ c ∈ p.coupled, ∀ n ∈ c.2, n ∈ S ↔ c.1 = g
  namesR : ∀ c ∈ q.coupled, ∀ n ∈ c.2, n ∈ S ↔ c.1 = g
  nodupL : (p.coupled.map Prod.fst).Nodup
  nodupR : (q.coupled.map Prod.fst).Nodup

theorem dict_mem_set {α : Type} {d : Dict α} {k : Str} {v : α} {x : Str × α} (h : x ∈ d.set k v) : x = (k, v) ∨ x ∈ d := by
  induction d with
  | nil => simpa [Dict.set] using h
  | cons a d ih =>
    obtain ⟨a, b⟩ := a
    simp only [Dict.set] at h
    split at h
    · rcases List.mem_cons.1 h with h | h
      · exact .inl h
      · exact .inr (List.mem_cons_of_mem _ h)
    · rcases List.mem_cons.1 h with h | h
      · exact .inr (by simp [h])
      · rcases ih h with h | h
        · exact .inl h
        · exact .inr (List.mem_cons_of_mem _ h)

theorem purge_self {divs : List Str} {G : Dict LineGraph} (h : ∀ x ∈ G, x.1 ∈ divs) : purgeGraphs divs G = G := by
  unfold purgeGraphs
  rw [List.filter_eq_self]
  intro x hx
  simpa using h x hx

/-- the graphs after a new figure, before they are synchronised -/
def withFigure (p : LinePage) (name group : Str) (x y : Rat × Rat) (raw : List Rat) : Dict LineGraph :=
  purgeGraphs p.divs p.graphs ++ [(name, ⟨group, x, y, raw, false, false⟩)]

theorem figure_graphs {p : LinePage} {name group : Str} {x y : Rat × Rat} {raw : List Rat} (h : name ∉ p.graphs.map Prod.fst) :
    purgeGraphs (p.divs ++ [name]) (p.graphs.set name ⟨group, x, y, raw, false, false⟩) = withFigure p name group x y raw := by
  rw [Dict.set_new _ _ _ h]
  unfold purgeGraphs withFigure purgeGraphs
  rw [List.filter_append]
  congr 1
  · refine List.filter_congr fun z hz => ?_
    have : z.1 ≠ name := fun e => h (e ▸ List.mem_map_of_mem hz)
    simp [this]
  · simp

theorem withFigure_mem {p : LinePage} {name group : Str} {x y : Rat × Rat} {raw : List Rat} {z : Str × LineGraph} (h : z ∈ withFigure p name group x y raw) :
    z.1 ∈ p.divs ++ [name] ∧ (z ∈ p.graphs ∨ z = (name, ⟨group, x, y, raw, false, false⟩)) := by
  unfold withFigure purgeGraphs at h
  rcases List.mem_append.1 h with h | h
  · rw [List.mem_filter] at h
    exact ⟨List.mem_append_left _ (by simpa using h.2), .inl h.1⟩
  · rw [List.mem_singleton] at h
    subst h
    simp

theorem syncGroup_mem {g : Str} {G : Dict LineGraph} {z : Str × LineGraph} (h : z ∈ syncGroup g G) : ∃ u ∈ G, z.1 = u.1 ∧ z.2.group = u.2.group := by
  have : (z.1, z.2.group) ∈ (syncGroup g G).map fun x => (x.1, x.2.group) := List.mem_map_of_mem (f := fun x : Str × LineGraph => (x.1, x.2.group)) h
  rw [syncGroup_keys, List.mem_map] at this
  obtain ⟨u, hu, e⟩ := this
  simp only [Prod.mk.injEq] at e
  exact ⟨u, hu, e.1.symm, e.2.symm⟩

theorem figure_eq {p : LinePage} {name group : Str} {x y : Rat × Rat} {raw : List Rat} {zoom : Bool} (h : name ∉ p.graphs.map Prod.fst) :
    pageEvent p (.figure name group x y raw zoom) =
      { divs := p.divs ++ [name], graphs := syncGroup group (withFigure p name group x y raw), zoom := p.zoom.set name zoom,
        coupled := if (groupNames group (withFigure p name group x y raw)).length ≥ 2 ∧ allZoom (p.zoom.set name zoom) (groupNames group (withFigure p name group x y raw)) = true
          then p.coupled.set group (groupNames group (withFigure p name group x y raw)) else p.coupled } := by
  simp only [pageEvent, figure_graphs h]

theorem purge_figure {p : LinePage} {name group : Str} {x y : Rat × Rat} {raw : List Rat} :
    purgeGraphs (p.divs ++ [name]) (syncGroup group (withFigure p name group x y raw)) = syncGroup group (withFigure p name group x y raw) := by
  refine purge_self fun z hz => ?_
  obtain ⟨u, hu, e, _⟩ := syncGroup_mem hz
  rw [e]
  exact (withFigure_mem hu).1

theorem withFigure_group {g : Str} {S : List Str} {p : LinePage} {name group : Str} {x y : Rat × Rat} {raw : List Rat} (h : ∀ x ∈ p.graphs, x.1 ∈ S ↔ x.2.group = g)
    (hS : name ∈ S ↔ group = g) : ∀ z ∈ withFigure p name group x y raw, z.1 ∈ S ↔ z.2.group = g := by
  intro z hz
  rcases (withFigure_mem hz).2 with h' | rfl
  · exact h z h'
  · exact hS

theorem groupNames_filter {g : Str} {S : List Str} {G : Dict LineGraph} (h : ∀ x ∈ G, x.1 ∈ S ↔ x.2.group = g) :
    groupNames g G = (G.filter fun x => decide (x.1 ∈ S)).map Prod.fst := by
  unfold groupNames
  congr 1
  refine List.filter_congr fun x hx => ?_
  have := h x hx
  by_cases h1 : x.2.group = g <;> simp [h1, this]

theorem groupNames_mem {g : Str} {G : Dict LineGraph} {n : Str} (h : n ∈ groupNames g G) : ∃ z ∈ G, z.1 = n ∧ z.2.group = g := by
  unfold groupNames at h
  obtain ⟨z, hz, e⟩ := List.mem_map.1 h
  rw [List.mem_filter] at hz
  exact ⟨z, hz.1, e, by simpa using hz.2⟩

theorem figure_names {g : Str} {S : List Str} {p : LinePage} {name group : Str} {x y : Rat × Rat} {raw : List Rat} {zoom : Bool} (h : ∀ x ∈ p.graphs, x.1 ∈ S ↔ x.2.group = g)
    (hS : name ∈ S ↔ group = g) (hf : name ∉ p.graphs.map Prod.fst) (hc : ∀ c ∈ p.coupled, ∀ n ∈ c.2, n ∈ S ↔ c.1 = g) :
    ∀ c ∈ (pageEvent p (.figure name group x y raw zoom)).coupled, ∀ n ∈ c.2, n ∈ S ↔ c.1 = g := by
  rw [figure_eq hf]
  simp only
  intro c hc' n hn
  split at hc'
  · rcases dict_mem_set hc' with e | hc'
    · subst e
      obtain ⟨z, hz, e1, e2⟩ := groupNames_mem hn
      rw [← e1, withFigure_group h hS z hz, e2]
    · exact hc c hc' n hn
  · exact hc c hc' n hn

theorem figure_nodup {p : LinePage} {name group : Str} {x y : Rat × Rat} {raw : List Rat} {zoom : Bool} (hf : name ∉ p.graphs.map Prod.fst) (h : (p.coupled.map Prod.fst).Nodup) :
    ((pageEvent p (.figure name group x y raw zoom)).coupled.map Prod.fst).Nodup := by
  rw [figure_eq hf]
  simp only
  split
  · exact Dict.nodup_set h _ _
  · exact h

theorem figure_left {g : Str} {S : List Str} {p : LinePage} {name group : Str} {x y : Rat × Rat} {raw : List Rat} {zoom : Bool} (h : ∀ x ∈ p.graphs, x.1 ∈ S ↔ x.2.group = g)
    (hS : name ∈ S ↔ group = g) (hf : name ∉ p.graphs.map Prod.fst) : ∀ z ∈ (pageEvent p (.figure name group x y raw zoom)).graphs, z.1 ∈ S ↔ z.2.group = g := by
  rw [figure_eq hf]
  intro z hz
  obtain ⟨u, hu, e1, e2⟩ := syncGroup_mem hz
  rw [e1, e2]
  exact withFigure_group h hS u hu

theorem allZoom_congr {a b : Dict Bool} {l : List Str} (h : ∀ n ∈ l, a.get n = b.get n) : allZoom a l = allZoom b l := by
  induction l with
  | nil => rfl
  | cons n l ih =>
    have h1 := h n (by simp)
    have h2 := ih fun m hm => h m (List.mem_cons_of_mem _ hm)
    simp only [allZoom, List.all_cons] at h2 ⊢
    rw [h1, h2]

/-- a figure of the group, on both pages -/
theorem samePart_in {g : Str} {S : List Str} {p q : LinePage} (h : SamePart g S p q) {name : Str} {x y : Rat × Rat} {raw : List Rat} {zoom : Bool} (hS : name ∈ S)
    (hp : name ∉ p.graphs.map Prod.fst) (hq : name ∉ q.graphs.map Prod.fst) :
    SamePart g S (pageEvent p (.figure name g x y raw zoom)) (pageEvent q (.figure name g x y raw zoom)) := by
  have hSg : name ∈ S ↔ g = g := ⟨fun _ => rfl, fun _ => hS⟩
  have hpart : (withFigure p name g x y raw).filter (fun z => decide (z.1 ∈ S)) = (withFigure q name g x y raw).filter fun z => decide (z.1 ∈ S) := by
    unfold withFigure
    rw [List.filter_append, List.filter_append, h.seen]
  have hnames : groupNames g (withFigure p name g x y raw) = groupNames g (withFigure q name g x y raw) := by
    rw [groupNames_filter (withFigure_group h.left hSg), groupNames_filter (withFigure_group h.right hSg), hpart]
  have hz : ∀ n ∈ S, (p.zoom.set name zoom).get n = (q.zoom.set name zoom).get n := by
    intro n hn
    rw [Dict.get_set, Dict.get_set, h.zoom n hn]
  have hall : allZoom (p.zoom.set name zoom) (groupNames g (withFigure q name g x y raw)) = allZoom (q.zoom.set name zoom) (groupNames g (withFigure q name g x y raw)) := by
    refine allZoom_congr fun n hn => hz n ?_
    obtain ⟨z, hz, e1, e2⟩ := groupNames_mem hn
    rw [← e1, withFigure_group h.right hSg z hz, e2]
  exact {
    divs := by
      intro n hn
      rw [figure_eq hp, figure_eq hq]
      simp [h.divs n hn]
    seen := by
      rw [figure_eq hp, figure_eq hq]
      simp only [purge_figure]
      rw [syncGroup_filter (withFigure_group h.left hSg), syncGroup_filter (withFigure_group h.right hSg), hpart]
    left := figure_left h.left hSg hp
    right := figure_left h.right hSg hq
    zoom := by
      intro n hn
      rw [figure_eq hp, figure_eq hq]
      exact hz n hn
    coupled := by
      rw [figure_eq hp, figure_eq hq]
      simp only [hnames, hall]
      split
      · rw [Dict.get_set, Dict.get_set]
        simp
      · exact h.coupled
    namesL := figure_names h.left hSg hp h.namesL
    namesR := figure_names h.right hSg hq h.namesR
    nodupL := figure_nodup hp h.nodupL
    nodupR := figure_nodup hq h.nodupR }

/-- a figure of another group, on one page -/
theorem samePart_out {g : Str} {S : List Str} {p q : LinePage} (h : SamePart g S p q) {name group : Str} {x y : Rat × Rat} {raw : List Rat} {zoom : Bool} (hne : group ≠ g) (hS : name ∉ S)
    (hp : name ∉ p.graphs.map Prod.fst) : SamePart g S (pageEvent p (.figure name group x y raw zoom)) q := by
  have hSg : name ∈ S ↔ group = g := ⟨fun h => absurd h hS, fun h => absurd h hne⟩
  exact {
    divs := by
      intro n hn
      rw [figure_eq hp]
      have : n ≠ name := fun e => hS (e ▸ hn)
      simp [h.divs n hn, this]
    seen := by
      rw [figure_eq hp]
      simp only [purge_figure]
      rw [syncGroup_other hne (withFigure_group h.left hSg), ← h.seen]
      unfold withFigure
      rw [List.filter_append]
      simp [hS]
    left := figure_left h.left hSg hp
    right := h.right
    zoom := by
      intro n hn
      rw [figure_eq hp]
      simp only
      have : n ≠ name := fun e => hS (e ▸ hn)
      rw [Dict.get_set, ← h.zoom n hn]
      simp [this.symm]
    coupled := by
      rw [figure_eq hp, ← h.coupled]
      simp only
      split
      · rw [Dict.get_set]
        simp [hne]
      · rfl
    namesL := figure_names h.left hSg hp h.namesL
    namesR := h.namesR
    nodupL := figure_nodup hp h.nodupL
    nodupR := h.nodupR }

theorem purge_sub {divs names : List Str} {G : Dict LineGraph} :
    purgeGraphs (divs.filter fun d => decide (d ∉ names)) G = (purgeGraphs divs G).filter fun x => decide (x.1 ∉ names) := by
  unfold purgeGraphs
  rw [List.filter_filter]
  refine List.filter_congr fun x _ => ?_
  simp [List.mem_filter, Bool.and_comm]

theorem samePart_removed {g : Str} {S : List Str} {p q : LinePage} (h : SamePart g S p q) (names : List Str) : SamePart g S (pageEvent p (.removed names)) (pageEvent q (.removed names)) :=
  { h with
    divs := by
      intro n hn
      simp [pageEvent, h.divs n hn]
    seen := by
      simp only [pageEvent, purge_sub]
      rw [List.filter_comm, h.seen, List.filter_comm] }

theorem samePart_removed_out {g : Str} {S : List Str} {p q : LinePage} (h : SamePart g S p q) {names : List Str} (hn : ∀ n ∈ names, n ∉ S) : SamePart g S (pageEvent p (.removed names)) q :=
  { h with
    divs := by
      intro n hn'
      rw [← h.divs n hn']
      have : n ∉ names := fun hm => hn n hm hn'
      simp [pageEvent, this]
    seen := by
      simp only [pageEvent, purge_sub]
      rw [List.filter_comm, h.seen, List.filter_eq_self]
      intro z hz
      have hzS : z.1 ∈ S := by simpa using (List.mem_filter.1 hz).2
      have : z.1 ∉ names := fun hm => hn _ hm hzS
      simp [this] }

/-- zooming one graph changes another -/
def follows (p : LinePage) (name n : Str) : Bool := decide (n = name) || p.coupled.any fun c => decide (name ∈ c.2) && decide (n ∈ c.2)

theorem zoomed_eq (p : LinePage) (name : Str) (x y : Rat × Rat) :
    pageEvent p (.zoomed name x y) = { p with graphs := p.graphs.map fun z => if follows p name z.1 = true then (z.1, { z.2 with xr := x, yr := y }) else z } := by
  simp only [pageEvent, follows, Bool.or_eq_true, decide_eq_true_eq]

theorem follows_get {g : Str} {S : List Str} {p : LinePage} {name n : Str} (hc : ∀ c ∈ p.coupled, ∀ n ∈ c.2, n ∈ S ↔ c.1 = g) (hn : (p.coupled.map Prod.fst).Nodup) (h : n ∈ S) :
    follows p name n = true ↔ n = name ∨ ∃ l, p.coupled.get g = some l ∧ name ∈ l ∧ n ∈ l := by
  unfold follows
  rw [Bool.or_eq_true, decide_eq_true_iff, List.any_eq_true]
  refine or_congr_right ⟨?_, ?_⟩
  · rintro ⟨c, hc', h1⟩
    rw [Bool.and_eq_true, decide_eq_true_iff, decide_eq_true_iff] at h1
    have e := (hc c hc' n h1.2).1 h
    refine ⟨c.2, Dict.get_of_mem hn ?_, h1⟩
    rw [← e]
    exact hc'
  · rintro ⟨l, hl, h1⟩
    exact ⟨_, Dict.get_mem hl, by simpa using h1⟩

theorem zoomed_purge (p : LinePage) (name : Str) (x y : Rat × Rat) (S : List Str) :
    (purgeGraphs (pageEvent p (.zoomed name x y)).divs (pageEvent p (.zoomed name x y)).graphs).filter (fun z => decide (z.1 ∈ S)) =
      ((purgeGraphs p.divs p.graphs).filter fun z => decide (z.1 ∈ S)).map fun z => if follows p name z.1 = true then (z.1, { z.2 with xr := x, yr := y }) else z := by
  rw [zoomed_eq]
  have key : ∀ (l : List Str) (G : Dict LineGraph) (f : Str × LineGraph → Str × LineGraph), (∀ z, (f z).1 = z.1) →
      (G.map f).filter (fun z => decide (z.1 ∈ l)) = (G.filter fun z => decide (z.1 ∈ l)).map f := by
    intro l G f hf
    rw [List.filter_map]
    congr 1
    exact List.filter_congr fun z _ => by simp only [Function.comp, hf]
  unfold purgeGraphs
  rw [key, key]
  · intro z; split <;> rfl
  · intro z; split <;> rfl

theorem zoomed_left {g : Str} {S : List Str} {p : LinePage} (h : ∀ x ∈ p.graphs, x.1 ∈ S ↔ x.2.group = g) (name : Str) (x y : Rat × Rat) :
    ∀ z ∈ (pageEvent p (.zoomed name x y)).graphs, z.1 ∈ S ↔ z.2.group = g := by
  rw [zoomed_eq]
  intro z hz
  obtain ⟨u, hu, e⟩ := List.mem_map.1 hz
  rw [← e]
  split
  · exact h u hu
  · exact h u hu

theorem samePart_zoomed {g : Str} {S : List Str} {p q : LinePage} (h : SamePart g S p q) (name : Str) (x y : Rat × Rat) :
    SamePart g S (pageEvent p (.zoomed name x y)) (pageEvent q (.zoomed name x y)) :=
  { h with
    seen := by
      rw [zoomed_purge, zoomed_purge, h.seen]
      refine List.map_congr_left fun z hz => ?_
      have hzS : z.1 ∈ S := by simpa using (List.mem_filter.1 hz).2
      have : follows p name z.1 = follows q name z.1 := by
        rw [Bool.eq_iff_iff, follows_get h.namesL h.nodupL hzS, follows_get h.namesR h.nodupR hzS, h.coupled]
      rw [this]
    left := zoomed_left h.left name x y
    right := zoomed_left h.right name x y }

theorem samePart_zoomed_out {g : Str} {S : List Str} {p q : LinePage} (h : SamePart g S p q) {name : Str} (hS : name ∉ S) (x y : Rat × Rat) :
    SamePart g S (pageEvent p (.zoomed name x y)) q :=
  { h with
    seen := by
      rw [zoomed_purge, ← h.seen]
      conv_rhs => rw [← List.map_id (List.filter _ _)]
      refine List.map_congr_left fun z hz => ?_
      have hzS : z.1 ∈ S := by simpa using (List.mem_filter.1 hz).2
      rw [if_neg]
      · rfl
      · rw [follows_get h.namesL h.nodupL hzS]
        rintro (e | ⟨l, hl, h1, _⟩)
        · exact hS (e ▸ hzS)
        · exact hS ((h.namesL _ (Dict.get_mem hl) name h1).2 rfl)
    left := zoomed_left h.left name x y }

theorem event_keys {p : LinePage} {e : PageEvent} {n : Str} (h : n ∈ (pageEvent p e).graphs.map Prod.fst) : n ∈ p.graphs.map Prod.fst ∨ n ∈ figuresOf [e] := by
  obtain ⟨z, hz, rfl⟩ := List.mem_map.1 h
  cases e with
  | figure name group x y raw zoom =>
    simp only [pageEvent] at hz
    obtain ⟨u, hu, e1, _⟩ := syncGroup_mem hz
    unfold purgeGraphs at hu
    rw [List.mem_filter] at hu
    rw [e1]
    rcases dict_mem_set hu.1 with rfl | h'
    · exact .inr (by simp [figuresOf])
    · exact .inl (List.mem_map_of_mem h')
  | removed names => exact .inl (List.mem_map_of_mem hz)
  | zoomed name x y =>
    rw [zoomed_eq] at hz
    obtain ⟨u, hu, e1⟩ := List.mem_map.1 hz
    refine .inl ?_
    have : z.1 = u.1 := by rw [← e1]; split <;> rfl
    rw [this]
    exact List.mem_map_of_mem hu

theorem figuresOf_cons (e : PageEvent) (es : List PageEvent) : figuresOf (e :: es) = figuresOf [e] ++ figuresOf es := by
  cases e <;> simp [figuresOf]

theorem figuresOf_append (a b : List PageEvent) : figuresOf (a ++ b) = figuresOf a ++ figuresOf b := by
  induction a with
  | nil => rfl
  | cons e a ih => rw [List.cons_append, figuresOf_cons, ih, figuresOf_cons e a, List.append_assoc]

/-- the names in `S` are those of the figures of the group -/
def NamesOf (g : Str) (S : List Str) (es : List PageEvent) : Prop := ∀ name group x y raw zoom, .figure name group x y raw zoom ∈ es → (name ∈ S ↔ group = g)

theorem samePart_run {g : Str} {S : List Str} (es : List PageEvent) : ∀ {p q : LinePage}, SamePart g S p q → NamesOf g S es → (figuresOf es).Nodup →
    (∀ n ∈ figuresOf es, n ∉ p.graphs.map Prod.fst ∧ n ∉ q.graphs.map Prod.fst) → SamePart g S (pageRun p es) (pageRun q (es.filter (concerns g S))) := by
  induction es with
  | nil => intro p q h _ _ _; exact h
  | cons e es ih =>
    intro p q h hS hn hf
    have hS' : NamesOf g S es := fun name group x y raw zoom hm => hS name group x y raw zoom (List.mem_cons_of_mem _ hm)
    have hn' : (figuresOf es).Nodup := by
      rw [figuresOf_cons] at hn
      exact (List.nodup_append.1 hn).2.1
    have hdis : ∀ n ∈ figuresOf es, n ∉ figuresOf [e] := by
      rw [figuresOf_cons] at hn
      intro n h1 h2
      exact (List.nodup_append.1 hn).2.2 n h2 n h1 rfl
    have hf' : ∀ n ∈ figuresOf es, n ∉ p.graphs.map Prod.fst ∧ n ∉ q.graphs.map Prod.fst := by
      intro n hn'
      exact hf n (by rw [figuresOf_cons]; exact List.mem_append_right _ hn')
    have both : ∀ n ∈ figuresOf es, n ∉ (pageEvent p e).graphs.map Prod.fst ∧ n ∉ (pageEvent q e).graphs.map Prod.fst := by
      intro n hn'
      constructor
      · intro hm
        rcases event_keys hm with h1 | h1
        · exact (hf' n hn').1 h1
        · exact hdis n hn' h1
      · intro hm
        rcases event_keys hm with h1 | h1
        · exact (hf' n hn').2 h1
        · exact hdis n hn' h1
    have one : ∀ n ∈ figuresOf es, n ∉ (pageEvent p e).graphs.map Prod.fst ∧ n ∉ q.graphs.map Prod.fst := fun n hn' => ⟨(both n hn').1, (hf' n hn').2⟩
    cases e with
    | figure name group x y raw zoom =>
      have hname := hS name group x y raw zoom (by simp)
      have hfr := hf name (by simp [figuresOf])
      by_cases hg : group = g
      · subst hg
        rw [List.filter_cons_of_pos (by simp [concerns])]
        exact ih (samePart_in h (hname.2 rfl) hfr.1 hfr.2) hS' hn' both
      · rw [List.filter_cons_of_neg (by simpa [concerns] using hg)]
        exact ih (samePart_out h hg (fun hm => hg (hname.1 hm)) hfr.1) hS' hn' one
    | removed names =>
      by_cases hm : names.any (fun n => decide (n ∈ S)) = true
      · rw [List.filter_cons_of_pos (by simpa [concerns] using hm)]
        exact ih (samePart_removed h names) hS' hn' both
      · rw [List.filter_cons_of_neg (by simpa [concerns] using hm)]
        refine ih (samePart_removed_out h ?_) hS' hn' one
        intro n h1 h2
        exact hm (List.any_eq_true.2 ⟨n, h1, by simpa using h2⟩)
    | zoomed name x y =>
      by_cases hm : name ∈ S
      · rw [List.filter_cons_of_pos (by simpa [concerns] using hm)]
        exact ih (samePart_zoomed h name x y) hS' hn' both
      · rw [List.filter_cons_of_neg (by simpa [concerns] using hm)]
        exact ih (samePart_zoomed_out h hm x y) hS' hn' one

theorem figuresIn_sub {g n : Str} {es : List PageEvent} (h : n ∈ figuresIn g es) : n ∈ figuresOf es := by
  induction es with
  | nil => simp [figuresIn] at h
  | cons e es ih =>
    cases e with
    | figure name group x y raw zoom =>
      simp only [figuresIn] at h
      simp only [figuresOf]
      split at h
      · rcases List.mem_cons.1 h with h | h
        · simp [h]
        · exact List.mem_cons_of_mem _ (ih h)
      · exact List.mem_cons_of_mem _ (ih h)
    | removed names => exact ih h
    | zoomed name x y => exact ih h

theorem figure_mem_figuresOf {name group : Str} {x y : Rat × Rat} {raw : List Rat} {zoom : Bool} {es : List PageEvent} (h : .figure name group x y raw zoom ∈ es) : name ∈ figuresOf es := by
  induction es with
  | nil => simp at h
  | cons e es ih =>
    rw [figuresOf_cons]
    rcases List.mem_cons.1 h with h | h
    · subst h
      simp [figuresOf]
    · exact List.mem_append_right _ (ih h)

theorem namesOf_figuresIn {g : Str} {es : List PageEvent} (h : (figuresOf es).Nodup) : NamesOf g (figuresIn g es) es := by
  induction es with
  | nil => intro name group x y raw zoom hm; simp at hm
  | cons e es ih =>
    have hn := h
    rw [figuresOf_cons] at hn
    have ih' := ih (List.nodup_append.1 hn).2.1
    intro name group x y raw zoom hm
    cases e with
    | figure name' group' x' y' raw' zoom' =>
      have hne : ∀ n ∈ figuresOf es, n ≠ name' := by
        intro n h1 e
        exact (List.nodup_append.1 hn).2.2 name' (by simp [figuresOf]) n h1 e.symm
      simp only [figuresIn]
      rcases List.mem_cons.1 hm with e | hm
      · cases e
        constructor
        · intro h1
          by_contra hg
          rw [if_neg hg] at h1
          exact hne _ (figuresIn_sub h1) rfl
        · intro hg
          simp [hg]
      · have h1 := ih' name group x y raw zoom hm
        have h2 := hne name (figure_mem_figuresOf hm)
        rw [← h1]
        split
        · simp [h2]
        · rfl
    | removed names =>
      rcases List.mem_cons.1 hm with e | hm
      · cases e
      · exact ih' name group x y raw zoom hm
    | zoomed n x' y' =>
      rcases List.mem_cons.1 hm with e | hm
      · cases e
      · exact ih' name group x y raw zoom hm

theorem shownOf_eq {g : Str} {S : List Str} {p : LinePage} (h : ∀ x ∈ p.graphs, x.1 ∈ S ↔ x.2.group = g) :
    shownOf g p = (purgeGraphs p.divs p.graphs).filter fun x => decide (x.1 ∈ S) := by
  unfold shownOf purgeGraphs
  rw [List.filter_filter]
  refine List.filter_congr fun x hx => ?_
  have := h x hx
  by_cases h1 : x.2.group = g <;> simp [h1, this]

theorem samePart_empty (g : Str) (S : List Str) : SamePart g S LinePage.empty LinePage.empty where
  divs := by simp
  seen := rfl
  left := by simp [LinePage.empty]
  right := by simp [LinePage.empty]
  zoom := by simp
  coupled := rfl
  namesL := by simp [LinePage.empty]
  namesR := by simp [LinePage.empty]
  nodupL := by simp [LinePage.empty]
  nodupR := by simp [LinePage.empty]

/-- **C149 (independence).** Whatever figures are drawn, removed and zoomed on a page, in any order, what is shown of the figures of a group - their ranges and their rows - is what would
be shown if the figures of other groups had never been there. -/
theorem C149_independent (g : Str) (es : List PageEvent) (h : (figuresOf es).Nodup) :
    shownOf g (pageRun .empty es) = shownOf g (pageRun .empty (es.filter (concerns g (figuresIn g es)))) := by
  have := samePart_run es (samePart_empty g (figuresIn g es)) (namesOf_figuresIn h) h (by simp [LinePage.empty])
  rw [shownOf_eq this.left, shownOf_eq this.right, this.seen]

theorem isUnion_step {rs : List (Rat × Rat)} {x q x' : Rat × Rat} {n : Nat} (h : IsUnion rs x) (h' : IsUnion (List.replicate n x ++ [q]) x') (hn : 0 < n) : IsUnion (rs ++ [q]) x' := by
  obtain ⟨ha, ⟨l, hl, hl'⟩, ⟨m, hm, hm'⟩⟩ := h
  obtain ⟨hb, ⟨k, hk, hk'⟩, ⟨j, hj, hj'⟩⟩ := h'
  have hx := hb x (List.mem_append_left _ (List.mem_replicate.2 ⟨by omega, rfl⟩))
  refine ⟨?_, ?_, ?_⟩
  · intro p hp
    rcases List.mem_append.1 hp with hp | hp
    · have := ha p hp
      exact ⟨le_trans hx.1 this.1, le_trans this.2 hx.2⟩
    · exact hb p (List.mem_append_right _ hp)
  · rcases List.mem_append.1 hk with hk | hk
    · have e := (List.mem_replicate.1 hk).2
      subst e
      exact ⟨l, List.mem_append_left _ hl, hl'.trans hk'⟩
    · exact ⟨k, List.mem_append_right _ hk, hk'⟩
  · rcases List.mem_append.1 hj with hj | hj
    · have e := (List.mem_replicate.1 hj).2
      subst e
      exact ⟨m, List.mem_append_left _ hm, hm'.trans hj'⟩
    · exact ⟨j, List.mem_append_right _ hj, hj'⟩

/-- the event of a figure of a group -/
def figEvent (g : Str) (f : Str × (Rat × Rat) × (Rat × Rat) × List Rat × Bool) : PageEvent := .figure f.1 g f.2.1 f.2.2.1 f.2.2.2.1 f.2.2.2.2

theorem figs_run (g : Str) (figs : List (Str × (Rat × Rat) × (Rat × Rat) × List Rat × Bool)) (h : (figs.map Prod.fst).Nodup) :
    (pageRun .empty (figs.map (figEvent g))).divs = figs.map Prod.fst ∧
    (pageRun .empty (figs.map (figEvent g))).graphs.map Prod.fst = figs.map Prod.fst ∧
    (∀ z ∈ (pageRun .empty (figs.map (figEvent g))).graphs, z.2.group = g) ∧
    (figs = [] ∨ ∃ x y, IsUnion (figs.map (·.2.1)) x ∧ IsUnion (figs.map (·.2.2.1)) y ∧ ∀ z ∈ (pageRun .empty (figs.map (figEvent g))).graphs, z.2.xr = x ∧ z.2.yr = y) := by
  induction figs using List.reverseRecOn with
  | nil => simp [pageRun, LinePage.empty]
  | append_singleton figs f ih =>
    rw [List.map_append, List.nodup_append] at h
    obtain ⟨h1, h2, h3, h4⟩ := ih h.1
    have hrun : pageRun .empty ((figs ++ [f]).map (figEvent g)) = pageEvent (pageRun .empty (figs.map (figEvent g))) (figEvent g f) := by
      simp [pageRun, List.foldl_append]
    rw [hrun]
    generalize pageRun .empty (figs.map (figEvent g)) = p at *
    obtain ⟨name, x, y, raw, zoom⟩ := f
    have hf : name ∉ p.graphs.map Prod.fst := by
      rw [h2]
      intro hm
      exact h.2.2 name hm name (by simp) rfl
    have hw : withFigure p name g x y raw = p.graphs ++ [(name, ⟨g, x, y, raw, false, false⟩)] := by
      unfold withFigure
      rw [purge_self]
      intro z hz
      rw [h1, ← h2]
      exact List.mem_map_of_mem hz
    unfold figEvent
    rw [figure_eq hf]
    simp only [hw]
    have hkeys := syncGroup_keys g (p.graphs ++ [(name, ⟨g, x, y, raw, false, false⟩)])
    have hall : ∀ z ∈ p.graphs ++ [(name, (⟨g, x, y, raw, false, false⟩ : LineGraph))], z.2.group = g := by
      intro z hz
      rcases List.mem_append.1 hz with hz | hz
      · exact h3 z hz
      · rw [List.mem_singleton] at hz
        subst hz
        rfl
    refine ⟨by simp [h1], ?_, ?_, ?_⟩
    · have := congrArg (List.map Prod.fst) hkeys
      rw [List.map_map, List.map_map] at this
      simp only [List.map_append, ← h2]
      simpa [Function.comp_def] using this
    · intro z hz
      obtain ⟨u, hu, _, e⟩ := syncGroup_mem hz
      rw [e]
      exact hall u hu
    · right
      have hin : inGroup g (p.graphs ++ [(name, ⟨g, x, y, raw, false, false⟩)]) = p.graphs.map Prod.snd ++ [⟨g, x, y, raw, false, false⟩] := by
        unfold inGroup
        rw [List.filter_eq_self.2]
        · simp
        · intro z hz
          simpa using hall z hz
      have hc := C133_ranges g (p.graphs ++ [(name, ⟨g, x, y, raw, false, false⟩)])
      rw [hin] at hc
      have hlen : p.graphs.length = figs.length := by
        have := congrArg List.length h2
        simpa using this
      rcases h4 with rfl | ⟨x0, y0, hx0, hy0, hr⟩
      · have he : p.graphs = [] := by simpa using hlen
        rw [hc.2 (by simp [he])]
        simp [he, IsUnion]
      · have hpos : 0 < p.graphs.length := by
          rw [hlen]
          obtain ⟨_, ⟨l, hl, _⟩, _⟩ := hx0
          obtain ⟨f, hf, _⟩ := List.mem_map.1 hl
          exact List.length_pos_of_mem hf
        obtain ⟨x', y', hx', hy', hF⟩ := hc.1 (by simp; omega)
        refine ⟨x', y', ?_, ?_, ?_⟩
        · have e : (p.graphs.map Prod.snd ++ [(⟨g, x, y, raw, false, false⟩ : LineGraph)]).map (·.xr) = List.replicate p.graphs.length x0 ++ [x] := by
            rw [List.map_append, List.map_map]
            congr 1
            rw [List.eq_replicate_iff]
            refine ⟨by simp, ?_⟩
            intro b hb
            obtain ⟨z, hz, rfl⟩ := List.mem_map.1 hb
            exact (hr z hz).1
          rw [e] at hx'
          simpa using isUnion_step hx0 hx' hpos
        · have e : (p.graphs.map Prod.snd ++ [(⟨g, x, y, raw, false, false⟩ : LineGraph)]).map (·.yr) = List.replicate p.graphs.length y0 ++ [y] := by
            rw [List.map_append, List.map_map]
            congr 1
            rw [List.eq_replicate_iff]
            refine ⟨by simp, ?_⟩
            intro b hb
            obtain ⟨z, hz, rfl⟩ := List.mem_map.1 hb
            exact (hr z hz).2
          rw [e] at hy'
          simpa using isUnion_step hy0 hy' hpos
        · intro z hz
          obtain ⟨i, hi, rfl⟩ := List.getElem_of_mem hz
          have hl := hF.length_eq
          have := (List.forall₂_iff_get.1 hF).2 i (by omega) hi
          simp only [List.get_eq_getElem] at this
          rw [if_pos (hall _ (List.getElem_mem _))] at this
          exact this.2.2

theorem figsIn_names (g : Str) (es : List PageEvent) : (figsIn g es).map Prod.fst = figuresIn g es := by
  induction es with
  | nil => rfl
  | cons e es ih =>
    cases e with
    | figure name group x y raw zoom =>
      simp only [figsIn, figuresIn]
      split <;> simp [ih]
    | removed names => exact ih
    | zoomed name x y => exact ih

theorem figuresIn_nodup {g : Str} {es : List PageEvent} (h : (figuresOf es).Nodup) : (figuresIn g es).Nodup := by
  induction es with
  | nil => simp [figuresIn]
  | cons e es ih =>
    cases e with
    | figure name group x y raw zoom =>
      simp only [figuresOf, List.nodup_cons] at h
      simp only [figuresIn]
      split
      · rw [List.nodup_cons]
        exact ⟨fun hm => h.1 (figuresIn_sub hm), ih h.2⟩
      · exact ih h.2
    | removed names => exact ih h
    | zoomed name x y => exact ih h

theorem figures_only {g : Str} {S : List Str} {es : List PageEvent} (h : ∀ e ∈ es, concerns g S e = true → ∃ name group x y raw zoom, e = .figure name group x y raw zoom) :
    es.filter (concerns g S) = (figsIn g es).map (figEvent g) := by
  induction es with
  | nil => rfl
  | cons e es ih =>
    have ih' := ih fun e' he => h e' (List.mem_cons_of_mem _ he)
    cases e with
    | figure name group x y raw zoom =>
      simp only [figsIn]
      by_cases hg : group = g
      · rw [List.filter_cons_of_pos (by simpa [concerns] using hg), if_pos hg, ih', ← hg]
        simp [figEvent]
      · rw [List.filter_cons_of_neg (by simpa [concerns] using hg), if_neg hg, ih']
    | removed names =>
      rw [List.filter_cons_of_neg, ih']
      · rfl
      · intro hc
        obtain ⟨_, _, _, _, _, _, e⟩ := h _ (by simp) hc
        cases e
    | zoomed name x y =>
      rw [List.filter_cons_of_neg, ih']
      · rfl
      · intro hc
        obtain ⟨_, _, _, _, _, _, e⟩ := h _ (by simp) hc
        cases e

/-- **C149 (ranges).** As long as no figure of a group is removed or zoomed, all its figures are on the page and show the same ranges: the least that have the ranges of all of them in
them. What happens to figures of other groups does not matter. -/
theorem C149_ranges (g : Str) (es : List PageEvent) (h : (figuresOf es).Nodup)
    (ho : ∀ e ∈ es, concerns g (figuresIn g es) e = true → ∃ name group x y raw zoom, e = .figure name group x y raw zoom) :
    (shownOf g (pageRun .empty es)).map Prod.fst = figuresIn g es ∧
    (figuresIn g es ≠ [] → ∃ x y, IsUnion ((figsIn g es).map (·.2.1)) x ∧ IsUnion ((figsIn g es).map (·.2.2.1)) y ∧ ∀ z ∈ shownOf g (pageRun .empty es), z.2.xr = x ∧ z.2.yr = y) := by
  rw [C149_independent g es h, figures_only ho]
  obtain ⟨h1, h2, h3, h4⟩ := figs_run g (figsIn g es) (by rw [figsIn_names]; exact figuresIn_nodup h)
  have hs : shownOf g (pageRun .empty ((figsIn g es).map (figEvent g))) = (pageRun .empty ((figsIn g es).map (figEvent g))).graphs := by
    unfold shownOf
    rw [List.filter_eq_self]
    intro z hz
    have h5 : z.1 ∈ (figsIn g es).map Prod.fst := by
      rw [← h2]
      exact List.mem_map_of_mem hz
    rw [h1]
    simp only [h3 z hz, decide_true, Bool.true_and, decide_eq_true_eq]
    exact h5
  rw [hs, h2, figsIn_names]
  refine ⟨rfl, fun hne => ?_⟩
  rcases h4 with h4 | h4
  · rw [← figsIn_names, h4] at hne
    exact absurd rfl hne
  · exact h4

/-! ### Zooming -/

/-- what holds of a page if all figures of a group ask for `b` -/
structure ZoomInv (b : Bool) (g : Str) (S : List Str) (p : LinePage) : Prop where
  left : ∀ x ∈ p.graphs, x.1 ∈ S ↔ x.2.group = g
  names : ∀ c ∈ p.coupled, ∀ n ∈ c.2, n ∈ S ↔ c.1 = g
  nodup : (p.coupled.map Prod.fst).Nodup
  flags : ∀ z ∈ p.graphs, z.2.group = g → p.zoom.get z.1 = some b
  pair : b = true → ∀ u ∈ shownOf g p, ∀ v ∈ shownOf g p, u.1 ≠ v.1 → ∃ l, p.coupled.get g = some l ∧ u.1 ∈ l ∧ v.1 ∈ l
  none : b = false → p.coupled.get g = none

theorem shownOf_mem {g : Str} {p : LinePage} {z : Str × LineGraph} : z ∈ shownOf g p ↔ z ∈ p.graphs ∧ z.2.group = g ∧ z.1 ∈ p.divs := by
  unfold shownOf
  rw [List.mem_filter, Bool.and_eq_true, decide_eq_true_iff, decide_eq_true_iff]

theorem two_le_of_mem {l : List Str} {a b : Str} (ha : a ∈ l) (hb : b ∈ l) (h : a ≠ b) : 2 ≤ l.length := by
  match l, ha, hb with
  | [], ha, _ => simp at ha
  | [c], ha, hb =>
    rw [List.mem_singleton] at ha hb
    exact absurd (ha.trans hb.symm) h
  | _ :: _ :: _, _, _ => simp

theorem zoomInv_figure {b : Bool} {g : Str} {S : List Str} {p : LinePage} (h : ZoomInv b g S p) {name group : Str} {x y : Rat × Rat} {raw : List Rat} {zoom : Bool}
    (hS : name ∈ S ↔ group = g) (hf : name ∉ p.graphs.map Prod.fst) (hz : group = g → zoom = b) : ZoomInv b g S (pageEvent p (.figure name group x y raw zoom)) := by
  have hflags : ∀ z ∈ withFigure p name group x y raw, z.2.group = g → (p.zoom.set name zoom).get z.1 = some b := by
    intro z hz' hg
    rw [Dict.get_set]
    rcases (withFigure_mem hz').2 with h' | rfl
    · have : name ≠ z.1 := fun e => hf (e ▸ List.mem_map_of_mem h')
      rw [if_neg this]
      exact h.flags z h' hg
    · simp only at hg
      simp [hz hg]
  have hin : ∀ z ∈ withFigure p name group x y raw, z.2.group = g → z.1 ∈ groupNames g (withFigure p name group x y raw) := by
    intro z hz' hg
    unfold groupNames
    exact List.mem_map_of_mem (List.mem_filter.2 ⟨hz', by simpa using hg⟩)
  exact {
    left := figure_left h.left hS hf
    names := figure_names h.left hS hf h.names
    nodup := figure_nodup hf h.nodup
    flags := by
      rw [figure_eq hf]
      intro z hz' hg
      obtain ⟨u, hu, e1, e2⟩ := syncGroup_mem hz'
      rw [e1]
      exact hflags u hu (e2 ▸ hg)
    pair := by
      intro hb u hu v hv hne
      rw [shownOf_mem] at hu hv
      rw [figure_eq hf] at hu hv ⊢
      simp only at hu hv ⊢
      obtain ⟨u', hu', eu1, eu2⟩ := syncGroup_mem hu.1
      obtain ⟨v', hv', ev1, ev2⟩ := syncGroup_mem hv.1
      rw [eu1, ev1] at hne ⊢
      by_cases hg : group = g
      · subst hg
        have h1 := hin u' hu' (eu2 ▸ hu.2.1)
        have h2 := hin v' hv' (ev2 ▸ hv.2.1)
        have hall : allZoom (p.zoom.set name zoom) (groupNames group (withFigure p name group x y raw)) = true := by
          unfold allZoom
          rw [List.all_eq_true]
          intro n hn
          obtain ⟨z, hz', e, hg⟩ := groupNames_mem hn
          rw [← e, hflags z hz' hg, hb]
          rfl
        rw [if_pos ⟨two_le_of_mem h1 h2 hne, hall⟩, Dict.get_set, if_pos rfl]
        exact ⟨_, rfl, h1, h2⟩
      · have old : ∀ z ∈ withFigure p name group x y raw, z.2.group = g → z ∈ shownOf g p := by
          intro z hz' hzg
          have hm := withFigure_mem hz'
          rcases hm.2 with h' | rfl
          · refine shownOf_mem.2 ⟨h', hzg, ?_⟩
            rcases List.mem_append.1 hm.1 with h'' | h''
            · exact h''
            · rw [List.mem_singleton] at h''
              exact absurd (h'' ▸ List.mem_map_of_mem h') hf
          · exact absurd hzg hg
        obtain ⟨l, hl, h1, h2⟩ := h.pair hb u' (old u' hu' (eu2 ▸ hu.2.1)) v' (old v' hv' (ev2 ▸ hv.2.1)) hne
        refine ⟨l, ?_, h1, h2⟩
        split
        · rw [Dict.get_set, if_neg hg]
          exact hl
        · exact hl
    none := by
      intro hb
      rw [figure_eq hf]
      simp only
      by_cases hg : group = g
      · subst hg
        rw [if_neg]
        · exact h.none hb
        · rintro ⟨hl, hall⟩
          unfold allZoom at hall
          rw [List.all_eq_true] at hall
          have hne : groupNames group (withFigure p name group x y raw) ≠ [] := by
            intro e
            rw [e] at hl
            simp at hl
          obtain ⟨n, hn⟩ := List.exists_mem_of_ne_nil _ hne
          have h1 := hall n hn
          obtain ⟨z, hz', e, hg⟩ := groupNames_mem hn
          rw [← e, hflags z hz' hg, hb] at h1
          simp at h1
      · split
        · rw [Dict.get_set, if_neg hg]
          exact h.none hb
        · exact h.none hb }

theorem zoomInv_removed {b : Bool} {g : Str} {S : List Str} {p : LinePage} (h : ZoomInv b g S p) (names : List Str) : ZoomInv b g S (pageEvent p (.removed names)) :=
  { h with
    pair := by
      intro hb u hu v hv hne
      have sub : ∀ z ∈ shownOf g (pageEvent p (.removed names)), z ∈ shownOf g p := by
        intro z hz
        rw [shownOf_mem] at hz ⊢
        exact ⟨hz.1, hz.2.1, (List.mem_filter.1 hz.2.2).1⟩
      exact h.pair hb u (sub u hu) v (sub v hv) hne }

theorem zoomInv_zoomed {b : Bool} {g : Str} {S : List Str} {p : LinePage} (h : ZoomInv b g S p) (name : Str) (x y : Rat × Rat) : ZoomInv b g S (pageEvent p (.zoomed name x y)) := by
  have old : ∀ z ∈ (pageEvent p (.zoomed name x y)).graphs, ∃ u ∈ p.graphs, z.1 = u.1 ∧ z.2.group = u.2.group := by
    rw [zoomed_eq]
    intro z hz
    obtain ⟨u, hu, e⟩ := List.mem_map.1 hz
    refine ⟨u, hu, ?_⟩
    rw [← e]
    split <;> exact ⟨rfl, rfl⟩
  exact { h with
    left := zoomed_left h.left name x y
    flags := by
      intro z hz hg
      obtain ⟨u, hu, e1, e2⟩ := old z hz
      rw [e1]
      exact h.flags u hu (e2 ▸ hg)
    pair := by
      intro hb u hu v hv hne
      rw [shownOf_mem] at hu hv
      obtain ⟨u', hu', eu1, eu2⟩ := old u hu.1
      obtain ⟨v', hv', ev1, ev2⟩ := old v hv.1
      have h1 := hu.2.2
      have h2 := hv.2.2
      rw [eu1] at h1
      rw [ev1] at h2
      rw [eu1, ev1] at hne ⊢
      exact h.pair hb u' (shownOf_mem.2 ⟨hu', eu2 ▸ hu.2.1, h1⟩) v' (shownOf_mem.2 ⟨hv', ev2 ▸ hv.2.1, h2⟩) hne }

theorem zoomInv_run {b : Bool} {g : Str} {S : List Str} (es : List PageEvent) : ∀ {p : LinePage}, ZoomInv b g S p → NamesOf g S es → (figuresOf es).Nodup →
    (∀ n ∈ figuresOf es, n ∉ p.graphs.map Prod.fst) → (∀ f ∈ figsIn g es, f.2.2.2.2 = b) → ZoomInv b g S (pageRun p es) := by
  induction es with
  | nil => intro p h _ _ _ _; exact h
  | cons e es ih =>
    intro p h hS hn hf hb
    have hS' : NamesOf g S es := fun name group x y raw zoom hm => hS name group x y raw zoom (List.mem_cons_of_mem _ hm)
    rw [figuresOf_cons] at hn
    have hnew : ∀ n ∈ figuresOf es, n ∉ (pageEvent p e).graphs.map Prod.fst := by
      intro n hn' hm
      rcases event_keys hm with h1 | h1
      · exact hf n (by rw [figuresOf_cons]; exact List.mem_append_right _ hn') h1
      · exact (List.nodup_append.1 hn).2.2 n h1 n hn' rfl
    have hn' := (List.nodup_append.1 hn).2.1
    cases e with
    | figure name group x y raw zoom =>
      refine ih (zoomInv_figure h (hS name group x y raw zoom (by simp)) (hf name (by simp [figuresOf])) ?_) hS' hn' hnew ?_
      · intro hg
        exact hb (name, x, y, raw, zoom) (by simp [figsIn, hg])
      · intro f hf'
        refine hb f ?_
        simp only [figsIn]
        split
        · exact List.mem_cons_of_mem _ hf'
        · exact hf'
    | removed names => exact ih (zoomInv_removed h names) hS' hn' hnew hb
    | zoomed name x y => exact ih (zoomInv_zoomed h name x y) hS' hn' hnew hb

theorem zoomInv_empty (b : Bool) (g : Str) (S : List Str) : ZoomInv b g S LinePage.empty where
  left := by simp [LinePage.empty]
  names := by simp [LinePage.empty]
  nodup := by simp [LinePage.empty]
  flags := by simp [LinePage.empty]
  pair := by simp [LinePage.empty, shownOf]
  none := fun _ => rfl

theorem shown_zoomed (g : Str) (p : LinePage) (name : Str) (x y : Rat × Rat) :
    shownOf g (pageEvent p (.zoomed name x y)) = (shownOf g p).map fun z => if follows p name z.1 = true then (z.1, { z.2 with xr := x, yr := y }) else z := by
  rw [zoomed_eq]
  unfold shownOf
  simp only
  rw [List.filter_map]
  congr 1
  refine List.filter_congr fun z _ => ?_
  simp only [Function.comp]
  split <;> rfl

/-- **C149 (zooming).** If all figures of a group have `sync_zoom`, a zoom in one of them zooms all that are on the page; if none has it, only this one. This is so after any figures were
drawn, removed and zoomed before. -/
theorem C149_zoom (g : Str) (es : List PageEvent) (h : (figuresOf es).Nodup) (b : Bool) (hb : ∀ f ∈ figsIn g es, f.2.2.2.2 = b) {name : Str}
    (hn : name ∈ (shownOf g (pageRun .empty es)).map Prod.fst) (x y : Rat × Rat) :
    shownOf g (pageRun .empty (es ++ [.zoomed name x y])) =
      (shownOf g (pageRun .empty es)).map fun z => if b = true ∨ z.1 = name then (z.1, { z.2 with xr := x, yr := y }) else z := by
  have hi := zoomInv_run es (zoomInv_empty b g (figuresIn g es)) (namesOf_figuresIn h) h (by simp [LinePage.empty]) hb
  have hrun : pageRun .empty (es ++ [.zoomed name x y]) = pageEvent (pageRun .empty es) (.zoomed name x y) := by simp [pageRun, List.foldl_append]
  rw [hrun, shown_zoomed]
  refine List.map_congr_left fun z hz => ?_
  have hz' := shownOf_mem.1 hz
  have hzS := (hi.left z hz'.1).2 hz'.2.1
  have : follows (pageRun .empty es) name z.1 = true ↔ b = true ∨ z.1 = name := by
    rw [follows_get hi.names hi.nodup hzS]
    constructor
    · rintro (h1 | ⟨l, hl, _⟩)
      · exact .inr h1
      · left
        by_contra hb'
        rw [hi.none (by simpa using hb')] at hl
        cases hl
    · rintro (h1 | h1)
      · by_cases he : z.1 = name
        · exact .inl he
        · obtain ⟨u, hu, rfl⟩ := List.mem_map.1 hn
          obtain ⟨l, hl, h2, h3⟩ := hi.pair h1 u hu z hz (Ne.symm he)
          exact .inr ⟨l, hl, h2, h3⟩
      · exact .inl h1
  by_cases hc : b = true ∨ z.1 = name
  · rw [if_pos hc, if_pos (this.2 hc)]
  · rw [if_neg hc, if_neg (fun h => hc (this.1 h))]

/-- **C149 (removed figures).** A figure of a group of which no figure is on the page shows its own ranges and rows, whatever was there before. -/
theorem C149_removed (g : Str) (es : List PageEvent) {name : Str} (h : (figuresOf es ++ [name]).Nodup) (he : shownOf g (pageRun .empty es) = []) (x y : Rat × Rat) (raw : List Rat)
    (zoom : Bool) : shownOf g (pageRun .empty (es ++ [.figure name g x y raw zoom])) = [(name, ⟨g, x, y, raw, false, false⟩)] := by
  have hkeys : ∀ (es : List PageEvent) (p : LinePage) (n : Str), n ∈ (pageRun p es).graphs.map Prod.fst → n ∈ p.graphs.map Prod.fst ∨ n ∈ figuresOf es := by
    intro es
    induction es with
    | nil => intro p n hn; exact .inl hn
    | cons e es ih =>
      intro p n hn
      rw [figuresOf_cons]
      rcases ih (pageEvent p e) n hn with h1 | h1
      · rcases event_keys h1 with h2 | h2
        · exact .inl h2
        · exact .inr (List.mem_append_left _ h2)
      · exact .inr (List.mem_append_right _ h1)
  have hf : name ∉ (pageRun .empty es).graphs.map Prod.fst := by
    intro hm
    rcases hkeys es _ _ hm with h1 | h1
    · simp [LinePage.empty] at h1
    · exact (List.nodup_append.1 h).2.2 name h1 name (by simp) rfl
  have hrun : pageRun .empty (es ++ [.figure name g x y raw zoom]) = pageEvent (pageRun .empty es) (.figure name g x y raw zoom) := by simp [pageRun, List.foldl_append]
  rw [hrun]
  generalize pageRun .empty es = p at *
  have hg : ∀ z ∈ purgeGraphs p.divs p.graphs, z.2.group ≠ g := by
    intro z hz e
    unfold purgeGraphs at hz
    rw [List.mem_filter] at hz
    have : z ∈ shownOf g p := shownOf_mem.2 ⟨hz.1, e, by simpa using hz.2⟩
    rw [he] at this
    simp at this
  have hfil : (withFigure p name g x y raw).filter (fun z => decide (z.2.group = g)) = [(name, ⟨g, x, y, raw, false, false⟩)] := by
    unfold withFigure
    rw [List.filter_append, List.filter_eq_nil_iff.2]
    · simp
    · intro z hz
      simpa using hg z hz
  have hsync : syncGroup g (withFigure p name g x y raw) = withFigure p name g x y raw := by
    refine (C133_ranges g _).2 ?_
    unfold inGroup
    rw [hfil]
    simp
  rw [figure_eq hf]
  unfold shownOf
  simp only [hsync]
  rw [← hfil]
  refine List.filter_congr fun z hz => ?_
  have := (withFigure_mem hz).1
  simp only [this, decide_true, Bool.and_true]

/-- **C149 refuted for plots without a group.** The group of a plot without one is the hash of the Python object, which another object can have once the first is gone (nothing keeps the
object of `ILinePlot(...).view()`). Then the figure of the first plot takes the ranges of the second, whatever they are. -/
theorem C149_hash_refuted {hash a b : Str} (hab : a ≠ b) {xa ya xb yb : Rat × Rat} {ra rb : List Rat} (h : xa.2 < xb.2) :
    (∃ z ∈ shownOf hash (pageRun .empty [.figure a hash xa ya ra false]), z.1 = a ∧ z.2.xr = xa) ∧
    ∀ z ∈ shownOf hash (pageRun .empty [.figure a hash xa ya ra false, .figure b hash xb yb rb false]), z.2.xr.2 = xb.2 := by
  have hne : a ≠ b := hab
  constructor
  · simp [pageRun, pageEvent, LinePage.empty, Dict.set, purgeGraphs, syncGroup, shownOf, widen]
  · obtain ⟨_, h2⟩ := C149_ranges hash [.figure a hash xa ya ra false, .figure b hash xb yb rb false] (by simp [figuresOf, hne])
      (by intro e he hc; simp at he; rcases he with rfl | rfl <;> exact ⟨_, _, _, _, _, _, rfl⟩)
    obtain ⟨x, y, hx, _, hz⟩ := h2 (by simp [figuresIn])
    intro z hz'
    rw [(hz z hz').1]
    simp only [figsIn, if_true, List.map_cons, List.map_nil] at hx
    obtain ⟨ha, _, q, hq, hq'⟩ := hx
    rw [← hq']
    simp only [List.mem_cons, List.not_mem_nil, or_false] at hq
    rcases hq with rfl | rfl
    · have := (ha xb (by simp)).2
      rw [← hq'] at this
      exact absurd this (not_le.2 h)
    · rfl

/-- a page with two groups: figures drawn, one removed, one zoomed -/
def samplePage : List PageEvent :=
  [.figure cs!"a" cs!"g" (0, 2) (0, 1) [0, 2] true, .figure cs!"b" cs!"h" (7, 9) (0, 5) [7, 9] false, .figure cs!"c" cs!"g" (1, 5) (3, 4) [1, 5] true, .removed [cs!"b"],
   .figure cs!"d" cs!"h" (1, 2) (1, 2) [1, 2] false]

/-- the hypotheses of the theorems hold of it -/
example : (figuresOf samplePage).Nodup ∧ (∀ f ∈ figsIn cs!"g" samplePage, f.2.2.2.2 = true) ∧ (∀ f ∈ figsIn cs!"h" samplePage, f.2.2.2.2 = false) ∧
    cs!"c" ∈ (shownOf cs!"g" (pageRun .empty samplePage)).map Prod.fst ∧
    (samplePage.filter (concerns cs!"g" (figuresIn cs!"g" samplePage))).length = 2 := by
  decide +kernel

example : ∀ e ∈ samplePage, concerns cs!"g" (figuresIn cs!"g" samplePage) e = true → ∃ name group x y raw zoom, e = .figure name group x y raw zoom := by
  intro e he hc
  simp only [samplePage, List.mem_cons, List.not_mem_nil, or_false] at he
  rcases he with rfl | rfl | rfl | rfl | rfl
  · exact ⟨_, _, _, _, _, _, rfl⟩
  · exact ⟨_, _, _, _, _, _, rfl⟩
  · exact ⟨_, _, _, _, _, _, rfl⟩
  · exact absurd hc (by decide +kernel)
  · exact ⟨_, _, _, _, _, _, rfl⟩

example : (shownOf cs!"g" (pageRun .empty samplePage)).map (fun z => (z.1, z.2.xr, z.2.yr)) = [(cs!"a", (0, 5), (0, 4)), (cs!"c", (0, 5), (0, 4))] := by
  decide +kernel

example : (figuresOf (samplePage.take 4) ++ [cs!"d"]).Nodup ∧ shownOf cs!"h" (pageRun .empty (samplePage.take 4)) = [] ∧ (pageRun .empty (samplePage.take 4)).graphs.length = 3 := by
  decide +kernel

/-- the figure that was removed no longer counts -/
example : (shownOf cs!"h" (pageRun .empty samplePage)).map (fun z => (z.1, z.2.xr, z.2.yr)) = [(cs!"d", (1, 2), (1, 2))] := by
  decide +kernel

example : (shownOf cs!"g" (pageRun .empty (samplePage ++ [.zoomed cs!"c" (2, 3) (0, 1)]))).map (fun z => (z.1, z.2.xr, z.2.yr)) = [(cs!"a", (2, 3), (0, 1)), (cs!"c", (2, 3), (0, 1))] := by
  decide +kernel

end Trappy
