import Mathlib.Tactic.Common
import Verif.Model.TopoText
import Verif.Lemma.CacheEnv
import Verif.Lemma.Array
import Verif.Lemma.Registry
/-!
# C182: what the text of a topology says
-/

namespace Trappy
open Py Re

/-- the text of a list: its elements in brackets, ", " between them -/
def listText {α : Type} (f : α → Str) (l : List α) : Str := cs!"[" ++ List.intercalate cs!", " (l.map f) ++ cs!"]"

/-- the groups of a level as the methods see them: `all` is one group with every node -/
def Topo.seen (ord : List Nat → List Nat) (t : Topo) (name : Str) (groups : List (List Nat)) : List (List Nat) :=
  if name = cs!"all" then [ord t.nodes] else groups

/-- no name of a level has a line break in it -/
def Topo.OneLine (t : Topo) : Prop := ∀ kv ∈ t.levels, '\n' ∉ kv.1

theorem reprRest_eq {α : Type} (f : α → Str) (a : α) (l : List α) :
    f a ++ reprRest f l = List.intercalate cs!", " ((a :: l).map f) := by
  induction l generalizing a with
  | nil => simp [reprRest, List.intercalate]
  | cons b l ih =>
    have := ih b
    simp only [List.map_cons, List.intercalate, List.intersperse] at this ⊢
    simp only [reprRest]
    cases l <;> simp_all

theorem reprList_eq {α : Type} (f : α → Str) (l : List α) : reprList f l = listText f l := by
  cases l with
  | nil => rfl
  | cons a l => simp only [reprList, listText, ← reprRest_eq]; simp


/-- a line of the text -/
def levelLine (p : Str × List (List Nat)) : Str := p.1 ++ cs!" " ++ listText (listText natStr) p.2 ++ cs!"\n"

theorem Topo.lines_eq (ord : List Nat → List Nat) (t : Topo) (ps : List (Str × List (List Nat))) (s : Str)
    (h : ∀ p ∈ ps, t.getLevel ord p.1 = some p.2) : t.lines ord (ps.map Prod.fst) s = some (s ++ (ps.map levelLine).flatten) := by
  induction ps generalizing s with
  | nil => simp [Topo.lines]
  | cons p ps ih =>
    have h1 := h p (by simp)
    simp only [List.map_cons, Topo.lines, h1]
    rw [ih _ fun q hq => h q (by simp [hq])]
    have e : reprGroups p.2 = listText (listText natStr) p.2 := by
      unfold reprGroups
      rw [reprList_eq]
      congr 1
      funext l
      exact reprList_eq _ _
    simp [levelLine, e]

/-! ## Reading the text from the right -/

theorem listText_snoc {α : Type} (f : α → Str) (l : List α) (a : α) :
    List.intercalate cs!", " ((l ++ [a]).map f) = (if l = [] then [] else List.intercalate cs!", " (l.map f) ++ cs!", ") ++ f a := by
  induction l with
  | nil => simp [List.intercalate]
  | cons b l ih =>
    cases l with
    | nil => simp [List.intercalate]
    | cons c l =>
      simp only [List.cons_append, List.map_cons, List.intercalate, reduceCtorEq, if_false, List.intersperse] at ih ⊢
      simp only [List.flatten_cons, List.append_assoc] at ih ⊢
      rw [ih]

/-- the last character is one that comes before an element -/
def Opens (p : Str) : Prop := ∃ q, p = q ++ ['['] ∨ p = q ++ [' ']

theorem listBody_inj {α : Type} (f : α → Str) (hlast : ∀ a, ∃ q c, f a = q ++ [c] ∧ c ≠ '[')
    (hf : ∀ p q a b, Opens p → Opens q → p ++ f a = q ++ f b → a = b ∧ p = q) (l m : List α) (x y : Str)
    (h : x ++ '[' :: List.intercalate cs!", " (l.map f) = y ++ '[' :: List.intercalate cs!", " (m.map f)) : l = m ∧ x = y := by
  have one : ∀ (l : List α) (a : α) (x y : Str),
      x ++ '[' :: List.intercalate cs!", " ((l ++ [a]).map f) ≠ y ++ ['['] := by
    intro l a x y h
    obtain ⟨q, c, h1, h2⟩ := hlast a
    rw [listText_snoc, h1] at h
    have := congrArg List.getLast? h
    simp only [← List.cons_append, ← List.append_assoc, List.getLast?_concat] at this
    exact h2 (Option.some.inj this)
  have open_ : ∀ (l : List α) (x : Str), Opens (x ++ '[' :: (if l = [] then [] else List.intercalate cs!", " (l.map f) ++ cs!", ")) := by
    intro l x
    by_cases hl : l = []
    · exact ⟨x, Or.inl (by simp [hl])⟩
    · exact ⟨x ++ '[' :: (List.intercalate cs!", " (l.map f) ++ cs!","), Or.inr (by simp [hl])⟩
  induction l using List.reverseRecOn generalizing m x y with
  | nil =>
    rcases List.eq_nil_or_concat m with rfl | ⟨m, b, rfl⟩
    · simpa [List.intercalate] using h
    · exact absurd (by simpa [List.intercalate] using h.symm) (one m b y x)
  | append_singleton l a ih =>
    rcases List.eq_nil_or_concat m with rfl | ⟨m, b, rfl⟩
    · exact absurd (by simpa [List.intercalate] using h) (one l a x y)
    · rw [List.concat_eq_append] at h ⊢
      rw [listText_snoc, listText_snoc] at h
      obtain ⟨rfl, h2⟩ := hf _ _ a b (open_ l x) (open_ m y) (by simpa using h)
      by_cases hl : l = [] <;> by_cases hm : m = []
      · subst hl hm
        simpa using h2
      · exfalso
        have := congrArg List.getLast? h2
        have e : y ++ '[' :: (List.intercalate cs!", " (m.map f) ++ cs!", ") = (y ++ '[' :: (List.intercalate cs!", " (m.map f) ++ cs!",")) ++ [' '] := by simp
        rw [if_pos hl, if_neg hm, e, List.getLast?_concat, List.getLast?_concat] at this
        exact absurd (Option.some.inj this) (by decide)
      · exfalso
        have := congrArg List.getLast? h2
        have e : x ++ '[' :: (List.intercalate cs!", " (l.map f) ++ cs!", ") = (x ++ '[' :: (List.intercalate cs!", " (l.map f) ++ cs!",")) ++ [' '] := by simp
        rw [if_neg hl, if_pos hm, e, List.getLast?_concat, List.getLast?_concat] at this
        exact absurd (Option.some.inj this) (by decide)
      · rw [if_neg hl, if_neg hm] at h2
        have h3 : x ++ '[' :: List.intercalate cs!", " (l.map f) = y ++ '[' :: List.intercalate cs!", " (m.map f) := by
          apply List.append_cancel_right (bs := cs!", ")
          simpa using h2
        obtain ⟨rfl, rfl⟩ := ih _ _ _ h3
        exact ⟨rfl, rfl⟩

theorem listText_inj {α : Type} (f : α → Str) (hlast : ∀ a, ∃ q c, f a = q ++ [c] ∧ c ≠ '[')
    (hf : ∀ p q a b, Opens p → Opens q → p ++ f a = q ++ f b → a = b ∧ p = q) (l m : List α) (x y : Str)
    (h : x ++ listText f l = y ++ listText f m) : l = m ∧ x = y := by
  apply listBody_inj f hlast hf
  apply List.append_cancel_right (bs := cs!"]")
  simpa [listText] using h

theorem digits_right (p q a b : Str) (hp : Opens p) (hq : Opens q) (ha : ∀ c ∈ a, isDigit c = true) (hb : ∀ c ∈ b, isDigit c = true)
    (h : p ++ a = q ++ b) : a = b ∧ p = q := by
  have key : ∀ p a : Str, Opens p → (∀ c ∈ a, isDigit c = true) → ((p ++ a).reverse.takeWhile isDigit) = a.reverse := by
    intro p a hp ha
    rw [List.reverse_append, List.takeWhile_append_of_pos (by simpa using ha)]
    rcases hp with ⟨q, rfl | rfl⟩
    · rw [List.reverse_append]; simp [isDigit]
    · rw [List.reverse_append]; simp [isDigit]
  have h1 := key p a hp ha
  rw [h, key q b hq hb] at h1
  have h2 : a = b := (List.reverse_injective h1).symm
  subst h2
  exact ⟨rfl, List.append_cancel_right h⟩

theorem natStr_right (p q : Str) (a b : Nat) (hp : Opens p) (hq : Opens q) (h : p ++ natStr a = q ++ natStr b) : a = b ∧ p = q := by
  obtain ⟨h1, h2⟩ := digits_right p q _ _ hp hq (fun c hc => natStr_digits hc) (fun c hc => natStr_digits hc) h
  refine ⟨?_, h2⟩
  have h3 : natStr a = natStr b := h1
  rw [← natVal_natStr a, h3, natVal_natStr]

theorem natStr_last (a : Nat) : ∃ q c, natStr a = q ++ [c] ∧ c ≠ '[' := by
  rcases List.eq_nil_or_concat (natStr a) with h | ⟨q, c, h⟩
  · exact absurd h (by simp [natStr])
  · refine ⟨q, c, by simpa using h, ?_⟩
    rintro rfl
    have : isDigit '[' = true := natStr_digits (i := a) (by show '[' ∈ natStr a; rw [h]; simp)
    exact absurd this (by decide)

theorem numsText_right (p q : Str) (a b : List Nat) (h : p ++ listText natStr a = q ++ listText natStr b) : a = b ∧ p = q :=
  listText_inj natStr natStr_last natStr_right a b p q h

theorem groupsText_right (p q : Str) (a b : List (List Nat)) (h : p ++ listText (listText natStr) a = q ++ listText (listText natStr) b) :
    a = b ∧ p = q :=
  listText_inj (listText natStr) (fun a => ⟨cs!"[" ++ List.intercalate cs!", " (a.map natStr), ']', rfl, by decide⟩)
    (fun p q a b _ _ h => numsText_right p q a b h) a b p q h

theorem listText_noBreak {α : Type} (f : α → Str) (hf : ∀ a, '\n' ∉ f a) (l : List α) : '\n' ∉ listText f l := by
  have : '\n' ∉ List.intercalate cs!", " (l.map f) := by
    induction l using List.reverseRecOn with
    | nil => simp [List.intercalate]
    | append_singleton l a ih =>
      rw [listText_snoc]
      split <;> simp_all
  simp [listText, this]

theorem groupsText_noBreak (gs : List (List Nat)) : '\n' ∉ listText (listText natStr) gs :=
  listText_noBreak _ (listText_noBreak _ fun a h => absurd (natStr_digits (i := a) h) (by decide)) gs

theorem break_left {a b x y : Str} (ha : '\n' ∉ a) (hb : '\n' ∉ b) (h : a ++ '\n' :: x = b ++ '\n' :: y) : a = b ∧ x = y := by
  induction a generalizing b with
  | nil =>
    cases b with
    | nil => simpa using h
    | cons c b => simp at h hb; exact absurd h.1 hb.1
  | cons d a ih =>
    cases b with
    | nil => simp at h ha; exact absurd h.1.symm ha.1
    | cons c b =>
      simp only [List.cons_append, List.cons.injEq] at h
      simp only [List.mem_cons, not_or] at ha hb
      obtain ⟨rfl, rfl⟩ := ih ha.2 hb.2 h.2
      exact ⟨by rw [h.1], rfl⟩

theorem levelLines_inj (ps qs : List (Str × List (List Nat))) (hp : ∀ p ∈ ps, '\n' ∉ p.1) (hq : ∀ q ∈ qs, '\n' ∉ q.1)
    (h : (ps.map levelLine).flatten = (qs.map levelLine).flatten) : ps = qs := by
  induction ps generalizing qs with
  | nil =>
    cases qs with
    | nil => rfl
    | cons q qs => simp [levelLine] at h
  | cons p ps ih =>
    cases qs with
    | nil => simp [levelLine] at h
    | cons q qs =>
      have no : ∀ r : Str × List (List Nat), '\n' ∉ r.1 → '\n' ∉ r.1 ++ cs!" " ++ listText (listText natStr) r.2 := by
        intro r hr
        have := groupsText_noBreak r.2
        simp [hr, this]
      have h0 : (p.1 ++ cs!" " ++ listText (listText natStr) p.2) ++ '\n' :: (ps.map levelLine).flatten =
          (q.1 ++ cs!" " ++ listText (listText natStr) q.2) ++ '\n' :: (qs.map levelLine).flatten := by
        simpa [levelLine] using h
      obtain ⟨h1, h2⟩ := break_left (no p (hp p (by simp))) (no q (hq q (by simp))) h0
      obtain ⟨h3, h4⟩ := groupsText_right _ _ _ _ h1
      have h5 : p.1 = q.1 := List.append_cancel_right h4
      rw [ih qs (fun r hr => hp r (by simp [hr])) (fun r hr => hq r (by simp [hr])) h2, Prod.ext h5 h3]

/-! ## The topologies there are -/

/-- a topology as the constructor and any calls of `add_to_level` leave it -/
inductive Topo.Made (ord : List Nat → List Nat) : Topo → Prop where
  | init (clusters : List (List Nat)) : Made ord (Topo.init ord clusters)
  | add {t : Topo} (h : Made ord t) (name : Str) (vals : List (List Nat)) : Made ord (t.add name vals)

theorem Topo.add_nodup {t : Topo} (h : (t.levels.map Prod.fst).Nodup) (name : Str) (vals : List (List Nat)) :
    ((t.add name vals).levels.map Prod.fst).Nodup := by
  unfold Topo.add
  dsimp only
  split <;> exact Dict.nodup_set h _ _

theorem Topo.Made.nodup {ord : List Nat → List Nat} {t : Topo} (h : Topo.Made ord t) : (t.levels.map Prod.fst).Nodup := by
  induction h with
  | init clusters =>
    unfold Topo.init
    split
    · exact List.nodup_nil
    · exact Topo.add_nodup (Topo.add_nodup (by exact List.nodup_nil) _ _) _ _
  | add _ name vals ih => exact Topo.add_nodup ih name vals

/-- the levels of a topology in the order they were made, with the groups they show -/
def Topo.shown (ord : List Nat → List Nat) (t : Topo) : List (Str × List (List Nat)) :=
  t.levels.map fun kv => (kv.1, t.seen ord kv.1 kv.2)

theorem Topo.text_eq {ord : List Nat → List Nat} {t : Topo} (h : Topo.Made ord t) :
    t.text ord = some ((t.shown ord).map levelLine).flatten := by
  have h1 := Topo.lines_eq ord t (t.shown ord) [] (by
    intro p hp
    obtain ⟨kv, hkv, rfl⟩ := List.mem_map.mp hp
    unfold Topo.getLevel Topo.seen
    dsimp only
    split
    · rfl
    · exact Dict.get_of_mem h.nodup hkv)
  unfold Topo.text
  have h2 : t.levels.map Prod.fst = (t.shown ord).map Prod.fst := by simp [Topo.shown]
  rw [h2, h1, List.nil_append]

/-- **C182**: the text of a topology never fails, and has a line for each level in the order the levels were made: the name, a blank and the
groups; for a level called `all` one group with all nodes is shown, whatever was added to it. -/
theorem C182_text {ord : List Nat → List Nat} {t : Topo} (h : Topo.Made ord t) :
    t.text ord = some (t.levels.map fun kv => kv.1 ++ cs!" " ++
      listText (listText natStr) (if kv.1 = cs!"all" then [ord t.nodes] else kv.2) ++ cs!"\n").flatten := by
  rw [Topo.text_eq h]
  simp [Topo.shown, levelLine, Topo.seen, Function.comp_def]

example : Topo.Made id ((Topo.init id [[0, 1], [2]]).add cs!"my level" [[0, 2], []]) := .add (.init _) _ _
example : ((Topo.init id [[0, 1], [12]]).add cs!"my level" [[0, 12], []]).text id =
    some cs!"cluster [[0, 1], [12]]\ncpu [[0], [1], [12]]\nmy level [[0, 12], []]\n" := by decide +kernel

/-- **C182**: if no name of a level has a line break, two topologies have the same text exactly if they have the same levels in the same
order and the same groups in them, a level called `all` aside, of which only the nodes of the topology are compared. -/
theorem C182_told {ord : List Nat → List Nat} {t u : Topo} (ht : Topo.Made ord t) (hu : Topo.Made ord u) (h1 : t.OneLine) (h2 : u.OneLine) :
    t.text ord = u.text ord ↔
      (t.levels.map fun kv => (kv.1, if kv.1 = cs!"all" then [ord t.nodes] else kv.2)) =
      (u.levels.map fun kv => (kv.1, if kv.1 = cs!"all" then [ord u.nodes] else kv.2)) := by
  rw [Topo.text_eq ht, Topo.text_eq hu]
  refine ⟨fun h => ?_, fun h => ?_⟩
  · refine levelLines_inj (t.shown ord) (u.shown ord) ?_ ?_ (Option.some.inj h)
    · intro p hp
      obtain ⟨kv, hkv, rfl⟩ := List.mem_map.mp hp
      exact h1 kv hkv
    · intro p hp
      obtain ⟨kv, hkv, rfl⟩ := List.mem_map.mp hp
      exact h2 kv hkv
  · have : t.shown ord = u.shown ord := h
    rw [this]

example : (Topo.init id [[0, 1], [2]]).OneLine ∧ ((Topo.init id [[0, 1], [2]]).add cs!"a [[1]] b" [[0]]).OneLine := by
  constructor <;> (unfold Topo.OneLine; decide +kernel)
example : (Topo.init id [[0, 1], [2]]).text id ≠ (Topo.init id [[0], [1, 2]]).text id := by decide +kernel

/-- **C182 refuted** for names with a line break: whatever two levels a topology has, there is one with a single level and the same text. -/
theorem C182_break_refuted (ord : List Nat → List Nat) (a b : Str) (g h : List (List Nat)) (hab : a ≠ b) (ha : a ≠ cs!"all") (hb : b ≠ cs!"all") :
    ((((Topo.init ord []).add a g).add b h).levels.map Prod.fst) = [a, b] ∧
    (((Topo.init ord []).add (a ++ cs!" " ++ listText (listText natStr) g ++ cs!"\n" ++ b) h).levels.length = 1) ∧
    (((Topo.init ord []).add a g).add b h).text ord =
      ((Topo.init ord []).add (a ++ cs!" " ++ listText (listText natStr) g ++ cs!"\n" ++ b) h).text ord := by
  have hn : a ++ cs!" " ++ listText (listText natStr) g ++ cs!"\n" ++ b ≠ cs!"all" := by
    intro e
    have : '\n' ∈ cs!"all" := by rw [← e]; simp
    exact absurd this (by decide)
  refine ⟨?_, ?_, ?_⟩
  · simp [Topo.init, Topo.empty, Topo.add, Dict.get, Dict.set, hab]
  · simp [Topo.init, Topo.empty, Topo.add, Dict.get, Dict.set]
  · rw [C182_text (.add (.add (.init []) a g) b h), C182_text (.add (.init []) _ h)]
    simp only [Topo.init, Topo.empty, Topo.add, Dict.get, Dict.set, hab, List.length_nil, if_true, if_false, List.nil_append, List.map_cons, List.map_nil,
      ha, hb, hn]
    simp

/-- **C182 refuted** for a level called `all`: two topologies with other groups in that level, but the same nodes, have the same text. -/
theorem C182_all_refuted (ord : List Nat → List Nat) {t : Topo} (ht : Topo.Made ord t) (v w : List (List Nat))
    (hn : (t.add cs!"all" v).nodes = (t.add cs!"all" w).nodes) : (t.add cs!"all" v).text ord = (t.add cs!"all" w).text ord := by
  rw [Topo.text_eq (.add ht _ _), Topo.text_eq (.add ht _ _)]
  have key : ∀ (d : Dict (List (List Nat))) (x y : List (List Nat)) (z : List (List Nat)),
      (d.set cs!"all" x).map (fun kv => (kv.1, if kv.1 = cs!"all" then z else kv.2)) =
      (d.set cs!"all" y).map (fun kv => (kv.1, if kv.1 = cs!"all" then z else kv.2)) := by
    intro d x y z
    induction d with
    | nil => simp [Dict.set]
    | cons kv d ih =>
      simp only [Dict.set]
      split
      · simp
      · rw [List.map_cons, List.map_cons, ih]
  have : (t.add cs!"all" v).shown ord = (t.add cs!"all" w).shown ord := by
    unfold Topo.shown Topo.seen
    rw [hn]
    unfold Topo.add
    dsimp only
    split <;> exact key _ _ _ _
  rw [this]

example : ((Topo.init id [[0, 1]]).add cs!"all" [[0], [1]]).nodes = ((Topo.init id [[0, 1]]).add cs!"all" [[1]]).nodes ∧
    ((Topo.init id [[0, 1]]).add cs!"all" [[0], [1]]).levels ≠ ((Topo.init id [[0, 1]]).add cs!"all" [[1]]).levels := by decide +kernel

end Trappy
