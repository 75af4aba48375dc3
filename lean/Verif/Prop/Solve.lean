import Verif.Prop.Accessors
import Verif.Prop.SuperIndex
import Verif.Prop.FileCalls
/-!
# C159: from the file of a trace to the value of an expression
-/

namespace Trappy
open F64 Py

/-! ## Specification -/

/-- **Specification**: the row is in the window, and every filter on a column that some row has allows it -/
def Chosen (o : GOpts) (t : Table (Dict Val)) (r : Nat × Dict Val) : Prop :=
  o.start ≤ r.1 ∧ (∀ b, o.stop = some b → r.1 ≤ b) ∧
    ∀ f ∈ o.filters, (∃ r' ∈ t, f.1 ∈ r'.2.map Prod.fst) → ∃ v, r.2.get f.1 = some (.int v) ∧ v ∈ f.2

/-- **Specification**: the row has this value of the pivot; an event without a pivot has one group, `none` -/
def OfPivot (pivot : Option Str) (pv : Option Int) (r : Nat × Dict Val) : Prop :=
  match pivot, pv with
  | none, none => True
  | some p, some x => r.2.get p = some (.int x)
  | _, _ => False

/-- **Specification**: `v` is in the column of a row chosen with this value of the pivot, at the time `u` -/
def Observed (o : GOpts) (pivot : Option Str) (t : Table (Dict Val)) (column : Str) (pv : Option Int) (u : Nat) (v : Int) : Prop :=
  ∃ r ∈ t, Chosen o t r ∧ OfPivot pivot pv r ∧ r.1 = u ∧ r.2.get column = some (.int v)

/-- **Specification**: the value of a part of an expression at one time and for one value of the pivot: a number that does not depend on them; nothing, for a pivot value that does not occur; or a value, `none` if there is none yet -/
inductive PointVal (α : Type) where
  | num (a : α)
  | absent
  | cell (x : Option α)
deriving DecidableEq

/-- **Specification**: an operator at one time and for one value of the pivot. `none` is an exception: `&&` and `||` with a table on the left, or comparisons and `&` and `|` with a pivot value that only one side has. -/
def pBin {α : Type} (ops : CellOps α) (o : GOp) (a b : PointVal α) : Option (PointVal α) :=
  match o, a, b with
  | .land, .num a, b => some (if ops.truth a then b else .num a)
  | .lor, .num a, b => some (if ops.truth a then .num a else b)
  | .land, _, _ => none
  | .lor, _, _ => none
  | o, .num a, .num b => (ops.scalar o a b).map .num
  | o, .num a, .cell y => (ops.cell o (some a) y).map .cell
  | o, .cell x, .num b => (ops.cell o x (some b)).map .cell
  | o, .cell x, .cell y => (ops.cell o x y).map .cell
  | o, .cell x, .absent => if o ∈ [.gt, .lt, .ge, .le, .eq, .ne, .band, .bor] then none else (ops.cell o x none).map .cell
  | o, .absent, .cell y => if o ∈ [.gt, .lt, .ge, .le, .eq, .ne, .band, .bor] then none else (ops.cell o none y).map .cell
  | _, _, _ => some .absent

/-- **Specification**: an expression at one time and for one value of the pivot, where `event:column` is `obs event column` -/
def pointInterp {α : Type} (ops : CellOps α) (obs : Str → Str → PointVal α) : GInterp (Option (PointVal α)) where
  num t := some (.num (ops.ofText false t))
  signed b t := some (.num (ops.ofText b t))
  var _ := none
  acc e c := some (obs e c)
  call _ _ := none
  callNone _ := none
  bin o a b := a.bind fun a => b.bind fun b => pBin ops o a b
  neg a := a.bind fun a => pBin ops .mul (.num (ops.ofInt (-1))) a

/-- **Specification**: what `event:column` is at the time `t` for the value `pv` of the pivot: the last value observed until then -/
def AccessorAt {α : Type} (ops : CellOps α) (o : GOpts) (table : Str → Table (Dict Val) → Prop) (t : Nat) (pv : Option Int) (event column : Str) (x : PointVal α) : Prop :=
  ∃ tab, table event tab ∧
    (((¬ ∃ r ∈ tab, Chosen o tab r ∧ OfPivot (classPivot event) pv r) ∧ x = .absent) ∨
     ((∃ r ∈ tab, Chosen o tab r ∧ OfPivot (classPivot event) pv r) ∧ ∃ v, LastValue (Observed o (classPivot event) tab column pv) t v ∧ x = .cell (v.map ops.ofInt)))

/-- **Specification**: the value in the row `j` of the column `pv` of a result -/
def SVal.point {α : Type} (pv : Option Int) (j : Nat) : SVal α → PointVal α
  | .num a => .num a
  | .frame cols =>
    match cols.lookup pv with
    | none => .absent
    | some col =>
      match col[j]? with
      | some x => .cell x
      | none => .absent

/-- whatever the values are -/
def unitInterp : GInterp Unit := ⟨fun _ => (), fun _ _ => (), fun _ => (), fun _ _ => (), fun _ _ => (), fun _ => (), fun _ _ _ => (), fun _ => ()⟩

/-- **Specification**: an expression of the documented grammar -/
def Expression (toks : List GTok) : Prop := GDer unitInterp 6 toks [()]

/-! ## Lemmas on expressions -/

theorem tokAccessors_append {t : GTok} (h1 : ∀ s, t ≠ .name s) (h2 : t ≠ .colon) : ∀ (l r : List GTok), tokAccessors (l ++ t :: r) = tokAccessors l ++ tokAccessors r
  | [], r => by rw [List.nil_append, tokAccessors_skip (.inl h1)]; rfl
  | a :: l, r => by
    by_cases hacc : ∃ e c us, a = .name e ∧ l = .colon :: .name c :: us
    · obtain ⟨e, c, us, rfl, rfl⟩ := hacc
      have := tokAccessors_append h1 h2 us r
      simp only [List.cons_append, tokAccessors, this]
    · have hl : (∀ s, a ≠ .name s) ∨ ∀ c us, l ≠ .colon :: .name c :: us := by
        by_cases hn : ∃ e, a = .name e
        · obtain ⟨e, rfl⟩ := hn
          exact .inr fun c us hl => hacc ⟨e, c, us, rfl, hl⟩
        · exact .inl fun s hs => hn ⟨s, hs⟩
      have hr : (∀ s, a ≠ .name s) ∨ ∀ c us, l ++ t :: r ≠ .colon :: .name c :: us := by
        rcases hl with hl | hl
        · exact .inl hl
        · refine .inr fun c us he => ?_
          match l, he with
          | [], he => exact h2 (List.cons.inj he).1
          | [x], he => exact h1 c (List.cons.inj (List.cons.inj he).2).1
          | x :: y :: l', he =>
            simp only [List.cons_append, List.cons.injEq] at he
            exact hl c l' (by rw [he.1, he.2.1])
      rw [List.cons_append, tokAccessors_skip hr, tokAccessors_skip hl]
      exact tokAccessors_append h1 h2 l r
termination_by l => l.length

theorem PlainColumns.append {t : GTok} (h1 : ∀ s, t ≠ .name s) (h2 : t ≠ .colon) : ∀ {l r : List GTok}, PlainColumns l → PlainColumns r → PlainColumns (l ++ t :: r)
  | [], r, _, hr => by
    cases t with
    | colon => exact absurd rfl h2
    | _ => exact hr
  | a :: l, r, hl, hr => by
    have ih := PlainColumns.append h1 h2 (hl.tail) hr
    cases a with
    | colon =>
      cases l with
      | nil =>
        cases t with
        | name s => exact absurd rfl (h1 s)
        | _ => exact ih
      | cons x l =>
        cases x with
        | name c => exact ⟨hl.1, PlainColumns.append h1 h2 hl.2 hr⟩
        | _ => exact ih
    | _ => exact ih
termination_by l => l.length

theorem GDer.plainColumns {V : Type} {I : GInterp V} {k : Nat} {toks : List GTok} {vs : List V} (h : GDer I k toks vs) : PlainColumns toks := by
  have l : ∀ {t ts}, (∀ s, t ≠ GTok.name s) → t ≠ .colon → PlainColumns ts → PlainColumns (t :: ts) := fun h1 h2 h => PlainColumns.append (l := []) h1 h2 trivial h
  induction h with
  | num t => exact trivial
  | var s _ => exact trivial
  | acc e c hc => exact ⟨hc, trivial⟩
  | call s ts vs _ ih => exact PlainColumns.append (t := .lpar) (l := [.name s]) (by simp) (by simp) trivial (PlainColumns.append (t := .rpar) (r := []) (by simp) (by simp) ih trivial)
  | paren ts v _ ih => exact l (by simp) (by simp) (PlainColumns.append (by simp) (by simp) ih trivial)
  | up k ts v _ _ ih => exact ih
  | bin o g a b _ _ _ _ ih1 ih2 => exact PlainColumns.append (by simp) (by simp) ih1 ih2
  | powSigned g a t _ _ ih => exact PlainColumns.append (by simp) (by simp) ih trivial
  | neg g ts v _ ih => exact l (by simp) (by simp) ih
  | plus g ts v _ ih => exact l (by simp) (by simp) ih
  | arg ts v _ ih => exact ih
  | args ts us v vs _ _ ih1 ih2 => exact PlainColumns.append (by simp) (by simp) ih1 ih2

/-- the values of an expression in two interpretations are related if the operators keep the relation -/
theorem GDer.related {V W : Type} {I : GInterp V} {J : GInterp W} (R : V → W → Prop) (P : Str × Str → Prop) (hnum : ∀ t, R (I.num t) (J.num t)) (hsigned : ∀ b t, R (I.signed b t) (J.signed b t))
    (hvar : ∀ s, R (I.var s) (J.var s)) (hacc : ∀ e c, P (e, c) → R (I.acc e c) (J.acc e c)) (hcall : ∀ s vs ws, List.Forall₂ R vs ws → R (I.call s vs) (J.call s ws))
    (hbin : ∀ o a b x y, R a x → R b y → R (I.bin o a b) (J.bin o x y)) (hneg : ∀ a x, R a x → R (I.neg a) (J.neg x))
    {k : Nat} {toks : List GTok} {vs : List V} (h : GDer I k toks vs) : (∀ a ∈ tokAccessors toks, P a) → ∃ ws, GDer J k toks ws ∧ List.Forall₂ R vs ws := by
  have skip : ∀ {t ts}, (∀ s, t ≠ GTok.name s) → tokAccessors (t :: ts) = tokAccessors ts := fun h => tokAccessors_skip (.inl h)
  have one : ∀ {v ws}, List.Forall₂ R [v] ws → ∃ w, ws = [w] ∧ R v w := by
    intro v ws h
    cases h with
    | cons h1 h2 => cases h2; exact ⟨_, rfl, h1⟩
  induction h with
  | num t => exact fun _ => ⟨_, .num t, .cons (hnum t) .nil⟩
  | var s hs => exact fun _ => ⟨_, .var s hs, .cons (hvar s) .nil⟩
  | acc e c hc => exact fun hP => ⟨_, .acc e c hc, .cons (hacc e c (hP (e, c) (by simp [tokAccessors]))) .nil⟩
  | call s ts vs _ ih =>
    intro hP
    have e1 : tokAccessors (.name s :: .lpar :: (ts ++ [.rpar])) = tokAccessors ts := by
      rw [tokAccessors_skip (.inr (by simp)), skip (by simp), tokAccessors_append (by simp) (by simp)]
      simp [tokAccessors]
    obtain ⟨ws, h1, h2⟩ := ih (by rw [← e1]; exact hP)
    exact ⟨_, .call s ts ws h1, .cons (hcall s vs ws h2) .nil⟩
  | paren ts v _ ih =>
    intro hP
    have e1 : tokAccessors (.lpar :: (ts ++ [.rpar])) = tokAccessors ts := by
      rw [skip (by simp), tokAccessors_append (by simp) (by simp)]
      simp [tokAccessors]
    obtain ⟨ws, h1, h2⟩ := ih (by rw [← e1]; exact hP)
    obtain ⟨w, rfl, hw⟩ := one h2
    exact ⟨_, .paren ts w h1, .cons hw .nil⟩
  | up k ts v hk _ ih =>
    intro hP
    obtain ⟨ws, h1, h2⟩ := ih hP
    obtain ⟨w, rfl, hw⟩ := one h2
    exact ⟨_, .up k ts w hk h1, .cons hw .nil⟩
  | bin o g l r a b _ _ ih1 ih2 =>
    intro hP
    rw [tokAccessors_append (by simp) (by simp)] at hP
    obtain ⟨ws, h1, h2⟩ := ih1 fun a ha => hP a (List.mem_append_left _ ha)
    obtain ⟨w, rfl, hw⟩ := one h2
    obtain ⟨ws', h1', h2'⟩ := ih2 fun a ha => hP a (List.mem_append_right _ ha)
    obtain ⟨w', rfl, hw'⟩ := one h2'
    exact ⟨_, .bin o g l r w w' h1 h1', .cons (hbin o a b w w' hw hw') .nil⟩
  | powSigned g l t a _ ih =>
    intro hP
    rw [tokAccessors_append (by simp) (by simp)] at hP
    obtain ⟨ws, h1, h2⟩ := ih fun a ha => hP a (List.mem_append_left _ ha)
    obtain ⟨w, rfl, hw⟩ := one h2
    exact ⟨_, .powSigned g l t w h1, .cons (hbin _ _ _ _ _ hw (hsigned _ _)) .nil⟩
  | neg g ts v _ ih =>
    intro hP
    rw [skip (by simp)] at hP
    obtain ⟨ws, h1, h2⟩ := ih hP
    obtain ⟨w, rfl, hw⟩ := one h2
    exact ⟨_, .neg g ts w h1, .cons (hneg _ _ hw) .nil⟩
  | plus g ts v _ ih =>
    intro hP
    rw [skip (by simp)] at hP
    obtain ⟨ws, h1, h2⟩ := ih hP
    obtain ⟨w, rfl, hw⟩ := one h2
    exact ⟨_, .plus g ts w h1, .cons hw .nil⟩
  | arg ts v _ ih =>
    intro hP
    obtain ⟨ws, h1, h2⟩ := ih hP
    obtain ⟨w, rfl, hw⟩ := one h2
    exact ⟨_, .arg ts w h1, .cons hw .nil⟩
  | args ts us v vs _ _ ih1 ih2 =>
    intro hP
    rw [tokAccessors_append (by simp) (by simp)] at hP
    obtain ⟨ws, h1, h2⟩ := ih1 fun a ha => hP a (List.mem_append_left _ ha)
    obtain ⟨w, rfl, hw⟩ := one h2
    obtain ⟨ws', h1', h2'⟩ := ih2 fun a ha => hP a (List.mem_append_right _ ha)
    exact ⟨_, .args ts us w ws' h1 h1', .cons hw h2'⟩

/-- an expression has a value in every interpretation -/
theorem Expression.value {V : Type} (I : GInterp V) {toks : List GTok} (h : Expression toks) : ∃ v, GDer I 6 toks [v] := by
  obtain ⟨ws, h1, h2⟩ := GDer.related (J := I) (fun _ _ => True) (fun _ => True) (by simp) (by simp) (by simp) (by simp) (by simp) (by simp) (by simp) h (by simp)
  cases h2 with
  | cons _ h3 => cases h3; exact ⟨_, h1⟩

/-! ## Lemmas on tables of values -/

theorem allSome_at {β : Type} : ∀ {l : List (Option β)} {r : List β}, allSome l = some r → r.length = l.length ∧ ∀ (j : Nat) (x : Option β), l[j]? = some x → ∃ y, x = some y ∧ r[j]? = some y
  | [], r, h => by cases h; simp
  | none :: l, r, h => by cases h
  | some x :: l, r, h => by
    rw [allSome] at h
    cases hl : allSome l with
    | none => rw [hl] at h; cases h
    | some r' =>
      rw [hl] at h
      cases h
      obtain ⟨h1, h2⟩ := allSome_at hl
      refine ⟨by simp [h1], fun j y hy => ?_⟩
      cases j with
      | zero => exact ⟨x, by simpa using hy.symm, rfl⟩
      | succ j => exact h2 j y (by simpa using hy)

theorem allSome_isSome {β : Type} : ∀ {l : List (Option β)}, (∀ x ∈ l, x.isSome) → (allSome l).isSome
  | [], _ => rfl
  | none :: l, h => by have := h none (by simp); cases this
  | some x :: l, h => by
    rw [allSome, Option.isSome_map]
    exact allSome_isSome fun y hy => h y (by simp [hy])

theorem allSome_lookup {α β : Type} (F : α → Option β) (key : α → Option Int) : ∀ {l : List α} {r : List (Option Int × β)}, allSome (l.map fun c => (F c).map fun d => (key c, d)) = some r →
    (∀ x, r.lookup x = ((l.find? fun c => x == key c).bind F)) ∧ (∀ c ∈ l, (F c).isSome) ∧ (∀ c ∈ r, ∃ a ∈ l, F a = some c.2)
  | [], r, h => by cases h; simp
  | a :: l, r, h => by
    rw [List.map_cons] at h
    cases ha : F a with
    | none => rw [ha] at h; cases h
    | some d =>
      rw [ha, Option.map_some, allSome] at h
      cases hl : allSome (l.map fun c => (F c).map fun d => (key c, d)) with
      | none => rw [hl] at h; cases h
      | some r' =>
        rw [hl] at h
        cases h
        obtain ⟨h1, h2, h3⟩ := allSome_lookup F key hl
        refine ⟨fun x => ?_, ?_, ?_⟩
        · rw [List.lookup_cons, List.find?_cons]
          cases x == key a with
          | true => simp [ha]
          | false => simpa using h1 x
        · intro c hc
          rcases List.mem_cons.1 hc with rfl | hc
          · rw [ha]; rfl
          · exact h2 c hc
        · intro c hc
          rcases List.mem_cons.1 hc with rfl | hc
          · exact ⟨a, by simp, ha⟩
          · obtain ⟨b, hb, e⟩ := h3 c hc
            exact ⟨b, by simp [hb], e⟩

theorem lookup_find {β : Type} (x : Option Int) : ∀ (l : List (Option Int × β)), l.lookup x = (l.find? fun c => x == c.1).map Prod.snd
  | [] => rfl
  | a :: l => by
    rw [List.lookup_cons, List.find?_cons]
    cases x == a.1 with
    | true => rfl
    | false => simpa using lookup_find x l

theorem lookup_labels {β : Type} (x : Option Int) (l : List (Option Int × β)) : l.lookup x = none ↔ x ∉ l.map Prod.fst := by
  rw [lookup_find, Option.map_eq_none_iff, List.find?_eq_none]
  simp only [List.mem_map, not_exists, not_and, beq_iff_eq]
  exact ⟨fun h c hc e => h c hc e.symm, fun h c hc e => h c hc e.symm⟩

theorem mem_insertLabel (x y : Option Int) : ∀ l : List (Option Int), y ∈ insertLabel x l ↔ y = x ∨ y ∈ l
  | [] => by simp [insertLabel]
  | z :: l => by
    have ih := mem_insertLabel x y l
    unfold insertLabel
    split
    · split
      · simp
      · split
        · rename_i e; subst e; simp
        · simp only [List.mem_cons, ih]; constructor <;> rintro (h | h | h) <;> simp [h]
    · simp only [List.mem_cons, ih]; constructor <;> rintro (h | h | h) <;> simp [h]

theorem mem_unionLabels (f g : List (Option Int)) (x : Option Int) : x ∈ unionLabels f g ↔ x ∈ f ∨ x ∈ g := by
  unfold unionLabels
  split
  · simp only [List.mem_append, List.mem_filter, decide_eq_true_eq]
    constructor
    · rintro (h | h)
      · exact .inl h
      · exact .inr h.1
    · rintro (h | h)
      · exact .inl h
      · by_cases hf : x ∈ f
        · exact .inl hf
        · exact .inr ⟨h, hf⟩
  · have key : ∀ l acc : List (Option Int), x ∈ l.foldl (fun acc x => insertLabel x acc) acc ↔ x ∈ acc ∨ x ∈ l := by
      intro l
      induction l with
      | nil => simp
      | cons y l ih =>
        intro acc
        rw [List.foldl_cons, ih, mem_insertLabel]
        simp only [List.mem_cons]
        tauto
    rw [key]
    simp

/-- values of pivots in increasing order -/
def SortedLabels (l : List (Option Int)) : Prop := ∃ m : List Int, m.Pairwise (· < ·) ∧ l = m.map some

theorem insertLabel_sorted (a : Int) {l : List (Option Int)} (h : SortedLabels l) : SortedLabels (insertLabel (some a) l) := by
  obtain ⟨m, hm, rfl⟩ := h
  refine ⟨insertInt a m, insertInt_sorted a m hm, ?_⟩
  clear hm
  induction m with
  | nil => rfl
  | cons b m ih =>
    simp only [List.map_cons, insertLabel, insertInt]
    split
    · rfl
    · split
      · rfl
      · rw [ih]; rfl

theorem unionLabels_nodup {f g : List (Option Int)} (hf : f.Nodup) (hg : g.Nodup) : (unionLabels f g).Nodup := by
  unfold unionLabels
  split
  · rw [List.nodup_append]
    refine ⟨hf, hg.filter _, ?_⟩
    rintro a ha b hb rfl
    exact (of_decide_eq_true (List.mem_filter.1 hb).2) ha
  · rename_i hn
    have key : ∀ l acc : List (Option Int), none ∉ l → SortedLabels acc → SortedLabels (l.foldl (fun acc x => insertLabel x acc) acc) := by
      intro l
      induction l with
      | nil => exact fun acc _ h => h
      | cons y l ih =>
        intro acc hy h
        cases y with
        | none => simp at hy
        | some a => exact ih _ (fun h' => hy (by simp [h'])) (insertLabel_sorted a h)
    obtain ⟨m, hm, e⟩ := key (f ++ g) [] (by simpa using hn) ⟨[], .nil, rfl⟩
    rw [e]
    exact List.Nodup.map (Option.some_injective _) (List.Pairwise.imp (fun h => Int.ne_of_lt h) hm : m.Nodup)

/-- all columns have `n` rows -/
def SVal.Rows {α : Type} (n : Nat) : SVal α → Prop
  | .num _ => True
  | .frame cols => ∀ c ∈ cols, c.2.length = n

/-- **Specification**: a table with a column of `n` rows for each of some values of the pivot, or a number -/
def SVal.Shape {α : Type} (n : Nat) : SVal α → Prop
  | .num _ => True
  | .frame cols => (∀ c ∈ cols, c.2.length = n) ∧ (cols.map Prod.fst).Nodup

theorem SVal.Shape.rows {α : Type} {n : Nat} {v : SVal α} (h : v.Shape n) : v.Rows n := by
  cases v with
  | num a => trivial
  | frame cols => exact h.1

theorem allSome_keys {α β : Type} (F : α → Option β) (key : α → Option Int) : ∀ {l : List α} {r : List (Option Int × β)}, allSome (l.map fun c => (F c).map fun d => (key c, d)) = some r →
    r.map Prod.fst = l.map key
  | [], r, h => by cases h; rfl
  | a :: l, r, h => by
    rw [List.map_cons] at h
    cases ha : F a with
    | none => rw [ha] at h; cases h
    | some d =>
      rw [ha, Option.map_some, allSome] at h
      cases hl : allSome (l.map fun c => (F c).map fun d => (key c, d)) with
      | none => rw [hl] at h; cases h
      | some r' =>
        rw [hl] at h
        cases h
        simp [allSome_keys F key hl]

theorem columnOf_length {α : Type} {n : Nat} {cols : List (Option Int × List (Option α))} (h : ∀ c ∈ cols, c.2.length = n) (pv : Option Int) : (columnOf n cols pv).length = n := by
  unfold columnOf
  split
  · rename_i col hl
    rw [lookup_find] at hl
    cases hf : cols.find? fun c => pv == c.1 with
    | none => rw [hf] at hl; cases hl
    | some c =>
      rw [hf] at hl
      cases hl
      exact h c (List.mem_of_find?_eq_some hf)
  · simp

theorem mapFrame_shape {α : Type} {f : Option α → Option (Option α)} {cols : List (Option Int × List (Option α))} {z : SVal α} {n : Nat} (h : (SVal.frame cols).Shape n) (hz : mapFrame f cols = some z) : z.Shape n := by
  unfold mapFrame at hz
  cases hr : allSome (cols.map fun c => (mapColumn f c.2).map fun d => (c.1, d)) with
  | none => rw [hr] at hz; cases hz
  | some r =>
    rw [hr] at hz
    cases hz
    obtain ⟨_, _, h3⟩ := allSome_lookup (fun c : Option Int × List (Option α) => mapColumn f c.2) Prod.fst hr
    refine ⟨?_, ?_⟩
    · intro c hc
      obtain ⟨a, ha, e⟩ := h3 c hc
      rw [(allSome_at e).1, List.length_map]
      exact h.1 a ha
    · rw [allSome_keys (fun c : Option Int × List (Option α) => mapColumn f c.2) Prod.fst hr]
      exact h.2

theorem zipFrames_shape {α : Type} {ops : CellOps α} {o : GOp} {n : Nat} {labels : List (Option Int)} {f g : List (Option Int × List (Option α))} {z : SVal α}
    (hf : (SVal.frame f).Shape n) (hg : (SVal.frame g).Shape n) (hl : labels.Nodup) (hz : zipFrames ops o n labels f g = some z) : z.Shape n := by
  unfold zipFrames at hz
  cases hr : allSome (labels.map fun x => (allSome (List.zipWith (ops.cell o) (columnOf n f x) (columnOf n g x))).map fun d => (x, d)) with
  | none => rw [hr] at hz; cases hz
  | some r =>
    rw [hr] at hz
    cases hz
    obtain ⟨_, _, h3⟩ := allSome_lookup (fun x => allSome (List.zipWith (ops.cell o) (columnOf n f x) (columnOf n g x))) id hr
    refine ⟨?_, ?_⟩
    · intro c hc
      obtain ⟨a, _, e⟩ := h3 c hc
      rw [(allSome_at e).1, List.length_zipWith, columnOf_length hf.1, columnOf_length hg.1, Nat.min_self]
    · rw [allSome_keys (fun x => allSome (List.zipWith (ops.cell o) (columnOf n f x) (columnOf n g x))) id hr, List.map_id]
      exact hl

theorem sBin_shape {α : Type} {ops : CellOps α} {n : Nat} {o : GOp} {x y z : SVal α} (hx : x.Shape n) (hy : y.Shape n) (h : sBin ops n o x y = some z) : z.Shape n := by
  cases x with
  | num a =>
    unfold sBin at h
    dsimp only at h
    split at h
    · cases h
      split
      · exact hy
      · exact trivial
    · split at h
      · cases h
        split
        · exact trivial
        · exact hy
      · cases y with
        | num b =>
          simp only at h
          cases hs : ops.scalar o a b with
          | none => rw [hs] at h; cases h
          | some c => rw [hs] at h; cases h; exact trivial
        | frame g => exact mapFrame_shape hy h
  | frame f =>
    unfold sBin at h
    dsimp only at h
    split at h
    · cases h
    · cases y with
      | num b => exact mapFrame_shape hx h
      | frame g =>
        simp only at h
        split at h
        · exact zipFrames_shape hx hy hx.2 h
        · split at h
          · cases h
          · exact zipFrames_shape hx hy (unionLabels_nodup hx.2 hy.2) h

/-- the value of a table without the distinction of absent columns -/
def PointVal.value {α : Type} : PointVal α → Option α
  | .cell x => x
  | _ => none

theorem point_frame {α : Type} {n j : Nat} (hj : j < n) {cols : List (Option Int × List (Option α))} (h : (SVal.frame cols).Rows n) (pv : Option Int) :
    (cols.lookup pv = none ∧ (SVal.frame cols).point pv j = .absent) ∨
    ∃ col x, cols.lookup pv = some col ∧ col.length = n ∧ col[j]? = some x ∧ (SVal.frame cols).point pv j = .cell x := by
  cases hl : cols.lookup pv with
  | none => exact .inl ⟨rfl, by simp only [SVal.point, hl]⟩
  | some col =>
    have hlen : col.length = n := by
      rw [lookup_find] at hl
      cases hf : cols.find? fun c => pv == c.1 with
      | none => rw [hf] at hl; cases hl
      | some c =>
        rw [hf] at hl
        cases hl
        exact h c (List.mem_of_find?_eq_some hf)
    have hx : col[j]? = some col[j] := List.getElem?_eq_getElem (by omega)
    exact .inr ⟨col, col[j], rfl, hlen, hx, by simp only [SVal.point, hl, hx]⟩

theorem columnOf_point {α : Type} {n j : Nat} (hj : j < n) {cols : List (Option Int × List (Option α))} (h : (SVal.frame cols).Rows n) (pv : Option Int) :
    (columnOf n cols pv).length = n ∧ (columnOf n cols pv)[j]? = some ((SVal.frame cols).point pv j).value := by
  unfold columnOf
  rcases point_frame hj h pv with ⟨h1, h2⟩ | ⟨col, x, h1, h2, h3, h4⟩
  · rw [h1, h2]
    simp [PointVal.value, hj]
  · rw [h1, h4]
    exact ⟨h2, h3⟩

theorem mapFrame_point {α : Type} {f : Option α → Option (Option α)} {cols : List (Option Int × List (Option α))} {z : SVal α} {n j : Nat} (hj : j < n) (h : (SVal.frame cols).Rows n)
    (hz : mapFrame f cols = some z) (pv : Option Int) : z.Rows n ∧
      (((SVal.frame cols).point pv j = .absent ∧ z.point pv j = .absent) ∨ ∃ x y, (SVal.frame cols).point pv j = .cell x ∧ f x = some y ∧ z.point pv j = .cell y) := by
  unfold mapFrame at hz
  cases hr : allSome (cols.map fun c => (mapColumn f c.2).map fun d => (c.1, d)) with
  | none => rw [hr] at hz; cases hz
  | some r =>
    rw [hr] at hz
    cases hz
    obtain ⟨h1, h2, h3⟩ := allSome_lookup (fun c : Option Int × List (Option α) => mapColumn f c.2) Prod.fst hr
    have hrows : (SVal.frame r).Rows n := by
      intro c hc
      obtain ⟨a, ha, e⟩ := h3 c hc
      rw [(allSome_at e).1, List.length_map]
      exact h a ha
    refine ⟨hrows, ?_⟩
    have hl := h1 pv
    rcases point_frame hj h pv with ⟨g1, g2⟩ | ⟨col, x, g1, g2, g3, g4⟩
    · left
      refine ⟨g2, ?_⟩
      rw [lookup_find, Option.map_eq_none_iff] at g1
      rw [g1] at hl
      simp only [SVal.point, hl, Option.bind_none]
    · right
      rw [lookup_find] at g1
      cases hf : cols.find? fun c => pv == c.1 with
      | none => rw [hf] at g1; cases g1
      | some c =>
        rw [hf] at g1 hl
        cases g1
        have hs := h2 c (List.mem_of_find?_eq_some hf)
        obtain ⟨d, hd⟩ := Option.isSome_iff_exists.1 hs
        obtain ⟨_, e2⟩ := allSome_at hd
        obtain ⟨y, e3, e4⟩ := e2 j (f x) (by simp [g3])
        refine ⟨x, y, g4, e3, ?_⟩
        simp only [SVal.point, hl, Option.bind_some, hd, e4]

theorem zipFrames_point {α : Type} {ops : CellOps α} {o : GOp} {n j : Nat} {labels : List (Option Int)} {f g : List (Option Int × List (Option α))} {z : SVal α} (hj : j < n)
    (hf : (SVal.frame f).Rows n) (hg : (SVal.frame g).Rows n) (hz : zipFrames ops o n labels f g = some z) (pv : Option Int) :
    z.Rows n ∧ (pv ∉ labels → z.point pv j = .absent) ∧
      (pv ∈ labels → ∃ y, ops.cell o ((SVal.frame f).point pv j).value ((SVal.frame g).point pv j).value = some y ∧ z.point pv j = .cell y) := by
  unfold zipFrames at hz
  cases hr : allSome (labels.map fun x => (allSome (List.zipWith (ops.cell o) (columnOf n f x) (columnOf n g x))).map fun d => (x, d)) with
  | none => rw [hr] at hz; cases hz
  | some r =>
    rw [hr] at hz
    cases hz
    obtain ⟨h1, h2, h3⟩ := allSome_lookup (fun x => allSome (List.zipWith (ops.cell o) (columnOf n f x) (columnOf n g x))) id hr
    have hl := h1 pv
    refine ⟨?_, ?_, ?_⟩
    · intro c hc
      obtain ⟨a, _, e⟩ := h3 c hc
      rw [(allSome_at e).1, List.length_zipWith, (columnOf_point hj hf a).1, (columnOf_point hj hg a).1, Nat.min_self]
    · intro hp
      have : labels.find? (fun c => pv == id c) = none := by
        rw [List.find?_eq_none]
        intro x hx e
        simp only [id, beq_iff_eq] at e
        exact hp (e ▸ hx)
      rw [this] at hl
      simp only [SVal.point, hl, Option.bind_none]
    · intro hp
      have : labels.find? (fun c => pv == id c) = some pv := by
        cases hfd : labels.find? (fun c => pv == id c) with
        | none =>
          rw [List.find?_eq_none] at hfd
          exact absurd (hfd pv hp) (by simp)
        | some x =>
          have := List.find?_some hfd
          simp only [id, beq_iff_eq] at this
          rw [this]
      rw [this] at hl
      obtain ⟨d, hd⟩ := Option.isSome_iff_exists.1 (h2 pv hp)
      obtain ⟨_, e2⟩ := allSome_at hd
      obtain ⟨y, e3, e4⟩ := e2 j _ (by rw [List.getElem?_zipWith, (columnOf_point hj hf pv).2, (columnOf_point hj hg pv).2])
      refine ⟨y, e3, ?_⟩
      simp only [SVal.point, hl, Option.bind_some, hd, e4]

theorem pBin_frames {α : Type} (ops : CellOps α) {o : GOp} (h1 : o ≠ .land) (h2 : o ≠ .lor) {a b : PointVal α} (ha : ∀ x, a ≠ .num x) (hb : ∀ x, b ≠ .num x)
    (hs : (o.compares = true ∨ o = .band ∨ o = .bor) → (a = .absent ↔ b = .absent)) :
    (a = .absent ∧ b = .absent → pBin ops o a b = some .absent) ∧ (¬ (a = .absent ∧ b = .absent) → pBin ops o a b = (ops.cell o a.value b.value).map .cell) := by
  cases a with
  | num x => exact absurd rfl (ha x)
  | absent =>
    cases b with
    | num x => exact absurd rfl (hb x)
    | absent => exact ⟨fun _ => by cases o <;> first | rfl | exact absurd rfl h1 | exact absurd rfl h2, fun h => absurd ⟨rfl, rfl⟩ h⟩
    | cell y =>
      refine ⟨fun h => absurd h.2 (by simp), fun _ => ?_⟩
      cases o <;> first | rfl | exact absurd rfl h1 | exact absurd rfl h2 | (exfalso; simp [GOp.compares] at hs)
  | cell x =>
    cases b with
    | num x => exact absurd rfl (hb x)
    | absent =>
      refine ⟨fun h => absurd h.1 (by simp), fun _ => ?_⟩
      cases o <;> first | rfl | exact absurd rfl h1 | exact absurd rfl h2 | (exfalso; simp [GOp.compares] at hs)
    | cell y =>
      refine ⟨fun h => absurd h.1 (by simp), fun _ => ?_⟩
      cases o <;> first | rfl | exact absurd rfl h1 | exact absurd rfl h2

/-- an operator of tables is the operator at each time and for each value of the pivot -/
theorem sBin_point {α : Type} {ops : CellOps α} {n j : Nat} {o : GOp} {x y z : SVal α} (hj : j < n) (hx : x.Rows n) (hy : y.Rows n) (h : sBin ops n o x y = some z) (pv : Option Int) :
    z.Rows n ∧ pBin ops o (x.point pv j) (y.point pv j) = some (z.point pv j) := by
  cases x with
  | num a =>
    unfold sBin at h
    dsimp only at h
    split at h
    · rename_i e; subst e
      cases h
      split
      · rename_i e; exact ⟨hy, by simp [pBin, SVal.point, e]⟩
      · rename_i e; exact ⟨trivial, by simp [pBin, SVal.point, e]⟩
    · rename_i h1
      split at h
      · rename_i e; subst e
        cases h
        split
        · rename_i e; exact ⟨trivial, by simp [pBin, SVal.point, e]⟩
        · rename_i e; exact ⟨hy, by simp [pBin, SVal.point, e]⟩
      · rename_i h2
        cases y with
        | num b =>
          simp only at h
          cases hs : ops.scalar o a b with
          | none => rw [hs] at h; cases h
          | some c =>
            rw [hs] at h
            cases h
            refine ⟨trivial, ?_⟩
            cases o <;> first | (exact absurd rfl h1) | (exact absurd rfl h2) | simp [pBin, SVal.point, hs]
        | frame g =>
          simp only at h
          obtain ⟨r, hr⟩ := mapFrame_point hj hy h pv
          refine ⟨r, ?_⟩
          rcases hr with ⟨e1, e2⟩ | ⟨u, v, e1, e2, e3⟩
          · rw [e1, e2]
            cases o <;> first | (exact absurd rfl h1) | (exact absurd rfl h2) | rfl
          · rw [e1, e3]
            cases o <;> first | (exact absurd rfl h1) | (exact absurd rfl h2) | simp [pBin, SVal.point, e2]
  | frame f =>
    unfold sBin at h
    dsimp only at h
    split at h
    · cases h
    · rename_i h12
      have h1 : o ≠ .land := fun e => h12 (.inl e)
      have h2 : o ≠ .lor := fun e => h12 (.inr e)
      cases y with
      | num b =>
        simp only at h
        obtain ⟨r, hr⟩ := mapFrame_point hj hx h pv
        refine ⟨r, ?_⟩
        rcases hr with ⟨e1, e2⟩ | ⟨u, v, e1, e2, e3⟩
        · rw [e1, e2]
          cases o <;> first | (exact absurd rfl h1) | (exact absurd rfl h2) | rfl
        · rw [e1, e3]
          cases o <;> first | (exact absurd rfl h1) | (exact absurd rfl h2) | simp [pBin, SVal.point, e2]
      | frame g =>
        simp only at h
        have hnum : ∀ {w : List (Option Int × List (Option α))} , ∀ x, (SVal.frame w).point pv j ≠ .num x := by
          intro w x
          simp only [SVal.point]
          repeat' split
          all_goals simp
        have habs : ∀ {w : List (Option Int × List (Option α))}, (SVal.frame w).Rows n → ((SVal.frame w).point pv j = .absent ↔ pv ∉ w.map Prod.fst) := by
          intro w hw
          rw [← lookup_labels]
          rcases point_frame hj hw pv with ⟨g1, g2⟩ | ⟨col, x, g1, _, _, g4⟩
          · simp [g1, g2]
          · simp [g1, g4]
        split at h
        · rename_i hlab
          obtain ⟨r1, r2, r3⟩ := zipFrames_point hj hx hy h pv
          refine ⟨r1, ?_⟩
          obtain ⟨p1, p2⟩ := pBin_frames ops h1 h2 hnum hnum (a := (SVal.frame f).point pv j) (b := (SVal.frame g).point pv j) (by rw [habs hx, habs hy, hlab]; simp)
          by_cases hp : pv ∈ f.map Prod.fst
          · obtain ⟨v, e1, e2⟩ := r3 hp
            rw [p2 (by rw [habs hx]; simp only [not_and]; exact fun h => absurd hp h), e1, e2]
            rfl
          · rw [p1 ⟨(habs hx).2 hp, (habs hy).2 (hlab ▸ hp)⟩, r2 hp]
        · split at h
          · cases h
          · rename_i hcmp
            obtain ⟨r1, r2, r3⟩ := zipFrames_point hj hx hy h pv
            refine ⟨r1, ?_⟩
            obtain ⟨p1, p2⟩ := pBin_frames ops h1 h2 hnum hnum (a := (SVal.frame f).point pv j) (b := (SVal.frame g).point pv j) (fun h => absurd h hcmp)
            rw [mem_unionLabels] at r2 r3
            by_cases hp : pv ∈ f.map Prod.fst ∨ pv ∈ g.map Prod.fst
            · obtain ⟨v, e1, e2⟩ := r3 hp
              rw [p2 (by rw [habs hx, habs hy]; tauto), e1, e2]
              rfl
            · rw [p1 (by rw [habs hx, habs hy]; tauto), r2 hp]

/-! ## Lemmas on the tables of the trace -/

theorem numberCells_get (cells : Dict Val) (k : Str) (v : Int) : (numberCells cells).get k = some v ↔ cells.get k = some (.int v) := by
  unfold numberCells
  have key : ∀ ks : List Str, Dict.get (ks.filterMap fun k => match cells.get k with
      | some (.int i) => some (k, i)
      | _ => none) k = some v ↔ k ∈ ks ∧ cells.get k = some (.int v) := by
    intro ks
    induction ks with
    | nil => simp [Dict.get]
    | cons k' ks ih =>
      rw [List.filterMap_cons]
      by_cases hk : k' = k
      · subst hk
        cases hg : cells.get k' with
        | none => simp only; rw [ih, hg]; simp
        | some x =>
          cases x with
          | str s => simp only; rw [ih, hg]; simp
          | int i => simp [Dict.get]
      · have hm : k ∈ k' :: ks ↔ k ∈ ks := by simp [Ne.symm hk]
        rw [hm]
        cases hg : cells.get k' with
        | none => exact ih
        | some x =>
          cases x with
          | str s => exact ih
          | int i => simp only [Dict.get, hk, if_false]; exact ih
  refine (key (cells.map Prod.fst)).trans ?_
  rw [and_iff_right_iff_imp]
  intro h
  rw [← Dict.get_isSome, h]
  rfl

theorem eventOf_columns (name : Str) (t : Table (Dict Val)) (c : Str) : c ∈ (eventOf name t).columns ↔ ∃ r ∈ t, c ∈ r.2.map Prod.fst := by
  simp only [eventOf, List.mem_flatMap]

theorem eventOf_selected (o : GOpts) (name : Str) (t : Table (Dict Val)) (r : Nat × Dict Val) :
    Selected o (eventOf name t).columns ⟨r.1, numberCells r.2⟩ ↔ Chosen o t r := by
  unfold Selected Chosen
  simp only [eventOf_columns, numberCells_get]

theorem eventOf_group (name : Str) (t : Table (Dict Val)) (pv : Option Int) (r : Nat × Dict Val) : InGroup (eventOf name t) pv ⟨r.1, numberCells r.2⟩ ↔ OfPivot (classPivot name) pv r := by
  unfold InGroup OfPivot
  show (match classPivot name, pv with | none, none => True | some p, some x => (numberCells r.2).get p = some x | _, _ => False) ↔ _
  cases classPivot name <;> cases pv <;> simp [numberCells_get]

theorem eventOf_obs (o : GOpts) (name : Str) (t : Table (Dict Val)) (c : Str) (pv : Option Int) : IsObs o (eventOf name t) c pv = Observed o (classPivot name) t c pv := by
  funext u v
  refine propext ?_
  unfold IsObs Observed
  constructor
  · rintro ⟨r, hr, h1, h2, h3, h4⟩
    obtain ⟨r', hr', rfl⟩ := List.mem_map.1 hr
    exact ⟨r', hr', (eventOf_selected o name t r').1 h1, (eventOf_group name t pv r').1 h2, h3, (numberCells_get _ _ _).1 h4⟩
  · rintro ⟨r, hr, h1, h2, h3, h4⟩
    exact ⟨_, List.mem_map.2 ⟨r, hr, rfl⟩, (eventOf_selected o name t r).2 h1, (eventOf_group name t pv r).2 h2, h3, (numberCells_get _ _ _).2 h4⟩

/-- **Specification**: the times of the rows increase, and each row has a number in the column of the pivot -/
def TableOk (name : Str) (t : Table (Dict Val)) : Prop :=
  (t.Pairwise fun a b => a.1 < b.1) ∧ ∀ p, classPivot name = some p → ∀ r ∈ t, ∃ i : Int, r.2.get p = some (.int i)

theorem eventOf_ok {name : Str} {t : Table (Dict Val)} (h : TableOk name t) : EvOk (eventOf name t) := by
  refine ⟨?_, ?_⟩
  · show (((t.map fun r => (⟨r.1, numberCells r.2⟩ : GRow)).map GRow.time).Pairwise _)
    rw [List.pairwise_map, List.pairwise_map]
    exact h.1
  · intro p hp r hr
    obtain ⟨r', hr', rfl⟩ := List.mem_map.1 hr
    obtain ⟨i, hi⟩ := h.2 p hp r' hr'
    exact Option.isSome_iff_exists.2 ⟨i, (numberCells_get _ _ _).2 hi⟩

theorem gLoadAll_congr (o : GOpts) {env env' : GEnv} : ∀ (accs : List (Str × Str)) (st : AggDf), (∀ a ∈ accs, gClass env a.1 = gClass env' a.1) → gLoadAll o env accs st = gLoadAll o env' accs st
  | [], _, _ => rfl
  | (e, c) :: accs, st, h => by
    have h1 : gPreProcess o env st e c = gPreProcess o env' st e c := by
      unfold gPreProcess
      rw [h (e, c) (by simp)]
    rw [gLoadAll, gLoadAll, h1]
    cases gPreProcess o env' st e c with
    | error x => rfl
    | ok st' => exact gLoadAll_congr o accs st' fun a ha => h a (by simp [ha])

theorem get_mapValue {α β : Type} (f : Str → α → β) (d : Dict α) (k : Str) : Dict.get (d.map fun x => (x.1, f x.1 x.2)) k = (d.get k).map (f k) := by
  induction d with
  | nil => rfl
  | cons x d ih =>
    simp only [List.map_cons, Dict.get]
    by_cases h : x.1 = k
    · subst h; simp
    · simp only [h, if_false]; exact ih

theorem get_filterKeys {α : Type} (d : Dict α) (p : Str → Bool) (k : Str) : Dict.get (d.filter fun x => p x.1) k = if p k then d.get k else none := by
  induction d with
  | nil => simp [Dict.get]
  | cons x d ih =>
    rw [List.filter_cons]
    by_cases h : x.1 = k
    · subst h
      by_cases hp : p x.1 = true
      · simp [hp, Dict.get]
      · simp only [hp, Bool.false_eq_true, if_false] at ih ⊢; exact ih
    · split
      · simp only [Dict.get, h, if_false]; exact ih
      · simp only [Dict.get, h, if_false]; exact ih

theorem gClass_tables (d : Dict GEvent) (e : Str) : gClass ⟨[], d, []⟩ e = match d.get e with
    | some c => .ok c
    | none => .error .noClass := by
  unfold gClass
  rfl

/-- the columns of a table as pandas orders them -/
def OrderedLabels (l : List (Option Int)) : Prop := l = [none] ∨ SortedLabels l

theorem OrderedLabels.ext {l m : List (Option Int)} (hl : OrderedLabels l) (hm : OrderedLabels m) (h : ∀ x, x ∈ l ↔ x ∈ m) : l = m := by
  rcases hl with rfl | ⟨a, ha, rfl⟩
  · rcases hm with rfl | ⟨b, hb, rfl⟩
    · rfl
    · have := (h none).1 (by simp)
      simp at this
  · rcases hm with rfl | ⟨b, hb, rfl⟩
    · have := (h none).2 (by simp)
      simp at this
    · have hp : a.Perm b := by
        refine (List.perm_ext_iff_of_nodup (List.Pairwise.imp (fun h => Int.ne_of_lt h) ha) (List.Pairwise.imp (fun h => Int.ne_of_lt h) hb)).2 fun x => ?_
        have := h (some x)
        simpa using this
      rw [List.Perm.eq_of_pairwise (le := (· < ·)) (fun x y _ _ h1 h2 => absurd h1 (by omega)) ha hb hp]

theorem groups_ordered (ev : GEvent) (column : Str) (rows : List GRow) : OrderedLabels ((gGroups ev column rows).map Prod.fst) := by
  unfold gGroups
  cases ev.pivot with
  | none => exact .inl rfl
  | some p =>
    refine .inr ⟨gUnique (rows.filterMap fun r => r.cells.get p), gUnique_sorted _, ?_⟩
    simp only [List.map_map]
    rfl

theorem cols_ordered (o : GOpts) (f : GSeries → List (Option Int)) : ∀ {L : List (Str × GEvent)}, (L.map Prod.fst).Nodup → ∀ c : Str,
    OrderedLabels ((((L.flatMap fun p => (gGroups p.2 p.1 (getDataFrame o p.2)).map fun g => ((p.1, g.1), f g.2)).filter fun x => decide (x.1.1 = c)).map fun x => (x.1.2, x.2)).map Prod.fst)
  | [], _, c => .inr ⟨[], .nil, rfl⟩
  | p :: L, hnd, c => by
    rw [List.map_cons, List.nodup_cons] at hnd
    rw [List.flatMap_cons, List.filter_append, List.map_append, List.map_append]
    by_cases hc : p.1 = c
    · have e1 : ((gGroups p.2 p.1 (getDataFrame o p.2)).map fun g => ((p.1, g.1), f g.2)).filter (fun x => decide (x.1.1 = c)) = (gGroups p.2 p.1 (getDataFrame o p.2)).map fun g => ((p.1, g.1), f g.2) := by
        rw [List.filter_eq_self]
        intro x hx
        obtain ⟨g, _, rfl⟩ := List.mem_map.1 hx
        simpa using hc
      have e2 : (L.flatMap fun p => (gGroups p.2 p.1 (getDataFrame o p.2)).map fun g => ((p.1, g.1), f g.2)).filter (fun x => decide (x.1.1 = c)) = [] := by
        rw [List.filter_eq_nil_iff]
        intro x hx e
        obtain ⟨q, hq, hx⟩ := List.mem_flatMap.1 hx
        obtain ⟨g, _, rfl⟩ := List.mem_map.1 hx
        simp only [decide_eq_true_eq] at e
        exact hnd.1 (List.mem_map.2 ⟨q, hq, e.trans hc.symm⟩)
      rw [e1, e2]
      simp only [List.map_nil, List.append_nil, List.map_map]
      exact groups_ordered p.2 p.1 _
    · have e1 : ((gGroups p.2 p.1 (getDataFrame o p.2)).map fun g => ((p.1, g.1), f g.2)).filter (fun x => decide (x.1.1 = c)) = [] := by
        rw [List.filter_eq_nil_iff]
        intro x hx e
        obtain ⟨g, _, rfl⟩ := List.mem_map.1 hx
        simp only [decide_eq_true_eq] at e
        exact hc e
      rw [e1]
      exact cols_ordered o f hnd.2 c

/-- the data of the accessors after they are loaded -/
theorem loaded_tables (o : GOpts) (hfill : o.fill = true) (tables : Dict (Table (Dict Val))) (accs : List (Str × Str))
    (hok : ∀ a ∈ accs, ∀ tab, tables.get a.1 = some tab → TableOk a.1 tab) (hcol : ∀ a ∈ accs, ∀ b ∈ accs, a.2 = b.2 → a.1 = b.1) {st : AggDf}
    (h : gLoadAll o ⟨[], tables.map fun x => (x.1, eventOf x.1 x.2), []⟩ accs AggDf.empty = .ok st) :
    st.index.Pairwise (· < ·) ∧
    (∀ a ∈ accs, ∃ tab, tables.get a.1 = some tab) ∧
    (∀ t, t ∈ st.index ↔ ∃ a ∈ accs, ∃ tab, tables.get a.1 = some tab ∧ ∃ r ∈ tab, Chosen o tab r ∧ r.1 = t) ∧
    (∀ c, ((gAccess st c c).map Prod.fst).Nodup) ∧ (∀ c, OrderedLabels ((gAccess st c c).map Prod.fst)) ∧
    ∀ a ∈ accs, ∀ tab, tables.get a.1 = some tab →
      (∀ pv, pv ∈ (gAccess st a.1 a.2).map Prod.fst ↔ ∃ r ∈ tab, Chosen o tab r ∧ OfPivot (classPivot a.1) pv r) ∧
      ∀ pv cells, (pv, cells) ∈ gAccess st a.1 a.2 → cells.length = st.index.length ∧
        ∀ j t : Nat, st.index[j]? = some t → ∃ x, cells[j]? = some x ∧ LastValue (Observed o (classPivot a.1) tab a.2 pv) t x := by
  let env : GEnv := ⟨[], (tables.filter fun x => decide (x.1 ∈ accs.map Prod.fst)).map fun x => (x.1, eventOf x.1 x.2), []⟩
  have hget : ∀ e, env.classes.get e = if e ∈ accs.map Prod.fst then (tables.get e).map (eventOf e) else none := by
    intro e
    show Dict.get (List.map _ _) e = _
    rw [get_mapValue (fun n t => eventOf n t), get_filterKeys tables (fun n => decide (n ∈ accs.map Prod.fst))]
    by_cases he : e ∈ accs.map Prod.fst
    · simp only [he, decide_true, if_true]
    · simp only [he, decide_false, Bool.false_eq_true, if_false, Option.map_none]
  have hclass : ∀ e ev, gClass env e = .ok ev ↔ e ∈ accs.map Prod.fst ∧ ∃ tab, tables.get e = some tab ∧ ev = eventOf e tab := by
    intro e ev
    rw [(C94_class env e).1]
    show none = some ev ∨ (none = none ∧ env.classes.get e = some ev) ∨ (none = none ∧ env.classes.get e = none ∧ none = some ev) ↔ _
    rw [hget]
    by_cases he : e ∈ accs.map Prod.fst
    · simp only [he, if_true, Option.map_eq_some_iff, true_and, reduceCtorEq, false_or, and_false, or_false]
      exact ⟨fun ⟨a, h1, h2⟩ => ⟨a, h1, h2.symm⟩, fun ⟨a, h1, h2⟩ => ⟨a, h1, h2.symm⟩⟩
    · simp [he]
  have henv : ∀ e ev, gClass env e = .ok ev → EvOk ev := by
    intro e ev he
    obtain ⟨h1, tab, h2, rfl⟩ := (hclass e ev).1 he
    obtain ⟨a, ha, rfl⟩ := List.mem_map.1 h1
    exact eventOf_ok (hok a ha tab h2)
  have h' : gLoadAll o env accs AggDf.empty = .ok st := by
    rw [← h]
    refine gLoadAll_congr o accs _ fun a ha => ?_
    have hm : a.1 ∈ accs.map Prod.fst := List.mem_map.2 ⟨a, ha, rfl⟩
    rw [gClass_tables, gClass_tables, get_mapValue (fun n t => eventOf n t), get_mapValue (fun n t => eventOf n t), get_filterKeys tables (fun n => decide (n ∈ accs.map Prod.fst))]
    simp only [hm, decide_true, if_true]
  obtain ⟨s1, s2, s3, s4, s5⟩ := C94_super_index o env accs st hfill henv h'
  obtain ⟨L, ⟨hagg, _, hnd, hmem⟩, hA⟩ := load_all o env hfill henv accs [] [] AggDf.empty st ⟨⟨List.Pairwise.nil, by simp [AggDf.empty], rfl⟩, by simp, by simp, by simp⟩ (by simp) h'
  rw [List.nil_append] at hmem hA
  have hall : ∀ a ∈ accs, ∃ tab, tables.get a.1 = some tab := by
    intro a ha
    obtain ⟨⟨c, ev⟩, hL, hc⟩ := List.mem_map.1 (hA a.2 (List.mem_map.2 ⟨a, ha, rfl⟩))
    simp only at hc
    obtain ⟨e, h1, h2⟩ := (hmem c ev).1 hL
    have := hcol a ha _ (List.mem_of_find?_eq_some h1) hc.symm
    simp only at this
    obtain ⟨_, tab, h3, _⟩ := (hclass e ev).1 h2
    exact ⟨tab, this ▸ h3⟩
  refine ⟨s1, hall, ?_, ?_, ?_, ?_⟩
  · intro t
    rw [s2]
    constructor
    · rintro ⟨c, ev, r, ⟨e, hf, hg⟩, hr, hsel, rfl⟩
      obtain ⟨_, tab, h2, rfl⟩ := (hclass e ev).1 hg
      obtain ⟨r', hr', rfl⟩ := List.mem_map.1 hr
      exact ⟨(e, c), List.mem_of_find?_eq_some hf, tab, h2, r', hr', (eventOf_selected o e tab r').1 hsel, rfl⟩
    · rintro ⟨⟨e, c⟩, ha, tab, h2, r, hr, hsel, rfl⟩
      obtain ⟨e', hf⟩ := (find_col accs c).1 (List.mem_map.2 ⟨(e, c), ha, rfl⟩)
      have := hcol _ ha _ (List.mem_of_find?_eq_some hf) rfl
      simp only at this
      subst this
      exact ⟨c, eventOf e tab, ⟨r.1, numberCells r.2⟩, ⟨e, hf, (hclass e _).2 ⟨List.mem_map.2 ⟨(e, c), ha, rfl⟩, tab, h2, rfl⟩⟩, List.mem_map.2 ⟨r, hr, rfl⟩, (eventOf_selected o e tab r).2 hsel, rfl⟩
  · intro c
    unfold gAccess
    rw [List.map_map]
    have : ((st.cols.filter fun x => decide (x.1.1 = c)).map Prod.fst).Nodup := (List.filter_sublist.map Prod.fst).nodup s3
    unfold List.Nodup at this ⊢
    rw [List.pairwise_map] at this ⊢
    refine this.imp_of_mem fun {x y} hx hy hne he => hne ?_
    have h1 := of_decide_eq_true (List.mem_filter.1 hx).2
    have h2 := of_decide_eq_true (List.mem_filter.1 hy).2
    simp only [Function.comp] at he
    exact Prod.ext (h1.trans h2.symm) he
  · intro c
    unfold gAccess
    rw [hagg.2.2]
    exact cols_ordered o (fun s => st.index.map (lastObsG s)) hnd c
  · intro a ha tab ht
    obtain ⟨t1, t2⟩ := C64_events_partial o env accs st hfill henv h' hcol a.1 a.2 ha (eventOf a.1 tab) ((hclass a.1 _).2 ⟨List.mem_map.2 ⟨a, ha, rfl⟩, tab, ht, rfl⟩)
    refine ⟨fun pv => ?_, fun pv cells hc => ?_⟩
    · rw [t1]
      constructor
      · rintro ⟨r, hr, g1, g2⟩
        obtain ⟨r', hr', rfl⟩ := List.mem_map.1 hr
        exact ⟨r', hr', (eventOf_selected o a.1 tab r').1 g1, (eventOf_group a.1 tab pv r').1 g2⟩
      · rintro ⟨r, hr, g1, g2⟩
        exact ⟨_, List.mem_map.2 ⟨r, hr, rfl⟩, (eventOf_selected o a.1 tab r).2 g1, (eventOf_group a.1 tab pv r).2 g2⟩
    · obtain ⟨g1, g2⟩ := t2 pv cells hc
      rw [eventOf_obs] at g2
      exact ⟨g1, g2⟩

theorem mem_of_lookup {β : Type} {l : List (Option Int × β)} {x : Option Int} {b : β} (h : l.lookup x = some b) : (x, b) ∈ l := by
  rw [lookup_find] at h
  cases hf : l.find? fun c => x == c.1 with
  | none => rw [hf] at h; cases h
  | some c =>
    rw [hf] at h
    cases h
    have := List.find?_some hf
    rw [beq_iff_eq] at this
    rw [this]
    exact List.mem_of_find?_eq_some hf

/-- the value of an expression on the tables of a trace -/
theorem solve_tables {α : Type} (ops : CellOps α) (o : GOpts) (hfill : o.fill = true) (tables : Dict (Table (Dict Val))) (n : Nat) (ts : List (GTok × Nat)) (hw : Written ts)
    (he : Expression (ts.map Prod.fst))
    (hok : ∀ a ∈ tokAccessors (ts.map Prod.fst), ∀ tab, tables.get a.1 = some tab → TableOk a.1 tab)
    (hcol : ∀ a ∈ tokAccessors (ts.map Prod.fst), ∀ b ∈ tokAccessors (ts.map Prod.fst), a.2 = b.2 → a.1 = b.1)
    {index : List Nat} {v : SVal α} (h : solveTables ops o tables (List.replicate n ' ' ++ blanked ts) = .ok (index, v)) :
    index.Pairwise (· < ·) ∧
    (∀ t, t ∈ index ↔ ∃ a ∈ tokAccessors (ts.map Prod.fst), ∃ tab, tables.get a.1 = some tab ∧ ∃ r ∈ tab, Chosen o tab r ∧ r.1 = t) ∧
    v.Shape index.length ∧
    ∀ (pv : Option Int) (j t : Nat), index[j]? = some t → ∃ obs : Str → Str → PointVal α,
      (∀ a ∈ tokAccessors (ts.map Prod.fst), AccessorAt ops o (fun e tab => tables.get e = some tab) t pv a.1 a.2 (obs a.1 a.2)) ∧
      GDer (pointInterp ops obs) 6 (ts.map Prod.fst) [some (v.point pv j)] := by
  unfold solveTables at h
  rw [accessors_blanks, accessors_written ts hw he.plainColumns] at h
  split at h
  · cases h
  · cases hl : gLoadAll o ⟨[], tables.map fun x => (x.1, eventOf x.1 x.2), []⟩ (tokAccessors (ts.map Prod.fst)) AggDf.empty with
    | error e => rw [hl] at h; cases h
    | ok st =>
      rw [hl] at h
      simp only at h
      obtain ⟨l1, l2, l3, l4, _, l5⟩ := loaded_tables o hfill tables _ hok hcol hl
      obtain ⟨w, hd⟩ := he.value (solveInterp ops st)
      rw [C63_compact _ n ts hw w hd] at h
      cases w with
      | none => cases h
      | some s =>
        cases h
        have hshape : ∀ a ∈ tokAccessors (ts.map Prod.fst), (SVal.frame ((gAccess st a.1 a.2).map fun x => (x.1, x.2.map fun v => v.map ops.ofInt))).Shape st.index.length := by
          intro a ha
          obtain ⟨tab, ht⟩ := l2 a ha
          refine ⟨?_, ?_⟩
          · intro c hc
            obtain ⟨x, hx, rfl⟩ := List.mem_map.1 hc
            rw [List.length_map]
            exact ((l5 a ha tab ht).2 x.1 x.2 hx).1
          · rw [List.map_map]
            exact l4 a.2
        refine ⟨l1, l3, ?_, ?_⟩
        · obtain ⟨ws, _, r⟩ := GDer.related (J := unitInterp) (fun (a : Option (SVal α)) (_ : Unit) => ∀ x, a = some x → x.Shape st.index.length) (fun a => a ∈ tokAccessors (ts.map Prod.fst))
            (by rintro t x h; cases h; trivial) (by rintro b t x h; cases h; trivial) (by rintro s x h; cases h) (by rintro e c hP x h; cases h; exact hshape _ hP) (by rintro s vs ws _ x h; cases h)
            (by
              rintro o' a b _ _ ha hb x hx
              cases a with
              | none => cases hx
              | some a =>
                cases b with
                | none => cases hx
                | some b => exact sBin_shape (ha a rfl) (hb b rfl) hx)
            (by
              rintro a _ ha x hx
              cases a with
              | none => cases hx
              | some a => exact sBin_shape (ops := ops) (o := .mul) (x := .num (ops.ofInt (-1))) trivial (ha a rfl) hx) hd (fun a ha => ha)
          cases r with
          | cons r _ => exact r v rfl
        · intro pv j t ht
          have hj : j < st.index.length := (List.getElem?_eq_some_iff.1 ht).1
          let obs : Str → Str → PointVal α := fun e c => (SVal.frame ((gAccess st e c).map fun x => (x.1, x.2.map fun v => v.map ops.ofInt))).point pv j
          refine ⟨obs, ?_, ?_⟩
          · intro a ha
            obtain ⟨tab, htab⟩ := l2 a ha
            obtain ⟨g1, g2⟩ := l5 a ha tab htab
            refine ⟨tab, htab, ?_⟩
            rcases point_frame hj (hshape a ha).rows pv with ⟨p1, p2⟩ | ⟨col, x, p1, p2, p3, p4⟩
            · left
              rw [lookup_labels, List.map_map] at p1
              exact ⟨fun hex => p1 ((g1 pv).2 hex), p2⟩
            · right
              have hm := mem_of_lookup p1
              obtain ⟨⟨pv', cells⟩, hx, e⟩ := List.mem_map.1 hm
              simp only [Prod.mk.injEq] at e
              obtain ⟨rfl, rfl⟩ := e
              refine ⟨(g1 pv').1 (List.mem_map.2 ⟨_, hx, rfl⟩), ?_⟩
              obtain ⟨y, y1, y2⟩ := (g2 pv' cells hx).2 j t ht
              refine ⟨y, y2, ?_⟩
              rw [List.getElem?_map, y1] at p3
              cases p3
              exact p4
          · obtain ⟨ws, hws, r⟩ := GDer.related (J := pointInterp ops obs) (fun (a : Option (SVal α)) (b : Option (PointVal α)) => ∀ x, a = some x → x.Rows st.index.length ∧ b = some (x.point pv j))
              (fun a => a ∈ tokAccessors (ts.map Prod.fst))
              (by rintro t x h; cases h; exact ⟨trivial, rfl⟩) (by rintro b t x h; cases h; exact ⟨trivial, rfl⟩) (by rintro s x h; cases h)
              (by rintro e c hP x h; cases h; exact ⟨(hshape _ hP).rows, rfl⟩) (by rintro s vs ws _ x h; cases h)
              (by
                rintro o' a b a' b' ha hb x hx
                cases a with
                | none => cases hx
                | some a =>
                  cases b with
                  | none => cases hx
                  | some b =>
                    obtain ⟨ha1, rfl⟩ := ha a rfl
                    obtain ⟨hb1, rfl⟩ := hb b rfl
                    exact sBin_point hj ha1 hb1 hx pv)
              (by
                rintro a a' ha x hx
                cases a with
                | none => cases hx
                | some a =>
                  obtain ⟨ha1, rfl⟩ := ha a rfl
                  exact sBin_point (ops := ops) (o := .mul) (x := .num (ops.ofInt (-1))) hj trivial ha1 hx pv) hd (fun a ha => ha)
            cases r with
            | cons r r' =>
              cases r'
              rw [(r v rfl).2] at hws
              exact hws

/-! ## C159 -/

/-- **Specification**: the table of an event of the trace: the rows of the file that the user asks for -/
def FileTable (ps : List ParserClass) (cells : ParserClass → TraceEvent → List (Str × Val)) (items : List TraceItem) (u : UserParams) (out : List Nat) (shift : Nat → Nat) (e : Str) (tab : Table (Dict Val)) : Prop :=
  ∃ p ∈ ps, p.name = e ∧ tab = (fileRows (cells p) p items u out).map fun r => (shift r.1, r.2)

theorem namedTables_file {ps : List ParserClass} (hps : ∀ p ∈ ps, p ∈ builtins) (cells : ParserClass → TraceEvent → List (Str × Val)) (items : List TraceItem) (u : UserParams) (out : List Nat) (shift : Nat → Nat)
    (e : Str) (tab : Table (Dict Val)) :
    (namedTables ps (ps.map fun p => (fileRows (cells p) p items u out).map fun r => (shift r.1, r.2))).get e = some tab ↔ FileTable ps cells items u out shift e tab := by
  constructor
  · intro h
    by_cases hm : e ∈ ps.map ParserClass.name
    · obtain ⟨p, hp, rfl⟩ := List.mem_map.1 hm
      rw [namedTables_get _ hps hp] at h
      cases h
      exact ⟨p, hp, rfl, rfl⟩
    · rw [namedTables_none _ hm] at h
      cases h
  · rintro ⟨p, hp, rfl, rfl⟩
    exact namedTables_get _ hps hp

theorem fileTable_ok {ps : List ParserClass} {cells : ParserClass → TraceEvent → List (Str × Val)} {items : List TraceItem} {u : UserParams} {out : List Nat} {shift : Nat → Nat}
    (ho : out.Pairwise (· < ·)) (hs : (out.map shift).Pairwise (· < ·)) {e : Str} (hpiv : ∀ p ∈ ps, p.name = e → ∀ q, classPivot e = some q → IntColumn (cells p) p items q)
    {tab : Table (Dict Val)} (h : FileTable ps cells items u out shift e tab) : TableOk e tab := by
  obtain ⟨p, hp, rfl, rfl⟩ := h
  obtain ⟨s1, s2⟩ := fileRows_times (cells := cells p) (p := p) (items := items) (u := u) ho
  refine ⟨?_, ?_⟩
  · rw [List.pairwise_map]
    refine s1.imp_of_mem fun {a b} ha hb hab => ?_
    rw [List.pairwise_map] at hs
    rcases pairwise_mem_or (ho.and hs) (s2 a ha) (s2 b hb) (by omega) with h' | h'
    · exact h'.2
    · have := h'.1; omega
  · intro q hq r hr
    obtain ⟨r', hr', rfl⟩ := List.mem_map.1 hr
    exact fileRows_int (hpiv p hp rfl q hq) r' hr'

/-- **C159, partial.** The value of an expression on a trace that is read from a file. Its times are the times of the lines of the events accessed, in the window and allowed by the filters, in order. At each of these times and for each value
of the pivot the value is the one that the operators of the documented grammar give for the last values of `event:column` on the lines of the file until then. For all files, parsers, windows, filters, arithmetics of cells, and expressions of the
documented grammar in which accessors with the same column are of the same event, provided that different times stay different when they are normalized and that the column of the pivot has numbers. Text in the accessed columns, identifiers and calls are left out of
the model. -/
theorem C159_solve_partial {α : Type} (ops : CellOps α) (o : GOpts) (hfill : o.fill = true) (fuel : Nat) (ps : List ParserClass) (hps : ∀ p ∈ ps, p ∈ builtins) (hnd : ps.Nodup)
    (header : List Str) (items : List TraceItem) (h : TraceFile ps header items)
    (cells : ParserClass → TraceEvent → List (Str × Val))
    (hc : ∀ p ∈ ps, ClassReads fuel p.name (TraceItem.eventsOf p.event items) (cells p))
    (hm : ∀ p ∈ ps, EvenMasks p.name (TraceItem.eventsOf p.event items) (cells p))
    (u : UserParams) (hw : u.window.hi = none → u.absWindow.hi ≠ some 0)
    (n : Nat) (ts : List (GTok × Nat)) (hwr : Written ts) (he : Expression (ts.map Prod.fst))
    (hpiv : ∀ a ∈ tokAccessors (ts.map Prod.fst), ∀ p ∈ ps, p.name = a.1 → ∀ q, classPivot a.1 = some q → IntColumn (cells p) p items q)
    (hcol : ∀ a ∈ tokAccessors (ts.map Prod.fst), ∀ b ∈ tokAccessors (ts.map Prod.fst), a.2 = b.2 → a.1 = b.1) :
    ∃ (out : List Nat) (shift : Nat → Nat), MinimalTimes 0 (TraceItem.times items) out ∧
      (∀ t ∈ out, if u.normalize then NearestEven (val t - val (firstTime out)) (shift t) else shift t = t) ∧
      ((out.map shift).Pairwise (· < ·) → ∀ index v, solveFile ops o fuel ps u (header ++ items.map TraceItem.text) (List.replicate n ' ' ++ blanked ts) = .ok (index, v) →
        index.Pairwise (· < ·) ∧
        (∀ t, t ∈ index ↔ ∃ a ∈ tokAccessors (ts.map Prod.fst), ∃ tab, FileTable ps cells items u out shift a.1 tab ∧ ∃ r ∈ tab, Chosen o tab r ∧ r.1 = t) ∧
        v.Shape index.length ∧
        ∀ (pv : Option Int) (j t : Nat), index[j]? = some t → ∃ obs : Str → Str → PointVal α,
          (∀ a ∈ tokAccessors (ts.map Prod.fst), AccessorAt ops o (FileTable ps cells items u out shift) t pv a.1 a.2 (obs a.1 a.2)) ∧
          GDer (pointInterp ops obs) 6 (ts.map Prod.fst) [some (v.point pv j)]) := by
  obtain ⟨out, shift, o1, o2, o3⟩ := C134_object fuel ps hps hnd header items h cells hc hm u hw
  refine ⟨out, shift, o1, o2, fun hs index v hv => ?_⟩
  unfold solveFile at hv
  rw [o3] at hv
  simp only at hv
  have hf := namedTables_file hps cells items u out shift
  obtain ⟨a1, a2, a3, a4⟩ := solve_tables ops o hfill _ n ts hwr he (fun a ha tab ht => fileTable_ok o1.pairwise.1 hs (hpiv a ha) ((hf a.1 tab).1 ht)) hcol hv
  have hf' : (fun e tab => (namedTables ps (ps.map fun p => (fileRows (cells p) p items u out).map fun r => (shift r.1, r.2))).get e = some tab) = FileTable ps cells items u out shift := by
    funext e tab
    exact propext (hf e tab)
  refine ⟨a1, ?_, a3, ?_⟩
  · intro t
    rw [a2]
    constructor
    · rintro ⟨a, ha, tab, ht, r⟩; exact ⟨a, ha, tab, (hf a.1 tab).1 ht, r⟩
    · rintro ⟨a, ha, tab, ht, r⟩; exact ⟨a, ha, tab, (hf a.1 tab).2 ht, r⟩
  · intro pv j t ht
    obtain ⟨obs, b1, b2⟩ := a4 pv j t ht
    refine ⟨obs, fun a ha => ?_, b2⟩
    rw [← hf']
    exact b1 a ha

/-! ### Expressions that have a value -/

/-- **Specification**: an operator can be evaluated; `some a` is the number `a`, `none` a table -/
def kindBin {α : Type} (ops : CellOps α) (total : GOp → Bool) (same : Bool) (o : GOp) : Option α → Option α → Option (Option α)
  | some a, y =>
    match o, y with
    | .land, y => some (if ops.truth a then y else some a)
    | .lor, y => some (if ops.truth a then some a else y)
    | o, some b => (ops.scalar o a b).map some
    | o, none => if total o then some none else none
  | none, y =>
    if o = .land ∨ o = .lor then none
    else if total o ∧ (y.isSome ∨ same ∨ o ∉ [.gt, .lt, .ge, .le, .eq, .ne, .band, .bor]) then some none else none

/-- **Specification**: whether an expression can be evaluated, if the operators in `total` can be applied to any cells; `same` says whether all tables have the same columns -/
def kindInterp {α : Type} (ops : CellOps α) (total : GOp → Bool) (same : Bool) : GInterp (Option (Option α)) where
  num t := some (some (ops.ofText false t))
  signed b t := some (some (ops.ofText b t))
  var _ := none
  acc _ _ := some none
  call _ _ := none
  callNone _ := none
  bin o a b := a.bind fun a => b.bind fun b => kindBin ops total same o a b
  neg a := a.bind fun a => kindBin ops total same .mul (some (ops.ofInt (-1))) a

theorem mapFrame_total {α : Type} {f : Option α → Option (Option α)} (hf : ∀ x, (f x).isSome) (cols : List (Option Int × List (Option α))) :
    ∃ r, mapFrame f cols = some (.frame r) ∧ r.map Prod.fst = cols.map Prod.fst := by
  unfold mapFrame
  have : (allSome (cols.map fun c => (mapColumn f c.2).map fun d => (c.1, d))).isSome := by
    refine allSome_isSome fun x hx => ?_
    obtain ⟨c, _, rfl⟩ := List.mem_map.1 hx
    rw [Option.isSome_map]
    refine allSome_isSome fun x hx => ?_
    obtain ⟨y, _, rfl⟩ := List.mem_map.1 hx
    exact hf y
  obtain ⟨r, hr⟩ := Option.isSome_iff_exists.1 this
  exact ⟨r, by rw [hr]; rfl, allSome_keys (fun c : Option Int × List (Option α) => mapColumn f c.2) Prod.fst hr⟩

theorem zipFrames_total {α : Type} {ops : CellOps α} {o : GOp} (h : ∀ x y, (ops.cell o x y).isSome) (n : Nat) (labels : List (Option Int)) (f g : List (Option Int × List (Option α))) :
    ∃ r, zipFrames ops o n labels f g = some (.frame r) ∧ r.map Prod.fst = labels := by
  unfold zipFrames
  have : (allSome (labels.map fun x => (allSome (List.zipWith (ops.cell o) (columnOf n f x) (columnOf n g x))).map fun d => (x, d))).isSome := by
    refine allSome_isSome fun x hx => ?_
    obtain ⟨c, _, rfl⟩ := List.mem_map.1 hx
    rw [Option.isSome_map]
    refine allSome_isSome fun x hx => ?_
    obtain ⟨i, hi, rfl⟩ := List.getElem_of_mem hx
    rw [List.getElem_zipWith]
    exact h _ _
  obtain ⟨r, hr⟩ := Option.isSome_iff_exists.1 this
  refine ⟨r, by rw [hr]; rfl, ?_⟩
  rw [allSome_keys (fun x => allSome (List.zipWith (ops.cell o) (columnOf n f x) (columnOf n g x))) id hr, List.map_id]

/-- the value is of this kind; if `same`, a table has the columns `L` -/
def HasKind {α : Type} (same : Bool) (L : List (Option Int)) : Option α → SVal α → Prop
  | some a, v => v = .num a
  | none, v => ∃ cols, v = .frame cols ∧ (same = true → cols.map Prod.fst = L)

theorem sBin_total {α : Type} {ops : CellOps α} {total : GOp → Bool} (ht : ∀ o, total o = true → ∀ x y, (ops.cell o x y).isSome) {same : Bool} {L : List (Option Int)} {n : Nat} {o : GOp}
    {a b c : Option α} {x y : SVal α} (hk : kindBin ops total same o a b = some c) (hx : HasKind same L a x) (hy : HasKind same L b y) : ∃ z, sBin ops n o x y = some z ∧ HasKind same L c z := by
  have hcmp : ∀ o : GOp, o ∈ [.gt, .lt, .ge, .le, .eq, .ne, .band, .bor] ↔ (o.compares = true ∨ o = .band ∨ o = .bor) := by intro o; cases o <;> decide
  cases a with
  | some a =>
    have hx' : x = .num a := hx
    subst hx'
    unfold sBin
    dsimp only
    by_cases h1 : o = .land
    · subst h1
      rw [if_pos rfl]
      simp only [kindBin, Option.some.injEq] at hk
      refine ⟨_, rfl, ?_⟩
      subst hk
      split
      · exact hy
      · exact rfl
    · rw [if_neg h1]
      by_cases h2 : o = .lor
      · subst h2
        rw [if_pos rfl]
        simp only [kindBin, Option.some.injEq] at hk
        refine ⟨_, rfl, ?_⟩
        subst hk
        split
        · exact rfl
        · exact hy
      · rw [if_neg h2]
        cases b with
        | some b =>
          have hy' : y = .num b := hy
          subst hy'
          have hk' : (ops.scalar o a b).map some = some c := by
            cases o <;> first | exact hk | exact absurd rfl h1 | exact absurd rfl h2
          cases hs : ops.scalar o a b with
          | none => rw [hs] at hk'; cases hk'
          | some d =>
            rw [hs] at hk'
            cases hk'
            exact ⟨.num d, by simp only [hs, Option.map_some], rfl⟩
        | none =>
          obtain ⟨cols, rfl, hl⟩ := hy
          have hk' : (if total o then some none else none) = some c := by
            cases o <;> first | exact hk | exact absurd rfl h1 | exact absurd rfl h2
          split at hk'
          · rename_i hto
            cases hk'
            obtain ⟨r, e1, e2⟩ := mapFrame_total (f := fun y => ops.cell o (some a) y) (fun y => ht o hto _ y) cols
            exact ⟨_, e1, r, rfl, fun hs => e2.trans (hl hs)⟩
          · cases hk'
  | none =>
    obtain ⟨f, rfl, hl⟩ := hx
    unfold kindBin at hk
    dsimp only at hk
    split at hk
    · cases hk
    · rename_i h12
      split at hk
      · rename_i hto
        cases hk
        unfold sBin
        dsimp only
        rw [if_neg h12]
        cases b with
        | some b =>
          have hy' : y = .num b := hy
          subst hy'
          obtain ⟨r, e1, e2⟩ := mapFrame_total (f := fun x => ops.cell o x (some b)) (fun x => ht o hto.1 x _) f
          exact ⟨_, e1, r, rfl, fun hs => e2.trans (hl hs)⟩
        | none =>
          obtain ⟨g, rfl, hl'⟩ := hy
          dsimp only
          by_cases hlab : f.map Prod.fst = g.map Prod.fst
          · rw [if_pos hlab]
            obtain ⟨r, e1, e2⟩ := zipFrames_total (ht o hto.1) n (f.map Prod.fst) f g
            exact ⟨_, e1, r, rfl, fun hs => e2.trans (hl hs)⟩
          · rw [if_neg hlab]
            have hsame : same ≠ true := fun hs => hlab ((hl hs).trans (hl' hs).symm)
            have hno : ¬ (o.compares = true ∨ o = .band ∨ o = .bor) := by
              rw [← hcmp]
              rcases hto.2 with h | h | h
              · cases h
              · exact absurd h hsame
              · exact h
            rw [if_neg hno]
            obtain ⟨r, e1, e2⟩ := zipFrames_total (ht o hto.1) n (unionLabels (f.map Prod.fst) (g.map Prod.fst)) f g
            exact ⟨_, e1, r, rfl, fun hs => absurd hs hsame⟩
      · cases hk

theorem solve_total {α : Type} (ops : CellOps α) (o : GOpts) (hfill : o.fill = true) (tables : Dict (Table (Dict Val))) (n : Nat) (ts : List (GTok × Nat)) (hw : Written ts)
    (total : GOp → Bool) (ht : ∀ o, total o = true → ∀ x y, (ops.cell o x y).isSome) (same : Bool) {k : Option α} (hk : GDer (kindInterp ops total same) 6 (ts.map Prod.fst) [some k])
    (hok : ∀ a ∈ tokAccessors (ts.map Prod.fst), ∃ tab, tables.get a.1 = some tab ∧ TableOk a.1 tab ∧ (∃ r ∈ tab, Chosen o tab r) ∧ (∃ r ∈ tab, a.2 ∈ r.2.map Prod.fst) ∧
      ∀ r ∈ tab, ∀ c s, (c = a.2 ∨ c ∈ o.filters.map Prod.fst) → r.2.get c ≠ some (.str s))
    (hsame : same = true → ∀ a ∈ tokAccessors (ts.map Prod.fst), ∀ b ∈ tokAccessors (ts.map Prod.fst), ∀ ta tb, tables.get a.1 = some ta → tables.get b.1 = some tb →
      ∀ pv, (∃ r ∈ ta, Chosen o ta r ∧ OfPivot (classPivot a.1) pv r) ↔ ∃ r ∈ tb, Chosen o tb r ∧ OfPivot (classPivot b.1) pv r)
    (hcol : ∀ a ∈ tokAccessors (ts.map Prod.fst), ∀ b ∈ tokAccessors (ts.map Prod.fst), a.2 = b.2 → a.1 = b.1) :
    ∃ index v, solveTables ops o tables (List.replicate n ' ' ++ blanked ts) = .ok (index, v) ∧ (∀ a, k = some a → v = .num a) ∧ (k = none → ∃ cols, v = .frame cols) := by
  have he : Expression (ts.map Prod.fst) := by
    obtain ⟨ws, h1, h2⟩ := GDer.related (J := unitInterp) (fun _ _ => True) (fun _ => True) (by simp) (by simp) (by simp) (by simp) (by simp) (by simp) (by simp) hk (by simp)
    cases h2 with
    | cons _ h3 => cases h3; exact h1
  unfold solveTables
  rw [accessors_blanks, accessors_written ts hw he.plainColumns, if_neg]
  · obtain ⟨st, hst⟩ : ∃ st, gLoadAll o ⟨[], tables.map fun x => (x.1, eventOf x.1 x.2), []⟩ (tokAccessors (ts.map Prod.fst)) AggDf.empty = .ok st := by
      let env : GEnv := ⟨[], (tables.filter fun x => decide (x.1 ∈ (tokAccessors (ts.map Prod.fst)).map Prod.fst)).map fun x => (x.1, eventOf x.1 x.2), []⟩
      have hcl : ∀ e, gClass env e = if e ∈ (tokAccessors (ts.map Prod.fst)).map Prod.fst then (match (tables.get e).map (eventOf e) with | some c => .ok c | none => .error .noClass) else .error .noClass := by
        intro e
        rw [gClass_tables, get_mapValue (fun n t => eventOf n t), get_filterKeys tables (fun n => decide (n ∈ (tokAccessors (ts.map Prod.fst)).map Prod.fst))]
        by_cases hm : e ∈ (tokAccessors (ts.map Prod.fst)).map Prod.fst
        · simp only [hm, decide_true, if_true]
        · simp only [hm, decide_false, Bool.false_eq_true, if_false, Option.map_none]
      rw [gLoadAll_congr o (env' := env)]
      · refine C94_loads o env _ hfill ?_ ?_
        · intro e ev hev
          rw [hcl] at hev
          split at hev
          · rename_i hm
            obtain ⟨a, ha, rfl⟩ := List.mem_map.1 hm
            obtain ⟨tab, g1, g2, _⟩ := hok a ha
            rw [g1] at hev
            cases hev
            exact eventOf_ok g2
          · cases hev
        · intro a ha
          obtain ⟨tab, g1, g2, ⟨r, hr, g3⟩, g4, _⟩ := hok a ha
          refine ⟨eventOf a.1 tab, ?_, ⟨_, List.mem_map.2 ⟨r, hr, rfl⟩, (eventOf_selected o a.1 tab r).2 g3⟩, (eventOf_columns a.1 tab a.2).2 g4, ?_⟩
          · rw [hcl, if_pos (List.mem_map.2 ⟨a, ha, rfl⟩), g1]
            rfl
          · intro p hp
            rw [eventOf_columns]
            obtain ⟨i, hi⟩ := g2.2 p hp r hr
            exact ⟨r, hr, Dict.get_keys hi⟩
      · intro a ha
        rw [hcl, if_pos (List.mem_map.2 ⟨a, ha, rfl⟩), gClass_tables, get_mapValue (fun n t => eventOf n t)]
    rw [hst]
    simp only
    obtain ⟨_, l2, _, _, l5, l6⟩ := loaded_tables o hfill tables _ (fun a ha tab htab => by
      obtain ⟨tab', g1, g2, _⟩ := hok a ha
      rw [g1] at htab
      cases htab
      exact g2) hcol hst
    obtain ⟨L, hL⟩ : ∃ L, same = true → ∀ a ∈ tokAccessors (ts.map Prod.fst), (gAccess st a.1 a.2).map Prod.fst = L := by
      cases hacc : tokAccessors (ts.map Prod.fst) with
      | nil => exact ⟨[], by simp⟩
      | cons a0 as =>
        rw [hacc] at hsame l2 l6
        refine ⟨(gAccess st a0.1 a0.2).map Prod.fst, fun hs a ha => ?_⟩
        obtain ⟨ta, hta⟩ := l2 a ha
        obtain ⟨tb, htb⟩ := l2 a0 (by simp)
        refine OrderedLabels.ext (l5 a.2) (l5 a0.2) fun pv => ?_
        have e1 := (l6 a ha ta hta).1 pv
        have e2 := (l6 a0 (by simp) tb htb).1 pv
        exact e1.trans ((hsame hs a ha a0 (by simp) ta tb hta htb pv).trans e2.symm)
    obtain ⟨ws, h1, h2⟩ := GDer.related (J := solveInterp ops st) (fun (a : Option (Option α)) (b : Option (SVal α)) => ∀ x, a = some x → ∃ y, b = some y ∧ HasKind same L x y)
      (fun a => a ∈ tokAccessors (ts.map Prod.fst)) (by rintro t x h; cases h; exact ⟨_, rfl, rfl⟩) (by rintro b t x h; cases h; exact ⟨_, rfl, rfl⟩) (by rintro s x h; cases h)
      (by
        rintro e c hP x h
        cases h
        refine ⟨_, rfl, _, rfl, fun hs => ?_⟩
        rw [List.map_map]
        exact hL hs (e, c) hP)
      (by rintro s vs ws _ x h; cases h)
      (by
        rintro o' a b a' b' ha hb x hx
        cases a with
        | none => cases hx
        | some a =>
          cases b with
          | none => cases hx
          | some b =>
            obtain ⟨y, rfl, hy⟩ := ha a rfl
            obtain ⟨y', rfl, hy'⟩ := hb b rfl
            exact sBin_total ht hx hy hy')
      (by
        rintro a a' ha x hx
        cases a with
        | none => cases hx
        | some a =>
          obtain ⟨y, rfl, hy⟩ := ha a rfl
          exact sBin_total (n := st.index.length) (o := .mul) (a := some (ops.ofInt (-1))) ht hx rfl hy) hk (fun a ha => ha)
    cases h2 with
    | cons r r' =>
      cases r'
      obtain ⟨v, rfl, hv⟩ := r k rfl
      rw [C63_compact _ n ts hw _ h1]
      refine ⟨st.index, v, rfl, ?_, ?_⟩
      · rintro a rfl
        exact hv
      · rintro rfl
        obtain ⟨cols, e, _⟩ := hv
        exact ⟨cols, e⟩
  · rw [List.any_eq_true]
    rintro ⟨a, ha, hn⟩
    obtain ⟨tab, g1, g2, _, _, g5⟩ := hok a ha
    unfold needsText at hn
    rw [g1] at hn
    have hno : ∀ c, (c = a.2 ∨ c ∈ o.filters.map Prod.fst ∨ classPivot a.1 = some c) → textColumn tab c = false := by
      intro c hc
      unfold textColumn
      rw [Bool.eq_false_iff]
      intro htc
      rw [List.any_eq_true] at htc
      obtain ⟨r, hr, hh⟩ := htc
      split at hh
      · rename_i s hs
        rcases hc with hc | hc | hc
        · exact g5 r hr c s (.inl hc) hs
        · exact g5 r hr c s (.inr hc) hs
        · obtain ⟨i, hi⟩ := g2.2 c hc r hr
          rw [hi] at hs
          cases hs
      · cases hh
    simp only [Bool.or_eq_true, Option.any_eq_true, List.any_eq_true] at hn
    rcases hn with (hn | ⟨p, hp, hn⟩) | ⟨f, hf, hn⟩
    · rw [hno a.2 (.inl rfl)] at hn; cases hn
    · rw [hno p (.inr (.inr hp))] at hn; cases hn
    · rw [hno f.1 (.inr (.inl (List.mem_map.2 ⟨f, hf, rfl⟩)))] at hn; cases hn

/-- **C159.** An expression of numbers, accessors and operators has a value, if every event accessed is parsed, has a line in the window that the filters allow, and has the column, with numbers; if the scalar operations have results and the
operators of tables are defined for all cells; if no table is on the left of `&&` or `||`; and if either tables are not compared or all accessed events have the same values of the pivot. It is a number exactly if the operators give one, and a table
otherwise. For all files, parsers, windows, filters and arithmetics. -/
theorem C159_evaluates {α : Type} (ops : CellOps α) (o : GOpts) (hfill : o.fill = true) (fuel : Nat) (ps : List ParserClass) (hps : ∀ p ∈ ps, p ∈ builtins) (hnd : ps.Nodup)
    (header : List Str) (items : List TraceItem) (h : TraceFile ps header items)
    (cells : ParserClass → TraceEvent → List (Str × Val))
    (hc : ∀ p ∈ ps, ClassReads fuel p.name (TraceItem.eventsOf p.event items) (cells p))
    (hm : ∀ p ∈ ps, EvenMasks p.name (TraceItem.eventsOf p.event items) (cells p))
    (u : UserParams) (hw : u.window.hi = none → u.absWindow.hi ≠ some 0)
    (n : Nat) (ts : List (GTok × Nat)) (hwr : Written ts)
    (total : GOp → Bool) (ht : ∀ o, total o = true → ∀ x y, (ops.cell o x y).isSome) (same : Bool) {k : Option α} (hk : GDer (kindInterp ops total same) 6 (ts.map Prod.fst) [some k])
    (hcol : ∀ a ∈ tokAccessors (ts.map Prod.fst), ∀ b ∈ tokAccessors (ts.map Prod.fst), a.2 = b.2 → a.1 = b.1) :
    ∃ (out : List Nat) (shift : Nat → Nat), MinimalTimes 0 (TraceItem.times items) out ∧
      (∀ t ∈ out, if u.normalize then NearestEven (val t - val (firstTime out)) (shift t) else shift t = t) ∧
      ((out.map shift).Pairwise (· < ·) →
        (∀ a ∈ tokAccessors (ts.map Prod.fst), ∃ tab, FileTable ps cells items u out shift a.1 tab ∧ (∃ r ∈ tab, Chosen o tab r) ∧ (∃ r ∈ tab, a.2 ∈ r.2.map Prod.fst) ∧
          (∀ r ∈ tab, ∀ c s, (c = a.2 ∨ c ∈ o.filters.map Prod.fst) → r.2.get c ≠ some (.str s)) ∧ ∀ q, classPivot a.1 = some q → ∀ r ∈ tab, ∃ i : Int, r.2.get q = some (.int i)) →
        (same = true → ∀ a ∈ tokAccessors (ts.map Prod.fst), ∀ b ∈ tokAccessors (ts.map Prod.fst), ∀ ta tb, FileTable ps cells items u out shift a.1 ta → FileTable ps cells items u out shift b.1 tb →
          ∀ pv, (∃ r ∈ ta, Chosen o ta r ∧ OfPivot (classPivot a.1) pv r) ↔ ∃ r ∈ tb, Chosen o tb r ∧ OfPivot (classPivot b.1) pv r) →
        ∃ index v, solveFile ops o fuel ps u (header ++ items.map TraceItem.text) (List.replicate n ' ' ++ blanked ts) = .ok (index, v) ∧
          (∀ a, k = some a → v = .num a) ∧ (k = none → ∃ cols, v = .frame cols)) := by
  obtain ⟨out, shift, o1, o2, o3⟩ := C134_object fuel ps hps hnd header items h cells hc hm u hw
  refine ⟨out, shift, o1, o2, fun hs hacc hsame => ?_⟩
  have hf := namedTables_file hps cells items u out shift
  unfold solveFile
  rw [o3]
  simp only
  refine solve_total ops o hfill _ n ts hwr total ht same hk ?_ ?_ hcol
  · intro a ha
    obtain ⟨tab, g1, g2, g3, g4, g5⟩ := hacc a ha
    refine ⟨tab, (hf a.1 tab).2 g1, ⟨?_, g5⟩, g2, g3, g4⟩
    obtain ⟨p, hp, _, rfl⟩ := g1
    obtain ⟨s1, s2⟩ := fileRows_times (cells := cells p) (p := p) (items := items) (u := u) o1.pairwise.1
    rw [List.pairwise_map]
    refine s1.imp_of_mem fun {x y} hx hy hxy => ?_
    rw [List.pairwise_map] at hs
    rcases pairwise_mem_or (o1.pairwise.1.and hs) (s2 x hx) (s2 y hy) (by omega) with h' | h'
    · exact h'.2
    · have := h'.1; omega
  · intro hsm a ha b hb ta tb hta htb
    exact hsame hsm a ha b hb ta tb ((hf a.1 ta).1 hta) ((hf b.1 tb).1 htb)

/-! ### What does not work -/

/-- **C159, refuted.** That logical operators can be used on data, as documented (grammar.py:143): `event:column && x` and `event:column || x` have no value, whatever `x` is, since Python asks for the truth value of the table on the left. For all
files, parsers, windows, filters, arithmetics and expressions `x`. -/
theorem C159_logical_refuted {α : Type} (ops : CellOps α) (o : GOpts) (fuel : Nat) (ps : List ParserClass) (u : UserParams) (lines : List Str) (n : Nat) (ts : List (GTok × Nat)) (hwr : Written ts)
    (e c : Str) (hdot : '.' ∉ c) (op : GOp) (hop : op = .land ∨ op = .lor) (g : Bool) (r : List GTok) (hr : GDer unitInterp 5 r [()]) (hts : ts.map Prod.fst = [.name e, .colon, .name c] ++ .op op g :: r) :
    ∀ x, solveFile ops o fuel ps u lines (List.replicate n ' ' ++ blanked ts) ≠ .ok x := by
  intro x hx
  unfold solveFile at hx
  split at hx
  · rename_i t _
    unfold solveTables at hx
    split at hx
    · cases hx
    · cases hl : gLoadAll o ⟨[], (namedTables ps t.tables).map fun x => (x.1, eventOf x.1 x.2), []⟩ (accessors (List.replicate n ' ' ++ blanked ts)) AggDf.empty with
      | error e => rw [hl] at hx; cases hx
      | ok st =>
        rw [hl] at hx
        simp only at hx
        obtain ⟨ws, h1, h2⟩ := GDer.related (J := solveInterp ops st) (fun _ _ => True) (fun _ => True) (by simp) (by simp) (by simp) (by simp) (by simp) (by simp) (by simp) hr (by simp)
        obtain ⟨b, rfl⟩ : ∃ b, ws = [b] := by
          cases h2 with
          | cons _ h3 => cases h3; exact ⟨_, rfl⟩
        have hup : ∀ k, k ≤ 6 → GDer (solveInterp ops st) k [.name e, .colon, .name c] [(solveInterp ops st).acc e c] := by
          intro k
          induction k with
          | zero => exact fun _ => .acc e c hdot
          | succ k ih => exact fun hk => .up k _ _ (by omega) (ih (by omega))
        have hprec : precedence op = 6 := by rcases hop with rfl | rfl <;> rfl
        have hder : GDer (solveInterp ops st) 6 (ts.map Prod.fst) [(solveInterp ops st).bin op ((solveInterp ops st).acc e c) b] := by
          rw [hts, ← hprec]
          refine .bin op g _ r _ b ?_ ?_
          · rw [hprec]; exact hup 6 (by omega)
          · rw [hprec]; exact h1
        rw [C63_compact _ n ts hwr _ hder] at hx
        have hnone : (solveInterp ops st).bin op ((solveInterp ops st).acc e c) b = none := by
          cases b with
          | none => rfl
          | some b =>
            show sBin ops _ op (.frame _) b = none
            unfold sBin
            dsimp only
            rw [if_pos hop]
        rw [hnone] at hx
        cases hx
  · cases hx

theorem syscall_columns {fuel : Nat} {name : Str} (hname : name = cs!"sys_enter" ∨ name = cs!"sys_exit") {evs : List TraceEvent} {cells : TraceEvent → List (Str × Val)} (h : ClassReads fuel name evs cells) :
    ∀ e ∈ evs, ∀ k t : Nat, cs!"pid" ∉ (shownCells name (e.rowWith (cells e) k t).cells).map Prod.fst := by
  have hown : name ∈ ownParsing := by rcases hname with rfl | rfl <;> decide
  have hshow : ∀ c, shownColumn name c = c := by
    intro c
    rcases hname with rfl | rfl <;> simp [shownColumn]
  intro e he k t
  cases h with
  | arrays hn => exact absurd hown hn
  | plain h =>
    have hr := (h e he).reads
    have hkeys : (shownCells name (e.rowWith (cells e) k t).cells).map Prod.fst = [cs!"__comm", cs!"__pid", cs!"__cpu", cs!"__line"] ++ (cells e).map Prod.fst := by
      simp [shownCells, TraceEvent.rowWith, hshow, Function.comp_def]
    rw [hkeys]
    generalize cells e = cs at hr
    generalize e.line.data = data at hr
    cases hr with
    | fields fs val data hn => exact absurd hown hn
    | switch fs gs val hn => rcases hname with h | h <;> rw [h] at hn <;> exact absurd hn (by decide)
    | enter nr a0 a1 a2 a3 a4 a5 lead trail hn => simp
    | exit nr ret lead trail hn => simp
    | marker data hn => rcases hname with h | h <;> rw [h] at hn <;> exact absurd hn (by decide)
    | clock clk fs val data hn => rcases hname with h | h <;> rw [h] at hn <;> exact absurd hn (by decide)
    | ext4 ps odd hn => rcases hname with h | h <;> rw [h] at hn <;> exact absurd hn (by decide)
    | f2fs fs val hn => rcases hname with h | h <;> rw [h] at hn <;> exact absurd hn (by decide)
    | f2fsExit pre post f val hn => rcases hname with h | h <;> rw [h] at hn <;> exact absurd hn (by decide)

/-- **C159, refuted.** That the data of every event can be used in expressions: the events of system calls have the pivot `pid`, which is not a column of their tables, so an expression whose first accessor is one of them has no value. For all files, parsers,
windows, filters, arithmetics and such expressions. -/
theorem C159_syscalls_refuted {α : Type} (ops : CellOps α) (o : GOpts) (fuel : Nat) (ps : List ParserClass) (hps : ∀ p ∈ ps, p ∈ builtins) (hnd : ps.Nodup)
    (header : List Str) (items : List TraceItem) (h : TraceFile ps header items)
    (cells : ParserClass → TraceEvent → List (Str × Val))
    (hc : ∀ p ∈ ps, ClassReads fuel p.name (TraceItem.eventsOf p.event items) (cells p))
    (hm : ∀ p ∈ ps, EvenMasks p.name (TraceItem.eventsOf p.event items) (cells p))
    (u : UserParams) (hw : u.window.hi = none → u.absWindow.hi ≠ some 0)
    (n : Nat) (ts : List (GTok × Nat)) (hwr : Written ts) (he : Expression (ts.map Prod.fst)) (e c : Str) (hname : e = cs!"sys_enter" ∨ e = cs!"sys_exit")
    {accs : List (Str × Str)} (hfirst : tokAccessors (ts.map Prod.fst) = (e, c) :: accs) :
    ∀ x, solveFile ops o fuel ps u (header ++ items.map TraceItem.text) (List.replicate n ' ' ++ blanked ts) ≠ .ok x := by
  obtain ⟨out, shift, o1, o2, o3⟩ := C134_object fuel ps hps hnd header items h cells hc hm u hw
  intro x hx
  unfold solveFile at hx
  rw [o3] at hx
  simp only at hx
  have hf := namedTables_file hps cells items u out shift
  unfold fileRows at hf
  generalize namedTables ps (ps.map fun p => (asked u (firstTime out) ((TraceItem.tableWith (cells p) p.event 0 items out).map
            fun r => (r.time, shownCells p.name r.cells))).map fun r => (shift r.1, r.2)) = tables at hx hf
  unfold solveTables at hx
  rw [accessors_blanks, accessors_written ts hwr he.plainColumns] at hx
  split at hx
  · cases hx
  · have hload : ∃ er, gLoadAll o ⟨[], tables.map fun x => (x.1, eventOf x.1 x.2), []⟩ (tokAccessors (ts.map Prod.fst)) AggDf.empty = .error er := by
      rw [hfirst, gLoadAll]
      unfold gPreProcess
      rw [if_neg (by simp [AggDf.empty]), gClass_tables, get_mapValue (fun n t => eventOf n t)]
      cases hg : tables.get e with
      | none => exact ⟨_, rfl⟩
      | some tab =>
        simp only [Option.map_some]
        obtain ⟨p, hp, hpn, htab⟩ := (hf e tab).1 hg
        have hcolumn : cs!"pid" ∉ (eventOf e tab).columns := by
          rw [eventOf_columns]
          rintro ⟨r, hr, hk⟩
          rw [htab] at hr
          obtain ⟨r', hr', rfl⟩ := List.mem_map.1 hr
          obtain ⟨q, hq, rfl⟩ := List.mem_map.1 (within_mem hr')
          obtain ⟨-, ev, hev, k, hre⟩ := mem_tableWith hq
          simp only at hk
          rw [hre] at hk
          exact syscall_columns (hpn ▸ hname) (hc p hp) ev hev k q.time hk
        have hpiv : (eventOf e tab).pivot = some cs!"pid" := by
          show classPivot e = _
          rcases hname with rfl | rfl <;> decide
        unfold gPivot
        dsimp only
        by_cases h0 : getDataFrame o (eventOf e tab) = []
        · rw [if_pos h0]; exact ⟨_, rfl⟩
        · rw [if_neg h0, if_pos (.inr ⟨_, hpiv, hcolumn⟩)]
          exact ⟨_, rfl⟩
    obtain ⟨er, her⟩ := hload
    rw [her] at hx
    cases hx

/-! ### Examples -/

/-- whole numbers; a missing number stays missing, comparisons are 1 and 0, division is left out -/
def exCellOps : CellOps Int where
  ofInt i := i
  ofText b t := (if b then -1 else 1) * (t.foldl (fun (n : Int) c => 10 * n + (c.toNat - 48 : Nat)) 0)
  cell o x y :=
    match x, y with
    | some a, some b =>
      match o with
      | .add => some (some (a + b))
      | .sub => some (some (a - b))
      | .mul => some (some (a * b))
      | .gt => some (some (if a > b then 1 else 0))
      | _ => none
    | _, _ => some none
  scalar o a b :=
    match o with
    | .add => some (a + b)
    | .sub => some (a - b)
    | .mul => some (a * b)
    | _ => none
  truth a := a ≠ 0

def exFreqLines : List Str :=
  [cs!"version = 6\n", cs!"a-1 [000] 1.0: cpu_frequency: state=700 cpu_id=0\n", cs!"a-1 [000] 2.0: cpu_frequency: state=500 cpu_id=1\n", cs!"a-1 [000] 3.0: sched_switch: prev_pid=4 next_pid=5\n",
   cs!"a-1 [000] 4.0: cpu_frequency: state=900 cpu_id=0\n"]

def exOpts : GOpts := { start := 0, stop := none, filters := [], fill := true }

/-- the parsers of the example, an expression with the pivot -/
example : solveFile exCellOps exOpts 5 exWholeParsers (UserParams.full false) exFreqLines cs!"cpu_frequency:frequency - 2 * 100" =
    .ok ([ofRat 1 1, ofRat 2 1, ofRat 4 1], .frame [(some 0, [some 500, some 500, some 700]), (some 1, [none, some 300, some 300])]) := by
  decide +kernel

/-- two events, one without a pivot; the values of the other pivot are missing -/
example : solveFile exCellOps exOpts 5 exWholeParsers (UserParams.full false) exFreqLines cs!"cpu_frequency:frequency+sched_switch:next_pid" =
    .ok ([ofRat 1 1, ofRat 2 1, ofRat 3 1, ofRat 4 1], .frame [(some 0, [none, none, none, none]), (some 1, [none, none, none, none]), (none, [none, none, none, none])]) ∧
    solveFile exCellOps exOpts 5 exWholeParsers (UserParams.full false) exFreqLines cs!"sched_switch:prev_pid < cpu_frequency:frequency" = .error .eval := by
  decide +kernel

/-- a window and a filter -/
example : solveFile exCellOps { exOpts with start := ofRat 2 1, filters := [(cs!"cpu", [1])] } 5 exWholeParsers (UserParams.full false) exFreqLines cs!"(cpu_frequency:frequency > 499)" =
    .ok ([ofRat 2 1], .frame [(some 1, [some 1])]) ∧
    solveFile exCellOps { exOpts with start := ofRat 3 1, filters := [(cs!"cpu", [1])] } 5 exWholeParsers (UserParams.full false) exFreqLines cs!"(cpu_frequency:frequency > 499)" = .error (.load .noEvents) := by
  decide +kernel

def exExprToks : List (GTok × Nat) :=
  [(.name cs!"cpu_frequency", 0), (.colon, 0), (.name cs!"frequency", 1), (.op .sub false, 1), (.num cs!"2", 0), (.op .mul true, 0), (.num cs!"100", 0)]

theorem exExpr_der {V : Type} (I : GInterp V) : GDer I 6 (exExprToks.map Prod.fst) [I.bin .sub (I.acc cs!"cpu_frequency" cs!"frequency") (I.bin .mul (I.num cs!"2") (I.num cs!"100"))] := by
  have up : ∀ {j k : Nat} {ts : List GTok} {v : V}, j ≤ k → k ≤ 6 → GDer I j ts [v] → GDer I k ts [v] := by
    intro j k ts v hj
    induction k, hj using Nat.le_induction with
    | base => exact fun _ h => h
    | succ k hk ih => exact fun hk h => .up k _ _ (by omega) (ih (by omega) h)
  refine up (j := 4) (by omega) (by omega) ?_
  refine .bin .sub false [.name cs!"cpu_frequency", .colon, .name cs!"frequency"] [.num cs!"2", .op .mul true, .num cs!"100"] _ _ ?_ ?_
  · exact up (j := 0) (by decide) (by decide) (.acc _ _ (by decide))
  · refine .bin .mul true [.num cs!"2"] [.num cs!"100"] _ _ ?_ ?_
    · exact up (j := 0) (by decide) (by decide) (.num _)
    · exact up (j := 0) (by decide) (by decide) (.num _)

/-- the hypotheses on the expression -/
example : Written exExprToks ∧ blanked exExprToks = cs!"cpu_frequency:frequency - 2*100" ∧ Expression (exExprToks.map Prod.fst) ∧
    tokAccessors (exExprToks.map Prod.fst) = [(cs!"cpu_frequency", cs!"frequency")] ∧
    GDer (kindInterp exCellOps (fun o => o ∈ [.add, .sub, .mul]) true) 6 (exExprToks.map Prod.fst) [some none] ∧
    ∀ o, decide (o ∈ [GOp.add, .sub, .mul]) = true → ∀ x y, (exCellOps.cell o x y).isSome := by
  refine ⟨?_, by decide +kernel, exExpr_der _, by decide +kernel, exExpr_der _, ?_⟩
  · have p : ∀ c s, isIdStart c = true → (∀ x ∈ s, isIdChar x = true) → GTok.Plain (.name (c :: s)) := by
      intro c s hc hs
      refine ⟨⟨c, s, rfl, hc⟩, ?_⟩
      intro pre x post e
      left
      have : x ∈ c :: s := by rw [e]; simp
      rcases List.mem_cons.1 this with rfl | hx
      · simp [isIdChar, hc]
      · exact hs x hx
    exact ⟨p _ _ (by decide) (by decide), by simp [GTok.Joins, GTok.IsWord], trivial, by simp [GTok.Joins], p _ _ (by decide) (by decide), by simp, rfl, by simp,
      ⟨by decide, .inl (by decide)⟩, by simp [GTok.Joins, GTok.IsWord], rfl, by simp [GTok.Joins], ⟨by decide, .inl (by decide)⟩, by simp, trivial⟩
  · intro o ho x y
    simp only [decide_eq_true_eq, List.mem_cons, List.not_mem_nil, or_false] at ho
    rcases ho with rfl | rfl | rfl <;> cases x <;> cases y <;> rfl

/-- logical operators -/
example : solveFile exCellOps exOpts 5 exWholeParsers (UserParams.full false) exFreqLines cs!"cpu_frequency:frequency && 1" = .error .eval ∧
    solveFile exCellOps exOpts 5 exWholeParsers (UserParams.full false) exFreqLines cs!"1 && cpu_frequency:frequency" =
      .ok ([ofRat 1 1, ofRat 2 1, ofRat 4 1], .frame [(some 0, [some 700, some 700, some 900]), (some 1, [none, some 500, some 500])]) := by
  decide +kernel

/-- system calls -/
example : solveFile exCellOps exOpts 5 builtins (UserParams.full false) [cs!"a-1 [000] 1.0: sys_enter: NR 3 (1, 2, 3, 4, 5, 6)\n"] cs!"sys_enter:nr + 1" = .error (.load .keyError) ∧
    (match buildTrace 5 builtins (UserParams.full false) [cs!"a-1 [000] 1.0: sys_enter: NR 3 (1, 2, 3, 4, 5, 6)\n"] with
      | .object t => ((namedTables builtins t.tables).get cs!"sys_enter").map fun t => t.map fun r => r.2.get cs!"nr"
      | _ => none) = some [some (.int 3)] := by
  decide +kernel

/-- **C159**: the field by which the columns of the result are told apart, for each event; none for the others. -/
theorem C159_pivots (name p : Str) : classPivot name = some p ↔ (name, p) ∈ [(cs!"cpu_in_power", cs!"cpus"), (cs!"cpu_out_power", cs!"cpus"), (cs!"cpu_idle", cs!"cpu_id"), (cs!"pid_controller", cs!"thermal_zone_id"),
    (cs!"sys_enter", cs!"pid"), (cs!"sys_exit", cs!"pid"), (cs!"sched_load_avg_sg", cs!"cpus"), (cs!"sched_load_avg_task", cs!"pid"), (cs!"sched_load_avg_cpu", cs!"cpu"), (cs!"cpu_capacity", cs!"cpu"), (cs!"cpu_frequency", cs!"cpu"),
    (cs!"thermal", cs!"id"), (cs!"thermal_governor", cs!"thermal_zone_id")] := by
  constructor
  · intro h
    unfold classPivot at h
    repeat' split at h
    all_goals first | cases h | skip
    all_goals rename_i hn; try simp only [List.mem_cons, List.not_mem_nil, or_false] at hn
    · rcases hn with rfl | rfl | rfl <;> decide
    · subst hn; decide
    · rcases hn with rfl | rfl <;> decide
    · rcases hn with rfl | rfl | rfl <;> decide
    · rcases hn with rfl | rfl | rfl <;> decide
    · subst hn; decide
  · intro h
    simp only [List.mem_cons, Prod.mk.injEq, List.not_mem_nil, or_false] at h
    rcases h with ⟨rfl, rfl⟩ | ⟨rfl, rfl⟩ | ⟨rfl, rfl⟩ | ⟨rfl, rfl⟩ | ⟨rfl, rfl⟩ | ⟨rfl, rfl⟩ | ⟨rfl, rfl⟩ | ⟨rfl, rfl⟩ | ⟨rfl, rfl⟩ | ⟨rfl, rfl⟩ | ⟨rfl, rfl⟩ | ⟨rfl, rfl⟩ | ⟨rfl, rfl⟩ <;> decide

/-- C159: the pivots of two events of an expression -/
example : classPivot cs!"cpu_frequency" = some cs!"cpu" ∧ classPivot cs!"sched_switch" = none := by decide

end Trappy
