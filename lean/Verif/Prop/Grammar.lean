import Verif.Lemma.Grammar
/-!
# C63, C93: expressions
-/

namespace Trappy

/-- **Specification**: the documented precedence (grammar.py:259-275), strongest first -/
def precedence : GOp → Nat
  | .pow => 1
  | .mul => 3
  | .div => 3
  | .fdiv => 3
  | .mod => 3
  | .add => 4
  | .sub => 4
  | .gt => 5
  | .lt => 5
  | .ge => 5
  | .le => 5
  | .eq => 5
  | .ne => 5
  | .land => 6
  | .lor => 6
  | .band => 6
  | .bor => 6

/-- the precedence of the model is the documented one -/
theorem level_eq (o : GOp) : o.level = precedence o := by cases o <;> rfl

/-- **The documented grammar** (grammar.py:259-275), one production per rule: level 0 are numbers, variables, `event:column`, calls and
expressions in parentheses; 1 exponentiation; 2 unary operators; 3 multiplication and division; 4 addition and subtraction; 5 comparisons;
6 logical operators; binary operators associate to the left. Level 7 are lists of arguments. The last argument is the value: the one of the
operands with the operation applied. -/
inductive GDer {V : Type} (I : GInterp V) : Nat → List GTok → List V → Prop
  | num (t : Str) : GDer I 0 [.num t] [I.num t]
  | var (s : Str) : '.' ∉ s → GDer I 0 [.name s] [I.var s]
  | acc (e c : Str) : '.' ∉ c → GDer I 0 [.name e, .colon, .name c] [I.acc e c]
  | call (s : Str) (ts : List GTok) (vs : List V) : GDer I 7 ts vs → GDer I 0 (.name s :: .lpar :: (ts ++ [.rpar])) [I.call s vs]
  | paren (ts : List GTok) (v : V) : GDer I 6 ts [v] → GDer I 0 (.lpar :: (ts ++ [.rpar])) [v]
  | up (k : Nat) (ts : List GTok) (v : V) : k < 6 → GDer I k ts [v] → GDer I (k + 1) ts [v]
  | bin (o : GOp) (g : Bool) (l r : List GTok) (a b : V) : GDer I (precedence o) l [a] → GDer I (precedence o - 1) r [b] →
      GDer I (precedence o) (l ++ .op o g :: r) [I.bin o a b]
  | powSigned (g : Bool) (l : List GTok) (t : Str) (a : V) : GDer I 1 l [a] →
      GDer I 1 (l ++ [.op .pow g, .op .sub true, .num t]) [I.bin .pow a (I.signed true t)]
  | neg (g : Bool) (ts : List GTok) (v : V) : GDer I 2 ts [v] → GDer I 2 (.op .sub g :: ts) [I.neg v]
  | plus (g : Bool) (ts : List GTok) (v : V) : GDer I 2 ts [v] → GDer I 2 (.op .add g :: ts) [v]
  | arg (ts : List GTok) (v : V) : GDer I 6 ts [v] → GDer I 7 ts [v]
  | args (ts us : List GTok) (v : V) (vs : List V) : GDer I 6 ts [v] → GDer I 7 us vs → GDer I 7 (ts ++ .comma :: us) (v :: vs)

/-- parsed with enough fuel -/
def Parses {V : Type} (I : GInterp V) (k : Nat) (toks : List GTok) (res : V × List GTok) : Prop :=
  ∃ N, ∀ f, N ≤ f → gLev I f k toks = some res

/-- the loop over operators with enough fuel -/
def Chains {V : Type} (I : GInterp V) (k : Nat) (acc : V) (toks : List GTok) (res : V × List GTok) : Prop :=
  ∃ N, ∀ f, N ≤ f → gChain I f k acc toks = res

/-- what follows does not continue an expression of level `j` -/
def NoCont (j : Nat) : List GTok → Prop
  | .lpar :: _ => False
  | .colon :: _ => False
  | .op o _ :: _ => j < o.level
  | _ => True

theorem NoCont.mono {i j : Nat} {l : List GTok} (h : NoCont j l) (hij : i ≤ j) : NoCont i l := by
  cases l with
  | nil => trivial
  | cons t l =>
    cases t <;> try exact h
    exact Nat.lt_of_le_of_lt hij h

theorem chains_stop {V : Type} (I : GInterp V) (k : Nat) (acc : V) (toks : List GTok) (h : NoCont k toks) : Chains I k acc toks (acc, toks) := by
  refine ⟨1, ?_⟩
  intro f hf
  obtain ⟨f, rfl⟩ : ∃ g, f = g + 1 := ⟨f - 1, by omega⟩
  unfold gChain
  cases toks with
  | nil => rfl
  | cons t ts =>
    cases t <;> try rfl
    rename_i o g
    simp only
    rw [if_neg]
    have : k < o.level := h
    omega

theorem chains_step {V : Type} (I : GInterp V) (o : GOp) (g : Bool) (acc v : V) (r r' : List GTok) (res : V × List GTok)
    (h1 : Parses I (o.level - 1) r (v, r')) (h2 : Chains I o.level (I.bin o acc v) r' res) : Chains I o.level acc (.op o g :: r) res := by
  obtain ⟨N1, h1⟩ := h1
  obtain ⟨N2, h2⟩ := h2
  refine ⟨max N1 N2 + 1, ?_⟩
  intro f hf
  obtain ⟨f, rfl⟩ : ∃ g, f = g + 1 := ⟨f - 1, by omega⟩
  unfold gChain
  simp only [if_true]
  rw [h1 f (by omega)]
  exact h2 f (by omega)

theorem parses_chain {V : Type} (I : GInterp V) (k : Nat) (hk : k ≠ 0) (hk2 : k ≠ 2) (toks r : List GTok) (v : V) (res : V × List GTok)
    (h1 : Parses I (k - 1) toks (v, r)) (h2 : Chains I k v r res) : Parses I k toks res := by
  obtain ⟨N1, h1⟩ := h1
  obtain ⟨N2, h2⟩ := h2
  refine ⟨max N1 N2 + 1, ?_⟩
  intro f hf
  obtain ⟨f, rfl⟩ : ∃ g, f = g + 1 := ⟨f - 1, by omega⟩
  unfold gLev
  rw [if_neg hk, if_neg hk2, h1 f (by omega)]
  simp only
  rw [h2 f (by omega)]

theorem parses_atom {V : Type} (I : GInterp V) (toks : List GTok) (res : V × List GTok) (h : ∃ N, ∀ f, N ≤ f → gAtom I f toks = some res) :
    Parses I 0 toks res := by
  obtain ⟨N, h⟩ := h
  refine ⟨N + 1, ?_⟩
  intro f hf
  obtain ⟨f, rfl⟩ : ∃ g, f = g + 1 := ⟨f - 1, by omega⟩
  unfold gLev
  rw [if_pos rfl]
  exact h f (by omega)

/-- what may follow, and the result then -/
def Cont {V : Type} (I : GInterp V) (k : Nat) (v : V) (rest : List GTok) (res : V × List GTok) : Prop :=
  if k = 0 ∨ k = 2 then res = (v, rest) ∧ NoCont k rest else NoCont (k - 1) rest ∧ Chains I k v rest res

theorem cont_stop {V : Type} (I : GInterp V) (k : Nat) (v : V) (rest : List GTok) (h : NoCont k rest) : Cont I k v rest (v, rest) := by
  unfold Cont
  split
  · exact ⟨rfl, h⟩
  · exact ⟨h.mono (by omega), chains_stop I k v rest h⟩

/-- the parser reads `ts` as an expression of level `k` -/
def Good {V : Type} (I : GInterp V) (k : Nat) (ts : List GTok) (v : V) : Prop :=
  ∀ rest res, Cont I k v rest res → Parses I k (ts ++ rest) res

/-- the parser reads `ts` as arguments -/
def GoodArgs {V : Type} (I : GInterp V) (ts : List GTok) (vs : List V) : Prop :=
  ∀ rest, ∃ N, ∀ f, N ≤ f → gArgs I f (ts ++ .rpar :: rest) = some (vs, .rpar :: rest)

theorem cutName_nodot (s : Str) (h : '.' ∉ s) : cutName s = (s, false) := by
  induction s with
  | nil => rfl
  | cons c cs ih =>
    simp only [List.mem_cons, not_or] at h
    unfold cutName
    rw [if_neg (fun e => h.1 e.symm), ih h.2]

theorem identTok_nodot (s : Str) (rest : List GTok) (h : '.' ∉ s) : identTok s rest = (s, rest) := by
  simp [identTok, cutName_nodot s h]

/-- an expression of level 0 or 1 does not begin with an operator -/
theorem der_head {V : Type} (I : GInterp V) (k : Nat) (ts : List GTok) (vs : List V) (h : GDer I k ts vs) :
    k ≤ 1 → ∃ t ts', ts = t :: ts' ∧ ∀ o g, t ≠ .op o g := by
  induction h with
  | num t => intro _; exact ⟨_, _, rfl, by simp⟩
  | var s _ => intro _; exact ⟨_, _, rfl, by simp⟩
  | acc e c _ => intro _; exact ⟨_, _, rfl, by simp⟩
  | call s ts vs _ _ => intro _; exact ⟨_, _, rfl, by simp⟩
  | paren ts v _ _ => intro _; exact ⟨_, _, rfl, by simp⟩
  | up k ts v _ _ ih => intro hk; exact ih (by omega)
  | bin o g l r a b _ _ ih1 _ =>
    intro hk
    obtain ⟨t, ts', rfl, h⟩ := ih1 hk
    exact ⟨t, _, rfl, h⟩
  | powSigned g l t a _ ih =>
    intro hk
    obtain ⟨t, ts', rfl, h⟩ := ih hk
    exact ⟨t, _, rfl, h⟩
  | neg g ts v _ _ => intro hk; omega
  | plus g ts v _ _ => intro hk; omega
  | arg ts v _ _ => intro hk; omega
  | args ts us v vs _ _ _ _ => intro hk; omega

theorem good_up {V : Type} (I : GInterp V) (k : Nat) (ts : List GTok) (v : V) (hk : k < 6) (hd : GDer I k ts [v]) (h : Good I k ts v) :
    Good I (k + 1) ts v := by
  intro rest res hc
  by_cases h2 : k + 1 = 2
  · have hk1 : k = 1 := by omega
    subst hk1
    unfold Cont at hc
    rw [if_pos (by omega)] at hc
    obtain ⟨rfl, hn⟩ := hc
    obtain ⟨N, hN⟩ := h rest (v, rest) (cont_stop I 1 v rest (hn.mono (by omega)))
    obtain ⟨t, ts', rfl, ht⟩ := der_head I 1 ts [v] hd (by omega)
    refine ⟨N + 1, ?_⟩
    intro f hf
    obtain ⟨f, rfl⟩ : ∃ g, f = g + 1 := ⟨f - 1, by omega⟩
    unfold gLev
    rw [if_neg (by omega), if_pos rfl]
    have := hN f (by omega)
    simp only [List.cons_append] at this ⊢
    cases t with
    | op o g => exact absurd rfl (ht o g)
    | num _ => exact this
    | name _ => exact this
    | lpar => exact this
    | rpar => exact this
    | colon => exact this
    | comma => exact this
    | bad _ => exact this
  · unfold Cont at hc
    rw [if_neg (by omega)] at hc
    simp only [Nat.add_sub_cancel] at hc
    obtain ⟨hn, hch⟩ := hc
    refine parses_chain I (k + 1) (by omega) h2 (ts ++ rest) rest v res ?_ hch
    exact h rest (v, rest) (cont_stop I k v rest hn)

theorem level_chain (o : GOp) : o.level ≠ 0 ∧ o.level ≠ 2 := by cases o <;> decide

theorem good_bin {V : Type} (I : GInterp V) (o : GOp) (g : Bool) (l r : List GTok) (a b : V) (h1 : Good I o.level l a)
    (h2 : ∀ rest, NoCont (o.level - 1) rest → Parses I (o.level - 1) (r ++ rest) (b, rest)) :
    Good I o.level (l ++ .op o g :: r) (I.bin o a b) := by
  intro rest res hc
  obtain ⟨l0, l2⟩ := level_chain o
  unfold Cont at hc
  rw [if_neg (by omega)] at hc
  obtain ⟨hn, hch⟩ := hc
  rw [List.append_assoc]
  apply h1
  unfold Cont
  rw [if_neg (by omega)]
  refine ⟨?_, ?_⟩
  · show o.level - 1 < o.level
    omega
  · exact chains_step I o g a b (r ++ rest) rest res (h2 rest hn) hch

theorem good_all {V : Type} (I : GInterp V) (k : Nat) (ts : List GTok) (vs : List V) (h : GDer I k ts vs) :
    (k ≤ 6 → ∃ v, vs = [v] ∧ Good I k ts v) ∧ (k = 7 → GoodArgs I ts vs) := by
  have atomGood : ∀ (ts : List GTok) (v : V), (∀ rest, NoCont 0 rest → ∃ N, ∀ f, N ≤ f → gAtom I f (ts ++ rest) = some (v, rest)) → Good I 0 ts v := by
    intro ts v h rest res hc
    unfold Cont at hc
    rw [if_pos (by omega)] at hc
    obtain ⟨rfl, hn⟩ := hc
    exact parses_atom I _ _ (h rest hn)
  induction h with
  | num t =>
    refine ⟨fun _ => ⟨_, rfl, atomGood _ _ ?_⟩, by omega⟩
    intro rest _
    refine ⟨1, fun f hf => ?_⟩
    obtain ⟨f, rfl⟩ : ∃ g, f = g + 1 := ⟨f - 1, by omega⟩
    simp [gAtom]
  | var s hs =>
    refine ⟨fun _ => ⟨_, rfl, atomGood _ _ ?_⟩, by omega⟩
    intro rest hn
    refine ⟨1, fun f hf => ?_⟩
    obtain ⟨f, rfl⟩ : ∃ g, f = g + 1 := ⟨f - 1, by omega⟩
    cases rest with
    | nil => simp [gAtom, identTok_nodot s _ hs]
    | cons t rest =>
      cases t with
      | lpar => exact absurd hn (by simp [NoCont])
      | colon => exact absurd hn (by simp [NoCont])
      | op o g => simp [gAtom, identTok_nodot s _ hs]
      | num _ => simp [gAtom, identTok_nodot s _ hs]
      | name _ => simp [gAtom, identTok_nodot s _ hs]
      | rpar => simp [gAtom, identTok_nodot s _ hs]
      | comma => simp [gAtom, identTok_nodot s _ hs]
      | bad _ => simp [gAtom, identTok_nodot s _ hs]
  | acc e c hc =>
    refine ⟨fun _ => ⟨_, rfl, atomGood _ _ ?_⟩, by omega⟩
    intro rest hn
    refine ⟨1, fun f hf => ?_⟩
    obtain ⟨f, rfl⟩ : ∃ g, f = g + 1 := ⟨f - 1, by omega⟩
    simp [gAtom, identTok_nodot c _ hc]
  | call s ts vs _ ih =>
    refine ⟨fun _ => ⟨_, rfl, atomGood _ _ ?_⟩, by omega⟩
    intro rest _
    obtain ⟨N, hN⟩ := ih.2 rfl rest
    refine ⟨N + 1, fun f hf => ?_⟩
    obtain ⟨f, rfl⟩ : ∃ g, f = g + 1 := ⟨f - 1, by omega⟩
    simp [gAtom, hN f (by omega)]
  | paren ts v _ ih =>
    obtain ⟨w, hw, hg⟩ := ih.1 (by omega)
    simp only [List.cons.injEq, and_true] at hw
    subst hw
    refine ⟨fun _ => ⟨_, rfl, atomGood _ _ ?_⟩, by omega⟩
    intro rest _
    obtain ⟨N, hN⟩ := hg (.rpar :: rest) (v, .rpar :: rest) (cont_stop I 6 v _ trivial)
    refine ⟨N + 1, fun f hf => ?_⟩
    obtain ⟨f, rfl⟩ : ∃ g, f = g + 1 := ⟨f - 1, by omega⟩
    simp [gAtom, hN f (by omega)]
  | up k ts v hk hd ih =>
    obtain ⟨w, hw, hg⟩ := ih.1 (by omega)
    simp only [List.cons.injEq, and_true] at hw
    subst hw
    exact ⟨fun _ => ⟨_, rfl, good_up I k ts v hk hd hg⟩, by omega⟩
  | bin o g l r a b _ _ ih1 ih2 =>
    have hl := level_le o
    rw [← level_eq] at ih1 ih2 ⊢
    obtain ⟨w, hw, hg1⟩ := ih1.1 hl
    simp only [List.cons.injEq, and_true] at hw
    subst hw
    obtain ⟨w, hw, hg2⟩ := ih2.1 (by omega)
    simp only [List.cons.injEq, and_true] at hw
    subst hw
    refine ⟨fun _ => ⟨_, rfl, good_bin I o g l r a b hg1 ?_⟩, by omega⟩
    intro rest hn
    exact hg2 rest (b, rest) (cont_stop I _ b rest hn)
  | powSigned g l t a _ ih =>
    obtain ⟨w, hw, hg1⟩ := ih.1 (by omega)
    simp only [List.cons.injEq, and_true] at hw
    subst hw
    refine ⟨fun _ => ⟨_, rfl, good_bin I .pow g l [.op .sub true, .num t] a _ hg1 ?_⟩, by omega⟩
    intro rest _
    refine parses_atom I _ _ ⟨1, fun f hf => ?_⟩
    obtain ⟨f, rfl⟩ : ∃ g, f = g + 1 := ⟨f - 1, by omega⟩
    simp [gAtom]
  | neg g ts v _ ih =>
    obtain ⟨w, hw, hg⟩ := ih.1 (by omega)
    simp only [List.cons.injEq, and_true] at hw
    subst hw
    refine ⟨fun _ => ⟨_, rfl, ?_⟩, by omega⟩
    intro rest res hc
    unfold Cont at hc
    rw [if_pos (by omega)] at hc
    obtain ⟨rfl, hn⟩ := hc
    obtain ⟨N, hN⟩ := hg rest (v, rest) (cont_stop I 2 v rest hn)
    refine ⟨N + 1, fun f hf => ?_⟩
    obtain ⟨f, rfl⟩ : ∃ g, f = g + 1 := ⟨f - 1, by omega⟩
    simp [gLev, hN f (by omega)]
  | plus g ts v _ ih =>
    obtain ⟨w, hw, hg⟩ := ih.1 (by omega)
    simp only [List.cons.injEq, and_true] at hw
    subst hw
    refine ⟨fun _ => ⟨_, rfl, ?_⟩, by omega⟩
    intro rest res hc
    unfold Cont at hc
    rw [if_pos (by omega)] at hc
    obtain ⟨rfl, hn⟩ := hc
    obtain ⟨N, hN⟩ := hg rest (v, rest) (cont_stop I 2 v rest hn)
    refine ⟨N + 1, fun f hf => ?_⟩
    obtain ⟨f, rfl⟩ : ∃ g, f = g + 1 := ⟨f - 1, by omega⟩
    simp [gLev, hN f (by omega)]
  | arg ts v _ ih =>
    obtain ⟨w, hw, hg⟩ := ih.1 (by omega)
    simp only [List.cons.injEq, and_true] at hw
    subst hw
    refine ⟨by omega, fun _ rest => ?_⟩
    obtain ⟨N, hN⟩ := hg (.rpar :: rest) (v, .rpar :: rest) (cont_stop I 6 v _ trivial)
    refine ⟨N + 1, fun f hf => ?_⟩
    obtain ⟨f, rfl⟩ : ∃ g, f = g + 1 := ⟨f - 1, by omega⟩
    simp [gArgs, hN f (by omega)]
  | args ts us v vs _ _ ih1 ih2 =>
    obtain ⟨w, hw, hg⟩ := ih1.1 (by omega)
    simp only [List.cons.injEq, and_true] at hw
    subst hw
    refine ⟨by omega, fun _ rest => ?_⟩
    obtain ⟨N2, hN2⟩ := ih2.2 rfl rest
    obtain ⟨N, hN⟩ := hg (.comma :: (us ++ .rpar :: rest)) (v, .comma :: (us ++ .rpar :: rest)) (cont_stop I 6 v _ trivial)
    refine ⟨max N N2 + 1, fun f hf => ?_⟩
    obtain ⟨f, rfl⟩ : ∃ g, f = g + 1 := ⟨f - 1, by omega⟩
    simp [gArgs, hN f (by omega), hN2 f (by omega)]

/-- **C63.** Every expression of the documented grammar, over all operators, parentheses, calls and accessors, evaluates to its value by the documented
precedence and association, whatever the operations compute; and all of it is read. -/
theorem C63_precedence {V : Type} (I : GInterp V) (toks : List GTok) (v : V) (h : GDer I 6 toks [v]) : gSolve I toks = some v := by
  obtain ⟨w, hw, hg⟩ := (good_all I 6 toks [v] h).1 (Nat.le_refl _)
  simp only [List.cons.injEq, and_true] at hw
  subst hw
  obtain ⟨N, hN⟩ := hg [] (v, []) (cont_stop I 6 v [] trivial)
  rw [List.append_nil] at hN
  unfold gSolve
  rw [← gLev_fuel I toks (max N (20 * toks.length + 10)) (by omega), hN _ (by omega)]
  rfl

/-- **C63.** The bound on the recursion plays no part: any larger one gives the same result, for all tokens. -/
theorem C63_fuel {V : Type} (I : GInterp V) (toks : List GTok) (f : Nat) (hf : 20 * toks.length + 10 ≤ f) :
    gSolve I toks = (gLev I f 6 toks).map Prod.fst := by
  unfold gSolve
  rw [gLev_fuel I toks f hf]

/-- **C63.** No expression has two values: the documented grammar is unambiguous. -/
theorem C63_unambiguous {V : Type} (I : GInterp V) (toks : List GTok) (v w : V) (hv : GDer I 6 toks [v]) (hw : GDer I 6 toks [w]) : v = w := by
  have h1 := C63_precedence I toks v hv
  have h2 := C63_precedence I toks w hw
  rw [h1] at h2
  exact Option.some.inj h2

/-! ### Text -/

/-- how an operator is written -/
def GOp.text : GOp → Str
  | .pow => cs!"**" | .mul => cs!"*" | .div => cs!"/" | .fdiv => cs!"//" | .mod => cs!"%" | .add => cs!"+" | .sub => cs!"-"
  | .gt => cs!">" | .lt => cs!"<" | .ge => cs!">=" | .le => cs!"<=" | .eq => cs!"==" | .ne => cs!"!="
  | .land => cs!"&&" | .lor => cs!"||" | .band => cs!"&" | .bor => cs!"|"

/-- how a token is written -/
def GTok.text : GTok → Str
  | .num t => t
  | .name s => s
  | .op o _ => o.text
  | .lpar => cs!"("
  | .rpar => cs!")"
  | .colon => cs!":"
  | .comma => cs!","
  | .bad c => [c]

/-- tokens of plain expressions: numbers are digits, with or without a fraction; names are identifiers, or several joined by dots -/
def GTok.Plain : GTok → Prop
  | .num t => t ≠ [] ∧ ((∀ c ∈ t, Py.isDigit c = true) ∨ ∃ a b, t = a ++ '.' :: b ∧ a ≠ [] ∧ (∀ c ∈ a, Py.isDigit c = true) ∧ ∀ c ∈ b, Py.isDigit c = true)
  | .name s => (∃ c cs, s = c :: cs ∧ isIdStart c = true) ∧ ∀ pre c post, s = pre ++ c :: post → isIdChar c = true ∨ (c = '.' ∧ ∃ d post', post = d :: post' ∧ isIdStart d = true)
  | .op _ g => g = false
  | .bad _ => False
  | _ => True

/-- a text: every token followed by some blanks, at least one -/
def spaced : List (GTok × Nat) → Str
  | [] => []
  | (t, n) :: ts => t.text ++ ' ' :: (List.replicate n ' ' ++ spaced ts)

theorem takeDigits_stop (ds : Str) (c : Char) (rest : Str) (hd : ∀ x ∈ ds, Py.isDigit x = true) (hc : Py.isDigit c = false) :
    takeDigits (ds ++ c :: rest) = (ds, c :: rest) := by
  induction ds with
  | nil => simp [takeDigits, hc]
  | cons d ds ih =>
    simp only [List.cons_append, takeDigits, hd d (by simp), if_true, ih (fun x hx => hd x (by simp [hx]))]

theorem takeName_stop (s rest : Str)
    (h : ∀ pre c post, s = pre ++ c :: post → isIdChar c = true ∨ (c = '.' ∧ ∃ d post', post = d :: post' ∧ isIdStart d = true)) :
    takeName (s ++ ' ' :: rest) = (s, ' ' :: rest) := by
  induction s with
  | nil =>
    cases rest with
    | nil => rfl
    | cons d rest =>
      simp only [List.nil_append, takeName]
      have h1 : isIdChar ' ' = false := by decide
      simp [h1]
  | cons c s ih =>
    have ih := ih (fun pre x post e => h (c :: pre) x post (by rw [e]; rfl))
    have h0 := h [] c s rfl
    cases s with
    | nil =>
      simp only [List.nil_append, List.cons_append] at ih ⊢
      rw [takeName, ih]
      rw [if_pos]
      rcases h0 with h0 | ⟨_, d, post, e, _⟩
      · simp [h0]
      · simp at e
    | cons d s =>
      simp only [List.cons_append] at ih ⊢
      rw [takeName, ih, if_pos]
      rcases h0 with h0 | ⟨h1, d', post, e, h2⟩
      · simp [h0]
      · simp only [List.cons.injEq] at e
        rw [← e.1] at h2
        simp [h1, h2]

theorem isDigit_not_idStart (c : Char) (h : Py.isDigit c = true) : isIdStart c = false := by
  unfold Py.isDigit at h
  unfold isIdStart Py.isLower Py.isUpper
  simp only [Bool.and_eq_true, decide_eq_true_eq, Bool.or_eq_false_iff, Bool.and_eq_false_iff, decide_eq_false_iff_not, beq_eq_false_iff_ne] at h ⊢
  obtain ⟨h1, h2⟩ := h
  refine ⟨⟨Or.inl ?_, Or.inl ?_⟩, ?_⟩
  · omega
  · omega
  · rintro rfl; exact absurd h2 (by decide)

theorem gNext_plain (t : GTok) (h : t.Plain) (rest : Str) : gNext (t.text ++ ' ' :: rest) = some (t, ' ' :: rest) := by
  cases t with
  | num t =>
    obtain ⟨hne, h⟩ := h
    cases t with
    | nil => exact absurd rfl hne
    | cons c cs =>
      have hc : Py.isDigit c = true := by
        rcases h with h | ⟨a, b, e, ha, h1, _⟩
        · exact h c (by simp)
        · cases a with
          | nil => exact absurd rfl ha
          | cons a0 a =>
            simp only [List.cons_append, List.cons.injEq] at e
            rw [e.1]; exact h1 a0 (by simp)
      simp only [GTok.text, List.cons_append, gNext]
      rw [if_neg (by simp [isDigit_not_idStart c hc]), if_pos hc]
      have e1 : takeNum (c :: (cs ++ ' ' :: rest)) = (c :: cs, ' ' :: rest) := by
        rw [← List.cons_append]
        rcases h with h | ⟨a, b, e, ha, h1, h2⟩
        · unfold takeNum
          rw [takeDigits_stop (c :: cs) ' ' rest h (by decide)]
          split
          · rename_i e; simp at e
          · rfl
        · rw [e]
          unfold takeNum
          rw [List.append_assoc, List.cons_append, takeDigits_stop a '.' _ h1 (by decide)]
          simp only
          rw [takeDigits_stop b ' ' rest h2 (by decide)]
          have : takeExp (' ' :: rest) = ([], ' ' :: rest) := by
            cases rest with
            | nil => rfl
            | cons d rest => simp [takeExp]
          simp only [this]
          simp
      rw [e1]
  | name s =>
    obtain ⟨⟨c, cs, rfl, hc⟩, h⟩ := h
    simp only [GTok.text, List.cons_append, gNext]
    rw [if_pos hc, ← List.cons_append, takeName_stop (c :: cs) rest h]
  | op o g =>
    have hg : g = false := h
    subst hg
    cases o <;> rfl
  | lpar => rfl
  | rpar => rfl
  | colon => rfl
  | comma => rfl
  | bad c => exact absurd h (by simp [GTok.Plain])

theorem gSkip_blank (n : Nat) (s : Str) : gSkip (List.replicate n ' ' ++ s) = gSkip s := by
  induction n with
  | zero => rfl
  | succ n ih =>
    rw [List.replicate_succ, List.cons_append, gSkip, if_pos (Or.inl rfl), ih]

theorem gSkip_start (t : GTok) (h : t.Plain) (rest : Str) : gSkip (t.text ++ ' ' :: rest) = t.text ++ ' ' :: rest := by
  have key : ∀ c cs, (isIdStart c = true ∨ Py.isDigit c = true) → gSkip (c :: cs) = c :: cs := by
    intro c cs hc
    unfold gSkip
    rw [if_neg]
    rintro (rfl | rfl | rfl | rfl) <;> revert hc <;> decide
  cases t with
  | num t =>
    obtain ⟨hne, h⟩ := h
    cases t with
    | nil => exact absurd rfl hne
    | cons c cs =>
      apply key
      right
      rcases h with h | ⟨a, b, e, ha, h1, _⟩
      · exact h c (by simp)
      · cases a with
        | nil => exact absurd rfl ha
        | cons a0 a =>
          simp only [List.cons_append, List.cons.injEq] at e
          rw [e.1]; exact h1 a0 (by simp)
  | name s =>
    obtain ⟨⟨c, cs, rfl, hc⟩, h⟩ := h
    exact key c _ (Or.inl hc)
  | op o g => cases o <;> rfl
  | lpar => rfl
  | rpar => rfl
  | colon => rfl
  | comma => rfl
  | bad c => exact absurd h (by simp [GTok.Plain])

theorem gLexLoop_spaced (ts : List (GTok × Nat)) (h : ∀ t ∈ ts, t.1.Plain) (n f : Nat) (hf : ts.length < f) :
    gLexLoop f (List.replicate n ' ' ++ spaced ts) = ts.map Prod.fst := by
  induction ts generalizing n f with
  | nil =>
    obtain ⟨f, rfl⟩ : ∃ g, f = g + 1 := ⟨f - 1, by omega⟩
    unfold gLexLoop
    rw [gSkip_blank]
    rfl
  | cons t ts ih =>
    obtain ⟨t, m⟩ := t
    obtain ⟨f, rfl⟩ : ∃ g, f = g + 1 := ⟨f - 1, by omega⟩
    unfold gLexLoop
    have ht := h (t, m) (by simp)
    rw [gSkip_blank, spaced, gSkip_start t ht, gNext_plain t ht]
    simp only [List.map_cons, List.cons.injEq, true_and]
    rw [← List.cons_append, ← List.replicate_succ]
    simp only [List.length_cons] at hf
    exact ih (fun x hx => h x (by simp [hx])) (m + 1) f (by omega)

theorem spaced_length (ts : List (GTok × Nat)) : ts.length ≤ (spaced ts).length := by
  induction ts with
  | nil => simp
  | cons t ts ih => obtain ⟨t, n⟩ := t; simp only [spaced, List.length_cons, List.length_append, List.length_replicate]; omega

/-- **C63.** So the text of an expression, with any number of blanks before and after each token, evaluates to its value. -/
theorem C63_text {V : Type} (I : GInterp V) (n : Nat) (ts : List (GTok × Nat)) (hp : ∀ t ∈ ts, t.1.Plain) (v : V)
    (h : GDer I 6 (ts.map Prod.fst) [v]) : gSolveText I (List.replicate n ' ' ++ spaced ts) = some v := by
  unfold gSolveText gLex
  rw [gLexLoop_spaced ts hp n _ (by have := spaced_length ts; simp only [List.length_append, List.length_replicate]; omega)]
  exact C63_precedence I _ v h

/-- arithmetic on integers, for examples; text of numbers is read as decimal -/
def intInterp : GInterp Int where
  num t := (t.foldl (fun n c => 10 * n + (c.toNat - 48)) 0 : Nat)
  signed b t := let n : Int := (t.foldl (fun n c => 10 * n + (c.toNat - 48)) 0 : Nat); if b then -n else n
  var _ := 7
  acc _ _ := 100
  call _ vs := vs.foldl (fun a b => a + b) 0
  callNone _ := -999
  bin o a b := match o with
    | .pow => a ^ b.toNat | .mul => a * b | .div => a / b | .fdiv => a / b | .mod => a % b | .add => a + b | .sub => a - b
    | .gt => if a > b then 1 else 0 | .lt => if a < b then 1 else 0 | .ge => if a ≥ b then 1 else 0 | .le => if a ≤ b then 1 else 0
    | .eq => if a = b then 1 else 0 | .ne => if a ≠ b then 1 else 0
    | .land => if a = 0 then a else b | .lor => if a = 0 then b else a | .band => if a = 1 ∧ b = 1 then 1 else 0 | .bor => if a = 1 ∨ b = 1 then 1 else 0
  neg a := -1 * a

/-- `1 - 2 - 3 * 2 ** 2 ** 3` is `(1 - 2) - (3 * ((2 ** 2) ** 3))`; a unary minus binds less than `**` -/
example : gSolveText intInterp cs!"1 - 2 - 3 * 2 ** 2 ** 3" = some (-193) ∧ gSolveText intInterp cs!"-2 ** 2" = some (-4) ∧
    gSolveText intInterp cs!"(1+2)*x > sched:cpu || 5>=5 && f(1, 2*3)" = some 7 := by
  refine ⟨?_, ?_, ?_⟩ <;> decide +kernel

/-- the tokens of an example are plain, and its text is as expected -/
example : spaced [(.num cs!"2", 0), (.op .mul false, 0), (.name cs!"a.b1", 1), (.colon, 0), (.name cs!"c", 0)] = cs!"2 * a.b1  : c " ∧
    GTok.Plain (.num cs!"2.50") ∧ GTok.Plain (.name cs!"a.b1") := by
  refine ⟨by decide, ⟨by decide, Or.inr ⟨cs!"2", cs!"50", rfl, by decide, by decide, by decide⟩⟩, ⟨'a', cs!".b1", rfl, by decide⟩, ?_⟩
  intro pre c post e
  match pre, e with
  | [], e => simp only [List.nil_append, List.cons.injEq] at e; left; rw [← e.1]; decide
  | [_], e => simp at e; right; refine ⟨e.2.1.symm, 'b', cs!"1", e.2.2.symm, by decide⟩
  | [_, _], e => simp at e; left; rw [← e.2.2.1]; decide
  | [_, _, _], e => simp at e; left; rw [← e.2.2.2.1]; decide
  | _ :: _ :: _ :: _ :: _, e => simp at e

/-- the hypothesis of `C63_precedence` is met -/
example : GDer intInterp 6 [.num cs!"1", .op .sub false, .num cs!"2", .op .sub false, .num cs!"3", .op .mul false, .op .sub false, .name cs!"x"]
    [(1 - 2) - 3 * (-1 * 7)] := by
  have n1 : ∀ t, GDer intInterp 3 [.num t] [intInterp.num t] := fun t =>
    .up 2 _ _ (by omega) (.up 1 _ _ (by omega) (.up 0 _ _ (by omega) (.num t)))
  have a1 : GDer intInterp 4 [.num cs!"1", .op .sub false, .num cs!"2"] [1 - 2] :=
    .bin .sub false [.num cs!"1"] [.num cs!"2"] 1 2 (.up 3 _ _ (by omega) (n1 _)) (n1 _)
  have a2 : GDer intInterp 3 [.num cs!"3", .op .mul false, .op .sub false, .name cs!"x"] [3 * (-1 * 7)] :=
    .bin .mul false [.num cs!"3"] [.op .sub false, .name cs!"x"] 3 (-1 * 7) (n1 _)
      (.neg false [.name cs!"x"] 7 (.up 1 _ _ (by omega) (.up 0 _ _ (by omega) (.var _ (by decide)))))
  exact .up 5 _ _ (by omega) (.up 4 _ _ (by omega) (.bin .sub false [.num cs!"1", .op .sub false, .num cs!"2"] _ (1 - 2) _ a1 a2))

/-! ## C93 -/

/-- **C93, refuted**: text that is no expression is not rejected; the longest beginning that is one is evaluated and the rest ignored. A call without
arguments does not call the function. -/
theorem C93_trailing_refuted :
    gSolveText intInterp cs!"2 ** -x" = some 2 ∧ gSolveText intInterp cs!"1 +" = some 1 ∧ gSolveText intInterp cs!"3e5 * 2" = some 3 ∧
    gSolveText intInterp cs!"1 = 2" = some 1 ∧ gSolveText intInterp cs!"(1 + 2" = none ∧ gSolveText intInterp cs!"f()" = some (-999) := by
  refine ⟨?_, ?_, ?_, ?_, ?_, ?_⟩ <;> decide +kernel

/-- **C93, refuted for all endings**: whatever follows an expression is ignored, if it does not begin with an operator, an opening parenthesis or a
colon. -/
theorem C93_ignored_refuted {V : Type} (I : GInterp V) (toks : List GTok) (v : V) (h : GDer I 6 toks [v]) (rest : List GTok)
    (hr : ∀ t, rest.head? = some t → t ≠ .lpar ∧ t ≠ .colon ∧ ∀ o g, t ≠ .op o g) : gSolve I (toks ++ rest) = some v := by
  have hn : NoCont 6 rest := by
    cases rest with
    | nil => trivial
    | cons t rest =>
      obtain ⟨h1, h2, h3⟩ := hr t rfl
      cases t with
      | lpar => exact absurd rfl h1
      | colon => exact absurd rfl h2
      | op o g => exact absurd rfl (h3 o g)
      | num _ => trivial
      | name _ => trivial
      | rpar => trivial
      | comma => trivial
      | bad _ => trivial
  obtain ⟨w, hw, hg⟩ := (good_all I 6 toks [v] h).1 (Nat.le_refl _)
  simp only [List.cons.injEq, and_true] at hw
  subst hw
  obtain ⟨N, hN⟩ := hg rest (v, rest) (cont_stop I 6 v rest hn)
  unfold gSolve
  rw [← gLev_fuel I (toks ++ rest) (max N (20 * (toks ++ rest).length + 10)) (by omega), hN _ (by omega)]
  rfl

/-- **C93, partial**: text that does not begin with an operand or a sign is rejected. -/
theorem C93_no_operand_partial {V : Type} (I : GInterp V) (t : GTok) (toks : List GTok)
    (ht : t = .rpar ∨ t = .colon ∨ t = .comma ∨ (∃ c, t = .bad c) ∨ ∃ o g, t = .op o g ∧ o ≠ .add ∧ o ≠ .sub) :
    gSolve I (t :: toks) = none ∧ gSolve I [] = none := by
  have hatom : ∀ f, gAtom I f (t :: toks) = none := by
    intro f
    cases f with
    | zero => simp [gAtom]
    | succ f =>
      rcases ht with rfl | rfl | rfl | ⟨c, rfl⟩ | ⟨o, g, rfl, h1, h2⟩
      · simp [gAtom]
      · simp [gAtom]
      · simp [gAtom]
      · simp [gAtom]
      · cases o <;> simp_all [gAtom]
  have hlev : ∀ f k, k ≤ 6 → gLev I f k (t :: toks) = none := by
    intro f
    induction f with
    | zero => intro k _; simp [gLev]
    | succ f ih =>
      intro k hk
      unfold gLev
      split
      · exact hatom f
      · split
        · rcases ht with rfl | rfl | rfl | ⟨c, rfl⟩ | ⟨o, g, rfl, h1, h2⟩
          · exact ih 1 (by omega)
          · exact ih 1 (by omega)
          · exact ih 1 (by omega)
          · exact ih 1 (by omega)
          · cases o <;> first | exact ih 1 (by omega) | exact absurd rfl h1 | exact absurd rfl h2
        · rw [ih (k - 1) (by omega)]
  refine ⟨?_, ?_⟩
  · unfold gSolve; rw [hlev _ 6 (by omega)]; rfl
  · simp [gSolve, gLev, gAtom]

example : gSolveText intInterp cs!"* 2" = none ∧ gSolveText intInterp cs!".5" = none ∧ gSolveText intInterp cs!"" = none := by
  refine ⟨?_, ?_, ?_⟩ <;> decide +kernel

end Trappy
