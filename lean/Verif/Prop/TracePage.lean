import Verif.Model.TracePage
import Verif.Prop.PlotTrace
import Verif.Prop.IPage
import Verif.Prop.Populate
import Verif.Prop.EventPlot
import Verif.Lemma.CacheEnv
import Verif.Prop.Merge
/-!
# C164: the page of `plot_trace`, from the file to what the browser draws
-/

namespace Trappy
open F64 Py

/-! ## Specification -/

/-- **Specification**: the text beside a lane -/
def LaneLabel.text : LaneLabel → Str
  | .given v => v.text
  | .numbered pre k => pre ++ natStr k

/-- **Specification**: numbers are printed so that the browser reads the same number; `Q` are the numbers that are printed as floats -/
structure ReadsBack (ft : Rat → Str) (num : Str → Option Rat) (Q : Rat → Prop) : Prop where
  text : ∀ q, Q q → NumberText (ft q)
  float : ∀ q, Q q → num (ft q) = some q
  nat : ∀ n : Nat, num (natStr n) = some (n : Rat)

/-- **Specification**: data of a plot that a page can show: no name twice and none `__proto__`; the lanes of a name are numbers, none twice; labels are texts -/
structure ShowablePlot (Q : Rat → Prop) (P : TracePlot) : Prop where
  names : (P.items.map Prod.fst).Nodup
  proto : cs!"__proto__" ∉ P.items.map Prod.fst
  lanes : ∀ x ∈ P.items, (x.2.map Prod.fst).Nodup ∧ ∀ l ∈ x.2, ∃ n : Nat, l.1 = .int n
  labels : ∀ l ∈ P.lanes, ∀ i, l ≠ .given (.int i)
  domain : Q P.domain.1 ∧ Q P.domain.2
  times : ∀ x ∈ P.items, ∀ l ∈ x.2, ∀ d ∈ l.2, Q d.1 ∧ Q d.2

/-- **Specification**: none of the strings on the page ends its script -/
structure NoEndTag (P : TracePlot) : Prop where
  labels : ∀ l ∈ P.lanes, ¬ EndsScript l.text
  keys : ∀ k ∈ P.keys, ¬ EndsScript k
  names : ∀ x ∈ P.items, ¬ EndsScript x.1

/-! ## The script is found -/

theorem splitScript_cons {c : Char} {s : Str} (h : ¬ cs!"<script>" <+: c :: s) : splitScript (c :: s) = (splitScript s).map fun p => (c :: p.1, p.2) := by
  rw [splitScript, if_neg h]
  cases splitScript s <;> rfl

theorem splitScript_plain {a : Str} (h : '<' ∉ a) (s : Str) : splitScript (a ++ s) = (splitScript s).map fun p => (a ++ p.1, p.2) := by
  induction a with
  | nil => rw [List.nil_append]; cases splitScript s <;> rfl
  | cons c a ih =>
    simp only [List.mem_cons, not_or] at h
    rw [List.cons_append, splitScript_cons (by rw [List.cons_prefix_cons]; exact fun e => h.1 e.1), ih h.2]
    cases splitScript s <;> rfl

/-- a text with tags other than `<script>` -/
theorem splitScript_skip {a : Str} (h : ∀ t, t <:+ a → t ≠ [] → ∀ s, ¬ cs!"<script>" <+: t ++ s) (s : Str) :
    splitScript (a ++ s) = (splitScript s).map fun p => (a ++ p.1, p.2) := by
  induction a with
  | nil => rw [List.nil_append]; cases splitScript s <;> rfl
  | cons c a ih =>
    have h0 := h (c :: a) (List.suffix_refl _) (by simp) s
    rw [List.cons_append] at h0 ⊢
    rw [splitScript_cons h0, ih fun t ht => h t (ht.trans (List.suffix_cons c a))]
    cases splitScript s <;> rfl

theorem splitScript_tag (s : Str) : splitScript (cs!"<script>" ++ s) = some ([], s) := by
  rw [List.cons_append, splitScript, if_pos ⟨s, rfl⟩]
  rfl

/-- no start of the tag at the end of any part of the text -/
def noScriptTag (a : Str) : Bool := a.tails.all fun t => t.isEmpty || !(t.isPrefixOf cs!"<script>" || (cs!"<script>").isPrefixOf t)

theorem noScriptTag_skip {a : Str} (h : noScriptTag a = true) : ∀ t, t <:+ a → t ≠ [] → ∀ s, ¬ cs!"<script>" <+: t ++ s := by
  intro t ht hne s hp
  have := List.all_eq_true.1 h t ((List.mem_tails _ _).2 ht)
  simp only [List.isEmpty_iff, hne, Bool.or_eq_true, false_or, Bool.not_eq_true', Bool.or_eq_false_iff] at this
  rcases List.prefix_or_prefix_of_prefix hp (List.prefix_append t s) with h1 | h1
  · rw [List.isPrefixOf_iff_prefix.2 h1] at this; exact absurd this.2 (by decide)
  · rw [List.isPrefixOf_iff_prefix.2 h1] at this; exact absurd this.1 (by decide)

theorem joinWith_css {l : List Str} (h : ∀ w ∈ l, '<' ∉ w) (b c : Str) :
    ∃ body, '<' ∉ body ∧ joinWith ['\n'] (l ++ [b, c]) = body ++ (b ++ '\n' :: c) := by
  induction l with
  | nil => exact ⟨[], by simp, by simp [joinWith]⟩
  | cons w l ih =>
    obtain ⟨body, h1, h2⟩ := ih fun w' hw' => h w' (List.mem_cons_of_mem _ hw')
    refine ⟨w ++ '\n' :: body, ?_, ?_⟩
    · simp only [List.mem_append, List.mem_cons, not_or]
      exact ⟨h w List.mem_cons_self, by decide, h1⟩
    · rw [List.cons_append]
      have : ∃ x xs, l ++ [b, c] = x :: xs := by cases l <;> exact ⟨_, _, rfl⟩
      obtain ⟨x, xs, e⟩ := this
      rw [e, joinWith, ← e, h2]
      · simp
      · simp

/-- what `generate` gets is the value of the expression on the page -/
theorem generateArg_page (v4 : Bool) {css : List Str} (hcss : ∀ l ∈ css, '<' ∉ l) {fig : Str} (hfig : '<' ∉ fig) (g : PyJson) :
    generateArg v4 fig (eventHtml v4 css fig g) = pageValue (eventScript v4 fig) eventPost (jsonPage (eventScript v4 fig) g eventPost cs!"\n        </div>") := by
  obtain ⟨body, hb, e⟩ := joinWith_css (l := css.map List.dropLast) (by
    intro w hw
    obtain ⟨l, hl, rfl⟩ := List.mem_map.1 hw
    exact fun h => hcss l hl (List.dropLast_subset _ h)) cs!"</style>"
    (eventDiv fig ++ libComments ++ cs!"\n        <script>" ++ jsonPage (eventScript v4 fig) g eventPost cs!"\n        </div>")
  have hpage : eventHtml v4 css fig g = cs!"<style>\n" ++ (body ++ (cs!"</style>\n<div id=\"" ++ (fig ++ (cs!"\" class=\"eventplot\">\n" ++ (libComments ++ (cs!"\n        " ++ (cs!"<script>" ++
      jsonPage (eventScript v4 fig) g eventPost cs!"\n        </div>"))))))) := by
    unfold eventHtml
    have : ∃ x xs, css.map List.dropLast ++ [cs!"</style>", eventDiv fig ++ libComments ++ cs!"\n        <script>" ++ jsonPage (eventScript v4 fig) g eventPost cs!"\n        </div>"] = x :: xs := by
      cases css.map List.dropLast <;> exact ⟨_, _, rfl⟩
    obtain ⟨x, xs, e'⟩ := this
    rw [e', joinWith, ← e', e]
    · unfold eventDiv
      simp only [List.append_assoc, List.cons_append, List.nil_append]
    · simp
  unfold generateArg
  rw [hpage, splitScript_skip (noScriptTag_skip (by decide +kernel)), splitScript_plain hb, splitScript_skip (noScriptTag_skip (by decide +kernel)), splitScript_plain hfig,
    splitScript_skip (noScriptTag_skip (by decide +kernel)), splitScript_skip (noScriptTag_skip (by decide +kernel)), splitScript_plain (by decide), splitScript_tag]
  simp only [Option.map_some]
  rw [if_pos]
  rw [contains_iff]
  refine ⟨cs!"<style>\n" ++ (body ++ cs!"</style>\n"), cs!" class=\"eventplot\">\n" ++ (libComments ++ cs!"\n        "), ?_⟩
  simp

/-! ## The value on the page -/

theorem unitsText_utf16 (s : Str) : unitsText (utf16 s) = s := by
  induction s with
  | nil => rfl
  | cons c s ih =>
    rw [utf16, List.flatMap_cons]
    change unitsText (utf16Char c ++ utf16 s) = _
    have hc := char_range c
    unfold utf16Char
    split
    · rename_i h
      have hn : ¬ (0xd800 ≤ c.toNat ∧ c.toNat < 0xdc00) := by omega
      rw [List.singleton_append]
      cases hs : utf16 s with
      | nil =>
        rw [hs] at ih
        rw [← ih, unitsText, unitsText, Char.ofNat_toNat]
      | cons v r =>
        rw [hs] at ih
        rw [unitsText, if_neg hn, ih, Char.ofNat_toNat]
    · rename_i h
      have e : ∀ a b : Nat, ∀ r, 0xd800 ≤ a ∧ a < 0xdc00 → unitsText (a :: b :: r) = Char.ofNat (0x10000 + (a - 0xd800) * 1024 + (b - 0xdc00)) :: unitsText r :=
        fun a b r h => by rw [unitsText, if_pos h]
      rw [List.cons_append, List.singleton_append, e _ _ _ (by omega), ih]
      have : 0x10000 + (0xd800 + (c.toNat - 65536) / 1024 - 0xd800) * 1024 + (0xdc00 + (c.toNat - 65536) % 1024 - 0xdc00) = c.toNat := by omega
      rw [this, Char.ofNat_toNat]

theorem readAll_map {α β γ : Type} {f : β → Option γ} {g : α → β} {h : α → γ} {l : List α} (he : ∀ a ∈ l, f (g a) = some (h a)) : readAll f (l.map g) = some (l.map h) := by
  induction l with
  | nil => rfl
  | cons a l ih =>
    rw [List.map_cons, readAll, he a List.mem_cons_self, ih fun b hb => he b (List.mem_cons_of_mem _ hb)]
    rfl

theorem seenList_eq (l : List PyJson) : seenList l = l.map seen := by
  induction l with
  | nil => rfl
  | cons a l ih => rw [seenList, ih]; rfl

theorem seenPairs_eq (l : List (Val × PyJson)) : seenPairs l = l.map fun p => (utf16 p.1.text, seen p.2) := by
  induction l with
  | nil => rfl
  | cons a l ih => obtain ⟨k, v⟩ := a; rw [seenPairs, ih]; rfl

theorem noEndList_iff (l : List PyJson) : NoScriptEndList l ↔ ∀ x ∈ l, NoScriptEnd x := by
  induction l with
  | nil => simp [NoScriptEndList]
  | cons a l ih => simp [NoScriptEndList, ih]

theorem noEndPairs_iff (l : List (Val × PyJson)) : NoScriptEndPairs l ↔ ∀ x ∈ l, ¬ EndsScript x.1.text ∧ NoScriptEnd x.2 := by
  induction l with
  | nil => simp [NoScriptEndPairs]
  | cons a l ih => obtain ⟨k, v⟩ := a; simp [NoScriptEndPairs, ih, and_assoc]

theorem lanesJson_eq (i : Nat) (ls : List LaneLabel) : lanesJson i ls = (ls.zipIdx i).map fun p => laneJson p.2 p.1 := by
  induction ls generalizing i with
  | nil => rfl
  | cons l ls ih => rw [lanesJson, ih, List.zipIdx_cons, List.map_cons]

theorem intStr_nat (n : Nat) : intStr (n : Int) = natStr n := by
  cases n <;> rfl

theorem laneJson_text {l : LaneLabel} (h : ∀ i, l ≠ .given (.int i)) (i : Nat) :
    laneJson i l = .obj [(.str cs!"id", .int i), (.str cs!"label", .str l.text)] := by
  cases l with
  | given v =>
    cases v with
    | int k => exact absurd rfl (h k)
    | str s => rfl
  | numbered pre k => rfl

section Graph
variable {ft : Rat → Str} {num : Str → Option Rat} {Q : Rat → Prop} {P : TracePlot}

theorem readLane_seen (hr : ReadsBack ft num Q) {l : LaneLabel} (h : ∀ i, l ≠ .given (.int i)) (i : Nat) :
    readLane num (seen (laneJson i l)) = some ((i : Rat), l.text) := by
  rw [laneJson_text h]
  have e1 : jsMember (seen (.obj [(.str cs!"id", .int i), (.str cs!"label", .str l.text)])) cs!"id" = some (.num (natStr i)) := by
    rw [← intStr_nat]; rfl
  have e2 : jsMember (seen (.obj [(.str cs!"id", .int i), (.str cs!"label", .str l.text)])) cs!"label" = some (.str (utf16 l.text)) := rfl
  unfold readLane
  rw [e1, e2]
  simp only [JsLit.asNum, JsLit.asText, hr.nat, unitsText_utf16]

theorem asSpan_seen (hr : ReadsBack ft num Q) {d : Rat × Rat} (h : Q d.1 ∧ Q d.2) : JsLit.asSpan num (seen (spanJson ft d)) = some d := by
  simp only [spanJson, seen, seenList, JsLit.asSpan, JsLit.asNum, hr.float _ h.1, hr.float _ h.2]

theorem keyLane_nat (n : Nat) : keyLane (utf16 (intStr (n : Int))) = some (.int n) := by
  unfold keyLane
  rw [unitsText_utf16, intStr_nat, if_pos ⟨(nat_all_digits n).2, (nat_all_digits n).1⟩, natVal_natStr]

theorem readItem_seen (hr : ReadsBack ft num Q) {x : Str × List (Val × List (Rat × Rat))} (hl : ∀ l ∈ x.2, ∃ n : Nat, l.1 = .int n)
    (ht : ∀ l ∈ x.2, ∀ d ∈ l.2, Q d.1 ∧ Q d.2) : readItem num (utf16 x.1, seen (lanesOfJson ft x.2)) = some x := by
  unfold readItem lanesOfJson
  rw [seen, seenPairs_eq, List.map_map]
  simp only
  rw [readAll_map (h := fun l => l) (by
    intro l hlx
    obtain ⟨n, hn⟩ := hl l hlx
    simp only [Function.comp]
    unfold readSpans
    rw [seen, seenList_eq, List.map_map]
    simp only [JsLit.elems]
    rw [hn]
    simp only [Val.text]
    rw [keyLane_nat]
    simp only
    rw [readAll_map (g := seen ∘ spanJson ft) (h := fun d => d) fun d hd => asSpan_seen hr (ht l hlx d hd), List.map_id']
    simp only
    rw [← hn]), List.map_id']
  simp only [unitsText_utf16]

/-- the chart that the browser makes of the data -/
theorem readChart_seen (hr : ReadsBack ft num Q) (h : ShowablePlot Q P) :
    readChart num (seen (graphJson ft P)) = some ⟨P.lanes.zipIdx.map fun p => ((p.2 : Rat), p.1.text), P.domain, P.keys, P.items⟩ := by
  have e1 : jsMember (seen (graphJson ft P)) cs!"lanes" = some (seen (.arr (lanesJson 0 P.lanes))) := rfl
  have e2 : jsMember (seen (graphJson ft P)) cs!"xDomain" = some (seen (spanJson ft P.domain)) := rfl
  have e3 : jsMember (seen (graphJson ft P)) cs!"keys" = some (seen (.arr (P.keys.map .str))) := rfl
  have e4 : jsMember (seen (graphJson ft P)) cs!"data" = some (seen (.obj (P.items.map fun x => (.str x.1, lanesOfJson ft x.2)))) := rfl
  unfold readChart
  rw [e1, e2, e3, e4]
  simp only [seen, seenList_eq, seenPairs_eq, lanesJson_eq, List.map_map]
  rw [readAll_map (g := seen ∘ fun p : LaneLabel × Nat => laneJson p.2 p.1) (h := fun p => ((p.2 : Rat), p.1.text)) (fun p hp => readLane_seen hr (h.labels _ (List.fst_mem_of_mem_zipIdx hp)) _), asSpan_seen hr h.domain,
    readAll_map (g := seen ∘ PyJson.str) (h := fun k => k) (by intro k _; simp only [Function.comp, seen, JsLit.asText, unitsText_utf16]),
    readAll_map (g := (fun p : Val × PyJson => (utf16 p.1.text, seen p.2)) ∘ fun x : Str × List (Val × List (Rat × Rat)) => (Val.str x.1, lanesOfJson ft x.2)) (h := fun x => x) (fun x hx => readItem_seen hr (h.lanes x hx).2 (h.times x hx)), List.map_id', List.map_id']

theorem readable_span (hr : ReadsBack ft num Q) {d : Rat × Rat} (h : Q d.1 ∧ Q d.2) : Readable (spanJson ft d) := by
  simp only [spanJson, Readable, ReadableList]
  exact ⟨hr.text _ h.1, hr.text _ h.2, trivial⟩

theorem readable_graph (hr : ReadsBack ft num Q) (h : ShowablePlot Q P) : Readable (graphJson ft P) := by
  unfold graphJson
  rw [Readable]
  refine ⟨by simp only [List.map_cons, List.map_nil, Val.text]; decide, by simp only [List.map_cons, List.map_nil, Val.text]; decide, ?_⟩
  simp only [ReadablePairs, Readable, and_true, true_and]
  refine ⟨?_, readable_span hr h.domain, ?_, ?_, ?_, ?_⟩
  · rw [readableList_iff, lanesJson_eq]
    intro x hx
    obtain ⟨p, hp, rfl⟩ := List.mem_map.1 hx
    rw [laneJson_text (h.labels _ (List.fst_mem_of_mem_zipIdx hp))]
    simp only [Readable, ReadablePairs, and_true, List.map_cons, List.map_nil, Val.text]
    decide
  · rw [readableList_iff]
    intro x hx
    obtain ⟨k, _, rfl⟩ := List.mem_map.1 hx
    rw [Readable]; trivial
  · rw [List.map_map]
    exact h.names
  · rw [List.map_map]
    exact h.proto
  · rw [readablePairs_iff]
    intro x hx
    obtain ⟨y, hy, rfl⟩ := List.mem_map.1 hx
    obtain ⟨l1, l2⟩ := h.lanes y hy
    simp only [lanesOfJson, Readable]
    rw [List.map_map]
    have hinj : ∀ l ∈ y.2, ∀ m ∈ y.2, l.1.text = m.1.text → l.1 = m.1 := by
      intro l hl m hm e
      obtain ⟨a, ha⟩ := l2 l hl
      obtain ⟨b, hb⟩ := l2 m hm
      rw [ha, hb] at e ⊢
      rw [intStr_inj e]
    refine ⟨?_, ?_, ?_⟩
    · unfold List.Nodup at l1 ⊢
      rw [List.pairwise_map] at l1 ⊢
      exact l1.imp_of_mem fun {a b} ha hb hab e => hab (hinj a ha b hb e)
    · intro hm
      obtain ⟨l, hl, e⟩ := List.mem_map.1 hm
      obtain ⟨a, ha⟩ := l2 l hl
      simp only [Function.comp, ha, Val.text, intStr_nat] at e
      have := (nat_all_digits a).2
      rw [e] at this
      exact absurd this (by decide)
    · rw [readablePairs_iff]
      intro z hz
      obtain ⟨l, hl, rfl⟩ := List.mem_map.1 hz
      simp only [Readable]
      rw [readableList_iff]
      intro w hw
      obtain ⟨d, hd, rfl⟩ := List.mem_map.1 hw
      exact readable_span hr (h.times y hy l hl d hd)

theorem ends_digits {s : Str} (h : ∀ c ∈ s, isDigit c = true) : ¬ EndsScript s := by
  rintro ⟨x, _, a, b, e⟩
  have hm : '<' ∈ s.map Char.toLower := by rw [← e]; simp
  obtain ⟨c, hc, e'⟩ := List.mem_map.1 hm
  have := h c hc
  have hd : c.toNat = 60 := by
    have : c.toLower = c := by
      unfold Char.toLower
      simp only [isDigit, Bool.and_eq_true, decide_eq_true_eq] at this
      split
      · rename_i hu
        exfalso
        have h1 := hu.1
        have h2 : (65 : Nat) ≤ c.toNat := h1
        omega
      · rfl
    rw [this] at e'
    subst e'
    rfl
  simp only [isDigit, Bool.and_eq_true, decide_eq_true_eq] at this
  omega

theorem noEnd_graph (h : ShowablePlot Q P) : NoScriptEnd (graphJson ft P) ↔ NoEndTag P := by
  have hfix : ∀ k ∈ [cs!"lanes", cs!"xDomain", cs!"keys", cs!"showSummary", cs!"stride", cs!"colorMap", cs!"data", cs!"id", cs!"label"], ¬ EndsScript k := by
    unfold EndsScript; decide +kernel
  have hf : ∀ {k}, k ∈ [cs!"lanes", cs!"xDomain", cs!"keys", cs!"showSummary", cs!"stride", cs!"colorMap", cs!"data", cs!"id", cs!"label"] → (¬ EndsScript k ↔ True) :=
    fun hk => iff_true_intro (hfix _ hk)
  have hspan : ∀ d, NoScriptEnd (spanJson ft d) := by intro d; simp [spanJson, NoScriptEnd, NoScriptEndList]
  have hl : NoScriptEndList (lanesJson 0 P.lanes) ↔ ∀ l ∈ P.lanes, ¬ EndsScript l.text := by
    have key : ∀ i (ls : List LaneLabel), (∀ l ∈ ls, ∀ i, l ≠ .given (.int i)) → (NoScriptEndList (lanesJson i ls) ↔ ∀ l ∈ ls, ¬ EndsScript l.text) := by
      intro i ls
      induction ls generalizing i with
      | nil => simp [lanesJson, NoScriptEndList]
      | cons l ls ih =>
        intro h
        rw [lanesJson, NoScriptEndList, ih _ fun l hl => h l (List.mem_cons_of_mem _ hl), laneJson_text (h l List.mem_cons_self)]
        simp only [NoScriptEnd, NoScriptEndPairs, Val.text, hf (k := cs!"id") (by decide), hf (k := cs!"label") (by decide), true_and, and_true, List.forall_mem_cons]
    exact key 0 _ h.labels
  have hk : NoScriptEndList (P.keys.map .str) ↔ ∀ k ∈ P.keys, ¬ EndsScript k := by
    rw [noEndList_iff, List.forall_mem_map]
    simp only [NoScriptEnd]
  have hd : NoScriptEndPairs (P.items.map fun x => (.str x.1, lanesOfJson ft x.2)) ↔ ∀ x ∈ P.items, ¬ EndsScript x.1 := by
    rw [noEndPairs_iff, List.forall_mem_map]
    refine forall₂_congr fun x hx => ?_
    simp only [Val.text, lanesOfJson, NoScriptEnd, and_iff_left_iff_imp]
    intro _
    rw [noEndPairs_iff, List.forall_mem_map]
    intro l hl
    obtain ⟨n, hn⟩ := (h.lanes x hx).2 l hl
    simp only [hn, Val.text, intStr_nat, NoScriptEnd]
    refine ⟨ends_digits fun c hc => List.all_eq_true.1 (nat_all_digits n).2 c hc, ?_⟩
    rw [noEndList_iff, List.forall_mem_map]
    exact fun d _ => hspan d
  unfold graphJson
  simp only [NoScriptEnd, NoScriptEndPairs, Val.text, hspan, hl, hk, hd, hf (k := cs!"lanes") (by decide), hf (k := cs!"xDomain") (by decide), hf (k := cs!"keys") (by decide),
    hf (k := cs!"showSummary") (by decide), hf (k := cs!"stride") (by decide), hf (k := cs!"colorMap") (by decide), hf (k := cs!"data") (by decide), true_and, and_true]
  exact ⟨fun ⟨a, b, c⟩ => ⟨a, b, c⟩, fun ⟨a, b, c⟩ => ⟨a, b, c⟩⟩

end Graph

theorem eventScript_plain (v4 : Bool) {fig : Str} (h : '<' ∉ fig) : '<' ∉ eventScript v4 fig := by
  unfold eventScript eventPre
  simp only [List.mem_append, not_or]
  cases v4
  all_goals
    refine ⟨⟨⟨⟨⟨⟨⟨?_, ?_⟩, ?_⟩, ?_⟩, ?_⟩, ?_⟩, ?_⟩, ?_⟩
    all_goals try decide +kernel
  all_goals
    exact ⟨⟨⟨⟨by decide, h⟩, by decide⟩, by decide⟩, by decide⟩

/-! ## C164 -/

/-- **C164.** The page of an event plot: what the browser draws from are exactly the labels of the lanes with their numbers, the domain, the names and the events of the plot, in their order,
unless a label or a name has the end tag of a script in it. For all plots, style sheets without tags, and figures. -/
theorem C164_page {ft : Rat → Str} {num : Str → Option Rat} {Q : Rat → Prop} (hr : ReadsBack ft num Q) (v4 : Bool) {css : List Str} (hcss : ∀ l ∈ css, '<' ∉ l) {fig : Str} (hfig : '<' ∉ fig)
    {P : TracePlot} (h : ShowablePlot Q P) (he : NoEndTag P) :
    shownChart num v4 fig (eventHtml v4 css fig (graphJson ft P)) = some ⟨P.lanes.zipIdx.map fun p => ((p.2 : Rat), p.1.text), P.domain, P.keys, P.items⟩ := by
  unfold shownChart
  rw [generateArg_page v4 hcss hfig, C146_seen_partial _ _ _ _ (eventScript_plain v4 hfig) (by decide) (by rintro c s e; rw [← (List.cons.inj e).1]; decide) (readable_graph hr h)
    ((noEnd_graph h).2 he)]
  exact readChart_seen hr h

/-- **C164, refuted.** A single label or name with the end tag of a script in it, and nothing is drawn. For all plots. -/
theorem C164_tag_refuted {ft : Rat → Str} {num : Str → Option Rat} {Q : Rat → Prop} (hr : ReadsBack ft num Q) (v4 : Bool) {css : List Str} (hcss : ∀ l ∈ css, '<' ∉ l) {fig : Str} (hfig : '<' ∉ fig)
    {P : TracePlot} (h : ShowablePlot Q P) (he : ¬ NoEndTag P) :
    shownChart num v4 fig (eventHtml v4 css fig (graphJson ft P)) = none := by
  unfold shownChart
  rw [generateArg_page v4 hcss hfig, C146_script_refuted _ _ _ _ (eventScript_plain v4 hfig) (readable_graph hr h) fun hn => he ((noEnd_graph h).1 hn)]

/-! ## The page of `plot_trace` -/

theorem Dict.mem_keys_set_iff {α : Type} (d : Dict α) (k k' : Str) (v : α) : k' ∈ (d.set k v).map Prod.fst ↔ k' = k ∨ k' ∈ d.map Prod.fst := by
  refine ⟨Dict.mem_keys_set, fun h => ?_⟩
  rw [← Dict.get_isSome, Dict.get_set]
  by_cases e : k = k'
  · simp [e]
  · rw [if_neg e, Dict.get_isSome]
    exact h.resolve_left fun e' => e e'.symm

theorem RState.at_mem {st : RState} {n : Str} (h : st.at n ≠ []) : n ∈ st.data.map Prod.fst := by
  unfold RState.at at h
  split at h
  · rename_i l hl
    exact Dict.get_keys hl
  · exact absurd rfl h

theorem switchStep_keys {execnames : List Str} {pids : List Nat} {endIdx : Nat} {st st' : RState} {r : SwitchRow} (hs : switchStep execnames pids endIdx st r = some st') (k : Str) :
    k ∈ st'.data.map Prod.fst ↔ k ∈ st.data.map Prod.fst ∨ (tracked execnames pids r = true ∧ k = procName r.nextComm r.nextPid) := by
  unfold switchStep at hs
  split at hs
  · cases hs
  rename_i st1 h1
  split at hs
  · cases hs
  rename_i st2 h2
  cases hs
  have r1 : k ∈ st1.data.map Prod.fst ↔ k ∈ st.data.map Prod.fst := by
    unfold closePrev at h1
    split at h1
    · cases h1; rfl
    · rename_i name hl
      split at h1
      · cases h1
      · rename_i l hc
        cases h1
        have : st.at name ≠ [] := by intro e; rw [e] at hc; cases hc
        rw [Dict.mem_keys_set_iff]
        exact ⟨fun h => h.elim (fun e => e ▸ RState.at_mem this) id, .inr⟩
  have r2 : k ∈ st2.data.map Prod.fst ↔ k ∈ st1.data.map Prod.fst := by
    unfold dropStale at h2
    split at h2
    · cases h2; rfl
    · split at h2
      · cases h2
      · rename_i iv ivs hc
        cases h2
        rw [Dict.mem_keys_set_iff]
        exact ⟨fun h => h.elim (fun e => e ▸ RState.at_mem (by rw [hc]; simp)) id, .inr⟩
  unfold openNext
  split
  · rename_i ht
    rw [Dict.mem_keys_set_iff, r2, r1]
    simp only [ht, true_and]
    exact or_comm
  · rename_i ht
    rw [r2, r1]
    simp [ht]

theorem switchLoop_keys {execnames : List Str} {pids : List Nat} {endIdx : Nat} {rows : List SwitchRow} {st st' : RState} (hs : switchLoop execnames pids endIdx st rows = some st') (k : Str) :
    k ∈ st'.data.map Prod.fst ↔ k ∈ st.data.map Prod.fst ∨ ∃ r ∈ rows, tracked execnames pids r = true ∧ k = procName r.nextComm r.nextPid := by
  induction rows generalizing st with
  | nil => cases hs; simp
  | cons r rs ih =>
    unfold switchLoop at hs
    split at hs
    · cases hs
    · rename_i st1 h1
      rw [ih hs, switchStep_keys h1]
      simp [or_assoc]

/-- the data have the names of exactly the tasks that are asked for -/
theorem residency_keys {execnames : List Str} {pids : List Nat} {rows : List SwitchRow} {R : Residency} (h : residency execnames pids rows = some R) (k : Str) :
    k ∈ R.data.map Prod.fst ↔ ∃ r ∈ rows, Tracked execnames pids r ∧ k = procName r.nextComm r.nextPid := by
  unfold residency at h
  split at h
  · cases h
  · simp only at h
    split at h
    · cases h
    · rename_i st hst
      cases h
      rw [switchLoop_keys hst]
      simp only [List.map_nil, List.not_mem_nil, false_or, tracked_iff]

theorem groupLanes_all {es : List LaneEvent} {acc : List (Val × List (Rat × Rat))} {A : Val → Prop} {B : Rat × Rat → Prop} (ha : ∀ l ∈ acc, A l.1 ∧ ∀ d ∈ l.2, B d)
    (he : ∀ e ∈ es, A e.lane ∧ B (e.start, e.stop)) : ∀ l ∈ groupLanes acc es, A l.1 ∧ ∀ d ∈ l.2, B d := by
  induction es generalizing acc with
  | nil => exact ha
  | cons e es ih =>
    unfold groupLanes
    refine ih ?_ fun e' he' => he e' (List.mem_cons_of_mem _ he')
    obtain ⟨h1, h2⟩ := he e List.mem_cons_self
    clear ih he
    induction acc with
    | nil =>
      intro l hl
      rw [laneAppend, List.mem_singleton] at hl
      subst hl
      exact ⟨h1, fun d hd => by rw [List.mem_singleton] at hd; exact hd ▸ h2⟩
    | cons a acc ih =>
      obtain ⟨l0, xs⟩ := a
      rw [laneAppend]
      have ha0 := ha _ List.mem_cons_self
      split
      · intro l hl
        rcases List.mem_cons.1 hl with rfl | hl
        · refine ⟨ha0.1, fun d hd => ?_⟩
          rcases List.mem_append.1 hd with hd | hd
          · exact ha0.2 d hd
          · rw [List.mem_singleton] at hd; exact hd ▸ h2
        · exact ha l (List.mem_cons_of_mem _ hl)
      · intro l hl
        rcases List.mem_cons.1 hl with rfl | hl
        · exact ha0
        · exact ih (fun l hl => ha l (List.mem_cons_of_mem _ hl)) l hl

/-- a name and a pid end a script only if the name does -/
theorem ends_procName (c : Str) (q : Nat) : EndsScript (procName c q) ↔ EndsScript c := by
  unfold EndsScript procName
  refine exists_congr fun x => and_congr_right fun hx => ?_
  rw [List.map_append, List.infix_append_iff]
  constructor
  · have hch : ∀ a ∈ ('-' :: natStr q).map Char.toLower, a ∉ cs!"</script" ++ [x] := by
      intro a ha hm
      obtain ⟨b, hb, rfl⟩ := List.mem_map.1 ha
      have hb' : b ∈ cs!"-0123456789" := by
        rcases List.mem_cons.1 hb with rfl | hb
        · decide
        · have := List.all_eq_true.1 (nat_all_digits q).2 b hb
          simp only [isDigit, Bool.and_eq_true, decide_eq_true_eq] at this
          have hb2 : b = Char.ofNat b.toNat := (Char.ofNat_toNat b).symm
          generalize b.toNat = n at this hb2
          subst hb2
          have : n = 48 ∨ n = 49 ∨ n = 50 ∨ n = 51 ∨ n = 52 ∨ n = 53 ∨ n = 54 ∨ n = 55 ∨ n = 56 ∨ n = 57 := by omega
          rcases this with rfl | rfl | rfl | rfl | rfl | rfl | rfl | rfl | rfl | rfl <;> decide
      have key : ∀ x ∈ [' ', '/', '>'], ∀ b ∈ cs!"-0123456789", b.toLower ∉ cs!"</script" ++ [x] := by decide +kernel
      exact key x hx b hb' hm
    rintro (h | h | ⟨l1, l2, h1, h2, h3⟩)
    · exact h
    · exact absurd (by simp) (hch '<' (h.subset (by simp)))
    · cases l2 with
      | nil => rw [List.append_nil] at h1; exact h1 ▸ h2.isInfix
      | cons a l2 => exact absurd (by rw [h1]; simp) (hch a (h3.subset List.mem_cons_self))
  · exact .inl

theorem cpuLabel_plain (i : Nat) : ¬ EndsScript (LaneLabel.text (.numbered cs!"CPU :" i)) := by
  rintro ⟨x, _, h⟩
  have hm := h.subset (show '<' ∈ cs!"</script" ++ [x] by simp)
  obtain ⟨b, hb, e⟩ := List.mem_map.1 hm
  rcases List.mem_append.1 hb with hb | hb
  · have : ∀ b ∈ cs!"CPU :", b.toLower ≠ '<' := by decide
    exact this b hb e
  · exact ends_digits (s := natStr i) (fun c hc => List.all_eq_true.1 (nat_all_digits i).2 c hc) (by
      exfalso
      have := List.all_eq_true.1 (nat_all_digits i).2 b hb
      simp only [isDigit, Bool.and_eq_true, decide_eq_true_eq] at this
      have hb2 : b = Char.ofNat b.toNat := (Char.ofNat_toNat b).symm
      generalize b.toNat = n at this hb2
      subst hb2
      have : n = 48 ∨ n = 49 ∨ n = 50 ∨ n = 51 ∨ n = 52 ∨ n = 53 ∨ n = 54 ∨ n = 55 ∨ n = 56 ∨ n = 57 := by omega
      revert e
      rcases this with rfl | rfl | rfl | rfl | rfl | rfl | rfl | rfl | rfl | rfl <;> decide)

theorem runsOf_times {execnames : List Str} {pids : List Nat} {endIdx : Nat} {c : Str} {q : Nat} {rows : List SwitchRow} {iv : Interval} (h : iv ∈ runsOf execnames pids endIdx c q rows) :
    (∃ r ∈ rows, iv.start = r.time) ∧ (iv.stop = endIdx ∨ ∃ r ∈ rows, iv.stop = r.time) := by
  induction rows with
  | nil => cases h
  | cons r rs ih =>
    rw [runsOf, List.mem_append] at h
    rcases h with h | h
    · split at h
      · unfold intervalAt at h
        split at h
        · rw [List.mem_singleton] at h
          subst h
          exact ⟨⟨r, List.mem_cons_self, rfl⟩, .inl rfl⟩
        · rename_i s hs
          split at h
          · rw [List.mem_singleton] at h
            subst h
            exact ⟨⟨r, List.mem_cons_self, rfl⟩, .inr ⟨s, List.mem_cons_of_mem _ (List.mem_of_find?_eq_some hs), rfl⟩⟩
          · cases h
      · cases h
    · obtain ⟨⟨a, ha, e1⟩, h2⟩ := ih h
      refine ⟨⟨a, List.mem_cons_of_mem _ ha, e1⟩, h2.imp_right ?_⟩
      rintro ⟨b, hb, e2⟩
      exact ⟨b, List.mem_cons_of_mem _ hb, e2⟩

/-- the plot of the residency data can be shown -/
theorem showable_runs {execnames : List Str} {pids : List Nat} {sw : List SwitchRow} {f l : SwitchRow} (hf : sw.head? = some f) (hl : sw.getLast? = some l) (hs : Steady execnames pids sw)
    {R : Residency} (hR : residency execnames pids sw = some R) {P : TracePlot} {n : Nat} (h1 : P.lanes = (List.range n).map (.numbered cs!"CPU :")) (h2 : P.domain = (val f.time, val l.time))
    (h3 : P.items = groupByLanes (laneData R.data)) : ShowablePlot (fun q => ∃ r ∈ sw, q = val r.time) P := by
  obtain ⟨R', r1, _, _, _, r5⟩ := C72_intervals_partial hf hl hs
  rw [hR] at r1
  cases r1
  obtain ⟨n1, n2⟩ := residency_names hR
  have hkeys : P.items.map Prod.fst = R.data.map Prod.fst := by
    rw [h3, (C74_groups _).1]
    simp [laneData, Function.comp_def]
  have hfm : f ∈ sw := List.mem_of_mem_head? hf
  have hlm : l ∈ sw := List.mem_of_getLast? hl
  have hall : ∀ x ∈ P.items, ∀ l ∈ x.2, (∃ n : Nat, l.1 = .int n) ∧ ∀ d ∈ l.2, (∃ r ∈ sw, d.1 = val r.time) ∧ ∃ r ∈ sw, d.2 = val r.time := by
    intro x hx
    rw [h3] at hx
    unfold groupByLanes at hx
    obtain ⟨y, hy, rfl⟩ := List.mem_map.1 hx
    obtain ⟨z, hz, rfl⟩ := List.mem_map.1 hy
    obtain ⟨c, q, hc⟩ := n2 z.1 (List.mem_map.2 ⟨z, hz, rfl⟩)
    have hg : R.data.get (procName c q) = some z.2 := Dict.get_of_mem n1 (by rw [← hc]; exact hz)
    have hruns := (r5 c q).1 _ hg
    refine groupLanes_all (A := fun v => ∃ n : Nat, v = .int n) (B := fun d => (∃ r ∈ sw, d.1 = val r.time) ∧ ∃ r ∈ sw, d.2 = val r.time) (by simp) ?_
    intro e he
    obtain ⟨iv, hiv, rfl⟩ := List.mem_map.1 he
    rw [hruns] at hiv
    obtain ⟨⟨a, ha, e1⟩, e2⟩ := runsOf_times hiv
    refine ⟨⟨iv.cpu, rfl⟩, ⟨a, ha, by rw [← e1]; rfl⟩, ?_⟩
    rcases e2 with e2 | ⟨b, hb, e2⟩
    · exact ⟨l, hlm, by rw [← e2]; rfl⟩
    · exact ⟨b, hb, by rw [← e2]; rfl⟩
  refine ⟨hkeys ▸ n1, ?_, ?_, ?_, ?_, fun x hx l hl => (hall x hx l hl).2⟩
  · rw [hkeys]
    intro hm
    obtain ⟨c, q, e⟩ := n2 _ hm
    have hlast : (procName c q).getLast? = some '_' := by rw [← e]; rfl
    unfold procName at hlast
    obtain ⟨d1, d2⟩ := nat_all_digits q
    rw [List.getLast?_append] at hlast
    obtain ⟨b, hb⟩ : ∃ b, (natStr q).getLast? = some b := by
      cases hq : (natStr q).getLast? with
      | none => exact absurd (List.getLast?_eq_none_iff.1 hq) d1
      | some b => exact ⟨b, rfl⟩
    have hb' : ('-' :: natStr q).getLast? = some b := by
      rw [List.getLast?_cons, hb]; rfl
    rw [hb'] at hlast
    have : b = '_' := by simpa using hlast
    have hd := List.all_eq_true.1 d2 b (List.mem_of_getLast? hb)
    rw [this] at hd
    exact absurd hd (by decide)
  · intro x hx
    refine ⟨?_, fun l hl => (hall x hx l hl).1⟩
    rw [h3] at hx
    unfold groupByLanes at hx
    obtain ⟨y, _, rfl⟩ := List.mem_map.1 hx
    exact groupLanes_nodup _ _ (by simp)
  · rw [h1]
    intro l hl i e
    obtain ⟨j, _, rfl⟩ := List.mem_map.1 hl
    cases e
  · rw [h2]
    exact ⟨⟨f, hfm, rfl⟩, ⟨l, hlm, rfl⟩⟩

/-- no end tag on the page, in terms of the tasks -/
theorem noEndTag_runs {execnames : List Str} {pids : List Nat} {sw : List SwitchRow} {R : Residency} (hR : residency execnames pids sw = some R) {P : TracePlot} {n : Nat}
    (h1 : P.lanes = (List.range n).map (.numbered cs!"CPU :")) (h3 : P.items = groupByLanes (laneData R.data)) (h4 : P.keys = plotKeys (laneData R.data)) :
    NoEndTag P ↔ ∀ r ∈ sw, Tracked execnames pids r → ¬ EndsScript r.nextComm := by
  have hkeys : P.items.map Prod.fst = R.data.map Prod.fst := by
    rw [h3, (C74_groups _).1]
    simp [laneData, Function.comp_def]
  constructor
  · intro h r hr ht he
    have hm := (residency_keys hR _).2 ⟨r, hr, ht, rfl⟩
    rw [← hkeys] at hm
    obtain ⟨x, hx, e⟩ := List.mem_map.1 hm
    exact h.names x hx (by rw [e, ends_procName]; exact he)
  · intro h
    have hname : ∀ k ∈ R.data.map Prod.fst, ¬ EndsScript k := by
      intro k hk
      obtain ⟨r, hr, ht, rfl⟩ := (residency_keys hR k).1 hk
      rw [ends_procName]
      exact h r hr ht
    refine ⟨?_, ?_, ?_⟩
    · rw [h1]
      intro l hl
      obtain ⟨i, _, rfl⟩ := List.mem_map.1 hl
      exact cpuLabel_plain i
    · rw [h4]
      intro k hk
      have hn : ((laneData R.data).map Prod.fst).Nodup := by
        simpa [laneData, Function.comp_def] using (residency_names hR).1
      obtain ⟨es, he, _⟩ := ((C74_keys hn).2.1 k).1 hk
      rw [laneData_get, Option.map_eq_some_iff] at he
      obtain ⟨ivs, he, _⟩ := he
      exact hname k (Dict.get_keys he)
    · intro x hx
      exact hname x.1 (by rw [← hkeys]; exact List.mem_map.2 ⟨x, hx, rfl⟩)

/-- **C164, partial.** The page of `plot_trace` for a file, in the browser: if no task that is asked for has the end tag of a script in its name, the browser gets one lane for each CPU of the header, numbered from 0 and named
after the CPU, the domain from the first to the last switch, and names and events of which it draws, in every window of every monotone scale, every run that is wide enough, in the lane of its CPU
under the name and the pid of the task, and nothing else. For all files, parsers, windows, tasks, scales and ways to print the times that a browser reads as the same numbers.
If the end of a run was lost, the task must have the same name when it is switched to again. -/
theorem C164_plot_trace_partial (fuel : Nat) (ps : List ParserClass) (hps : ∀ p ∈ ps, p ∈ builtins) (hnd : ps.Nodup)
    (header : List Str) (items : List TraceItem) (h : TraceFile ps header items)
    (cells : ParserClass → TraceEvent → List (Str × Val))
    (hc : ∀ p ∈ ps, ClassReads fuel p.name (TraceItem.eventsOf p.event items) (cells p))
    (hm : ∀ p ∈ ps, EvenMasks p.name (TraceItem.eventsOf p.event items) (cells p))
    (u : UserParams) (hw : u.window.hi = none → u.absWindow.hi ≠ some 0)
    {p : ParserClass} (hp : p ∈ ps) (hname : p.name = cs!"sched_switch")
    {v : Str} {n : Nat} (hv : FirstHeader cs!"cpus" v (header ++ items.map TraceItem.text)) (hvn : IsDecimal v n) (hn : n ≠ 0) (execnames : List Str) (pids : List Nat)
    (v4 : Bool) {css : List Str} (hcss : ∀ l ∈ css, '<' ∉ l) {fig : Str} (hfig : '<' ∉ fig) (ft : Rat → Str) (num : Str → Option Rat) :
    ∃ (out : List Nat) (shift : Nat → Nat), MinimalTimes 0 (TraceItem.times items) out ∧
      (∀ t ∈ out, if u.normalize then NearestEven (val t - val (firstTime out)) (shift t) else shift t = t) ∧
      ∀ (sw : List SwitchRow) (f l : SwitchRow), List.Forall₂ IsSwitch ((fileRows (cells p) p items u out).map fun r => (shift r.1, r.2)) sw →
        sw.head? = some f → sw.getLast? = some l → Steady execnames pids sw → ReadsBack ft num (fun q => ∃ r ∈ sw, q = val r.time) →
        ∃ page, tracePage ft v4 css fig fuel ps u (header ++ items.map TraceItem.text) execnames pids = .ok page ∧
          ((∀ r ∈ sw, Tracked execnames pids r → ¬ EndsScript r.nextComm) → ∃ chart, shownChart num v4 fig page = some chart ∧
            chart.lanes = (List.range n).map (fun i : Nat => ((i : Rat), cs!"CPU :" ++ natStr i)) ∧ chart.domain = (val f.time, val l.time) ∧ chart.names.Nodup ∧
            (∀ k, k ∈ chart.names ↔ ∃ c q, k = c ++ '-' :: natStr q ∧ ∃ iv ∈ runsOf execnames pids l.time c q sw, iv.start < iv.stop) ∧
            ∀ x : Rat → Rat, (∀ u v, u ≤ v → x u ≤ x v) → ∀ a b : Rat, ∃ paths, getPaths x a b chart.items chart.names = some paths ∧ (paths.map Prod.fst).Sublist chart.names ∧
              (∀ c q, ∀ iv ∈ runsOf execnames pids l.time c q sw, WideEnough x a b (runEvent iv) →
                ∃ path, (c ++ '-' :: natStr q, path) ∈ paths ∧ ∃ s ∈ path, ShownAs x a b (runEvent iv) s) ∧
              (∀ path ∈ paths, path.2 ≠ [] ∧ ∃ c q, path.1 = c ++ '-' :: natStr q ∧ ∀ s ∈ path.2, ∃ iv ∈ runsOf execnames pids l.time c q sw,
                (WideEnough x a b (runEvent iv) ∧ ShownAs x a b (runEvent iv) s) ∨
                (max (val iv.start) a < min (val iv.stop) b ∧ ShownExactly x a b (runEvent iv) s))) := by
  obtain ⟨out, shift, o1, o2, o3⟩ := plotTrace_drawn fuel ps hps hnd header items h cells hc hm u hw hp hname hv hvn hn execnames pids
  refine ⟨out, shift, o1, o2, fun sw f l hsw hf hl hs hr => ?_⟩
  obtain ⟨P, p1, ⟨R, r1, r2, r3⟩, p2, p3, p4⟩ := o3 sw f l hsw hf hl hs
  refine ⟨eventHtml v4 css fig (graphJson ft P), by unfold tracePage; rw [p1], fun he => ?_⟩
  refine ⟨_, C164_page hr v4 hcss hfig (showable_runs hf hl hs r1 p2 p3 r2) ((noEndTag_runs r1 p2 r2 r3).2 he), ?_, p3, p4⟩
  simp only [p2]
  rw [List.zipIdx_map, List.map_map]
  refine List.ext_getElem (by simp) fun i h1 h2 => ?_
  simp [LaneLabel.text]

/-- **C164, refuted.** One switch to a task that is asked for and has the end tag of a script in its name, and nothing of the trace is drawn. For all such files. -/
theorem C164_script_refuted (fuel : Nat) (ps : List ParserClass) (hps : ∀ p ∈ ps, p ∈ builtins) (hnd : ps.Nodup)
    (header : List Str) (items : List TraceItem) (h : TraceFile ps header items)
    (cells : ParserClass → TraceEvent → List (Str × Val))
    (hc : ∀ p ∈ ps, ClassReads fuel p.name (TraceItem.eventsOf p.event items) (cells p))
    (hm : ∀ p ∈ ps, EvenMasks p.name (TraceItem.eventsOf p.event items) (cells p))
    (u : UserParams) (hw : u.window.hi = none → u.absWindow.hi ≠ some 0)
    {p : ParserClass} (hp : p ∈ ps) (hname : p.name = cs!"sched_switch")
    {v : Str} {n : Nat} (hv : FirstHeader cs!"cpus" v (header ++ items.map TraceItem.text)) (hvn : IsDecimal v n) (hn : n ≠ 0) (execnames : List Str) (pids : List Nat)
    (v4 : Bool) {css : List Str} (hcss : ∀ l ∈ css, '<' ∉ l) {fig : Str} (hfig : '<' ∉ fig) (ft : Rat → Str) (num : Str → Option Rat) :
    ∃ (out : List Nat) (shift : Nat → Nat), MinimalTimes 0 (TraceItem.times items) out ∧
      (∀ t ∈ out, if u.normalize then NearestEven (val t - val (firstTime out)) (shift t) else shift t = t) ∧
      ∀ (sw : List SwitchRow) (f l : SwitchRow), List.Forall₂ IsSwitch ((fileRows (cells p) p items u out).map fun r => (shift r.1, r.2)) sw →
        sw.head? = some f → sw.getLast? = some l → Steady execnames pids sw → ReadsBack ft num (fun q => ∃ r ∈ sw, q = val r.time) →
        (∃ r ∈ sw, Tracked execnames pids r ∧ EndsScript r.nextComm) →
        ∃ page, tracePage ft v4 css fig fuel ps u (header ++ items.map TraceItem.text) execnames pids = .ok page ∧ shownChart num v4 fig page = none := by
  obtain ⟨out, shift, o1, o2, o3⟩ := plotTrace_drawn fuel ps hps hnd header items h cells hc hm u hw hp hname hv hvn hn execnames pids
  refine ⟨out, shift, o1, o2, fun sw f l hsw hf hl hs hr ⟨r, h1, h2, h3⟩ => ?_⟩
  obtain ⟨P, p1, ⟨R, r1, r2, r3⟩, p2, p3, p4⟩ := o3 sw f l hsw hf hl hs
  refine ⟨eventHtml v4 css fig (graphJson ft P), by unfold tracePage; rw [p1], ?_⟩
  exact C164_tag_refuted hr v4 hcss hfig (showable_runs hf hl hs r1 p2 p3 r2) fun he => (noEndTag_runs r1 p2 r2 r3).1 he r h1 h2 h3

/-! ### Examples -/

/-- numbers as numerator and denominator -/
def exFloatText (q : Rat) : Str := natStr q.num.toNat ++ '.' :: natStr q.den

/-- and back -/
def exReadNum (s : Str) : Option Rat :=
  if '.' ∈ s then some ((natVal (s.takeWhile (· != '.')) : Rat) / natVal (s.dropWhile (· != '.')).tail) else some (natVal s)

theorem exReads : ReadsBack exFloatText exReadNum (fun q => q ∈ [(1 : Rat), 2, 5 / 2, 4]) := by
  refine ⟨?_, by decide +kernel, fun n => ?_⟩
  · unfold NumberText
    decide +kernel
  · unfold exReadNum
    rw [if_neg, natVal_natStr]
    intro h
    exact absurd (List.all_eq_true.1 (nat_all_digits n).2 _ h) (by decide)

/-- the plot of `exSwitchLines` -/
def exTracePlot : TracePlot :=
  { lanes := [.numbered cs!"CPU :" 0, .numbered cs!"CPU :" 1]
    keys := [cs!"sh-6", cs!"work-5"]
    items := [(cs!"work-5", [(.int 0, [(1, 2)]), (.int 1, [(5 / 2, 4)])]), (cs!"sh-6", [(.int 0, [(2, 4)])])]
    domain := (1, 4) }

example : ShowablePlot (fun q => q ∈ [(1 : Rat), 2, 5 / 2, 4]) exTracePlot ∧ NoEndTag exTracePlot := by
  refine ⟨⟨by decide +kernel, by decide +kernel, ?_, ?_, by decide +kernel, by decide +kernel⟩, ⟨?_, ?_, ?_⟩⟩
  · intro x hx
    rcases List.mem_cons.1 hx with rfl | hx
    · refine ⟨by decide, fun l hl => ?_⟩
      rcases List.mem_cons.1 hl with rfl | hl
      · exact ⟨0, rfl⟩
      · rw [List.mem_singleton] at hl; subst hl; exact ⟨1, rfl⟩
    · rw [List.mem_singleton] at hx
      subst hx
      refine ⟨by decide, fun l hl => ?_⟩
      rw [List.mem_singleton] at hl; subst hl; exact ⟨0, rfl⟩
  · intro l hl i e
    rcases List.mem_cons.1 hl with rfl | hl
    · cases e
    · rw [List.mem_singleton] at hl; subst hl; cases e
  · unfold EndsScript; decide +kernel
  · unfold EndsScript; decide +kernel
  · unfold EndsScript; decide +kernel

/-- From the lines of a file to what the browser draws from -/
example : (match tracePage exFloatText true [cs!"body {\n", cs!"}\n"] cs!"fig_1" 5 exWholeParsers (UserParams.full false) exSwitchLines [] [] with
    | .ok page => shownChart exReadNum true cs!"fig_1" page
    | .error _ => none) = some
    { lanes := [(0, cs!"CPU :0"), (1, cs!"CPU :1")]
      domain := (1, 4)
      names := [cs!"sh-6", cs!"work-5"]
      items := [(cs!"work-5", [(.int 0, [(1, 2)]), (.int 1, [(5 / 2, 4)])]), (cs!"sh-6", [(.int 0, [(2, 4)])])] } := by
  decide +kernel

/-- lines with a task that ends the script -/
def exTagLines : List Str := exSwitchLines ++ [cs!"a-1 [001] 5.0: sched_switch: prev_comm=work prev_pid=5 next_comm=</script> next_pid=7\n"]

/-- Nothing is drawn, although there are other tasks; without the task, the others are. -/
example : (match tracePage exFloatText true [] cs!"fig_1" 5 exWholeParsers (UserParams.full false) exTagLines [] [] with
    | .ok page => some (shownChart exReadNum true cs!"fig_1" page)
    | .error _ => none) = some none ∧
    (match tracePage exFloatText true [] cs!"fig_1" 5 exWholeParsers (UserParams.full false) exTagLines [cs!"sh"] [] with
    | .ok page => (shownChart exReadNum true cs!"fig_1" page).map EventChart.names
    | .error _ => none) = some [cs!"sh-6"] := by
  decide +kernel

example : Tracked [] [] ⟨ofRat 5 1, 5, 7, cs!"</script>", 1⟩ ∧ EndsScript cs!"</script>" := by
  unfold EndsScript
  decide +kernel

end Trappy
