import Verif.Prop.StaticOpts

/-! Exactly when data are visible and when a marker that was given is drawn. -/

namespace Trappy

/-- a value of the data is at or beyond a limit -/
def Beyond (l : Rat × Rat) (data : List Flt) : Prop := ∃ x : Rat, some x ∈ data ∧ (x ≤ l.1 ∨ l.2 ≤ x)

/-- **C155 (exactly).** Whichever axes are current: if the first value is a number, all data are visible afterwards exactly if some value is at or beyond a limit of the *current* axes, or if all were
visible on the axes of the result before. -/
theorem C155_exact (own cur : Rat × Rat) (first : Rat) (rest : List Flt) :
    ∃ lo hi : Rat, axisAfter own cur (some first :: rest) = some (some lo, some hi) ∧
      ((∀ x : Rat, some x ∈ some first :: rest → lo < x ∧ x < hi) ↔
        Beyond cur (some first :: rest) ∨ ∀ x : Rat, some x ∈ some first :: rest → own.1 < x ∧ x < own.2) := by
  obtain ⟨lo, hi, h, h1, h2, h3, h4, h5⟩ := C155_visible cur first rest
  by_cases hb : Beyond cur (some first :: rest)
  · -- the limits set do not depend on those before
    have hne : enlargeAxis cur (some first :: rest) ≠ some none := by
      intro hn
      have : axisAfter cur cur (some first :: rest) = some (some cur.1, some cur.2) := by rw [axisAfter, hn]
      rw [this] at h
      simp only [Option.some.injEq, Prod.mk.injEq] at h
      obtain ⟨x, hx, hx2⟩ := hb
      have := h3 x hx
      rw [← h.1, ← h.2] at this
      rcases hx2 with hx2 | hx2
      · exact absurd this.1 (not_lt.2 hx2)
      · exact absurd this.2 (not_lt.2 hx2)
    have : axisAfter own cur (some first :: rest) = axisAfter cur cur (some first :: rest) := by
      simp only [axisAfter]
      cases he : enlargeAxis cur (some first :: rest) with
      | none => rfl
      | some o => cases o with
        | none => exact absurd he hne
        | some l => rfl
    exact ⟨lo, hi, this.trans h, ⟨fun _ => .inl hb, fun _ => h3⟩⟩
  · have hn : enlargeAxis cur (some first :: rest) = some none := by
      obtain ⟨a, ha, ha1, ha2, ha3⟩ := pyMinF_some rest first
      obtain ⟨b, hb', hb1, hb2, hb3⟩ := pyMaxF_some rest first
      have hma : some a ∈ some first :: rest := by
        rcases ha3 with rfl | h
        · exact List.mem_cons_self
        · exact List.mem_cons_of_mem _ h
      have hmb : some b ∈ some first :: rest := by
        rcases hb3 with rfl | h
        · exact List.mem_cons_self
        · exact List.mem_cons_of_mem _ h
      have hA : ¬ a ≤ cur.1 := fun hh => hb ⟨a, hma, .inl hh⟩
      have hB : ¬ cur.2 ≤ b := fun hh => hb ⟨b, hmb, .inr hh⟩
      simp [enlargeAxis, ha, hb', fltLe, hA, hB]
    refine ⟨own.1, own.2, by rw [axisAfter, hn], ?_⟩
    simp [hb]

/-- **C155 refuted (other axes, always).** If no value reaches the limits of the current axes, what lies outside the axes of the result remains outside. -/
theorem C155_outside_refuted (own cur : Rat × Rat) (first : Rat) (rest : List Flt) (h : ¬ Beyond cur (some first :: rest)) :
    axisAfter own cur (some first :: rest) = some (some own.1, some own.2) := by
  obtain ⟨lo, hi, h1, h2⟩ := C155_exact own cur first rest
  have hn : axisAfter cur cur (some first :: rest) = some (some cur.1, some cur.2) := by
    obtain ⟨l, u, g1, g2, g3, g4, g5, g6⟩ := C155_visible cur first rest
    rw [g1, g5 fun x hx => not_le.1 fun hh => h ⟨x, hx, .inl hh⟩, g6 fun x hx => not_le.1 fun hh => h ⟨x, hx, .inr hh⟩]
  have he : enlargeAxis cur (some first :: rest) = some none ∨ enlargeAxis cur (some first :: rest) = some (some (some cur.1, some cur.2)) := by
    unfold axisAfter at hn
    cases he : enlargeAxis cur (some first :: rest) with
    | none => rw [he] at hn; exact absurd hn (by simp)
    | some o => cases o with
      | none => exact .inl rfl
      | some l =>
        rw [he] at hn
        right
        simpa using hn
  rcases he with he | he
  · rw [axisAfter, he]
  · exfalso
    obtain ⟨a, ha, ha1, ha2, ha3⟩ := pyMinF_some rest first
    obtain ⟨b, hb', hb1, hb2, hb3⟩ := pyMaxF_some rest first
    have hma : some a ∈ some first :: rest := by
      rcases ha3 with rfl | h
      · exact List.mem_cons_self
      · exact List.mem_cons_of_mem _ h
    have hmb : some b ∈ some first :: rest := by
      rcases hb3 with rfl | h
      · exact List.mem_cons_self
      · exact List.mem_cons_of_mem _ h
    have hA : ¬ a ≤ cur.1 := fun hh => h ⟨a, hma, .inl hh⟩
    have hB : ¬ cur.2 ≤ b := fun hh => h ⟨b, hmb, .inr hh⟩
    simp [enlargeAxis, ha, hb', fltLe, hA, hB] at he

/-- C155: the current axes are reached, and not reached -/
example : Beyond (0, 10) [some 5, none, some 12] ∧ ¬ Beyond (0, 100) [some 5, none, some 12] := by
  refine ⟨⟨12, by simp, .inr (by norm_num)⟩, ?_⟩
  rintro ⟨x, hx, h⟩
  simp at hx
  rcases hx with rfl | rfl <;> norm_num at h

/-- **C152 (exactly).** A marker that is given, and is one of the options forwarded, is drawn exactly if the plot is no scatter plot or the marker given is a circle; the same for the style of the line
and the empty style. -/
theorem C152_exact (ops : List FwdOp) {color : OptVal} {kw : List (Str × OptVal)} (hn : (kw.map Prod.fst).Nodup) {c : LineCall} (h : optLinePlot ops color kw = .ok c) :
    (∀ v, (cs!"marker", v) ∈ kw → Registered ops cs!"marker" → (c.opts.get cs!"marker" = some v ↔ ¬ SetOpt ops kw cs!"scatter" ∨ v = .str cs!"o")) ∧
    (∀ v, (cs!"linestyle", v) ∈ kw → Registered ops cs!"linestyle" → (c.opts.get cs!"linestyle" = some v ↔ ¬ SetOpt ops kw cs!"scatter" ∨ v = .str [])) := by
  by_cases hs : SetOpt ops kw cs!"scatter"
  · obtain ⟨_, h2, h3, _⟩ := C152_scatter ops hn hs h
    refine ⟨fun v _ _ => ?_, fun v _ _ => ?_⟩
    · rw [h3]; simp [hs, eq_comm]
    · rw [h2]; simp [hs, eq_comm]
  · obtain ⟨_, h2, _⟩ := C152_options ops hn hs h
    refine ⟨fun v hv hr => ?_, fun v hv hr => ?_⟩
    · rw [h2 _ _ (by decide)]; simp [hs, hv, hr]
    · rw [h2 _ _ (by decide)]; simp [hs, hv, hr]

/-- C152: crosses in a line plot -/
example : optLinePlot [] (.str cs!"c0") [(cs!"marker", .str cs!"x")] = .ok ⟨[(cs!"color", .str cs!"c0"), (cs!"marker", .str cs!"x")], false⟩ := by decide +kernel

end Trappy
