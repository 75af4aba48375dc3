import Verif.Prop.Builtin
/-!
# Exactly which lines go to a built-in parser
-/

namespace Trappy

open Re Py

/-- **C117, exactly.** A line is taken by none of the built-in parsers in use if and only if none of their unique words is in its task
name, in its event name with the colon, or in its payload. If it is taken, it is by a parser whose word is in one of them. -/
theorem C117_exact (l : PrintedLine) (hl : l.WF) (ws : Str) (hws : AllC isSpace ws) (ps : List ParserClass)
    (hps : ∀ p ∈ ps, p ∈ builtins) :
    (getTraceClass (l.text ++ ws) (ps.map ParserClass.toCls) = none ↔
      ∀ p ∈ ps, ¬ p.word <:+: l.comm ∧ ¬ p.word <:+: l.event ++ [':'] ∧ ¬ p.word <:+: l.data) ∧
    ∀ i, getTraceClass (l.text ++ ws) (ps.map ParserClass.toCls) = some i →
      ∃ p, ps[i]? = some p ∧ (p.word <:+: l.comm ∨ p.word <:+: l.event ++ [':'] ∨ p.word <:+: l.data) := by
  have key : ∀ p ∈ ps, (p.word <:+: l.text ++ ws ↔ p.word <:+: l.comm ∨ p.word <:+: l.event ++ [':'] ∨ p.word <:+: l.data) := by
    intro p hp
    obtain ⟨k1, k2, x, k3, k4⟩ := builtins_keywords p (hps p hp)
    have hk : Keyword p.word := ⟨fun y hy => List.all_eq_true.mp k1 y hy, k2, x, k3, k4⟩
    exact keyword_in_line hl hk hws
  constructor
  · rw [(C09_dispatch _ _).1]
    constructor
    · intro h p hp
      have := h p.toCls (List.mem_map.2 ⟨p, hp, rfl⟩)
      have h' : ¬ p.word <:+: l.text ++ ws := this
      rw [key p hp] at h'
      exact ⟨fun c => h' (.inl c), fun c => h' (.inr (.inl c)), fun c => h' (.inr (.inr c))⟩
    · intro h d hd
      obtain ⟨p, hp, rfl⟩ := List.mem_map.1 hd
      show ¬ p.word <:+: _
      rw [key p hp]
      obtain ⟨h1, h2, h3⟩ := h p hp
      rintro (c | c | c)
      · exact h1 c
      · exact h2 c
      · exact h3 c
  · intro i hi
    obtain ⟨c, h1, h2, _⟩ := (C09_dispatch _ _).2 i hi
    rw [List.getElem?_map, Option.map_eq_some_iff] at h1
    obtain ⟨p, h3, rfl⟩ := h1
    exact ⟨p, h3, (key p (List.mem_of_getElem? h3)).1 h2⟩

/-- a `sched_switch` line that no parser but the one of `cpu_idle` could take, and one of `cpu_idle_miss` that it takes -/
example : exampleLine.WF ∧ (∀ p ∈ [unnamed cs!"cpu_idle"], p ∈ builtins) ∧
    getTraceClass (exampleLine.text ++ ['\n']) [(unnamed cs!"cpu_idle").toCls] = none ∧
    getTraceClass (({ exampleLine with event := cs!"cpu_idle_miss" } : PrintedLine).text ++ ['\n']) [(unnamed cs!"cpu_idle").toCls] = some 0 := by
  refine ⟨PrintedLine.wf_of_wfB (by decide +kernel), ?_, ?_, ?_⟩ <;> decide +kernel

end Trappy
