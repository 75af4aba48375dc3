import Verif.Prop.Builtin
/-!
# C118: exactly which events are asked for in raw form
-/

namespace Trappy
open Py

/-- **C118**: with the built-in parsers and any further ones, an event is asked for in raw form exactly if it is one of the six built-in raw
events, or the name of one of the further parsers that is to be parsed raw. -/
theorem C118_raw_exact (more : List ParserClass) (e : Str) : e ∈ rawEventList builtinThermal builtinSched (builtinDynamic ++ more) ↔
    e ∈ [cs!"sched_wakeup", cs!"sched_wakeup_new", cs!"sched_switch", cs!"function", cs!"funcgraph_entry", cs!"funcgraph_exit"] ∨
    ∃ c ∈ more, c.raw = true ∧ c.name = e ∧ e ≠ [] := by
  have hb : rawEventList builtinThermal builtinSched builtinDynamic =
      [cs!"sched_wakeup", cs!"sched_wakeup_new", cs!"sched_switch", cs!"function", cs!"funcgraph_entry", cs!"funcgraph_exit"] := by decide +kernel
  have h1 := mem_rawEventList builtinThermal builtinSched builtinDynamic e
  rw [hb] at h1
  rw [mem_rawEventList, h1]
  simp only [List.mem_append]
  constructor
  · rintro ⟨c, hc | hc | hc | hc, h⟩
    · exact Or.inl ⟨c, Or.inl hc, h⟩
    · exact Or.inl ⟨c, Or.inr (Or.inl hc), h⟩
    · exact Or.inl ⟨c, Or.inr (Or.inr hc), h⟩
    · exact Or.inr ⟨c, hc, h⟩
  · rintro (⟨c, hc | hc | hc, h⟩ | ⟨c, hc, h⟩)
    · exact ⟨c, Or.inl hc, h⟩
    · exact ⟨c, Or.inr (Or.inl hc), h⟩
    · exact ⟨c, Or.inr (Or.inr (Or.inl hc)), h⟩
    · exact ⟨c, Or.inr (Or.inr (Or.inr hc)), h⟩

/-- **C118 refuted** for every parser made with `register_dynamic_ftrace`, to be parsed raw, whose class name does not make the name of its
event, unless a built-in parser asks for the event: its event is not asked for in raw form. -/
theorem C118_registered_refuted (className word : Str) (hn : getName className ≠ (dynamicClass className word true).event)
    (hb : (dynamicClass className word true).event ∉
      [cs!"sched_wakeup", cs!"sched_wakeup_new", cs!"sched_switch", cs!"function", cs!"funcgraph_entry", cs!"funcgraph_exit"]) :
    (dynamicClass className word true).event ∉ rawEventList builtinThermal builtinSched (builtinDynamic ++ [dynamicClass className word true]) := by
  rw [C118_raw_exact]
  rintro (h | ⟨c, hc, _, h, _⟩)
  · exact hb h
  · rw [List.mem_singleton.mp hc] at h
    exact hn h

example : getName cs!"IrqEntry" ≠ (dynamicClass cs!"IrqEntry" cs!"irq_handler_entry:" true).event ∧
    (dynamicClass cs!"IrqEntry" cs!"irq_handler_entry:" true).event = cs!"irq_handler_entry" := by decide +kernel
example : cs!"irq_handler_entry" ∈ rawEventList builtinThermal builtinSched (builtinDynamic ++ [dynamicClass cs!"IrqHandlerEntry" cs!"irq_handler_entry:" true]) := by
  decide +kernel

end Trappy
