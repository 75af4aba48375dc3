import Verif.Model.LineScript
import Mathlib.Tactic.Common
/-!
# C166: the scripts of line plots are looked for where they are installed
-/

namespace Trappy
open Py

/-- **C166**: every script that is installed for line plots is looked for by the page under the name it was installed with, whatever is drawn. -/
theorem C166_line_paths (v4 : Bool) (fig : Str) (colours : Option Str) (rs : List Str) (hrs : iplotResources.lookup cs!"ILinePlot" = some rs) (r stem : Str) (hr : r ∈ rs)
    (hb : baseName r = stem ++ cs!".js") : cs!"'" ++ addWebBase v4 (cs!"plotter_scripts/ILinePlot/" ++ stem) ++ cs!"'" <:+: ilpScript v4 fig colours := by
  have hall : ∀ v4 : Bool, ∀ r ∈ (iplotResources.lookup cs!"ILinePlot").toList.flatten,
      cs!"'" ++ addWebBase v4 (cs!"plotter_scripts/ILinePlot/" ++ (baseName r).take ((baseName r).length - 3)) ++ cs!"'" <:+: ilpPaths v4 := by decide +kernel
  have h := hall v4 r (by rw [hrs]; simpa using hr)
  rw [hb] at h
  simp only [List.length_append, List.length_cons, List.length_nil] at h
  rw [show stem.length + (0 + 1 + 1 + 1) - 3 = stem.length by omega, List.take_left] at h
  unfold ilpScript
  simp only [List.append_assoc] at h ⊢
  exact h.trans List.infix_append_left

/-- **C166**: all four files of line plots are scripts. -/
theorem C166_line_files (rs : List Str) (hrs : iplotResources.lookup cs!"ILinePlot" = some rs) (r : Str) (hr : r ∈ rs) : ∃ stem, baseName r = stem ++ cs!".js" := by
  have hall : ∀ r ∈ (iplotResources.lookup cs!"ILinePlot").toList.flatten, baseName r = (baseName r).take ((baseName r).length - 3) ++ cs!".js" := by decide +kernel
  exact ⟨_, hall r (by rw [hrs]; simpa using hr)⟩

/-- **C166**: the script ends with the call that draws the figure with its own data, and with the colours if there are any. -/
theorem C166_line_call (v4 : Bool) (fig c : Str) :
    (∃ pre, ilpScript v4 fig none = pre ++ (cs!"ILinePlot.generate(" ++ fig ++ cs!"_data);\n            }); /* TRAPPY_PUBLISH_REMOVE_LINE */\n            </script>\n        ")) ∧
    ∃ pre, ilpScript v4 fig (some c) = pre ++ (cs!"ILinePlot.generate(" ++ fig ++ cs!"_data, " ++ c ++ cs!");\n            }); /* TRAPPY_PUBLISH_REMOVE_LINE */\n            </script>\n        ") := by
  have hs : ∀ v4, ∃ pre, ilpPaths v4 = pre ++ cs!"ILinePlot.generate(" := by
    intro v4
    have h : ∀ v4, cs!"ILinePlot.generate(" <:+ ilpPaths v4 := by decide +kernel
    obtain ⟨pre, e⟩ := h v4
    exact ⟨pre, e.symm⟩
  obtain ⟨pre, e⟩ := hs v4
  constructor
  · exact ⟨pre, by simp [ilpScript, e, ilpTail]⟩
  · exact ⟨pre, by simp [ilpScript, e, ilpTail]⟩

example : (iplotResources.lookup cs!"ILinePlot").map (fun rs => rs.map baseName) =
    some [cs!"dygraph-combined.js", cs!"ILinePlot.js", cs!"synchronizer.js", cs!"underscore-min.js"] := by decide +kernel

example : cs!"'/nbextensions/plotter_scripts/ILinePlot/synchronizer'" <:+: ilpScript true cs!"fig_1" none := by decide +kernel

end Trappy
