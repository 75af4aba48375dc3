import Verif.Prop.PublishRun
/-!
# C170: exactly which notebooks are published to the same file
-/

namespace Trappy

/-- **C170**: without a name for the output, two notebooks are published from one directory to the same file exactly if they have the same name,
whatever directories they are in. -/
theorem C170_same_exact (a b : PublishArgs) (ha : a.outfile = []) (hb : b.outfile = []) (hc : a.cwd = b.cwd) :
    publishedFile a = publishedFile b ↔ baseName a.notebook = baseName b.notebook := by
  rw [C170_elsewhere_refuted a ha, C170_elsewhere_refuted b hb, hc]
  exact ⟨fun h => List.append_cancel_left h, fun h => by rw [h]⟩

example : publishedFile ⟨cs!"/home", cs!"default", [], cs!"a/x.ipynb"⟩ = publishedFile ⟨cs!"/home", cs!"default", [], cs!"b/x.ipynb"⟩ ∧
    publishedFile ⟨cs!"/home", cs!"default", [], cs!"a/x.ipynb"⟩ ≠ publishedFile ⟨cs!"/home", cs!"default", [], cs!"a/y.ipynb"⟩ := by decide +kernel

end Trappy
