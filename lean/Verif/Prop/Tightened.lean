import Verif.Prop.Merge
import Verif.Prop.FileLines
import Verif.Prop.IPyDir
import Verif.Prop.GrammarText
import Verif.Prop.Names
import Verif.Prop.StaticOpts
import Verif.Prop.TracePage
/-!
# Theorems added because a wrong program was not noticed

Each of these fails for an edit of the model that all other theorems accepted (see `seeded/LOG.jsonl`).
-/

namespace Trappy
open Re Py

/-- **C112**: series are merged only if there are at least two; one series alone is refused. -/
theorem C112_single (style : Option Str) (d : Dict LineSeries) : fixIndexes style d = .error .single ↔ d.length ≤ 1 := by
  unfold fixIndexes
  by_cases h : d.length ≤ 1
  · simp [h]
  · rw [if_neg h]
    simp only [h, iff_false]
    split
    · simp
    · simp

example : fixIndexes none [(cs!"a", [(1, some 1)])] = .error .single := by rfl

/-- **C162**: a trace has its own name in titles, or its number if it has none. -/
theorem C162_title (names : List Str) (i : Nat) (t : Str) :
    traceTitle names i = t ↔ (names[i]? = some t ∧ t ≠ []) ∨ ((names[i]? = none ∨ names[i]? = some []) ∧ t = cs!"Trace " ++ natStr i) := by
  unfold traceTitle
  cases h : names[i]? with
  | none => simp [eq_comm]
  | some n =>
    by_cases hn : n = []
    · subst hn
      simp only [ne_eq, not_true_eq_false, if_false, Option.some.injEq, reduceCtorEq, false_or, true_and]
      constructor
      · intro e; exact Or.inr e.symm
      · rintro (⟨e, h'⟩ | e)
        · exact absurd e.symm h'
        · exact e.symm
    · simp only [ne_eq, hn, not_false_eq_true, if_true, Option.some.injEq, reduceCtorEq, or_self, false_and, or_false]
      constructor
      · intro e; exact ⟨e, e ▸ hn⟩
      · rintro ⟨e, _⟩; exact e

example : traceTitle [cs!"idle", []] 0 = cs!"idle" ∧ traceTitle [cs!"idle", []] 1 = cs!"Trace 1" ∧ traceTitle [] 2 = cs!"Trace 2" := by decide +kernel

/-- **C166**: the installation ends well if every download succeeds. -/
theorem C166_installed (content : Str → Str) (net : Str → Fetch) (dir : Str) (rs : List Str) (disk : Dict Str) (h : ∀ r ∈ rs, startsWith r cs!"http" = false ∨ net r = .all) :
    (iplotInstallAt content net dir rs disk).1 = true := by
  induction rs generalizing disk with
  | nil => rfl
  | cons r rs ih =>
    have hr : ∃ d, installResource (content r) (net r) r (osJoin dir (baseName r)) disk = (true, d) := by
      unfold installResource
      rcases h r List.mem_cons_self with h1 | h1
      · rw [h1]; exact ⟨_, rfl⟩
      · rw [h1]
        split
        · split
          · exact ⟨_, rfl⟩
          · exact ⟨_, rfl⟩
        · exact ⟨_, rfl⟩
    obtain ⟨d, hd⟩ := hr
    rw [iplotInstallAt, hd]
    exact ih d fun r hr => h r (List.mem_cons_of_mem _ hr)

/-- **C166**: a directory may be given with or without a slash at its end. -/
theorem C166_slash (a b : Str) (ha : a ≠ []) (hs : endsWith a cs!"/" = false) (hb : startsWith b cs!"/" = false) :
    osJoin a b = a ++ cs!"/" ++ b ∧ osJoin (a ++ cs!"/") b = a ++ cs!"/" ++ b := by
  have he : endsWith (a ++ cs!"/") cs!"/" = true := by simp [endsWith]
  constructor
  · simp [osJoin, hb, ha, hs]
  · simp [osJoin, hb, he]

example : osJoin cs!"/home/u/.ipython/" cs!"x.js" = cs!"/home/u/.ipython/x.js" := by decide +kernel

theorem takeDigits_text (s : Str) : (takeDigits s).1 ++ (takeDigits s).2 = s := by
  induction s with
  | nil => rfl
  | cons c s ih =>
    unfold takeDigits
    split
    · simp [ih]
    · rfl

/-- **C93**: reading an exponent loses no character of the text. -/
theorem C93_exponent (s : Str) : (takeExp s).1 ++ (takeExp s).2 = s := by
  unfold takeExp
  split
  · rename_i c x cs
    split
    · split
      · have := takeDigits_text cs
        split
        · rfl
        · rename_i h; rw [h] at this; simp [this]
      · have := takeDigits_text (x :: cs)
        split
        · rfl
        · rename_i h; rw [h] at this; simp [this]
    · rfl
  · rfl

example : takeExp cs!"e5 * 2" = (cs!"e5", cs!" * 2") ∧ takeExp cs!"e-5" = (cs!"e-5", []) := by decide +kernel

/-- **C109**: an accessor stands for the column of its own event, if there is such a column, and otherwise for nothing. -/
theorem C109_accessor {V G : Type} (env : NEnv V G) (ops : GInterp V) (apply : G → List V → Option V) (e c : Str) :
    ((env.columns.get c).isSome → (namesInterp env ops apply).acc e c = some (.column (ops.acc e c))) ∧
    (env.columns.get c = none → (namesInterp env ops apply).acc e c = none) := by
  constructor
  · intro h
    obtain ⟨v, hv⟩ := Option.isSome_iff_exists.mp h
    simp [namesInterp, hv]
  · intro h
    simp [namesInterp, h]

/-- **C154**: a figure without a width or a length has 7 for it. -/
theorem C154_default_size (cols num : Nat) (w l : Option Rat) (t : Option (Option Str)) :
    plotLayout cols num { width := none, length := l, title := t } = plotLayout cols num { width := some 7, length := l, title := t } ∧
    plotLayout cols num { width := w, length := none, title := t } = plotLayout cols num { width := w, length := some 7, title := t } := ⟨rfl, rfl⟩

/-- **C164**: the page of a trace asks for the summary, for all events and for no colours, whatever is plotted. -/
theorem C164_options (ft : Rat → Str) (P : TracePlot) : jsMember (seen (graphJson ft P)) cs!"showSummary" = some (.bool true) ∧
    jsMember (seen (graphJson ft P)) cs!"stride" = some (.bool false) ∧ jsMember (seen (graphJson ft P)) cs!"colorMap" = some .null := ⟨rfl, rfl, rfl⟩

/-- the call that the page makes, with its quotes -/
example : eventPre cs!"fig_1" cs!"/nb/" ++ cs!"{}" ++ eventPost =
    cs!"            EventPlot.generate('fig_1', '/nb/', {});\n        }); /* TRAPPY_PUBLISH_REMOVE_LINE */\n        " := by decide +kernel

/-- the script up to the call -/
theorem eventScript_split (v4 : Bool) (fig : Str) : eventScript v4 fig = (reqStart ++ addWebBase v4 cs!"plotter_scripts/EventPlot/EventPlot" ++ cs!"',\n                    \"d3-tip\": '" ++
    addWebBase v4 cs!"plotter_scripts/EventPlot/d3.tip.v0.6.3" ++ cs!"',\n                    \"d3-plotter\": '" ++
    addWebBase v4 cs!"plotter_scripts/EventPlot/d3.min" ++ reqRest) ++
    (cs!"\n        req([\"require\", \"EventPlot\"], function() { /* TRAPPY_PUBLISH_REMOVE_LINE */\n" ++ eventPre fig (addWebBase v4 [])) := by
  simp only [eventScript, List.append_assoc]

/-- **C166**: every script that is installed for event plots is looked for by the page under the name it was installed with: the address in quotes, with `.js` added, ends in the name of the file. -/
theorem C166_page_paths (v4 : Bool) (fig : Str) (rs : List Str) (hrs : iplotResources.lookup cs!"EventPlot" = some rs) (r stem : Str) (hr : r ∈ rs) (hb : baseName r = stem ++ cs!".js") :
    cs!"'" ++ addWebBase v4 (cs!"plotter_scripts/EventPlot/" ++ stem) ++ cs!"'" <:+: eventScript v4 fig := by
  have hall : ∀ v4 : Bool, ∀ r ∈ (iplotResources.lookup cs!"EventPlot").toList.flatten, endsWith (baseName r) cs!".js" = true →
      cs!"'" ++ addWebBase v4 (cs!"plotter_scripts/EventPlot/" ++ (baseName r).take ((baseName r).length - 3)) ++ cs!"'" <:+:
      (reqStart ++ addWebBase v4 cs!"plotter_scripts/EventPlot/EventPlot" ++ cs!"',\n                    \"d3-tip\": '" ++
        addWebBase v4 cs!"plotter_scripts/EventPlot/d3.tip.v0.6.3" ++ cs!"',\n                    \"d3-plotter\": '" ++
        addWebBase v4 cs!"plotter_scripts/EventPlot/d3.min" ++ reqRest) := by decide +kernel
  have h := hall v4 r (by rw [hrs]; simpa using hr) (by rw [hb]; simp [endsWith])
  rw [hb] at h
  simp only [List.length_append, List.length_cons, List.length_nil] at h
  rw [show stem.length + (0 + 1 + 1 + 1) - 3 = stem.length by omega, List.take_left] at h
  rw [eventScript_split]
  exact h.trans (List.infix_append_left)

/-- three of the four files are scripts -/
example : (iplotResources.lookup cs!"EventPlot").map (fun rs => rs.map baseName) = some [cs!"d3.min.js", cs!"d3.tip.v0.6.3.js", cs!"EventPlot.js", cs!"EventPlot_help.jpg"] := by decide +kernel

end Trappy
