import Verif.Model.StaticPlot
/-!
# Showing and saving static plots

Source: `trappy/plotter/StaticPlot.py` lines 119-121, 147-154 (`savefig`), 176-188 (`view`), 223-290 (`_resolve`: when the figure is set) and `trappy/plotter/AttrConf.py` line 65 (`interactive` in `MPL_STYLE`).

A session is a sequence of calls of `view` and `savefig` of some plots. `_resolve` sets `self._fig` as soon as there is a layout (line 238), before anything is drawn; so a figure is kept with the result of the drawing,
which is an error if the drawing stopped somewhere. `plt.rc_context` restores the settings of matplotlib in any case.

Simplifications: of the style only the entry `interactive` is followed, as nothing else in it ever changes; the plots are line plots without options (`linePlot`); writing the file never fails.
-/

namespace Trappy

/-- what a plot is made of: the arguments of `linePlot` -/
structure SPlotArgs where
  perLine : Nat
  mode : PlotMode
  labels : PlotLabels
  nTraces : Nat
  maxLen : Nat
  cs : List LConstraint
  pivots : List Val

/-- `num_of_axes` (StaticPlot.py:226) -/
def SPlotArgs.num (a : SPlotArgs) : Nat :=
  match a.mode with
  | .plain => a.pivots.length
  | .concat => a.cs.length
  | .permute => a.pivots.length * a.nTraces

/-- what `_resolve` draws -/
def SPlotArgs.drawn (a : SPlotArgs) : Except DErr (List DrawnAxis × List (Option Str)) := linePlot a.perLine a.mode a.labels a.nTraces a.maxLen a.cs a.pivots

/-- a figure: what was drawn, an error if the drawing stopped; and the entry `interactive` of the style, `none` without style -/
structure SFig where
  drawn : Except DErr (List DrawnAxis × List (Option Str))
  interactive : Option Bool

/-- a plot: `_attr["style"]` and `_fig` -/
structure SPlot where
  args : SPlotArgs
  style : Bool
  fig : Option SFig

/-- the plots, and `AttrConf.MPL_STYLE["interactive"]` -/
structure SWorld where
  plots : List SPlot
  interactive : Bool

/-- a call -/
inductive SOp where
  | view (i : Nat) (test : Bool)
  | save (i : Nat)
deriving DecidableEq

/-- what a call gives -/
inductive SRes where
  /-- there is no such plot -/
  | missing
  /-- `view` returns -/
  | shown
  /-- an exception -/
  | raised (e : DErr)
  /-- `savefig` writes this figure -/
  | saved (f : SFig)

/-- `_resolve` (StaticPlot.py:223-290): the plot after it, and the exception. There is no new figure if there is no layout (PlotLayout.py:54). -/
def resolvePlot (interactive : Bool) (p : SPlot) : SPlot × Option DErr :=
  match mkLayout p.args.perLine p.args.num with
  | .error e => (p, some (.layout e))
  | .ok _ =>
    ({ p with fig := some ⟨p.args.drawn, if p.style then some interactive else none⟩ },
      match p.args.drawn with
      | .error e => some e
      | .ok _ => none)

/-- `view` (StaticPlot.py:176-188): the plot, `MPL_STYLE["interactive"]` and the exception -/
def viewStatic (test interactive : Bool) (p : SPlot) : SPlot × Bool × Option DErr :=
  let p := if test then { p with style := true } else p
  let interactive := if test then false else interactive
  let r := resolvePlot interactive p
  (r.1, interactive, r.2)

/-- one call; `savefig` (StaticPlot.py:147-154) calls `view` only if there is no figure -/
def sStep (w : SWorld) : SOp → SWorld × SRes
  | .view i test =>
    match w.plots[i]? with
    | none => (w, .missing)
    | some p =>
      let r := viewStatic test w.interactive p
      (⟨w.plots.set i r.1, r.2.1⟩, match r.2.2 with | some e => .raised e | none => .shown)
  | .save i =>
    match w.plots[i]? with
    | none => (w, .missing)
    | some p =>
      match p.fig with
      | some f => (w, .saved f)
      | none =>
        let r := viewStatic false w.interactive p
        (⟨w.plots.set i r.1, r.2.1⟩,
          match r.2.2, r.1.fig with
          | some e, _ => .raised e
          | none, some f => .saved f
          | none, none => .missing)

/-- the world after some calls -/
def sRun (w : SWorld) (ops : List SOp) : SWorld := ops.foldl (fun w op => (sStep w op).1) w

/-- new plots (StaticPlot.py:120, AttrConf.py:65) -/
def sNew (plots : List (SPlotArgs × Bool)) : SWorld := ⟨plots.map fun p => ⟨p.1, p.2, none⟩, true⟩

end Trappy
