import Verif.Model.StaticOpts
/-!
# Areas under lines

Models `/repo/trappy/plotter/LinePlot.py` lines 144-171 (`fill_line` and the loop of `plot_axis`) and `/repo/trappy/plotter/StaticPlot.py` lines
268-280 (limits of the vertical axis), for one axis.

Simplifications: numbers are rationals, without NaN; a line is given by its values; the lower limit that matplotlib gives an axis is a function of
the values drawn so far, those of areas included, and is a parameter. Lines that are drawn as steps are refused (`Verif.Model.StaticOpts`) and left out here.
-/

namespace Trappy

/-- an area: its lower edge and the values of its upper edge -/
structure FillArea where
  base : Rat
  top : List Rat
deriving DecidableEq

/-- an axis: the values that matplotlib has been given, and the areas -/
structure FillAxis where
  drawn : List Rat
  areas : List FillArea
deriving DecidableEq

/-- `fill_line` (LinePlot.py:151-157): the lower edge is the lower limit of the axis at this moment -/
def fillLine (bottom : List Rat → Rat) (ax : FillAxis) (ys : List Rat) : FillAxis :=
  let base := bottom ax.drawn
  { drawn := ax.drawn ++ base :: ys, areas := ax.areas ++ [⟨base, ys⟩] }

/-- the loop of `plot_axis` (LinePlot.py:161-171) -/
def fillAxis (bottom : List Rat → Rat) (fill : Bool) : List (List Rat) → FillAxis → FillAxis
  | [], ax => ax
  | ys :: lines, ax =>
    let ax1 : FillAxis := { ax with drawn := ax.drawn ++ ys }
    fillAxis bottom fill lines (if fill then fillLine bottom ax1 ys else ax1)

/-- the lower limit in the end (StaticPlot.py:279-280): that of `ylim`, if it is given -/
def finalBottom (bottom : List Rat → Rat) (ylim : Option (Rat × Rat)) (ax : FillAxis) : Rat :=
  match ylim with
  | some l => l.1
  | none => bottom ax.drawn

end Trappy
