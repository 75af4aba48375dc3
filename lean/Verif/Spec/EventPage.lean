import Verif.Model.EventPage
/-!
# Event plots on one page: what is to hold

Events stand where the axis says: the scale by which the events of a plot were placed is the scale by which its axis was drawn.
-/

namespace Trappy

/-- What d3 and the user do: plots of some time and width, a zoom within its extent, a brush within the data and not narrower than
a 4096th of it (see C130 for narrower ones), and positive widths. -/
def EvActOk (g : EvPage) : EvAct → Prop
  | .draw a b w _ => a < b ∧ 0 < w
  | .gesture _ v => 1 ≤ v.k ∧ v.k ≤ 4096
  | .brush i u v => ∀ p, g.plots[i]? = some p → p.x.a ≤ u ∧ u < v ∧ v ≤ p.x.b ∧ p.x.b - p.x.a ≤ 4096 * (v - u)
  | .resize ws => ∀ i, 0 < ws i

/-- every action of a sequence is one of these -/
def EvActsOk (g : EvPage) : List EvAct → Prop
  | [] => True
  | a :: as => EvActOk g a ∧ EvActsOk (g.act a) as

/-- nothing but plots of the width `w`, zooms and brushes -/
def EvAct.Still (w : Rat) : EvAct → Prop
  | .draw _ _ w' _ => w' = w
  | .gesture _ _ => True
  | .brush _ _ _ => True
  | .resize _ => False

/-- the widths at which the plots were drawn -/
def drawnWidths : List EvAct → List Rat
  | [] => []
  | .draw _ _ w _ :: as => w :: drawnWidths as
  | _ :: as => drawnWidths as

/-- the widths that the plots have after an action -/
def widthsAfter (ws : List Rat) : EvAct → List Rat
  | .draw _ _ w _ => ws ++ [w]
  | .resize f => (List.range ws.length).map f
  | _ => ws

end Trappy
