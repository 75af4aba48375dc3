import Verif.Model.EventPlotJs
/-!
# What the plots in the browser shall show
-/

namespace Trappy

/-- Events of a lane follow one another: neither the starts nor the ends go back. -/
def InOrder (es : List LaneEvent) : Prop := es.Pairwise fun a b => a.lane = b.lane → a.start ≤ b.start ∧ a.stop ≤ b.stop

/-- The part of an event within the window is at least a hundredth of a pixel wide. -/
def WideEnough (x : Rat → Rat) (xMin xMax : Rat) (e : LaneEvent) : Prop := 1 / 100 ≤ x (min e.stop xMax) - x (max e.start xMin)

/-- The line that stands for the part of an event within the window: in its lane, from the start to the end, but not shorter
than a pixel. -/
def ShownAs (x : Rat → Rat) (xMin xMax : Rat) (e : LaneEvent) (s : Segment) : Prop :=
  s.lane = e.lane ∧ s.start = x (max e.start xMin) ∧ s.stop = max (x (min e.stop xMax)) (s.start + 1)

/-- The line from the start to the end of the part of an event within the window, whatever its length. -/
def ShownExactly (x : Rat → Rat) (xMin xMax : Rat) (e : LaneEvent) (s : Segment) : Prop :=
  s.lane = e.lane ∧ s.start = x (max e.start xMin) ∧ s.stop = x (min e.stop xMax)

/-- The least range that has all the given ones in it. -/
def IsUnion (rs : List (Rat × Rat)) (r : Rat × Rat) : Prop :=
  (∀ q ∈ rs, r.1 ≤ q.1 ∧ q.2 ≤ r.2) ∧ (∃ q ∈ rs, q.1 = r.1) ∧ ∃ q ∈ rs, q.2 = r.2

/-- A click of the user is within the window. -/
def ClickWithin (st : MarkerState) : MarkerEvent → Prop
  | .window _ _ => True
  | .clickA x => st.lo ≤ x ∧ x ≤ st.hi
  | .clickB x => st.lo ≤ x ∧ x ≤ st.hi

/-- All clicks of a sequence are within the window at the time. -/
def ClicksWithin : MarkerState → List MarkerEvent → Prop
  | _, [] => True
  | st, e :: es => ClickWithin st e ∧ ClicksWithin (markerStep st e) es

/-- The time of the last click for A, of the last click for B, and the last window. -/
def lastA : Option Rat → List MarkerEvent → Option Rat
  | a, [] => a
  | _, .clickA x :: es => lastA (some x) es
  | a, _ :: es => lastA a es

def lastB : Option Rat → List MarkerEvent → Option Rat
  | b, [] => b
  | _, .clickB x :: es => lastB (some x) es
  | b, _ :: es => lastB b es

def lastWindow : Rat × Rat → List MarkerEvent → Rat × Rat
  | w, [] => w
  | _, .window lo hi :: es => lastWindow (lo, hi) es
  | w, _ :: es => lastWindow w es

end Trappy
