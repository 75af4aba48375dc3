import Verif.Model.Layout
/-!
# Options and sizes of static plots

Models `/repo/trappy/plotter/__init__.py` lines 33-53 (`register_forwarding_arg`, `unregister_forwarding_arg`), `/repo/trappy/plotter/AttrConf.py` lines 21-26 and 109-116,
`/repo/trappy/plotter/StaticPlot.py` lines 127-131, `/repo/trappy/plotter/LinePlot.py` lines 127-173 (`set_defaults`, `_check_add_scatter`, `fill_line`, the call of `plot_axis`),
`/repo/trappy/plotter/PlotLayout.py` lines 45-100 (the size of the figure), `/repo/trappy/stats/Correlator.py` lines 105-145 (`plot`) and `/repo/trappy/wa/results.py` lines 37-62 (`enlarge_axis`).

Simplifications: the value of an option is `None`, a boolean, a number or a string; the option `args_to_forward`, which would replace the forwarded options altogether, is not given;
sizes and data are exact numbers; the products by 2.5 and 1.25 are not rounded (they are not for whole numbers below 2^50).
-/

namespace Trappy

/-! ## Forwarded options -/

/-- value of an option -/
inductive OptVal where
  | none
  | bool (b : Bool)
  | num (q : Rat)
  | str (s : Str)
deriving DecidableEq, Repr

/-- `bool(v)` -/
def OptVal.truthy : OptVal → Bool
  | .none => false
  | .bool b => b
  | .num q => decide (q ≠ 0)
  | .str s => !s.isEmpty

/-- `ARGS_TO_FORWARD` (AttrConf.py:109-115) -/
def argsToForward : List Str := [cs!"marker", cs!"markersize", cs!"markevery", cs!"linestyle", cs!"linewidth", cs!"drawstyle"]

/-- calls of the two functions that change the list -/
inductive FwdOp where
  | register (name : Str)
  | unregister (name : Str)
deriving DecidableEq, Repr

/-- `register_forwarding_arg` (plotter/__init__.py:33-41) and `unregister_forwarding_arg` (43-53; `ValueError` is ignored) -/
def fwdStep (names : List Str) : FwdOp → List Str
  | .register a => if a ∈ names then names else names ++ [a]
  | .unregister a => names.erase a

/-- the list after some calls -/
def fwdNames (ops : List FwdOp) : List Str := ops.foldl fwdStep argsToForward

/-- the loop over the keyword arguments (StaticPlot.py:127-131): `_attr` and `args_to_forward` -/
def splitOpts (names : List Str) : List (Str × OptVal) → Dict OptVal × Dict OptVal → Dict OptVal × Dict OptVal
  | [], s => s
  | (k, v) :: kw, (attr, fwd) => splitOpts names kw (if k ∈ names then (attr, fwd.set k v) else (attr.set k v, fwd))

/-- the defaults used below (LinePlot.py:130-131, StaticPlot.py:170) -/
def lineDefaults : Dict OptVal := [(cs!"scatter", .bool false), (cs!"fill", .bool false)]

/-- `if self._attr[k]` for an option that has a default (LinePlot.py:137, 170) -/
def optOn (attr : Dict OptVal) (k : Str) : Bool :=
  match attr.get k with
  | some v => v.truthy
  | none => false

/-- `_check_add_scatter` (LinePlot.py:133-142) -/
def addScatter (attr fwd : Dict OptVal) : Dict OptVal :=
  if optOn attr cs!"scatter" then
    let fwd := (fwd.set cs!"linestyle" (.str [])).set cs!"marker" (.str cs!"o")
    match attr.get cs!"point_size" with
    | some p => fwd.set cs!"markersize" p
    | none => fwd
  else fwd

/-- `_attr` and `args_to_forward` of a line plot (LinePlot.py:117-125) -/
def lineOpts (names : List Str) (kw : List (Str × OptVal)) : Dict OptVal × Dict OptVal :=
  let s := splitOpts names kw (lineDefaults, [])
  (s.1, addScatter s.1 s.2)

/-- Why a line is not drawn. -/
inductive DrawErr where
  /-- `TypeError`: `plot` got multiple values for the keyword argument `color` (LinePlot.py:163-168) -/
  | twice
  /-- `UserWarning`: "matplotlib does not support fill for step plots" (LinePlot.py:149) -/
  | steps
deriving DecidableEq, Repr

/-- what matplotlib is asked for: the options of `axis.plot` and whether the area is filled -/
structure LineCall where
  opts : Dict OptVal
  filled : Bool
deriving DecidableEq, Repr

/-- `drawstyle.startswith("steps")` (LinePlot.py:146-147): the drawing style of the line is the forwarded one, if any, else `default`; a style that is not a string is refused by `axis.plot` -/
def isSteps (fwd : Dict OptVal) : Bool :=
  match fwd.get cs!"drawstyle" with
  | some (.str s) => Py.startsWith s cs!"steps"
  | _ => false

/-- one line of `plot_axis` (LinePlot.py:161-173); `color` is that of the colour map -/
def drawLine (color : OptVal) (attr fwd : Dict OptVal) : Except DrawErr LineCall :=
  match fwd.get cs!"color" with
  | some _ => .error .twice
  | none =>
    if optOn attr cs!"fill" && isSteps fwd then .error .steps
    else .ok { opts := (cs!"color", color) :: fwd, filled := optOn attr cs!"fill" }

/-- `LinePlot(..., **kw)` and the drawing of one of its lines -/
def optLinePlot (ops : List FwdOp) (color : OptVal) (kw : List (Str × OptVal)) : Except DrawErr LineCall :=
  drawLine color (lineOpts (fwdNames ops) kw).1 (lineOpts (fwdNames ops) kw).2

/-! ## The size of the figure -/

/-- `int(q)`: towards zero -/
def truncInt (q : Rat) : Int := if 0 ≤ q then q.floor else q.ceil

/-- `_scale_plot` (PlotLayout.py:90-95) -/
def scaleSize (s : Rat × Rat) : Rat × Rat := (truncInt (s.1 * (5/2)), truncInt (s.2 * (5/4)))

/-- the size of the figure (PlotLayout.py:68-82), given width and length; `mkLayout` is the grid -/
def figSize (cols num : Nat) (size : Rat × Rat) : Except LErr (Layout × Rat × Rat) :=
  match mkLayout cols num with
  | .error e => .error e
  | .ok l =>
    let s := if l.single then scaleSize size else if l.usecol then size else if l.userow then scaleSize size else size
    .ok (l, s.1 * l.cols, s.2 * l.rows)

/-- a figure: its grid, its size and its title -/
structure Figure where
  layout : Layout
  width : Rat
  length : Rat
  title : Option Str
deriving DecidableEq

/-- Why there is no figure. -/
inductive FigErr where
  | layout (e : LErr)
  /-- `KeyError: 'title'` (PlotLayout.py:84) -/
  | keyError
deriving DecidableEq

/-- the keyword arguments of `PlotLayout` -/
structure LayoutArgs where
  width : Option Rat
  length : Option Rat
  /-- `none`: not given; `some none`: `None` -/
  title : Option (Option Str)

/-- `PlotLayout.__init__` (PlotLayout.py:45-88): only width and length have a default (97-100, AttrConf.py:21-24) -/
def plotLayout (cols num : Nat) (a : LayoutArgs) : Except FigErr Figure :=
  match figSize cols num (match a.width with | some w => w | none => 7, match a.length with | some l => l | none => 7) with
  | .error e => .error (.layout e)
  | .ok (l, w, h) =>
    match a.title with
    | none => .error .keyError
    | some t => .ok { layout := l, width := w, length := h, title := match t with | some s => if s.isEmpty then none else some s | none => none }

/-! ## `Correlator.plot` -/

/-- `plot` (Correlator.py:105-145) up to the first line drawn: `span` is the number of groups of the level (117), `first` and `second` are the results of the aggregators (118-119); these
calls are assumed to succeed. For each group the lines of both results. -/
def corrPlot {σ : Type} (perLine span : Nat) (first second : List σ) : Except FigErr (List (Option (Nat × Nat) × σ × σ)) :=
  match plotLayout perLine span { width := none, length := none, title := none } with
  | .error e => .error e
  | .ok f => .ok ((first.zip second).mapIdx fun i xy => (axisOf f.layout i, xy.1, xy.2))

/-! ## `enlarge_axis` -/

/-- a float of the data: a number or NaN -/
abbrev Flt := Option Rat

/-- `x < y` of floats -/
def fltLt : Flt → Flt → Bool
  | some x, some y => decide (x < y)
  | _, _ => false

/-- `x <= y` of floats -/
def fltLe : Flt → Flt → Bool
  | some x, some y => decide (x ≤ y)
  | _, _ => false

/-- python's `min` of a list: the first value less than all before it is kept -/
def pyMinF (m : Flt) (xs : List Flt) : Flt := xs.foldl (fun m x => if fltLt x m then x else m) m

/-- python's `max` -/
def pyMaxF (m : Flt) (xs : List Flt) : Flt := xs.foldl (fun m x => if fltLt m x then x else m) m

/-- difference, sum and division by ten of floats -/
def fltSub : Flt → Flt → Flt
  | some x, some y => some (x - y)
  | _, _ => none

def fltAdd : Flt → Flt → Flt
  | some x, some y => some (x + y)
  | _, _ => none

def fltTenth : Flt → Flt
  | some x => some (x / 10)
  | none => none

/-- `margin` (results.py:47-49) -/
def marginOf (dmin dmax : Flt) : Flt :=
  let m := fltTenth (fltSub dmax dmin)
  if fltLt m (some 1) then some 1 else m

/-- `enlarge_axis` (results.py:37-62): `cur` are the limits of the current axes (`plt.axis()`, line 40), `data` the values of all series one after the other. `none`: `ValueError` (no data);
`some none`: the limits of `self.ax` are not touched; else those set. -/
def enlargeAxis (cur : Rat × Rat) (data : List Flt) : Option (Option (Flt × Flt)) :=
  match data with
  | [] => none
  | x :: xs =>
    let dmin := pyMinF x xs
    let dmax := pyMaxF x xs
    let margin := marginOf dmin dmax
    let lo := fltLe dmin (some cur.1)
    let hi := fltLe (some cur.2) dmax
    if lo || hi then some (some (if lo then fltSub dmin margin else some cur.1, if hi then fltAdd dmax margin else some cur.2))
    else some none

/-- the limits of `self.ax` afterwards; `own` are those before -/
def axisAfter (own cur : Rat × Rat) (data : List Flt) : Option (Flt × Flt) :=
  match enlargeAxis cur data with
  | none => none
  | some none => some (some own.1, some own.2)
  | some (some l) => some l

end Trappy
