import Verif.Model.Events
/-!
# Signals, colours, forwarded arguments and bars

Models `/repo/trappy/plotter/AbstractDataPlotter.py` 75-130 (`_parse_value`, `_describe_signals`), `/repo/trappy/plotter/ColorMap.py` 25-35 and 70-81 (`to_dygraph_colors`,
`rgb_cmap`), `/repo/trappy/plotter/__init__.py` 33-55 (`register_forwarding_arg`, `unregister_forwarding_arg`) and `/repo/trappy/plotter/BarPlot.py` 88-123 (`plot_axis`).

Simplifications: all the errors of `_parse_value` are `ValueError`s, told apart here by their cause; numbers in bars and colours are exact; `axis.bar` is its arguments, and it fails
if the bottoms are not as many as the values and neither is a single one.
-/

namespace Trappy
open Py Re

/-! ## Signals -/

/-- `[^:]` -/
def notColon (c : Char) : Bool := c != ':'

/-- `(?P<event>[^:]+):(?P<column>[^:]+)(?P<color>:.+)?` (AbstractDataPlotter.py:82); groups 1, 2, 3 -/
def signalRe : Re :=
  .seq (.group 1 (plus notColon)) (.seq (lit ':') (.seq (.group 2 (plus notColon)) (opt (.group 3 (.seq (lit ':') (plus notNl))))))

/-- the causes of `ValueError` in `_parse_value` -/
inductive SigErr where
  | invalid
  | colour
  | unknown
deriving DecidableEq, Repr

/-- `text.split(",", 2)` -/
def splitComma2 (s : Str) : List Str :=
  match split1 ',' s with
  | none => [s]
  | some (a, b) => match split1 ',' b with
    | none => [a, b]
    | some (c, d) => [a, c, d]

/-- `int(n, 16) if n.startswith("0x") else int(n)` (line 94) -/
def colourInt (n : Str) : Option Int := if startsWith n cs!"0x" then intB 16 n else intB 10 n

/-- the list comprehension of line 94 -/
def colourInts : List Str → Option (List Int)
  | [] => some []
  | n :: ns => match colourInt n with
    | none => none
    | some i => (colourInts ns).map fun r => i :: r

/-- lines 92-96: the colour, `none` inside for `None` -/
def signalColour (g : Option Str) : Option (Option (List Int)) :=
  match g with
  | none => some none
  | some [] => some none
  | some (_ :: t) => (colourInts (splitComma2 t)).map some

/-- lines 101-105: the class of the event in the first trace that defines it -/
def firstDef {κ : Type} (defs : List (Dict κ)) (event : Str) : Option κ := defs.findSome? fun d => d.get event

/-- `_parse_value` (AbstractDataPlotter.py:74-109): class, column and colour, and the new `_event_map` -/
def parseValue {κ : Type} (defs : List (Dict κ)) (emap : Dict κ) (s : Str) : Except SigErr ((κ × Str × Option (List Int)) × Dict κ) :=
  match matchPrefix signalRe s with
  | none => .error .invalid
  | some (c, _) =>
    match c.get 1, c.get 2, signalColour (c.get 3) with
    | some event, some column, some colour =>
      match emap.get event with
      | some k => .ok ((k, column, colour), emap)
      | none => match firstDef defs event with
        | some k => .ok ((k, column, colour), emap.set event k)
        | none => .error .unknown
    | _, _, none => .error .colour
    | _, _, _ => .error .invalid

/-- the loop of `_describe_signals` (lines 121-125) -/
def describeLoop {κ : Type} (defs : List (Dict κ)) : Dict κ → List Str → Except SigErr (List (κ × Str × Option (List Int)))
  | _, [] => .ok []
  | emap, s :: ss => match parseValue defs emap s with
    | .error e => .error e
    | .ok (r, emap') => match describeLoop defs emap' ss with
      | .error e => .error e
      | .ok rs => .ok (r :: rs)

/-- `any(colors)` and the colours (lines 127-128): `none` if the attribute is not set; an empty list of numbers cannot occur -/
def signalColours {κ : Type} (rs : List (κ × Str × Option (List Int))) : Option (List (Option (List Int))) :=
  if rs.any fun r => match r.2.2 with
    | some l => !l.isEmpty
    | none => false
  then some (rs.map fun r => r.2.2) else none

/-- `rgb_cmap` (ColorMap.py:71-84): the table of colours; `none` is `TypeError` (`None` has no `[:3]`) -/
def rgbCmap : List (Option (List Int)) → Option (List (List Rat))
  | [] => some []
  | none :: _ => none
  | some rgb :: r => (rgbCmap r).map fun t => (rgb.take 3).map (fun x : Int => (x : Rat) / 255) :: t

/-- `", ".join(str(i) for i in e)` -/
def joinComma : List Int → Str
  | [] => []
  | [i] => intStr i
  | i :: is => intStr i ++ cs!", " ++ joinComma is

/-- `rgb_list` of `to_dygraph_colors` (ColorMap.py:33); `none` is `TypeError` (`None` is not iterable) -/
def dygraphColours : List (Option (List Int)) → Option (List Str)
  | [] => some []
  | none :: _ => none
  | some rgb :: r => (dygraphColours r).map fun t => (cs!"rgb(" ++ joinComma rgb ++ cs!")") :: t

/-! ## Forwarded arguments -/

/-- `AttrConf.ARGS_TO_FORWARD` (AttrConf.py) -/
def defaultForward : List Str := [cs!"marker", cs!"markersize", cs!"markevery", cs!"linestyle", cs!"linewidth", cs!"drawstyle"]

/-- a call of one of the two functions -/
inductive ForwardOp where
  | register (a : Str)
  | unregister (a : Str)
deriving DecidableEq

/-- `list.remove`: the first occurrence; `ValueError` is caught -/
def removeFirst (a : Str) : List Str → List Str
  | [] => []
  | x :: xs => if x = a then xs else x :: removeFirst a xs

/-- `register_forwarding_arg` (plotter/__init__.py:33-42), `unregister_forwarding_arg` (44-55) -/
def forwardStep (l : List Str) : ForwardOp → List Str
  | .register a => if a ∈ l then l else l ++ [a]
  | .unregister a => removeFirst a l

/-- a history of calls -/
def forwardRun (l : List Str) (ops : List ForwardOp) : List Str := ops.foldl forwardStep l

/-- the loop over the keyword arguments (StaticPlot.py:127-131): those forwarded to matplotlib and those kept as attributes -/
def splitArgs {α : Type} (l : List Str) : Dict α → Dict α × Dict α → Dict α × Dict α
  | [], r => r
  | (k, v) :: kw, r => splitArgs l kw (if k ∈ l then (r.1.set k v, r.2) else (r.1, r.2.set k v))

/-! ## Bars -/

/-- arguments of a call of `axis.bar` -/
structure BarCall where
  anchors : List Rat
  values : List Rat
  bottoms : List Rat
  width : Rat
deriving DecidableEq

/-- the loop of `plot_axis` (BarPlot.py:103-123); `none` is the `ValueError` of `axis.bar`, which broadcasts the bottoms against the values: the lengths are equal or one of them is 1. Simplification:
matplotlib before version 2 also rejects more bottoms than values. The colours, the title and the legend are left out. -/
def barLoop (stacked : Bool) (w : Rat) : Nat → List Rat → List (List Rat) → Option (List BarCall)
  | _, _, [] => some []
  | i, ends, vs :: rest =>
    let anchor := (List.range vs.length).map fun (j : Nat) => if stacked then (j : Rat) else (j : Rat) + (i : Rat) * w
    if ends.length ≠ vs.length ∧ ends.length ≠ 1 ∧ vs.length ≠ 1 then none
    else
      (barLoop stacked w (i + 1) (if stacked then List.zipWith (· + ·) ends vs else ends) rest).map fun r => ⟨anchor, vs, ends, w⟩ :: r

/-- `max(len(x) for x in value_list)` -/
def maxLen : List (List Rat) → Nat
  | [] => 0
  | v :: vs => max v.length (maxLen vs)

/-- `plot_axis` (BarPlot.py:88-123) for a list of series; `none` stands for an exception -/
def plotBars (stacked : Bool) (spacing : Rat) (series : List (List Rat)) : Option (List BarCall) :=
  if series = [] then none
  else
    let n : Nat := if stacked then 1 else series.length
    barLoop stacked ((1 - spacing) / n) 0 (List.replicate (maxLen series) 0) series

end Trappy
