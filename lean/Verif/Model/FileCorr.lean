import Verif.Model.FileStats
import Verif.Model.Correlator
import Verif.Model.Float64
/-!
# The correlation of two traces that are read from files

Models `/repo/trappy/stats/Correlator.py` lines 37-102 with two aggregators (`/repo/trappy/stats/Aggregator.py` lines 92-158) on the tables that the constructor `buildTrace` makes of the lines of two files.

Simplifications: those of `FileStats`; the arithmetic of the uniform index and of the coefficient is exact.
-/

namespace Trappy

/-- An aggregator of a trace: the parsers, the arguments of the trace, its lines, the triggers, the topology and `aggfunc` (Aggregator.py:92-108). -/
structure FileAgg where
  ps : List ParserClass
  user : UserParams
  lines : List Str
  trigs : List UserTrigger
  topo : Topo
  func : Option (TSeries → TSeries)

/-- the constructors of the trace, the triggers and the aggregator -/
def FileAgg.setup (fuel : Nat) (ord : List Nat → List Nat) (a : FileAgg) : Except StatErr AggSetup :=
  match buildTrace fuel a.ps a.user a.lines with
  | .object o =>
    match eventIndices (namedTables a.ps o.tables) a.trigs with
    | none => .error .noEvent
    | some is => .ok ⟨unifyIndex is, a.topo.flatten ord, a.trigs.map (userGen (namedTables a.ps o.tables)), a.func⟩
  | _ => .error .trace

/-- the time of a cell of the index -/
def floatTime (b : Nat) : Rat := (F64.uval b : Rat) / 2 ^ 1074

/-- `Correlator(first, second, corrfunc).correlate(level)` (Correlator.py:37-102) -/
def fileCorrelate (fuel : Nat) (ord : List Nat → List Nat) (corr : List (Option Rat) → List (Option Rat) → Option Rat) (delta : Rat) (first second : FileAgg) (level : Str) : Except StatErr (List (Option Rat) × Option Rat) :=
  match first.setup fuel ord, second.setup fuel ord with
  | .error e, _ => .error e
  | _, .error e => .error e
  | .ok s1, .ok s2 =>
    match CorrObj.new floatTime corr delta s1 s2 with
    | .error e => .error (.agg e)
    | .ok c =>
      match first.topo.getLevel ord level, second.topo.getLevel ord level with
      | some g1, some g2 =>
        match (c.correlate floatTime corr delta s1 s2 g1 g2).2 with
        | .error e => .error (.agg e)
        | .ok r => .ok r
      | _, _ => .error .noLevel

end Trappy
