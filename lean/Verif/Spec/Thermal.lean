import Verif.Model.Thermal
import Verif.Spec.Power
/-!
# Specification of the temperature, power, frequency and load plots
-/

namespace Trappy

/-- the temperatures of a zone in degrees, in the order of the table -/
inductive ZoneTemps (z : Int) : List TempRow → Points → Prop where
  | nil : ZoneTemps z [] []
  | take {r : TempRow} {rs : List TempRow} {ps : Points} (h : r.id = z) (hs : ZoneTemps z rs ps) :
      ZoneTemps z (r :: rs) ((r.time, r.temp / 1000) :: ps)
  | skip {r : TempRow} {rs : List TempRow} {ps : Points} (h : r.id ≠ z) (hs : ZoneTemps z rs ps) : ZoneTemps z (r :: rs) ps

/-- the control temperatures of a zone in degrees, in the order of the table -/
inductive ZoneControl (z : Int) : List GovRow → Points → Prop where
  | nil : ZoneControl z [] []
  | take {r : GovRow} {rs : List GovRow} {ps : Points} (h : r.zone = z) (hs : ZoneControl z rs ps) :
      ZoneControl z (r :: rs) ((r.time, (r.current + r.delta) / 1000) :: ps)
  | skip {r : GovRow} {rs : List GovRow} {ps : Points} (h : r.zone ≠ z) (hs : ZoneControl z rs ps) : ZoneControl z (r :: rs) ps

/-- a column named after `word` and a number, possibly with more behind it -/
def ActorCol (word s : Str) : Prop := ∃ d rest, Py.isDigit d = true ∧ s = word ++ d :: rest

/-- the columns named after `word` and a number, in order -/
inductive ActorCols {ν : Type} (word : Str) : List (Str × ν) → List (Str × ν) → Prop where
  | nil : ActorCols word [] []
  | take {c : Str × ν} {cs r : List (Str × ν)} (h : ActorCol word c.1) (hs : ActorCols word cs r) : ActorCols word (c :: cs) (c :: r)
  | skip {c : Str × ν} {cs r : List (Str × ν)} (h : ¬ ActorCol word c.1) (hs : ActorCols word cs r) : ActorCols word (c :: cs) r

/-- a column that starts with `P` and has `_in` behind it -/
def InCol (c : Str) : Prop := ∃ x y, '\n' ∉ x ∧ c = 'P' :: x ++ cs!"_in" ++ y

/-- the actors with input columns `P<actor>_in`, in order; no other column but `Ptot_in` begins like one -/
inductive InActors : List Str → List Str → Prop where
  | nil : InActors [] []
  | take {a : Str} {cs as : List Str} (hnl : '\n' ∉ a) (hne : a ≠ cs!"tot") (hs : InActors cs as) :
      InActors (('P' :: a ++ cs!"_in") :: cs) (a :: as)
  | skip {c : Str} {cs as : List Str} (h : ¬ InCol c ∨ c = cs!"Ptot_in") (hs : InActors cs as) : InActors (c :: cs) as

/-- the rows of a GPU as rows of one cluster -/
def gpuRows (rows : List (Nat × Rat)) : List (PRow Rat) := rows.map fun r => ⟨r.1, [], some r.2⟩

/-- A table of the input and output frequencies of an actor: a row for each time of an input or output row, the columns are
the given ones, and the cells are the most recent frequencies at or before that time, divided by `unit`. `tin` and `tout` are
the tables the index is made from, `min` and `mout` tell the rows of the actor. -/
structure InOutTable (tin tout : List (PRow Rat)) (m : Str) (unit : Rat) (nin nout : Str) (T : PTable Rat) : Prop where
  sorted : T.index.Pairwise (· < ·)
  times : ∀ t, t ∈ T.index ↔ (∃ r ∈ tin, r.time = t) ∨ ∃ r ∈ tout, r.time = t
  cells : ∃ cin cout, T.cols = [(nin, cin), (nout, cout)] ∧ cin.length = T.index.length ∧ cout.length = T.index.length ∧
    ∀ (j t : Nat), T.index[j]? = some t →
      (∃ v, cin[j]? = some (v.map (· / unit)) ∧ LastObs tin m t v) ∧
      ∃ v, cout[j]? = some (v.map (· / unit)) ∧ LastObs tout m t v

end Trappy
