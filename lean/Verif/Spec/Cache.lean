import Verif.Model.Cache
/-!
# Vocabulary for the cache properties
-/

namespace Trappy

variable {α : Type}

/-- The assumptions about the external functions other than CSV: JSON gives back what was written, and a class without rows has an
empty table. -/
structure Env.Basic (E : Env α) : Prop where
  json : ∀ md, E.loadMeta (E.dumpMeta md) = some md
  create_nil : ∀ k c, E.create k c [] = some []
  finalize_nil : ∀ c, E.finalize c [] = []

/-- The assumptions about the external functions under which the cache is studied here: also CSV gives back what was written (C39
looks at CSV itself, C163 at the cache with it). -/
structure Env.Faithful (E : Env α) : Prop extends E.Basic where
  csv : ∀ t, E.readCsv (E.toCsv t) = some t

/-- The table a class gets when it is the only one that is parsed: the rows of its lines, made into a table and
finalised once. -/
def tableOf (E : Env α) (kind : Kind) (lines : List Str) (c : CClass) : Option (Table α) :=
  (E.create kind c ((populateBody [c.cls] 0 (bodyOf kind lines)).tables 0)).map (E.finalize c)

/-- The tables of the classes in use are read from CSV as they were written. -/
def Env.ReadsBack (E : Env α) (U : CClass → Prop) (kind : Kind) (lines : List Str) : Prop :=
  ∀ c, U c → ∀ t, tableOf E kind lines c = some t → E.readCsv (E.toCsv t) = some t

theorem Env.Faithful.readsBack {E : Env α} (hE : E.Faithful) (U : CClass → Prop) (kind : Kind) (lines : List Str) :
    E.ReadsBack U kind lines := fun _ _ t _ => hE.csv t

/-- The classes in use have different Python names, and no line of the trace carries the unique words of two of them. -/
structure Fit (U : CClass → Prop) (kind : Kind) (lines : List Str) : Prop where
  names : ∀ c c', U c → U c' → c.pyName = c'.pyName → c = c'
  unamb : ∀ l ∈ bodyOf kind lines, ∀ c c', U c → U c' → c.cls.word <:+: l → c'.cls.word <:+: l → c = c'

/-- A request that only uses classes of `U`, each once. -/
structure Req.Ok (U : CClass → Prop) (req : Req) : Prop where
  mem : ∀ c ∈ req.classes, U c
  nodup : req.classes.Nodup

/-- What happens to a trace file over time: it is parsed, or its content is replaced. -/
inductive Act where
  | parse (req : Req)
  | edit (lines : List Str)

/-- A history: the outcomes of the parses, in order, and the final state of the disk. -/
def history (E : Env α) (disable : Bool) : List Act → FS → List (Outcome (Result α)) × FS
  | [], fs => ([], fs)
  | .edit lines :: acts, fs => history E disable acts { fs with trace := lines }
  | .parse req :: acts, fs =>
    let x := (doParse E disable req).run fs
    let y := history E disable acts x.2
    (x.1 :: y.1, y.2)

/-- All contents a trace file has in a history. -/
def contents : List Act → List Str → List (List Str)
  | [], lines => [lines]
  | .edit lines' :: acts, lines => lines :: contents acts lines'
  | .parse _ :: acts, lines => contents acts lines

/-- The digest tells the contents that occur apart. -/
def NoCollision (E : Env α) (cs : List (List Str)) : Prop :=
  ∀ a ∈ cs, ∀ b ∈ cs, E.md5 a = E.md5 b → a = b

/-- The table of a class in a cache directory, if there is a file for it that can be read. -/
def found (E : Env α) (cache : Option (Dict Str)) (c : CClass) : Option (Table α) :=
  (cache.bind fun d => d.get (csvName c)).bind E.readCsv

/-- the file an operation starts to write -/
def Op.created : Op → Option Str
  | .creat f => some f
  | _ => none

/-- the operations that change something -/
def Op.changes : Op → Bool
  | .unlink _ | .rmdir | .mkdir | .creat _ | .append _ _ => true
  | _ => false

/-- The operations a program performs when it runs to the end. -/
def Prog.log {R : Type} : Prog R → FS → List Op
  | .ret _, _ => []
  | .op o k, fs => o :: (k (o.exec fs).1).log (o.exec fs).2

/-- Two processes working on the same disk: `true` in the schedule is a step of the first one, `false` of the second. -/
def interleave {R S : Type} : List Bool → Prog R → Prog S → FS → (Prog R × Prog S) × FS
  | [], p, q, fs => ((p, q), fs)
  | true :: sch, p, q, fs => let x := p.steps 1 fs; interleave sch x.1 q x.2
  | false :: sch, p, q, fs => let x := q.steps 1 fs; interleave sch p x.1 x.2

end Trappy
