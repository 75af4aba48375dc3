import Verif.Model.Header
import Verif.Model.Window
/-!
# The trace cache

Models `/repo/trappy/ftrace.py` lines 191-335 (`_trace_cache_path` … `_do_parse`), 479-504 (`__parse_trace_file`),
821-836 (the FTrace overrides) and `/repo/trappy/bare_trace.py` lines 139-146 (`finalize_objects`).

A parse is a program that performs atomic file-system operations one after the other, so that it can be killed
after any of them and interleaved with other parses.  Files are written one character at a time (the finest
granularity with which a write can be cut).  Simplifications: one trace file and its cache directory; writing
goes by file name (a file removed while another process writes to it is not kept alive by its descriptor);
directory listings come in order of creation; operations fail only for reasons visible in this model (no permission
errors or full disks); the external encoders (`md5`, `json`, pandas' CSV reader and writer) are parameters.
-/

namespace Trappy

/-- What is on disk: the lines of the trace file, and the files of the cache directory if that exists. -/
structure FS where
  trace : List Str
  cache : Option (Dict Str)

/-- remove a file -/
def Dict.del {α : Type} : Dict α → Str → Dict α
  | [], _ => []
  | (k', v') :: d, k => if k' = k then d else (k', v') :: Dict.del d k

/-- The atomic operations. -/
inductive Op where
  /-- `os.path.exists(cache_path)` -/
  | isDir
  /-- `open(f).read()` in the cache directory -/
  | read (f : Str)
  /-- `os.listdir`, first step of `shutil.rmtree` -/
  | list
  /-- `os.unlink` of a file in the cache directory -/
  | unlink (f : Str)
  /-- `os.rmdir` of the cache directory -/
  | rmdir
  /-- `os.mkdir` of the cache directory -/
  | mkdir
  /-- `open(f, 'w')` in the cache directory -/
  | creat (f : Str)
  /-- one more character in a file being written -/
  | append (f : Str) (c : Char)
  /-- read the trace file -/
  | readTrace

/-- Results of the operations; `none`/`false` stands for an `OSError`. -/
@[reducible] def Op.Ret : Op → Type
  | .isDir => Bool
  | .read _ => Option Str
  | .list => Option (List Str)
  | .unlink _ => Bool
  | .rmdir => Bool
  | .mkdir => Bool
  | .creat _ => Bool
  | .append _ _ => Unit
  | .readTrace => List Str

/-- Meaning of the operations. -/
def Op.exec : (o : Op) → FS → o.Ret × FS
  | .isDir, fs => (fs.cache.isSome, fs)
  | .read f, fs => (fs.cache.bind fun d => d.get f, fs)
  | .list, fs => (fs.cache.map fun d => d.map Prod.fst, fs)
  | .unlink f, fs =>
    match fs.cache with
    | none => (false, fs)
    | some d => if (d.get f).isSome then (true, { fs with cache := some (d.del f) }) else (false, fs)
  | .rmdir, fs =>
    match fs.cache with
    | some [] => (true, { fs with cache := none })
    | _ => (false, fs)
  | .mkdir, fs =>
    match fs.cache with
    | none => (true, { fs with cache := some [] })
    | some _ => (false, fs)
  | .creat f, fs =>
    match fs.cache with
    | none => (false, fs)
    | some d => (true, { fs with cache := some (d.set f []) })
  | .append f c, fs =>
    match fs.cache with
    | none => ((), fs)
    | some d => match d.get f with
      | none => ((), fs)
      | some t => ((), { fs with cache := some (d.set f (t ++ [c])) })
  | .readTrace, fs => (fs.trace, fs)

/-- A program: return a value, or perform an operation and continue with its result. -/
inductive Prog (R : Type) where
  | ret (r : R)
  | op (o : Op) (k : o.Ret → Prog R)

namespace Prog

/-- sequencing -/
def bind {R S : Type} : Prog R → (R → Prog S) → Prog S
  | .ret r, f => f r
  | .op o k, f => .op o fun x => (k x).bind f

/-- run to the end -/
def run {R : Type} : Prog R → FS → R × FS
  | .ret r, fs => (r, fs)
  | .op o k, fs => (k (o.exec fs).1).run (o.exec fs).2

/-- the first `n` operations: what is left to do, and the file system -/
def steps {R : Type} : Nat → Prog R → FS → Prog R × FS
  | 0, p, fs => (p, fs)
  | _ + 1, .ret r, fs => (.ret r, fs)
  | n + 1, .op o k, fs => (k (o.exec fs).1).steps n (o.exec fs).2

end Prog

/-- Writing the characters of a file. -/
def writeChars (f : Str) : Str → Prog Unit
  | [] => .ret ()
  | c :: t => .op (.append f c) fun _ => writeChars f t

/-- `with open(f, 'w') as …: write(t)`, also `DataFrame.to_csv(f)`; `false` if it cannot be opened. -/
def writeFile (f t : Str) : Prog Bool :=
  .op (.creat f) fun ok => if ok then (writeChars f t).bind fun _ => .ret true else .ret false

/-- The loop of `shutil.rmtree`. -/
def unlinkAll : List Str → Prog Bool
  | [] => .ret true
  | f :: fs => .op (.unlink f) fun ok => if ok then unlinkAll fs else .ret false

/-- `shutil.rmtree(cache_path)`. -/
def rmtree : Prog Bool :=
  .op .list fun l => match l with
    | none => .ret false
    | some ns => (unlinkAll ns).bind fun ok => if ok then .op .rmdir .ret else .ret false

/-- `_prepare_cache_dir` (ftrace.py:229-234). -/
def prepareDir : Prog Bool :=
  .op .isDir fun b => if b then rmtree.bind fun ok => if ok then .op .mkdir .ret else .ret false else .op .mkdir .ret

/-- `metadata.json` (ftrace.py:263-273, 829-836): the keys that may be present. -/
structure Meta where
  md5sum : Option Str
  basetime : Option Nat
  endtime : Option Nat
  /-- the `"ftrace"` entry -/
  header : Option (Dict Str)
deriving DecidableEq

/-- Which reader parses the file: `FTrace` or `SysTrace`. -/
inductive Kind where
  | ftrace
  | systrace
deriving DecidableEq

/-- A parser class: the name of the Python class and what matters for dispatching. -/
structure CClass where
  pyName : Str
  cls : Cls
deriving DecidableEq

/-- The external functions. -/
structure Env (α : Type) where
  /-- `hashlib.md5(…).hexdigest()` -/
  md5 : List Str → Str
  /-- `json.dump` -/
  dumpMeta : Meta → Str
  /-- `json.load`; `none` is a `ValueError` -/
  loadMeta : Str → Option Meta
  /-- `DataFrame.to_csv` -/
  toCsv : Table α → Str
  /-- `pd.read_csv`; `none` is any exception -/
  readCsv : Str → Option (Table α)
  /-- `create_dataframe` (base.py:289-311); `none` is an exception -/
  create : Kind → CClass → List Rec → Option (Table α)
  /-- `finalize_object` of the class -/
  finalize : CClass → Table α → Table α

/-- What is asked for. -/
structure Req where
  kind : Kind
  classes : List CClass
  user : UserParams

/-- An exception, or a value. -/
inductive Outcome (A : Type) where
  | ok (a : A)
  | raise
deriving DecidableEq

/-- What the user gets: base time, end time, header metadata (FTrace only) and the tables. -/
structure Result (α : Type) where
  basetime : Nat
  endtime : Nat
  header : Dict Str
  tables : List (Table α)
deriving DecidableEq

/-- `metadata.json` -/
def metaName : Str := cs!"metadata.json"

/-- `_get_csv_path` (ftrace.py:198-200). -/
def csvName (c : CClass) : Str := c.pyName ++ cs!".csv"

/-- The lines that are parsed (ftrace.py:391-393). -/
def bodyOf : Kind → List Str → List Str
  | .ftrace, lines => ftraceBody lines
  | .systrace, lines => sysBody lines

/-- `self.metadata` (ftrace.py:819). -/
def headerOf : Kind → List Str → Dict Str
  | .ftrace, lines => traceMetadata lines
  | .systrace, _ => []

/-- State after `_load_cache`. -/
structure Loaded (α : Type) where
  /-- was valid metadata loaded? -/
  valid : Bool
  basetime : Nat
  endtime : Nat
  header : Dict Str
  /-- the table of each class with `cached = True` -/
  cached : List (Option (Table α))

/-- Nothing loaded. -/
def Loaded.nothing {α : Type} (req : Req) : Loaded α := ⟨false, 0, 0, [], req.classes.map fun _ => none⟩

/-- `_is_cache_valid` (ftrace.py:212-227). -/
def cacheValid {α : Type} (E : Env α) (md : Meta) (lines : List Str) : Bool :=
  md.md5sum.isSome && md.basetime.isSome && md.endtime.isSome && md.md5sum == some (E.md5 lines)

/-- The loop over the classes in `_load_cache` (ftrace.py:288-296). -/
def readTables {α : Type} (E : Env α) : List CClass → Prog (List (Option (Table α)))
  | [] => .ret []
  | c :: cs => .op (.read (csvName c)) fun t => (readTables E cs).bind fun r => .ret ((t.bind E.readCsv) :: r)

/-- `_load_cache` (ftrace.py:274-297, 824-827). -/
def loadCache {α : Type} (E : Env α) (req : Req) : Prog (Outcome (Loaded α)) :=
  .op .isDir fun b =>
    if b then
      .op (.read metaName) fun t => match t with
        | none => .ret .raise
        | some t => match E.loadMeta t with
          | none => .ret .raise
          | some md => .op .readTrace fun lines =>
            if cacheValid E md lines then
              match req.kind, md.header with
              | .ftrace, none => .ret .raise
              | .ftrace, some h => (readTables E req.classes).bind fun ts =>
                .ret (.ok ⟨true, md.basetime.getD 0, md.endtime.getD 0, h, ts⟩)
              | .systrace, _ => (readTables E req.classes).bind fun ts =>
                .ret (.ok ⟨true, md.basetime.getD 0, md.endtime.getD 0, [], ts⟩)
            else rmtree.bind fun ok => if ok then .ret (.ok (Loaded.nothing req)) else .ret .raise
    else .ret (.ok (Loaded.nothing req))

/-- Writing the tables that were not cached (ftrace.py:252-258). -/
def writeTables {α : Type} (E : Env α) : List (CClass × Bool × Table α) → Prog Unit
  | [] => .ret ()
  | (_, true, _) :: r => writeTables E r
  | (c, false, t) :: r => (writeFile (csvName c) (E.toCsv t)).bind fun ok => if ok then writeTables E r else .ret ()

/-- `_update_cache` (ftrace.py:236-260); an `OSError` ends it with a warning. -/
def updateCache {α : Type} (E : Env α) (md : Meta) (entries : List (CClass × Bool × Table α)) : Prog Unit :=
  if entries.any fun e => e.2.1 then writeTables E entries
  else prepareDir.bind fun ok =>
    if ok then (writeFile metaName (E.dumpMeta md)).bind fun ok => if ok then writeTables E entries else .ret ()
    else .ret ()

/-- `finalize_objects` (bare_trace.py:139-146) on all classes: cached tables are left alone, the others are built from
the arrays filled by the parse, class number `i` of the uncached ones being the next to be built. -/
def mergeBuild {α : Type} (E : Env α) (kind : Kind) (p : Parsed) :
    Nat → List (CClass × Option (Table α)) → Option (List (CClass × Bool × Table α))
  | _, [] => some []
  | i, (c, some t) :: r => (mergeBuild E kind p i r).map fun l => (c, true, t) :: l
  | i, (c, none) :: r =>
    match E.create kind c (p.tables i) with
    | none => none
    | some t => (mergeBuild E kind p (i + 1) r).map fun l => (c, false, E.finalize c t) :: l

/-- `_apply_user_parameters` on one table; after loading metadata `max_window` is always computed (ftrace.py:286). -/
def userApply {α : Type} (valid : Bool) (base : Nat) (u : UserParams) (t : Table α) : Table α :=
  applyWith (if valid then calcMaxWindow base u.window u.absWindow else maxWindow base u) base u.normalize t

/-- The classes that were not cached. -/
def uncached {α : Type} : List (CClass × Option (Table α)) → List CClass
  | [] => []
  | (_, some _) :: r => uncached r
  | (c, none) :: r => c :: uncached r

/-- `_do_parse` after `_load_cache` (ftrace.py:318-335). -/
def afterLoad {α : Type} (E : Env α) (disable : Bool) (req : Req) (L : Loaded α) : Prog (Outcome (Result α)) :=
  if !disable && L.cached.all Option.isSome then
    .ret (.ok { basetime := L.basetime, endtime := L.endtime, header := L.header,
                tables := L.cached.filterMap fun t => t.map (userApply L.valid L.basetime req.user) })
  else
    .op .readTrace fun lines =>
      let cs := req.classes.zip L.cached
      let p := populateBody ((uncached cs).map CClass.cls) L.basetime (bodyOf req.kind lines)
      match mergeBuild E req.kind p 0 cs with
      | none => .ret .raise
      | some entries =>
        (if disable then .ret ()
         else updateCache E ⟨some (E.md5 lines), some p.basetime, some p.endtime,
            match req.kind with | .ftrace => some (headerOf .ftrace lines) | .systrace => none⟩ entries).bind fun _ =>
        .ret (.ok { basetime := p.basetime, endtime := p.endtime, header := headerOf req.kind lines,
                    tables := entries.map fun e => userApply L.valid p.basetime req.user e.2.2 })

/-- `_do_parse` (ftrace.py:316-335); `disable` is `disable_cache`. -/
def doParse {α : Type} (E : Env α) (disable : Bool) (req : Req) : Prog (Outcome (Result α)) :=
  if disable then afterLoad E disable req (Loaded.nothing req)
  else (loadCache E req).bind fun o => match o with
    | .raise => .ret .raise
    | .ok L => afterLoad E disable req L

end Trappy
