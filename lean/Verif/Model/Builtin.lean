import Verif.Model.Registry
import Verif.Model.Populate
import Verif.Model.Regex
/-!
# The parsers that come with TRAPpy, the trace-cmd command and the list of filters

Models the registrations at import time (`/repo/trappy/__init__.py` lines 49-57 imports all modules), `FTrace.__generate_trace_txt`
and `__get_raw_event_list` (`/repo/trappy/ftrace.py` lines 876-925), the life of the temporary file (`ftrace.py` lines 318-340,
806-825) and `BareTrace.get_filters` (`/repo/trappy/bare_trace.py` lines 60-73).

Simplifications: of a parser class its name, unique word and the two flags are kept. Modules are imported in the order of
`os.listdir`, which is arbitrary, so the theorems are about all orders.
-/

namespace Trappy

/-- A parser class with the attributes `name`, `unique_word`, `parse_raw` and `fallback`. -/
structure ParserClass where
  name : Str
  word : Str
  raw : Bool := false
  fallback : Bool := false
deriving DecidableEq, Repr

/-- a class without `name` attribute is named by its unique word (ftrace.py:132-133) -/
def unnamed (word : Str) (raw : Bool := false) (fallback : Bool := false) : ParserClass :=
  { name := defaultName word, word := word, raw := raw, fallback := fallback }

/-- the class made by `register_dynamic_ftrace` (dynamic.py:112-122) -/
def dynamicClass (className word : Str) (raw : Bool := false) : ParserClass :=
  { name := getName className, word := word, raw := raw }

/-- `thermal_classes` after import (thermal.py:32-35, 126-129, cpu_power.py:101-104, 131-134, pid_controller.py:28-35,
devfreq_power.py:32-36, 58-62) -/
def builtinThermal : List ParserClass :=
  [{ name := cs!"thermal", word := cs!"thermal_temperature:" },
   { name := cs!"thermal_governor", word := cs!"thermal_power_allocator:" },
   { name := cs!"cpu_out_power", word := cs!"thermal_power_cpu_limit" },
   { name := cs!"cpu_in_power", word := cs!"thermal_power_cpu_get_power" },
   { name := cs!"pid_controller", word := cs!"thermal_power_allocator_pid" },
   { name := cs!"devfreq_in_power", word := cs!"thermal_power_devfreq_get_power:" },
   { name := cs!"devfreq_out_power", word := cs!"thermal_power_devfreq_limit:" }]

/-- `sched_classes` after import (sched.py:25-142) -/
def builtinSched : List ParserClass :=
  [unnamed cs!"sched_load_avg_sg:", unnamed cs!"sched_load_avg_task:",
   dynamicClass cs!"SchedLoadAvgCpu" cs!"sched_load_avg_cpu:",
   dynamicClass cs!"SchedContribScaleFactor" cs!"sched_contrib_scale_f:",
   unnamed cs!"cpu_capacity:",
   dynamicClass cs!"SchedWakeup" cs!"sched_wakeup:" true,
   dynamicClass cs!"SchedWakeupNew" cs!"sched_wakeup_new:" true,
   unnamed cs!"sched_switch:" true, unnamed cs!"cpu_frequency:",
   dynamicClass cs!"SchedMigrateTask" cs!"sched_migrate_task:"]

/-- `dynamic_classes` after import (raw_syscalls.py:24, 57, idle.py:25, fallback.py:48, common_clk.py:39-55, function.py:22-23,
function_graph.py:22-32, filesystem.py:43-109) -/
def builtinDynamic : List ParserClass :=
  [unnamed cs!"sys_enter", unnamed cs!"sys_exit", unnamed cs!"cpu_idle",
   unnamed cs!"tracing_mark_write:" false true,
   unnamed cs!"clock_enable:", unnamed cs!"clock_disable:", unnamed cs!"clock_set_rate:",
   unnamed cs!"function" true, unnamed cs!"funcgraph_entry" true, unnamed cs!"funcgraph_exit" true,
   unnamed cs!"ext4_da_write_begin:", unnamed cs!"ext4_da_write_end:",
   unnamed cs!"ext4_sync_file_enter:", unnamed cs!"ext4_sync_file_exit:",
   unnamed cs!"f2fs_write_begin:", unnamed cs!"f2fs_write_end:",
   unnamed cs!"f2fs_sync_file_enter:", unnamed cs!"f2fs_sync_file_exit:"]

/-- all parsers that come with TRAPpy -/
def builtins : List ParserClass := builtinThermal ++ builtinSched ++ builtinDynamic

/-- the class as far as the registry is concerned -/
def ParserClass.toP (c : ParserClass) : PClass := { id := none, name := c.name, word := c.word }

/-- the class as far as dispatching is concerned -/
def ParserClass.toCls (c : ParserClass) : Cls := { word := c.word, fallback := c.fallback }

/-! ## `trace-cmd report` -/

/-- `__get_raw_event_list` (ftrace.py:914-923) on the values of the three dictionaries -/
def rawEventList (thermal sched dynamic : List ParserClass) : List Str :=
  (thermal ++ sched ++ dynamic).filterMap fun c => if c.raw && decide (c.name ≠ []) then some c.name else none

/-- `cmd.extend(['-r', raw_event])` for all raw events -/
def rawOptions : List Str → List Str
  | [] => []
  | e :: es => cs!"-r" :: e :: rawOptions es

/-- the command of `__generate_trace_txt` (ftrace.py:890-901) -/
def reportCommand (raw : List Str) (dat : Str) : List Str :=
  [cs!"trace-cmd", cs!"report", cs!"-t"] ++ rawOptions raw ++ [dat]

/-- The steps of reading a `.dat` file that can raise, in their order (ftrace.py:315-335, 809-818). -/
inductive DatStep where
  /-- `run(["trace-cmd", ...], check=True)` (ftrace.py:905-911) -/
  | command
  /-- `__get_trace_metadata` (ftrace.py:818) -/
  | header
  /-- `__parse_trace_file` (ftrace.py:326) -/
  | parse
  /-- `finalize_objects` (ftrace.py:327) -/
  | finalize
  /-- `_update_cache` (ftrace.py:331) -/
  | cache
  /-- `_apply_user_parameters` (ftrace.py:333 or 321) -/
  | apply
deriving DecidableEq, Repr

/-- `_do_parse` of an `FTrace` on a `.dat` file (ftrace.py:315-335, 809-826, 876-912): whether it raises, and the files afterwards.
`cached`: everything was found in the cache; `fails`: the first step that raises; `tmp`: the name of the temporary file.
Simplification: the cache directory is not among `files`. -/
def parseDat (cached : Bool) (fails : Option DatStep) (tmp : Str) (files : List Str) : Bool × List Str :=
  if cached then (fails == some .apply, files)
  else
    -- `NamedTemporaryFile(delete=False)` comes before the command
    let files := files ++ [tmp]
    match fails with
    | some _ => (true, files)
    | none => (false, files.filter fun f => f ≠ tmp)

/-! ## `get_filters` -/

/-- The pattern a text stands for, if it has letters, digits, underscores and dots only; other texts are left out of the model. -/
def keyRe : Str → Option Re
  | [] => some .eps
  | c :: s =>
    match keyRe s with
    | none => none
    | some r =>
      if Py.isWord c then some (.seq (Re.lit c) r)
      else if c = '.' then some (.seq (.chr Py.notNl) r)
      else none

/-- `get_filters` (bare_trace.py:60-73); `none` for keys outside the model -/
def getFilters (key : Str) (names : List Str) : Option (List Str) :=
  (keyRe key).map fun r => names.filter fun n => (Re.search r n).isSome

end Trappy
