import Verif.Model.Data
import Verif.Model.Header
/-!
# Decoding and finalising particular events

Models `/repo/trappy/raw_syscalls.py` lines 21-83, `/repo/trappy/sched.py` lines 24-142, `/repo/trappy/common_clk.py`
lines 27-61, `/repo/trappy/filesystem.py` lines 29-116, `/repo/trappy/idle.py` lines 22-35 and `num_cpus_in_mask`
(`/repo/trappy/cpu_power.py` lines 90-96).

Simplifications: ASCII digits only, as everywhere; a missing cell (`NaN`) is `none`; a column is not converted to
another numeric type because of missing cells.
-/

namespace Trappy
open Re

/-! ## Numbers in a given base -/

/-- `PyLong_FromString` with base 10 or 16 after the sign: with base 16 a prefix `0x` is skipped. -/
def Py.readNatB (b : Nat) (s : Str) : Option Nat :=
  match s with
  | '0' :: x :: rest =>
    if b = 16 ∧ (x = 'x' ∨ x = 'X') then
      match rest with
      | '_' :: r => Py.readDigits b 0 true r
      | r => Py.readDigits b 0 true r
    else Py.readDigits b 0 true s
  | _ => Py.readDigits b 0 true s

/-- `int(s, b)` for base 10 or 16; `none` is `ValueError`. -/
def Py.intB (b : Nat) (s : Str) : Option Int :=
  match Py.strip s with
  | '-' :: r => (Py.readNatB b r).map fun (n : Nat) => -(n : Int)
  | '+' :: r => (Py.readNatB b r).map fun (n : Nat) => (n : Int)
  | r => (Py.readNatB b r).map fun (n : Nat) => (n : Int)

/-! ## System calls -/

/-- `[-+]` -/
def isSign (c : Char) : Bool := c == '-' || c == '+'

/-- `[\da-fA-F]` -/
def isHex (c : Char) : Bool := Py.isDigit c || (97 ≤ c.toNat && c.toNat ≤ 102) || (65 ≤ c.toNat && c.toNat ≤ 70)

/-- `([-+]?[class]+)` as group `n` -/
def signedRe (n : Nat) (p : Char → Bool) : Re := .group n (.seq (opt (.chr isSign)) (plus p))

/-- `SysEnter.pat` (raw_syscalls.py:27). -/
def sysEnterRe : Re :=
  cat [str cs!"NR ", .group 1 (plus Py.isDigit), str cs!" (", signedRe 2 isHex, str cs!", ", signedRe 3 isHex,
    str cs!", ", signedRe 4 isHex, str cs!", ", signedRe 5 isHex, str cs!", ", signedRe 6 isHex, str cs!", ",
    signedRe 7 isHex, lit ')']

/-- `SysEnter.explode` (raw_syscalls.py:32-45); `none` is `ValueError`. -/
def sysEnterExplode (line : Str) : Option Str := do
  let (_, c, _) ← search sysEnterRe line
  let num ← (← c.get 1) |> Py.intB 10
  let a0 ← (← c.get 2) |> Py.intB 16
  let a1 ← (← c.get 3) |> Py.intB 16
  let a2 ← (← c.get 4) |> Py.intB 16
  let a3 ← (← c.get 5) |> Py.intB 16
  let a4 ← (← c.get 6) |> Py.intB 16
  let a5 ← (← c.get 7) |> Py.intB 16
  return cs!"nr=" ++ Py.intStr num ++ cs!" arg0=" ++ Py.intStr a0 ++ cs!" arg1=" ++ Py.intStr a1 ++
    cs!" arg2=" ++ Py.intStr a2 ++ cs!" arg3=" ++ Py.intStr a3 ++ cs!" arg4=" ++ Py.intStr a4 ++
    cs!" arg5=" ++ Py.intStr a5

/-- `SysExit.pat` (raw_syscalls.py:60). -/
def sysExitRe : Re := cat [str cs!"NR ", signedRe 1 Py.isDigit, str cs!" = ", signedRe 2 Py.isDigit]

/-- `SysExit.explode` (raw_syscalls.py:65-77). -/
def sysExitExplode (line : Str) : Option Str := do
  let (_, c, _) ← search sysExitRe line
  let num ← (← c.get 1) |> Py.intB 10
  let ret ← (← c.get 2) |> Py.intB 10
  return cs!"nr=" ++ Py.intStr num ++ cs!" ret=" ++ Py.intStr ret

/-- The row of a `sys_enter` record. -/
def sysEnterDict (data : Str) : Option (Dict Val) := (sysEnterExplode data).bind generateDataDict

/-- The row of a `sys_exit` record. -/
def sysExitDict (data : Str) : Option (Dict Val) := (sysExitExplode data).bind generateDataDict

/-! ## Scheduler -/

/-- The row of a `sched_switch` record (sched.py:102-118). -/
def schedSwitchDict (data : Str) : Option (Dict Val) := generateDataDict (Py.replace1 cs!" ==> " cs!" " data)

/-- `str(v)` of a cell. -/
def Val.text : Val → Str
  | .int i => Py.intStr i
  | .str s => s

/-- `'{:0>8}'.format` (sched.py:43). -/
def pad8 (v : Val) : Str := List.replicate (8 - v.text.length) '0' ++ v.text

/-! ## Column renames -/

/-- `DataFrame.rename(columns={a: b})` on the list of columns: every column named `a` is now named `b`. -/
def renameCol {α : Type} (a b : Str) (cols : List (Str × α)) : List (Str × α) :=
  cols.map fun x => if x.1 = a then (b, x.2) else x

/-- `SchedCpuFrequency.finalize_object` (sched.py:132-138). -/
def finalizeCpuFrequency {α : Type} (cols : List (Str × α)) : List (Str × α) :=
  renameCol cs!"state" cs!"frequency" (renameCol cs!"cpu_id" cs!"cpu" cols)

/-- `SchedCpuCapacity.finalize_object` (sched.py:86-92). -/
def finalizeCpuCapacity {α : Type} (cols : List (Str × α)) : List (Str × α) :=
  renameCol cs!"state" cs!"capacity" (renameCol cs!"cpu_id" cs!"cpu" cols)

/-- `CommonClkSetRate.finalize_object` (common_clk.py:58-59). -/
def finalizeClkSetRate {α : Type} (cols : List (Str × α)) : List (Str × α) := renameCol cs!"state" cs!"rate" cols

/-- `finalize_object` of the file system events (filesystem.py:36-37, 71-72). -/
def finalizeFs {α : Type} (cols : List (Str × α)) : List (Str × α) := renameCol cs!"ino" cs!"inode" cols

/-! ## Idle states -/

/-- `DataFrame.replace(2**32 - 1, -1)` on one cell (idle.py:28-32). -/
def decodeIdle : Option Val → Option Val
  | some (.int i) => some (.int (if i = 4294967295 then -1 else i))
  | v => v

/-- `CpuIdle.finalize_object` (idle.py:28-33) on a table: all cells of all columns. -/
def finalizeIdle (rows : List (List (Str × Option Val))) : List (List (Str × Option Val)) :=
  rows.map fun r => r.map fun x => (x.1, decodeIdle x.2)

/-! ## File systems -/

/-- `zip(data[0::2], data[1::2])` -/
def pairUp : List Str → List (Str × Str)
  | a :: b :: r => (a, b) :: pairUp r
  | _ => []

/-- `FilesystemExt4Base.generate_data_dict` (filesystem.py:30-34). -/
def ext4Pairs (data : Str) : List (Str × Val) := (pairUp (Py.splitOn ' ' data)).map fun x => (x.1, .str x.2)

/-- `FilesystemF2FSBase.generate_data_dict` (filesystem.py:66-69). -/
def f2fsDict (data : Str) : Option (Dict Val) :=
  generateDataDict (Py.replace cs!"," cs!" " (Py.replace cs!" = " cs!"=" data))

/-- `FilesystemF2FSSyncFileExit.generate_data_dict` (filesystem.py:112-114). -/
def f2fsSyncExitDict (data : Str) : Option (Dict Val) :=
  f2fsDict (Py.replace cs!"checkpoint is " cs!"checkpoint = " data)

/-! ## Clocks -/

/-- `CommonClkBase.generate_data_dict` (common_clk.py:30-34); `none` is an exception. -/
def clkDict (data : Str) : Option (Dict Val) :=
  match Py.split1 ' ' data with
  | none => none
  | some (name, fields) => (generateDataDict fields).map fun d => d.set cs!"clk_name" (.str name)

/-! ## Masks -/

/-- `bin(value).count("1")` -/
def countOnes (n : Nat) : Nat := (Nat.toDigits 2 n).count '1'

/-- `num_cpus_in_mask` (cpu_power.py:90-96); `none` is `ValueError`. -/
def numCpusInMask (mask : Str) : Option Nat :=
  (Py.intB 16 (Py.replace cs!"," [] mask)).map fun v => countOnes v.natAbs

end Trappy
