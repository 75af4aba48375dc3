import Verif.Model.Regex
/-!
# Parsing one trace line

Models `/repo/trappy/ftrace.py` lines 64-68 (`SPECIAL_FIELDS_RE`) and the extraction of its groups at lines
400-412 of `GenericFTrace.__populate_data`.
-/

namespace Trappy
open Re Py

/-- The `(?:\s+\(.*\))?` part of `SPECIAL_FIELDS_RE` (ftrace.py:65-66): an optional thread-group id. -/
def tgidRe : Re := cat [plus isSpace, lit '(', .star notNl, lit ')']

/-- The `(?:\s+....)` part of `SPECIAL_FIELDS_RE` (ftrace.py:66): an optional four-character flags field. -/
def flagsRe : Re := cat [plus isSpace, .chr notNl, .chr notNl, .chr notNl, .chr notNl]

/-- The `(\w+:\s+)` part of `SPECIAL_FIELDS_RE` (ftrace.py:67), group 6. -/
def eventRe : Re := .group 6 (cat [plus isWord, lit ':', plus isSpace])

/-- The `(?P<timestamp>[0-9]+(?P<us>\.[0-9]+)?)` part (ftrace.py:67), groups 4 and 5. -/
def timestampRe : Re := .group 4 (.seq (plus isDigit) (opt (.group 5 (.seq (lit '.') (plus isDigit)))))

/-- `SPECIAL_FIELDS_RE` from the timestamp on (ftrace.py:67); group 7 is `data`. -/
def tsDataRe : Re := cat [timestampRe, str [':', ' '], many1 eventRe, .group 7 (plus notNl)]

/-- `SPECIAL_FIELDS_RE` after the task name (ftrace.py:65-67); groups 2 `pid` and 3 `cpu`. -/
def afterCommRe : Re :=
  cat [lit '-', .group 2 (plus isDigit), opt tgidRe, plus isSpace, lit '[', .group 3 (plus isDigit), lit ']',
    opt flagsRe, plus isSpace, tsDataRe]

/-- `SPECIAL_FIELDS_RE` (ftrace.py:64-68); group 1 is `comm`.  The leading `^` is implied by `re.match`. -/
def specialFieldsRe : Re := cat [.star isSpace, .group 1 (.star notNl), afterCommRe]

/-- Value of a decimal digit text, as `int()` computes it (`ftrace.py:403-404`). -/
def Py.natVal (s : Str) : Nat := s.foldl (fun a ch => 10 * a + (ch.toNat - 48)) 0

/-- The groups `__populate_data` extracts from a matching line (ftrace.py:402-411, 436). -/
structure Fields where
  comm : Str
  pid : Nat
  cpu : Nat
  /-- text of the `timestamp` group -/
  ts : Str
  /-- text of the `us` group, `none` when it did not take part -/
  us : Option Str
  data : Str
deriving DecidableEq, Repr

/-- `SPECIAL_FIELDS_RE.match(line)` and the group extraction of ftrace.py:400-411.  All groups except `us` take
part in every match; `pid` and `cpu` are converted with `int`. -/
def parseLine (line : Str) : Option Fields :=
  match matchPrefix specialFieldsRe line with
  | none => none
  | some (c, _) =>
    match c.get 1, c.get 2, c.get 3, c.get 4, c.get 7 with
    | some comm, some pid, some cpu, some ts, some data =>
      some { comm := comm, pid := Py.natVal pid, cpu := Py.natVal cpu, ts := ts, us := c.get 5, data := data }
    | _, _, _, _, _ => none

end Trappy
