import Verif.Model.Line
/-!
# Cached tables as CSV

`trappy/base.py:313-334`: `DataFrame.to_csv` writes a table, `pd.read_csv` reads it back and infers the type of each column. Both are pandas; this is a model of their documented behaviour: `to_csv` quotes
fields with commas, quotes or newlines and writes NaN as an empty field; `read_csv` skips empty lines, takes certain texts as NaN and converts a column to integers, floats or booleans if all its other texts
allow it. Times are given by their texts (`float(repr(x)) = x`); floats are a parameter. Simplifications: rows have as many fields as the header; names of columns differ (pandas renames duplicates).
-/

namespace Trappy
open Py

/-- a cell of a table -/
inductive CsvCell (F : Type) where
  | int (i : Int)
  | float (x : F)
  | bool (b : Bool)
  | str (s : Str)
  | nan
deriving DecidableEq

/-- `repr` of a float and what pandas reads as one -/
structure FloatText (F : Type) where
  repr : F → Str
  parse : Str → Option F

/-- a table: times (as texts), names and columns -/
structure CsvFrame (F : Type) where
  times : List Str
  cols : List (Str × List (CsvCell F))

/-! ## Writing -/

/-- is the field quoted? -/
def csvSpecial (c : Char) : Bool := c == ',' || c == '"' || c == '\n'

/-- quotes are doubled -/
def csvEscape : Str → Str
  | [] => []
  | c :: s => if c = '"' then '"' :: '"' :: csvEscape s else c :: csvEscape s

/-- a field -/
def csvField (s : Str) : Str := if s.any csvSpecial then '"' :: (csvEscape s ++ ['"']) else s

/-- a row -/
def csvRow (r : List Str) : Str := joinC ',' (r.map csvField) ++ ['\n']

/-- all rows -/
def csvText (rows : List (List Str)) : Str := (rows.map csvRow).flatten

/-- the text of a cell (`na_rep=''`) -/
def cellText {F : Type} (ft : FloatText F) : CsvCell F → Str
  | .int i => intStr i
  | .float x => ft.repr x
  | .bool true => cs!"True"
  | .bool false => cs!"False"
  | .str s => s
  | .nan => []

/-- rows to columns and back -/
def transposeN (n : Nat) (l : List (List Str)) : List (List Str) := (List.range n).map fun i => l.filterMap fun r => r[i]?

/-- `write_csv` (base.py:313-319) -/
def writeFrame {F : Type} (ft : FloatText F) (f : CsvFrame F) : Str :=
  csvText ((cs!"Time" :: f.cols.map Prod.fst) :: transposeN f.times.length (f.times :: f.cols.map fun c => c.2.map (cellText ft)))

/-! ## Reading -/

/-- states of the tokenizer -/
inductive CsvState where
  | startRow
  | startField
  | plain
  | quoted
  | quoteInQuoted
deriving DecidableEq

/-- the tokenizer: state, field and row read so far; `none` is the end of the file in a quoted field -/
def csvTok : CsvState → Str → List Str → Str → Option (List (List Str))
  | .startRow, _, _, [] => some []
  | .quoted, _, _, [] => none
  | _, f, r, [] => some [r ++ [f]]
  | .startRow, f, r, c :: s =>
    if c = '\n' then csvTok .startRow [] [] s
    else if c = '"' then csvTok .quoted [] [] s
    else if c = ',' then csvTok .startField [] [[]] s
    else csvTok .plain [c] [] s
  | .startField, f, r, c :: s =>
    if c = '\n' then (csvTok .startRow [] [] s).map fun rs => (r ++ [[]]) :: rs
    else if c = '"' then csvTok .quoted [] r s
    else if c = ',' then csvTok .startField [] (r ++ [[]]) s
    else csvTok .plain [c] r s
  | .plain, f, r, c :: s =>
    if c = '\n' then (csvTok .startRow [] [] s).map fun rs => (r ++ [f]) :: rs
    else if c = ',' then csvTok .startField [] (r ++ [f]) s
    else csvTok .plain (f ++ [c]) r s
  | .quoted, f, r, c :: s =>
    if c = '"' then csvTok .quoteInQuoted f r s
    else csvTok .quoted (f ++ [c]) r s
  | .quoteInQuoted, f, r, c :: s =>
    if c = '"' then csvTok .quoted (f ++ [c]) r s
    else if c = '\n' then (csvTok .startRow [] [] s).map fun rs => (r ++ [f]) :: rs
    else if c = ',' then csvTok .startField [] (r ++ [f]) s
    else csvTok .plain (f ++ [c]) r s

/-- the texts read as NaN (pandas' `STR_NA_VALUES`) -/
def naTexts : List Str :=
  [[], cs!"#N/A", cs!"#N/A N/A", cs!"#NA", cs!"-1.#IND", cs!"-1.#QNAN", cs!"-NaN", cs!"-nan", cs!"1.#IND", cs!"1.#QNAN", cs!"N/A", cs!"NA", cs!"NULL", cs!"NaN", cs!"n/a", cs!"nan", cs!"null"]

/-- an integer: blanks, a sign and digits -/
def intCsv (s : Str) : Option Int :=
  match strip s with
  | '-' :: ds => if ds ≠ [] ∧ ds.all isDigit = true then some (-(natVal ds : Int)) else none
  | '+' :: ds => if ds ≠ [] ∧ ds.all isDigit = true then some (natVal ds : Int) else none
  | ds => if ds ≠ [] ∧ ds.all isDigit = true then some (natVal ds : Int) else none

/-- fits into 64 bits -/
def isInt64 (i : Int) : Bool := decide (-2 ^ 63 ≤ i) && decide (i < 2 ^ 63)

/-- a boolean -/
def boolCsv (s : Str) : Option Bool :=
  if s ∈ [cs!"True", cs!"TRUE", cs!"true"] then some true
  else if s ∈ [cs!"False", cs!"FALSE", cs!"false"] then some false
  else none

/-- `f` on each text that is not NaN; `none` if it fails on one of them -/
def convertAll {F : Type} (f : Str → Option (CsvCell F)) : List Str → Option (List (CsvCell F))
  | [] => some []
  | t :: ts =>
    match (if t ∈ naTexts then some .nan else f t), convertAll f ts with
    | some c, some cs => some (c :: cs)
    | _, _ => none

/-- the inferred column: integers (without NaN, in 64 bits), floats, booleans, else text. An integer column with NaN is a float column; one beyond 64 bits is text (simplification: pandas also has unsigned
64-bit integers). -/
def inferColumn {F : Type} (ft : FloatText F) (ts : List Str) : List (CsvCell F) :=
  let asText := ts.map fun t => if t ∈ naTexts then .nan else .str t
  if ts.all fun t => decide (t ∈ naTexts) then ts.map fun _ => .nan
  else
    match convertAll (fun t => (intCsv t).map CsvCell.int) ts with
    | some cs =>
      if ts.any fun t => decide (t ∈ naTexts) then (convertAll (fun t => (ft.parse t).map CsvCell.float) ts).getD asText
      else if ts.all fun t => (intCsv t).any isInt64 then cs else asText
    | none =>
      match convertAll (fun t => (ft.parse t).map CsvCell.float) ts with
      | some cs => cs
      | none =>
        match convertAll (fun t => (boolCsv t).map CsvCell.bool) ts with
        | some cs => cs
        | none => asText

/-- `read_csv` (base.py:321-334) -/
def readFrame {F : Type} (ft : FloatText F) (s : Str) : Option (CsvFrame F) :=
  match csvTok .startRow [] [] s with
  | none => none
  | some [] => none
  | some (header :: rows) =>
    if rows.all fun r => decide (r.length = header.length) then
      match header, transposeN header.length rows with
      | _ :: names, times :: cols => some ⟨times, names.zip (cols.map (inferColumn ft))⟩
      | _, _ => none
    else none

end Trappy
