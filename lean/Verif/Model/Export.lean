import Verif.Model.Regex
import Verif.Model.Header
/-!
# Notebook export

`trappy/nbexport/exporter.py:26-105`: what is left of the outputs of a notebook. The files of the package are given by their contents; they do not change during the export. Lines of a file end with `\n` only.
-/

namespace Trappy
open Py Re

/-- `REMOVE_START` (exporter.py:26) -/
def removeStart : Str := cs!"/* TRAPPY_PUBLISH_REMOVE_START */"

/-- `REMOVE_STOP` (exporter.py:27) -/
def removeStop : Str := cs!"/* TRAPPY_PUBLISH_REMOVE_STOP */"

/-- `REMOVE_LINE` (exporter.py:28) -/
def removeLine : Str := cs!"/* TRAPPY_PUBLISH_REMOVE_LINE */"

/-- `[^"]` -/
def notQuote (c : Char) : Bool := c != '"'

/-- `opening([^"]+)closing` -/
def quotedRe (opening closing : Str) : Re := .seq (str opening) (.seq (.group 1 (plus notQuote)) (str closing))

/-- `IMPORT_SCRIPT` (exporter.py:29) -/
def importRe : Re := quotedRe cs!"/* TRAPPY_PUBLISH_IMPORT = \"" cs!"\" */"

/-- `SOURCE_LIB` (exporter.py:30) -/
def sourceRe : Re := quotedRe cs!"<!-- TRAPPY_PUBLISH_SOURCE_LIB = \"" cs!"\" -->"

/-- group 1 of `re.search`, if there is a match -/
def searchGroup (r : Re) (line : Str) : Option Str :=
  match search r line with
  | none => none
  | some (_, c, _) => c.get 1

/-- `readlines`: the lines of a file with their newlines -/
def readLines : Str → List Str
  | [] => []
  | x :: s =>
    if x = '\n' then [x] :: readLines s
    else match readLines s with
      | [] => [[x]]
      | l :: ls => (x :: l) :: ls

/-- the element that loads a library (exporter.py:96-97) -/
def scriptTag (url : Str) : Str := cs!"<script src=\"" ++ url ++ cs!"\" type=\"text/javascript\" charset=\"utf-8\"></script>"

/-- the attributes of the preprocessor (exporter.py:46-47), which live as long as it -/
structure ExportState where
  inlined : List Str
  sourced : List Str
deriving DecidableEq

/-- the loop of `filter_output` (exporter.py:67-103); `base` is the directory of the package. `none`: a file that cannot be opened. -/
def filterLines (fs : Str → Option Str) (base : Str) : Bool → ExportState → List Str → Option (List Str × ExportState)
  | _, st, [] => some ([], st)
  | removing, st, line :: lines =>
    if contains removeStart line then filterLines fs base true st lines
    else if contains removeStop line then filterLines fs base false st lines
    else if removing || contains removeLine line then filterLines fs base removing st lines
    else match searchGroup importRe line with
      | some p =>
        let file := pathJoin base p
        if file ∈ st.inlined then filterLines fs base removing st lines
        else match fs file with
          | none => none
          | some contents =>
            (filterLines fs base removing { st with inlined := st.inlined ++ [file] } lines).map fun r => ((readLines contents).map List.dropLast ++ r.1, r.2)
      | none =>
        match searchGroup sourceRe line with
        | some url =>
          if url ∈ st.sourced then filterLines fs base removing st lines
          else (filterLines fs base removing { st with sourced := st.sourced ++ [url] } lines).map fun r => (scriptTag url :: r.1, r.2)
        | none => (filterLines fs base removing st lines).map fun r => (line :: r.1, r.2)

/-- `filter_output` (exporter.py:60-105) -/
def filterOutput (fs : Str → Option Str) (base : Str) (st : ExportState) (output : Str) : Option (Str × ExportState) :=
  (filterLines fs base false st (splitOn '\n' output)).map fun r => (joinC '\n' r.1, r.2)

/-- the HTML outputs of a notebook one after the other (exporter.py:49-58) -/
def exportAll (fs : Str → Option Str) (base : Str) : ExportState → List Str → Option (List Str)
  | _, [] => some []
  | st, o :: os =>
    match filterOutput fs base st o with
    | none => none
    | some (r, st') => (exportAll fs base st' os).map fun rs => r :: rs

end Trappy
