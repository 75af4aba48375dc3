import Verif.Model.PyStr
/-!
# Specification: the printed form of a trace line

This is the text format produced by `trace-cmd report` / `ftrace`, written down independently of the parser:

    <lead><comm>-<pid>[ (<tgid>)] [<cpu>][ <flags>] <secs>[.<frac>]: <event>: <data>
-/

namespace Trappy

/-- All characters of a text satisfy a test. -/
abbrev AllC (p : Char → Bool) (s : Str) : Prop := ∀ ch ∈ s, p ch = true

/-- The components of a printed line; `ws…` are the blanks between them. -/
structure PrintedLine where
  lead : Str
  comm : Str
  pid : Str
  tgid : Option (Str × Str)
  ws1 : Str
  cpu : Str
  flags : Option (Str × Str)
  ws2 : Str
  secs : Str
  frac : Option Str
  event : Str
  ws3 : Str
  data : Str
deriving DecidableEq

namespace PrintedLine

/-- `\s+\(tgid\)` or nothing. -/
def tgidText (l : PrintedLine) : Str :=
  match l.tgid with
  | none => []
  | some (w, t) => w ++ '(' :: t ++ [')']

/-- blanks and four flag characters, or nothing. -/
def flagsText (l : PrintedLine) : Str :=
  match l.flags with
  | none => []
  | some (w, f) => w ++ f

/-- the timestamp. -/
def tsText (l : PrintedLine) : Str :=
  match l.frac with
  | none => l.secs
  | some f => l.secs ++ '.' :: f

/-- the text from the timestamp on. -/
def tailText (l : PrintedLine) : Str :=
  l.tsText ++ ([':', ' '] ++ (l.event ++ ':' :: (l.ws3 ++ l.data)))

/-- the whole line (without the final newline). -/
def text (l : PrintedLine) : Str :=
  l.lead ++ (l.comm ++ ('-' :: (l.pid ++ (l.tgidText ++ (l.ws1 ++ ('[' :: (l.cpu ++ (']' ::
    (l.flagsText ++ (l.ws2 ++ l.tailText))))))))))

/-- A text that begins with what could be taken for another `name: ` prefix, and goes on. -/
def LooksLikeEvent (d : Str) : Prop :=
  ∃ w sp rest, d = w ++ ':' :: sp :: rest ∧ w ≠ [] ∧ AllC Py.isWord w ∧ Py.isSpace sp = true ∧ rest ≠ []

/-- some blanks -/
def Blanks (w : Str) : Prop := w ≠ [] ∧ AllC Py.isSpace w

/-- some digits -/
def Digits (w : Str) : Prop := w ≠ [] ∧ AllC Py.isDigit w

/-- A text that begins like the second half of a header, `<blanks>[<cpu>][<blanks><four characters>]<blanks><secs>[.<frac>]: <name>:<blank>`, and goes on. -/
def QuotesCpu (x : Str) : Prop :=
  ∃ ws1 cpu flags ws2 secs frac event sp rest,
    x = ws1 ++ '[' :: (cpu ++ ']' :: (flags ++ (ws2 ++ (secs ++ (frac ++ ':' :: ' ' :: (event ++ ':' :: sp :: rest)))))) ∧
    Blanks ws1 ∧ Digits cpu ∧ (flags = [] ∨ ∃ w a b c d, flags = w ++ [a, b, c, d] ∧ Blanks w) ∧ Blanks ws2 ∧
    Digits secs ∧ (frac = [] ∨ ∃ f, frac = '.' :: f ∧ Digits f) ∧ event ≠ [] ∧ AllC Py.isWord event ∧ Py.isSpace sp = true ∧ rest ≠ []

/-- A text that begins like a header after the name of the task and the dash: the pid, perhaps a tgid, and the second half. -/
def QuotesHeader (x : Str) : Prop :=
  ∃ pid t y, x = pid ++ (t ++ y) ∧ Digits pid ∧ (t = [] ∨ ∃ w z, t = w ++ '(' :: (z ++ [')']) ∧ Blanks w) ∧ QuotesCpu y

/-- The data of the line has a dash and then something like a header, or, if the line has a tgid, a closing parenthesis and then something like the second half of a header. -/
def Quotes (l : PrintedLine) : Prop :=
  (∃ a x, l.data = a ++ '-' :: x ∧ QuotesHeader x) ∨ (l.tgid ≠ none ∧ ∃ a x, l.data = a ++ ')' :: x ∧ QuotesCpu x)

/-- Well-formed printed lines.  Task names are arbitrary texts without a newline that do not start with a blank:
they may contain blanks, dashes, digits, brackets, parentheses and colons. -/
structure WF (l : PrintedLine) : Prop where
  lead : AllC Py.isSpace l.lead
  commNl : AllC Py.notNl l.comm
  commHead : ∀ ch ∈ l.comm.head?, Py.isSpace ch = false
  pid : AllC Py.isDigit l.pid
  pidNe : l.pid ≠ []
  /-- the tgid column is blanks and digits, or dashes when it is unknown -/
  tgid : ∀ w t, l.tgid = some (w, t) →
    w ≠ [] ∧ AllC Py.isSpace w ∧ (AllC (fun c => c == ' ' || Py.isDigit c) t ∨ AllC (· == '-') t)
  ws1 : AllC Py.isSpace l.ws1
  ws1Ne : l.ws1 ≠ []
  cpu : AllC Py.isDigit l.cpu
  cpuNe : l.cpu ≠ []
  /-- four flag characters, none of which is a blank or `]` -/
  flags : ∀ w f, l.flags = some (w, f) →
    w ≠ [] ∧ AllC Py.isSpace w ∧ f.length = 4 ∧ AllC (fun c => !Py.isSpace c && c != ']') f
  ws2 : AllC Py.isSpace l.ws2
  ws2Ne : l.ws2 ≠ []
  /-- without flags there are at most five blanks before the timestamp -/
  ws2Len : l.flags = none → l.ws2.length ≤ 5
  secs : AllC Py.isDigit l.secs
  secsNe : l.secs ≠ []
  frac : ∀ f, l.frac = some f → f ≠ [] ∧ AllC Py.isDigit f
  event : AllC Py.isWord l.event
  eventHead : ∃ ch rest, l.event = ch :: rest ∧ Py.isDigit ch = false
  ws3 : AllC Py.isSpace l.ws3
  ws3Ne : l.ws3 ≠ []
  dataNe : l.data ≠ []
  dataNl : AllC Py.notNl l.data
  dataHead : ∀ ch ∈ l.data.head?, Py.isSpace ch = false

end PrintedLine
end Trappy
