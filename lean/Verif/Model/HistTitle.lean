import Verif.Model.Wa
/-!
# Titles, labels and limits of plots and histograms (plot_utils.py, thermal.py)
-/

namespace Trappy

/-- A string object: its text, and whether it is a unicode string. In Python 3 all are; in Python 2 the literals of a module with `unicode_literals` are, those of other modules are not. -/
structure TextObj where
  uni : Bool
  text : Str
deriving DecidableEq

/-- `normalize_title` (plot_utils.py:31-41). `opt_title is not ""` compares objects: the module has `unicode_literals` (line 18), and all empty unicode strings of CPython are one object, which an empty byte
string of Python 2 is not. -/
def normalizeTitle (title : Str) (opt : TextObj) : Str :=
  if opt.uni && opt.text.isEmpty then title else opt.text ++ cs!" - " ++ title

/-- what `plot_hist` and `post_plot_setup` set of an axis; `data` are the values of its histogram -/
structure HistAxis where
  title : Str
  xlabel : Str
  ylabel : Str
  xlim : Rat × Rat
  ylim : Rat × Rat
  data : List Rat
deriving DecidableEq

/-- `post_plot_setup` (plot_utils.py:105-125, with `set_xlim` and `set_ylim`, 63-75) -/
def postPlotSetup (ax : HistAxis) (title : Str) (xlabel ylabel : Option Str) (xlim ylim : LimArg) : HistAxis :=
  let ax1 : HistAxis := match xlabel with | some s => { ax with xlabel := s } | none => ax
  let ax2 : HistAxis := match ylabel with | some s => { ax1 with ylabel := s } | none => ax1
  let ax3 : HistAxis := if title.isEmpty then ax2 else { ax2 with title := title }
  let ax4 : HistAxis := { ax3 with ylim := setLim ax3.ylim ylim }
  { ax4 with xlim := setLim ax4.xlim xlim }

/-- `data.mean()` (plot_utils.py:183); `none` is NaN. Simplification: exact arithmetic. -/
def seriesMean (l : List Rat) : Option Rat := if l.isEmpty then none else some (l.sum / l.length)

/-- the square of `data.std()` (plot_utils.py:184), which divides by one less than the number of values; `none` is NaN -/
def seriesVar (l : List Rat) : Option Rat :=
  match seriesMean l with
  | none => none
  | some m => if l.length < 2 then none else some ((l.map fun x => (x - m) * (x - m)).sum / ((l.length - 1 : Nat) : Rat))

/-- rounding to the nearest whole number: what lies between `f` and `f + 1` is compared with the middle; in the middle the even one is taken -/
def roundUpAt (x middle : Rat) (f : Nat) : Nat :=
  if x < middle then f else if middle < x then f + 1 else if f % 2 = 0 then f else f + 1

/-- hundredths of a number that is not negative, rounded as `{:.2f}` does -/
def hundredths (q : Rat) : Nat :=
  let f := (q * 100).floor.toNat
  roundUpAt (q * 100) (f + 1 / 2) f

/-- hundredths of the square root of a number, rounded in the same way -/
def sqrtHundredths (v : Rat) : Nat :=
  let f := Nat.sqrt (v * 10000).floor.toNat
  roundUpAt (v * 10000) ((f + 1 / 2) * (f + 1 / 2)) f

/-- the digits of a number of hundredths -/
def hundredthsStr (n : Nat) : Str := Py.natStr (n / 100) ++ '.' :: (Py.natStr (n / 10 % 10) ++ Py.natStr (n % 10))

/-- `{:.2f}` of a mean (plot_utils.py:185) -/
def meanStr : Option Rat → Str
  | none => cs!"nan"
  | some q => if q < 0 then '-' :: hundredthsStr (hundredths (-q)) else hundredthsStr (hundredths q)

/-- `{:.2f}` of a standard deviation, given its square -/
def stdStr : Option Rat → Str
  | none => cs!"nan"
  | some v => hundredthsStr (sqrtHundredths v)

/-- `plot_hist` (plot_utils.py:180-190); how pandas groups the values in bars is left out -/
def plotHist (data : List Rat) (ax : HistAxis) (title unit xlabel : Str) (xlim ylim : LimArg) : HistAxis :=
  let t := title ++ cs!" (mean = " ++ meanStr (seriesMean data) ++ unit ++ cs!", std = " ++ stdStr (seriesVar data) ++ cs!")"
  postPlotSetup { ax with data := data } t (some (xlabel ++ cs!" (" ++ unit ++ cs!")")) (some cs!"count") xlim ylim

/-- the largest of some values -/
def largestOf (m : Rat) (l : List Rat) : Rat := l.foldl max m

/-- `Thermal.plot_temperature_hist` (thermal.py:104-119); `none` is the `KeyError` of a table without columns. Simplification: equal limits (0 and 0) are kept, matplotlib moves them apart. -/
def plotTempHist (ax : HistAxis) (name : TextObj) (temps : List Rat) : Option HistAxis :=
  match temps.map fun t => t / 1000 with
  | [] => none
  | t :: ts => some (plotHist (t :: ts) ax (normalizeTitle cs!"Temperature" name) cs!"C" cs!"Temperature" (.limits 0 (largestOf t ts)) .default)

/-- the entries of the legend that `Thermal.plot_temperature` (thermal.py:93-99) makes for a run; `control`: there is a control temperature -/
def tempLegend (control : Bool) (name : TextObj) : List Str :=
  normalizeTitle cs!"Temperature" name :: if control then [normalizeTitle cs!"Control" name] else []

end Trappy
