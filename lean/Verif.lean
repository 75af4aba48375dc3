import Verif.Lemma.Array
import Verif.Lemma.Array2
import Verif.Lemma.Array3
import Verif.Lemma.Cache
import Verif.Lemma.Cache2
import Verif.Lemma.Cache3
import Verif.Lemma.CacheEnv
import Verif.Lemma.Crash
import Verif.Lemma.Crash2
import Verif.Lemma.Data
import Verif.Lemma.DupIndex
import Verif.Lemma.EventPlotJs
import Verif.Lemma.Events
import Verif.Lemma.Float64
import Verif.Lemma.Float64Q
import Verif.Lemma.Grammar
import Verif.Lemma.Header
import Verif.Lemma.IntLit
import Verif.Lemma.Line
import Verif.Lemma.LineExact
import Verif.Lemma.Populate
import Verif.Lemma.Populate2
import Verif.Lemma.Power
import Verif.Lemma.Regex
import Verif.Lemma.Regex2
import Verif.Lemma.Registry
import Verif.Lemma.Thermal
import Verif.Lemma.Window
import Verif.Model.Builtin
import Verif.Model.Cache
import Verif.Model.CachePath
import Verif.Model.Callbacks
import Verif.Model.Classes
import Verif.Model.ColourIndex
import Verif.Model.Columns
import Verif.Model.Compare
import Verif.Model.Constraint
import Verif.Model.Construct
import Verif.Model.Correlator
import Verif.Model.Csv
import Verif.Model.Data
import Verif.Model.DupIndex
import Verif.Model.EndToEnd
import Verif.Model.EventDom
import Verif.Model.EventLanes
import Verif.Model.EventPage
import Verif.Model.EventPlotJs
import Verif.Model.Events
import Verif.Model.Export
import Verif.Model.FileCache
import Verif.Model.FileCalls
import Verif.Model.FileCorr
import Verif.Model.FileLines
import Verif.Model.FileStats
import Verif.Model.FillLine
import Verif.Model.Float64
import Verif.Model.Grammar
import Verif.Model.Header
import Verif.Model.HistTitle
import Verif.Model.IPage
import Verif.Model.IPyDir
import Verif.Model.Install
import Verif.Model.Json
import Verif.Model.Layout
import Verif.Model.Line
import Verif.Model.LinePage
import Verif.Model.LineScript
import Verif.Model.LivePage
import Verif.Model.Memory
import Verif.Model.Merge
import Verif.Model.Names
import Verif.Model.Pipeline
import Verif.Model.PlotTrace
import Verif.Model.Populate
import Verif.Model.Power
import Verif.Model.Publish
import Verif.Model.PublishRun
import Verif.Model.PyStr
import Verif.Model.Regex
import Verif.Model.Registry
import Verif.Model.Residency
import Verif.Model.ResultsFile
import Verif.Model.Signals
import Verif.Model.Solve
import Verif.Model.StaticOpts
import Verif.Model.StaticPlot
import Verif.Model.Stats
import Verif.Model.SuperIndex
import Verif.Model.SysTrace
import Verif.Model.SysfsTable
import Verif.Model.Thermal
import Verif.Model.TopoText
import Verif.Model.TracePage
import Verif.Model.ViewSave
import Verif.Model.Wa
import Verif.Model.Whole
import Verif.Model.Window
import Verif.Prop.Accessors
import Verif.Prop.Aggregate
import Verif.Prop.AlignExact
import Verif.Prop.Array
import Verif.Prop.BarExact
import Verif.Prop.Bars
import Verif.Prop.Builtin
import Verif.Prop.Cache
import Verif.Prop.CachePath
import Verif.Prop.Callbacks
import Verif.Prop.Classes
import Verif.Prop.ColourIndex
import Verif.Prop.Columns
import Verif.Prop.Compare
import Verif.Prop.Compare2
import Verif.Prop.Concurrent
import Verif.Prop.Constraint
import Verif.Prop.Construct
import Verif.Prop.CorrObj
import Verif.Prop.CorrSwap
import Verif.Prop.Correlator
import Verif.Prop.Crash
import Verif.Prop.Csv
import Verif.Prop.CutExact
import Verif.Prop.Data
import Verif.Prop.Dispatch
import Verif.Prop.DupIndex
import Verif.Prop.EndToEnd
import Verif.Prop.EventDom
import Verif.Prop.EventLanes
import Verif.Prop.EventLanesTrace
import Verif.Prop.EventMini
import Verif.Prop.EventPage
import Verif.Prop.EventPlot
import Verif.Prop.EventPlotJs
import Verif.Prop.Events
import Verif.Prop.Exact10
import Verif.Prop.Exact11
import Verif.Prop.Exact12
import Verif.Prop.Exact13
import Verif.Prop.Exact14
import Verif.Prop.Exact15
import Verif.Prop.Exact2
import Verif.Prop.Exact20
import Verif.Prop.Exact3
import Verif.Prop.Exact4
import Verif.Prop.Exact5
import Verif.Prop.Exact6
import Verif.Prop.Exact7
import Verif.Prop.Exact8
import Verif.Prop.Exact9
import Verif.Prop.Export
import Verif.Prop.FileCache
import Verif.Prop.FileCalls
import Verif.Prop.FileCorr
import Verif.Prop.FileLines
import Verif.Prop.FileStats
import Verif.Prop.FillLine
import Verif.Prop.Grammar
import Verif.Prop.GrammarText
import Verif.Prop.Header
import Verif.Prop.HistTitle
import Verif.Prop.IPage
import Verif.Prop.IPyDir
import Verif.Prop.Install
import Verif.Prop.InstallKept
import Verif.Prop.Json
import Verif.Prop.Layout
import Verif.Prop.Line
import Verif.Prop.LineExact
import Verif.Prop.LineOrder
import Verif.Prop.LinePage
import Verif.Prop.LineScript
import Verif.Prop.Literals
import Verif.Prop.LivePage
import Verif.Prop.MarkerExact
import Verif.Prop.Memory
import Verif.Prop.Merge
import Verif.Prop.Names
import Verif.Prop.Pipeline
import Verif.Prop.PivotMark
import Verif.Prop.Pivots
import Verif.Prop.PlotTrace
import Verif.Prop.Populate
import Verif.Prop.Power
import Verif.Prop.Publish
import Verif.Prop.PublishRun
import Verif.Prop.PublishSame
import Verif.Prop.RawExact
import Verif.Prop.Registry
import Verif.Prop.Residency
import Verif.Prop.ResidencyExact
import Verif.Prop.ResultsFile
import Verif.Prop.Signals
import Verif.Prop.Solve
import Verif.Prop.StaticOpts
import Verif.Prop.StaticPlot
import Verif.Prop.SuperIndex
import Verif.Prop.SysTrace
import Verif.Prop.SysfsTable
import Verif.Prop.Thermal
import Verif.Prop.ThermalExact
import Verif.Prop.Tightened
import Verif.Prop.TitleExact
import Verif.Prop.TopoText
import Verif.Prop.Topology
import Verif.Prop.TraceLive
import Verif.Prop.TracePage
import Verif.Prop.Trigger
import Verif.Prop.ViewSave
import Verif.Prop.Wa
import Verif.Prop.Wa2
import Verif.Prop.WeightShift
import Verif.Prop.Whole
import Verif.Prop.Window
import Verif.Spec.Cache
import Verif.Spec.Data
import Verif.Spec.EventPage
import Verif.Spec.EventPlotJs
import Verif.Spec.Float64
import Verif.Spec.Header
import Verif.Spec.Line
import Verif.Spec.Pipeline
import Verif.Spec.Populate
import Verif.Spec.Power
import Verif.Spec.Thermal
import Verif.Spec.Whole
