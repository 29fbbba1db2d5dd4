import Verif.Props.Core
import Verif.Props.OnOff
import Verif.Props.Invest
import Verif.Props.Segments
import Verif.Props.Effects
import Verif.Props.EffectHistory
import Verif.Props.EffectDicts
import Verif.Props.Bus
import Verif.Props.Converters
import Verif.Props.Storage
import Verif.Props.Transmission
import Verif.Props.System
import Verif.Props.Horizon
import Verif.Props.Labels
import Verif.Props.Registry
import Verif.Props.Time
import Verif.Props.Series
import Verif.Props.Segmented
import Verif.Props.SegResults
import Verif.Props.Aggregation
import Verif.Props.Results
import Verif.Props.Config
import Verif.Props.Tables
import Verif.Props.Closed
import Verif.Props.Account
import Verif.Props.Order
import Verif.Props.Balance
import Verif.Props.MainResults
import Verif.Lemmas.Whole
import Verif.Props.Optimum
import Verif.Props.Idle
import Verif.Props.Energy
import Verif.Model.Network
import Verif.Props.Network
import Verif.Props.Freedom
import Verif.Props.StorageInvest
import Verif.Lemmas.CompComplete
import Verif.Lemmas.Plan
import Verif.Props.Complete
import Verif.Props.CompleteSystem
import Verif.Props.Exact
import Verif.Spec.Sensible
import Verif.Spec.Tied
import Verif.Lemmas.Fine
import Verif.Lemmas.FineParts
import Verif.Lemmas.FineComp
import Verif.Lemmas.FineColl
import Verif.Lemmas.Names
import Verif.Lemmas.Tied
import Verif.Spec.Named
import Verif.Lemmas.Keys
import Verif.Lemmas.Keys2
import Verif.Lemmas.Keys3
import Verif.Lemmas.Keys4
import Verif.Lemmas.Keys5
import Verif.Lemmas.Keys6
import Verif.Lemmas.Keys7
import Verif.Lemmas.Keys8
import Verif.Props.Sensible
import Verif.Props.Window
import Verif.Props.WindowTrace
import Verif.Props.WindowEx
import Verif.Props.WindowRuns
import Verif.Props.WindowLink
import Verif.Props.Cut
import Verif.Props.CutEx
import Verif.Props.Frames
import Verif.Props.Again
import Verif.Props.Plots
import Verif.Props.AggFull
import Verif.Props.Cheapest
import Verif.Props.CheapestAgg
import Verif.Props.Apart
import Verif.Props.Infos
import Verif.Spec.Looser
import Verif.Lemmas.Looser
import Verif.Lemmas.LooserFlow
import Verif.Lemmas.LooserComp
import Verif.Lemmas.LooserSystem
import Verif.Props.Looser
import Verif.Lemmas.LooserPhysical
import Verif.Lemmas.Signs
import Verif.Lemmas.Cheaper
import Verif.Props.Cheaper
import Verif.Model.Report
import Verif.Spec.Report
import Verif.Lemmas.Report
import Verif.Lemmas.ReportComp
import Verif.Lemmas.ReportComp2
import Verif.Lemmas.ReportSys
import Verif.Lemmas.ReportOnly
import Verif.Props.Report
import Verif.Lemmas.Starts
import Verif.Lemmas.WindowStarts
import Verif.Lemmas.CutStarts
import Verif.Lemmas.Readable
import Verif.Props.WindowStartsEx
import Verif.Props.WindowMore
import Verif.Lemmas.SegAgain
import Verif.Props.SegAgain
import Verif.Spec.Units
import Verif.Lemmas.Units
import Verif.Props.Units
import Verif.Model.SolverLog
import Verif.Lemmas.SolverLog
import Verif.Props.SolverLog
import Verif.Model.SeriesNames
import Verif.Spec.SeriesNames
import Verif.Lemmas.SeriesNames
import Verif.Props.SeriesNames
import Verif.Spec.Rename
import Verif.Lemmas.Rename
import Verif.Lemmas.Rename2
import Verif.Lemmas.Rename3
import Verif.Lemmas.Rename4
import Verif.Props.Renamed
import Verif.Spec.EnergyUnits
import Verif.Lemmas.Scale
import Verif.Lemmas.Scale2
import Verif.Lemmas.Scale3
import Verif.Lemmas.Scale4
import Verif.Lemmas.Scale5
import Verif.Props.EnergyUnits
import Verif.Model.Run
import Verif.Spec.Run
import Verif.Lemmas.Run
import Verif.Props.Run
import Verif.Spec.Refine
import Verif.Lemmas.Refine
import Verif.Lemmas.RefinePlan
import Verif.Lemmas.RefineComp
import Verif.Lemmas.RefineMean
import Verif.Props.Refine
import Verif.Props.RefineBack
import Verif.Props.RefineEx
import Verif.Model.AggRun
import Verif.Spec.AggRun
import Verif.Lemmas.AggRun
import Verif.Props.AggRun
import Verif.Props.AggRunEx
import Verif.Model.Named
import Verif.Props.NamedConv
import Verif.Props.RunStart
import Verif.Model.HeatMap
import Verif.Spec.Calendar
import Verif.Spec.HeatMap
import Verif.Lemmas.Calendar
import Verif.Props.HeatMap
import Verif.Props.Gaps
import Verif.Model.Logging
import Verif.Spec.Logging
import Verif.Lemmas.Logging
import Verif.Props.Logging
import Verif.Model.ConfigDict
import Verif.Props.ConfigDict
import Verif.Model.NetworkPlot
import Verif.Props.NetworkPlot
import Verif.Spec.Larger
import Verif.Lemmas.Larger
import Verif.Lemmas.Larger2
import Verif.Lemmas.Larger3
import Verif.Lemmas.Larger4
import Verif.Props.Larger
import Verif.Spec.Watched
import Verif.Lemmas.Watched
import Verif.Lemmas.Watched2
import Verif.Lemmas.Watched3
import Verif.Props.Watched
import Verif.Model.ClusterText
import Verif.Props.ClusterText
import Verif.Lemmas.Exact
import Verif.Spec.Penalties
import Verif.Props.Penalties
import Verif.Model.SolveLog
import Verif.Spec.Shown
import Verif.Props.SolveLog
import Verif.Spec.Dearer
import Verif.Props.Dearer
import Verif.Spec.Prices
import Verif.Lemmas.Prices
import Verif.Props.Prices
import Verif.Spec.Bill
import Verif.Props.Bill
import Verif.Spec.StartPrices
import Verif.Props.StartPrices
import Verif.Spec.EffLimits
import Verif.Props.EffLimits
import Verif.Spec.Aim
import Verif.Props.Aim
import Verif.Spec.EffCap
import Verif.Props.EffCap
