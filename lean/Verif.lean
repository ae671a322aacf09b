import Verif.Py.Dict
import Verif.Lemmas.Dict
import Verif.Model.Params
import Verif.Model.Like
import Verif.Model.TexLabels
import Verif.Spec.Built
import Verif.Lemmas.Params
import Verif.Lemmas.Vector
import Verif.Lemmas.Built
import Verif.Lemmas.Like
import Verif.Props.Keys
import Verif.Props.Params
import Verif.Props.TexLabels
import Verif.Model.Kepler
import Verif.Spec.Kepler
import Verif.Spec.Calendar
import Verif.Lemmas.Orbit
import Verif.Props.Kepler
import Verif.Props.Orbit
import Verif.Model.Basis
import Verif.Spec.Basis
import Verif.Lemmas.Basis
import Verif.Lemmas.BasisReal
import Verif.Lemmas.RVModel
import Verif.Props.Basis
import Verif.Props.BasisWitness
import Verif.Props.RVModel
import Verif.Py.Float
import Verif.Model.Prior
import Verif.Model.Posterior
import Verif.Lemmas.Prior
import Verif.Lemmas.Posterior
import Verif.Props.Prior
import Verif.Props.Constraints
import Verif.Props.Posterior
import Verif.Model.RVLike
import Verif.Spec.RVLike
import Verif.Lemmas.RVLike
import Verif.Lemmas.RVLikeFrame
import Verif.Lemmas.RVLikeData
import Verif.Props.RVLike
import Verif.Spec.History
import Verif.Lemmas.History
import Verif.Props.History
import Verif.Props.BasisFlags
import Verif.Lemmas.KernelPSD
import Verif.Model.GP
import Verif.Spec.GP
import Verif.Lemmas.GPNames
import Verif.Lemmas.GPReach
import Verif.Lemmas.GPCov
import Verif.Lemmas.GPEval
import Verif.Lemmas.GPWitness
import Verif.Lemmas.GPMatrix
import Verif.Lemmas.GPFail
import Verif.Props.GPKernel
import Verif.Props.GP
import Verif.Props.GPUpdate
import Verif.Model.Binning
import Verif.Spec.Binning
import Verif.Lemmas.Binning
import Verif.Props.Binning
import Verif.Model.Numbers
import Verif.Props.Numbers
import Verif.Model.Phase
import Verif.Props.Phase
import Verif.Model.Masses
import Verif.Props.Masses
import Verif.Model.WorkDir
import Verif.Props.WorkDir
import Verif.Model.Draw
import Verif.Props.Draw
import Verif.Spec.Stats
import Verif.Py.FloatOps
import Verif.Model.Convergence
import Verif.Lemmas.Stats
import Verif.Props.Convergence
import Verif.Model.Mcmc
import Verif.Lemmas.Mcmc
import Verif.Lemmas.McmcTotal
import Verif.Props.Mcmc
import Verif.Props.McmcWitness
import Verif.Model.TrendPlot
import Verif.Lemmas.ChainTable
import Verif.Lemmas.ChainFile
import Verif.Props.Chain
import Verif.Props.Save
import Verif.Model.Scales
import Verif.Props.Scales
import Verif.Model.ModelComp
import Verif.Spec.ModelComp
import Verif.Lemmas.Combinations
import Verif.Lemmas.ModelComp
import Verif.Props.ModelComp
import Verif.Props.ModelComp2
import Verif.Model.MaxLike
import Verif.Lemmas.MaxLike
import Verif.Props.MaxLike
import Verif.Model.CompTable
import Verif.Props.CompTable
import Verif.Model.Status
import Verif.Spec.Status
import Verif.Lemmas.Status
import Verif.Lemmas.StatusStep
import Verif.Props.Status
import Verif.Model.Driver
import Verif.Spec.Driver
import Verif.Lemmas.Driver
import Verif.Lemmas.DriverFloat
import Verif.Props.Driver
import Verif.Model.Pipeline
import Verif.Spec.Pipeline
import Verif.Lemmas.Pipeline
import Verif.Lemmas.PipelineSteady
import Verif.Props.Pipeline
import Verif.Lemmas.PipelineFull
import Verif.Lemmas.Provenance
import Verif.Props.Provenance
import Verif.Lemmas.Complete
import Verif.Props.Complete
import Verif.Model.NestedSampling
import Verif.Spec.NestedSampling
import Verif.Lemmas.NestedSampling
import Verif.Lemmas.NestedCalls
import Verif.Lemmas.NestedRun
import Verif.Props.NestedSampling
import Verif.Model.Report
import Verif.Model.Walkers
import Verif.Lemmas.Report
import Verif.Lemmas.ReportDerived
import Verif.Props.Report
import Verif.Props.ReportDerived
import Verif.Props.Walkers
import Verif.Props.StatusLines
import Verif.Model.Setup
import Verif.Spec.Setup
import Verif.Lemmas.Setup
import Verif.Props.Setup
import Verif.Model.Chains
import Verif.Spec.Chains
import Verif.Lemmas.Chains
import Verif.Props.Chains
import Verif.Model.Derive
import Verif.Lemmas.Derive
import Verif.Lemmas.Reindex
import Verif.Props.Derive
import Verif.Model.Postprocess
import Verif.Spec.Postprocess
import Verif.Lemmas.Quantile
import Verif.Lemmas.Postprocess
import Verif.Lemmas.PostLoop
import Verif.Lemmas.PostFit
import Verif.Props.Postprocess
import Verif.Model.FastBin
import Verif.Spec.FastBin
import Verif.Props.FastBin
import Verif.Model.Markers
import Verif.Spec.Markers
import Verif.Lemmas.Markers
import Verif.Props.Markers
import Verif.Model.Panels
import Verif.Props.Panels
import Verif.Spec.GPPlot
import Verif.Lemmas.GPPlot
import Verif.Props.GPPlot
import Verif.Model.OrbitPlot
import Verif.Spec.OrbitPlot
import Verif.Lemmas.OrbitPlot
import Verif.Props.OrbitPlot
import Verif.Props.OrbitFold
import Verif.Props.OrbitTime
import Verif.Model.Cli
import Verif.Spec.Cli
import Verif.Lemmas.Cli
import Verif.Props.Cli
import Verif.Props.CliTypes
import Verif.Props.CliDir
import Verif.Spec.Labels
import Verif.Lemmas.Labels
import Verif.Props.Labels
import Verif.Model.PriorText
import Verif.Spec.PriorText
import Verif.Lemmas.PriorText
import Verif.Props.PriorText
import Verif.Model.ReportFigs
import Verif.Spec.ReportFigs
import Verif.Lemmas.ReportFigs
import Verif.Props.ReportFigs
import Verif.Model.CliMcmc
import Verif.Spec.CliMcmc
import Verif.Props.CliMcmc
import Verif.Spec.FileModel
import Verif.Lemmas.FileModel
import Verif.Props.FileModel
import Verif.Spec.FileDecorr
import Verif.Lemmas.FileDecorr
import Verif.Props.FileDecorr
import Verif.Model.GPPost
import Verif.Spec.GPPost
import Verif.Lemmas.GPPost
import Verif.Props.GPPost
import Verif.Model.Print
import Verif.Spec.Print
import Verif.Lemmas.Print
import Verif.Props.Print
import Verif.Model.Crit
import Verif.Spec.Crit
import Verif.Lemmas.CritKeep
import Verif.Lemmas.Crit
import Verif.Props.Crit
import Verif.Model.Progress
import Verif.Spec.Progress
import Verif.Lemmas.Progress
import Verif.Props.Progress
import Verif.Model.Load
import Verif.Lemmas.Load
import Verif.Props.Load
import Verif.Model.AutoPlot
import Verif.Spec.AutoPlot
import Verif.Lemmas.AutoPlot
import Verif.Props.AutoPlot
import Verif.Model.Corner
import Verif.Spec.Corner
import Verif.Lemmas.Corner
import Verif.Props.Corner
import Verif.Model.NumPrior
import Verif.Spec.NumPrior
import Verif.Lemmas.NumPrior
import Verif.Props.NumPrior
import Verif.Model.RowText
import Verif.Props.RowText
import Verif.Props.Carried
import Verif.Props.Annotate
import Verif.Props.BasisHeap
import Verif.Props.KeplerEnd
import Verif.Props.KeplerEdge
import Verif.Props.Accuracy
import Verif.Model.Rounded
import Verif.Spec.Rounding
import Verif.Lemmas.Rounding
import Verif.Lemmas.RoundedVel
import Verif.Props.Rounding
import Verif.Props.FileAccuracy
import Verif.Props.Tables
import Verif.Props.TablesNan
import Verif.Model.RoundedModel
import Verif.Props.RoundedModel
import Verif.Model.RoundedLike
import Verif.Spec.RoundedLike
import Verif.Lemmas.RoundedLike
import Verif.Props.RoundedLike
import Verif.Model.PlotScale
import Verif.Spec.PlotScale
import Verif.Lemmas.PlotScale
import Verif.Props.PlotScale
import Verif.Model.Celerite
import Verif.Spec.Celerite
import Verif.Lemmas.Celerite
import Verif.Props.Celerite
import Verif.Model.SaveSteps
import Verif.Lemmas.SaveSteps
import Verif.Props.SaveSteps
import Verif.Lemmas.CliWords
import Verif.Props.CliSpell
import Verif.Model.PriorInit
import Verif.Props.PriorInit
import Verif.Model.PriorRepr
import Verif.Props.PriorRepr
import Verif.Model.Wrapped
import Verif.Props.Wrapped
import Verif.Model.NumPriorRows
import Verif.Props.NumPriorRows
import Verif.Model.RoundedPost
import Verif.Spec.RoundedPost
import Verif.Lemmas.RoundedPost
import Verif.Props.RoundedPost
import Verif.Model.YearAxis
import Verif.Spec.YearAxis
import Verif.Props.YearAxis
import Verif.Model.KeplerShape
import Verif.Spec.KeplerShape
import Verif.Props.KeplerShape
import Verif.Model.RoundedPhase
import Verif.Spec.RoundedPhase
import Verif.Props.RoundedPhase
import Verif.Model.RoundedBins
import Verif.Props.RoundedBins
import Verif.Model.RoundedErr
import Verif.Props.RoundedErr
import Verif.Model.RoundedDate
import Verif.Props.RoundedDate
import Verif.Model.RoundedFastBin
import Verif.Props.RoundedFastBin
import Verif.Model.RoundedAverage
import Verif.Spec.RoundedAverage
import Verif.Props.RoundedAverage
import Verif.Model.KernelRepr
import Verif.Props.KernelRepr
import Verif.Model.RoundedTimebin
import Verif.Props.RoundedTimebin
import Verif.Model.RoundedBintels
import Verif.Props.RoundedBintels
import Verif.Props.RoundedFastBinSize
import Verif.Model.RoundSigLog
import Verif.Props.RoundSigLog
import Verif.Model.NpRound
import Verif.Props.NpRound
