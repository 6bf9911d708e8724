import Verif.Props.Cache
import Verif.Props.Lru
import Verif.Props.Memo
import Verif.Props.Cov
import Verif.Props.CovFile
import Verif.Props.PowerData
import Verif.Props.PowerAlign
import Verif.Props.TheoryAlign
import Verif.Props.Prior
import Verif.Props.Params
import Verif.Props.GalParams
import Verif.Props.Scale
import Verif.Props.ReplaceVars
import Verif.Props.AP
import Verif.Props.Fog
import Verif.Props.Qso
import Verif.Props.Gal
import Verif.Props.GalState
import Verif.Props.GalDeriv
import Verif.Props.Hod
import Verif.Props.Gradient
import Verif.Model.Driver
import Verif.Props.Driver
import Verif.Model.Fisher
import Verif.Props.Fisher
import Verif.Props.Units
import Verif.Props.Window
import Verif.Props.Transfers
import Verif.Props.Quad
import Verif.Props.Lbfgs
import Verif.Props.Solvers
import Verif.Props.Results
import Verif.Props.Restart
import Verif.Props.Init
import Verif.Props.Interp
import Verif.Props.Hzpt
import Verif.Props.HzptDeriv
import Verif.Props.Shipped
import Verif.Props.PTKernels
import Verif.Props.PTInt
import Verif.Props.PTScale
import Verif.Props.PTTerms
import Verif.Props.PTKaiser
import Verif.Spec.SPT
import Verif.Lemmas.SPT
import Verif.Props.PTThird
import Verif.Lemmas.SPTLoop
import Verif.Lemmas.SPTCoupling
import Verif.Lemmas.SPTSecond
import Verif.Props.PTOneLoop
import Verif.Spec.SPTBias
import Verif.Lemmas.SPTBias
import Verif.Lemmas.SPTBiasLoop
import Verif.Lemmas.PTOrder
import Verif.Props.PTBiasLoop
import Verif.Props.PTAsymp
import Verif.Model.NlBias
import Verif.Spec.NlBias
import Verif.Props.NlBias
import Verif.Model.Cosmo
import Verif.Spec.Cosmo
import Verif.Props.Cosmo
import Verif.Props.CosmoTransfer
import Verif.Model.Spline
import Verif.Lemmas.Spline
import Verif.Props.Spline
import Verif.Model.SplineRef
import Verif.Props.SplineRef
import Verif.Model.Xi
import Verif.Spec.Xi
import Verif.Lemmas.Xi
import Verif.Lemmas.XiBessel
import Verif.Props.Xi
import Verif.Model.FFTLog
import Verif.Spec.FFTLog
import Verif.Lemmas.Mellin
import Verif.Lemmas.FFTLog
import Verif.Lemmas.FFTLogInt
import Verif.Props.FFTLog
import Verif.Props.FFTLogTrip
import Verif.Props.FFTLogFortran
import Verif.Props.FFTLogBranch
import Verif.Model.WindowTransfer
import Verif.Props.WindowTransfer
import Verif.Model.Broadcast
import Verif.Lemmas.Simpson
import Verif.Props.QuadError
import Verif.Props.Broadcast
import Verif.Props.BroadcastPoles
import Verif.Model.HaloBias
import Verif.Props.HaloBias
import Verif.Props.HaloBiasTable
import Verif.Props.HaloBiasCases
import Verif.Model.Converge
import Verif.Props.Converge
import Verif.Props.ConvergeTest
import Verif.Spec.Analysis
import Verif.Model.Analysis
import Verif.Lemmas.Analysis
import Verif.Lemmas.AnalysisShape
import Verif.Lemmas.AnalysisRun
import Verif.Props.Analysis
import Verif.Props.AnalysisBest
import Verif.Props.AnalysisCases
import Verif.Model.Contour
import Verif.Props.Contour
import Verif.Model.DataFile
import Verif.Lemmas.DataFile
import Verif.Props.DataFile
import Verif.Props.DataFileTrip
import Verif.Props.DataFileCases
import Verif.Lemmas.Poisson
import Verif.Lemmas.ZelSeries
import Verif.Lemmas.ZelKernels
import Verif.Model.ZelIntegrals
import Verif.Spec.ZelPower
import Verif.Props.ZelSeries
import Verif.Props.ZelPower
import Verif.Model.HzptCF
import Verif.Lemmas.HzptCF
import Verif.Props.HzptCF
import Verif.Model.Saved
import Verif.Props.Saved
import Verif.Model.HzptSaved
import Verif.Props.HzptSaved
import Verif.Model.GKQuad
import Verif.Spec.GKQuad
import Verif.Props.GKQuad
import Verif.Props.GKLimit
import Verif.Props.GKEstimate
import Verif.Model.Workspaces
import Verif.Props.Workspaces
import Verif.Model.GMQuad
import Verif.Spec.GMQuad
import Verif.Props.GMQuad
import Verif.Model.ParamFile
import Verif.Spec.ParamFile
import Verif.Props.ParamFile
import Verif.Props.ParamFileMore
import Verif.Props.ParamFileExample
import Verif.Model.Setup
import Verif.Spec.Setup
import Verif.Props.Setup
import Verif.Props.SetupMore
import Verif.Props.SetupExample
import Verif.Model.StartFrom
import Verif.Props.StartFrom
import Verif.Model.SmoothWedge
import Verif.Spec.SmoothWedge
import Verif.Lemmas.SmoothWedge
import Verif.Props.SmoothWedge
import Verif.Props.SmoothWedgeMore
import Verif.Model.CosmoDict
import Verif.Lemmas.CosmoDict
import Verif.Lemmas.CosmoClone
import Verif.Props.CosmoDict
import Verif.Props.CosmoDictMore
import Verif.Props.CosmoDictEx
import Verif.Lemmas.GPKernel
import Verif.Model.SimFit
import Verif.Spec.SimFit
import Verif.Lemmas.SimFit
import Verif.Lemmas.SimFitValue
import Verif.Lemmas.SimFitNumbers
import Verif.Props.SimFit
import Verif.Props.SimFitPoints
import Verif.Props.SimFitUnits
import Verif.Props.SimFitState
import Verif.Props.SimFitEx
import Verif.Model.SimSpectra
import Verif.Spec.SimSpectra
import Verif.Lemmas.SimSpectra
import Verif.Props.SimSpectra
import Verif.Props.SimSpectraFit
import Verif.Model.GaussCov
import Verif.Spec.GaussCov
import Verif.Lemmas.GaussCov
import Verif.Props.GaussCov
import Verif.Props.GaussCovMore
import Verif.Model.Labels
import Verif.Spec.Labels
import Verif.Lemmas.Labels
import Verif.Props.Labels
import Verif.Props.LabelsMore
import Verif.Model.Png
import Verif.Spec.Png
import Verif.Lemmas.Png
import Verif.Props.Png
import Verif.Model.Apply
import Verif.Spec.Apply
import Verif.Props.Apply
import Verif.Model.InterpDomain
import Verif.Spec.InterpDomain
import Verif.Props.InterpDomain
import Verif.Model.Loaded
import Verif.Spec.Loaded
import Verif.Props.Loaded
import Verif.Model.Emu
import Verif.Model.EmuTables
import Verif.Spec.Emu
import Verif.Lemmas.Emu
import Verif.Props.Emu
import Verif.Props.EmuSpectrum
import Verif.Props.EmuHubble
import Verif.Model.BestFit
import Verif.Spec.BestFit
import Verif.Props.BestFitInfo
import Verif.Props.BestFitCompare
import Verif.Model.RunEnd
import Verif.Spec.RunEnd
import Verif.Props.RunEnd
import Verif.Model.TheoryVec
import Verif.Spec.TheoryVec
import Verif.Props.TheoryVec
import Verif.Model.LoadCov
import Verif.Spec.LoadCov
import Verif.Lemmas.LoadCov
import Verif.Props.LoadCov
import Verif.Model.UpdateFid
import Verif.Spec.UpdateFid
import Verif.Props.UpdateFid
import Verif.Model.ChainCorr
import Verif.Spec.ChainCorr
import Verif.Props.ChainCorr
import Verif.Model.FitPlot
import Verif.Spec.FitPlot
import Verif.Props.FitPlot
import Verif.Model.SetModel
import Verif.Props.SetModel
import Verif.Model.Plot1D
import Verif.Props.Plot1D
import Verif.Props.Plot1DCurve
import Verif.Model.Extrapolate
import Verif.Spec.Extrapolate
import Verif.Props.Extrapolate
import Verif.Props.ExtrapolateExact
import Verif.Props.ExtrapolatePoles
import Verif.Model.Trace
import Verif.Spec.Trace
import Verif.Props.Trace
import Verif.Props.TraceDraw
import Verif.Props.TraceMore
import Verif.Props.TraceUnits
import Verif.Props.TraceCases
import Verif.Model.PlotNames
import Verif.Props.PlotNames
import Verif.Props.PlotGroups
import Verif.Model.ConvPoles
import Verif.Spec.ConvPoles
import Verif.Props.ConvPoles
import Verif.Props.ConvPolesMain
import Verif.Model.QsoParams
import Verif.Props.QsoParams
import Verif.Props.QsoParamsMain
import Verif.Model.Options
import Verif.Spec.Options
import Verif.Props.Options
import Verif.Props.OptionsMain
import Verif.Model.Notebook
import Verif.Spec.Notebook
import Verif.Props.Notebook
import Verif.Props.NotebookHist
