import Verif.Basic
import Verif.Lemmas.Config
import Verif.Lemmas.Copula
import Verif.Lemmas.CorrSample
import Verif.Lemmas.Curve
import Verif.Lemmas.DmgLhs
import Verif.Lemmas.DmgProb
import Verif.Lemmas.DmgRuns
import Verif.Lemmas.DmgSample
import Verif.Lemmas.FitLinAlg
import Verif.Lemmas.FmtG
import Verif.Lemmas.Interp
import Verif.Lemmas.Lists
import Verif.Lemmas.LocDir
import Verif.Lemmas.LossDev
import Verif.Lemmas.ParamUnits
import Verif.Lemmas.PyNum
import Verif.Lemmas.PySort
import Verif.Lemmas.PyStr
import Verif.Lemmas.RngStream
import Verif.Lemmas.SampleProb
import Verif.Lemmas.ToolConfig
import Verif.Lemmas.ToolConfigDone
import Verif.Lemmas.UQDist
import Verif.Lemmas.UQInstances
import Verif.Lemmas.UQRegistry
import Verif.Lemmas.UQSets
import Verif.Lemmas.Units
import Verif.Model.AsmAsset
import Verif.Model.AsmConseq
import Verif.Model.AsmDamage
import Verif.Model.AsmDemand
import Verif.Model.AsmLoss
import Verif.Model.AsmProcess
import Verif.Model.AsmRid
import Verif.Model.Asset
import Verif.Model.CalcDamage
import Verif.Model.CalcLoss
import Verif.Model.CommandLine
import Verif.Model.Config
import Verif.Model.Copula
import Verif.Model.CorrSample
import Verif.Model.DefaultData
import Verif.Model.DefaultPath
import Verif.Model.DemandCalib
import Verif.Model.DemandFit
import Verif.Model.DemandGen
import Verif.Model.DemandReq
import Verif.Model.DemandRid
import Verif.Model.DemandSample
import Verif.Model.DemandSave
import Verif.Model.Dlml
import Verif.Model.DlmlCheck
import Verif.Model.DlmlTarget
import Verif.Model.DmgBatch
import Verif.Model.DmgCalc
import Verif.Model.DmgEval
import Verif.Model.DmgParams
import Verif.Model.DmgQty
import Verif.Model.DmgRVs
import Verif.Model.DmgSample
import Verif.Model.DmgTasks
import Verif.Model.FileIO
import Verif.Model.Fit
import Verif.Model.FitPercentile
import Verif.Model.FmtG
import Verif.Model.Interp
import Verif.Model.Labels
import Verif.Model.LoadTable
import Verif.Model.LocDir
import Verif.Model.Logger
import Verif.Model.LossAgg
import Verif.Model.LossCalc
import Verif.Model.LossComb
import Verif.Model.LossDev
import Verif.Model.LossDs
import Verif.Model.LossLf
import Verif.Model.LossLfDev
import Verif.Model.LossParams
import Verif.Model.LossScale
import Verif.Model.LossTotal
import Verif.Model.NNR
import Verif.Model.Options
import Verif.Model.Orthotope
import Verif.Model.ParamUnits
import Verif.Model.PyNum
import Verif.Model.PySort
import Verif.Model.PyStr
import Verif.Model.RegAsset
import Verif.Model.RegDmg
import Verif.Model.RegDv
import Verif.Model.RegFilter
import Verif.Model.RegGrid
import Verif.Model.RegLoss
import Verif.Model.Regional
import Verif.Model.RidAdjust
import Verif.Model.RngStream
import Verif.Model.Samples
import Verif.Model.Stats
import Verif.Model.ToolConfig
import Verif.Model.ToolDmg
import Verif.Model.ToolJson
import Verif.Model.ToolOut
import Verif.Model.ToolRun
import Verif.Model.ToolSave
import Verif.Model.UQDist
import Verif.Model.UQRegistry
import Verif.Model.UQRows
import Verif.Model.Units
import Verif.Model.Weibull
import Verif.Props.AsmAsset
import Verif.Props.AsmConseq
import Verif.Props.AsmDamage
import Verif.Props.AsmDemand
import Verif.Props.AsmLoss
import Verif.Props.AsmProcess
import Verif.Props.AsmRid
import Verif.Props.Asset
import Verif.Props.CalcDamage
import Verif.Props.CalcLoss
import Verif.Props.CommandLine
import Verif.Props.Config
import Verif.Props.Copula
import Verif.Props.CorrSample
import Verif.Props.DefaultData
import Verif.Props.DefaultPath
import Verif.Props.DemandCalib
import Verif.Props.DemandFit
import Verif.Props.DemandGen
import Verif.Props.DemandReq
import Verif.Props.DemandRid
import Verif.Props.DemandSample
import Verif.Props.DemandSave
import Verif.Props.Dlml
import Verif.Props.DlmlCheck
import Verif.Props.DlmlTarget
import Verif.Props.DmgBatch
import Verif.Props.DmgCalc
import Verif.Props.DmgDist
import Verif.Props.DmgEval
import Verif.Props.DmgLhs
import Verif.Props.DmgParams
import Verif.Props.DmgProb
import Verif.Props.DmgQty
import Verif.Props.DmgRVs
import Verif.Props.DmgSample
import Verif.Props.DmgTasks
import Verif.Props.FileIO
import Verif.Props.Fit
import Verif.Props.FitDetect
import Verif.Props.FitPercentile
import Verif.Props.Labels
import Verif.Props.LoadTable
import Verif.Props.LocDir
import Verif.Props.Logger
import Verif.Props.LossAgg
import Verif.Props.LossCalc
import Verif.Props.LossComb
import Verif.Props.LossCorr
import Verif.Props.LossDev
import Verif.Props.LossDs
import Verif.Props.LossLf
import Verif.Props.LossLfDev
import Verif.Props.LossLfProb
import Verif.Props.LossParams
import Verif.Props.LossProb
import Verif.Props.LossScale
import Verif.Props.LossTotal
import Verif.Props.NNR
import Verif.Props.Options
import Verif.Props.Orthotope
import Verif.Props.ParamUnits
import Verif.Props.RegAsset
import Verif.Props.RegDmg
import Verif.Props.RegDv
import Verif.Props.RegFilter
import Verif.Props.RegGrid
import Verif.Props.RegLoss
import Verif.Props.Regional
import Verif.Props.RidAdjust
import Verif.Props.RngStream
import Verif.Props.SampleProb
import Verif.Props.Samples
import Verif.Props.Stats
import Verif.Props.ToolConfig
import Verif.Props.ToolConfigSpec
import Verif.Props.ToolDmg
import Verif.Props.ToolJson
import Verif.Props.ToolOut
import Verif.Props.ToolRun
import Verif.Props.ToolSave
import Verif.Props.UQDist
import Verif.Props.UQFamilies
import Verif.Props.UQRegistry
import Verif.Props.UQRows
import Verif.Props.UQScale
import Verif.Props.Units
import Verif.Props.Weibull
import Verif.Spec.Config
import Verif.Spec.Copula
import Verif.Spec.CorrSample
import Verif.Spec.Curve
import Verif.Spec.DmgDist
import Verif.Spec.DmgLhs
import Verif.Spec.DmgProb
import Verif.Spec.LocDir
import Verif.Spec.LossCorr
import Verif.Spec.LossLfProb
import Verif.Spec.LossProb
import Verif.Spec.RngStream
import Verif.Spec.SampleProb
import Verif.Spec.ToolRun
import Verif.Spec.UQ
import Verif.Spec.UQRegistry
import Verif.Spec.Units
