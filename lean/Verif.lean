import Verif.Mpi
import Verif.MpiProps
import Verif.Ext
import Verif.Gpr
import Verif.GprClassify
import Verif.GprInv
import Verif.GprProps
import Verif.GprProps2
import Verif.GprEx
import Verif.Preproc
import Verif.PreprocProps
import Verif.Pool
import Verif.PoolLemmas
import Verif.PoolAdd
import Verif.PoolBulk
import Verif.PoolProps
import Verif.PoolProps2
import Verif.PoolEx
import Verif.Run
import Verif.RunProps
import Verif.RunProps2
import Verif.RunMsg
import Verif.RunMsgProps
import Verif.Spmd
import Verif.SpmdLemmas
import Verif.SpmdRun
import Verif.SpmdProps
import Verif.SpmdProps2
import Verif.SpmdInit
import Verif.SpmdEx
import Verif.Progress
import Verif.Tools
import Verif.ToolsProps
import Verif.Stat
import Verif.StatProps
import Verif.Gp
import Verif.GpProps
import Verif.GpUpdate
import Verif.Kernels
import Verif.KernelsProps
import Verif.Predict
import Verif.PredictProps
import Verif.PredictGrad
import Verif.Acq
import Verif.AcqProps
import Verif.AcqExt
import Verif.AcqExtProps
import Verif.Trust
import Verif.TrustProps
import Verif.Copy
import Verif.CopyProps
import Verif.Conv
import Verif.ConvProps
import Verif.Truth
import Verif.TruthProps
import Verif.Io
import Verif.IoProps
import Verif.Proposal
import Verif.ProposalProps
import Verif.Nora
import Verif.NoraProps
import Verif.Batch
import Verif.BatchProps
import Verif.BatchPre
import Verif.BatchPreProps
import Verif.Cobaya
import Verif.CobayaProps
import Verif.Setup
import Verif.SetupProps
import Verif.McSamp
import Verif.McSampProps
import Verif.DelFolders
import Verif.KernelHyp
import Verif.KernelHypProps
import Verif.KernelHypEq
import Verif.GprFit
import Verif.GprFitProps
import Verif.ExtraProps
import Verif.GprAttr
import Verif.GprAttrProps
import Verif.AcqObj
import Verif.AcqObjProps
import Verif.AcqInit
import Verif.AcqInitProps
import Verif.Cov
import Verif.CovProps
import Verif.CovProps2
import Verif.DiagMcProps
import Verif.KernelPos
import Verif.KernelPos2
import Verif.ConvMc
import Verif.ConvMcProps
import Verif.ConvSave
import Verif.ConvSaveProps
import Verif.ConvInit
import Verif.ConvInitProps
import Verif.KernelOps
import Verif.KernelOpsProps
import Verif.Prior
import Verif.PriorProps
import Verif.Slices
import Verif.SlicesProps
import Verif.Gather
import Verif.GatherProps
import Verif.Extra2Props
import Verif.Extra3Props
import Verif.ChainProps
import Verif.McCobayaProps
import Verif.CostProps
import Verif.RunnerOutProps
import Verif.NoraSpmdProps
import Verif.NsRunProps
import Verif.Cred
import Verif.CredProps
import Verif.Align
import Verif.AlignProps
import Verif.GaussKl
import Verif.GpLaw
import Verif.EiLaw
import Verif.AcqPts
import Verif.AcqPtsProps
import Verif.AcqNoise
import Verif.ShiftProps
import Verif.ShiftPredProps
import Verif.UnitsProps
import Verif.Round
import Verif.RoundBounds
import Verif.RoundClassify
import Verif.RoundCount
import Verif.RoundPre
import Verif.RoundKl
import Verif.RoundCred
import Verif.CandUnitsProps
import Verif.InputProps
import Verif.Corner
import Verif.CornerProps
import Verif.DistHist
import Verif.DistHistProps
import Verif.Figures
import Verif.FiguresProps
import Verif.TimingProps
import Verif.Extra4Props
import Verif.Extra5Props
import Verif.Extra6Props
import Verif.GprLml
import Verif.GprLmlProps
import Verif.Resume
import Verif.ResumeProps
import Verif.InitDup
import Verif.InitDupProps
import Verif.WholeRun
import Verif.Trace
import Verif.TraceProps
import Verif.PlotProg
import Verif.PlotProgProps
import Verif.CobayaRun
import Verif.CobayaRunProps
import Verif.PoolAny
import Verif.Rng
import Verif.RngProps
import Verif.Diag
import Verif.DiagProps
import Verif.DiagDetails
import Verif.TruthCob
import Verif.TruthCobProps
import Verif.InitProp
import Verif.InitPropProps
import Verif.OrderProps
import Verif.GpRepeat
import Verif.GpLml
import Verif.GpLmlMany
import Verif.RoundAcq
import Verif.ProgRun
import Verif.ProgRunProps
import Verif.DataOrder
import Verif.DataOrder2
import Verif.DataOrder3
import Verif.DataOrderEx
import Verif.PreFit
import Verif.PreFitProps
import Verif.Proposed
import Verif.ProposedProps
import Verif.Again
import Verif.AgainInf
import Verif.PoolGp
import Verif.PoolGpProps
import Verif.PoolGpClf
import Verif.PoolCopy
import Verif.RunMap
import Verif.BatchMap
import Verif.PoolMap
import Verif.NoraMap
import Verif.PoolGpNora
import Verif.PoolGpClip
import Verif.BatchLies
import Verif.BatchLiesClf
import Verif.ConvBatch
import Verif.XNumberProps
import Verif.XParts
import Verif.NoraMapProps
import Verif.DataOrderNora
import Verif.DataOrderBatch
import Verif.DataOrderGp
import Verif.ProcsProps
import Verif.McRead
