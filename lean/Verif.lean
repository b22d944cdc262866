import Verif.Model.Acq
import Verif.Model.AcqPlot
import Verif.Model.CommonFun
import Verif.Model.CondPlot
import Verif.Model.Cov
import Verif.Model.EvalApprox
import Verif.Model.EvalModel
import Verif.Model.EvalScl
import Verif.Model.GaussProc
import Verif.Model.GpInfo
import Verif.Model.GradCheck
import Verif.Model.HpGrad
import Verif.Model.HpGuard
import Verif.Model.HpOptz
import Verif.Model.HpX0
import Verif.Model.KernCorr
import Verif.Model.Kernel
import Verif.Model.KernelMatern5f2
import Verif.Model.KernelPlain
import Verif.Model.KernelRatQuad
import Verif.Model.KernelSqExp
import Verif.Model.LinAlg
import Verif.Model.Lkd
import Verif.Model.LkdAll
import Verif.Model.LoadData
import Verif.Model.MeanFun
import Verif.Model.NuggetFig
import Verif.Model.OptzHp
import Verif.Model.OptzLoop
import Verif.Model.ParaDef
import Verif.Model.PlotData
import Verif.Model.Predict
import Verif.Model.Rescale
import Verif.Model.RescaleHp
import Verif.Model.RescaleNlc
import Verif.Model.Results
import Verif.Model.Sweep
import Verif.Model.TestFun
import Verif.Model.WellCond
import Verif.Np
import Verif.Proofs.Additive
import Verif.Proofs.Assemble
import Verif.Proofs.AssembleTh
import Verif.Proofs.AssembleX
import Verif.Proofs.AssembleX2
import Verif.Proofs.Believe
import Verif.Proofs.Block
import Verif.Proofs.Blup
import Verif.Proofs.Broken
import Verif.Proofs.Cholesky
import Verif.Proofs.Closed
import Verif.Proofs.CondAffine
import Verif.Proofs.CondGauss
import Verif.Proofs.CondNum
import Verif.Proofs.CondRec
import Verif.Proofs.CondVal
import Verif.Proofs.Contin
import Verif.Proofs.Coord
import Verif.Proofs.CoordUnits
import Verif.Proofs.CovCore
import Verif.Proofs.CovGp
import Verif.Proofs.CovTotal
import Verif.Proofs.EigDeriv
import Verif.Proofs.EvalCore
import Verif.Proofs.EvalCore2
import Verif.Proofs.EvalCore3
import Verif.Proofs.EvalDeriv
import Verif.Proofs.EvalHess
import Verif.Proofs.EvalMask1
import Verif.Proofs.FarAway
import Verif.Proofs.FarHess
import Verif.Proofs.GpState
import Verif.Proofs.HpGradCore
import Verif.Proofs.InexactFac
import Verif.Proofs.Joint
import Verif.Proofs.KernelLink
import Verif.Proofs.KernelPlain
import Verif.Proofs.LkdAllCore
import Verif.Proofs.LkdCore
import Verif.Proofs.LkdPath
import Verif.Proofs.MaskSel
import Verif.Proofs.MatDeriv
import Verif.Proofs.Matern
import Verif.Proofs.Matern2
import Verif.Proofs.MoreData
import Verif.Proofs.Native
import Verif.Proofs.PsdGrad
import Verif.Proofs.PsdLink
import Verif.Proofs.PsdMix
import Verif.Proofs.PsdVal
import Verif.Proofs.RatQuad
import Verif.Proofs.RatQuad2
import Verif.Proofs.Reindex
import Verif.Proofs.Restate
import Verif.Proofs.RowBound
import Verif.Proofs.RowBoundMa
import Verif.Proofs.RowSum
import Verif.Proofs.SclCore
import Verif.Proofs.SclInv
import Verif.Proofs.SqExp
import Verif.Proofs.SqExp2
import Verif.Proofs.Units
import Verif.Props.Acq
import Verif.Props.AcqPlot
import Verif.Props.AfterOptz
import Verif.Props.Average
import Verif.Props.Believe
import Verif.Props.BestLin
import Verif.Props.Blup
import Verif.Props.ClosedForm
import Verif.Props.Common
import Verif.Props.Cond
import Verif.Props.CondGrad
import Verif.Props.CondPlot
import Verif.Props.Contin
import Verif.Props.Contour
import Verif.Props.Coord
import Verif.Props.CoordUnits
import Verif.Props.Cov
import Verif.Props.Eval
import Verif.Props.EvalClose
import Verif.Props.EvalDerivs
import Verif.Props.EvalScl
import Verif.Props.FarAway
import Verif.Props.FirstOrder
import Verif.Props.GaussProc
import Verif.Props.GpInfo
import Verif.Props.GradCheck
import Verif.Props.Guard
import Verif.Props.Hist
import Verif.Props.HpGrad
import Verif.Props.HpX0
import Verif.Props.Inexact
import Verif.Props.InexactFac
import Verif.Props.InexactPred
import Verif.Props.InitHp
import Verif.Props.Invariance
import Verif.Props.KernCorr
import Verif.Props.KernelDerivs
import Verif.Props.KernelPlain
import Verif.Props.Kernels
import Verif.Props.Layout
import Verif.Props.Lipschitz
import Verif.Props.Lkd
import Verif.Props.LkdAll
import Verif.Props.LkdAllEx
import Verif.Props.LoadData
import Verif.Props.Loop
import Verif.Props.MaskOne
import Verif.Props.MaternClose
import Verif.Props.Mean
import Verif.Props.Modulus
import Verif.Props.MoreData
import Verif.Props.Native
import Verif.Props.NearData
import Verif.Props.NuggetFig
import Verif.Props.OptzHp
import Verif.Props.OptzLoop
import Verif.Props.OptzRow
import Verif.Props.OptzTotal
import Verif.Props.Original
import Verif.Props.Plain
import Verif.Props.PlainCond
import Verif.Props.PlotData
import Verif.Props.Predict
import Verif.Props.Protocol
import Verif.Props.Psd
import Verif.Props.RatQuadLimit
import Verif.Props.RatQuadModel
import Verif.Props.Recover
import Verif.Props.Rescale
import Verif.Props.RescaleHp
import Verif.Props.RescaleNlc
import Verif.Props.RescaleTotal
import Verif.Props.Restate
import Verif.Props.RestatePred
import Verif.Props.Results
import Verif.Props.Risk
import Verif.Props.ScaledData
import Verif.Props.ScaledLoop
import Verif.Props.SetupCond
import Verif.Props.Smoothest
import Verif.Props.Sweep
import Verif.Props.TestFun
import Verif.Props.Values
import Verif.Props.WarmStart
import Verif.Spec.BelieveSpec
import Verif.Spec.BestLinSpec
import Verif.Spec.BlupSpec
import Verif.Spec.CondGauss
import Verif.Spec.CondNumSpec
import Verif.Spec.CondPlotSpec
import Verif.Spec.CondSpec
import Verif.Spec.ContinSpec
import Verif.Spec.CoordSpec
import Verif.Spec.CoordUnitsSpec
import Verif.Spec.CovDeriv
import Verif.Spec.DataSetSpec
import Verif.Spec.EigSpec
import Verif.Spec.EvalSpec
import Verif.Spec.Family
import Verif.Spec.GpSpec
import Verif.Spec.GpState
import Verif.Spec.HistSpec
import Verif.Spec.HpSlots
import Verif.Spec.HpSpec
import Verif.Spec.InexactFacSpec
import Verif.Spec.InfoSpec
import Verif.Spec.Kernels
import Verif.Spec.LkdSpec
import Verif.Spec.LoopSpec
import Verif.Spec.MiniSpec
import Verif.Spec.NativeSpec
import Verif.Spec.NlcSpec
import Verif.Spec.OptzRowSpec
import Verif.Spec.OptzSpec
import Verif.Spec.OrigSpec
import Verif.Spec.PlainSpec
import Verif.Spec.PredictSpec
import Verif.Spec.Profiles
import Verif.Spec.Radial
import Verif.Spec.Radial2
import Verif.Spec.Ready
import Verif.Spec.RescaleSpec
import Verif.Spec.RestateSpec
import Verif.Spec.ScaleSpec
import Verif.Spec.ScaledLoopSpec
import Verif.Spec.SclSpec
import Verif.Spec.Session
import Verif.Spec.SolveSpec
import Verif.Spec.SweepSpec
import Verif.Spec.X0Spec
