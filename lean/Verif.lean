import Verif.Model.LogLikelihoods
import Verif.Model.Utils
import Verif.Model.L2Norm
import Verif.Model.AbstractJacobian
import Verif.Props.Guards
import Verif.Props.AbstractLayers
import Verif.Props.Jacobian
import Verif.Props.Products
import Verif.Props.Samples
import Verif.Props.Metrics
import Verif.Props.Build
import Verif.Props.Weights
import Verif.Props.History
import Verif.Props.Leaves
import Verif.Props.Spatial
import Verif.Props.Likelihood
import Verif.Props.Aggregate
import Verif.Props.DiagBackprop
import Verif.Props.NoneWeight
import Verif.Props.Skip
import Verif.Props.NoneMatrix
import Verif.Props.Shared
import Verif.Props.AddHooks
import Verif.Props.Grouping
import Verif.Props.Convert
import Verif.Props.Blocks
import Verif.Props.Fractional
import Verif.Props.ConvGen
import Verif.Props.ApproxGgn
import Verif.Spec.FeatureMaps
import Verif.Proofs.FeatureMaps
import Verif.Props.FeatureMaps
import Verif.Props.Benchmark
import Verif.Props.ChainRule
import Verif.Props.Notebook
import Verif.Props.Target
import Verif.Props.OtherWrt
import Verif.Props.Slice
import Verif.Props.Append
import Verif.Props.Copy
import Verif.Props.Storage
import Verif.Props.Autograd
import Verif.Props.Reshape
import Verif.Props.UpsampleModes
import Verif.Props.Custom
import Verif.Spec.Broadcast
import Verif.Proofs.BroadcastLeaf
import Verif.Proofs.Broadcast
import Verif.Props.Broadcast
import Verif.Spec.GNet
import Verif.Proofs.GNet
import Verif.Proofs.ConvLayer
import Verif.Props.GNet
import Verif.Model.Inplace
import Verif.Spec.Inplace
import Verif.Proofs.InplaceSem
import Verif.Proofs.InplaceMdl
import Verif.Proofs.InplaceNet
import Verif.Proofs.InplaceRun
import Verif.Proofs.InplaceCalls
import Verif.Props.Inplace
import Verif.Model.ConvModes
import Verif.Spec.ConvModes
import Verif.Proofs.ConvModes
import Verif.Props.ConvModes
import Verif.Model.Tests
import Verif.Spec.Tests
import Verif.Proofs.Tests
import Verif.Proofs.TestsRun
import Verif.Proofs.TestsDetect
import Verif.Proofs.TestsReach
import Verif.Props.Tests
import Verif.Model.JacTests
import Verif.Spec.JacTests
import Verif.Proofs.JacTests
import Verif.Proofs.JacTestsW
import Verif.Proofs.JacTestsNet
import Verif.Proofs.JacTestsSuite
import Verif.Props.JacTests
import Verif.Spec.NdLinear
import Verif.Proofs.NdLinear
import Verif.Props.NdLinear
import Verif.Spec.Loose
import Verif.Proofs.Loose
import Verif.Proofs.LooseNet
import Verif.Props.Loose
import Verif.Spec.Empty
import Verif.Proofs.Empty
import Verif.Proofs.EmptySeq
import Verif.Props.Empty
import Verif.Spec.FwdMode
import Verif.Proofs.FwdMode
import Verif.Props.FwdMode
import Verif.Proofs.WrongShape
import Verif.Props.WrongShape
import Verif.Proofs.Push
import Verif.Props.Push
import Verif.Spec.Hessian
import Verif.Proofs.Hessian
import Verif.Props.Hessian
import Verif.Spec.Fisher
import Verif.Proofs.Fisher
import Verif.Props.Fisher
import Verif.Spec.Training
import Verif.Proofs.Training
import Verif.Props.Training
import Verif.Spec.Shapes
import Verif.Spec.ShapesNet
import Verif.Proofs.ShapesOps
import Verif.Proofs.ShapesLayers
import Verif.Proofs.ShapesNets
import Verif.Proofs.ShapesSkip
import Verif.Proofs.ShapesUses
import Verif.Props.Shapes
import Verif.Spec.NaN
import Verif.Proofs.NaN
import Verif.Proofs.NaNSeq
import Verif.Props.NaN
import Verif.Spec.Custom
import Verif.Proofs.SameBut
import Verif.Proofs.Custom
import Verif.Props.CustomNet
import Verif.Spec.Rounding
import Verif.Proofs.Rounding
import Verif.Props.Rounding
import Verif.Model.Dtype
import Verif.Spec.Dtype
import Verif.Proofs.Dtype
import Verif.Proofs.DtypeNet
import Verif.Proofs.DtypeBad
import Verif.Proofs.DtypeRet
import Verif.Props.Dtype
import Verif.Spec.Blind
import Verif.Proofs.Blind
import Verif.Props.Blind
import Verif.Model.Work
import Verif.Spec.Work
import Verif.Proofs.Work
import Verif.Props.Work
import Verif.Spec.RoundVjp
import Verif.Proofs.RoundVjp
import Verif.Props.RoundVjp
import Verif.Proofs.RoundVjpW
import Verif.Props.RoundVjpW
import Verif.Spec.RoundDiag
import Verif.Proofs.RoundDiag
import Verif.Props.RoundDiag
import Verif.Spec.RoundRows
import Verif.Proofs.RoundRows
import Verif.Proofs.RoundCols
import Verif.Proofs.RoundColsW
import Verif.Props.RoundRows
import Verif.Props.RoundCols
import Verif.Spec.RoundAt
import Verif.Proofs.RoundAt
import Verif.Props.RoundAt
import Verif.Proofs.RoundAtVjp
import Verif.Props.RoundAtVjp
