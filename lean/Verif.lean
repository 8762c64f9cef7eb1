import Verif.Lemmas.Act
import Verif.Lemmas.Adjoint
import Verif.Lemmas.Aggregate
import Verif.Lemmas.Aggregate2
import Verif.Lemmas.Aggregate3
import Verif.Lemmas.Aggregate4
import Verif.Lemmas.Aggregate5
import Verif.Lemmas.Aggregate6
import Verif.Lemmas.Arr
import Verif.Lemmas.Attention
import Verif.Lemmas.Attention2
import Verif.Lemmas.Attention3
import Verif.Lemmas.Attention4
import Verif.Lemmas.Attention5
import Verif.Lemmas.Attention6
import Verif.Lemmas.Attention7
import Verif.Lemmas.Attention8
import Verif.Lemmas.Attention9
import Verif.Lemmas.AttentionNet
import Verif.Lemmas.AttentionNet2
import Verif.Lemmas.Axes
import Verif.Lemmas.Axes2
import Verif.Lemmas.Backend
import Verif.Lemmas.Batching
import Verif.Lemmas.Batching2
import Verif.Lemmas.Batching3
import Verif.Lemmas.Batching4
import Verif.Lemmas.Box
import Verif.Lemmas.Channels
import Verif.Lemmas.Cho
import Verif.Lemmas.Closed
import Verif.Lemmas.Combinators
import Verif.Lemmas.Concat
import Verif.Lemmas.Contract
import Verif.Lemmas.Conv
import Verif.Lemmas.Conv2
import Verif.Lemmas.ConvNet
import Verif.Lemmas.Dense
import Verif.Lemmas.DenseRows
import Verif.Lemmas.Dot
import Verif.Lemmas.Einsum
import Verif.Lemmas.Elementwise
import Verif.Lemmas.Empirical
import Verif.Lemmas.Ensemble
import Verif.Lemmas.Ensemble2
import Verif.Lemmas.Ensemble3
import Verif.Lemmas.Explicit
import Verif.Lemmas.FanIn
import Verif.Lemmas.Flatten
import Verif.Lemmas.GaussAe
import Verif.Lemmas.GaussCont
import Verif.Lemmas.GaussErf
import Verif.Lemmas.GaussExp
import Verif.Lemmas.GaussField
import Verif.Lemmas.GaussMoments
import Verif.Lemmas.GaussPair
import Verif.Lemmas.GaussPolar
import Verif.Lemmas.GaussPrice
import Verif.Lemmas.GaussRect
import Verif.Lemmas.GaussStein
import Verif.Lemmas.GaussTilt
import Verif.Lemmas.Gp
import Verif.Lemmas.Gp2
import Verif.Lemmas.GradDesc
import Verif.Lemmas.GradDesc2
import Verif.Lemmas.GradDesc3
import Verif.Lemmas.Gram
import Verif.Lemmas.Index
import Verif.Lemmas.Inputs
import Verif.Lemmas.Isserlis
import Verif.Lemmas.KernelDot
import Verif.Lemmas.KernelDot2
import Verif.Lemmas.LayerNorm
import Verif.Lemmas.LayerNorm2
import Verif.Lemmas.LayerNorm3
import Verif.Lemmas.Layout
import Verif.Lemmas.Linear
import Verif.Lemmas.Masked
import Verif.Lemmas.MaskedAlone
import Verif.Lemmas.MaskedApply
import Verif.Lemmas.MaskedApply2
import Verif.Lemmas.MaskedBranch
import Verif.Lemmas.MaskedConcat
import Verif.Lemmas.MaskedFan
import Verif.Lemmas.MaskedInput
import Verif.Lemmas.MaskedJoin
import Verif.Lemmas.MaskedNet
import Verif.Lemmas.MaskedNorm
import Verif.Lemmas.MaskedPool
import Verif.Lemmas.MaskedStep
import Verif.Lemmas.MaskedSwap
import Verif.Lemmas.MaskedTree
import Verif.Lemmas.MoveAxis
import Verif.Lemmas.MoveAxis2
import Verif.Lemmas.Network
import Verif.Lemmas.NoneSelf
import Verif.Lemmas.NoneSelfAll
import Verif.Lemmas.NoneSelfErr
import Verif.Lemmas.NoneSelfNet
import Verif.Lemmas.Nonlinearity
import Verif.Lemmas.Ntk
import Verif.Lemmas.Ntk2
import Verif.Lemmas.Pick
import Verif.Lemmas.Pool
import Verif.Lemmas.Posterior
import Verif.Lemmas.Predict
import Verif.Lemmas.Predict2
import Verif.Lemmas.Predict3
import Verif.Lemmas.PredictCache
import Verif.Lemmas.PsdLayers
import Verif.Lemmas.RandomLinear
import Verif.Lemmas.RandomLinear2
import Verif.Lemmas.Reduce
import Verif.Lemmas.Resize
import Verif.Lemmas.Rows
import Verif.Lemmas.Rules
import Verif.Lemmas.Rules10
import Verif.Lemmas.Rules11
import Verif.Lemmas.Rules12
import Verif.Lemmas.Rules2
import Verif.Lemmas.Rules3
import Verif.Lemmas.Rules4
import Verif.Lemmas.Rules5
import Verif.Lemmas.Rules6
import Verif.Lemmas.Rules7
import Verif.Lemmas.Rules8
import Verif.Lemmas.Rules9
import Verif.Lemmas.RulesConv
import Verif.Lemmas.RulesConv2
import Verif.Lemmas.RulesConv3
import Verif.Lemmas.RulesConv4
import Verif.Lemmas.RulesConv5
import Verif.Lemmas.RulesWindow
import Verif.Lemmas.Semantics
import Verif.Lemmas.Spectral
import Verif.Lemmas.Structured
import Verif.Lemmas.Structured2
import Verif.Lemmas.Structured3
import Verif.Lemmas.Structured4
import Verif.Lemmas.Structured5
import Verif.Lemmas.Structured6
import Verif.Lemmas.Structured7
import Verif.Lemmas.Structured8
import Verif.Lemmas.Swap
import Verif.Lemmas.TraceDiag
import Verif.Lemmas.Upsample
import Verif.Lemmas.Upsample2
import Verif.Lemmas.Upsample3
import Verif.Lemmas.Upsample4
import Verif.Lemmas.Upsample5
import Verif.Lemmas.Vmap
import Verif.Lemmas.WideConv
import Verif.Lemmas.WideConv2
import Verif.Lemmas.WideDeep
import Verif.Lemmas.WideDeepConv
import Verif.Lemmas.WideDeepLin
import Verif.Lemmas.WideDeepNet
import Verif.Lemmas.WideGrad
import Verif.Lemmas.WideLoc
import Verif.Lemmas.WideNet
import Verif.Lemmas.WideNtk
import Verif.Lemmas.WideStep
import Verif.Lemmas.WideSteps
import Verif.Lemmas.WideTangent
import Verif.Lemmas.Window
import Verif.Model.Aggregate
import Verif.Model.Arr
import Verif.Model.Attention
import Verif.Model.Axes
import Verif.Model.Batching
import Verif.Model.Branching
import Verif.Model.Combinators
import Verif.Model.Concat
import Verif.Model.Conv
import Verif.Model.ConvTranspose
import Verif.Model.Dataclass
import Verif.Model.Dense
import Verif.Model.Diagonal
import Verif.Model.Dot
import Verif.Model.Dropout
import Verif.Model.Einsum
import Verif.Model.Elementwise
import Verif.Model.Empirical
import Verif.Model.EmpiricalNtk
import Verif.Model.Ensemble
import Verif.Model.Flatten
import Verif.Model.Fuse
import Verif.Model.Gp
import Verif.Model.GradDesc
import Verif.Model.Inputs
import Verif.Model.JitCache
import Verif.Model.Kernel
import Verif.Model.KernelDot
import Verif.Model.KernelOps
import Verif.Model.Lax
import Verif.Model.LayerNorm
import Verif.Model.Masked
import Verif.Model.MaskedApply
import Verif.Model.MaskedBranch
import Verif.Model.MaskedTree
import Verif.Model.MaxLr
import Verif.Model.MonteCarlo
import Verif.Model.Network
import Verif.Model.Pool
import Verif.Model.Predict
import Verif.Model.PredictCache
import Verif.Model.Req
import Verif.Model.Resize
import Verif.Model.Rules
import Verif.Model.RulesConv
import Verif.Model.RulesWindow
import Verif.Model.Structure
import Verif.Model.Structured
import Verif.Model.Taylor
import Verif.Model.Tree
import Verif.Model.Utils
import Verif.Model.Vmap
import Verif.Model.Window
import Verif.Props.C01
import Verif.Props.C02
import Verif.Props.C03
import Verif.Props.C04
import Verif.Props.C05
import Verif.Props.C06
import Verif.Props.C07
import Verif.Props.C08
import Verif.Props.C09
import Verif.Props.C10
import Verif.Props.C100
import Verif.Props.C100Branches
import Verif.Props.C100Circular
import Verif.Props.C100Edges
import Verif.Props.C100FanIn
import Verif.Props.C100Limits
import Verif.Props.C100Strides
import Verif.Props.C101
import Verif.Props.C101Heads
import Verif.Props.C102
import Verif.Props.C11
import Verif.Props.C12
import Verif.Props.C12Kernel
import Verif.Props.C13
import Verif.Props.C14
import Verif.Props.C15
import Verif.Props.C16
import Verif.Props.C17
import Verif.Props.C18
import Verif.Props.C19
import Verif.Props.C20
import Verif.Props.C21
import Verif.Props.C22
import Verif.Props.C23
import Verif.Props.C24
import Verif.Props.C25
import Verif.Props.C26
import Verif.Props.C27
import Verif.Props.C28
import Verif.Props.C28OneArray
import Verif.Props.C29
import Verif.Props.C30
import Verif.Props.C31
import Verif.Props.C32
import Verif.Props.C33
import Verif.Props.C34
import Verif.Props.C35
import Verif.Props.C36
import Verif.Props.C37
import Verif.Props.C38
import Verif.Props.C39
import Verif.Props.C40
import Verif.Props.C41
import Verif.Props.C42
import Verif.Props.C43
import Verif.Props.C44
import Verif.Props.C45
import Verif.Props.C46
import Verif.Props.C47
import Verif.Props.C48
import Verif.Props.C49
import Verif.Props.C50
import Verif.Props.C50Limit
import Verif.Props.C51
import Verif.Props.C52
import Verif.Props.C53
import Verif.Props.C54
import Verif.Props.C55
import Verif.Props.C56
import Verif.Props.C57
import Verif.Props.C58
import Verif.Props.C59
import Verif.Props.C59Sqrt
import Verif.Props.C60
import Verif.Props.C61
import Verif.Props.C62
import Verif.Props.C63
import Verif.Props.C64
import Verif.Props.C65
import Verif.Props.C66
import Verif.Props.C67
import Verif.Props.C68
import Verif.Props.C68Form
import Verif.Props.C68Mse
import Verif.Props.C69
import Verif.Props.C70
import Verif.Props.C71
import Verif.Props.C72
import Verif.Props.C73
import Verif.Props.C74
import Verif.Props.C75
import Verif.Props.C76
import Verif.Props.C77
import Verif.Props.C78
import Verif.Props.C79
import Verif.Props.C80
import Verif.Props.C80Masked
import Verif.Props.C81
import Verif.Props.C82
import Verif.Props.C82Masked
import Verif.Props.C83
import Verif.Props.C83Masked
import Verif.Props.C83Parallel
import Verif.Props.C84
import Verif.Props.C84All
import Verif.Props.C84Masked
import Verif.Props.C85
import Verif.Props.C85Masked
import Verif.Props.C86
import Verif.Props.C87
import Verif.Props.C88
import Verif.Props.C89
import Verif.Props.C90
import Verif.Props.C91
import Verif.Props.C92
import Verif.Props.C93
import Verif.Props.C94
import Verif.Props.C95
import Verif.Props.C96
import Verif.Props.C97
import Verif.Props.C98
import Verif.Props.C99
import Verif.Props.C99Branches
import Verif.Props.C99Flatten
import Verif.Props.C99Limits
import Verif.Spec.Act
import Verif.Spec.Aggregate
import Verif.Spec.Attention
import Verif.Spec.AttentionRandom
import Verif.Spec.Box
import Verif.Spec.Channels
import Verif.Spec.Concat
import Verif.Spec.Contract
import Verif.Spec.Dual
import Verif.Spec.Ensemble
import Verif.Spec.EntryKernel
import Verif.Spec.Explicit
import Verif.Spec.GaussPair
import Verif.Spec.Gaussian
import Verif.Spec.GradDesc
import Verif.Spec.Interleave
import Verif.Spec.Jacobian
import Verif.Spec.JoinIdx
import Verif.Spec.LayerNorm
import Verif.Spec.Layout
import Verif.Spec.Layouts
import Verif.Spec.Linear
import Verif.Spec.Linearize
import Verif.Spec.Masked
import Verif.Spec.MaskedApply
import Verif.Spec.MaskedBranch
import Verif.Spec.MaskedTree
import Verif.Spec.MeanVar
import Verif.Spec.Momentum
import Verif.Spec.Ntk
import Verif.Spec.Pairwise
import Verif.Spec.Pick
import Verif.Spec.Posterior
import Verif.Spec.Predict
import Verif.Spec.Primitive
import Verif.Spec.Psd
import Verif.Spec.RandomFn
import Verif.Spec.Reduce
import Verif.Spec.Rules
import Verif.Spec.Semantics
import Verif.Spec.Swap
import Verif.Spec.Transposed
import Verif.Spec.Uses
import Verif.Spec.Vmap
import Verif.Spec.Wide
import Verif.Spec.WideConv
import Verif.Spec.WideDeep
import Verif.Spec.WideNtk
import Verif.Spec.Window
import Verif.Tac
