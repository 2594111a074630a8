import Verif.Props.Bijectors
import Verif.Props.BijectorsNum
import Verif.Props.Priors
import Verif.Props.Dict
import Verif.Props.Params
import Verif.Props.SaveLoad
import Verif.Props.Restarts
import Verif.Props.Optim
import Verif.Props.Checkpoint
import Verif.Props.Kernelizers
import Verif.Props.KernelAlgebra
import Verif.Props.KernelDerivs
import Verif.Props.KernelValues
import Verif.Props.KernelPSD
import Verif.Props.KernelLocal
import Verif.Props.Matvec
import Verif.Props.GPR
import Verif.Props.Likelihood
import Verif.Props.GPROrder
import Verif.Props.RPCholesky
import Verif.Props.Lanczos
import Verif.Props.Logdet
import Verif.Props.Centering
import Verif.Props.API
import Verif.Props.SGPR
import Verif.Props.Sampling
import Verif.Props.JointPSD
import Verif.Props.GPRTD
import Verif.Props.Consistency
import Verif.Props.OperatorLearning
import Verif.Props.LossCalls
import Verif.Props.Defaults
import Verif.Props.RBFNet
import Verif.Props.Records
import Verif.Props.Posterior
import Verif.Props.Pytree
import Verif.Props.SparseAPI
import Verif.Props.GPRTDPredict
import Verif.Props.GPRTDAPI
import Verif.Props.RBFNetAPI
import Verif.Props.BaseMethods
import Verif.Props.RPCDerivs
import Verif.Props.GPRTDLik
import Verif.Props.IterativeAccuracy
import Verif.Props.IterativeAccuracyTD
import Verif.Props.RPCExpected
import Verif.Props.RPCExpectedTD
import Verif.Props.Conditioning
import Verif.Props.RestartsNaN
import Verif.Props.KernelsARD
import Verif.Props.LogdetError
import Verif.Props.LikelihoodAccuracy
import Verif.Props.LikelihoodAccuracyTD
import Verif.Props.Disk
import Verif.Props.TrainingPoints
import Verif.Props.TrainingJoint
import Verif.Props.Pointwise
import Verif.Props.Bounded
import Verif.Props.Invariance
import Verif.Props.InvarianceMore
import Verif.Props.AllInducing
import Verif.Props.Rounding
import Verif.Props.BaseKernels
import Verif.Props.Continuity
import Verif.Props.ContinuityDerivs
import Verif.Props.Objective
import Verif.Spec.DerivErrors
import Verif.Spec.Checkpoint
import Verif.Lemmas.KernelClosedJ
import Verif.Lemmas.DerivErrors
import Verif.Props.DerivErrors
import Verif.Model.Dispatch
import Verif.Lemmas.Dispatch
import Verif.Props.Dispatch
import Verif.Model.Getters
import Verif.Props.Getters
import Verif.Lemmas.NearJoint
import Verif.Props.JointNear
import Verif.Props.OrderSparse
import Verif.Props.RestartDraws
import Verif.Model.Print
import Verif.Spec.Print
import Verif.Lemmas.Print
import Verif.Props.Print
import Verif.Model.Heap
import Verif.Spec.Heap
import Verif.Lemmas.Heap
import Verif.Props.Heap
import Verif.Props.DerivModels
import Verif.Props.LinearMore
import Verif.Props.TargetUnits
import Verif.Model.JitCache
import Verif.Props.JitCache
import Verif.Props.Updating
import Verif.Spec.Gradient
import Verif.Props.Gradient
import Verif.Props.GradientDerivs
import Verif.Lemmas.DictIndex
import Verif.Spec.Unconstrained
import Verif.Props.Unconstrained
import Verif.Spec.Optax
import Verif.Model.StateGrad
import Verif.Spec.StateGrad
import Verif.Lemmas.StateGrad
import Verif.Lemmas.Descent
import Verif.Props.StateGrad
import Verif.Spec.NormalLaw
import Verif.Spec.PosteriorTD
import Verif.Lemmas.NormalLaw
import Verif.Lemmas.NormalDensity
import Verif.Lemmas.NormalInfo
import Verif.Props.NormalLaw
import Verif.Props.DensityLaw
import Verif.Props.SparseLaw
import Verif.Spec.Repeats
import Verif.Lemmas.KernelRepeats
import Verif.Props.RepeatedDims
import Verif.Props.HandDerivs
import Verif.Spec.Frames
import Verif.Spec.Merge
import Verif.Lemmas.Frames
import Verif.Lemmas.FramesTD
import Verif.Props.Frames
import Verif.Props.MergeSets
import Verif.Spec.JointSlack
import Verif.Lemmas.Matern32Jet
import Verif.Lemmas.JointSlack
import Verif.Props.JointSlack
import Verif.Props.ContinuitySlopes
import Verif.Props.SGPROnePoint
import Verif.Lemmas.SlackBlocks
import Verif.Props.CovarianceSlack
import Verif.Props.DensitySlack
import Verif.Props.BoundsSlack
import Verif.Props.AccuracySlack
import Verif.Props.DerivsSlack
import Verif.Spec.ConsistencyNear
import Verif.Lemmas.DerivNear
import Verif.Lemmas.Matern32Paths
import Verif.Props.ConsistencyNear
import Verif.Spec.Rearrange
import Verif.Props.Rearrange
import Verif.Spec.Periodic
import Verif.Props.Periodic
import Verif.Spec.Strict
import Verif.Lemmas.StrictPD
import Verif.Lemmas.StrictKernels
import Verif.Props.Strict
import Verif.Props.BestNoise
import Verif.Spec.SparseClose
import Verif.Lemmas.SparseClose
import Verif.Props.SparseClose
import Verif.Spec.WorstCase
import Verif.Lemmas.WorstCase
import Verif.Props.WorstCase
import Verif.Props.Slope
import Verif.Spec.Certainty
import Verif.Lemmas.SchurMono
import Verif.Props.Certainty
import Verif.Lemmas.Ignored
import Verif.Props.CertaintyJoint
import Verif.Props.SamplePrior
import Verif.Spec.Lengthscales
import Verif.Props.Lengthscales
import Verif.Props.LeaveOneOut
import Verif.Spec.Symmetry
import Verif.Props.Symmetry
import Verif.Props.Accumulate
import Verif.Props.LeaveOutDerivs
import Verif.Spec.Simple
import Verif.Props.Simple
import Verif.Spec.Interactions
import Verif.Props.Interactions
import Verif.Props.UnreadDerivs
import Verif.Props.Conservative
import Verif.Props.DefaultPriors
import Verif.Props.Reproduce
import Verif.Props.Outputs
import Verif.Props.LossTable
