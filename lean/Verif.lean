import Verif.Model.Results
import Verif.Model.Loop
import Verif.Spec.Loop
import Verif.Lemmas.Loop
import Verif.Lemmas.Buffer
import Verif.Lemmas.Log
import Verif.Lemmas.Output
import Verif.Props.Loop
import Verif.Props.Save
import Verif.Props.Event
import Verif.Props.Dense
import Verif.Props.Fill
import Verif.Props.Interp
import Verif.Props.Hermite
import Verif.Props.Missing
import Verif.Props.LocalInterp
import Verif.Model.Constant
import Verif.Lemmas.Grid
import Verif.Props.Constant
import Verif.Model.XReal
import Verif.Model.Pid
import Verif.Spec.Pid
import Verif.Lemmas.Pid
import Verif.Props.Pid
import Verif.Props.Clip
import Verif.Props.ClipJump
import Verif.Props.ClipReject
import Verif.Props.ClipProgress
import Verif.Props.RK
import Verif.Props.Retry
import Verif.Props.Order
import Verif.Props.OrderSolvers
import Verif.Props.OrderIdeal
import Verif.Props.OrderLarge
import Verif.Props.Quadrature
import Verif.Props.Solvers
import Verif.Props.Front
import Verif.Props.FrontTime
import Verif.Props.SRK
import Verif.Props.SrkOrder
import Verif.Props.Brownian
import Verif.Props.BrownianLaw
import Verif.Model.Progress
import Verif.Props.Progress
import Verif.Model.VeryChord
import Verif.Props.VeryChord
import Verif.Model.Terms
import Verif.Props.Terms
import Verif.Model.Backsolve
import Verif.Props.Backsolve
import Verif.Props.BacksolveGradient
import Verif.Props.FreshStart
import Verif.Spec.Convergence
import Verif.Lemmas.UniformTaylor
import Verif.Lemmas.ElemBound
import Verif.Lemmas.Convergence
import Verif.Lemmas.ConvergenceImplicit
import Verif.Props.Convergence
import Verif.Model.Langevin
import Verif.Spec.Langevin
import Verif.Lemmas.Langevin
import Verif.Props.LangevinCoeffs
import Verif.Props.Langevin
import Verif.Spec.LangevinOrder
import Verif.Lemmas.Jet
import Verif.Lemmas.LangevinExact
import Verif.Lemmas.LangevinStep
import Verif.Props.LangevinOrder
import Verif.Model.DenseInterp
import Verif.Spec.DenseOrder
import Verif.Spec.DenseEnds
import Verif.Lemmas.DenseCheck
import Verif.Lemmas.DenseOrder
import Verif.Lemmas.DenseRows
import Verif.Props.DenseOrder
import Verif.Props.DenseEnds
import Verif.Spec.DenseConvergence
import Verif.Lemmas.DenseConvergence
import Verif.Props.DenseConvergence
import Verif.Spec.SolveError
import Verif.Lemmas.SolveInvariant
import Verif.Lemmas.SolutionTaylor
import Verif.Props.OtherSolvers
import Verif.Props.ReversibleHeun
import Verif.Props.Leapfrog
import Verif.Model.Sde
import Verif.Spec.Ito
import Verif.Spec.StrongError
import Verif.Lemmas.L2
import Verif.Lemmas.Ito
import Verif.Lemmas.NoiseMoments
import Verif.Lemmas.BrownianMotion
import Verif.Props.StrongSolve
import Verif.Props.StrongConvergence
import Verif.Props.StrongExamples
import Verif.Spec.ItoSmooth
import Verif.Lemmas.ItoTaylor
import Verif.Lemmas.MilsteinStep
import Verif.Props.StrongOrderOne
import Verif.Spec.StrongRK
import Verif.Lemmas.SdeRKStep
import Verif.Lemmas.StageExpansion
import Verif.Props.StrongRK
import Verif.Spec.StratonovichSum
import Verif.Props.StratonovichSum
import Verif.Model.PidWith
import Verif.Spec.AdaptiveFinish
import Verif.Props.AdaptiveFinish
import Verif.Props.AdaptiveExplicit
import Verif.Props.SrkError
import Verif.Model.Batch
import Verif.Spec.Batch
import Verif.Props.Batch
import Verif.Props.BatchLangevin
import Verif.Props.EventPrefix
import Verif.Spec.EventConvergence
import Verif.Props.EventConvergence
import Verif.Lemmas.RKNear
import Verif.Spec.InexactRoot
import Verif.Props.InexactRoot
import Verif.Lemmas.AcceptedInv
import Verif.Spec.Cde
import Verif.Lemmas.Cde
import Verif.Props.Cde
import Verif.Model.SteadyState
import Verif.Spec.SteadyState
import Verif.Props.SteadyState
import Verif.Model.ImplicitAdjoint
import Verif.Spec.ImplicitAdjoint
import Verif.Props.ImplicitAdjoint
import Verif.Model.UnsafePath
import Verif.Spec.UnsafePath
import Verif.Props.UnsafePath
import Verif.Props.Resume
import Verif.Props.AdditiveStrong
import Verif.Props.AdditiveExamples
import Verif.Props.Tolerance
import Verif.Props.LangevinInvariant
import Verif.Props.LocalConvergence
import Verif.Props.SolveDerivative
import Verif.Props.BacksolveConvergence
import Verif.Props.BacksolveConstant
import Verif.Props.ClipResume
import Verif.Props.BacksolveAccepts
import Verif.Model.DenseDerivative
import Verif.Spec.DerivativeConvergence
import Verif.Lemmas.DenseDerivative
import Verif.Props.DerivativeConvergence
import Verif.Model.Seminorm
import Verif.Spec.Subsystem
import Verif.Lemmas.Subsystem
import Verif.Props.Subsystem
import Verif.Spec.Stability
import Verif.Lemmas.Stability
import Verif.Props.Stability
import Verif.Model.Typing
import Verif.Spec.Typing
import Verif.Props.Typing
import Verif.Spec.Units
import Verif.Lemmas.Units
import Verif.Props.Units
import Verif.Spec.Conserved
import Verif.Lemmas.Conserved
import Verif.Lemmas.ConservedRK
import Verif.Props.Conserved
import Verif.Model.Preflight
import Verif.Spec.Preflight
import Verif.Props.Preflight
import Verif.Model.Compat
import Verif.Spec.Compat
import Verif.Props.Compat
import Verif.Props.EventEnd
import Verif.Spec.EventRoot
import Verif.Props.EventRoot
import Verif.Model.SaveShapes
import Verif.Props.SaveShapes
import Verif.Spec.EventCrossing
import Verif.Props.EventCrossing
import Verif.Props.MaxSteps
import Verif.Props.EventStart
import Verif.Model.EventNan
import Verif.Props.EventNan
import Verif.Model.TimeTypes
import Verif.Props.TimeTypes
import Verif.Model.TimeRound
import Verif.Props.TimeRound
import Verif.Props.EmptyRoot
import Verif.Props.StepToResult
import Verif.Props.SaveJump
import Verif.Props.EventJump
import Verif.Audit
