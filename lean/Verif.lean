import Verif.Arith
import Verif.Arith.Real
import Verif.Arith.X
import Verif.Ode.Basic
import Verif.Ode.Jacobian
import Verif.Ode.Run
import Verif.DP5.Model
import Verif.Linalg.Model
import Verif.Radau.Model
import Verif.Rodas.Model
import Verif.Dae.Model
import Verif.Spec.Builder
import Verif.Spec.RungeKutta
import Verif.Spec.Problem
import Verif.Spec.Dissipative
import Verif.Spec.NaN
import Verif.Spec.Linear
import Verif.Spec.Jacobian
import Verif.Spec.RadauIIA
import Verif.Proofs.DP5
import Verif.Proofs.DP5Step
import Verif.Proofs.DP5X
import Verif.Proofs.DP5Run
import Verif.Proofs.DP5Traj
import Verif.Proofs.DP5Term
import Verif.Proofs.DP5Fac
import Verif.Proofs.DP5Stale
import Verif.Proofs.DP5Sim
import Verif.Proofs.Radau
import Verif.Proofs.RadauLoop
import Verif.Proofs.RadauStep
import Verif.Proofs.Run
import Verif.Proofs.RunInv
import Verif.Proofs.RadauCount
import Verif.Proofs.RadauCalls
import Verif.Proofs.RadauX
import Verif.Proofs.RadauEnd
import Verif.Proofs.RadauSpan
import Verif.Proofs.RadauJac
import Verif.Proofs.Sample
import Verif.Proofs.Trees
import Verif.Proofs.Elim
import Verif.Proofs.ElimCode
import Verif.Proofs.LuReal
import Verif.Proofs.LuComplex
import Verif.Proofs.LuLift
import Verif.Proofs.RadauFac
import Verif.Proofs.RadauLin
import Verif.Proofs.RadauNum
import Verif.Proofs.RadauRun
import Verif.Proofs.RadauPass
import Verif.Props.Builder
import Verif.Props.Run
import Verif.Props.Stats
import Verif.Props.Ignored
import Verif.Props.DP5Exact
import Verif.Props.DP5Hang
import Verif.Props.DP5Control
import Verif.Props.DP5Symmetry
import Verif.Props.Tableau
import Verif.Props.DP5Algebra
import Verif.Props.DP5Dense
import Verif.Props.DP5Callback
import Verif.Props.DaeBuild
import Verif.Props.DP5Float
import Verif.Props.LinearSolve
import Verif.Props.RadauControl
import Verif.Props.Jacobian
import Verif.Props.RadauInvariant
import Verif.Props.RadauStep
import Verif.Proofs.RadauQuad
import Verif.Proofs.RadauR
import Verif.Proofs.RadauSample
import Verif.Props.RadauStability
import Verif.Props.RadauDecay
import Verif.Props.RadauStale
import Verif.Props.RadauExamples
import Verif.Props.FinalTime
import Verif.Spec.Float
import Verif.Proofs.FloatBasic
import Verif.Props.DP5Rounding
import Verif.Arith.Binary64
import Verif.Proofs.Binary64Last
import Verif.Proofs.Sample64
import Verif.Props.Double
import Verif.Props.RadauRounding
import Verif.Proofs.Sample64Radau
import Verif.Props.DoubleRadau
import Verif.Proofs.LuRange
import Verif.Proofs.Finite
import Verif.Props.Finite
import Verif.Props.Pivots
import Verif.Props.ZeroTol
import Verif.Proofs.Taylor
import Verif.Proofs.Order5
import Verif.Proofs.Converge
import Verif.Props.Convergence
import Verif.Proofs.DP5Live
import Verif.Props.Success
import Verif.Proofs.Cut
import Verif.Props.Prefix
import Verif.Linalg.Banded
import Verif.Props.Banded
import Verif.Spec.Adaptive
import Verif.Props.Adaptive
import Verif.Spec.RadauLaw
import Verif.Proofs.RadauLaw
import Verif.Props.RadauLaw
import Verif.Proofs.OrderDense
import Verif.Props.DenseConvergence
import Verif.Proofs.RadauOrder
import Verif.Proofs.RadauNewton
import Verif.Proofs.RadauConsts
import Verif.Props.RadauStart
import Verif.Props.RadauConverge
import Verif.Spec.Double
import Verif.Proofs.Round64
import Verif.Proofs.DP5Round
import Verif.Props.DP5Double
import Verif.Spec.RadauSuccess
import Verif.Proofs.RadauLive
import Verif.Proofs.RadauTry
import Verif.Props.RadauSuccess
import Verif.Spec.Extrapolate
import Verif.Spec.RadauAlgorithm
import Verif.Proofs.RadauSim
import Verif.Proofs.RadauTrial
import Verif.Proofs.RadauDet
import Verif.Props.RadauAlgorithm
import Verif.Spec.Local
import Verif.Proofs.Local
import Verif.Props.Local
import Verif.Proofs.RadauBack
import Verif.Props.RadauBack
import Verif.Props.RadauSingular
import Verif.Spec.Units
import Verif.Proofs.Units
import Verif.Proofs.UnitsDP5
import Verif.Proofs.UnitsX
import Verif.Proofs.UnitsDouble
import Verif.Props.Units
import Verif.Spec.Symmetry
import Verif.Proofs.RadauSymmetry
import Verif.Props.RadauSymmetry
import Verif.Spec.Decay
import Verif.Props.DP5Decay
import Verif.Props.DP5Tolerance
import Verif.Props.DP5Diffusion
import Verif.Props.DP5Dissipative
import Verif.Rodas.Constants
import Verif.Spec.Rosenbrock
import Verif.Props.RodasOrder
