import Verif.Lemmas.ArmijoRate
import Verif.Lemmas.Complex
import Verif.Lemmas.ComplexSolvers
import Verif.Lemmas.Converge
import Verif.Lemmas.Damped
import Verif.Lemmas.Driver
import Verif.Lemmas.Euclid
import Verif.Lemmas.Float
import Verif.Lemmas.FloatArith
import Verif.Lemmas.LeastSquares
import Verif.Lemmas.NearRoot
import Verif.Lemmas.Norms
import Verif.Lemmas.Offset
import Verif.Lemmas.PyTree
import Verif.Lemmas.Rank
import Verif.Lemmas.Relabel
import Verif.Lemmas.RelabelSolvers
import Verif.Lemmas.Rigid
import Verif.Lemmas.RigidSolvers
import Verif.Lemmas.RigidSteps
import Verif.Lemmas.RingBuffer
import Verif.Lemmas.SearchLoop
import Verif.Lemmas.Secular
import Verif.Lemmas.Simulate
import Verif.Lemmas.SimulateRel
import Verif.Lemmas.SpdBounds
import Verif.Lemmas.Tolerances
import Verif.Lemmas.TrustRegion
import Verif.Lemmas.Units
import Verif.Lemmas.Unrolled
import Verif.Lemmas.XR
import Verif.Lemmas.XRSpec
import Verif.Model.Ad
import Verif.Model.AdHigher
import Verif.Model.AnyScalar
import Verif.Model.BestSoFar
import Verif.Model.Bisection
import Verif.Model.CauchyPoint
import Verif.Model.Compat
import Verif.Model.Complex
import Verif.Model.Derivatives
import Verif.Model.Dogleg
import Verif.Model.DoglegNorm
import Verif.Model.FixedPoint
import Verif.Model.Float
import Verif.Model.GaussNewton
import Verif.Model.Golden
import Verif.Model.GradientMethods
import Verif.Model.Interactive
import Verif.Model.Iterate
import Verif.Model.LBFGS
import Verif.Model.LevenbergMarquardt
import Verif.Model.Misc
import Verif.Model.NelderMead
import Verif.Model.NelderMeadInit
import Verif.Model.NelderMeadNan
import Verif.Model.NewtonChord
import Verif.Model.Normalised
import Verif.Model.Optax
import Verif.Model.Partition
import Verif.Model.Problems
import Verif.Model.PyTree
import Verif.Model.QuasiNewton
import Verif.Model.Search
import Verif.Model.Tags
import Verif.Model.Unrolled
import Verif.Model.Verbose
import Verif.Model.XR
import Verif.Props.Ad
import Verif.Props.AdCertified
import Verif.Props.AdEndToEnd
import Verif.Props.AdError
import Verif.Props.AdHigher
import Verif.Props.Agreement
import Verif.Props.AnyScalar
import Verif.Props.Apart
import Verif.Props.AtSolution
import Verif.Props.BacktrackingLeastSquares
import Verif.Props.BacktrackingRates
import Verif.Props.Barrier
import Verif.Props.BestSoFar
import Verif.Props.BestSoFarKeeps
import Verif.Props.Bisection
import Verif.Props.CauchyPoint
import Verif.Props.ChordMultiple
import Verif.Props.Combinations
import Verif.Props.Comparisons
import Verif.Props.Compat
import Verif.Props.Complex
import Verif.Props.ComplexMinimise
import Verif.Props.Complexity
import Verif.Props.Conserved
import Verif.Props.Constraints
import Verif.Props.Continuation
import Verif.Props.ContinuousAnswers
import Verif.Props.ConvexRates
import Verif.Props.Cost
import Verif.Props.Curvature
import Verif.Props.Damping
import Verif.Props.Derivatives
import Verif.Props.Determined
import Verif.Props.Dogleg
import Verif.Props.DoglegConvergence
import Verif.Props.DoglegHessian
import Verif.Props.DoglegNorm
import Verif.Props.Driver
import Verif.Props.Envelope
import Verif.Props.Failures
import Verif.Props.FiniteAnswers
import Verif.Props.FiniteArithmetic
import Verif.Props.FitByMinimiser
import Verif.Props.FixedPoint
import Verif.Props.FixedPointLeastSquares
import Verif.Props.FixedPointMonotone
import Verif.Props.FixedPointSpectral
import Verif.Props.GaussNewton
import Verif.Props.GaussNewtonLocal
import Verif.Props.GlobalConvergence
import Verif.Props.Golden
import Verif.Props.GoldenOffset
import Verif.Props.GradientDominated
import Verif.Props.GradientMethods
import Verif.Props.GradientSpectral
import Verif.Props.IndirectLM
import Verif.Props.Interactive
import Verif.Props.Kantorovich
import Verif.Props.LBFGS
import Verif.Props.LBFGSAgree
import Verif.Props.LBFGSCompact
import Verif.Props.LevenbergMarquardt
import Verif.Props.Lifting
import Verif.Props.LinearFits
import Verif.Props.LocalFits
import Verif.Props.Loop
import Verif.Props.McKinnon
import Verif.Props.Misc
import Verif.Props.NearRoot
import Verif.Props.NelderMead
import Verif.Props.NelderMeadMoves
import Verif.Props.NelderMeadNan
import Verif.Props.NelderMeadSimplex
import Verif.Props.NestedSolves
import Verif.Props.NeverWorse
import Verif.Props.NewtonBounds
import Verif.Props.NewtonBudget
import Verif.Props.NewtonChord
import Verif.Props.NewtonInexact
import Verif.Props.NewtonLocal
import Verif.Props.NewtonMonotone
import Verif.Props.NewtonMultiple
import Verif.Props.NoMaxima
import Verif.Props.NoisyFit
import Verif.Props.NoisyGolden
import Verif.Props.NoisyGradient
import Verif.Props.NoisyValues
import Verif.Props.Normalised
import Verif.Props.Offset
import Verif.Props.Optax
import Verif.Props.Ordered
import Verif.Props.Outcomes
import Verif.Props.Partition
import Verif.Props.Passive
import Verif.Props.Placement
import Verif.Props.Problems
import Verif.Props.PyTree
import Verif.Props.QuasiNewton
import Verif.Props.Relabel
import Verif.Props.RelabelNelderMead
import Verif.Props.Repeated
import Verif.Props.Resolve
import Verif.Props.Rigid
import Verif.Props.RootFindDogleg
import Verif.Props.RootFindIndirect
import Verif.Props.RootFindLM
import Verif.Props.Rounding
import Verif.Props.RoundingBisection
import Verif.Props.RoundingFixedPoint
import Verif.Props.RoundingSearch
import Verif.Props.Search
import Verif.Props.StronglyConvex
import Verif.Props.SuccessGradient
import Verif.Props.Symmetric
import Verif.Props.Tags
import Verif.Props.TangentialFixedPoint
import Verif.Props.Together
import Verif.Props.Tolerances
import Verif.Props.Tracking
import Verif.Props.TrustComplexity
import Verif.Props.TrustComplexityMore
import Verif.Props.TrustConvergence
import Verif.Props.TrustMinimise
import Verif.Props.TrustRuns
import Verif.Props.Twice
import Verif.Props.Units
import Verif.Props.Unrolled
import Verif.Props.VanishingTolerances
import Verif.Props.Verbose
import Verif.Props.Visited
import Verif.Spec.AtSolution
import Verif.Spec.Bounds
import Verif.Spec.Branch
import Verif.Spec.Budget
import Verif.Spec.Comparisons
import Verif.Spec.Complex
import Verif.Spec.Cost
import Verif.Spec.Determined
import Verif.Spec.Eigen
import Verif.Spec.Finite
import Verif.Spec.FiniteView
import Verif.Spec.FitByMinimiser
import Verif.Spec.Float
import Verif.Spec.GradientDominated
import Verif.Spec.Ignores
import Verif.Spec.LipschitzJacobian
import Verif.Spec.Matrix
import Verif.Spec.Nested
import Verif.Spec.NewtonBall
import Verif.Spec.Noisy
import Verif.Spec.NoisyFit
import Verif.Spec.Offset
import Verif.Spec.Placement
import Verif.Spec.PyTree
import Verif.Spec.Regular
import Verif.Spec.Relabel
import Verif.Spec.Rigid
import Verif.Spec.Search
import Verif.Spec.SmoothContraction
import Verif.Spec.StrictMax
import Verif.Spec.Symmetric
import Verif.Spec.Tags
import Verif.Spec.Together
import Verif.Spec.Tolerances
import Verif.Spec.TopK
import Verif.Spec.Trace
import Verif.Spec.Units
import Verif.Spec.Valley
