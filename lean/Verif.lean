import Verif.Conformance.Grid
import Verif.Conformance.Triangulation
import Verif.Conformance.Utilities
import Verif.Lemmas.Batchify
import Verif.Lemmas.Delaunay
import Verif.Lemmas.ExampleWorld
import Verif.Lemmas.FeaturePrior
import Verif.Lemmas.FloatFactor
import Verif.Lemmas.FloatGaussianProcess
import Verif.Lemmas.FloatTriangulation
import Verif.Lemmas.FloatWeights
import Verif.Lemmas.Flow
import Verif.Lemmas.GaussianProcess
import Verif.Lemmas.Grid
import Verif.Lemmas.InaccurateFactor
import Verif.Lemmas.Lyapunov
import Verif.Lemmas.MatrixExp
import Verif.Lemmas.ModifiedPolicyIteration
import Verif.Lemmas.NonFinite
import Verif.Lemmas.NonFiniteLevel
import Verif.Lemmas.RandomTruth
import Verif.Lemmas.Region
import Verif.Lemmas.RegionSearch
import Verif.Lemmas.SafeSet
import Verif.Lemmas.SafeSetAdaptive
import Verif.Lemmas.SafeSetRefined
import Verif.Lemmas.Sparse
import Verif.Lemmas.Tiling
import Verif.Lemmas.Triangulation
import Verif.Lemmas.ValueFunction
import Verif.Model.Batchify
import Verif.Model.Boundary
import Verif.Model.Certificate
import Verif.Model.Configuration
import Verif.Model.Decrease
import Verif.Model.Discretise
import Verif.Model.ExampleLoops
import Verif.Model.Exploration
import Verif.Model.Features
import Verif.Model.FloatGaussianProcess
import Verif.Model.FloatGrid
import Verif.Model.FloatParametric
import Verif.Model.FloatPolicyOptimization
import Verif.Model.FloatTriangulation
import Verif.Model.FloatValueIteration
import Verif.Model.Functions
import Verif.Model.GaussianProcess
import Verif.Model.Grid
import Verif.Model.Imports
import Verif.Model.Interrupts
import Verif.Model.LearningLoop
import Verif.Model.Lyapunov
import Verif.Model.LyapunovNetwork
import Verif.Model.NameScopes
import Verif.Model.NonFinite
import Verif.Model.Numeric
import Verif.Model.ParametricFunctions
import Verif.Model.PiecewiseConstant
import Verif.Model.PlotMore
import Verif.Model.Plots
import Verif.Model.ProjectSession
import Verif.Model.RefinedTau
import Verif.Model.Region
import Verif.Model.ReinforcementLearning
import Verif.Model.SafeSample
import Verif.Model.ScipyDelaunay
import Verif.Model.Scopes
import Verif.Model.Scripts
import Verif.Model.Setup
import Verif.Model.Simulation
import Verif.Model.Systems
import Verif.Model.TfFun
import Verif.Model.Triangulation
import Verif.Model.Unfinished
import Verif.Model.Utilities
import Verif.Props.Adaptive
import Verif.Props.Batchify
import Verif.Props.BayesPosterior
import Verif.Props.Boundary
import Verif.Props.Certificate
import Verif.Props.Combinations
import Verif.Props.Confidence
import Verif.Props.Configuration
import Verif.Props.Continuity
import Verif.Props.ContinuityBoundary
import Verif.Props.Decrease
import Verif.Props.Ellipse
import Verif.Props.ExampleLoops
import Verif.Props.Exploration
import Verif.Props.Features
import Verif.Props.FiveSimplices
import Verif.Props.FloatDecrease
import Verif.Props.FloatEvaluation
import Verif.Props.FloatExploration
import Verif.Props.FloatGaussianProcess
import Verif.Props.FloatGaussianProcessBounds
import Verif.Props.FloatGrid
import Verif.Props.FloatLearning
import Verif.Props.FloatLearningRegion
import Verif.Props.FloatLinearRegion
import Verif.Props.FloatParametric
import Verif.Props.FloatPolicyOptimization
import Verif.Props.FloatRealTime
import Verif.Props.FloatRegion
import Verif.Props.FloatTriangulation
import Verif.Props.FloatValueIteration
import Verif.Props.FunctionAlgebra
import Verif.Props.FunctionStack
import Verif.Props.FutureValues
import Verif.Props.GPSample
import Verif.Props.GaussianProcess
import Verif.Props.GradientMore
import Verif.Props.Grid
import Verif.Props.Hyperparameters
import Verif.Props.IEEE
import Verif.Props.IEEEParametric
import Verif.Props.Imports
import Verif.Props.Inputs
import Verif.Props.InterpolationError
import Verif.Props.Interrupts
import Verif.Props.LearningLoop
import Verif.Props.Linearisation
import Verif.Props.Lqr
import Verif.Props.LqrInaccurate
import Verif.Props.LqrInaccurateNonlinear
import Verif.Props.LqrNonlinear
import Verif.Props.LqrOptimal
import Verif.Props.LyapunovNetwork
import Verif.Props.Mechanics
import Verif.Props.NameScopes
import Verif.Props.NeuralNetwork
import Verif.Props.NonFinite
import Verif.Props.NonFiniteExact
import Verif.Props.NonFiniteGrid
import Verif.Props.NonFiniteRefineSample
import Verif.Props.NonFiniteSample
import Verif.Props.ParameterChange
import Verif.Props.ParametricFunctions
import Verif.Props.PiecewiseConstant
import Verif.Props.PlotMore
import Verif.Props.Plots
import Verif.Props.PolicyBoundary
import Verif.Props.PolicyOptimization
import Verif.Props.PolicySession
import Verif.Props.PolicyTermination
import Verif.Props.ProjectSession
import Verif.Props.RealTime
import Verif.Props.RealTimeLocal
import Verif.Props.RefinedCell
import Verif.Props.RefinedTau
import Verif.Props.Region
import Verif.Props.Response
import Verif.Props.SafeSample
import Verif.Props.SafeSet
import Verif.Props.SafeSetMonotone
import Verif.Props.SaturatedGradient
import Verif.Props.ScipyDelaunay
import Verif.Props.Scopes
import Verif.Props.Scripts
import Verif.Props.Setup
import Verif.Props.Simulation
import Verif.Props.SimulationAccuracy
import Verif.Props.StackInterrupts
import Verif.Props.Storage
import Verif.Props.Systems
import Verif.Props.TfFun
import Verif.Props.Triangulation
import Verif.Props.TriangulationBoundary
import Verif.Props.TriangulationConstruction
import Verif.Props.TriangulationExamples
import Verif.Props.TriangulationLipschitz
import Verif.Props.TriangulationMore
import Verif.Props.Unfinished
import Verif.Props.UniqueRows
import Verif.Props.ValueAccuracy
import Verif.Props.ValueErrors
import Verif.Props.ValueErrorsReal
import Verif.Props.ValueExamples
import Verif.Props.ValueIteration
import Verif.Props.ValueProgram
import Verif.Props.ValueRange
import Verif.Spec.Accuracy
import Verif.Spec.Certificate
import Verif.Spec.Features
import Verif.Spec.Functions
import Verif.Spec.GaussianProcess
import Verif.Spec.Grid
import Verif.Spec.NonFinite
import Verif.Spec.Plots
import Verif.Spec.RandomTruth
import Verif.Spec.Region
import Verif.Spec.ReinforcementLearning
import Verif.Spec.SafeSet
import Verif.Spec.Setup
import Verif.Spec.Simulation
import Verif.Spec.Systems
import Verif.Spec.Triangulation
import Verif.Spec.Utilities
