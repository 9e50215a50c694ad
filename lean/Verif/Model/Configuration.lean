import Mathlib.Data.List.Basic
set_option autoImplicit false

/-!
# The floating point type of the configuration (safe_learning/configuration.py) and the functions that depend on it

Only types of arrays and tensors are modelled here, not values. A user changes `safe_learning.config.dtype` at any time. Some functions read it when an object is
constructed, some when a graph is built or run, and two decorators read it once, when the package is imported.
-/

namespace SafeLearning

/-- Floating point types. -/
inductive DType where
  | float32
  | float64
  deriving DecidableEq, Repr

/-- The type of the result of an operation of two numpy arrays. -/
def DType.promote : DType → DType → DType
  | .float32, .float32 => .float32
  | _, _ => .float64

/-- What can go wrong: `TypeError` and `ValueError` while the graph is built, `InvalidArgumentError` when it is run. -/
inductive TensorError where
  | typeError
  | valueError
  | invalidArgument
  | noObject
  deriving DecidableEq, Repr

/-- `Configuration.__init__` (safe_learning/configuration.py:11-16), executed when the package is imported
(safe_learning/__init__.py:92). -/
def initialDType : DType := .float64

/-- The return types of `_get_hyperplanes` and `_get_gradients` (safe_learning/functions.py:1442, 1501): the decorators are
evaluated when the package is imported. -/
def decoratorDType : DType := initialDType

/-- A `GridWorld` (safe_learning/functions.py:591-637): the type of `limits`, `offset`, `unit_maxes` and `discrete_points`, and of the cached `_all_points`. -/
structure GridDT where
  dtype : DType
  allPoints : Option DType
  deriving DecidableEq, Repr

/-- A `Triangulation` (safe_learning/functions.py:1397-1420): its grid, the types of the hyperplanes (line 1094) and of the variable with the vertex values
(line 1409), and `project`. Simplification: the vertex values are an array, not a variable. -/
structure TriDT where
  grid : ℕ
  hyperplanes : DType
  parameters : DType
  project : Bool
  deriving DecidableEq, Repr

/-- The configuration and all objects that have been constructed. `matrices` are the `QuadraticFunction`s and `LinearSystem`s
(the type of `matrix`; safe_learning/functions.py:1529, 1562), `networks` are the `NeuralNetwork`s (the type of the kernels, none before the first
evaluation; safe_learning/functions.py:1702-1729). -/
structure ConfigSession where
  dtype : DType
  grids : List GridDT
  triangulations : List TriDT
  matrices : List DType
  networks : List (Option DType)
  deriving DecidableEq, Repr

/-- The session after the import (safe_learning/__init__.py:92). -/
def ConfigSession.start : ConfigSession := ⟨initialDType, [], [], [], []⟩

/-- What a user does. -/
inductive ConfigStep where
  | setDType (t : DType)
  | makeGrid
  | makeTriangulation (grid : ℕ) (project : Bool)
  | makeMatrix
  | makeNetwork
  | readAllPoints (grid : ℕ)
  | evaluateNetwork (network : ℕ) (points : DType)
  deriving DecidableEq, Repr

/-- The type of `all_points` (safe_learning/functions.py:622-638): it is cached by the first access. -/
def ConfigSession.allPoints (s : ConfigSession) (g : GridDT) : DType :=
  match g.allPoints with
  | none => s.dtype
  | some t => t

/-- Evaluation of a network (safe_learning/functions.py:1702-1729): the kernels get the type of the points when they are created; later `tf.get_variable` raises
`ValueError` if the types differ. -/
def evalNetwork (kernels : Option DType) (points : DType) : Except TensorError DType :=
  match kernels with
  | none => .ok points
  | some t => if t = points then .ok t else .error .valueError

/-- One step: the assignment of the attribute (safe_learning/configuration.py:16), the constructors (safe_learning/functions.py:591, 1397, 1525, 1558, 1686) and the
operations that change objects (safe_learning/functions.py:622, 1702). -/
def ConfigSession.step (s : ConfigSession) : ConfigStep → ConfigSession
  | .setDType t => { s with dtype := t }
  | .makeGrid => { s with grids := s.grids ++ [⟨s.dtype, none⟩] }
  | .makeTriangulation g project =>
      { s with triangulations := s.triangulations ++ [⟨g, s.dtype, s.dtype, project⟩] }
  | .makeMatrix => { s with matrices := s.matrices ++ [s.dtype] }
  | .makeNetwork => { s with networks := s.networks ++ [none] }
  | .readAllPoints g =>
      { s with grids := s.grids.modify g fun w => { w with allPoints := some (s.allPoints w) } }
  | .evaluateNetwork k p =>
      { s with networks := s.networks.modify k fun w =>
          match w with
          | none => some p
          | some t => some t }

/-- A history of such steps (safe_learning/configuration.py:16). -/
def ConfigSession.run (s : ConfigSession) (steps : List ConfigStep) : ConfigSession :=
  steps.foldl ConfigSession.step s

/-- The argument of an evaluation: a tensor or a numpy array. -/
inductive PointsDT where
  | tensor (t : DType)
  | array (t : DType)
  deriving DecidableEq, Repr

/-- The type of the argument as a tensor. -/
def PointsDT.dtype : PointsDT → DType
  | .tensor t => t
  | .array t => t

/-- The type of `index_to_state` (safe_learning/functions.py:713-731): the indices are converted to the current type of the configuration, then multiplied with
`unit_maxes`. -/
def ConfigSession.indexToState (s : ConfigSession) (g : GridDT) : DType := s.dtype.promote g.dtype

/-- `points - origins` (safe_learning/functions.py:1465-1479). Projected points are tensors (line 1476); two tensors must have the same
type, an array is converted to the type of the tensor. -/
def offsetDType (project : Bool) (points : PointsDT) : Except TensorError DType :=
  match project, points with
  | false, .array _ => .ok decoratorDType
  | _, p => if p.dtype = decoratorDType then .ok decoratorDType else .error .valueError

/-- `Triangulation.__call__` and the evaluation of the tensor (safe_learning/functions.py:1442-1497). While the graph is built the types of points, origins,
hyperplanes and vertex values are compared, when it is run the arrays of `_get_hyperplanes` are compared with the declared types. -/
def ConfigSession.evalTriangulation (s : ConfigSession) (k : ℕ) (points : PointsDT) : Except TensorError DType :=
  match s.triangulations[k]? with
  | none => .error .noObject
  | some t =>
    match s.grids[t.grid]? with
    | none => .error .noObject
    | some g =>
      match offsetDType t.project points with
      | .error e => .error e
      | .ok w =>
        if w ≠ t.parameters then .error .valueError
        else if s.indexToState g ≠ decoratorDType then .error .invalidArgument
        else if t.hyperplanes ≠ decoratorDType then .error .invalidArgument
        else .ok w

/-- `Triangulation.gradient` (safe_learning/functions.py:1501-1510): the gradients have the type of the weights (line 1296: the current type of the
configuration) times the vertex values. -/
def ConfigSession.gradTriangulation (s : ConfigSession) (k : ℕ) : Except TensorError DType :=
  match s.triangulations[k]? with
  | none => .error .noObject
  | some t =>
    if s.dtype.promote t.parameters ≠ decoratorDType then .error .invalidArgument else .ok decoratorDType

/-- `QuadraticFunction.__call__` and `LinearSystem.__call__` (safe_learning/functions.py:1534-1538, 1567-1583): `tf.matmul` does not convert
its arguments. -/
def ConfigSession.evalMatrix (s : ConfigSession) (k : ℕ) (points : PointsDT) : Except TensorError DType :=
  match s.matrices[k]? with
  | none => .error .noObject
  | some t => if points.dtype = t then .ok t else .error .typeError

/-- `NeuralNetwork.lipschitz` (safe_learning/functions.py:1743-1762): a constant of the current type of the configuration times the norms of the kernels.
Before the first evaluation there are no kernels. Simplification: the `IndexError` of C58 is `noObject` here. -/
def ConfigSession.networkLipschitz (s : ConfigSession) (k : ℕ) : Except TensorError DType :=
  match s.networks[k]? with
  | some (some t) => if s.dtype = t then .ok t else .error .valueError
  | _ => .error .noObject

end SafeLearning
