import Verif.Model.LyapunovNetwork
import Verif.Model.Decrease
import Verif.Model.Grid
import Mathlib.Analysis.SpecialFunctions.Exp
set_option autoImplicit false

/-!
# Model of functions without users: `safety_constraint`, `print_params`, `RBFNetwork`

safe_learning/lyapunov.py:378-405 and examples/utilities.py:106-141. Nothing in the repository calls them.
-/

namespace SafeLearning

variable {K : Type} [Field K] [LinearOrder K]

/-! ## `safety_constraint` -/

/-- Right operands of `<` with a tensor on the left: a tensor of the same shape or a bound method (safe_learning/lyapunov.py:399). -/
inductive LessOperand (K : Type) (n : ℕ) where
  | tensor (v : Fin n → K)
  | method

/-- `tensor < operand`: TensorFlow cannot convert a method to a tensor (safe_learning/lyapunov.py:399). -/
def tensorLess {n : ℕ} (v : Fin n → K) : LessOperand K n → Except PyErr (Fin n → Bool)
  | .tensor w => .ok fun k => decide (v k < w k)
  | .method => .error .typeError

/-- Lines 398-405 (safe_learning/lyapunov.py:398-405) with the right operand of the comparison as an argument. The result of
`v_decrease_bound` is a tensor, because the bound on lines 345-349 is one; tensors do not support the assignment to items on line 403. -/
def constraintOf {n : ℕ} (bound : Fin n → K) (operand : LessOperand K n) (initial : Option (Fin n → Bool)) (includeInitial : Bool) :
    Except PyErr (Fin n → Bool) := do
  let negative ← tensorLess bound operand
  if includeInitial && initial.isSome then .error .typeError else .ok negative

/-- `safety_constraint(policy, include_initial)` (safe_learning/lyapunov.py:378-405). `bound` is the outcome of lines 395-396, which
evaluate the dynamics on the `GridWorld` object instead of its points and may raise; `self.threshold` is the method, not its value. -/
def safetyConstraint {n : ℕ} (bound : Except PyErr (Fin n → K)) (initial : Option (Fin n → Bool)) (includeInitial : Bool) :
    Except PyErr (Fin n → Bool) := do
  let v ← bound
  constraintOf v .method initial includeInitial

/-! ## `print_params` -/

/-- The variables of a layer: `weights_posdef_i` and `weights_i` (examples/utilities.py:95-99). -/
inductive LayerVar where
  | posdef (i : ℕ)
  | extra (i : ℕ)
  deriving DecidableEq, Repr

/-- Which layers increase the dimension: `dim_diff > 0` (examples/utilities.py:97-98, 109, 113). -/
def growing : ℕ → List ℕ → List Bool
  | _, [] => []
  | n, d :: ds => decide (0 < d - n) :: growing d ds

/-- The variables that `build_evaluation` makes for the layers from number `i` on, in the order of creation (examples/utilities.py:90-99). -/
def layerVars : ℕ → List Bool → List LayerVar
  | _, [] => []
  | i, grows :: rest => .posdef i :: (if grows then [.extra i] else []) ++ layerVars (i + 1) rest

/-- What the loop prints for a layer: `W0` and, for a layer that increases the dimension, `W1` (examples/utilities.py:110-115). -/
abbrev PrintedLayer := LayerVar × Option LayerVar

/-- The loop of `print_params` for evaluated parameters `params`, at layer `i` (examples/utilities.py:107-118): the layers printed and the
exception that ended the loop. Simplification: an exception for `W1` discards the layer, although `W0` is printed before. -/
def printLoop (params : List LayerVar) : ℕ → ℕ → List Bool → List PrintedLayer × Option PyErr
  | _, _, [] => ([], none)
  | offset, i, grows :: rest =>
    match params[offset + i]? with
    | none => ([], some .indexError)
    | some W0 =>
      if grows then
        match params[offset + 1 + i]? with
        | none => ([], some .indexError)
        | some W1 =>
          let r := printLoop params offset (i + 1) rest
          ((W0, some W1) :: r.1, r.2)
      else
        let r := printLoop params (offset + 1) (i + 1) rest
        ((W0, none) :: r.1, r.2)

/-- The values that can be asked for `.eval()`: a tensor or a list of variables, which is what `parameters` is
(examples/utilities.py:108; safe_learning/functions.py:57-61). -/
inductive ParameterValue where
  | tensor (vars : List LayerVar)
  | list (vars : List LayerVar)

/-- `.eval()`: lists have no such method (examples/utilities.py:108). -/
def ParameterValue.eval : ParameterValue → Except PyErr (List LayerVar)
  | .tensor vs => .ok vs
  | .list _ => .error .attributeError

/-- Lines 107-121 with the value of `self.parameters` as an argument (examples/utilities.py:106-121). -/
def LyapunovNetwork.printFrom (net : LyapunovNetwork K) (parameters : ParameterValue) : List PrintedLayer × Option PyErr :=
  match parameters.eval with
  | .error e => ([], some e)
  | .ok params => printLoop params 0 0 (growing net.inputDim net.outputDims)

/-- `print_params` of a network that was evaluated before (examples/utilities.py:106-121): `parameters` is a list. -/
def LyapunovNetwork.printParams (net : LyapunovNetwork K) : List PrintedLayer × Option PyErr :=
  net.printFrom (.list (layerVars 0 (growing net.inputDim net.outputDims)))

/-! ## `RBFNetwork` -/

/-- The attributes of a network (examples/utilities.py:124-134). `centres3D` is the array of shape `(1, ndim, hidden)`, without its first axis. -/
structure RBFNetwork (d : ℕ) where
  grid : GridWorld ℝ d
  beta : ℝ
  hidden : ℕ
  centres3D : Fin d → Fin hidden → ℝ

/-- `np.min` (examples/utilities.py:130): `ValueError` for an empty array. -/
def npMin : List ℝ → Except PyErr ℝ
  | [] => .error .valueError
  | a :: l => .ok (l.foldl min a)

/-- `np.reshape(centres.T, (1, d, h))` in C order (examples/utilities.py:134). -/
def reshapeCentres {d : ℕ} (centres : List (Fin d → ℝ)) (h : ℕ) : Except PyErr (Fin d → Fin h → ℝ) :=
  let flat := (List.finRange d).flatMap fun j => centres.map fun c => c j
  if flat.length = d * h then .ok fun j k => flat.getD (j.1 * h + k.1) 0 else .error .valueError

/-- `RBFNetwork.__init__` (examples/utilities.py:124-134). `hiddenUnits` is the attribute `_hidden_units`: the class does not set it, a child class
could. Simplification: `variances` is a number. -/
noncomputable def RBFNetwork.new {d : ℕ} (hiddenUnits : Option ℕ) (lo hi : Fin d → ℝ) (num : NumPoints) (variances : Option ℝ) :
    Except PyErr (RBFNetwork d) := do
  let grid ← GridWorld.new lo hi num
  let v ← match variances with
    | some v => .ok v
    | none => (npMin (List.ofFn grid.unit)).map (· ^ 2)
  match hiddenUnits with
  | none => .error .attributeError
  | some h =>
    let centres ← reshapeCentres grid.allPoints h
    return ⟨grid, 1 / (2 * v), h, centres⟩

/-- `build_evaluation` for one state, with the variable `weights` of shape `(nindex, 1)` (examples/utilities.py:136-141); `tf.matmul` raises
`ValueError` unless there are as many hidden units. -/
noncomputable def RBFNetwork.evaluate {d : ℕ} (net : RBFNetwork d) (weights : List ℝ) (x : Fin d → ℝ) : Except PyErr ℝ :=
  if weights.length = net.hidden then
    .ok (∑ k : Fin net.hidden, Real.exp (-net.beta * ∑ j, (x j - net.centres3D j k) ^ 2) * weights.getD k.1 0)
  else .error .valueError

end SafeLearning
