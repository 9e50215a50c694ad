import Verif.Model.GaussianProcess
import Mathlib.Data.Real.Basic
set_option autoImplicit false

/-!
# Model of `QuadraticFunction`, `LinearSystem`, `NeuralNetwork` and `sample_gp_function`
(safe_learning/functions.py:1513-1662, 1665-1786)
-/

namespace SafeLearning

open Matrix

/-! ## QuadraticFunction -/

/-- `QuadraticFunction.build_evaluation` for one row (safe_learning/functions.py:1534-1539): the row times the matrix,
multiplied elementwise with the row and summed. The matrix is square, and the inputs have its size. -/
def quadraticEvaluate {R : Type} [CommRing R] {n : ℕ} (P : Matrix (Fin n) (Fin n) R) (x : Fin n → R) : R :=
  ∑ j, (∑ i, x i * P i j) * x j

/-- `QuadraticFunction.gradient` for one row (safe_learning/functions.py:1541-1543). -/
def quadraticGradient {R : Type} [CommRing R] {n : ℕ} (P : Matrix (Fin n) (Fin n) R) (x : Fin n → R) :
    Fin n → R := fun j => ∑ i, x i * (P + Pᵀ) i j

/-! ## LinearSystem -/

/-- The sum of the products of the entries of two lists, as in a matrix product (safe_learning/functions.py:1583). -/
def listDot {R : Type} [CommRing R] (a b : List R) : R := (List.zipWith (· * ·) a b).sum

/-- `LinearSystem.__init__`: the matrices side by side (safe_learning/functions.py:1559-1565). The lazy `map` given to
`np.hstack` is taken as the list. -/
def linearSystemMatrix {R : Type} (matrices : List (Arr R)) : Except PyErr (List (List R)) :=
  hstack (matrices.map Arr.rows)

/-- `tf.matmul(points, matrix.T)`: `ValueError` if the widths differ (safe_learning/functions.py:1583). -/
def matmulTransposed {R : Type} [CommRing R] (points matrix : List (List R)) :
    Except PyErr (List (List R)) :=
  if ∀ p ∈ points, ∀ r ∈ matrix, p.length = r.length then
    .ok (points.map fun p => matrix.map fun r => listDot p r)
  else .error .valueError

/-- `LinearSystem.build_evaluation` before decoration (safe_learning/functions.py:1568-1583). -/
def linearSystemBuild {R : Type} [CommRing R] (matrix : List (List R)) (points : Arr R) :
    Except PyErr (List (List R)) := do
  let m ← points.asMatrix
  matmulTransposed m matrix

/-- `LinearSystem(matrices)(x1, .., xn)` (safe_learning/functions.py:1559-1583), with the decorator
`concatenate_inputs(start=1)`. -/
def linearSystem {R : Type} [CommRing R] (matrices : List (Arr R)) (isTf : Bool) (inputs : List (Arr R)) :
    Except PyErr (List (List R)) := do
  let m ← linearSystemMatrix matrices
  concatenated linearSystemBuild isTf m inputs

/-! ## NeuralNetwork -/

/-- The layers of a network with inputs of size `m` and outputs of size `n`: kernel, bias and activation of each hidden layer, kernel and
activation of the output layer (safe_learning/functions.py:1704-1725). An activation acts on each entry; `None` is the identity.
Simplified: there are as many nonlinearities as layers. -/
inductive Net : ℕ → ℕ → Type where
  | output {m n : ℕ} (W : Matrix (Fin m) (Fin n) ℝ) (act : ℝ → ℝ) : Net m n
  | hidden {m k n : ℕ} (W : Matrix (Fin m) (Fin k) ℝ) (b : Fin k → ℝ) (act : ℝ → ℝ) (rest : Net k n) : Net m n

/-- `tf.layers.dense` for one row: `act(x W + b)` (safe_learning/functions.py:1712-1718). -/
def dense {m k : ℕ} (W : Matrix (Fin m) (Fin k) ℝ) (b : Fin k → ℝ) (act : ℝ → ℝ) (x : Fin m → ℝ) :
    Fin k → ℝ := fun j => act ((x ᵥ* W) j + b j)

/-- The network before the output scale (safe_learning/functions.py:1704-1725). Without `use_bias` the hidden layers have no bias; the
output layer never has one. -/
def Net.forward (useBias : Bool) : {m n : ℕ} → Net m n → (Fin m → ℝ) → Fin n → ℝ
  | _, _, .output W act, x => dense W 0 act x
  | _, _, .hidden W b act rest, x => rest.forward useBias (dense W (if useBias then b else 0) act x)

/-- A trainable variable: a kernel or a bias (safe_learning/functions.py:1710-1725). -/
inductive NNParam where
  | kernel (m n : ℕ) (W : Matrix (Fin m) (Fin n) ℝ)
  | bias (n : ℕ) (b : Fin n → ℝ)

/-- The trainable variables in the order of their creation (safe_learning/functions.py:1710-1725, 57-61). -/
def Net.parameters (useBias : Bool) : {m n : ℕ} → Net m n → List NNParam
  | m, n, .output W _ => [.kernel m n W]
  | m, _, .hidden (k := k) W b _ rest =>
    .kernel m k W :: ((if useBias then [.bias k b] else []) ++ rest.parameters useBias)

/-- A `NeuralNetwork` (safe_learning/functions.py:1689-1700). The variables exist once the network has been evaluated. -/
structure NeuralNet (m n : ℕ) where
  net : Net m n
  useBias : Bool
  outputScale : ℝ
  evaluated : Bool

/-- `build_evaluation` for one row (safe_learning/functions.py:1702-1729). -/
def NeuralNet.evaluate {m n : ℕ} (f : NeuralNet m n) (x : Fin m → ℝ) : Fin n → ℝ :=
  fun j => f.net.forward f.useBias x j * f.outputScale

/-- `parameters` (safe_learning/functions.py:57-61). -/
def NeuralNet.parameters {m n : ℕ} (f : NeuralNet m n) : List NNParam :=
  if f.evaluated then f.net.parameters f.useBias else []

/-- `zip(iterator, iterator)`: the first element of each pair (safe_learning/functions.py:1735-1737). -/
def pairFirsts {α : Type} : List α → List α
  | W :: _ :: rest => W :: pairFirsts rest
  | _ => []

/-- The matrices yielded by `_parameter_iter` (safe_learning/functions.py:1731-1740). -/
def parameterIter {α : Type} (parameters : List α) : Except PyErr (List α) :=
  match parameters.getLast? with
  | some W => .ok (pairFirsts parameters ++ [W])
  | none => .error .indexError

/-- The result of `tf.svd(A, full_matrices=True)` (safe_learning/functions.py:1780-1781). -/
structure SVDResult (m n : ℕ) where
  U : Matrix (Fin m) (Fin m) ℝ
  V : Matrix (Fin n) (Fin n) ℝ

/-- The diagonal of an `m` by `n` matrix, `tf.matrix_diag_part` (safe_learning/functions.py:1786). -/
def diagPart {m n : ℕ} (S : Matrix (Fin m) (Fin n) ℝ) : List ℝ :=
  List.ofFn fun i : Fin (min m n) =>
    S ⟨i, lt_of_lt_of_le i.2 (min_le_left _ _)⟩ ⟨i, lt_of_lt_of_le i.2 (min_le_right _ _)⟩

/-- `_svd(A)`: the diagonal of `Uᵀ A V` (safe_learning/functions.py:1764-1786). -/
def singularValues {m n : ℕ} (svd : SVDResult m n) (A : Matrix (Fin m) (Fin n) ℝ) : List ℝ :=
  diagPart (svd.Uᵀ * (A * svd.V))

/-- `tf.reduce_max` of a non-empty list; an error for an empty one (there minus infinity)
(safe_learning/functions.py:1760). -/
noncomputable def reduceMax : List ℝ → Except PyErr ℝ
  | [] => .error .valueError
  | [a] => .ok a
  | a :: rest => do
    let m ← reduceMax rest
    .ok (max a m)

/-- One factor of the product in `lipschitz`; a vector has no singular value decomposition
(safe_learning/functions.py:1760). `svd` stands for `tf.svd`. -/
noncomputable def lipschitzFactor (svd : {m n : ℕ} → Matrix (Fin m) (Fin n) ℝ → SVDResult m n) :
    NNParam → Except PyErr ℝ
  | .kernel _ _ W => reduceMax (singularValues (svd W) W)
  | .bias _ _ => .error .valueError

/-- The product of the factors (safe_learning/functions.py:1756-1762). -/
noncomputable def lipschitzProduct (svd : {m n : ℕ} → Matrix (Fin m) (Fin n) ℝ → SVDResult m n) :
    List NNParam → Except PyErr ℝ
  | [] => .ok 1
  | p :: ps => do
    let s ← lipschitzFactor svd p
    let rest ← lipschitzProduct svd ps
    .ok (s * rest)

/-- `NeuralNetwork.lipschitz` (safe_learning/functions.py:1742-1762). -/
noncomputable def NeuralNet.lipschitz {m n : ℕ} (f : NeuralNet m n)
    (svd : {m n : ℕ} → Matrix (Fin m) (Fin n) ℝ → SVDResult m n) : Except PyErr ℝ := do
  let Ws ← parameterIter f.parameters
  lipschitzProduct svd Ws

/-! ## sample_gp_function -/

/-- The constant added to the diagonal of the covariance (safe_learning/functions.py:1630). -/
noncomputable def sampleJitter : ℝ := 1 / 10 ^ 8

/-- The covariance from which a sample is drawn (safe_learning/functions.py:1619-1630). -/
noncomputable def sampleCov (gp : GPModel 1) (s : GPState 1) (disc : List (List ℝ)) :
    Except PyErr (Matrix (Fin disc.length) (Fin disc.length) ℝ) := do
  let cov ← gp.buildPredictCov s.feed disc
  return cov + sampleJitter • (1 : Matrix (Fin disc.length) (Fin disc.length) ℝ)

/-- One of the returned functions, without noise: `mean_function(x) + k(x, discretization) alpha` where `alpha` solves
`cov alpha = output` and `output` is the drawn sample (safe_learning/functions.py:1633-1662). -/
noncomputable def gpSampleFunction (gp : GPModel 1) (disc : List (List ℝ)) (alpha : Fin disc.length → ℝ)
    (x : List ℝ) : ℝ :=
  gp.mean x 0 + ∑ j, gp.kern x (disc.get j) * alpha j

/-- `alpha` of `sample_gp_function`: the solution of a linear system with the covariance
(`cho_factor` and `cho_solve`, safe_learning/functions.py:1639, 1654). An error if the covariance has no Cholesky factor. -/
noncomputable def sampleAlpha (gp : GPModel 1) (s : GPState 1) (disc : List (List ℝ))
    (output : Fin disc.length → ℝ) : Except PyErr (Fin disc.length → ℝ) := do
  let cov ← sampleCov gp s disc
  let L ← cholesky cov
  return (Lᵀ)⁻¹ *ᵥ forwardSubst L output

end SafeLearning
