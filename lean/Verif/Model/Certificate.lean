import Verif.Model.Features
import Mathlib.Algebra.BigOperators.Fin
set_option autoImplicit false

/-!
# Model of the sum-of-squares candidate and of the training loop in `lyapunov_function_learning.ipynb`

Lines refer to the file of the notebook.
-/

namespace SafeLearning

variable {K : Type} [Field K] [LinearOrder K] [IsStrictOrderedRing K]

/-! ## The polynomial Lyapunov function -/

/-- `x *= state_norm` if an argument `norm` is given. The global variable `state_norm` is used, not the argument
(examples/lyapunov_function_learning.ipynb:273-275, 284-286). -/
def sosDenormalize (stateNorm : Fin 2 → K) (x : Fin 2 → K) (norm : Option (Fin 2 → K)) : Fin 2 → K :=
  match norm with
  | none => x
  | some _ => fun i => x i * stateNorm i

/-- `linear_form = np.matmul(M, Q)` for one row (examples/lyapunov_function_learning.ipynb:277, 289). Simplification: `Q` is
a 9 x 9 matrix. -/
def sosLinearForm (M : List K) (Q : Fin 9 → Fin 9 → K) (j : Fin 9) : K := ∑ i : Fin 9, M.getD i 0 * Q i j

/-- `lyapunov_sos(x, Q, norm)` for one point (examples/lyapunov_function_learning.ipynb:271-279). -/
def lyapunovSos (stateNorm : Fin 2 → K) (x : Fin 2 → K) (Q : Fin 9 → Fin 9 → K)
    (norm : Option (Fin 2 → K) := none) : Except PyErr K := do
  let x := sosDenormalize stateNorm x norm
  let M ← monomials [x] 3
  match M with
  | [row] => return ∑ j : Fin 9, sosLinearForm row Q j * row.getD j 0
  | _ => .error .valueError

/-- `lyapunov_sos_derivative(x, Q, norm)` for one point (examples/lyapunov_function_learning.ipynb:282-291). `np.squeeze` for a
batch with one point is not modelled. -/
def lyapunovSosDerivative (stateNorm : Fin 2 → K) (x : Fin 2 → K) (Q : Fin 9 → Fin 9 → K)
    (norm : Option (Fin 2 → K) := none) : Except PyErr (Fin 2 → K) := do
  let x := sosDenormalize stateNorm x norm
  let M ← monomials [x] 3
  let dM ← derivativeMonomials [x] 3
  match M, dM with
  | [row], [drow] => return fun k => ∑ j : Fin 9, sosLinearForm row Q j * (drow.getD j 0) k
  | _, _ => .error .valueError

/-- `np.sum(dvdx * f, axis=1)` for one point (examples/lyapunov_function_learning.ipynb:309). -/
def sosDvdt (dvdx f : Fin 2 → K) : K := ∑ k, dvdx k * f k

/-- The level `cmax_sos` (examples/lyapunov_function_learning.ipynb:311-319): `order` is the result of `np.argsort(values_sos)`;
`np.argmin` of a boolean array is the index of the first `False`. -/
def sosLevel {n : ℕ} (values dvdt : Fin n → K) (order : List (Fin n)) : Except PyErr K :=
  let certificate := (order.map dvdt).tail.map fun v => decide (v < 0)
  let orderedIdx := if certificate.all id then certificate.length + 1 else certificate.idxOf false + 1
  match order[orderedIdx - 1]? with
  | some i => .ok (values i)
  | none => .error .indexError

/-! ## The training loop -/

/-- What one iteration reads from the `Lyapunov` object: the Lyapunov function (`tf_values_nn`; `values` are its values on the grid),
`feed_dict[c_max]` and `safe_set` (examples/lyapunov_function_learning.ipynb:575-583, 634-636). -/
structure RoaCandidate (X K : Type) (n : ℕ) where
  V : X → K
  level : K
  safeSet : Fin n → Bool

/-- `roa_estimate = np.copy(lyapunov_nn.safe_set)` (examples/lyapunov_function_learning.ipynb:578). -/
def roaInit {X : Type} {n : ℕ} (c : RoaCandidate X K n) : Fin n → Bool := c.safeSet

/-- The first part of an iteration: grid states between the level and `multiplier` times the level are simulated for `horizon` steps, and added to the
estimate if the final value is at most the level (examples/lyapunov_function_learning.ipynb:633-644). -/
def roaExpand {X : Type} {n : ℕ} (points : Fin n → X) (step : X → X) (multiplier : K) (horizon : ℕ)
    (c : RoaCandidate X K n) (estimate : Fin n → Bool) : Fin n → Bool := fun i =>
  let small := decide (c.V (points i) ≤ c.level)
  let big := decide (c.V (points i) ≤ multiplier * c.level)
  let gap := big && !small
  if gap then estimate i || decide (c.V (step^[horizon] (points i)) ≤ c.level) else estimate i

/-- `target_set` (as indices) with `target_labels` (examples/lyapunov_function_learning.ipynb:647-649). -/
def roaTargets {X : Type} {n : ℕ} (points : Fin n → X) (multiplier : K) (c : RoaCandidate X K n)
    (estimate : Fin n → Bool) : List (Fin n × Bool) :=
  ((List.finRange n).filter fun i => decide (c.V (points i) ≤ multiplier * c.level) || estimate i).map
    fun i => (i, estimate i)

/-- One iteration, with the candidate after the training (examples/lyapunov_function_learning.ipynb:629-677). -/
def roaIteration {X : Type} {n : ℕ} (points : Fin n → X) (step : X → X) (multiplier : K) (horizon : ℕ)
    (c trained : RoaCandidate X K n) (estimate : Fin n → Bool) : Fin n → Bool := fun i =>
  roaExpand points step multiplier horizon c estimate i || trained.safeSet i

/-- The estimate after the loop: `candidates` are the candidates before the first iteration and after the training of every iteration
(examples/lyapunov_function_learning.ipynb:578, 629-677). -/
def roaLoop {X : Type} {n : ℕ} (points : Fin n → X) (step : X → X) (multiplier : K) (horizon : ℕ)
    (first : RoaCandidate X K n) (trained : List (RoaCandidate X K n)) : Fin n → Bool :=
  (trained.foldl (fun s c => (c, roaIteration points step multiplier horizon s.1 c s.2)) (first, roaInit first)).2

/-- The objective for a batch with rows `(V(x), dV(x), label, class weight)`
(examples/lyapunov_function_learning.ipynb:530-546). The mean of an empty batch is not a number, here 0. -/
def roaObjective (level multiplier eps : K) (batch : List (K × K × Bool × K)) : K :=
  (batch.map fun b =>
    let label : K := if b.2.2.1 then 1 else 0
    let classLabel := 2 * label - 1
    let distance := level - b.1
    let classifier := b.2.2.2 * max (-classLabel * distance) 0
    let decrease := label * max b.2.1 0 / (b.1 + eps)
    classifier + multiplier * decrease).sum / (batch.length : K)

/-- The batch that is fed to the objective: rows `(V(x), dV(x), label)` of the drawn states with the weights of
`balanced_class_weights(roa_labels)` (examples/lyapunov_function_learning.ipynb:660-663, 667-669). -/
def roaBatch (rows : List (K × K × Bool)) : List (K × K × Bool × K) :=
  (rows.zip (balancedClassWeights (rows.map fun r => r.2.2) true).1).map fun p => (p.1.1, p.1.2.1, p.1.2.2, p.2)

end SafeLearning
