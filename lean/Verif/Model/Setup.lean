import Verif.Model.Grid
import Verif.Model.ParametricFunctions
import Verif.Model.Triangulation
set_option autoImplicit false

/-!
# Model of the constants the example notebooks pass to `Lyapunov`

Discretization constants (examples/adaptive_safety_verification.ipynb:262-267, examples/lyapunov_function_learning.ipynb:170-174,
examples/1d_example.ipynb:67, examples/inverted_pendulum.ipynb:118, examples/1d_region_of_attraction_estimate.ipynb:52-53) and Lipschitz
constants (examples/adaptive_safety_verification.ipynb:333-337, 359-363, examples/lyapunov_function_learning.ipynb:221-225, 247-248,
examples/inverted_pendulum.ipynb:299-300).
-/

namespace SafeLearning

variable {K : Type} [Field K] [LinearOrder K] [IsStrictOrderedRing K]

/-! ## Discretization constants -/

/-- `tau = np.sum(grid.unit_maxes) / 2` (examples/adaptive_safety_verification.ipynb:267,
examples/lyapunov_function_learning.ipynb:174). -/
def tauHalfSum {d : ℕ} (g : GridWorld K d) : K := (∑ i, g.unit i) / 2

/-- `tau = np.max(safety_disc.unit_maxes)` (examples/1d_example.ipynb:67); `np.max` needs at least one entry. -/
def tauMax {d : ℕ} (g : GridWorld K (d + 1)) : K := Finset.univ.sup' ⟨0, Finset.mem_univ _⟩ g.unit

/-- `tau = np.min(safety_disc.unit_maxes)` (examples/inverted_pendulum.ipynb:118). -/
def tauMin {d : ℕ} (g : GridWorld K (d + 1)) : K := Finset.univ.inf' ⟨0, Finset.mem_univ _⟩ g.unit

/-- `tau = 1 / discretization.nindex` (examples/1d_region_of_attraction_estimate.ipynb:53). -/
def tauReciprocal {d : ℕ} (g : GridWorld K d) : K := 1 / (g.nindex : K)

/-- `GridWorld([-1, 1], n)`, with `n = 1001` (examples/1d_region_of_attraction_estimate.ipynb:52). -/
def unitLineGrid (K : Type) [Field K] (n : ℕ) : GridWorld K 1 where
  lo := fun _ => -1
  hi := fun _ => 1
  num := fun _ => n

/-! ## Lipschitz constants -/

/-- `np.linalg.norm(A, 1)` for a matrix: the largest sum of the absolute values of a column (examples/adaptive_safety_verification.ipynb:334,
337). -/
def norm1 {m n : ℕ} (A : Matrix (Fin m) (Fin (n + 1)) K) : K :=
  Finset.univ.sup' ⟨0, Finset.mem_univ _⟩ fun j => ∑ i, |A i j|

/-- `np.max(np.abs(A))` (examples/inverted_pendulum.ipynb:300). -/
def maxAbsEntry {m n : ℕ} (A : Matrix (Fin (m + 1)) (Fin (n + 1)) K) : K :=
  Finset.univ.sup' ⟨0, Finset.mem_univ _⟩ fun i => Finset.univ.sup' ⟨0, Finset.mem_univ _⟩ fun j => |A i j|

/-- `LinearSystem(-K)` for one row, and `Saturation` of it to `[-1, 1]` if `saturate` is set
(examples/adaptive_safety_verification.ipynb:297-299, examples/lyapunov_function_learning.ipynb:203-205). -/
def linearPolicy {m n : ℕ} (saturate : Bool) (gain : Matrix (Fin m) (Fin n) K) (x : Fin n → K) (i : Fin m) : K :=
  let u := ∑ j, x j * (-gain i j)
  if saturate then clip u (-1) 1 else u

/-- The closed loop of `LinearSystem((A, B))` and a policy (safe_learning/lyapunov.py:329-330,
safe_learning/functions.py:1568-1583). The matrices are typed, so the width of the rows fits. -/
def linearClosedLoop {m n : ℕ} (A : Matrix (Fin n) (Fin n) K) (B : Matrix (Fin n) (Fin m) K)
    (policy : (Fin n → K) → Fin m → K) (x : Fin n → K) (i : Fin n) : K :=
  ∑ j, x j * A i j + ∑ j, policy x j * B i j

/-- `L_pol = np.linalg.norm(-K, 1)`, `L_dyn = np.linalg.norm(A, 1) + np.linalg.norm(B, 1) * L_pol`
(examples/adaptive_safety_verification.ipynb:333-337, examples/lyapunov_function_learning.ipynb:221-225). -/
def dynamicsLipschitz {m n : ℕ} (A : Matrix (Fin (n + 1)) (Fin (n + 1)) K) (B : Matrix (Fin (n + 1)) (Fin (m + 1)) K)
    (gain : Matrix (Fin (m + 1)) (Fin (n + 1)) K) : K :=
  norm1 A + norm1 B * norm1 (-gain)

/-- `np.max(np.abs(a_true)) + np.max(np.abs(b_true)) * lipschitz_policy(x)` (examples/inverted_pendulum.ipynb:299-300), `lp` is
`lipschitz_policy(x)`. -/
def dynamicsLipschitzMax {m n : ℕ} (A : Matrix (Fin (n + 1)) (Fin (n + 1)) K)
    (B : Matrix (Fin (n + 1)) (Fin (m + 1)) K) (lp : K) : K :=
  maxAbsEntry A + maxAbsEntry B * lp

/-- `tf.abs(LinearSystem((2 * P,))(x))` for one row (examples/adaptive_safety_verification.ipynb:359-361). -/
def valueLipschitzScaled {n : ℕ} (P : Matrix (Fin n) (Fin n) K) (x : Fin n → K) (i : Fin n) : K :=
  |∑ j, x j * (2 * P i j)|

/-- `tf.norm(LinearSystem((2 * P,))(x), ord=1, axis=1, keepdims=True)` for one row (examples/adaptive_safety_verification.ipynb:363,
examples/lyapunov_function_learning.ipynb:247-248). -/
def valueLipschitzNorm {n : ℕ} (P : Matrix (Fin n) (Fin n) K) (x : Fin n → K) : K :=
  ∑ i, |∑ j, x j * (2 * P i j)|

/-- `tf.reduce_max(tf.abs(rl.value_function.gradient(x)), axis=1, keepdims=True)` for one row (examples/inverted_pendulum.ipynb:294-295). The value
function is a triangulation with one output; `np.max` needs at least one entry. -/
def valueLipschitzTriangulation [FloorRing K] {d : ℕ} (t : Tri K (d + 1)) (eps : K) (params : List (Fin 1 → K)) (x : Fin (d + 1) → K) :
    Except PyErr K := do
  let G ← t.tfGradient eps params x
  return Finset.univ.sup' Finset.univ_nonempty fun i => |G 0 i|

end SafeLearning
