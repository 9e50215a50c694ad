import Verif.Model.FloatTriangulation
import Verif.Model.NonFinite
import Verif.Model.ParametricFunctions
set_option autoImplicit false

/-!
# Model of `QuadraticFunction` and `LinearSystem` in floating point arithmetic

The order in which `tf.matmul` and `tf.reduce_sum` add is not specified, so that it is a parameter here.
-/

namespace SafeLearning

open Matrix

variable {K : Type} [Field K]

/-- An order of the additions in `tf.matmul` and `tf.reduce_sum` (safe_learning/functions.py:1537-1539, 1543, 1583). Accumulators may start with zero, and a
product may be added without rounding it before (fused multiplication and addition). -/
inductive SumOrder (n : ℕ) where
  | zero
  | entry (i : Fin n)
  | add (l r : SumOrder n)
  | fused (l : SumOrder n) (i : Fin n)

namespace SumOrder

/-- The sum of the products `f` in this order, where each multiplication and addition rounds (safe_learning/functions.py:1537-1539, 1543, 1583). -/
def eval {n : ℕ} (fl : K → K) (f : Fin n → K) : SumOrder n → K
  | zero => 0
  | entry i => fl (f i)
  | add l r => fl (l.eval fl f + r.eval fl f)
  | fused l i => fl (l.eval fl f + f i)

/-- The entries that are added (safe_learning/functions.py:1537-1539, 1543, 1583). -/
def entries {n : ℕ} : SumOrder n → List (Fin n)
  | zero => []
  | entry i => [i]
  | add l r => l.entries ++ r.entries
  | fused l i => l.entries ++ [i]

/-- The largest number of additions in a row (safe_learning/functions.py:1537-1539, 1543, 1583). -/
def height {n : ℕ} : SumOrder n → ℕ
  | zero => 0
  | entry _ => 0
  | add l r => max l.height r.height + 1
  | fused l _ => l.height + 1

end SumOrder

/-- One entry of a product of matrices: the products of the entries are rounded and added (`tf.matmul`, safe_learning/functions.py:1537, 1543, 1583). -/
def flDot (fl : K → K) {n : ℕ} (order : SumOrder n) (x y : Fin n → K) : K := order.eval fl fun i => x i * y i

/-- `QuadraticFunction.build_evaluation` for one row in floating point arithmetic (safe_learning/functions.py:1534-1539). `order j` is the order of additions in column `j` of the
linear form, and `total` that in the sum. -/
def flQuadratic (fl : K → K) {n : ℕ} (order : Fin n → SumOrder n) (total : SumOrder n) (P : Matrix (Fin n) (Fin n) K) (x : Fin n → K) : K :=
  total.eval fl fun j => flDot fl (order j) x (fun i => P i j) * x j

/-- `QuadraticFunction.gradient` for one row in floating point arithmetic (safe_learning/functions.py:1541-1543). -/
def flQuadraticGradient (fl : K → K) {n : ℕ} (order : Fin n → SumOrder n) (P : Matrix (Fin n) (Fin n) K) (x : Fin n → K) : Fin n → K :=
  fun j => flDot fl (order j) x fun i => fl (P i j + Pᵀ i j)

/-- `LinearSystem.build_evaluation` for one row in floating point arithmetic, with the stacked matrix `M` (safe_learning/functions.py:1567-1583). -/
def flLinear (fl : K → K) {m n : ℕ} (order : Fin m → SumOrder n) (M : Matrix (Fin m) (Fin n) K) (x : Fin n → K) : Fin m → K :=
  fun i => flDot fl (order i) x fun j => Mᵀ j i

/-- `tf.norm(LinearSystem((2 * P,))(x), ord=1, axis=1)` for one row in floating point arithmetic (examples/adaptive_safety_verification.ipynb:363,
examples/lyapunov_function_learning.ipynb:247-248, safe_learning/functions.py:1567-1583). Simplified: the absolute values are rounded once more before they are added, which changes nothing for
a rounding that keeps floating point numbers. -/
def flValueLipschitz [LinearOrder K] (fl : K → K) {n : ℕ} (order : Fin n → SumOrder n) (total : SumOrder n) (P : Matrix (Fin n) (Fin n) K) (x : Fin n → K) : K :=
  total.eval fl fun i => |flLinear fl order (Matrix.of fun i j => fl (2 * P i j)) x i|

/-- `dynamics(x, policy(x))` for one state with `dynamics = LinearSystem((A, B))` and `policy = Saturation(LinearSystem(gain), lower, upper)`, in floating point arithmetic: the action is
computed and clipped, which does not round, concatenated with the state and multiplied with `M = [A, B]` (safe_learning/functions.py:349-354, 1567-1583,
safe_learning/utilities.py:137-144, safe_learning/lyapunov.py:436-437). -/
def flSaturatedLoop [LinearOrder K] (fl : K → K) {d m : ℕ} (orderM : Fin d → SumOrder (d + m)) (orderK : Fin m → SumOrder d) (M : Matrix (Fin d) (Fin (d + m)) K)
    (gain : Matrix (Fin m) (Fin d) K) (lower upper : Fin m → K) (x : Fin d → K) : Fin d → K :=
  flLinear fl orderM M (Fin.append x fun l => clip (flLinear fl orderK gain x l) (lower l) (upper l))

/-! ## Underflow and overflow -/

section

variable [LinearOrder K] (A : Flt.Arith K)

/-- `a + x * y` with one rounding (safe_learning/functions.py:1537, 1543, 1583). -/
def ieeeFused : Flt K → Flt K → Flt K → Flt K
  | .fin a, .fin x, .fin y => A.rnd (a + x * y)
  | a, .fin _, .fin _ => a
  | a, x, y => Flt.add A a (Flt.mul A x y)

/-- `SumOrder.eval` for the products of `x` and `y`, with underflow and overflow (safe_learning/functions.py:1537-1539, 1543, 1583). -/
def SumOrder.ieeeEval {n : ℕ} (x y : Fin n → Flt K) : SumOrder n → Flt K
  | zero => .fin 0
  | entry i => Flt.mul A (x i) (y i)
  | add l r => Flt.add A (l.ieeeEval x y) (r.ieeeEval x y)
  | fused l i => ieeeFused A (l.ieeeEval x y) (x i) (y i)

/-- The number of roundings (safe_learning/functions.py:1537-1539, 1543, 1583). -/
def SumOrder.roundings {n : ℕ} : SumOrder n → ℕ
  | zero => 0
  | entry _ => 1
  | add l r => l.roundings + r.roundings + 1
  | fused l _ => l.roundings + 1

/-- `flDot` with underflow and overflow (safe_learning/functions.py:1537, 1543, 1583). -/
def ieeeDot {n : ℕ} (order : SumOrder n) (x y : Fin n → Flt K) : Flt K := order.ieeeEval A x y

/-- `QuadraticFunction.build_evaluation` for one row with underflow and overflow (safe_learning/functions.py:1534-1539). -/
def ieeeQuadratic {n : ℕ} (order : Fin n → SumOrder n) (total : SumOrder n) (P : Matrix (Fin n) (Fin n) K) (x : Fin n → Flt K) : Flt K :=
  total.ieeeEval A (fun j => ieeeDot A (order j) x fun i => .fin (P i j)) x

/-- `LinearSystem.build_evaluation` for one row with underflow and overflow (safe_learning/functions.py:1567-1583). -/
def ieeeLinear {m n : ℕ} (order : Fin m → SumOrder n) (M : Matrix (Fin m) (Fin n) K) (x : Fin n → Flt K) : Fin m → Flt K :=
  fun i => ieeeDot A (order i) x fun j => .fin (Mᵀ j i)

/-- `tf.minimum(tf.maximum(res, lower), upper)` for one entry with finite bounds (safe_learning/functions.py:354). -/
def ieeeClip (lower upper : K) : Flt K → Flt K
  | .nan => .nan
  | .ninf => .fin (min lower upper)
  | .fin x => .fin (min (max x lower) upper)
  | .pinf => .fin upper

/-- `flSaturatedLoop` with underflow and overflow (safe_learning/functions.py:349-354, 1567-1583, safe_learning/utilities.py:137-144, safe_learning/lyapunov.py:436-437). -/
def ieeeSaturatedLoop {d m : ℕ} (orderM : Fin d → SumOrder (d + m)) (orderK : Fin m → SumOrder d) (M : Matrix (Fin d) (Fin (d + m)) K)
    (gain : Matrix (Fin m) (Fin d) K) (lower upper : Fin m → K) (x : Fin d → Flt K) : Fin d → Flt K :=
  ieeeLinear A orderM M (Fin.append x fun l => ieeeClip (lower l) (upper l) (ieeeLinear A orderK gain x l))

end

end SafeLearning
