import Verif.Model.Lyapunov
set_option autoImplicit false

/-!
# Model of the decrease condition (safe_learning/lyapunov.py:227-288, 324-376) and of the tensors
that `update_safe_set` builds from it
-/

namespace SafeLearning

variable {K : Type} [Field K] [LinearOrder K] [IsStrictOrderedRing K] {d : ℕ}

/-- The `lipschitz_lyapunov` argument: a number, or a callable that returns for each state one
number or one number per dimension (safe_learning/lyapunov.py:245-263, 284-286). -/
inductive LipArg (K : Type) (d : ℕ) where
  | const (c : K)
  | scalar (f : (Fin d → K) → K)
  | vector (f : (Fin d → K) → Fin d → K)

/-- The `lipschitz_dynamics` argument: a number or a callable returning one number per state
(safe_learning/lyapunov.py:227-243). Simplification: the shape `[n, 1]` is the only one
modelled for callables. -/
inductive LipDyn (K : Type) (d : ℕ) where
  | const (c : K)
  | scalar (f : (Fin d → K) → K)

/-- `lipschitz_dynamics(states)` for one state (safe_learning/lyapunov.py:227-243). -/
def LipDyn.at (l : LipDyn K d) (x : Fin d → K) : K :=
  match l with
  | .const c => c
  | .scalar f => f x

/-- The entries of `lipschitz_lyapunov(states)` for one state, broadcast to the dimension
(safe_learning/lyapunov.py:245-263, 345). -/
def LipArg.entry (l : LipArg K d) (x : Fin d → K) (i : Fin d) : K :=
  match l with
  | .const c => c
  | .scalar f => f x
  | .vector f => f x i

/-- The number `lv` used by `threshold` for one state: the 1-norm if there is more than one entry
(safe_learning/lyapunov.py:284-286). With `d = 1` the single entry is used as it is. -/
def LipArg.forThreshold (l : LipArg K d) (x : Fin d → K) : K :=
  match l with
  | .const c => c
  | .scalar f => f x
  | .vector f => if 1 < d then ∑ i, |f x i| else ∑ i, f x i

/-- `threshold(state, tau)` (safe_learning/lyapunov.py:265-288). -/
def thresholdAt (lv : LipArg K d) (lf : LipDyn K d) (x : Fin d → K) (tau : K) : K :=
  -(lv.forThreshold x) * (1 + lf.at x) * tau

/-- What `dynamics(state, action)` returns: a state, or a tuple of mean and error bounds
(safe_learning/lyapunov.py:343-348). -/
inductive Prediction (K : Type) (d : ℕ) where
  | exact (next : Fin d → K)
  | uncertain (mean error : Fin d → K)

/-- `v_decrease_confidence` for one state (safe_learning/lyapunov.py:324-353). -/
def vDecreaseConfidence (V : (Fin d → K) → K) (lv : LipArg K d) (x : Fin d → K) :
    Prediction K d → K × K
  | .exact next => (V next - V x, 0)
  | .uncertain mean error => (V mean - V x, ∑ i, lv.entry mean i * error i)

/-- `v_decrease_bound` for one state (safe_learning/lyapunov.py:355-376). -/
def vDecreaseBound (V : (Fin d → K) → K) (lv : LipArg K d) (x : Fin d → K) (p : Prediction K d) : K :=
  (vDecreaseConfidence V lv x p).1 + (vDecreaseConfidence V lv x p).2

/-- The objects a `Lyapunov` instance is built from (safe_learning/lyapunov.py:177-179), for given
values of the TensorFlow variables `Θ`. `closedLoop p θ x` is `dynamics(x, policy(x))` with the
Python objects `p` for `dynamics` and `policy`. -/
structure System (K Prog Θ : Type) (d : ℕ) where
  V : Θ → (Fin d → K) → K
  lv : Θ → LipArg K d
  lf : Θ → LipDyn K d
  closedLoop : Prog → Θ → (Fin d → K) → Prediction K d

/-- The grid state with index `k`: row `k` of `all_points`, equal to `index_to_state(k)`
(safe_learning/lyapunov.py:321, 525; safe_learning/functions.py:622-638). -/
def gridState (g : GridWorld K d) (k : ℕ) : Fin d → K := g.ijkToState (unravel g.num k)

/-- The tensors of `update_values` and `update_safe_set` on a grid (safe_learning/lyapunov.py:305-322,
431-441, 475): the Lyapunov function on `all_points`, `decrease` and `threshold` at the grid states. -/
def System.world {Prog Θ : Type} (sys : System K Prog Θ d) (g : GridWorld K d)
    (argsort : (Fin g.nindex → K) → List (Fin g.nindex)) (tauDiv : K → ℕ → K) :
    World K Prog Θ g.nindex where
  decrease p θ k :=
    vDecreaseBound (sys.V θ) (sys.lv θ) (gridState g k) (sys.closedLoop p θ (gridState g k))
  threshold θ k tau := thresholdAt (sys.lv θ) (sys.lf θ) (gridState g k) tau
  lyapunov θ k := sys.V θ (gridState g k)
  tauDiv := tauDiv
  argsort := argsort

/-- The points of the refined cell around `center` (safe_learning/lyapunov.py:461-471), with
`lengths = unit_maxes`. They are computed by the code but not used. -/
def refinedPoints (g : GridWorld K d) (center : Fin d → K) (n : ℕ) : List (Fin d → K) :=
  (meshIJ fun i => (linspace (-1) 1 n).map fun t => 1 / 2 * (1 - 1 / (n : K)) * g.unit i * t).map
    fun p => fun i => p i + center i

end SafeLearning
