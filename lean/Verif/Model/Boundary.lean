import Verif.Model.Grid
import Mathlib.Order.WithBot
set_option autoImplicit false

/-!
# Model of `smallest_boundary_value` (safe_learning/lyapunov.py:22-56)
-/

namespace SafeLearning

variable {K : Type} [Field K] [LinearOrder K] [IsStrictOrderedRing K] {d : ℕ}

/-- `points[[0, -1]]`: the first and the last entry; `IndexError` on an empty array
(safe_learning/lyapunov.py:46). -/
def firstLast {α : Type} (l : List α) : Except PyErr (List α) :=
  match l with
  | [] => .error .indexError
  | a :: l => .ok [a, (a :: l).getLast (by simp)]

/-- `tf.reduce_min` of a batch of values; `+inf` (`⊤`) for an empty batch
(safe_learning/lyapunov.py:53). -/
def reduceMin (l : List K) : WithTop K := l.foldl (fun (m : WithTop K) (v : K) => min m (v : WithTop K)) ⊤

/-- One round of the loop over the axes: the points that use only the boundary values for the
`i`-th element, and the smallest value of `fun` on them (safe_learning/lyapunov.py:43-53). -/
def axisBoundaryMin (f : (Fin d → K) → K) (g : GridWorld K d) (i : Fin d) :
    Except PyErr (WithTop K) := do
  let ends ← firstLast (g.discretePoints i)
  let tmp := Function.update g.discretePoints i ends
  return reduceMin ((meshIJ tmp).map f)

/-- `smallest_boundary_value(fun, discretization)` (safe_learning/lyapunov.py:22-56). `⊤` is
`np.inf`, which is the result for zero dimensions only. -/
def smallestBoundaryValue (f : (Fin d → K) → K) (g : GridWorld K d) :
    Except PyErr (WithTop K) :=
  (List.finRange d).foldlM (fun m i => do
    let smallest ← axisBoundaryMin f g i
    return min m smallest) ⊤

end SafeLearning
