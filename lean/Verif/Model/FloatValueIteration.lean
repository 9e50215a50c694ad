import Verif.Model.FloatTriangulation
import Verif.Model.ReinforcementLearning
set_option autoImplicit false

/-!
# Value iteration in floating point arithmetic (safe_learning/reinforcement_learning.py:58-59, 65-114, 135-140)

The same functions as in `Verif.Model.ReinforcementLearning`, with a rounding function `fl` after every arithmetic operation. The
value function is evaluated as in `Verif.Model.FloatTriangulation`: `Triangulation.build_evaluation`
(safe_learning/functions.py:1473-1499) has the same operations in the same order as the numpy version. Policy, dynamics and
reward are given functions; their own rounding is part of them. Without a `lyapunov` argument.
-/

namespace SafeLearning

variable {K : Type} [Field K] [LinearOrder K] [IsStrictOrderedRing K] {d m : ℕ}

namespace PolicyIteration

variable (P : PolicyIteration K d m) (fl : K → K)

/-- `self.state_space` (safe_learning/reinforcement_learning.py:58-59). -/
def flStateSpace : List (Fin d → K) := P.valueFunction.disc.flAllPoints fl

/-- `future_values` for one state (safe_learning/reinforcement_learning.py:89-104, 114). -/
def flFutureValue [FloorRing K] (eps : K) (vars : Vars K m) (state : Fin d → K) : Except PyErr K := do
  let action ← P.policy vars.policy state
  let next := P.dynamics state action
  let expected ← P.valueFunction.flEvaluate fl fl eps vars.value next.nextMean
  return fl (P.reward state action + fl (P.gamma * expected 0))

/-- `value_iteration`, run once (safe_learning/reinforcement_learning.py:135-140). -/
def flValueIteration [FloorRing K] (eps : K) (vars : Vars K m) : Except PyErr (Vars K m) := do
  let values ← (P.flStateSpace fl).mapM (P.flFutureValue fl eps vars)
  assignValue vars values

/-- `n` runs of the operation returned by `value_iteration` (safe_learning/reinforcement_learning.py:135-140). -/
def flIterate [FloorRing K] (eps : K) : ℕ → Vars K m → Except PyErr (Vars K m)
  | 0, vars => .ok vars
  | n + 1, vars => do
    let vars ← P.flValueIteration fl eps vars
    flIterate eps n vars

end PolicyIteration

end SafeLearning
