import Verif.Model.FloatValueIteration
set_option autoImplicit false

/-!
# Policy optimisation in floating point arithmetic (safe_learning/reinforcement_learning.py:213-279)

`discrete_policy_optimization` of `Verif.Model.ReinforcementLearning` with a rounding function `fl` after every arithmetic operation.
Policy, dynamics, reward and constraint are given functions; their own rounding is part of them. `np.argmax` and the assignment of
the parameters do not round.
-/

namespace SafeLearning

variable {K : Type} [Field K] [LinearOrder K] [IsStrictOrderedRing K] {d m : ℕ}

namespace PolicyIteration

variable (P : PolicyIteration K d m) (fl : K → K)

/-- `future_values` for one state with the argument `actions` (safe_learning/reinforcement_learning.py:92-104, 114). -/
def flActionValue [FloorRing K] (eps : K) (vars : Vars K m) (state : Fin d → K) (action : Fin m → K) : Except PyErr K := do
  let next := P.dynamics state action
  let expected ← P.valueFunction.flEvaluate fl fl eps vars.value next.nextMean
  return fl (P.reward state action + fl (P.gamma * expected 0))

/-- The column `values[:, i]` (safe_learning/reinforcement_learning.py:265-275); see `PolicyIteration.column`. -/
def flColumn [FloorRing K] (eps : K) (vars : Vars K m)
    (constraint : Option (List (Fin m → K) → List K)) (action : Fin m → K) :
    Except PyErr (List (Extended K)) := do
  let states := P.policyGrid.flAllPoints fl
  let actionArray := states.map fun _ => action
  let values ← states.mapM fun s => P.flActionValue fl eps vars s action
  match constraint with
  | none => return values.map fun v => entry v none
  | some c =>
    let slack := c actionArray
    if slack.length ≠ states.length then .error .indexError else
    return values.zipWith (fun v s => entry v (some s)) slack

/-- `discrete_policy_optimization` (safe_learning/reinforcement_learning.py:213-279), with the operations built for the
current attributes. -/
def flDiscretePolicyOptimization [FloorRing K] (eps : K) (vars : Vars K m)
    (actionSpace : List (Fin m → K)) (constraint : Option (List (Fin m → K) → List K) := none) :
    Except PyErr (Vars K m) := do
  let columns ← actionSpace.mapM (P.flColumn fl eps vars constraint)
  let best ← (List.range (P.policyGrid.flAllPoints fl).length).mapM fun s =>
    argmaxFirst (columns.map fun c => c.getD s ⊥)
  let bestActions ← best.mapM (rowAt actionSpace)
  if bestActions.length = vars.policy.length then return { vars with policy := bestActions }
  else .error .valueError

end PolicyIteration

end SafeLearning
