import Verif.Model.Triangulation
import Verif.Model.Decrease
set_option autoImplicit false

/-!
# Model of policy iteration (safe_learning/reinforcement_learning.py)

The value function is a `Triangulation` with one output; its parameters and those of the policy are TensorFlow
variables, kept in `Vars`.  Policy, dynamics and reward are functions of one row; a batch is a list of rows
(simplification: no function mixes the rows of a batch).
-/

namespace SafeLearning

variable {K : Type} [Field K] [LinearOrder K] [IsStrictOrderedRing K] {d m : ℕ}

/-- The TensorFlow variables that `PolicyIteration` reads and assigns: `value_function.parameters[0]` and
`policy.parameters[0]` (safe_learning/reinforcement_learning.py:139, 211, 250). -/
structure Vars (K : Type) (m : ℕ) where
  value : List (Fin 1 → K)
  policy : List (Fin m → K)

/-- `PolicyIteration.__init__` (safe_learning/reinforcement_learning.py:46-63). `policy θ x` evaluates the policy with
parameters `θ`; `policyGrid` is `policy.discretization`. -/
structure PolicyIteration (K : Type) (d m : ℕ) where
  policy : List (Fin m → K) → (Fin d → K) → Except PyErr (Fin m → K)
  policyGrid : GridWorld K d
  dynamics : (Fin d → K) → (Fin m → K) → Prediction K d
  reward : (Fin d → K) → (Fin m → K) → K
  valueFunction : Tri K d
  gamma : K

/-- The part of a `Lyapunov` object used by `future_values`: the Lyapunov function, the Lipschitz constants and the
discretisation constant (safe_learning/reinforcement_learning.py:106-112). -/
structure LyapunovTerm (K : Type) (d : ℕ) where
  V : (Fin d → K) → K
  lv : LipArg K d
  lf : LipDyn K d
  tau : K

namespace PolicyIteration

variable (P : PolicyIteration K d m)

/-- `self.state_space` (safe_learning/reinforcement_learning.py:58-59). -/
def stateSpace : List (Fin d → K) := P.valueFunction.disc.allPoints

/-- `isinstance(next_states, tuple)`: the mean is used (safe_learning/reinforcement_learning.py:97-99, 200-202). -/
def _root_.SafeLearning.Prediction.nextMean : Prediction K d → (Fin d → K)
  | .exact next => next
  | .uncertain mean _ => mean

/-- `future_values` for one state and action (safe_learning/reinforcement_learning.py:94-114). The name `var` is only
bound if the dynamics return a tuple. -/
def futureValue [FloorRing K] (eps : K) (vars : Vars K m) (lyapunov : Option (LyapunovTerm K d))
    (multiplier : K) (state : Fin d → K) (action : Fin m → K) : Except PyErr K := do
  let next := P.dynamics state action
  let reward := P.reward state action
  let expected ← P.valueFunction.tfEvaluate eps vars.value next.nextMean
  let updated := reward + P.gamma * expected 0
  match lyapunov with
  | none => return updated
  | some l =>
    match next with
    | .exact _ => .error .unboundLocal
    | .uncertain mean var =>
      let decrease := vDecreaseBound l.V l.lv state (.uncertain mean var)
      let constraint := decrease - thresholdAt l.lv l.lf state l.tau
      return updated - multiplier * constraint

/-- `future_values(states, policy, actions, lyapunov, lagrange_multiplier)`
(safe_learning/reinforcement_learning.py:65-114). Arrays with different numbers of states and actions are rejected
(simplification: TensorFlow would broadcast a single row). -/
def futureValues [FloorRing K] (eps : K) (vars : Vars K m) (states : List (Fin d → K))
    (policy : Option ((Fin d → K) → Except PyErr (Fin m → K)) := none)
    (actions : Option (List (Fin m → K)) := none) (lyapunov : Option (LyapunovTerm K d) := none)
    (multiplier : K := 1) : Except PyErr (List K) := do
  let actions ← match actions with
    | some a => .ok a
    | none => states.mapM (policy.getD (P.policy vars.policy))
  if actions.length ≠ states.length then .error .valueError else
  (states.zip actions).mapM fun sa => P.futureValue eps vars lyapunov multiplier sa.1 sa.2

/-- `bellmann_error` (safe_learning/reinforcement_learning.py:116-133); `tf.stop_gradient` does not change values. -/
def bellmannError [FloorRing K] (eps : K) (vars : Vars K m) (states : List (Fin d → K)) :
    Except PyErr K := do
  let target ← P.futureValues eps vars states
  let values ← states.mapM (P.valueFunction.tfEvaluate eps vars.value)
  return (target.zipWith (fun a b => (a - b 0) ^ 2) values).sum

/-- `tf.assign(value_function.parameters[0], values)`: the shapes must agree
(safe_learning/reinforcement_learning.py:139, 211). -/
def assignValue (vars : Vars K m) (values : List K) : Except PyErr (Vars K m) :=
  if values.length = vars.value.length then .ok { vars with value := values.map fun v _ => v }
  else .error .valueError

/-- `value_iteration`, run once (safe_learning/reinforcement_learning.py:135-140). -/
def valueIteration [FloorRing K] (eps : K) (vars : Vars K m) : Except PyErr (Vars K m) := do
  let values ← P.futureValues eps vars P.stateSpace
  assignValue vars values

/-- `n` runs of the operation returned by `value_iteration` (safe_learning/reinforcement_learning.py:135-140). -/
def iterate [FloorRing K] (eps : K) : ℕ → Vars K m → Except PyErr (Vars K m)
  | 0, vars => .ok vars
  | n + 1, vars => do
    let vars ← P.valueIteration eps vars
    iterate eps n vars

/-- The linear program handed to `cvxpy`: maximise `sum(values)` subject to
`values <= rewards + gamma * value_matrix * values` (safe_learning/reinforcement_learning.py:156-168). -/
structure Program (K : Type) where
  rewards : List K
  gamma : K
  matrix : Coo K

/-- `prob.status` (safe_learning/reinforcement_learning.py:173-176). -/
inductive Status where
  | optimal
  | other
  deriving DecidableEq

/-- `_run_cvx_optimization` (safe_learning/reinforcement_learning.py:142-178). `solve` is `cvxpy`'s
`Problem.solve` with some solver options; it gives the status and the values. -/
def runCvxOptimization [FloorRing K] (eps : K) (solve : Program K → Status × List K)
    (nextStates : List (Fin d → K)) (rewards : List K) : Except PyErr (List K) := do
  let matrix ← P.valueFunction.parameterDerivative eps nextStates
  let (status, values) := solve ⟨rewards, P.gamma, matrix⟩
  if status ≠ .optimal then .error .optimizationError else return values

/-- `optimize_value_function`, with the returned operation run (safe_learning/reinforcement_learning.py:180-211). -/
def optimizeValueFunction [FloorRing K] (eps : K) (solve : Program K → Status × List K)
    (vars : Vars K m) : Except PyErr (Vars K m) := do
  let actions ← P.stateSpace.mapM (P.policy vars.policy)
  let nextStates := P.stateSpace.zipWith (fun s a => (P.dynamics s a).nextMean) actions
  let rewards := P.stateSpace.zipWith P.reward actions
  let values ← P.runCvxOptimization eps solve nextStates rewards
  assignValue vars values

/-- Floating point numbers with `-np.inf` as the smallest one
(safe_learning/reinforcement_learning.py:275). -/
abbrev Extended (K : Type) := WithBot K

/-- `np.argmax` of a row: the index of the first maximal entry, `ValueError` for an empty row
(safe_learning/reinforcement_learning.py:278). -/
def argmaxFirst : List (Extended K) → Except PyErr ℕ
  | [] => .error .valueError
  | v :: vs => .ok (go v 0 1 vs)
where
  go (best : Extended K) (bestIndex index : ℕ) : List (Extended K) → ℕ
    | [] => bestIndex
    | v :: vs => if best < v then go v index (index + 1) vs else go best bestIndex (index + 1) vs

/-- The entry `values[s, i]` after the loop body for action `i`: the future value, or `-inf` if the slack of the
constraint at the state is negative (safe_learning/reinforcement_learning.py:265-275). -/
def entry (value : K) (slack : Option K) : Extended K :=
  match slack with
  | none => (value : WithBot K)
  | some c => if c < 0 then ⊥ else (value : WithBot K)

/-- The column `values[:, i]` (safe_learning/reinforcement_learning.py:265-275): every state gets the same action.
`constraint(action_array)` returns one slack per state; another number of slacks is rejected by the boolean
index. -/
def column [FloorRing K] (eps : K) (vars : Vars K m)
    (constraint : Option (List (Fin m → K) → List K)) (action : Fin m → K) :
    Except PyErr (List (Extended K)) := do
  let states := P.policyGrid.allPoints
  let actionArray := states.map fun _ => action
  let values ← P.futureValues eps vars states none (some actionArray)
  match constraint with
  | none => return values.map fun v => entry v none
  | some c =>
    let slack := c actionArray
    if slack.length ≠ states.length then .error .indexError else
    return values.zipWith (fun v s => entry v (some s)) slack

/-- `discrete_policy_optimization` (safe_learning/reinforcement_learning.py:213-279), with the operations built for the
current attributes (the operations of an earlier call are reused by the code, see `Session`). -/
def discretePolicyOptimization [FloorRing K] (eps : K) (vars : Vars K m)
    (actionSpace : List (Fin m → K)) (constraint : Option (List (Fin m → K) → List K) := none) :
    Except PyErr (Vars K m) := do
  let columns ← actionSpace.mapM (P.column eps vars constraint)
  let best ← (List.range P.policyGrid.allPoints.length).mapM fun s =>
    argmaxFirst (columns.map fun c => c.getD s ⊥)
  let bestActions ← best.mapM (rowAt actionSpace)
  if bestActions.length = vars.policy.length then return { vars with policy := bestActions }
  else .error .valueError

end PolicyIteration

/-- A `PolicyIteration` object over time: its attributes, the operations stored by the first call of
`discrete_policy_optimization` (they refer to the attributes of that time) and the variables
(safe_learning/reinforcement_learning.py:63, 237-260). -/
structure Session (K : Type) (d m : ℕ) where
  attributes : PolicyIteration K d m
  stored : Option (PolicyIteration K d m)
  vars : Vars K m

/-- `discrete_policy_optimization` with the stored operations: the future values are computed and the parameters are
assigned by the stored graph elements; `states` are the ones of the stored graph
(safe_learning/reinforcement_learning.py:237-279). Simplification: the policy grid has as many points as the
stored one. -/
def Session.discretePolicyOptimization [FloorRing K] (eps : K) (s : Session K d m)
    (actionSpace : List (Fin m → K)) (constraint : Option (List (Fin m → K) → List K) := none) :
    Except PyErr (Session K d m) := do
  let P := s.stored.getD s.attributes
  let vars ← P.discretePolicyOptimization eps s.vars actionSpace constraint
  return { s with stored := some P, vars := vars }

end SafeLearning
