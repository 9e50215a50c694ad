import Verif.Model.Decrease
import Mathlib.Data.List.Sort
set_option autoImplicit false

/-!
# Model of `unique_rows`, `perturb_actions` and `get_safe_sample`
(safe_learning/utilities.py:496-516, safe_learning/lyapunov.py:609-797)
-/

namespace SafeLearning

variable {K : Type} [Field K] [LinearOrder K] [IsStrictOrderedRing K] {n m : ℕ}

/-- The rows that do not occur earlier, compared by `key`
(`np.unique(..., return_index=True)` returns the index of the first occurrence;
safe_learning/utilities.py:514). -/
def firstOccurrences {α β : Type} [DecidableEq β] (key : α → β) : List α → List α
  | [] => []
  | a :: l => a :: (firstOccurrences key l).filter fun b => decide (key b ≠ key a)

/-- `unique_rows(array)` (safe_learning/utilities.py:496-516). `key row` is the byte string of the row
(the void view on lines 510-512), and `np.unique` sorts by it. -/
def uniqueRows {α β : Type} [LinearOrder β] (key : α → β) (l : List α) : List α :=
  (firstOccurrences key l).insertionSort fun a b => key a ≤ key b

/-- `np.repeat(rows, k, axis=0)` (safe_learning/lyapunov.py:636, 639). -/
def repeatRows {α : Type} (l : List α) (k : ℕ) : List α := l.flatMap fun a => List.replicate k a

/-- `np.tile(rows, (k, 1))` (safe_learning/lyapunov.py:640). -/
def tileRows {α : Type} (l : List α) (k : ℕ) : List α := (List.replicate k l).flatten

/-- A state-action pair: a row of `state_actions` (safe_learning/lyapunov.py:642). -/
abbrev Pair (K : Type) (n m : ℕ) := (Fin n → K) × (Fin m → K)

/-- `np.clip(perturbations, limits[:, 0], limits[:, 1])` for one row
(safe_learning/lyapunov.py:646-647). -/
def clipAction (limits : Fin m → K × K) (u : Fin m → K) : Fin m → K :=
  fun j => clip (u j) (limits j).1 (limits j).2

/-- `perturb_actions(states, actions, perturbations, limits)` (safe_learning/lyapunov.py:609-651).
`ValueError` if there is not one action per state. -/
def perturbActions {β : Type} [LinearOrder β] (key : Pair K n m → β)
    (states : List (Fin n → K)) (actions perturbations : List (Fin m → K))
    (limits : Option (Fin m → K × K)) : Except PyErr (List (Pair K n m)) :=
  if actions.length = states.length then
    let statesNew := repeatRows states perturbations.length
    let actionsNew := List.zipWith (fun a p => a + p) (repeatRows actions perturbations.length)
      (tileRows perturbations states.length)
    let stateActions := List.zip statesNew actionsNew
    match limits with
    | none => .ok stateActions
    | some lim => .ok (uniqueRows key (stateActions.map fun p => (p.1, clipAction lim p.2)))
  else .error .valueError

/-- `np.argmax` of a list: the first position with the largest value; `ValueError` if it is empty
(safe_learning/lyapunov.py:791, 795). -/
def argmaxFirst : List K → Except PyErr ℕ
  | [] => .error .valueError
  | a :: l => .ok ((l.foldl (fun (s : ℕ × ℕ × K) b =>
      if s.2.2 < b then (s.1 + 1, s.1, b) else (s.1 + 1, s.2.1, s.2.2)) (1, 0, a)).2.1)

/-- What `get_safe_sample` reads from the `Lyapunov` instance (safe_learning/lyapunov.py:705-746):
the policy, the dynamics (a tuple of mean and standard deviation), the Lyapunov function with its
Lipschitz constant, the level `c_max`, the grid and the safe set. -/
structure SampleSystem (K : Type) (n m : ℕ) where
  grid : GridWorld K n
  policy : (Fin n → K) → Fin m → K
  dynamics : Pair K n m → (Fin n → K) × (Fin n → K)
  lv : LipArg K n
  V : (Fin n → K) → K
  cMax : K
  safeSet : ℕ → Bool

namespace SampleSystem

variable (S : SampleSystem K n m)

/-- `tf_bound` (safe_learning/lyapunov.py:715). -/
def bound (p : Pair K n m) : K := ∑ i, (S.dynamics p).2 i

/-- `tf_maps_inside` (safe_learning/lyapunov.py:714-723). -/
def mapsInside (p : Pair K n m) : Bool :=
  decide (S.V (S.dynamics p).1 + ∑ i, S.lv.entry (S.dynamics p).1 i * (S.dynamics p).2 i < S.cMax)

/-- `safe_in_expectation` for one pair (safe_learning/lyapunov.py:774-775). -/
def safeInExpectation [FloorRing K] (p : Pair K n m) : Except PyErr Bool := do
  let k ← S.grid.stateToIndex (List.ofFn (S.dynamics p).1)
  return S.safeSet k

/-- Lines 770-776 (safe_learning/lyapunov.py:770-776). -/
def accepted [FloorRing K] (positive : Bool) (p : Pair K n m) : Except PyErr Bool := do
  if positive then return S.mapsInside p
  else
    let e ← S.safeInExpectation p
    return S.mapsInside p && e

/-- `safe_states` before subsampling (safe_learning/lyapunov.py:738-739). -/
def safeStates : List (Fin n → K) :=
  ((List.range S.grid.nindex).filter fun k => S.safeSet k).map fun k => gridState S.grid k

/-- `safe_states` with subsampling: `idx` is the outcome of `np.random.choice` if
`len(safe_states) > num_samples` (safe_learning/lyapunov.py:738-742). -/
def sampledStates (idx : Option (List ℕ)) : Except PyErr (List (Fin n → K)) :=
  match idx with
  | none => .ok S.safeStates
  | some l => l.mapM fun k => match S.safeStates[k]? with
    | some x => .ok x
    | none => .error .indexError

/-- The result: whether the backup policy was used (with a warning), the row, and the uncertainty
(safe_learning/lyapunov.py:778-797). -/
structure Result (K : Type) (n m : ℕ) where
  backup : Bool
  pair : Pair K n m
  bound : K

/-- `state_actions` (safe_learning/lyapunov.py:748-760). With `perturbations = None` the code builds
two columns out of all entries of the states and actions, which TensorFlow accepts only for one
state and one action dimension. -/
def candidates {β : Type} [LinearOrder β] (key : Pair K n m → β) (states : List (Fin n → K))
    (perturbations : Option (List (Fin m → K))) (limits : Option (Fin m → K × K))
    (actions : List (Fin m → K)) : Except PyErr (List (Pair K n m)) :=
  match perturbations with
  | none =>
    if n = 1 ∧ m = 1 then .ok (states.flatMap fun s => actions.map fun a => (s, a))
    else .error .valueError
  | some ps => perturbActions key states (states.map S.policy) ps limits

/-- Select the row with the largest uncertainty (safe_learning/lyapunov.py:790-797). -/
def mostUncertain (backup : Bool) (l : List (Pair K n m)) : Except PyErr (Result K n m) := do
  let k ← argmaxFirst (l.map S.bound)
  match l[k]? with
  | some p => return { backup := backup, pair := p, bound := S.bound p }
  | none => .error .indexError

/-- The backup policy (safe_learning/lyapunov.py:780-793). `safe_actions` is not defined if
`perturbations` is `None`. The `1 x 1` zero perturbation is broadcast to all actions. -/
def backupSample {β : Type} [LinearOrder β] (key : Pair K n m → β) (states : List (Fin n → K))
    (perturbations : Option (List (Fin m → K))) (limits : Option (Fin m → K × K)) :
    Except PyErr (Result K n m) :=
  match perturbations with
  | none => .error .unboundLocal
  | some _ => do
    let stateActions ← perturbActions key states (states.map S.policy) [0] limits
    S.mostUncertain true stateActions

/-- `get_safe_sample(lyapunov, perturbations, limits, positive, num_samples, actions)`
(safe_learning/lyapunov.py:657-797). Simplification: the TensorFlow graph is the one of this call
(the code keeps the graph of the first call for each `lyapunov`). -/
def getSafeSample [FloorRing K] {β : Type} [LinearOrder β] (key : Pair K n m → β)
    (perturbations : Option (List (Fin m → K))) (limits : Option (Fin m → K × K))
    (positive : Bool) (idx : Option (List ℕ)) (actions : List (Fin m → K)) :
    Except PyErr (Result K n m) := do
  let states ← S.sampledStates idx
  let stateActions ← S.candidates key states perturbations limits actions
  let mask ← stateActions.mapM fun p => S.accepted positive p
  let safe := ((stateActions.zip mask).filter fun q => q.2).map fun q => q.1
  if safe.length = 0 then S.backupSample key states perturbations limits
  else S.mostUncertain false safe

end SampleSystem

end SafeLearning
