import Verif.Model.Decrease
import Verif.Model.SafeSample
import Mathlib.Analysis.SpecialFunctions.Trigonometric.Basic
set_option autoImplicit false

/-!
# Model of the loops in the notebooks

The mountain car (examples/basic_dynamic_programming.ipynb:49-67, 118-155, 203-223), active learning (examples/1d_region_of_attraction_estimate.
ipynb:205-236) and the masks of state-action pairs (examples/1d_example.ipynb:212-271).
-/

namespace SafeLearning

variable {K : Type} [Field K] [LinearOrder K] [IsStrictOrderedRing K]

/-! ## Mountain car -/

/-- `dynamics` for one row (examples/basic_dynamic_programming.ipynb:53-58). -/
noncomputable def carDynamics (x : Fin 2 → ℝ) (u : ℝ) : Fin 2 → ℝ :=
  ![x 0 + x 1, x 1 + (1 / 1000) * u - (25 / 10000) * Real.cos (3 * x 0)]

/-- `reward_function` for one row, `terminal_reward = 1 - gamma` (examples/basic_dynamic_programming.ipynb:49-50, 62-67). -/
def carReward (gamma position : K) : K := if 3 / 5 < position then (1 - gamma) * 1 else 0

/-- `max_i |a_i - b_i|`: `np.max(np.abs(a - b))` (examples/basic_dynamic_programming.ipynb:138-139). The parameters are not empty. -/
def maxChange {n : ℕ} (a b : Fin (n + 1) → K) : K := Finset.univ.sup' ⟨0, Finset.mem_univ _⟩ fun i => |a i - b i|

/-- What the loop reports (examples/basic_dynamic_programming.ipynb:150-155). -/
structure LoopReport (K : Type) where
  converged : Bool
  /-- `i + 1` -/
  iterations : ℕ
  valueChange : K
  actionsChange : K

/-- The loop over `range(30)` (examples/basic_dynamic_programming.ipynb:124-147) from iteration `i` on with `left + 1` iterations to go. `step` stands
for the optimisation of the value function and the policy (lines 126-131), `values` and `actions` read the parameters; `tol` is `1e-1`. -/
def convergenceLoop {P : Type} {n m : ℕ} (step : P → P) (values : P → Fin (n + 1) → K) (actions : P → Fin (m + 1) → K) (tol : K) :
    (left i : ℕ) → P → (Fin (n + 1) → K) → (Fin (m + 1) → K) → LoopReport K
  | left, i, p, oldValues, oldActions =>
    let p := step p
    let valueChange := maxChange oldValues (values p)
    let actionsChange := maxChange oldActions (actions p)
    if valueChange ≤ tol ∧ actionsChange ≤ tol then ⟨true, i + 1, valueChange, actionsChange⟩
    else match left with
      | 0 => ⟨false, i + 1, valueChange, actionsChange⟩
      | left + 1 => convergenceLoop step values actions tol left (i + 1) p (values p) (actions p)

/-- The whole loop: `rounds` is 30, the old parameters are zero at first (examples/basic_dynamic_programming.ipynb:118-147). -/
def trainCar {P : Type} {n m : ℕ} (step : P → P) (values : P → Fin (n + 1) → K) (actions : P → Fin (m + 1) → K) (tol : K)
    (rounds : ℕ) (p : P) : Option (LoopReport K) :=
  match rounds with
  | 0 => none
  | left + 1 => some (convergenceLoop step values actions tol left 0 p (fun _ => 0) fun _ => 0)

/-- The loop for the trajectory (examples/basic_dynamic_programming.ipynb:216-223) from iteration `i` on with `left` iterations to go, on the array
`states`. `next` is `dynamics(state, policy(state))`. -/
def carLoop {X : Type} (next : X → X) (terminal : X → Bool) : (left i : ℕ) → (ℕ → X) → ℕ → X
  | 0, _, states => states
  | left + 1, i, states =>
    let states := Function.update states (i + 1) (next (states i))
    if terminal (states (i + 1)) then fun t => if i + 1 ≤ t then states (i + 1) else states t
    else carLoop next terminal left (i + 1) states

/-- The trajectory: `n` rows of zeros, the first one replaced by the initial state (examples/basic_dynamic_programming.ipynb:203-204, 217-223). -/
def carTrajectory {X : Type} (next : X → X) (terminal : X → Bool) (zero x0 : X) (n : ℕ) : List X :=
  (List.range n).map (carLoop next terminal (n - 1) 0 (Function.update (fun _ => zero) 0 x0))

/-! ## Active learning -/

/-- The data point added by `update_gp` (examples/1d_region_of_attraction_estimate.ipynb:222-235): the state of the safe set with the largest standard
deviation, its action, and the measurement. `std` is one number per state (`dynamics_std` has one column). -/
def updateGp {X U : Type} (grid : List X) (safe : List Bool) (policy : X → U) (std : X → U → K) (measure : X → U → X) :
    Except PyErr ((X × U) × X) := do
  let safeGrid := ((grid.zip safe).filter fun p => p.2).map Prod.fst
  let maxId ← argmaxFirst (safeGrid.map fun x => std x (policy x))
  match safeGrid[maxId]? with
  | some x => .ok ((x, policy x), measure x (policy x))
  | none => .error .indexError

/-! ## Masks of state-action pairs -/

/-- What `get_safe_sets` reads (examples/1d_example.ipynb:213-243): the grid of the states, the actions, the Lyapunov function with constant Lipschitz
constants, and mean and error bound of the dynamics. -/
structure LineProblem (K : Type) where
  g : GridWorld K 1
  actions : List K
  V : K → K
  lv : K
  lf : K
  tau : K
  cMax : K
  mean : K → K → K
  bound : K → K → K

/-- `total[mask, :] = block` for a boolean array with `width` columns, initially `False` (examples/1d_example.ipynb:264-269). The block has as many rows as the mask
has true entries. -/
def assignRows (width : ℕ) : List Bool → List (List Bool) → List (List Bool)
  | [], _ => []
  | false :: mask, block => List.replicate width false :: assignRows width mask block
  | true :: mask, [] => List.replicate width false :: assignRows width mask []
  | true :: mask, row :: block => row :: assignRows width mask block

/-- `a.reshape(rows, width)` as a list of rows (examples/1d_example.ipynb:268-269). -/
def splitRows {α : Type} (width : ℕ) : ℕ → List α → List (List α)
  | 0, _ => []
  | rows + 1, a => a.take width :: splitRows width rows (a.drop width)

/-- `get_safe_sets(lyapunov, positive)` (examples/1d_example.ipynb:213-271). -/
def getSafeSets [FloorRing K] (p : LineProblem K) (safe : List Bool) (positive : Bool) :
    Except PyErr (List (List Bool) × List (List Bool)) := do
  let indices := (List.range safe.length).filter fun k => safe.getD k false
  let safeStates := indices.map fun k => gridState p.g k 0
  let stateActions := safeStates.flatMap fun x => p.actions.map fun u => (x, u)
  let mapsInside := stateActions.map fun q => decide (p.V (p.mean q.1 q.2) + p.lv * p.bound q.1 q.2 < p.cMax)
  let decreases := stateActions.map fun q =>
    decide (vDecreaseBound (fun x : Fin 1 → K => p.V (x 0)) (.const p.lv) (fun _ => q.1)
        (.uncertain (fun _ => p.mean q.1 q.2) fun _ => p.bound q.1 q.2) <
      thresholdAt (.const p.lv) (.const p.lf) (fun _ : Fin 1 => q.1) p.tau)
  let mapsInside ← if positive then .ok mapsInside
    else do
      let next ← stateActions.mapM fun q => p.g.stateToIndex [p.mean q.1 q.2]
      .ok (List.zipWith (fun a k => a && safe.getD k false) mapsInside next)
  let rows := safeStates.length
  let width := p.actions.length
  return (assignRows width safe (splitRows width rows mapsInside), assignRows width safe (splitRows width rows decreases))

end SafeLearning
