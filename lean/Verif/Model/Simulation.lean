import Verif.Model.Grid
import Mathlib.Analysis.SpecialFunctions.Pow.Real
set_option autoImplicit false

/-!
# Model of the simulation helpers (examples/utilities.py)

`reward_rollout`, `constrained_batch_sampler`, `get_parameter_change`, `compute_closedloop_response`, `gridify` and
`compute_roa`. Batches are lists of rows.
-/

namespace SafeLearning

variable {K : Type} [Field K] [LinearOrder K] [IsStrictOrderedRing K] {d m : ℕ}

/-! ## `reward_rollout` -/

/-- `np.max(np.abs(temp))`; `ValueError` for an empty array (examples/utilities.py:537). -/
def maxAbs : List K → Except PyErr K
  | [] => .error .valueError
  | v :: vs => .ok (vs.foldl (fun acc w => max acc |w|) |v|)

/-- The loop of `reward_rollout` (examples/utilities.py:534-540): `fuel` iterations are left, the next one has number `t`. The
second component of the result is `converged`. Arrays of different lengths cannot be added (broadcasting of a single
reward is left out). -/
def rolloutLoop (closedLoop : List (Fin d → K) → List (Fin d → K))
    (reward : List (Fin d → K) → List K) (discount tol : K) :
    (fuel t : ℕ) → List K → List (Fin d → K) → Except PyErr (List K × Bool)
  | 0, _, rollout, _ => .ok (rollout, false)
  | fuel + 1, t, rollout, states => do
    let temp := (reward states).map fun r => discount ^ t * r
    if temp.length ≠ rollout.length then .error .valueError else
    let rollout := rollout.zipWith (· + ·) temp
    let size ← maxAbs temp
    if size < tol then return (rollout, true)
    else rolloutLoop closedLoop reward discount tol fuel (t + 1) rollout (closedLoop states)

/-- `reward_rollout` for an array of states or the points of a grid (examples/utilities.py:522-545). `converged` decides
about the printed message. -/
def rewardRollout (allPoints : List (Fin d → K))
    (closedLoop : List (Fin d → K) → List (Fin d → K)) (reward : List (Fin d → K) → List K)
    (discount : K) (horizon : ℕ) (tol : K) : Except PyErr (List K × Bool) :=
  rolloutLoop closedLoop reward discount tol horizon 0 (allPoints.map fun _ => 0) allPoints

/-! ## `constrained_batch_sampler` -/

/-- The result of `tf.gather(batch, idx)`: for a vector of indices an array of rows, for a single index (a scalar) one row
without the batch axis (examples/utilities.py:555-556, 560-561). -/
inductive Gathered (K : Type) (d : ℕ) where
  | rows (xs : List (Fin d → K))
  | single (x : Fin d → K)

/-- `tf.gather(batch, tf.squeeze(tf.where(mask)))` (examples/utilities.py:555-556, 560-561): `tf.where` returns an array with
one row per selected index and one column; `tf.squeeze` removes all axes of length one, so a single selected index
becomes a scalar. -/
def gatherWhere (batch : List (Fin d → K)) (mask : (Fin d → K) → Bool) : Gathered K d :=
  match batch.filter mask with
  | [x] => .single x
  | xs => .rows xs

/-- `tf.pad` with rows of zeros at the end (examples/utilities.py:564-566): it needs an array with two axes. -/
def padZeros (zeroPad : ℕ) (g : Gathered K d) : Except PyErr (Gathered K d) :=
  if 0 < zeroPad then
    match g with
    | .rows xs => .ok (.rows (xs ++ List.replicate zeroPad 0))
    | .single _ => .error .valueError
  else .ok g

/-- `constrained_batch_sampler` (examples/utilities.py:548-567), run for the sampled `batch`. The test of the static shape
in line 562 never succeeds, because the number of selected rows is only known when the graph is run. -/
def constrainedBatchSampler (dynamics : (Fin d → K) → (Fin m → K) → Fin d → K)
    (policy : (Fin d → K) → Fin m → K) (batch : List (Fin d → K)) (actionLimit : Option K)
    (zeroPad : ℕ) : Except PyErr (Gathered K d) :=
  let mapsInside (x : Fin d → K) : Bool :=
    decide (∀ i, -1 ≤ dynamics x (policy x) i ∧ dynamics x (policy x) i ≤ 1)
  let constrained := gatherWhere batch mapsInside
  let constrained := match actionLimit with
    | none => constrained
    | some limit =>
      let c := |limit|
      let undersaturated (x : Fin d → K) : Bool := decide (∀ i, -c ≤ policy x i ∧ policy x i ≤ c)
      gatherWhere batch undersaturated
  padZeros zeroPad constrained

/-! ## `get_parameter_change` -/

/-- The argument `ord` of `get_parameter_change` (examples/utilities.py:581, 590-593). `negInt p` is `-(p + 1)`. -/
inductive NormOrd where
  | inf
  | negInf
  | int (p : ℕ)
  | negInt (p : ℕ)
  | fro
  | nuc

/-- `np.linalg.norm` of a vector (examples/utilities.py:597): `ord = 0` counts the entries that are not zero, matrix norms
raise `ValueError`, as do the maximum and minimum of an empty vector. For negative integers, `0. ** ord` is infinite and
the root of an infinite sum is zero. Simplification: the empty vector with a negative integer, for which numpy returns
infinity, is represented by `ValueError`. -/
noncomputable def vectorNorm (x : List ℝ) : NormOrd → Except PyErr ℝ
  | .inf => maxAbs x
  | .negInf =>
    match x with
    | [] => .error .valueError
    | v :: vs => .ok (vs.foldl (fun acc w => min acc |w|) |v|)
  | .int p =>
    if p = 0 then .ok ((x.filter fun v => decide (v ≠ 0)).length : ℝ)
    else if p = 1 then .ok (x.map fun v => |v|).sum
    else if p = 2 then .ok (Real.sqrt (x.map fun v => v ^ 2).sum)
    else .ok ((x.map fun v => |v| ^ (p : ℝ)).sum ^ (1 / (p : ℝ)))
  | .negInt p =>
    if x = [] then .error .valueError
    else if 0 ∈ x then .ok 0
    else .ok ((x.map fun v => |v| ^ (-(p + 1) : ℝ)).sum ^ (1 / (-(p + 1) : ℝ)))
  | .fro => .error .valueError
  | .nuc => .error .valueError

/-- `get_parameter_change` (examples/utilities.py:570-599). A parameter array is given by its entries in the order of `ravel`.
`np.concatenate` needs at least one array. Arrays of different sizes cannot be subtracted (broadcasting of a single entry is
left out). -/
noncomputable def getParameterChange (oldParams newParams : List (List ℝ)) (ord : NormOrd) :
    Except PyErr ℝ :=
  if oldParams = [] ∨ newParams = [] then .error .valueError
  else if oldParams.flatten.length ≠ newParams.flatten.length then .error .valueError
  else vectorNorm (newParams.flatten.zipWith (· - ·) oldParams.flatten) ord

/-! ## `compute_closedloop_response` -/

/-- The argument `reference` of `compute_closedloop_response`; `other` is any other string
(examples/utilities.py:602-612). -/
inductive Reference where
  | impulse
  | step
  | zero
  | other

/-- The array `r` (examples/utilities.py:606-612); it is not assigned for other strings. -/
def referenceSignal (m : ℕ) (reference : Reference) (steps : ℕ) (dt const : K) :
    Except PyErr (List (Fin m → K)) :=
  match reference with
  | .impulse => .ok ((fun _ => 1 / dt) :: List.replicate steps 0)
  | .step => .ok (List.replicate (steps + 1) fun _ => const)
  | .zero => .ok (List.replicate (steps + 1) 0)
  | .other => .error .unboundLocal

/-- The loop of `compute_closedloop_response` for the remaining rows of the reference
(examples/utilities.py:628-634): one action per row, the next state for all but the last row. -/
def responseLoop (dynamics : (Fin d → K) → (Fin m → K) → Fin d → K)
    (policy : (Fin d → K) → Fin m → K) (state : Fin d → K) :
    List (Fin m → K) → List (Fin d → K) × List (Fin m → K)
  | [] => ([], [])
  | r :: rs =>
    let action := policy state
    let next := dynamics state fun i => action i + r i
    let rest := responseLoop dynamics policy next rs
    (state :: rest.1, action :: rest.2)

/-- The result of `compute_closedloop_response` (examples/utilities.py:636). -/
structure Response (K : Type) (d m : ℕ) where
  states : List (Fin d → K)
  actions : List (Fin m → K)
  times : List K
  reference : List (Fin m → K)

/-- `compute_closedloop_response` (examples/utilities.py:602-636), for `dt` different from zero. -/
def computeClosedloopResponse (dynamics : (Fin d → K) → (Fin m → K) → Fin d → K)
    (policy : (Fin d → K) → Fin m → K) (steps : ℕ) (dt : K) (reference : Reference) (const : K)
    (ic : Option (Fin d → K)) : Except PyErr (Response K d m) := do
  let r ← referenceSignal m reference steps dt const
  let times := (List.range (steps + 1)).map fun i : ℕ => dt * (i : K)
  let sa := responseLoop dynamics policy (ic.getD 0) r
  return ⟨sa.1, sa.2, times, r⟩

/-! ## `gridify` -/

/-- `gridify` (examples/utilities.py:639-651): an integer number of points is repeated for all dimensions. -/
def gridify (norms : Fin d → K) (maxes : Option (Fin d → K)) (numPoints : NumPoints) :
    Except PyErr (GridWorld K d) :=
  let maxes := maxes.getD norms
  let numPoints := match numPoints with
    | .scalar n => .seq (List.replicate d n)
    | .seq ns => .seq ns
  GridWorld.new (fun i => -maxes i / norms i) (fun i => maxes i / norms i) numPoints

/-! ## `compute_roa` -/

/-- The loop without trajectories (examples/utilities.py:667-669): `horizon - 1` steps. -/
def endStates (closedLoop : List (Fin d → ℝ) → List (Fin d → ℝ)) : ℕ → List (Fin d → ℝ) →
    List (Fin d → ℝ)
  | 0, states => states
  | t + 1, states => endStates closedLoop t (closedLoop states)

/-- The loop with trajectories (examples/utilities.py:671-674): the arrays `trajectories[:, :, t]`. A step with a different
number of rows cannot be stored (broadcasting of a single row is left out). -/
def trajectoryLoop (closedLoop : List (Fin d → ℝ) → List (Fin d → ℝ)) (nindex : ℕ) :
    (steps : ℕ) → (last : List (Fin d → ℝ)) → Except PyErr (List (List (Fin d → ℝ)))
  | 0, _ => .ok []
  | t + 1, last => do
    let next := closedLoop last
    if next.length ≠ nindex then .error .valueError else
    let rest ← trajectoryLoop closedLoop nindex t next
    return next :: rest

/-- `dists <= tol` (examples/utilities.py:677-682). -/
noncomputable def nearEquilibrium (equilibrium : Option (Fin d → ℝ)) (tol : ℝ) (x : Fin d → ℝ) : Prop :=
  Real.sqrt (∑ i, (x i - equilibrium.getD 0 i) ^ 2) ≤ tol

open Classical in
/-- `compute_roa` (examples/utilities.py:654-686): the marks of the states, and the trajectories if requested.
`trajectories[:, :, 0]` raises `IndexError` for `horizon = 0`. -/
noncomputable def computeRoa (allPoints : List (Fin d → ℝ))
    (closedLoop : List (Fin d → ℝ) → List (Fin d → ℝ)) (horizon : ℕ) (tol : ℝ)
    (equilibrium : Option (Fin d → ℝ)) (noTraj : Bool) :
    Except PyErr (List Bool × Option (List (List (Fin d → ℝ)))) :=
  if noTraj then
    let ends := endStates closedLoop (horizon - 1) allPoints
    .ok (ends.map fun x => decide (nearEquilibrium equilibrium tol x), none)
  else if horizon = 0 then .error .indexError
  else do
    let rest ← trajectoryLoop closedLoop allPoints.length (horizon - 1) allPoints
    let trajectories := allPoints :: rest
    let ends := trajectories.getLastD []
    return (ends.map fun x => decide (nearEquilibrium equilibrium tol x), some trajectories)

end SafeLearning
