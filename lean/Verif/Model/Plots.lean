import Verif.Model.Grid
import Verif.Model.Features
import Mathlib.Data.Set.Basic
set_option autoImplicit false

/-!
# Model of the plots of the notebooks and of `examples/plotting.py`

How values on a grid become images and surfaces: `imshow` of `reshape(num_points).T` (examples/inverted_pendulum.ipynb:325-329 and other
notebooks), `plot_triangulation` (examples/plotting.py:136-189), `plot_surface` on a `meshgrid` (examples/reinforcement_learning_pendulum.ipynb:
420-432), the planes of the cart-pole (examples/reinforcement_learning_cartpole.ipynb:432-442) and the sub-sampled trajectories
(examples/lyapunov_function_learning.ipynb:733-738). Simplified: no interpolation between pixels, colour maps are the identity.
-/

namespace SafeLearning

variable {K : Type} [Field K] [LinearOrder K] [IsStrictOrderedRing K]

/-- `z.reshape(n0, n1)`: `ValueError` if the number of values does not fit (examples/plotting.py:175,
examples/inverted_pendulum.ipynb:325). The array is a function of the row and the column, `none` outside. -/
def reshape2 {α : Type} (n0 n1 : ℕ) (z : List α) : Except PyErr (ℕ → ℕ → Option α) :=
  if z.length = n0 * n1 then .ok fun a b => z[a * n1 + b]? else .error .valueError

/-- `plt.imshow(z.T, origin='lower', extent=limits.ravel())`: colour of the pixel in column `c` from the left and row `r` from the bottom; row
`r` of the array is `r`-th from the bottom (examples/inverted_pendulum.ipynb:325-327, examples/lyapunov_function_learning.ipynb:713-715,
examples/adaptive_safety_verification.ipynb:449-450). `array` is `z`. -/
def imshowLower {α : Type} (array : ℕ → ℕ → α) (c r : ℕ) : α :=
  let transposed := fun i j => array j i
  transposed r c

/-- `plt.imshow(vals, origin='upper', ..)` of `vals = z.T[::-1]` with `n1` rows: row `i` of `vals` is row `n1 - 1 - i` of `z.T`, and it is drawn
`i`-th from the top (examples/plotting.py:174-178). -/
def imshowUpper {α : Type} (n1 : ℕ) (array : ℕ → ℕ → α) (c r : ℕ) : α :=
  let transposed := fun i j => array j i
  let vals := fun i j => transposed (n1 - 1 - i) j
  let fromTop := n1 - 1 - r
  vals fromTop c

/-- The image of the values `z` on the grid in the notebooks (examples/inverted_pendulum.ipynb:325-327). -/
def gridImage {α : Type} (g : GridWorld K 2) (z : List α) : Except PyErr (ℕ → ℕ → Option α) := do
  let array ← reshape2 (g.num 0) (g.num 1) z
  return imshowLower array

/-- The image in `plot_triangulation` without `three_dimensional` (examples/plotting.py:167-178). -/
def triangulationImage {α : Type} (g : GridWorld K 2) (z : List α) : Except PyErr (ℕ → ℕ → Option α) := do
  let array ← reshape2 (g.num 0) (g.num 1) z
  return imshowUpper (g.num 1) array

/-- `xx, yy = np.meshgrid(p0, p1)` (default `indexing='xy'`): arrays with a row for each entry of `p1`, then `ax.plot_surface(xx, yy,
z.reshape(num_points))`: the vertices `(xx[i, j], yy[i, j], z[i, j])`; `ValueError` if the shapes `(n1, n0)` and `(n0, n1)` differ
(examples/reinforcement_learning_pendulum.ipynb:421-432, examples/reinforcement_learning_cartpole.ipynb:491-495). Simplified: the scaling of the
axes by `state_norm` is left out. -/
def gridSurface (g : GridWorld K 2) (z : List K) : Except PyErr (Set (K × K × K)) :=
  match reshape2 (g.num 0) (g.num 1) z with
  | .error e => .error e
  | .ok array =>
    let xx := fun _ j => (g.discretePoints 0).getD j 0
    let yy := fun i _ => (g.discretePoints 1).getD i 0
    if g.num 1 = g.num 0 ∧ g.num 0 = g.num 1 then
      .ok {v | ∃ i < g.num 0, ∃ j < g.num 1, ∃ h, array i j = some h ∧ v = (xx i j, yy i j, h)}
    else .error .valueError

/-- `pivot_state[d] = find_nearest(grid.discrete_points[d], pivot_state[d])[1]` for each `d`
(examples/reinforcement_learning_cartpole.ipynb:433-435). -/
def snapPivot (g : GridWorld K 4) (pivot : Fin 4 → K) (d : Fin 4) : K :=
  match findNearest (g.discretePoints d) (pivot d) true with
  | .ok (_, a) => a
  | .error _ => pivot d

/-- `grid.all_points[mask]` with the mask `(all_points[:, p[0]] == pivot_state[p[0]]) & (all_points[:, p[1]] == pivot_state[p[1]])`
(examples/reinforcement_learning_cartpole.ipynb:437-442, 447). -/
def planeStates (g : GridWorld K 4) (pivot : Fin 4 → K) (p : Fin 4 × Fin 4) : List (Fin 4 → K) :=
  g.allPoints.filter fun x => x p.1 = pivot p.1 && x p.2 = pivot p.2

/-- `skip = int(grid.num_points[0] / N_traj)` (examples/lyapunov_function_learning.ipynb:734,
examples/reinforcement_learning_pendulum.ipynb:741). -/
def trajectorySkip (n0 nTraj : ℕ) : ℕ := n0 / nTraj

/-- `a[::skip]` for an array: `ValueError` if the step is zero (examples/lyapunov_function_learning.ipynb:736). -/
def strided {α : Type} (skip : ℕ) (a : List α) : Except PyErr (List α) :=
  if skip = 0 then .error .valueError
  else .ok ((List.range ((a.length + skip - 1) / skip)).filterMap fun t => a[t * skip]?)

/-- `np.arange(grid.nindex).reshape(grid.num_points)[::skip, ::skip].ravel()` (examples/lyapunov_function_learning.ipynb:735-736,
examples/reinforcement_learning_pendulum.ipynb:742-743). -/
def subIndices (n0 n1 skip : ℕ) : Except PyErr (List ℕ) := do
  let rows := (List.range n0).map fun a => (List.range n1).map fun b => a * n1 + b
  let rows ← strided skip rows
  let rows ← rows.mapM (strided skip)
  return rows.flatten

end SafeLearning
