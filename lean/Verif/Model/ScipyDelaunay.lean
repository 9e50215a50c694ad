import Verif.Model.Grid
import Mathlib.Logic.Equiv.Basic
set_option autoImplicit false

/-!
# Model of `ScipyDelaunay` (safe_learning/functions.py:549-572)

`scipy.spatial.Delaunay` itself is not modelled, only the points that are handed to it.
-/

namespace SafeLearning

variable {K : Type} [Field K] [LinearOrder K] [IsStrictOrderedRing K]

/-- `np.array([par.ravel() for par in np.meshgrid(*params)]).T` (safe_learning/functions.py:570-571): with the default `indexing='xy'` the first two
axes are swapped, so the second array is the slowest, then come the first, the third and so on. -/
def meshXY {α : Type} {k : ℕ} (axes : Fin (k + 2) → List α) : List (Fin (k + 2) → α) :=
  (meshIJ fun i => axes (Equiv.swap 0 1 i)).map fun r j => r (Equiv.swap 0 1 j)

/-- `np.linspace(limit[0], limit[1], n)` for one entry of the `zip` (safe_learning/functions.py:568-569). -/
def scipyAxis : Option ((K × K) × ℤ) → List K
  | some p => linspace p.1.1 p.1.2 p.2.toNat
  | none => []

/-- The points of `ScipyDelaunay(limits, num_points)` (safe_learning/functions.py:565-572). `zip` needs a sequence and drops what has no partner; `linspace` rejects
negative numbers; `scipy.spatial.Delaunay` rejects points of fewer than two dimensions (`ValueError`). Simplification: what Qhull does with too few points is not
modelled. -/
def scipyPoints (limits : List (K × K)) (np : NumPoints) : Except PyErr (List (List K)) :=
  match np with
  | .scalar _ => .error .typeError
  | .seq ns =>
    let params := limits.zip ns
    if ∃ p ∈ params, p.2 < 0 then .error .valueError
    else
      match params.length with
      | 0 => .error .valueError
      | 1 => .error .valueError
      | k + 2 =>
        .ok ((meshXY (k := k) fun i => scipyAxis params[i.1]?).map List.ofFn)

end SafeLearning
