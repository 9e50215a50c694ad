import Verif.Model.FloatGrid
import Verif.Model.Triangulation
set_option autoImplicit false

/-!
# Triangulations in floating point arithmetic (safe_learning/functions.py:692-712, 1002-1032, 1103-1226)

The same functions as in `Verif.Model.Triangulation`, with a rounding function after every arithmetic operation on floating
point numbers. The location of a point rounds with `fl`, the weights and the sum of the values round with `flw`, so
that the effect of the two can be studied separately. Overflow, underflow, NaN and infinities are not modelled. The remainder
`%` of positive numbers does not round (it is computed by `fmod`, whose result is a floating point number). Sums are computed from left to right. The
`hyperplanes` of the instance are given: the rounding of `np.linalg.inv` is not modelled. `find_simplex` of the
external library is given.
-/

namespace SafeLearning

variable {K : Type} [Field K] [LinearOrder K] [IsStrictOrderedRing K] {d o : ℕ}

/-- `_center_states` with clipping (safe_learning/functions.py:692-712); the limits `offset_limits` are computed on
lines 607-609. -/
def GridWorld.flCenterStates (g : GridWorld K d) (fl : K → K) (eps : K) (x : Fin d → K) (i : Fin d) : K :=
  clip (fl (x i - g.lo i)) (fl (0 + 2 * eps)) (fl (fl (g.hi i - g.lo i) - 2 * eps))

/-- The points given to the triangulation, in floating point arithmetic (safe_learning/functions.py:1015-1021). -/
def flCornerPoints (g : GridWorld K d) (fl : K → K) : List (Fin d → K) :=
  if d = 1 then [fun _ => 0, g.flUnit fl]
  else meshIJ fun i => (List.finRange d).map fun j => if i = j then g.flUnit fl i else 0

/-- A sum with rounding, from left to right (`np.sum`, safe_learning/functions.py:1197, 1200, 1226). -/
def flSum (fl : K → K) (xs : List K) : K := xs.foldl (fun acc x => fl (acc + x)) 0

namespace Tri

variable (t : Tri K d) (fl flw : K → K)

/-- `unit_coordinates` (safe_learning/functions.py:1120-1123). -/
def flUnitCoordinates [FloorRing K] (eps : K) (x : Fin d → K) (i : Fin d) : K :=
  pyMod (t.disc.flCenterStates fl eps x i) (t.disc.flUnit fl i)

/-- `find_simplex` for one point (safe_learning/functions.py:1103-1130). -/
def flFindSimplex [FloorRing K] (eps : K) (x : Fin d → K) : Except PyErr ℤ := do
  let rectangle ← t.disc.flStateToRectangle fl x
  let simplexId := t.triangulation.find (t.flUnitCoordinates fl eps x)
  return simplexId + rectangle * t.triangulation.nsimplex

/-- `_get_weights` for one point (safe_learning/functions.py:1160-1202). -/
def flGetWeights [FloorRing K] (eps : K) (x : Fin d → K) :
    Except PyErr ((Fin (d + 1) → K) × (Fin (d + 1) → ℕ)) := do
  let simplexId ← t.flFindSimplex fl eps x
  let simplex ← t.simplices simplexId
  let origin ← t.disc.flIndexToState flw (simplex 0)
  let hyper ← rowAt t.hyperplanes (simplexId % (t.triangulation.nsimplex : ℤ)).toNat
  let point := t.projected x
  let w1 : Fin d → K := fun j => flSum flw (List.ofFn fun i => flw (flw (point i - origin i) * hyper i j))
  return (Fin.cons (flw (1 - flSum flw (List.ofFn w1))) w1, simplex)

/-- `build_evaluation` for one point (safe_learning/functions.py:1204-1226). -/
def flEvaluate [FloorRing K] (eps : K) (params : List (Fin o → K)) (x : Fin d → K) :
    Except PyErr (Fin o → K) := do
  let (weights, simplex) ← t.flGetWeights fl flw eps x
  let values ← traverseFin fun j => rowAt params (simplex j)
  return fun l => flSum flw (List.ofFn fun j => flw (weights j * values j l))

end Tri

end SafeLearning
