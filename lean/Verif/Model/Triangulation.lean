import Verif.Model.PiecewiseConstant
import Mathlib.LinearAlgebra.Matrix.NonsingularInverse
set_option autoImplicit false

/-!
# Model of `_Delaunay1D`, `_Triangulation` and `Triangulation`
(safe_learning/functions.py:935-1510)
-/

namespace SafeLearning

variable {K : Type} [Field K] [LinearOrder K] [IsStrictOrderedRing K] {d o : ℕ}

/-- What the code uses of a `scipy.spatial.Delaunay` object: the simplices (rows of indices into its points) and
the function `find_simplex` (safe_learning/functions.py:1014-1022, 1080, 1124). -/
structure Delaunay (K : Type) (d : ℕ) where
  simplices : List (Fin (d + 1) → ℕ)
  find : (Fin d → K) → ℤ

/-- `nsimplex` (safe_learning/functions.py:955, 1025). -/
def Delaunay.nsimplex (D : Delaunay K d) : ℕ := D.simplices.length

/-- `_Delaunay1D(corners)` for two corners `a` and `b` (safe_learning/functions.py:935-978). -/
def delaunay1D (a b : K) : Delaunay K 1 where
  simplices := [![0, 1]]
  find y := if max a b < y 0 ∨ y 0 < min a b then -1 else 0

/-- The points given to the triangulation: for one dimension `[[0], unit_maxes]`, otherwise the products of the rows of
`np.diag(unit_maxes)`; the latter contain repetitions for more than two dimensions
(safe_learning/functions.py:1015-1021). -/
def cornerPoints (g : GridWorld K d) : List (Fin d → K) :=
  if d = 1 then [fun _ => 0, g.unit]
  else meshIJ fun i => (List.finRange d).map fun j => if i = j then g.unit i else 0

/-- `index_mapping` (safe_learning/functions.py:1083-1085). -/
def indexMapping [FloorRing K] (g : GridWorld K d) : Except PyErr (List ℕ) :=
  (cornerPoints g).mapM fun p => g.stateToIndex (List.ofFn fun i => p i + g.lo i)

/-- The `_Triangulation` instance (safe_learning/functions.py:1002-1032), without the parameters. -/
structure Tri (K : Type) (d : ℕ) where
  disc : GridWorld K d
  triangulation : Delaunay K d
  unitSimplices : List (Fin (d + 1) → ℕ)
  hyperplanes : List (Matrix (Fin d) (Fin d) K)
  project : Bool

/-- The hyperplane matrix of one simplex; `LinAlgError` (here `valueError`) for a singular matrix
(safe_learning/functions.py:1098-1101). -/
noncomputable def hyperplane (g : GridWorld K d) (simplex : Fin (d + 1) → ℕ) :
    Except PyErr (Matrix (Fin d) (Fin d) K) := do
  let pts ← traverseFin fun j => g.indexToState (simplex j)
  let edges : Matrix (Fin d) (Fin d) K := fun j i => pts j.succ i - pts 0 i
  if edges.det = 0 then .error .valueError else return edges⁻¹

/-- `_Triangulation.__init__` (safe_learning/functions.py:1002-1032, 1064-1101), with the result `D` of the Delaunay
triangulation of the corner points. Entries that are not the index of a point stay uninitialised in the
code; they are 0 here. -/
noncomputable def Tri.new [FloorRing K] (g : GridWorld K d) (D : Delaunay K d) (project : Bool) :
    Except PyErr (Tri K d) := do
  let mapping ← indexMapping g
  let unit := D.simplices.map fun s j => mapping.getD (s j) 0
  let hyper ← unit.mapM (hyperplane g)
  return { disc := g, triangulation := D, unitSimplices := unit, hyperplanes := hyper,
           project := project }

/-- `x % u` of numpy for positive `u` (safe_learning/functions.py:1123). -/
def pyMod [FloorRing K] (x u : K) : K := x - (⌊x / u⌋ : ℤ) * u

namespace Tri

variable (t : Tri K d)

/-- `unit_coordinates` (safe_learning/functions.py:1120-1123). -/
def unitCoordinates [FloorRing K] (eps : K) (x : Fin d → K) (i : Fin d) : K :=
  pyMod (t.disc.centerStates eps true x i) (t.disc.unit i)

/-- `find_simplex` for one point (safe_learning/functions.py:1103-1130). -/
def findSimplex [FloorRing K] (eps : K) (x : Fin d → K) : Except PyErr ℤ := do
  let rectangle ← t.disc.stateToRectangle x
  let simplexId := t.triangulation.find (t.unitCoordinates eps x)
  return simplexId + rectangle * t.triangulation.nsimplex

/-- `simplices` for one index (safe_learning/functions.py:1132-1158). -/
def simplices (index : ℤ) : Except PyErr (Fin (d + 1) → ℕ) := do
  let unitIndex := index % (t.triangulation.nsimplex : ℤ)
  let simplex ← rowAt t.unitSimplices unitIndex.toNat
  let rectangle := index / (t.triangulation.nsimplex : ℤ)
  let cornerIndex ← t.disc.rectangleCornerIndex rectangle
  return fun j => simplex j + cornerIndex

/-- The clipping on line 1191 (safe_learning/functions.py:1190-1191). -/
def projected (x : Fin d → K) : Fin d → K :=
  if t.project then fun i => clip (x i) (t.disc.lo i) (t.disc.hi i) else x

/-- `_get_weights` for one point (safe_learning/functions.py:1160-1202). -/
def getWeights [FloorRing K] (eps : K) (x : Fin d → K) :
    Except PyErr ((Fin (d + 1) → K) × (Fin (d + 1) → ℕ)) := do
  let simplexId ← t.findSimplex eps x
  let simplex ← t.simplices simplexId
  let origin ← t.disc.indexToState (simplex 0)
  let hyper ← rowAt t.hyperplanes (simplexId % (t.triangulation.nsimplex : ℤ)).toNat
  let point := t.projected x
  let w1 : Fin d → K := fun j => ∑ i, (point i - origin i) * hyper i j
  return (Fin.cons (1 - ∑ j, w1 j) w1, simplex)

/-- `build_evaluation` for one point (safe_learning/functions.py:1204-1226). -/
def evaluate [FloorRing K] (eps : K) (params : List (Fin o → K)) (x : Fin d → K) :
    Except PyErr (Fin o → K) := do
  let (weights, simplex) ← t.getWeights eps x
  let values ← traverseFin fun j => rowAt params (simplex j)
  return fun l => ∑ j, weights j * values j l

/-- The entries of one point: weights, row and columns (safe_learning/functions.py:1251-1257). -/
def weightEntries (r : ℕ) (w : (Fin (d + 1) → K) × (Fin (d + 1) → ℕ)) : List (K × ℕ × ℕ) :=
  (List.finRange (d + 1)).map fun j => (w.1 j, r, w.2 j)

/-- `parameter_derivative` (safe_learning/functions.py:1228-1258). -/
def parameterDerivative [FloorRing K] (eps : K) (points : List (Fin d → K)) :
    Except PyErr (Coo K) := do
  let ws ← points.mapM (t.getWeights eps)
  return { nrows := points.length, ncols := t.disc.nindex,
           entries := ((List.range points.length).zipWith weightEntries ws).flatten }

/-- `_get_weights_gradient` for one simplex index (safe_learning/functions.py:1261-1300): row `i` belongs to the
derivative in dimension `i`. -/
def weightsGradientAt (simplexId : ℤ) :
    Except PyErr ((Fin d → Fin (d + 1) → K) × (Fin (d + 1) → ℕ)) := do
  let simplex ← t.simplices simplexId
  let hyper ← rowAt t.hyperplanes (simplexId % (t.triangulation.nsimplex : ℤ)).toNat
  return (fun i => Fin.cons (-∑ j, hyper i j) (hyper i), simplex)

/-- `_get_weights_gradient(points, indices)` (safe_learning/functions.py:1261-1300): the points if there are no indices,
the indices if there are no points, otherwise `TypeError`. -/
def getWeightsGradient [FloorRing K] (eps : K) (points : Option (List (Fin d → K)))
    (indices : Option (List ℤ)) :
    Except PyErr (List ((Fin d → Fin (d + 1) → K) × (Fin (d + 1) → ℕ))) := do
  let ids ← match points, indices with
    | none, some ids => .ok ids
    | some ps, none => ps.mapM (t.findSimplex eps)
    | _, _ => .error .typeError
  ids.mapM t.weightsGradientAt

/-- `gradient` for one point (safe_learning/functions.py:1302-1326), as a function of the output and the dimension; the
squeezing of a single output is not modelled. -/
def gradient [FloorRing K] (eps : K) (params : List (Fin o → K)) (x : Fin d → K) :
    Except PyErr (Fin o → Fin d → K) := do
  let simplexId ← t.findSimplex eps x
  let (weights, simplex) ← t.weightsGradientAt simplexId
  let values ← traverseFin fun j => rowAt params (simplex j)
  return fun l i => ∑ j, weights i j * values j l

/-- The entries of one point: the rows `r * d + i` hold the derivatives in dimension `i`
(safe_learning/functions.py:1363-1366). -/
def gradientEntries (r : ℕ) (w : (Fin d → Fin (d + 1) → K) × (Fin (d + 1) → ℕ)) :
    List (K × ℕ × ℕ) :=
  (List.finRange d).flatMap fun i =>
    (List.finRange (d + 1)).map fun j => (w.1 i j, r * d + i.1, w.2 j)

/-- `gradient_parameter_derivative` (safe_learning/functions.py:1328-1369). -/
def gradientParameterDerivative [FloorRing K] (eps : K) (points : Option (List (Fin d → K)))
    (indices : Option (List ℤ)) : Except PyErr (Coo K) := do
  let ws ← t.getWeightsGradient eps points indices
  return { nrows := d * ws.length, ncols := t.disc.nindex,
           entries := ((List.range ws.length).zipWith gradientEntries ws).flatten }

/-- `gradient_parameter_derivative(indices=array)` for an integer array, with the content of the caller's array afterwards:
`np.atleast_1d` returns the array itself, and `simplex_ids %= nsimplex` works in place
(safe_learning/functions.py:1279, 1287, 1349). -/
def gradientParameterDerivativeOnArray [FloorRing K] (eps : K) (array : List ℤ) :
    Except PyErr (Coo K × List ℤ) := do
  let B ← t.gradientParameterDerivative eps none (some array)
  return (B, array.map fun k => k % (t.triangulation.nsimplex : ℤ))

/-- `Triangulation._get_hyperplanes` for one point (safe_learning/functions.py:1442-1471). -/
def tfGetHyperplanes [FloorRing K] (eps : K) (x : Fin d → K) :
    Except PyErr ((Fin d → K) × Matrix (Fin d) (Fin d) K × (Fin (d + 1) → ℕ)) := do
  let simplexId ← t.findSimplex eps x
  let simplex ← t.simplices simplexId
  let origin ← t.disc.indexToState (simplex 0)
  let hyper ← rowAt t.hyperplanes (simplexId % (t.triangulation.nsimplex : ℤ)).toNat
  return (origin, hyper, simplex)

/-- `Triangulation.build_evaluation` for one point (safe_learning/functions.py:1473-1499). The clipping is written with
`tf.minimum` and `tf.maximum`. -/
def tfEvaluate [FloorRing K] (eps : K) (params : List (Fin o → K)) (x : Fin d → K) :
    Except PyErr (Fin o → K) := do
  let (origin, hyper, simplex) ← t.tfGetHyperplanes eps x
  let point : Fin d → K := fun i =>
    if t.project then min (max (x i) (t.disc.lo i)) (t.disc.hi i) else x i
  let w1 : Fin d → K := fun j => ∑ i, (point i - origin i) * hyper i j
  let w0 := 1 - ∑ j, w1 j
  let values ← traverseFin fun j => rowAt params (simplex j)
  return fun l => w0 * values 0 l + ∑ j : Fin d, w1 j * values j.succ l

/-- `Triangulation.gradient` for one point (safe_learning/functions.py:1501-1510): sets the parameters of the numpy object to the value of the
variable and calls its `gradient`. -/
def tfGradient [FloorRing K] (eps : K) (params : List (Fin o → K)) (x : Fin d → K) :
    Except PyErr (Fin o → Fin d → K) := t.gradient eps params x

/-- `Saturation(triangulation, lower, upper)` at one point (safe_learning/functions.py:349-354), with bounds for every output. -/
def saturatedEvaluate [FloorRing K] (eps : K) (params : List (Fin o → K)) (lower upper : Fin o → K)
    (x : Fin d → K) : Except PyErr (Fin o → K) := do
  let res ← t.tfEvaluate eps params x
  return fun l => min (max (res l) (lower l)) (upper l)

/-- `Saturation(triangulation, lower, upper).gradient`: `setattr` copies the bound method of the wrapped function, hence the bounds are not used
(safe_learning/functions.py:333-337). -/
def saturatedGradient [FloorRing K] (eps : K) (params : List (Fin o → K)) (_lower _upper : Fin o → K)
    (x : Fin d → K) : Except PyErr (Fin o → Fin d → K) := t.tfGradient eps params x

end Tri

end SafeLearning
