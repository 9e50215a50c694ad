import Verif.Model.Numeric
import Mathlib.Data.List.Sort
set_option autoImplicit false

/-!
# Model of the array helpers of the examples (examples/utilities.py)

`find_nearest`, `balanced_confusion_weights`, `balanced_class_weights`, `monomials` and `derivative_monomials`.
-/

namespace SafeLearning

variable {K : Type} [Field K] [LinearOrder K] [IsStrictOrderedRing K]

/-! ## `find_nearest` -/

/-- The binary search of `np.searchsorted(array, value, side='left')` (used in examples/utilities.py:707): the part of the
array from `lo` up to, not including, `hi` is searched. `fuel` bounds the number of halvings. -/
def bisectLeft (array : List K) (value : K) : (fuel lo hi : ℕ) → ℕ
  | 0, lo, _ => lo
  | fuel + 1, lo, hi =>
    if lo < hi then
      let mid := lo + (hi - lo) / 2
      if array.getD mid 0 < value then bisectLeft array value fuel (mid + 1) hi
      else bisectLeft array value fuel lo mid
    else lo

/-- `np.searchsorted(array, value, side='left')` (used in examples/utilities.py:707). -/
def searchsorted (array : List K) (value : K) : ℕ := bisectLeft array value array.length 0 array.length

/-- `find_nearest` (examples/utilities.py:703-710) for one-dimensional arrays. -/
def findNearest (array : List K) (value : K) (sorted1d : Bool) : Except PyErr (ℕ × K) :=
  let array := if sorted1d then array else array.insertionSort (· ≤ ·)
  let idx := searchsorted array value
  let idx := if 0 < idx ∧ (idx = array.length ∨
      |value - array.getD (idx - 1) 0| < |value - array.getD idx 0|) then idx - 1 else idx
  match array[idx]? with
  | some a => .ok (idx, a)
  | none => .error .indexError

/-! ## Balanced weights -/

/-- `balanced_class_weights` (examples/utilities.py:737-750): the weights and `class_counts`. The divisions only concern
the samples of the class, so an empty class divides nothing by zero. -/
def balancedClassWeights (yTrue : List Bool) (scaleByTotal : Bool) : List K × List ℕ :=
  let nP := yTrue.countP id
  let nN := yTrue.length - nP
  let weights : List K := yTrue.map fun y => if y then 1 / (nP : K) else 1 / (nN : K)
  let weights := if scaleByTotal then weights.map fun w => w * (yTrue.length : K) else weights
  (weights, [nN, nP])

/-- `balanced_confusion_weights` (examples/utilities.py:713-734): the weights and `confusion_counts`. Arrays of different
lengths cannot be combined (broadcasting of a single label is left out). -/
def balancedConfusionWeights (y yTrue : List Bool) (scaleByTotal : Bool) :
    Except PyErr (List K × List (List ℕ)) :=
  if y.length ≠ yTrue.length then .error .valueError else
  let both := y.zip yTrue
  let tp := both.countP fun b => b.1 && b.2
  let tn := both.countP fun b => !b.1 && !b.2
  let fp := both.countP fun b => b.1 && !b.2
  let fn := both.countP fun b => !b.1 && b.2
  let weights : List K := both.map fun b =>
    if b.1 && b.2 then 1 / (tp : K)
    else if !b.1 && !b.2 then 1 / (tn : K)
    else if b.1 && !b.2 then 1 / (fp : K)
    else 1 / (fn : K)
  let weights := if scaleByTotal then weights.map fun w => w * (y.length : K) else weights
  .ok (weights, [[tn, fn], [fp, tp]])

/-! ## Monomials -/

/-- One row of `monomials` (examples/utilities.py:756-782) for a point with at least two coordinates; `x` and `y` are the
first two. -/
def monomialsRow (point : List K) (x y : K) (deg : ℤ) : List K :=
  let z := point
  let z := if 2 ≤ deg then z ++ [x ^ 2, x * y, y ^ 2] else z
  let z := if 3 ≤ deg then z ++ [x ^ 3, x ^ 2 * y, x * y ^ 2, y ^ 3] else z
  if 4 ≤ deg then z ++ [x ^ 4, x ^ 3 * y, x ^ 2 * y ^ 2, x * y ^ 3, y ^ 4] else z

/-- `monomials` (examples/utilities.py:753-782): `x[:, 1]` raises `IndexError` if the points have fewer than two
coordinates. -/
def monomials {dim : ℕ} (xs : List (Fin dim → K)) (deg : ℤ) : Except PyErr (List (List K)) :=
  if h : 2 ≤ dim then
    .ok (xs.map fun x => monomialsRow (List.ofFn x) (x ⟨0, by omega⟩) (x ⟨1, by omega⟩) deg)
  else if 2 ≤ deg then .error .indexError
  else .ok (xs.map fun x => List.ofFn x)

/-- One row of `derivative_monomials` (examples/utilities.py:789-811): for every feature the derivatives with respect to the
first two coordinates; the derivatives with respect to the others are zero. -/
def derivativeMonomialsRow (x y : K) (deg : ℤ) : List (K × K) :=
  let z := [(1, 0), (0, 1)]
  let z := if 2 ≤ deg then z ++ [(2 * x, 0), (y, x), (0, 2 * y)] else z
  if 3 ≤ deg then z ++ [(3 * x ^ 2, 0), (2 * x * y, x ^ 2), (y ^ 2, 2 * x * y), (0, 3 * y ^ 2)] else z

/-- `derivative_monomials` (examples/utilities.py:785-811): a list of points, features and coordinates. Line 792 raises
`IndexError` if the points have fewer than two coordinates. -/
def derivativeMonomials {dim : ℕ} (xs : List (Fin dim → K)) (deg : ℤ) :
    Except PyErr (List (List (Fin dim → K))) :=
  if h : 2 ≤ dim then
    .ok (xs.map fun x => (derivativeMonomialsRow (x ⟨0, by omega⟩) (x ⟨1, by omega⟩) deg).map fun g k =>
      if k.val = 0 then g.1 else if k.val = 1 then g.2 else 0)
  else .error .indexError

end SafeLearning
