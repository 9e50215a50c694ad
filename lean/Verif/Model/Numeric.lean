import Mathlib.Algebra.Order.Floor.Ring
import Mathlib.Algebra.BigOperators.Fin
import Mathlib.Data.Fintype.BigOperators
import Mathlib.Data.Rat.Floor
set_option autoImplicit false

/-!
# Numpy primitives used by the library

Exact-arithmetic versions of the numpy calls that the modelled functions make.
-/

namespace SafeLearning

/-- Python exceptions raised by the modelled code, as values (`DimensionError` is safe_learning/functions.py:575-576,
`OptimizationError` safe_learning/reinforcement_learning.py:22-23). -/
inductive PyErr where
  | dimensionError   -- safe_learning.functions.DimensionError
  | valueError
  | typeError
  | indexError
  | keyError
  | attributeError
  | unboundLocal     -- UnboundLocalError / NameError
  | notImplemented
  | optimizationError
  deriving DecidableEq, Repr

variable {K : Type} [Field K] [LinearOrder K] [IsStrictOrderedRing K]

/-- `np.rint`: round to the nearest integer, ties to even
(numpy primitive used in safe_learning/functions.py:751). -/
def rint [FloorRing K] (x : K) : ℤ :=
  let f := ⌊x⌋
  if x - f < 1 / 2 then f
  else if 1 / 2 < x - f then f + 1
  else if f % 2 = 0 then f else f + 1

/-- `np.clip(x, lo, hi)` for a scalar
(numpy primitive used in safe_learning/functions.py:708, 749, 773, 1191). Simplification: for `lo > hi` the versions of numpy
differ, this is the value of newer ones. -/
def clip {α : Type*} [LinearOrder α] (x lo hi : α) : α := min (max x lo) hi

/-- `np.linspace(lo, up, n)`
(used in safe_learning/functions.py:612-614): `arange(n) * step + lo`, and the last
entry is overwritten by `up`. -/
def linspace (lo up : K) (n : ℕ) : List K :=
  (List.range n).map fun k : ℕ =>
    if k + 1 = n ∧ 1 < n then up else (k : K) * ((up - lo) / ((n : K) - 1)) + lo

/-- `np.digitize(x, bins)` for increasing `bins`: the number of bins `≤ x`
(used in safe_learning/functions.py:771). -/
def digitize (x : K) (bins : List K) : ℕ := bins.countP fun b => decide (b ≤ x)

/-- Product of the entries of a shape, `np.prod(shape)`
(safe_learning/functions.py:616-617). -/
def shapeProd {d : ℕ} (n : Fin d → ℕ) : ℕ := ∏ i, n i

/-- The arithmetic of `np.ravel_multi_index(idx, shape)` (C order), without the bounds check
(safe_learning/functions.py:752, 776, 816). -/
def ravel : {d : ℕ} → (n i : Fin d → ℕ) → ℕ
  | 0, _, _ => 0
  | _ + 1, n, i => i 0 * shapeProd (Fin.tail n) + ravel (Fin.tail n) (Fin.tail i)

/-- The arithmetic of `np.unravel_index(k, shape)` (C order), without the bounds check
(safe_learning/functions.py:729, 795, 814). Written from the most significant digit. -/
def unravel : {d : ℕ} → (n : Fin d → ℕ) → ℕ → Fin d → ℕ
  | 0, _, _ => Fin.elim0
  | _ + 1, n, k =>
    Fin.cons (k / shapeProd (Fin.tail n)) (unravel (Fin.tail n) (k % shapeProd (Fin.tail n)))

/-- `np.ravel_multi_index` with its default `mode='raise'`: `ValueError` if some index is out of
bounds (safe_learning/functions.py:752, 776, 816). -/
def ravelMultiIndex {d : ℕ} (n : Fin d → ℕ) (i : Fin d → ℤ) : Except PyErr ℕ :=
  if ∀ j, 0 ≤ i j ∧ i j < n j then .ok (ravel n fun j => (i j).toNat) else .error .valueError

/-- `np.unravel_index` with bounds check: `ValueError` if the index is out of bounds
(safe_learning/functions.py:729, 795, 814). -/
def unravelIndex {d : ℕ} (n : Fin d → ℕ) (k : ℤ) : Except PyErr (Fin d → ℕ) :=
  if 0 ≤ k ∧ k < shapeProd n then .ok (unravel n k.toNat) else .error .valueError

/-- `np.column_stack(col.ravel() for col in np.meshgrid(*axes, indexing='ij'))`:
the rows of the Cartesian product with the first axis slowest
(safe_learning/functions.py:634-635, safe_learning/lyapunov.py:49-50). -/
def meshIJ {α : Type*} : {d : ℕ} → (Fin d → List α) → List (Fin d → α)
  | 0, _ => [Fin.elim0]
  | _ + 1, axes =>
    (axes 0).flatMap fun x => (meshIJ (Fin.tail axes)).map fun r => Fin.cons x r

end SafeLearning
