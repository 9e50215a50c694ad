import Mathlib.Algebra.Order.Floor.Ring
import Mathlib.Algebra.BigOperators.Fin
import Mathlib.Order.Interval.Finset.Fin
set_option autoImplicit false

/-! # Specification of regular grids (independent of the model) -/

namespace Spec

variable {K : Type} [Field K]

/-- The `j`-th of `n` equally spaced values from `lo` to `hi`. -/
def axisPoint (lo hi : K) (n j : ℕ) : K := lo + (j : K) * ((hi - lo) / ((n : K) - 1))

/-- The row-major (C order) number of a multi-index. -/
def rowMajor {d : ℕ} (n ijk : Fin d → ℕ) : ℕ := ∑ j, ijk j * ∏ l ∈ Finset.Ioi j, n l

/-- `x` is the grid point of the grid `(lo, hi, n)` with row-major number `k`. -/
def IsGridPoint {d : ℕ} (lo hi : Fin d → K) (n : Fin d → ℕ) (k : ℕ) (x : Fin d → K) : Prop :=
  ∃ ijk : Fin d → ℕ, (∀ i, ijk i < n i) ∧ k = rowMajor n ijk ∧
    ∀ i, x i = axisPoint (lo i) (hi i) (n i) (ijk i)

/-- `x` clipped to the box `[lo, hi]`. -/
def clipBox [LinearOrder K] {d : ℕ} (lo hi x : Fin d → K) (i : Fin d) : K :=
  if x i < lo i then lo i else if hi i < x i then hi i else x i

/-- `x` is a grid point with at least one coordinate at its lower or upper limit. -/
def IsBoundaryPoint {d : ℕ} (lo hi : Fin d → K) (n : Fin d → ℕ) (x : Fin d → K) : Prop :=
  (∀ i, ∃ j < n i, x i = axisPoint (lo i) (hi i) (n i) j) ∧ ∃ i, x i = lo i ∨ x i = hi i

end Spec
