import Verif.Model.Grid
import Mathlib.Data.Int.Log
set_option autoImplicit false

/-!
# `GridWorld` in floating point and machine integer arithmetic (safe_learning/functions.py:579-817)

The same functions as in `Verif.Model.Grid`, with a rounding function `fl` after every arithmetic operation on floating
point numbers. Overflow, underflow, NaN and infinities are not modelled. Comparisons, `np.clip`, `np.rint` and
`np.digitize` do not round. The integers `num_points - 1` and the multi-indices are converted to floating point numbers without
rounding (they are below `2 ^ 53`).
-/

namespace SafeLearning

variable {K : Type} [Field K] [LinearOrder K] [IsStrictOrderedRing K]

/-- Rounding to the nearest binary floating point number with `p` significant bits, ties to even, with unbounded exponents;
`p = 53` is `np.float64` (safe_learning/configuration.py:16, 21-24). -/
def roundBinary (p : ℕ) (x : ℚ) : ℚ :=
  if x = 0 then 0 else
    let e : ℤ := Int.log 2 |x| + 1 - p
    (rint (x / (2 : ℚ) ^ e) : ℚ) * (2 : ℚ) ^ e

/-- `np.prod` of machine integers with 64 bits: the product wraps around
(safe_learning/functions.py:616-617). -/
def int64Prod (ns : List ℤ) : ℤ := ns.foldl (fun acc n => Int.bmod (acc * n) (2 ^ 64)) 1

namespace GridWorld

variable {d : ℕ} (g : GridWorld K d) (fl : K → K)

/-- `unit_maxes` (safe_learning/functions.py:605-606). -/
def flUnit (i : Fin d) : K := fl (fl (g.hi i - g.lo i) / ((g.num i : K) - 1))

/-- One coordinate of the formula on lines 731 and 798 for a multi-index (safe_learning/functions.py:728-731, 798). -/
def flIjkToState (ijk : Fin d → ℕ) (i : Fin d) : K := fl (fl ((ijk i : K) * g.flUnit fl i) + g.lo i)

/-- `index_to_state` for one index (safe_learning/functions.py:714-731). -/
def flIndexToState (k : ℤ) : Except PyErr (Fin d → K) := do
  let ijk ← unravelIndex g.num k
  return g.flIjkToState fl ijk

/-- `(states - self.offset) * (1. / self.unit_maxes)` after clipping (safe_learning/functions.py:749-750). -/
def flScaled (x : Fin d → K) (i : Fin d) : K :=
  fl (fl (clip (x i) (g.lo i) (g.hi i) - g.lo i) * fl (1 / g.flUnit fl i))

/-- `state_to_index` for one state (safe_learning/functions.py:733-752). `int32` is the conversion of the rounded numbers on
line 751; it is the identity on the numbers that 32 bits can represent. -/
def flStateToIndex [FloorRing K] (int32 : ℤ → ℤ) (x : List K) : Except PyErr ℕ := do
  let x ← checkDimensions (d := d) x
  ravelMultiIndex g.num fun i => int32 (rint (g.flScaled fl x i))

/-- `discrete_points[i]`: `np.linspace` computes `arange(n) * step + start` with `step = (stop - start) / (n - 1)` and
overwrites the last entry by `stop` (safe_learning/functions.py:612-614). -/
def flDiscretePoints (i : Fin d) : List K :=
  (List.range (g.num i)).map fun k : ℕ =>
    if k + 1 = g.num i then g.hi i else fl (fl ((k : K) * g.flUnit fl i) + g.lo i)

/-- `all_points` (safe_learning/functions.py:622-638). -/
def flAllPoints : List (Fin d → K) := meshIJ (g.flDiscretePoints fl)

/-- `state_to_rectangle` for one state (safe_learning/functions.py:754-776). -/
def flStateToRectangle (x : Fin d → K) : Except PyErr ℕ :=
  ravelMultiIndex g.numRect fun i =>
    clip ((digitize (x i) (g.flDiscretePoints fl i) : ℤ) - 1) 0 ((g.num i : ℤ) - 2)

/-- `rectangle_to_state` for one rectangle (safe_learning/functions.py:778-798). -/
def flRectangleToState (r : ℤ) : Except PyErr (Fin d → K) := do
  let ijk ← unravelIndex g.numRect r
  return g.flIjkToState fl ijk

/-- `nindex` and `__len__` (safe_learning/functions.py:617, 640-642). -/
def machineNindex : ℤ := int64Prod (List.ofFn fun i => (g.num i : ℤ))

/-- `nrectangles` (safe_learning/functions.py:616). -/
def machineNrectangles : ℤ := int64Prod (List.ofFn fun i => (g.num i : ℤ) - 1)

end GridWorld

end SafeLearning
