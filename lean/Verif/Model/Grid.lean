import Verif.Model.Numeric
set_option autoImplicit false

/-!
# Model of `GridWorld` (safe_learning/functions.py:579-817)
-/

namespace SafeLearning

variable {K : Type} [Field K] [LinearOrder K] [IsStrictOrderedRing K]

/-- The attributes `limits` and `num_points` of a `GridWorld` instance of dimension `ndim = d`
(safe_learning/functions.py:595-597, 619). All other attributes are computed from these two. -/
structure GridWorld (K : Type) (d : ℕ) where
  /-- `limits[:, 0]`, also `offset` (line 604) -/
  lo : Fin d → K
  /-- `limits[:, 1]` -/
  hi : Fin d → K
  /-- `num_points` -/
  num : Fin d → ℕ

/-- The `num_points` argument: an integer or a sequence of integers
(safe_learning/functions.py:591, 596). -/
inductive NumPoints where
  | scalar (n : ℤ)
  | seq (ns : List ℤ)

/-- `np.broadcast_to(num_points, d)` (safe_learning/functions.py:596). -/
def NumPoints.broadcast (d : ℕ) : NumPoints → Except PyErr (Fin d → ℤ)
  | .scalar n => .ok fun _ => n
  | .seq [n] => .ok fun _ => n
  | .seq ns => if h : ns.length = d then .ok fun i => ns[i]'(h ▸ i.2) else .error .valueError

namespace GridWorld

/-- `GridWorld.__init__` (safe_learning/functions.py:591-620): broadcasts `num_points` and raises
`DimensionError` if some dimension has fewer than two points. The limits are not validated. -/
def new {d : ℕ} (lo hi : Fin d → K) (np : NumPoints) : Except PyErr (GridWorld K d) := do
  let num ← np.broadcast d
  if ∃ i, num i < 2 then .error .dimensionError
  else .ok { lo, hi, num := fun i => (num i).toNat }

variable {d : ℕ} (g : GridWorld K d)

/-- `unit_maxes` (safe_learning/functions.py:605-606). -/
def unit (i : Fin d) : K := (g.hi i - g.lo i) / ((g.num i : K) - 1)

/-- `discrete_points` (safe_learning/functions.py:612-614). -/
def discretePoints (i : Fin d) : List K := linspace (g.lo i) (g.hi i) (g.num i)

/-- `num_points - 1`, the shape of the grid of rectangles
(safe_learning/functions.py:616, 776, 796, 815). -/
def numRect (i : Fin d) : ℕ := g.num i - 1

/-- `nrectangles` (safe_learning/functions.py:616). -/
def nrectangles : ℕ := shapeProd g.numRect

/-- `nindex` and `__len__` (safe_learning/functions.py:617, 640-642). -/
def nindex : ℕ := shapeProd g.num

/-- `all_points` (safe_learning/functions.py:622-638); the memoisation in `_all_points` is
invisible. -/
def allPoints : List (Fin d → K) := meshIJ g.discretePoints

/-- `sample_continuous` for one sample, given the outcome `r` of `np.random.uniform(0, 1)`
(safe_learning/functions.py:644-659). -/
def sampleContinuous (r : Fin d → K) (i : Fin d) : K := r i * (g.hi i - g.lo i) + g.lo i

/-- The formula on line 731 for a multi-index (safe_learning/functions.py:728-731). -/
def ijkToState (ijk : Fin d → ℕ) (i : Fin d) : K := (ijk i : K) * g.unit i + g.lo i

/-- `index_to_state` for one index (safe_learning/functions.py:714-731). -/
def indexToState (k : ℤ) : Except PyErr (Fin d → K) := do
  let ijk ← unravelIndex g.num k
  return g.ijkToState ijk

/-- `sample_discrete` for one sample, given the outcome `k` of `np.random.choice(nindex)`
(safe_learning/functions.py:661-677). -/
def sampleDiscrete (k : ℤ) : Except PyErr (Fin d → K) := g.indexToState k

/-- Coordinate `i` of the rounded multi-index on lines 749-751
(safe_learning/functions.py:749-751). -/
def stateToIjk [FloorRing K] (x : Fin d → K) (i : Fin d) : ℤ :=
  rint ((clip (x i) (g.lo i) (g.hi i) - g.lo i) * (1 / g.unit i))

/-- `_check_dimensions` followed by viewing the row as a vector
(safe_learning/functions.py:679-689). -/
def checkDimensions {d : ℕ} (x : List K) : Except PyErr (Fin d → K) :=
  if h : x.length = d then .ok fun i => x[i]'(h ▸ i.2) else .error .dimensionError

/-- `state_to_index` for one state (a row of any length)
(safe_learning/functions.py:733-752). -/
def stateToIndex [FloorRing K] (x : List K) : Except PyErr ℕ := do
  let x ← checkDimensions (d := d) x
  ravelMultiIndex g.num (g.stateToIjk x)

/-- Coordinate `i` of the rectangle index, lines 771-773
(safe_learning/functions.py:771-773). -/
def stateToRectIjk (x : Fin d → K) (i : Fin d) : ℤ :=
  clip ((digitize (x i) (g.discretePoints i) : ℤ) - 1) 0 ((g.num i : ℤ) - 2)

/-- `state_to_rectangle` for one state (safe_learning/functions.py:754-776). The code does not
check the dimension here; the model takes a row of the right dimension. -/
def stateToRectangle (x : Fin d → K) : Except PyErr ℕ :=
  ravelMultiIndex g.numRect (g.stateToRectIjk x)

/-- `rectangle_to_state` for one rectangle (safe_learning/functions.py:778-798). -/
def rectangleToState (r : ℤ) : Except PyErr (Fin d → K) := do
  let ijk ← unravelIndex g.numRect r
  return g.ijkToState ijk

/-- `rectangle_corner_index` for one rectangle (safe_learning/functions.py:800-817). -/
def rectangleCornerIndex (r : ℤ) : Except PyErr ℕ := do
  let ijk ← unravelIndex g.numRect r
  ravelMultiIndex g.num fun i => (ijk i : ℤ)

/-- `_center_states` for one state (safe_learning/functions.py:691-712); `eps` is `_EPS`
(line 28). `offset_limits[:, 0]` is zero, `offset_limits[:, 1]` is `hi - lo` (lines 607-609). -/
def centerStates (eps : K) (doClip : Bool) (x : Fin d → K) (i : Fin d) : K :=
  let s := x i - g.lo i
  if doClip then clip s (0 + 2 * eps) (g.hi i - g.lo i - 2 * eps) else s

end GridWorld

end SafeLearning
