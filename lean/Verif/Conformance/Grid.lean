import Verif.Model.PiecewiseConstant
import Verif.Model.Boundary
set_option autoImplicit false

/-!
# The tests of the project, run on the model: grids and piecewise constant functions
(safe_learning/tests/test_functions.py:298-367, 408-451; safe_learning/tests/test_lyapunov.py:77-83)

Each theorem states the assertions of one test, with the numbers of the test. These are checks of the
model, not properties of the code.
-/

namespace SafeLearning.Conformance

open GridWorld

/-- The result of a call that does not raise. -/
def returns {α : Type} [DecidableEq α] (r : Except PyErr α) (a : α) : Bool :=
  match r with
  | .ok b => decide (b = a)
  | .error _ => false

/-- The call raises. -/
def raises {α : Type} (r : Except PyErr α) (e : PyErr) : Bool :=
  match r with
  | .ok _ => false
  | .error e' => decide (e' = e)

/-- The grid of two tests (safe_learning/tests/test_functions.py:303-305, 315-317). -/
def testGrid : GridWorld ℚ 2 := ⟨![-11 / 10, 22 / 10], ![15 / 10, 24 / 10], ![7, 8]⟩

theorem testGrid_new : GridWorld.new ![-11 / 10, 22 / 10] ![15 / 10, 24 / 10] (.seq [7, 8]) = .ok testGrid := by
  have h : (match GridWorld.new (K := ℚ) ![-11 / 10, 22 / 10] ![15 / 10, 24 / 10] (.seq [7, 8]) with
      | .ok g => decide (g.lo = testGrid.lo ∧ g.hi = testGrid.hi ∧ g.num = testGrid.num)
      | .error _ => false) = true := by decide +kernel
  split at h
  · rename_i g hg
    obtain ⟨h1, h2, h3⟩ := of_decide_eq_true h
    rw [hg]
    cases g
    subst h1 h2 h3
    rfl
  · cases h

/-- `test_dimensions_error` (safe_learning/tests/test_functions.py:301-311). -/
theorem test_dimensions_error :
    raises (checkDimensions (d := 2) [(1 : ℚ), 2, 3]) .dimensionError = true ∧
    raises (checkDimensions (d := 2) [(1 : ℚ)]) .dimensionError = true := by decide +kernel

/-- `test_index_state_conversion` (safe_learning/tests/test_functions.py:313-350). -/
theorem test_index_state_conversion :
    -- forward and backward conversion of all indices
    (∀ k < testGrid.nindex, ∃ x, testGrid.indexToState k = .ok x ∧
      returns (testGrid.stateToIndex (List.ofFn x)) k = true) ∧
    -- one-dimensional input
    (∃ k, testGrid.stateToIndex [0, 23 / 10] = .ok k) ∧ (∃ x, testGrid.indexToState 1 = .ok x) ∧
    -- rectangles
    (∀ r < testGrid.nrectangles, ∃ x, testGrid.rectangleToState r = .ok x ∧
      returns (testGrid.stateToRectangle fun i => x i + testGrid.unit i / 2) r = true) ∧
    returns (testGrid.stateToRectangle fun _ => 100) (testGrid.nrectangles - 1) = true ∧
    returns (testGrid.stateToRectangle fun _ => -100) 0 = true ∧
    -- corners of the rectangles
    (∀ r < testGrid.nrectangles, ∃ k x, testGrid.rectangleCornerIndex r = .ok k ∧
      testGrid.rectangleToState r = .ok x ∧ returns (testGrid.stateToIndex (List.ofFn x)) k = true) ∧
    -- a point outside the grid
    returns (testGrid.stateToIndex [-12 / 10, 2]) 0 = true := by
  have hs : ∀ k < testGrid.nindex, (match testGrid.indexToState k with
      | .ok x => returns (testGrid.stateToIndex (List.ofFn x)) k
      | .error _ => false) = true := by decide +kernel
  have hr : ∀ r < testGrid.nrectangles, (match testGrid.rectangleToState r with
      | .ok x => returns (testGrid.stateToRectangle fun i => x i + testGrid.unit i / 2) r &&
        (match testGrid.rectangleCornerIndex r with
          | .ok k => returns (testGrid.stateToIndex (List.ofFn x)) k
          | .error _ => false)
      | .error _ => false) = true := by decide +kernel
  refine ⟨?_, ?_, ?_, ?_, by decide +kernel, by decide +kernel, ?_, by decide +kernel⟩
  · intro k hk
    have := hs k hk
    split at this
    · exact ⟨_, ‹_›, this⟩
    · cases this
  · have : (match testGrid.stateToIndex [0, 23 / 10] with
      | .ok _ => true
      | .error _ => false) = true := by decide +kernel
    split at this
    · exact ⟨_, ‹_›⟩
    · cases this
  · have := hs 1 (by decide +kernel)
    split at this
    · exact ⟨_, ‹_›⟩
    · cases this
  · intro r hr'
    have := hr r hr'
    split at this
    · rw [Bool.and_eq_true] at this
      exact ⟨_, ‹_›, this.1⟩
    · cases this
  · intro r hr'
    have := hr r hr'
    split at this
    · rw [Bool.and_eq_true] at this
      obtain ⟨-, this⟩ := this
      split at this
      · exact ⟨_, _, ‹_›, ‹_›, this⟩
      · cases this
    · cases this

/-- `test_integer_numpoints` (safe_learning/tests/test_functions.py:352-355). -/
theorem test_integer_numpoints : ∃ g, GridWorld.new (K := ℚ) ![1, 3] ![2, 4] (.scalar 2) = .ok g ∧
    g.num = ![2, 2] := by
  refine ⟨⟨![1, 3], ![2, 4], fun _ => 2⟩, ?_, by decide⟩
  simp only [GridWorld.new, NumPoints.broadcast, bind, Except.bind]
  rw [if_neg (by simp)]
  rfl

/-- The grid of `test_0d` (safe_learning/tests/test_functions.py:359). -/
def lineGrid : GridWorld ℚ 1 := ⟨![0], ![1], ![3]⟩

/-- `test_0d` (safe_learning/tests/test_functions.py:357-367). -/
theorem test_0d :
    returns ([[1 / 10], [4 / 10], [9 / 10]].mapM lineGrid.stateToIndex) [0, 1, 2] = true ∧
    returns ([![1 / 10], ![4 / 10], ![9 / 10]].mapM lineGrid.stateToRectangle) [0, 0, 1] = true ∧
    returns ([0, 0, 1].mapM lineGrid.rectangleToState) [![0], ![0], ![1 / 2]] = true := by decide +kernel

/-- `test_init` of the piecewise constant function (safe_learning/tests/test_functions.py:411-417). -/
theorem test_piecewise_constant_init :
    let g : GridWorld ℚ 2 := ⟨![-1, -1], ![1, 1], fun _ => 4⟩
    returns (reshapeParameters g.nindex 1 ((List.range 16).map fun k => (k : ℚ)))
      ((List.range 16).map fun k => ![(k : ℚ)]) = true := by decide +kernel

/-- The grid of the other tests (safe_learning/tests/test_functions.py:421-423, 445-447). -/
def squareGrid : GridWorld ℚ 2 := ⟨![-1, -1], ![1, 1], fun _ => 3⟩

/-- `vertex_points` (safe_learning/tests/test_functions.py:426-427, 449). -/
def vertexPoints : Except PyErr (List (Fin 2 → ℚ)) :=
  (List.range squareGrid.nindex).mapM fun k => squareGrid.indexToState k

/-- `test_evaluation` of the piecewise constant function (safe_learning/tests/test_functions.py:419-441). -/
theorem test_piecewise_constant_evaluation : ∃ points, vertexPoints = .ok points ∧
    let values := points.map fun x => ![x 0 + x 1]
    returns (pcEvaluate squareGrid values (points.map List.ofFn)) values = true ∧
    returns (pcEvaluate squareGrid values [[-3 / 2, -3 / 2]]) [![-2]] = true ∧
    ∃ B, pcParameterDerivative squareGrid (points.map List.ofFn) = .ok B ∧
      returns (B.dot values) values = true := by
  have h : (match vertexPoints with
    | .ok points => returns (pcEvaluate squareGrid (points.map fun x => ![x 0 + x 1]) (points.map List.ofFn))
          (points.map fun x => ![x 0 + x 1]) &&
        returns (pcEvaluate squareGrid (points.map fun x => ![x 0 + x 1]) [[-3 / 2, -3 / 2]]) [![-2]] &&
        (match pcParameterDerivative squareGrid (points.map List.ofFn) with
          | .ok B => returns (B.dot (points.map fun x => ![x 0 + x 1])) (points.map fun x => ![x 0 + x 1])
          | .error _ => false)
    | .error _ => false) = true := by decide +kernel
  split at h
  · rw [Bool.and_eq_true, Bool.and_eq_true] at h
    obtain ⟨⟨h1, h2⟩, h3⟩ := h
    split at h3
    · exact ⟨_, ‹_›, h1, h2, _, ‹_›, h3⟩
    · cases h3
  · cases h

/-- `test_gradient` of the piecewise constant function (safe_learning/tests/test_functions.py:443-451). -/
theorem test_piecewise_constant_gradient (points : List (List ℚ)) :
    ∀ v ∈ pcGradient 2 points, v = 0 := by
  intro v hv
  obtain ⟨_, -, rfl⟩ := List.mem_map.mp hv
  rfl

/-- `test_smallest_boundary_value` (safe_learning/tests/test_lyapunov.py:77-83). -/
theorem test_smallest_boundary_value :
    returns (smallestBoundaryValue (fun x : Fin 2 → ℚ => 2 * (|x 0| + |x 1|))
      ⟨![-3 / 2, -1], ![1, 3 / 2], ![3, 3]⟩) (5 / 2 : ℚ) = true := by decide +kernel

end SafeLearning.Conformance
