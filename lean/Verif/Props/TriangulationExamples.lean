import Verif.Props.Continuity
set_option autoImplicit false

/-!
# Concrete cases of C09-C18

The two-dimensional grid `exampleGrid` with twelve points, and a one-dimensional grid over the reals.
-/

namespace SafeLearning

open Spec GridWorld

/-- `exampleGrid` has cells of length one in both dimensions. -/
theorem exampleGrid_unit (i : Fin 2) : exampleGrid.unit i = 1 := by
  fin_cases i <;> simp [GridWorld.unit, exampleGrid] <;> norm_num

/-- The hypotheses of the theorems hold for `exampleGrid`. -/
theorem exampleSetup : TriSetup exampleGrid (delaunay2D exampleGrid.unit) (1 / 1000) :=
  triSetup_two exampleGrid_two_le exampleGrid_lt (by norm_num) fun i => by
    have := exampleGrid_unit i
    unfold GridWorld.unit at this
    rw [this]
    norm_num

/-- Values of the affine function `2 * x₀ - 3 * x₁ + 1` at the grid points. -/
def affineParams : List (Fin 1 → ℚ) := exampleGrid.allPoints.map fun p _ => 2 * p 0 - 3 * p 1 + 1

/-- Values of `k ^ 2` at grid point `k`. -/
def squareParams : List (Fin 1 → ℚ) := (List.range 12).map fun k _ => (k : ℚ) ^ 2

theorem affineParams_length : affineParams.length = ∏ i, exampleGrid.num i := by decide +kernel

theorem squareParams_length : squareParams.length = ∏ i, exampleGrid.num i := by decide +kernel

theorem affineParams_spec (k : ℕ) (p : Fin 2 → ℚ)
    (hp : IsGridPoint exampleGrid.lo exampleGrid.hi exampleGrid.num k p) :
    affineParams[k]? = some fun l => ∑ i, (fun _ : Fin 1 => ![2, -3]) l i * p i + (fun _ => 1) l := by
  have hk : k < exampleGrid.allPoints.length := by
    obtain ⟨m, hm, rfl, _⟩ := hp
    rw [(C03_all_points_enumerates exampleGrid).1, Spec.rowMajor, ← ravel_eq_sum]
    exact ravel_lt _ _ hm
  have := ((C03_all_points_enumerates exampleGrid).2 k hk).2
  have e := IsGridPoint.unique this hp
  unfold affineParams
  rw [List.getElem?_map, List.getElem?_eq_getElem hk, e]
  simp only [Option.map_some, Fin.sum_univ_two, Matrix.cons_val_zero, Matrix.cons_val_one]
  congr 1
  funext l
  ring

example (project : Bool) :
    ∃ t, Tri.new exampleGrid (delaunay2D exampleGrid.unit) project = .ok t :=
  C09_construction exampleSetup project

/-- C10: at the point `(0.3, 4.9)` the affine function is `-13.1`. -/
example (project : Bool) (t : Tri ℚ 2)
    (ht : Tri.new exampleGrid (delaunay2D exampleGrid.unit) project = .ok t) :
    t.evaluate (1 / 1000) affineParams ![3 / 10, 49 / 10] = .ok fun _ => -131 / 10 := by
  rw [C10_affine_exact exampleSetup ht _ _ affineParams affineParams_length affineParams_spec]
  congr 1
  funext l
  cases project
  · simp [Fin.sum_univ_two]; norm_num
  · have h : clipBox exampleGrid.lo exampleGrid.hi ![3 / 10, 49 / 10] =
        (![3 / 10, 49 / 10] : Fin 2 → ℚ) := by decide +kernel
    simp only [if_true]
    rw [h]
    simp [Fin.sum_univ_two]; norm_num

/-- C11: grid point 7 is the boundary point `(0, 5)`. -/
example (t : Tri ℚ 2)
    (ht : Tri.new exampleGrid (delaunay2D exampleGrid.unit) false = .ok t) :
    t.evaluate (1 / 1000) squareParams ![0, 5] = .ok fun _ => 49 := by
  obtain ⟨v, h1, h2⟩ := C11_interpolates exampleSetup ht (by
    have h0 := exampleGrid_unit 0
    have h1 := exampleGrid_unit 1
    unfold GridWorld.unit at h0 h1
    rw [Fin.sum_univ_two, h0, h1]
    norm_num) squareParams squareParams_length 7 ![0, 5]
    ⟨![1, 3], by decide +kernel, by decide +kernel, by decide +kernel⟩
  rw [h2]
  have : squareParams[7]? = some fun _ => 49 := by decide +kernel
  rw [this] at h1
  simp only [Option.some.injEq] at h1
  rw [h1]

/-- C12: an interior point. -/
example (t : Tri ℚ 2)
    (ht : Tri.new exampleGrid (delaunay2D exampleGrid.unit) true = .ok t) :
    ∃ w idx v, t.getWeights (1 / 1000) ![1 / 3, 7 / 3] = .ok (w, idx) ∧
      (∀ j, IsGridPoint exampleGrid.lo exampleGrid.hi exampleGrid.num (idx j) (v j)) ∧
      IsConvexComb v w ![1 / 3, 7 / 3] :=
  C12_weights_nonneg exampleSetup ht _ (by decide +kernel)

/-- C13 and C14 for a batch of points outside and inside the domain. -/
example (t : Tri ℚ 2)
    (ht : Tri.new exampleGrid (delaunay2D exampleGrid.unit) true = .ok t) :
    ∃ B, t.parameterDerivative (1 / 1000) [![1 / 3, 7 / 3], ![9, -9]] = .ok B ∧
      ∃ values, B.dot squareParams = .ok values := by
  obtain ⟨B, h1, h2⟩ := C13_parameter_derivative exampleSetup ht [![1 / 3, 7 / 3], ![9, -9]]
  obtain ⟨h3, values, h4⟩ := h2 1 squareParams squareParams_length
  exact ⟨B, h1, values, h3.trans h4⟩

example (t : Tri ℚ 2)
    (ht : Tri.new exampleGrid (delaunay2D exampleGrid.unit) true = .ok t) :
    t.gradient (1 / 1000) affineParams ![9, -9] = .ok fun _ => ![2, -3] :=
  C14_gradient_affine exampleSetup ht _ _ affineParams affineParams_length affineParams_spec _

/-- C15: simplex 11 is the last one of the six rectangles. -/
example (t : Tri ℚ 2)
    (ht : Tri.new exampleGrid (delaunay2D exampleGrid.unit) true = .ok t) :
    ∃ idx, t.simplices 11 = .ok idx := by
  obtain ⟨idx, _, _, h, _⟩ := C15_simplices_valid exampleSetup ht 11 (by decide +kernel)
  exact ⟨idx, h⟩

/-- The real grid `{0, 1/2, 1}`. -/
noncomputable def realGrid : GridWorld ℝ 1 := { lo := ![0], hi := ![1], num := ![3] }

/-- C18: a piecewise linear function with a kink is continuous. -/
example (t : Tri ℝ 1)
    (ht : Tri.new realGrid (delaunay1D 0 (realGrid.unit 0)) false = .ok t)
    (f : (Fin 1 → ℝ) → Fin 1 → ℝ)
    (hf : ∀ x, t.evaluate (1 / 1000) [![0], ![1], ![-5]] x = .ok (f x)) :
    ContinuousOn f {x | ∀ i, realGrid.lo i + 2 * (1 / 1000) ≤ x i ∧
      x i ≤ realGrid.hi i - 2 * (1 / 1000)} :=
  C18_continuous_1d (by intro i; fin_cases i; simp [realGrid])
    (by intro i; fin_cases i; simp [realGrid]) (by norm_num)
    (by intro i; fin_cases i; simp [realGrid]; norm_num) ht _ (by simp [realGrid]) f hf

/-- Such a function exists: evaluation never fails. -/
example : ∃ (t : Tri ℝ 1) (f : (Fin 1 → ℝ) → Fin 1 → ℝ),
    Tri.new realGrid (delaunay1D 0 (realGrid.unit 0)) false = .ok t ∧
    ∀ x, t.evaluate (1 / 1000) [![0], ![1], ![-5]] x = .ok (f x) := by
  have S : TriSetup realGrid (delaunay1D 0 (realGrid.unit 0)) (1 / 1000) :=
    triSetup_one (by intro i; fin_cases i; simp [realGrid])
      (by intro i; fin_cases i; simp [realGrid]) (by norm_num)
      (by intro i; fin_cases i; simp [realGrid]; norm_num)
  obtain ⟨t, ht⟩ := C09_construction S false
  have hx : ∀ x, ∃ v, t.evaluate (1 / 1000) [![0], ![1], ![-5]] x = .ok v := by
    intro x
    obtain ⟨v, _, _, h, _⟩ := C14_gradient_is_slope (o := 1) S ht [![0], ![1], ![-5]]
      (by simp [realGrid]) x x rfl
    exact ⟨v, h⟩
  choose f hf using hx
  exact ⟨t, f, ht, hf⟩

end SafeLearning
