import Verif.Conformance.Grid
import Verif.Props.TriangulationExamples
import Verif.Props.FiveSimplices
set_option autoImplicit false

/-!
# The tests of the project, run on the model: triangulations
(safe_learning/tests/test_functions.py:285-295, 454-762)

Each theorem states the assertions of one test, with the numbers of the test. These are checks of the
model, not properties of the code. The matrix inverse in `hyperplane` is not computable; an explicit inverse is
verified instead.
-/

namespace SafeLearning.Conformance

open Spec GridWorld

/-- `_EPS` for double precision (safe_learning/functions.py:28). -/
def machineEps : ℚ := 1 / 2 ^ 52

/-- The edges of a simplex, as in `hyperplane`. -/
def edgeMatrix {d : ℕ} (pts : Fin (d + 1) → Fin d → ℚ) : Matrix (Fin d) (Fin d) ℚ :=
  fun j i => pts j.succ i - pts 0 i

/-- The edges of a simplex times a given matrix are the identity. -/
def checkHyperplane {d : ℕ} (g : GridWorld ℚ d) (s : Fin (d + 1) → ℕ) (H : Matrix (Fin d) (Fin d) ℚ) : Bool :=
  match traverseFin fun j => g.indexToState (s j) with
  | .ok pts => decide (edgeMatrix pts * H = 1)
  | .error _ => false

theorem hyperplane_of_check {d : ℕ} {g : GridWorld ℚ d} {s : Fin (d + 1) → ℕ} {H : Matrix (Fin d) (Fin d) ℚ}
    (h : checkHyperplane g s H = true) : hyperplane g s = .ok H := by
  unfold checkHyperplane at h
  split at h
  · rename_i pts hpts
    have h := of_decide_eq_true h
    unfold hyperplane
    rw [hpts]
    simp only [bind, Except.bind, pure, Except.pure]
    have hdet := Matrix.isUnit_det_of_right_inverse h
    have hinv := Matrix.inv_eq_right_inv h
    unfold edgeMatrix at hdet hinv
    rw [if_neg hdet.ne_zero, hinv]
  · cases h

/-- The given matrices are the hyperplanes of the triangulation. -/
def checkTri {d : ℕ} (t : Tri ℚ d) : Bool :=
  match indexMapping t.disc with
  | .ok mapping =>
    decide (t.unitSimplices = t.triangulation.simplices.map fun s j => mapping.getD (s j) 0) &&
    decide (t.unitSimplices.length = t.hyperplanes.length) &&
    (t.unitSimplices.zip t.hyperplanes).all fun p => checkHyperplane t.disc p.1 p.2
  | .error _ => false

theorem mapM_of_zip {α β : Type} (f : α → Except PyErr β) : ∀ (as : List α) (bs : List β),
    as.length = bs.length → (∀ p ∈ as.zip bs, f p.1 = .ok p.2) → as.mapM f = .ok bs
  | [], [], _, _ => rfl
  | a :: as, b :: bs, hl, h => by
    rw [List.mapM_cons, h (a, b) (by simp),
      mapM_of_zip f as bs (by simpa using hl) fun p hp => h p (by simp [hp])]
    rfl
  | [], _ :: _, hl, _ => by simp at hl
  | _ :: _, [], hl, _ => by simp at hl

theorem new_of_check {d : ℕ} {t : Tri ℚ d} (h : checkTri t = true) :
    Tri.new t.disc t.triangulation t.project = .ok t := by
  unfold checkTri at h
  split at h
  · rename_i mapping hm
    simp only [Bool.and_eq_true, decide_eq_true_eq, List.all_eq_true] at h
    obtain ⟨⟨h1, h2⟩, h3⟩ := h
    unfold Tri.new
    rw [hm]
    simp only [bind, Except.bind, pure, Except.pure]
    rw [← h1, mapM_of_zip _ _ _ h2 fun p hp => hyperplane_of_check (h3 p hp)]
  · cases h

/-- The triangulation of a two-dimensional grid with `n` points in the second dimension: two triangles per cell. -/
def triTwo (g : GridWorld ℚ 2) (project : Bool) : Tri ℚ 2 where
  disc := g
  triangulation := delaunay2D g.unit
  unitSimplices := [![0, g.num 1, 1], ![g.num 1 + 1, 1, g.num 1]]
  hyperplanes := [!![1 / g.unit 0, 0; 0, 1 / g.unit 1], !![-1 / g.unit 0, 0; 0, -1 / g.unit 1]]
  project := project

/-- The assertion about a sparse matrix, entry by entry: `assert_allclose(B.toarray(), expected, atol)`. -/
def denseClose {K : Type} [Field K] [LinearOrder K] (B : Coo K) (expected : List (List K)) (atol : K) : Bool :=
  decide (expected.length = B.nrows) && expected.zipIdx.all fun p =>
    decide (p.1.length = B.ncols) && p.1.zipIdx.all fun q =>
      decide (|((B.entries.filter fun e => e.2.1 = p.2 ∧ e.2.2 = q.2).map fun e => e.1).sum - q.1| ≤ atol)

/-! ## Tests of `_Triangulation` -/

/-- The grid of `test_find_simplex` (safe_learning/tests/test_functions.py:459-461). -/
def findGrid : GridWorld ℚ 2 := ⟨![-1, -1], ![1, 2], ![3, 7]⟩

/-- The construction on this grid. -/
theorem findGrid_new : Tri.new findGrid (delaunay2D findGrid.unit) false = .ok (triTwo findGrid false) :=
  new_of_check (t := triTwo findGrid false) (by decide +kernel)

/-- A sorted row of indices, as in `np.sort(simplices, axis=1)`. -/
def sortedRow {d : ℕ} (s : Fin (d + 1) → ℕ) : List ℕ := (List.ofFn s).insertionSort (· ≤ ·)

/-- `test_find_simplex` (safe_learning/tests/test_functions.py:457-499). -/
theorem test_find_simplex :
    let t := triTwo findGrid false
    findGrid.nrectangles = 2 * 6 ∧
    findGrid.nrectangles * t.triangulation.nsimplex = 2 * 2 * 6 ∧
    findGrid.unit = ![2 / (3 - 1), 3 / (7 - 1)] ∧
    let lower := t.triangulation.find ![0, 0]
    let upper := 1 - lower
    returns ([![0, 0], ![9 / 10, 45 / 100], ![11 / 10, 0], ![19 / 10, 29 / 10]].mapM fun x : Fin 2 → ℚ =>
      t.findSimplex machineEps fun i => x i + findGrid.lo i) [lower, upper, 6 * 2 + lower, 11 * 2 + upper] = true ∧
    returns ([lower, upper, 6 * 2 + lower, 11 * 2 + upper].mapM fun k => (t.simplices k).map sortedRow)
      [[0, 1, 7], [1, 7, 8], [7, 8, 14], [13, 19, 20]] = true ∧
    returns (t.findSimplex machineEps ![-100, -100]) lower = true ∧
    returns (t.findSimplex machineEps ![100, 100])
      (findGrid.nrectangles * t.triangulation.nsimplex - 1 - lower) = true := by
  decide +kernel

/-- The number of simplices in `test_scipy_delaunay` (safe_learning/tests/test_functions.py:285-295). -/
theorem test_scipy_delaunay :
    let g : GridWorld ℚ 2 := ⟨![-1, -1], ![1, 2], ![2, 6]⟩
    checkTri (triTwo g false) = true ∧ g.nrectangles * (triTwo g false).triangulation.nsimplex = 10 := by
  decide +kernel

/-- The grid of two tests (safe_learning/tests/test_functions.py:505, 584). -/
def unitGrid : GridWorld ℚ 2 := ⟨![0, 0], ![1, 1], ![2, 2]⟩

theorem unitGrid_new (project : Bool) :
    Tri.new unitGrid (delaunay2D unitGrid.unit) project = .ok (triTwo unitGrid project) := by
  refine new_of_check (t := triTwo unitGrid project) ?_
  revert project
  decide +kernel

/-- `eps` of `test_values` (safe_learning/tests/test_functions.py:503). -/
def tinyStep : ℚ := 1 / 10 ^ 10

/-- The test points of `test_values` (safe_learning/tests/test_functions.py:508-513). -/
def valuePoints : List (Fin 2 → ℚ) :=
  [![0, 0], ![1 - tinyStep, 0], ![0, 1 - tinyStep], ![1 / 2 - tinyStep, 1 / 2 - tinyStep], ![0, 1 / 2], ![1 / 2, 0]]

/-- The matrix of `test_values` (safe_learning/tests/test_functions.py:514-529): `nodes` is `[0, 2, 1]`. -/
theorem test_values_matrix :
    returns ([[0, 0], [1, 0], [0, 1]].mapM unitGrid.stateToIndex) [0, 2, 1] = true ∧
    ∃ H, (triTwo unitGrid false).parameterDerivative machineEps valuePoints = .ok H ∧
      denseClose H [[1, 0, 0, 0], [0, 0, 1, 0], [0, 1, 0, 0], [0, 1 / 2, 1 / 2, 0], [1 / 2, 1 / 2, 0, 0],
        [1 / 2, 0, 1 / 2, 0]] (1 / 10 ^ 7) = true := by
  refine ⟨by decide +kernel, ?_⟩
  have : (match (triTwo unitGrid false).parameterDerivative machineEps valuePoints with
    | .ok H => denseClose H [[1, 0, 0, 0], [0, 0, 1, 0], [0, 1, 0, 0], [0, 1 / 2, 1 / 2, 0], [1 / 2, 1 / 2, 0, 0],
        [1 / 2, 0, 1 / 2, 0]] (1 / 10 ^ 7)
    | .error _ => false) = true := by decide +kernel
  split at this
  · exact ⟨_, ‹_›, this⟩
  · cases this

/-- The projections of `test_values` (safe_learning/tests/test_functions.py:538-546). -/
theorem test_values_projection :
    returns ((triTwo unitGrid false).evaluate machineEps [![0], ![1], ![1], ![1]] ![-1 / 2, -1 / 2]) ![(-1 : ℚ)] = true ∧
    returns ((triTwo unitGrid true).evaluate machineEps [![0], ![1], ![1], ![1]] ![-1 / 2, -1 / 2]) ![(0 : ℚ)] = true := by
  decide +kernel

/-- The grid of `test_multiple_dimensions` (safe_learning/tests/test_functions.py:550-551). -/
def cubeGrid : GridWorld ℚ 3 := ⟨![0, 0, 0], ![1, 1, 1], ![2, 2, 2]⟩

/-- The parameters of `test_multiple_dimensions` (safe_learning/tests/test_functions.py:566-567). -/
def cubeParams : List (Fin 1 → ℚ) := cubeGrid.allPoints.map fun p _ => (∑ i, p i) / 3

theorem cubeParams_spec (k : ℕ) (p : Fin 3 → ℚ) (hp : IsGridPoint cubeGrid.lo cubeGrid.hi cubeGrid.num k p) :
    cubeParams[k]? = some fun _ => ∑ i, 1 / 3 * p i + 0 := by
  have hk : k < cubeGrid.allPoints.length := by
    obtain ⟨m, hm, rfl, _⟩ := hp
    rw [(C03_all_points_enumerates cubeGrid).1, Spec.rowMajor, ← ravel_eq_sum]
    exact ravel_lt _ _ hm
  have := ((C03_all_points_enumerates cubeGrid).2 k hk).2
  have e := IsGridPoint.unique this hp
  unfold cubeParams
  rw [List.getElem?_map, List.getElem?_eq_getElem hk, e]
  simp only [Option.map_some, Fin.sum_univ_three]
  congr 1
  funext l
  ring

/-- `test_multiple_dimensions` (safe_learning/tests/test_functions.py:548-580), for every triangulation of the cube that Qhull may
return and at every point (the test uses twelve). -/
theorem test_multiple_dimensions (D : Delaunay ℚ 3) (S : TriSetup cubeGrid D machineEps) (t : Tri ℚ 3)
    (ht : Tri.new cubeGrid D false = .ok t) (x : Fin 3 → ℚ) :
    cubeGrid.nrectangles = 1 ∧
    t.evaluate machineEps cubeParams x = .ok fun _ => (x 0 + x 1 + x 2) / 3 := by
  refine ⟨by decide +kernel, ?_⟩
  rw [C10_affine_exact S ht (fun _ _ => 1 / 3) (fun _ => 0) cubeParams (by decide +kernel) cubeParams_spec x]
  congr 1
  funext l
  simp only [Fin.sum_univ_three]
  simp
  ring

/-- A triangulation of the cube as in the hypothesis. -/
example : TriSetup cubeGrid five machineEps := by
  have hu : (fun i => (cubeGrid.hi i - cubeGrid.lo i) / ((cubeGrid.num i : ℚ) - 1)) =
      fun i => (grid3.hi i - grid3.lo i) / ((grid3.num i : ℚ) - 1) := by decide +kernel
  have hc : cornerPoints cubeGrid = cornerPoints grid3 := by decide +kernel
  have S := triSetup_three (eps := machineEps) (by decide +kernel) (by decide +kernel)
  refine ⟨by decide +kernel, by decide +kernel, ?_, S.eps_pos, by decide +kernel⟩
  rw [hu, hc]
  exact S.tri

/-- `test_gradient` (safe_learning/tests/test_functions.py:582-624): `nodes` is `[0, 2, 1, 3]`, hence the vertex values
are `[1, 3, 2, 1]`. -/
theorem test_gradient :
    returns ([[0, 0], [1, 0], [0, 1], [1, 1]].mapM unitGrid.stateToIndex) [0, 2, 1, 3] = true ∧
    returns ([![1 / 100, 1 / 100], ![99 / 100, 99 / 100]].mapM fun x : Fin 2 → ℚ =>
      ((triTwo unitGrid false).gradient machineEps [![1], ![3], ![2], ![1]] x).map fun G : Fin 1 → Fin 2 → ℚ => G 0)
      [![1, 2], ![-2, -1]] = true ∧
    ∃ H, (triTwo unitGrid false).gradientParameterDerivative machineEps
        (some [![1 / 100, 1 / 100], ![99 / 100, 99 / 100]]) none = .ok H ∧
      denseClose H [[-1, 0, 1, 0], [-1, 1, 0, 0], [0, -1, 0, 1], [0, 0, -1, 1]] 0 = true ∧
      returns (H.dot [![1], ![3], ![2], ![1]]) [![(1 : ℚ)], ![2], ![-2], ![-1]] = true := by
  refine ⟨by decide +kernel, by decide +kernel, ?_⟩
  have : (match (triTwo unitGrid false).gradientParameterDerivative machineEps
        (some [![1 / 100, 1 / 100], ![99 / 100, 99 / 100]]) none with
    | .ok H => denseClose H [[-1, 0, 1, 0], [-1, 1, 0, 0], [0, -1, 0, 1], [0, 0, -1, 1]] 0 &&
        returns (H.dot [![1], ![3], ![2], ![1]]) [![(1 : ℚ)], ![2], ![-2], ![-1]]
    | .error _ => false) = true := by decide +kernel
  split at this
  · exact ⟨_, ‹_›, by simpa using this⟩
  · cases this

/-- The triangulation of `test_1d` (safe_learning/tests/test_functions.py:628-629). -/
def lineTri : Tri ℚ 1 where
  disc := lineGrid
  triangulation := delaunay1D 0 (lineGrid.unit 0)
  unitSimplices := [![0, 1]]
  hyperplanes := [!![2]]
  project := false

theorem lineTri_new : Tri.new lineGrid (delaunay1D 0 (lineGrid.unit 0)) false = .ok lineTri :=
  new_of_check (t := lineTri) (by decide +kernel)

/-- The test points of `test_1d` (safe_learning/tests/test_functions.py:632). -/
def linePoints : List (Fin 1 → ℚ) := [![0], ![2 / 10], ![5 / 10], ![6 / 10], ![9 / 10], ![1]]

/-- `test_1d` (safe_learning/tests/test_functions.py:626-655). -/
theorem test_1d :
    let values : List (Fin 1 → ℚ) := [![0], ![2 / 10], ![5 / 10], ![4 / 10], ![1 / 10], ![0]]
    let slopes : List (Fin 1 → ℚ) := [![1], ![1], ![-1], ![-1], ![-1], ![-1]]
    let vertex : List (Fin 1 → ℚ) := [![0], ![1 / 2], ![0]]
    returns (linePoints.mapM (lineTri.findSimplex machineEps)) [0, 0, 1, 1, 1, 1] = true ∧
    returns (linePoints.mapM (lineTri.evaluate machineEps vertex)) values = true ∧
    returns (lineTri.parameterDerivative machineEps linePoints >>= fun B => B.dot vertex) values = true ∧
    returns (linePoints.mapM fun x => (lineTri.gradient machineEps vertex x).map fun G => G 0) slopes = true ∧
    returns (lineTri.gradientParameterDerivative machineEps (some linePoints) none >>= fun B => B.dot vertex)
      slopes = true := by decide +kernel

/-! ## Tests of `Triangulation` -/

/-- The grid of the tests (safe_learning/tests/test_functions.py:665-667). -/
def tfGrid : GridWorld ℚ 2 := ⟨![0, 0], ![1, 1], ![3, 3]⟩

theorem tfGrid_new (project : Bool) :
    Tri.new tfGrid (delaunay2D tfGrid.unit) project = .ok (triTwo tfGrid project) := by
  refine new_of_check (t := triTwo tfGrid project) ?_
  revert project
  decide +kernel

/-- The vertex values (safe_learning/tests/test_functions.py:668-669). -/
def tfParams : List (Fin 1 → ℚ) := tfGrid.allPoints.map fun p _ => ∑ i, p i ^ 2

/-- The test points (safe_learning/tests/test_functions.py:674-680). -/
def tfPoints : List (Fin 2 → ℚ) :=
  [![-10, -10], ![2 / 10, 7 / 10], ![0, 0], ![0, 1], ![1, 1], ![-2 / 10, 5 / 10], ![43 / 100, 21 / 100]]

/-- `test_evaluate` and `test_projected_evaluate` (safe_learning/tests/test_functions.py:685-701): the TensorFlow function agrees
with the numpy one on the test points, with and without projection. The values are stated as well. -/
theorem test_evaluate :
    let out : List (Fin 1 → ℚ) := [![-10], ![65 / 100], ![0], ![1], ![2], ![15 / 100], ![32 / 100]]
    let outProjected : List (Fin 1 → ℚ) := [![0], ![65 / 100], ![0], ![1], ![2], ![25 / 100], ![32 / 100]]
    returns (tfPoints.mapM ((triTwo tfGrid false).tfEvaluate machineEps tfParams)) out = true ∧
    returns (tfPoints.mapM ((triTwo tfGrid false).evaluate machineEps tfParams)) out = true ∧
    returns (tfPoints.mapM ((triTwo tfGrid true).tfEvaluate machineEps tfParams)) outProjected = true ∧
    returns (tfPoints.mapM ((triTwo tfGrid true).evaluate machineEps tfParams)) outProjected = true := by
  decide +kernel

end SafeLearning.Conformance
