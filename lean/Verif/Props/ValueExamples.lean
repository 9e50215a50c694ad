import Verif.Props.ValueProgram
import Verif.Props.TriangulationExamples
set_option autoImplicit false

/-!
# Concrete cases of C59-C62, and next states in the boundary strip
-/

namespace SafeLearning

open Spec PolicyIteration GridWorld

/-! ## The boundary strip -/

/-- A point on the lower boundary of the domain, left of a grid point. -/
def stripPoint : Fin 2 → ℚ := ![-1 / 1000, 2]

theorem verts_strip : ∀ j i, verts exampleGrid ![0, 0] ![1, 3, 0] j i =
    (![![0, 3], ![-1, 3], ![0, 2]] : Fin 3 → Fin 2 → ℚ) j i := by decide +kernel

/-- **C12 does not extend to the boundary** in two dimensions: at `(-0.001, 2)` the weight of grid point 5 is negative. The
point is in the domain; `_EPS` is `0.001`. -/
theorem C12_strip_negative {project : Bool} {t : Tri ℚ 2}
    (ht : Tri.new exampleGrid (delaunay2D exampleGrid.unit) project = .ok t) :
    t.getWeights (1 / 1000) stripPoint = .ok (![-1 / 1000, 1 / 1000, 1], ![5, 1, 4]) ∧
      InBox exampleGrid.lo exampleGrid.hi stripPoint := by
  have hG := exampleSetup.good ht
  have hg := exampleSetup.wf
  refine ⟨?_, by unfold InBox; decide +kernel⟩
  have hk : (delaunay2D exampleGrid.unit).simplices[1]? = some ![1, 3, 0] := rfl
  have hR : ∀ i, (![0, 0] : Fin 2 → ℕ) i < exampleGrid.numRect i := by decide +kernel
  have hf : t.findSimplex (1 / 1000) stripPoint =
      .ok (simplexNumber exampleGrid (delaunay2D exampleGrid.unit) 1 ![0, 0] : ℕ) := by
    unfold Tri.findSimplex Tri.unitCoordinates
    rw [hG.disc, hG.tri]
    decide +kernel
  rw [hG.getWeights_ok hg hk hR hf]
  have hI := Tri.Good.verts_indep exampleSetup.tri hk ![0, 0]
  have hp : t.projected stripPoint = stripPoint := by
    funext i
    rw [projected_mem exampleSetup hG stripPoint (Or.inr (by decide +kernel)) i]
    revert i
    decide +kernel
  have hw : codeWeights (edges (verts exampleGrid ![0, 0] ![1, 3, 0]))⁻¹
      (verts exampleGrid ![0, 0] ![1, 3, 0] 0) (t.projected stripPoint) =
      ![-1 / 1000, 1 / 1000, 1] := by
    rw [hp]
    refine bary_unique hI (codeWeights_bary hI _) ⟨by decide +kernel, ?_⟩
    decide +kernel
  rw [hw]
  congr 2
  decide +kernel

/-- Dynamics that always lead to `stripPoint`; no rewards. -/
def stripIteration (t : Tri ℚ 2) : PolicyIteration ℚ 2 1 where
  policy _ _ := .ok 0
  policyGrid := exampleGrid
  dynamics _ _ := .exact stripPoint
  reward _ _ := 0
  valueFunction := t
  gamma := 99 / 100

theorem stripSetup {t : Tri ℚ 2}
    (ht : Tri.new exampleGrid (delaunay2D exampleGrid.unit) true = .ok t) :
    RLSetup (stripIteration t) exampleGrid (delaunay2D exampleGrid.unit) (1 / 1000) true []
      (fun _ => 0) where
  tri := exampleSetup
  new := ht
  gamma := by norm_num [stripIteration]
  policy _ _ := rfl
  next _ _ := Or.inl rfl

theorem nParams_example : nParams exampleGrid = 12 := by decide +kernel

/-- The value at the strip point. -/
theorem strip_value {t : Tri ℚ 2}
    (ht : Tri.new exampleGrid (delaunay2D exampleGrid.unit) true = .ok t)
    (θ : Fin (nParams exampleGrid) → ℚ) :
    t.tfEvaluate (1 / 1000) (toParams θ) stripPoint =
      .ok fun _ => -1 / 1000 * θ ⟨5, by decide +kernel⟩ + 1 / 1000 * θ ⟨1, by decide +kernel⟩ +
        θ ⟨4, by decide +kernel⟩ := by
  rw [tfEvaluate_weights (C12_strip_negative ht).1 (n := nParams exampleGrid) (by decide +kernel)]
  congr 1
  funext _
  rw [Fin.sum_univ_three]
  simp

/-- What C59 claims for a value function that projects: larger values give larger updated values. -/
def _root_.Spec.MonotoneUpdate {K : Type} [Field K] [LinearOrder K] {m : ℕ}
    (update : Vars K m → Except PyErr (Vars K m)) : Prop :=
  ∀ vars vars' out out', vars.policy = vars'.policy → vars.value.length = vars'.value.length →
    update vars = .ok out → update vars' = .ok out' → Below vars.value vars'.value →
    Below out.value out'.value

/-- What C59 claims for a value function that projects: differences shrink by the factor `γ`. -/
def _root_.Spec.ContractingUpdate {K : Type} [Field K] [LinearOrder K] {m : ℕ} (γ : K)
    (update : Vars K m → Except PyErr (Vars K m)) : Prop :=
  ∀ vars vars' out out' B, vars.policy = vars'.policy → vars.value.length = vars'.value.length →
    update vars = .ok out → update vars' = .ok out' → Within B vars.value vars'.value →
    Within (γ * B) out.value out'.value

/-- **C59 refuted** in the boundary strip of a two-dimensional domain: the update is neither monotone nor a contraction with
factor `gamma`. -/
theorem C59_boundary_refuted {t : Tri ℚ 2}
    (ht : Tri.new exampleGrid (delaunay2D exampleGrid.unit) true = .ok t) :
    ¬ Spec.MonotoneUpdate ((stripIteration t).valueIteration (1 / 1000)) ∧
      ¬ Spec.ContractingUpdate (99 / 100) ((stripIteration t).valueIteration (1 / 1000)) := by
  obtain ⟨W, -, -, -, h4, h5⟩ := valueIteration_eq (stripSetup ht)
  have hrow : ∀ (θ : Fin (nParams exampleGrid) → ℚ) i, ∑ j, W i j * θ j = -1 / 1000 * θ ⟨5, by decide +kernel⟩ +
      1 / 1000 * θ ⟨1, by decide +kernel⟩ + θ ⟨4, by decide +kernel⟩ := by
    intro θ i
    have e1 := h4 i θ
    have e2 := strip_value ht θ
    have : t.tfEvaluate (1 / 1000) (toParams θ) stripPoint = .ok fun _ => ∑ j, W i j * θ j := e1
    rw [this] at e2
    simpa using congrFun (Except.ok.inj e2) 0
  have hi : (0 : ℕ) < nParams exampleGrid := by decide +kernel
  let i0 : Fin (nParams exampleGrid) := ⟨0, hi⟩
  let z : Fin (nParams exampleGrid) → ℚ := fun _ => 0
  constructor
  · intro h
    let a : Fin (nParams exampleGrid) → ℚ := fun i => if i.1 = 5 then 1 else 0
    have hb : Below (toParams z) (toParams a) := below_toParams.mpr fun i => by
      simp only [z, a]; split_ifs <;> norm_num
    have h1 := h ⟨toParams z, []⟩ ⟨toParams a, []⟩ _ _ rfl
      (by simp only [toParams_length]) (h5 z) (h5 a) hb
    dsimp only at h1
    have h2 := below_toParams.mp h1 i0
    rw [hrow z, hrow a] at h2
    norm_num [stripIteration, z, a] at h2
  · intro h
    let a : Fin (nParams exampleGrid) → ℚ := fun i => if i.1 = 5 then -1 else 1
    have hb : Within 1 (toParams z) (toParams a) := within_toParams.mpr fun i => by
      simp only [z, a]; split_ifs <;> norm_num
    have h1 := h ⟨toParams z, []⟩ ⟨toParams a, []⟩ _ _ 1 rfl
      (by simp only [toParams_length]) (h5 z) (h5 a) hb
    dsimp only at h1
    have h2 := within_toParams.mp h1 i0
    rw [hrow z, hrow a] at h2
    norm_num [stripIteration, z, a, abs_le] at h2

/-- **C61 refuted** in the boundary strip of a two-dimensional domain: the linear program is unbounded although the Bellman
equation has exactly one solution, so `optimize_value_function` raises `OptimizationError` with every
correct solver. -/
theorem C61_boundary_refuted {t : Tri ℚ 2}
    (ht : Tri.new exampleGrid (delaunay2D exampleGrid.unit) true = .ok t)
    (solve : Program ℚ → Status × List ℚ) (hs : SolverContract solve) (vars : Vars ℚ 1)
    (hp : vars.policy = []) :
    (stripIteration t).optimizeValueFunction (1 / 1000) solve vars = .error .optimizationError ∧
      ∃! θ, Bellman (stripIteration t) exampleGrid (1 / 1000) (fun _ => 0) θ := by
  obtain ⟨W, B, -, -, -, h4, h5, h6, h7⟩ := program_eq (stripSetup ht)
  have hrow : ∀ (θ : Fin (nParams exampleGrid) → ℚ) i, ∑ j, W i j * θ j = -1 / 1000 * θ ⟨5, by decide +kernel⟩ +
      1 / 1000 * θ ⟨1, by decide +kernel⟩ + θ ⟨4, by decide +kernel⟩ := by
    intro θ i
    have e1 := h4 i θ
    have e2 := strip_value ht θ
    have : t.tfEvaluate (1 / 1000) (toParams θ) stripPoint = .ok fun _ => ∑ j, W i j * θ j := e1
    rw [this] at e2
    simpa using congrFun (Except.ok.inj e2) 0
  constructor
  · rw [h7 solve vars hp]
    set p : Program ℚ := ⟨_, (stripIteration t).gamma, B⟩
    have hne : (solve p).1 ≠ .optimal := by
      intro ho
      obtain ⟨-, hopt⟩ := hs p ho
      set s := (solve p).2.sum
      have hfeas : ∀ c : ℚ, 0 ≤ c → Program.Feasible p
          (List.ofFn fun i : Fin (nParams exampleGrid) => if i.1 = 5 then -(901 * c) else 99 * c) := by
        intro c hc
        refine (h6 _).mpr fun i => ?_
        rw [hrow]
        simp only [stripIteration]
        split_ifs <;> norm_num <;> linarith
      have hsum : ∀ c : ℚ, (List.ofFn fun i : Fin (nParams exampleGrid) =>
          if i.1 = 5 then -(901 * c) else 99 * c).sum = 188 * c := by
        intro c
        rw [List.sum_ofFn]
        have : ∀ i : Fin (nParams exampleGrid), (if i.1 = 5 then -(901 * c) else 99 * c) =
            99 * c + if i = ⟨5, by decide +kernel⟩ then -(1000 * c) else 0 := by
          intro i
          by_cases h : i.1 = 5
          · have : i = ⟨5, by decide +kernel⟩ := Fin.ext h
            rw [if_pos h, if_pos this]
            ring
          · have : i ≠ ⟨5, by decide +kernel⟩ := fun e => h (congrArg Fin.val e)
            rw [if_neg h, if_neg this]
            ring
        simp only [this, Finset.sum_add_distrib, Finset.sum_const, Finset.sum_ite_eq',
          Finset.mem_univ, if_true, Finset.card_univ, Fintype.card_fin, nParams_example,
          nsmul_eq_mul]
        norm_num
        ring
      have := hopt _ (hfeas (|s| + 1) (by positivity))
      rw [hsum] at this
      have := le_abs_self s
      have := abs_nonneg s
      linarith
    simp only [ne_eq, hne, not_false_eq_true, if_true]
  · have hinj : ∀ η : Fin (nParams exampleGrid) → ℚ, (∀ i, η i = 99 / 100 * ∑ j, W i j * η j) →
        ∀ i, η i = 0 := by
      intro η hη
      have hc : ∀ i, η i = η ⟨0, by decide +kernel⟩ := fun i => by
        rw [hη i, hη ⟨0, by decide +kernel⟩, hrow, hrow]
      have h0 := hη ⟨0, by decide +kernel⟩
      rw [hrow, hc ⟨5, by decide +kernel⟩, hc ⟨1, by decide +kernel⟩, hc ⟨4, by decide +kernel⟩] at h0
      intro i
      rw [hc i]
      linarith
    refine ⟨toParams fun _ => 0, (bellman_iff (stripSetup ht) _).mpr ⟨toParams_length _, ?_⟩,
      fun θ hθ => ?_⟩
    · rw [h5]
      congr 3
      funext i
      simp [stripIteration]
    · obtain ⟨hl, h⟩ := (bellman_iff (stripSetup ht) _).mp hθ
      obtain ⟨η, rfl⟩ := toParams_surj θ hl
      rw [h5] at h
      have hη := toParams_inj (congrArg Vars.value (Except.ok.inj h))
      congr 1
      funext i
      refine hinj η (fun k => ?_) i
      have := (congrFun hη k).symm
      simpa [stripIteration] using this

/-! ## Cases that meet the hypotheses -/

/-- A grid with three points on `[0, 2]`. -/
def lineGrid : GridWorld ℚ 1 where
  lo := ![0]
  hi := ![2]
  num := ![3]

theorem lineSetup : TriSetup lineGrid (delaunay1D 0 (lineGrid.unit 0)) (1 / 1000) :=
  triSetup_one (by decide) (by decide +kernel) (by norm_num) (by decide +kernel)

/-- The action is added to the state; the reward is the negative square of the state; the policy moves left by one half.
Next states leave the domain on the left. -/
def lineIteration (t : Tri ℚ 1) : PolicyIteration ℚ 1 1 where
  policy θ _ := rowAt θ 0
  policyGrid := lineGrid
  dynamics x a := .exact fun i => x i + a i
  reward x _ := -(x 0) ^ 2
  valueFunction := t
  gamma := 9 / 10

theorem lineRL {t : Tri ℚ 1} (ht : Tri.new lineGrid (delaunay1D 0 (lineGrid.unit 0)) true = .ok t) :
    RLSetup (lineIteration t) lineGrid (delaunay1D 0 (lineGrid.unit 0)) (1 / 1000) true [![-1 / 2]]
      (fun _ => ![-1 / 2]) where
  tri := lineSetup
  new := ht
  gamma := by norm_num [lineIteration]
  policy _ _ := rfl
  next _ _ := Or.inl rfl

/-- C59, C60, C61 and C62 apply to `lineIteration`. -/
example : ∃ t, Tri.new lineGrid (delaunay1D 0 (lineGrid.unit 0)) true = .ok t ∧
    (∃ θ, Bellman (lineIteration t) lineGrid (1 / 1000) (fun _ => ![-1 / 2]) θ) ∧
    (∃ solve vars out, SolverContract solve ∧
      (lineIteration t).optimizeValueFunction (1 / 1000) solve vars = .ok out ∧
      Bellman (lineIteration t) lineGrid (1 / 1000) (fun _ => ![-1 / 2]) out.value) := by
  obtain ⟨t, ht⟩ := C09_construction lineSetup true
  have S := lineRL ht
  have hr : ∀ x ∈ lineGrid.allPoints, ConvexRegion lineGrid (1 / 1000) true
      ((lineIteration t).dynamics x ![-1 / 2]).nextMean := fun _ _ => Or.inr ⟨rfl, Or.inl rfl⟩
  have hγ : (lineIteration t).gamma < 1 := by norm_num [lineIteration]
  have hsmall : (lineIteration t).gamma *
      (1 + Spec.boundaryDefect lineGrid.lo lineGrid.hi lineGrid.num (1 / 1000)) < 1 := by
    have : Spec.boundaryDefect lineGrid.lo lineGrid.hi lineGrid.num (1 / 1000) = 1 / 250 := by
      decide +kernel
    rw [this]
    norm_num [lineIteration]
  refine ⟨t, ht, (C60_unique_solution S hsmall).exists, ?_⟩
  classical
  let solve : Program ℚ → Status × List ℚ := fun p =>
    if h : ∃ v, Program.Optimal p v then (.optimal, h.choose) else (.other, [])
  have hs : SolverContract solve := by
    intro p hp
    by_cases h : ∃ v, Program.Optimal p v
    · simp only [solve, dif_pos h]
      exact h.choose_spec
    · simp only [solve, dif_neg h] at hp
      cases hp
  let vars : Vars ℚ 1 := ⟨[![0], ![0], ![0]], [![-1 / 2]]⟩
  have hl : vars.value.length = ∏ i, lineGrid.num i := by decide +kernel
  obtain ⟨p, hopt, h⟩ := C61_solvable_partial S hγ hr vars rfl hl
  obtain ⟨out, ho⟩ := (h solve).1 hs (by simp only [solve, dif_pos hopt])
  exact ⟨solve, vars, out, hs, ho, (C61_optimal_partial S hγ hr solve hs vars out rfl hl ho).1⟩

end SafeLearning
