import Verif.Props.ValueExamples
import Verif.Model.ExampleLoops
set_option autoImplicit false

/-!
# C106: values stay in the range of the discounted rewards
-/

namespace SafeLearning

set_option linter.unusedSectionVars false

open Spec PolicyIteration GridWorld

/-- All values are in `[a, b]`. -/
def _root_.Spec.InRange {K : Type} [LinearOrder K] (a b : K) (values : List (Fin 1 → K)) : Prop :=
  ∀ v ∈ values, a ≤ v 0 ∧ v 0 ≤ b

section

variable {K : Type} [Field K] [LinearOrder K] [IsStrictOrderedRing K] [FloorRing K] {d m : ℕ}
variable {g : GridWorld K d} {D : Delaunay K d} {eps : K} {project : Bool}
variable {P : PolicyIteration K d m} {pp : List (Fin m → K)} {act : (Fin d → K) → Fin m → K}

theorem inRange_toParams {n : ℕ} {a b : K} {θ : Fin n → K} :
    InRange a b (toParams θ) ↔ ∀ i, a ≤ θ i ∧ θ i ≤ b := by
  unfold InRange toParams
  simp only [List.mem_ofFn]
  constructor
  · intro h i
    exact h _ ⟨i, rfl⟩
  · rintro h v ⟨i, rfl⟩
    exact h i

theorem weighted_mem {n : ℕ} {w θ : Fin n → K} {a b : K} (h0 : ∀ j, 0 ≤ w j) (h1 : ∑ j, w j = 1)
    (h : ∀ j, a ≤ θ j ∧ θ j ≤ b) : a ≤ ∑ j, w j * θ j ∧ ∑ j, w j * θ j ≤ b := by
  constructor
  · calc a = ∑ j, w j * a := by rw [← Finset.sum_mul, h1, one_mul]
      _ ≤ _ := Finset.sum_le_sum fun j _ => mul_le_mul_of_nonneg_left (h j).1 (h0 j)
  · calc _ ≤ ∑ j, w j * b := Finset.sum_le_sum fun j _ => mul_le_mul_of_nonneg_left (h j).2 (h0 j)
      _ = b := by rw [← Finset.sum_mul, h1, one_mul]

/-- **C106 (iterates).** The rewards of the policy are in `[(1 - gamma) a, (1 - gamma) b]`. If the values are in `[a, b]`, they are after every number of
runs of `value_iteration`. Missing: next states in the boundary strip of domains with two or more dimensions, see `C106_boundary_refuted`. -/
theorem C106_iterates_partial (S : RLSetup P g D eps project pp act)
    (hr : ∀ x ∈ g.allPoints, ConvexRegion g eps project (P.dynamics x (act x)).nextMean) (a b : K)
    (hrew : ∀ x ∈ g.allPoints, (1 - P.gamma) * a ≤ P.reward x (act x) ∧ P.reward x (act x) ≤ (1 - P.gamma) * b)
    (n : ℕ) (vars : Vars K m) (hp : vars.policy = pp) (hlen : vars.value.length = ∏ i, g.num i)
    (h : InRange a b vars.value) :
    ∃ out, P.iterate eps n vars = .ok out ∧ InRange a b out.value := by
  obtain ⟨W, h1, -, h3, -, h5⟩ := valueIteration_eq S
  induction n generalizing vars with
  | zero => exact ⟨vars, rfl, h⟩
  | succ n ih =>
    obtain ⟨value, policy⟩ := vars
    simp only at hp hlen h
    subst hp
    obtain ⟨θ, rfl⟩ := toParams_surj value hlen
    rw [inRange_toParams] at h
    obtain ⟨out, ho, hR⟩ := ih ⟨toParams fun i => P.reward (pointAt g i) (act (pointAt g i)) +
        P.gamma * ∑ j, W i j * θ j, policy⟩ rfl (toParams_length _) (by
      rw [inRange_toParams]
      intro i
      obtain ⟨e1, e2⟩ := weighted_mem (h3 i (hr _ (pointAt_mem g i))) (h1 i) h
      obtain ⟨r1, r2⟩ := hrew _ (pointAt_mem g i)
      have f1 := mul_le_mul_of_nonneg_left e1 S.gamma
      have f2 := mul_le_mul_of_nonneg_left e2 S.gamma
      constructor <;> linarith)
    refine ⟨out, ?_, hR⟩
    unfold PolicyIteration.iterate
    rw [h5]
    exact ho

/-- **C106 (solution).** With the same rewards and `gamma < 1` the solution of the Bellman equation, in particular the result of
`optimize_value_function`, has its values in `[a, b]`. Missing: the boundary strip. -/
theorem C106_solution_partial (S : RLSetup P g D eps project pp act) (hγ : P.gamma < 1)
    (hr : ∀ x ∈ g.allPoints, ConvexRegion g eps project (P.dynamics x (act x)).nextMean) (a b : K)
    (hrew : ∀ x ∈ g.allPoints, (1 - P.gamma) * a ≤ P.reward x (act x) ∧ P.reward x (act x) ≤ (1 - P.gamma) * b)
    (θ : List (Fin 1 → K)) (hθ : Bellman P g eps act θ) : InRange a b θ := by
  obtain ⟨W, h1, -, h3, -, h5⟩ := valueIteration_eq S
  obtain ⟨hl, h⟩ := (bellman_iff S _).mp hθ
  obtain ⟨η, rfl⟩ := toParams_surj θ hl
  rw [h5] at h
  have hη := toParams_inj (congrArg Vars.value (Except.ok.inj h))
  have hW : ∀ i j, 0 ≤ W i j := fun i => h3 i (hr _ (pointAt_mem g i))
  have fix : ∀ i, η i = P.reward (pointAt g i) (act (pointAt g i)) + P.gamma * ∑ j, W i j * η j :=
    fun i => (congrFun hη i).symm
  have cst : ∀ (c : K) i, ∑ j, W i j * c = c := fun c i => by rw [← Finset.sum_mul, h1, one_mul]
  rw [inRange_toParams]
  intro i
  constructor
  · have := le_fixed_of_feasible S.gamma hγ hW h1 (v := η) fix (θ := fun _ => a) (fun k => by
      rw [cst]; linarith [(hrew _ (pointAt_mem g k)).1]) i
    exact this
  · have := le_fixed_of_feasible S.gamma hγ hW h1 (r := fun k => (1 - P.gamma) * b) (v := fun _ => b)
      (fun k => by rw [cst]; ring) (θ := η) (fun k => by
      rw [fix k]
      have := (hrew _ (pointAt_mem g k)).2
      have e := fix k
      linarith) i
    exact this

/-- **C106 (up to the boundary).** For all next states: if all rewards are at most `R` in absolute value and `c = gamma (1 + boundaryDefect) < 1`, the solution
of the Bellman equation is at most `R / (1 - c)` in absolute value. -/
theorem C106_bounded (S : RLSetup P g D eps project pp act)
    (hc : P.gamma * (1 + Spec.boundaryDefect g.lo g.hi g.num eps) < 1) (R : K)
    (hrew : ∀ x ∈ g.allPoints, |P.reward x (act x)| ≤ R) (θ : List (Fin 1 → K)) (hθ : Bellman P g eps act θ) :
    InRange (-(R / (1 - P.gamma * (1 + Spec.boundaryDefect g.lo g.hi g.num eps))))
      (R / (1 - P.gamma * (1 + Spec.boundaryDefect g.lo g.hi g.num eps))) θ := by
  obtain ⟨W, -, h2, -, -, h5⟩ := valueIteration_eq S
  obtain ⟨hl, h⟩ := (bellman_iff S _).mp hθ
  obtain ⟨η, rfl⟩ := toParams_surj θ hl
  rw [h5] at h
  have hη := toParams_inj (congrArg Vars.value (Except.ok.inj h))
  have fix : ∀ i, η i = P.reward (pointAt g i) (act (pointAt g i)) + P.gamma * ∑ j, W i j * η j :=
    fun i => (congrFun hη i).symm
  set δ := Spec.boundaryDefect g.lo g.hi g.num eps
  rw [inRange_toParams]
  intro i
  obtain ⟨k, -, hk⟩ := Finset.exists_max_image Finset.univ (fun i => |η i|) ⟨i, Finset.mem_univ i⟩
  have hw := weighted_diff (W k) η (fun _ => 0) (abs_nonneg (η k)) (h2 k) (fun j => by
    simpa using hk j (Finset.mem_univ j))
  simp only [mul_zero, Finset.sum_const_zero, sub_zero] at hw
  have h6 : |η k| ≤ R + P.gamma * ((1 + δ) * |η k|) := by
    calc |η k| = |P.reward (pointAt g k) (act (pointAt g k)) + P.gamma * ∑ j, W k j * η j| := by
          conv_lhs => rw [fix k]
      _ ≤ _ := (abs_add_le _ _).trans (add_le_add (hrew _ (pointAt_mem g k)) (by
          rw [abs_mul, abs_of_nonneg S.gamma]
          exact mul_le_mul_of_nonneg_left hw S.gamma))
  have h7 : |η k| ≤ R / (1 - P.gamma * (1 + δ)) := by
    rw [le_div_iff₀ (by linarith)]
    nlinarith
  exact abs_le.mp ((hk i (Finset.mem_univ i)).trans h7)

/-- **C106 (mountain car).** The reward of the mountain car is between `0` and `1 - gamma`, so the values are between `0` and `1`. -/
theorem C106_car_partial (S : RLSetup P g D eps project pp act) (hγ : P.gamma < 1)
    (hr : ∀ x ∈ g.allPoints, ConvexRegion g eps project (P.dynamics x (act x)).nextMean) (i : Fin d)
    (hrew : ∀ x u, P.reward x u = carReward P.gamma (x i)) (θ : List (Fin 1 → K)) (hθ : Bellman P g eps act θ) :
    InRange 0 1 θ := by
  refine C106_solution_partial S hγ hr 0 1 (fun x _ => ?_) θ hθ
  rw [hrew, carReward]
  split_ifs <;> constructor <;> linarith

end

/-- Dynamics that always lead to `stripPoint`; the reward is `1 - gamma` at the grid point `(0, 3)` and zero elsewhere. -/
def stripReward (t : Tri ℚ 2) : PolicyIteration ℚ 2 1 where
  policy _ _ := .ok 0
  policyGrid := exampleGrid
  dynamics _ _ := .exact stripPoint
  reward x _ := if x = ![0, 3] then 1 / 100 else 0
  valueFunction := t
  gamma := 99 / 100

/-- **C106 refuted** in the boundary strip of a two-dimensional domain: no reward is negative, and values of the solution are. -/
theorem C106_boundary_refuted {t : Tri ℚ 2}
    (ht : Tri.new exampleGrid (delaunay2D exampleGrid.unit) true = .ok t) :
    (∀ x u, 0 ≤ (stripReward t).reward x u ∧ (stripReward t).reward x u ≤ (1 - (stripReward t).gamma) * 1) ∧
    ∃ θ, Bellman (stripReward t) exampleGrid (1 / 1000) (fun _ => 0) θ ∧ ¬ InRange 0 1 θ := by
  constructor
  · intro x u
    simp only [stripReward]
    split_ifs <;> norm_num
  · have S : RLSetup (stripReward t) exampleGrid (delaunay2D exampleGrid.unit) (1 / 1000) true []
      (fun _ => 0) := ⟨exampleSetup, ht, by norm_num [stripReward], fun _ _ => rfl, fun _ _ => Or.inl rfl⟩
    obtain ⟨W, -, -, -, h4, h5⟩ := valueIteration_eq S
    have hrow : ∀ (θ : Fin (nParams exampleGrid) → ℚ) i, ∑ j, W i j * θ j = -1 / 1000 * θ ⟨5, by decide +kernel⟩ +
        1 / 1000 * θ ⟨1, by decide +kernel⟩ + θ ⟨4, by decide +kernel⟩ := by
      intro θ i
      have e1 := h4 i θ
      have e2 := strip_value ht θ
      have : t.tfEvaluate (1 / 1000) (toParams θ) stripPoint = .ok fun _ => ∑ j, W i j * θ j := e1
      rw [this] at e2
      simpa using congrFun (Except.ok.inj e2) 0
    let η : Fin (nParams exampleGrid) → ℚ := fun i => if i.1 = 5 then 901 / 100000 else -99 / 100000
    refine ⟨toParams η, (bellman_iff S _).mpr ⟨toParams_length _, ?_⟩, ?_⟩
    · rw [h5]
      congr 3
      funext i
      rw [hrow]
      have hpt : ∀ i : Fin (nParams exampleGrid), pointAt exampleGrid i = ![0, 3] ↔ i.1 = 5 := by decide +kernel
      simp only [stripReward, hpt, η]
      by_cases h : i.1 = 5 <;> norm_num [h]
    · rw [inRange_toParams]
      intro h
      have := (h ⟨0, by decide +kernel⟩).1
      norm_num [η] at this

/-- `lineIteration` has rewards in `[-4, 0]` and `gamma = 9/10`, so the values are in `[-40, 0]`. -/
example {t : Tri ℚ 1} (ht : Tri.new lineGrid (delaunay1D 0 (lineGrid.unit 0)) true = .ok t)
    (θ : List (Fin 1 → ℚ)) (hθ : Bellman (lineIteration t) lineGrid (1 / 1000) (fun _ => ![-1 / 2]) θ) :
    InRange (-40) 0 θ := by
  refine C106_solution_partial (lineRL ht) (by norm_num [lineIteration]) (fun x _ => Or.inr ⟨rfl, Or.inl rfl⟩) (-40) 0
    ?_ θ hθ
  have : ∀ x ∈ lineGrid.allPoints, (-4 : ℚ) ≤ -(x 0) ^ 2 ∧ -(x 0) ^ 2 ≤ (0 : ℚ) := by decide +kernel
  intro x hx
  have := this x hx
  norm_num [lineIteration] at this ⊢
  exact this

/-- A car on a line that drives to the right by `1/2` in each step. -/
def carLine (t : Tri ℚ 1) : PolicyIteration ℚ 1 1 where
  policy θ _ := rowAt θ 0
  policyGrid := lineGrid
  dynamics x a := .exact fun i => x i + a i
  reward x _ := carReward (9 / 10) (x 0)
  valueFunction := t
  gamma := 9 / 10

/-- The hypotheses of `C106_car_partial` hold for it. -/
example {t : Tri ℚ 1} (ht : Tri.new lineGrid (delaunay1D 0 (lineGrid.unit 0)) true = .ok t)
    (θ : List (Fin 1 → ℚ)) (hθ : Bellman (carLine t) lineGrid (1 / 1000) (fun _ => ![1 / 2]) θ) : InRange 0 1 θ :=
  C106_car_partial (P := carLine t) (pp := [![1 / 2]])
    ⟨lineSetup, ht, by norm_num [carLine], fun _ _ => rfl, fun _ _ => Or.inl rfl⟩ (by norm_num [carLine])
    (fun x _ => Or.inr ⟨rfl, Or.inl rfl⟩) 0 (fun _ _ => rfl) θ hθ

end SafeLearning
