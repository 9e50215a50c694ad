import Verif.Props.PolicyTermination
import Verif.Props.ValueExamples
set_option autoImplicit false

/-!
# C64 and C92 in the boundary strip of a two-dimensional domain
-/

namespace SafeLearning

open Spec PolicyIteration GridWorld

section Claims

variable {K : Type} [Field K] [LinearOrder K] [IsStrictOrderedRing K] [FloorRing K] {d m : ℕ}

/-- What C64 claims of a problem with `n` states: solving for the values of an available policy, optimising the policy and
solving again gives values that are at least as large in every state. -/
def _root_.Spec.RoundImproves (P : PolicyIteration K d m) (eps : K) (n : ℕ)
    (solve : Program K → Status × List K) (constraint : Option (List (Fin m → K) → List K))
    (actionSpace : List (Fin m → K)) : Prop :=
  ∀ vars v1 v2 v3 : Vars K m, vars.value.length = n → vars.policy.length = n →
    Spec.AvailableParams constraint actionSpace vars.policy →
    P.optimizeValueFunction eps solve vars = .ok v1 →
    P.discretePolicyOptimization eps v1 actionSpace constraint = .ok v2 →
    P.optimizeValueFunction eps solve v2 = .ok v3 →
    Below v1.value v3.value

/-- What C92 claims of a problem with `n` states: the rounds of policy iteration reach values that do not change any more,
and no available policy has a larger value in any state. -/
def _root_.Spec.RoundsReachOptimum (P : PolicyIteration K d m) (eps : K) (n : ℕ)
    (solve : Program K → Status × List K) (constraint : Option (List (Fin m → K) → List K))
    (actionSpace : List (Fin m → K)) : Prop :=
  ∀ before solved : ℕ → Vars K m, (before 0).value.length = n → (before 0).policy.length = n →
    Spec.AvailableParams constraint actionSpace (before 0).policy →
    (∀ k, P.optimizeValueFunction eps solve (before k) = .ok (solved k)) →
    (∀ k, P.discretePolicyOptimization eps (solved k) actionSpace constraint = .ok (before (k + 1))) →
    ∃ N, (∀ k, N ≤ k → (solved k).value = (solved N).value) ∧
      ∀ vars out : Vars K m, vars.value.length = n → vars.policy.length = n →
        Spec.AvailableParams constraint actionSpace vars.policy →
        P.optimizeValueFunction eps solve vars = .ok out → Below out.value (solved N).value

end Claims

/-- Grid point `0` leads to `stripPoint`, all other states to the last grid point. Action `1` pays one at grid point `5` and
costs one everywhere else; action `0` is free. -/
def trapControl (t : Tri ℚ 2) : PolicyIteration ℚ 2 1 where
  policy params x := t.tfEvaluate (1 / 1000) params x
  policyGrid := exampleGrid
  dynamics x _ := .exact (if x = ![-1, 2] then stripPoint else ![1, 5])
  reward x a := if x = ![0, 3] then a 0 else -(a 0)
  valueFunction := t
  gamma := 99 / 100

/-- The two actions. -/
def trapActions : List (Fin 1 → ℚ) := [![0], ![1]]

/-- The best actions. -/
def trapBest (x : Fin 2 → ℚ) : Fin 1 → ℚ := if x = ![0, 3] then ![1] else ![0]

theorem trap_small : ∑ i, 2 * (1 / 1000 : ℚ) /
    ((exampleGrid.hi i - exampleGrid.lo i) / ((exampleGrid.num i : ℚ) - 1)) < 1 := by decide +kernel

theorem trap_prod : ∏ i, exampleGrid.num i = 12 := by decide +kernel

theorem trap_points : exampleGrid.allPoints.length = 12 := by decide +kernel

/-- The point of an index, for the indices that matter. -/
theorem trap_point : ∀ i : Fin (nParams exampleGrid),
    (pointAt exampleGrid i = ![-1, 2] ↔ i.1 = 0) ∧ (pointAt exampleGrid i = ![0, 3] ↔ i.1 = 5) := by
  decide +kernel

variable {t : Tri ℚ 2}

/-- A policy given by one action per grid point. -/
theorem trapSetup (ht : Tri.new exampleGrid (delaunay2D exampleGrid.unit) true = .ok t)
    (act : (Fin 2 → ℚ) → Fin 1 → ℚ) :
    RLSetup (trapControl t) exampleGrid (delaunay2D exampleGrid.unit) (1 / 1000) true
      (exampleGrid.allPoints.map act) act where
  tri := exampleSetup
  new := ht
  gamma := by norm_num [trapControl]
  policy x hx := by
    obtain ⟨s, hs⟩ := List.mem_iff_getElem?.mp hx
    obtain ⟨a, e1, e2⟩ := policy_interpolates_tri exampleSetup ht trap_small (exampleGrid.allPoints.map act)
      (by rw [List.length_map, (C03_all_points_enumerates exampleGrid).1]) s x hs
    rw [List.getElem?_map, hs] at e1
    cases e1
    exact e2
  next _ _ := Or.inl rfl

/-- The value at the last grid point. -/
theorem trap_last (ht : Tri.new exampleGrid (delaunay2D exampleGrid.unit) true = .ok t)
    (θ : Fin (nParams exampleGrid) → ℚ) :
    t.tfEvaluate (1 / 1000) (toParams θ) ![1, 5] = .ok fun _ => θ ⟨11, by decide +kernel⟩ := by
  obtain ⟨a, e1, e2⟩ := policy_interpolates_tri exampleSetup ht trap_small (toParams θ)
    (toParams_length θ) 11 ![1, 5] (by decide +kernel)
  rw [toParams_getElem? θ 11 (by decide +kernel)] at e1
  cases e1
  exact e2

/-- The value of the next state. -/
theorem trap_next (ht : Tri.new exampleGrid (delaunay2D exampleGrid.unit) true = .ok t)
    (θ : Fin (nParams exampleGrid) → ℚ) (x : Fin 2 → ℚ) (a : Fin 1 → ℚ) :
    t.tfEvaluate (1 / 1000) (toParams θ) ((trapControl t).dynamics x a).nextMean =
      .ok fun _ => if x = ![-1, 2] then
        -1 / 1000 * θ ⟨5, by decide +kernel⟩ + 1 / 1000 * θ ⟨1, by decide +kernel⟩ + θ ⟨4, by decide +kernel⟩
      else θ ⟨11, by decide +kernel⟩ := by
  by_cases h : x = ![-1, 2]
  · simp only [trapControl, Prediction.nextMean, if_pos h]
    exact strip_value ht θ
  · simp only [trapControl, Prediction.nextMean, if_neg h]
    exact trap_last ht θ

/-- The values of a policy in closed form, from its rewards. -/
def trapValue (r : ℕ → ℚ) (i : ℕ) : ℚ :=
  if i = 0 then
    r 0 + 99 / 100 * (-1 / 1000 * (r 5 + 99 * r 11) + 1 / 1000 * (r 1 + 99 * r 11) + (r 4 + 99 * r 11))
  else r i + 99 * r 11

/-- The rewards of a policy. -/
def trapReward (act : (Fin 2 → ℚ) → Fin 1 → ℚ) (i : ℕ) : ℚ :=
  if h : i < nParams exampleGrid then
    (if i = 5 then (act (pointAt exampleGrid ⟨i, h⟩)) 0 else -(act (pointAt exampleGrid ⟨i, h⟩) 0))
  else 0

/-- `optimize_value_function` finds the values of every policy. -/
theorem trap_optimize (ht : Tri.new exampleGrid (delaunay2D exampleGrid.unit) true = .ok t)
    (act : (Fin 2 → ℚ) → Fin 1 → ℚ)
    (solve : Program ℚ → Status × List ℚ) (hs : SolverContract solve)
    (hc : ∀ p, (∃ values, Program.Optimal p values) → (solve p).1 = .optimal)
    (vars : Vars ℚ 1) (hp : vars.policy = exampleGrid.allPoints.map act)
    (hl : vars.value.length = 12) :
    (trapControl t).optimizeValueFunction (1 / 1000) solve vars =
      .ok ⟨toParams fun i : Fin (nParams exampleGrid) => trapValue (trapReward act) i.1, vars.policy⟩ := by
  obtain ⟨W, B, -, -, -, h4, -, h6, h7⟩ := program_eq (trapSetup ht act)
  set r := trapReward act with hr
  have hrew : ∀ i : Fin (nParams exampleGrid),
      (trapControl t).reward (pointAt exampleGrid i) (act (pointAt exampleGrid i)) = r i.1 := by
    intro i
    simp only [hr, trapReward, dif_pos i.2, trapControl, (trap_point i).2]
  have hrow : ∀ (θ : Fin (nParams exampleGrid) → ℚ) i, ∑ j, W i j * θ j = if i.1 = 0 then
      -1 / 1000 * θ ⟨5, by decide +kernel⟩ + 1 / 1000 * θ ⟨1, by decide +kernel⟩ + θ ⟨4, by decide +kernel⟩
      else θ ⟨11, by decide +kernel⟩ := by
    intro θ i
    have e1 := h4 i θ
    have e2 := trap_next ht θ (pointAt exampleGrid i) (act (pointAt exampleGrid i))
    have e3 := (Except.ok.inj (e1.symm.trans e2))
    simpa only [(trap_point i).1] using congrFun e3 0
  -- bounds on feasible values
  have hfeas : ∀ θ : Fin (nParams exampleGrid) → ℚ, Program.Feasible
      ⟨List.ofFn fun i => (trapControl t).reward (pointAt exampleGrid i) (act (pointAt exampleGrid i)),
        (trapControl t).gamma, B⟩ (List.ofFn θ) ↔ ∀ i, θ i ≤ r i.1 + 99 / 100 * if i.1 = 0 then
      -1 / 1000 * θ ⟨5, by decide +kernel⟩ + 1 / 1000 * θ ⟨1, by decide +kernel⟩ + θ ⟨4, by decide +kernel⟩
      else θ ⟨11, by decide +kernel⟩ := by
    intro θ
    rw [h6]
    simp only [hrew, hrow]
    rfl
  have hsum : ∀ θ : Fin (nParams exampleGrid) → ℚ, (List.ofFn θ).sum =
      θ ⟨0, by decide +kernel⟩ + θ ⟨1, by decide +kernel⟩ + θ ⟨2, by decide +kernel⟩ +
      θ ⟨3, by decide +kernel⟩ + θ ⟨4, by decide +kernel⟩ + θ ⟨5, by decide +kernel⟩ +
      θ ⟨6, by decide +kernel⟩ + θ ⟨7, by decide +kernel⟩ + θ ⟨8, by decide +kernel⟩ +
      θ ⟨9, by decide +kernel⟩ + θ ⟨10, by decide +kernel⟩ + θ ⟨11, by decide +kernel⟩ := by
    have : ∀ n (h : n = 12) (θ : Fin n → ℚ), (List.ofFn θ).sum =
      θ ⟨0, by omega⟩ + θ ⟨1, by omega⟩ + θ ⟨2, by omega⟩ +
      θ ⟨3, by omega⟩ + θ ⟨4, by omega⟩ + θ ⟨5, by omega⟩ +
      θ ⟨6, by omega⟩ + θ ⟨7, by omega⟩ + θ ⟨8, by omega⟩ +
      θ ⟨9, by omega⟩ + θ ⟨10, by omega⟩ + θ ⟨11, by omega⟩ := by
      intro n h θ
      subst h
      rw [List.sum_ofFn]
      simp only [Fin.sum_univ_succ, Fin.sum_univ_zero]
      simp only [Fin.succ, Fin.zero_eta]
      ring_nf
    exact fun θ => this _ nParams_example θ
  let best : Fin (nParams exampleGrid) → ℚ := fun i => trapValue r i.1
  have hbest : Program.Feasible
      ⟨List.ofFn fun i => (trapControl t).reward (pointAt exampleGrid i) (act (pointAt exampleGrid i)),
        (trapControl t).gamma, B⟩ (List.ofFn best) := by
    rw [hfeas]
    intro i
    by_cases h : i.1 = 0
    · simp only [best, trapValue, h, if_true]
      norm_num
    · simp only [best, trapValue, h, if_false]
      norm_num
      linarith
  have hle : ∀ θ : Fin (nParams exampleGrid) → ℚ, Program.Feasible
      ⟨List.ofFn fun i => (trapControl t).reward (pointAt exampleGrid i) (act (pointAt exampleGrid i)),
        (trapControl t).gamma, B⟩ (List.ofFn θ) →
      (∀ i, i.1 ≠ 0 → θ i ≤ best i) ∧ θ ⟨0, by decide +kernel⟩ - best ⟨0, by decide +kernel⟩ ≤
        99 / 100000 * (best ⟨5, by decide +kernel⟩ - θ ⟨5, by decide +kernel⟩) +
        99 / 100000 * (θ ⟨1, by decide +kernel⟩ - best ⟨1, by decide +kernel⟩) +
        99 / 100 * (θ ⟨4, by decide +kernel⟩ - best ⟨4, by decide +kernel⟩) := by
    intro θ h
    rw [hfeas] at h
    have h11 := h ⟨11, by decide +kernel⟩
    norm_num at h11
    refine ⟨fun i hi => ?_, ?_⟩
    · have := h i
      rw [if_neg hi] at this
      simp only [best, trapValue, if_neg hi]
      linarith
    · have := h ⟨0, by decide +kernel⟩
      norm_num at this
      norm_num [best, trapValue]
      linarith
  have hfn : ∀ values, Program.Feasible
      ⟨List.ofFn fun i => (trapControl t).reward (pointAt exampleGrid i) (act (pointAt exampleGrid i)),
        (trapControl t).gamma, B⟩ values → ∃ θ : Fin (nParams exampleGrid) → ℚ, values = List.ofFn θ := by
    intro values hv
    have hl := hv.1
    simp only [List.length_ofFn] at hl
    refine ⟨fun i => values[i.1]'(by rw [hl]; exact i.2), ?_⟩
    apply List.ext_getElem (by simp [hl])
    intro k h1 h2
    simp
  have hmax : Program.Optimal
      ⟨List.ofFn fun i => (trapControl t).reward (pointAt exampleGrid i) (act (pointAt exampleGrid i)),
        (trapControl t).gamma, B⟩ (List.ofFn best) := by
    refine ⟨hbest, fun values hv => ?_⟩
    obtain ⟨θ, rfl⟩ := hfn values hv
    obtain ⟨h1, h2⟩ := hle θ hv
    rw [hsum, hsum]
    have b1 := h1 ⟨1, by decide +kernel⟩ (by norm_num)
    have b2 := h1 ⟨2, by decide +kernel⟩ (by norm_num)
    have b3 := h1 ⟨3, by decide +kernel⟩ (by norm_num)
    have b4 := h1 ⟨4, by decide +kernel⟩ (by norm_num)
    have b5 := h1 ⟨5, by decide +kernel⟩ (by norm_num)
    have b6 := h1 ⟨6, by decide +kernel⟩ (by norm_num)
    have b7 := h1 ⟨7, by decide +kernel⟩ (by norm_num)
    have b8 := h1 ⟨8, by decide +kernel⟩ (by norm_num)
    have b9 := h1 ⟨9, by decide +kernel⟩ (by norm_num)
    have b10 := h1 ⟨10, by decide +kernel⟩ (by norm_num)
    have b11 := h1 ⟨11, by decide +kernel⟩ (by norm_num)
    linarith
  rw [h7 solve vars hp]
  have hopt := hc _ ⟨_, hmax⟩
  obtain ⟨s1, s2⟩ := hs _ hopt
  obtain ⟨θ, hθ⟩ := hfn _ s1
  have s3 := s2 _ hbest
  rw [hθ] at s1 s3
  obtain ⟨h1, h2⟩ := hle θ s1
  rw [hsum, hsum] at s3
  have heq : θ = best := by
    have b1 := h1 ⟨1, by decide +kernel⟩ (by norm_num)
    have b2 := h1 ⟨2, by decide +kernel⟩ (by norm_num)
    have b3 := h1 ⟨3, by decide +kernel⟩ (by norm_num)
    have b4 := h1 ⟨4, by decide +kernel⟩ (by norm_num)
    have b5 := h1 ⟨5, by decide +kernel⟩ (by norm_num)
    have b6 := h1 ⟨6, by decide +kernel⟩ (by norm_num)
    have b7 := h1 ⟨7, by decide +kernel⟩ (by norm_num)
    have b8 := h1 ⟨8, by decide +kernel⟩ (by norm_num)
    have b9 := h1 ⟨9, by decide +kernel⟩ (by norm_num)
    have b10 := h1 ⟨10, by decide +kernel⟩ (by norm_num)
    have b11 := h1 ⟨11, by decide +kernel⟩ (by norm_num)
    funext i
    obtain ⟨i, hi⟩ := i
    have hi' : i < 12 := by rw [← nParams_example]; exact hi
    apply le_antisymm <;> interval_cases i <;> linarith
  simp only [hopt, ne_eq, not_true_eq_false, if_false]
  rw [hθ, heq]
  unfold assignValue
  rw [if_pos (by rw [List.length_ofFn, nParams_example, hl])]
  simp only [toParams, List.map_ofFn]
  rfl

/-- `discrete_policy_optimization` picks the best actions, whatever the values are. -/
theorem trap_policy (ht : Tri.new exampleGrid (delaunay2D exampleGrid.unit) true = .ok t)
    (vars : Vars ℚ 1) (hl : vars.value.length = 12) (hp : vars.policy.length = 12) :
    (trapControl t).discretePolicyOptimization (1 / 1000) vars trapActions none =
      .ok ⟨vars.value, exampleGrid.allPoints.map trapBest⟩ := by
  obtain ⟨value, policy⟩ := vars
  simp only at hl hp ⊢
  obtain ⟨θ, rfl⟩ := toParams_surj (n := nParams exampleGrid) value (by rw [hl, nParams_example])
  have hval : ∀ x a, (trapControl t).futureValue (1 / 1000) ⟨toParams θ, policy⟩ none 1 x a = .ok _ := fun x a =>
    futureValue_none (P := trapControl t) (vars := ⟨toParams θ, policy⟩) x a (trap_next ht θ x a) 1
  obtain ⟨out, ho⟩ := C63_defined (P := trapControl t) (eps := 1 / 1000) ⟨toParams θ, policy⟩ trapActions
    (by simp [trapActions]) none (fun c h => by cases h) (fun x _ a _ => ⟨_, hval x a⟩)
    (by rw [hp]; exact trap_points.symm)
  rw [ho]
  obtain ⟨-, -, -, -, -, e1, e2⟩ := policyOptimization_inv ho
  obtain ⟨ov, op⟩ := out
  simp only at e1 e2
  subst e1
  congr 2
  apply List.ext_getElem?
  intro s
  by_cases hs : s < exampleGrid.allPoints.length
  · rw [List.getElem?_map, List.getElem?_eq_getElem hs, Option.map_some]
    obtain ⟨-, k, a, v, h1, h2, h3, h4⟩ := C63_best_safe_action_partial ho s exampleGrid.allPoints[s]
      (List.getElem?_eq_getElem hs)
    generalize exampleGrid.allPoints[s] = x at *
    simp only at h1
    rw [h1]
    congr 1
    rw [hval x a] at h3
    obtain ⟨-, v0, g1, g2, -⟩ := h4 0 ![0] rfl (fun c hc => by cases hc)
    obtain ⟨-, v1, f1, f2, -⟩ := h4 1 ![1] rfl (fun c hc => by cases hc)
    rw [hval x ![0]] at g1
    rw [hval x ![1]] at f1
    have g1 := Except.ok.inj g1
    have f1 := Except.ok.inj f1
    have h3 := Except.ok.inj h3
    rw [← g1, ← h3] at g2
    rw [← f1, ← h3] at f2
    have ha : a = ![0] ∨ a = ![1] := by
      have := List.mem_of_getElem? h2
      simpa [trapActions] using this
    unfold trapBest
    by_cases hx : x = ![0, 3]
    · rw [if_pos hx]
      rcases ha with rfl | rfl
      · simp only [trapControl, if_pos hx] at f2
        norm_num at f2
      · rfl
    · rw [if_neg hx]
      rcases ha with rfl | rfl
      · rfl
      · simp only [trapControl, if_neg hx] at g2
        norm_num at g2
  · rw [List.getElem?_eq_none (by rw [e2, hp, ← trap_points]; omega),
      List.getElem?_eq_none (by rw [List.length_map]; omega)]

/-- Policies with the two actions are available. -/
theorem trap_available (act : (Fin 2 → ℚ) → Fin 1 → ℚ) (h : ∀ x, act x ∈ trapActions) :
    Spec.AvailableParams none trapActions (exampleGrid.allPoints.map act) := by
  intro s a hsa
  rw [List.getElem?_map] at hsa
  cases hx : exampleGrid.allPoints[s]? with
  | none => rw [hx] at hsa; cases hsa
  | some x =>
    rw [hx] at hsa
    cases hsa
    exact ⟨h x, fun c hc => by cases hc⟩

/-- The policy that always takes the free action is better at grid point `0` than the best actions. -/
theorem trap_worse : ¬ Below
    (toParams fun i : Fin (nParams exampleGrid) => trapValue (trapReward fun _ => ![0]) i.1)
    (toParams fun i : Fin (nParams exampleGrid) => trapValue (trapReward trapBest) i.1) := by
  intro h
  have := below_toParams.mp h ⟨0, by decide +kernel⟩
  revert this
  decide +kernel

/-- **C64 refuted** in the boundary strip of a two-dimensional domain: with every correct solver, the optimised policy
has a smaller value in one state. The next state of that state is at a distance of `_EPS` from a grid point, where
the weight of another grid point is negative. -/
theorem C64_boundary_refuted (ht : Tri.new exampleGrid (delaunay2D exampleGrid.unit) true = .ok t)
    (solve : Program ℚ → Status × List ℚ) (hs : SolverContract solve)
    (hc : ∀ p, (∃ values, Program.Optimal p values) → (solve p).1 = .optimal) :
    ¬ Spec.RoundImproves (trapControl t) (1 / 1000) 12 solve none trapActions := by
  intro h
  have hl : ∀ act : (Fin 2 → ℚ) → Fin 1 → ℚ, (exampleGrid.allPoints.map act).length = 12 :=
    fun act => by rw [List.length_map, trap_points]
  exact trap_worse (h ⟨List.replicate 12 0, exampleGrid.allPoints.map fun _ => ![0]⟩ _ _ _ (by simp) (hl _)
    (trap_available (fun _ => ![0]) fun _ => by simp [trapActions])
    (trap_optimize ht (fun _ => ![0]) solve hs hc _ rfl (by simp))
    (trap_policy ht _ (by simp only [toParams_length, nParams_example]) (hl _)) (trap_optimize ht trapBest solve hs hc _ rfl (by simp only [toParams_length, nParams_example])))

/-- **C92 refuted** in the boundary strip of a two-dimensional domain: with every correct solver, policy iteration stops at
a policy that has a smaller value in one state than another available policy. -/
theorem C92_boundary_refuted (ht : Tri.new exampleGrid (delaunay2D exampleGrid.unit) true = .ok t)
    (solve : Program ℚ → Status × List ℚ) (hs : SolverContract solve)
    (hc : ∀ p, (∃ values, Program.Optimal p values) → (solve p).1 = .optimal) :
    ¬ Spec.RoundsReachOptimum (trapControl t) (1 / 1000) 12 solve none trapActions := by
  intro h
  have hl : ∀ act : (Fin 2 → ℚ) → Fin 1 → ℚ, (exampleGrid.allPoints.map act).length = 12 :=
    fun act => by rw [List.length_map, trap_points]
  let fin : Vars ℚ 1 := ⟨toParams fun i : Fin (nParams exampleGrid) => trapValue (trapReward trapBest) i.1,
    exampleGrid.allPoints.map trapBest⟩
  have hlf : fin.value.length = 12 := by
    simp only [fin, toParams_length, nParams_example]
  have h1 := trap_optimize ht trapBest solve hs hc fin rfl hlf
  have hbest : ∀ x, trapBest x ∈ trapActions := fun x => by
    unfold trapBest trapActions
    split_ifs <;> simp
  obtain ⟨N, -, hN⟩ := h (fun _ => fin) (fun _ => fin) hlf (hl _) (trap_available _ hbest)
    (fun _ => h1) (fun _ => trap_policy ht fin hlf (hl _))
  exact trap_worse (hN ⟨List.replicate 12 0, exampleGrid.allPoints.map fun _ => ![0]⟩ _ (by simp) (hl _)
    (trap_available (fun _ => ![0]) fun _ => by simp [trapActions])
    (trap_optimize ht (fun _ => ![0]) solve hs hc _ rfl (by simp)))

/-- The triangulation and a solver as in the refutations exist. -/
example : ∃ (t : Tri ℚ 2) (solve : Program ℚ → Status × List ℚ),
    Tri.new exampleGrid (delaunay2D exampleGrid.unit) true = .ok t ∧ SolverContract solve ∧
      ∀ p, (∃ values, Program.Optimal p values) → (solve p).1 = .optimal := by
  classical
  obtain ⟨t, ht⟩ := C09_construction exampleSetup true
  refine ⟨t, fun p => if h : ∃ v, Program.Optimal p v then (.optimal, h.choose) else (.other, []), ht,
    fun p hp => ?_, fun p hp => by simp only [dif_pos hp]⟩
  by_cases h : ∃ v, Program.Optimal p v
  · simp only [dif_pos h]
    exact h.choose_spec
  · simp only [dif_neg h] at hp
    cases hp

end SafeLearning
