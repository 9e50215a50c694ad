import Verif.Lemmas.ValueFunction
import Mathlib.LinearAlgebra.FiniteDimensional.Basic
import Mathlib.LinearAlgebra.FiniteDimensional.Lemmas
import Mathlib.Algebra.Order.Archimedean.Basic
import Mathlib.Algebra.Order.BigOperators.Group.Finset
set_option autoImplicit false

/-!
# C59-C62: value iteration, the linear program for the value function, and the Bellman error
-/

namespace SafeLearning

set_option linter.unusedSectionVars false

open Spec

variable {K : Type} [Field K] [LinearOrder K] [IsStrictOrderedRing K] [FloorRing K] {d m : ℕ}
variable {g : GridWorld K d} {D : Delaunay K d} {eps : K} {project : Bool}
variable {P : PolicyIteration K d m} {pp : List (Fin m → K)} {act : (Fin d → K) → Fin m → K}

/-- The value function is a triangulation on a valid grid, the discount factor is not negative, and the policy (with
parameters `pp`) returns the action `act x` at every grid point `x`. The value function projects, or the next states
are in the domain. -/
structure RLSetup (P : PolicyIteration K d m) (g : GridWorld K d) (D : Delaunay K d) (eps : K)
    (project : Bool) (pp : List (Fin m → K)) (act : (Fin d → K) → Fin m → K) : Prop where
  tri : TriSetup g D eps
  new : Tri.new g D project = .ok P.valueFunction
  gamma : 0 ≤ P.gamma
  policy : ∀ x ∈ g.allPoints, P.policy pp x = .ok (act x)
  next : ∀ x ∈ g.allPoints, project = true ∨ InBox g.lo g.hi (P.dynamics x (act x)).nextMean

/-- Number of parameters. -/
abbrev nParams (g : GridWorld K d) : ℕ := ∏ i, g.num i

/-- The grid point number `i`. -/
def pointAt (g : GridWorld K d) (i : Fin (nParams g)) : Fin d → K :=
  g.allPoints[i.1]'(by rw [(GridWorld.C03_all_points_enumerates g).1]; exact i.2)

theorem pointAt_mem (g : GridWorld K d) (i : Fin (nParams g)) : pointAt g i ∈ g.allPoints :=
  List.getElem_mem _

theorem allPoints_eq_ofFn (g : GridWorld K d) : g.allPoints = List.ofFn (pointAt g) := by
  apply List.ext_getElem
  · simp [(GridWorld.C03_all_points_enumerates g).1]
  · intro k h1 h2
    simp [pointAt]

theorem futureValue_none (x : Fin d → K) (a : Fin m → K) {vars : Vars K m} {e : Fin 1 → K}
    (he : P.valueFunction.tfEvaluate eps vars.value (P.dynamics x a).nextMean = .ok e) (c : K) :
    P.futureValue eps vars none c x a = .ok (P.reward x a + P.gamma * e 0) := by
  unfold PolicyIteration.futureValue
  simp only [he, bind, Except.bind]
  rfl

theorem futureValues_policy {vars : Vars K m} {states : List (Fin d → K)}
    {act : (Fin d → K) → Fin m → K} (hp : ∀ x ∈ states, P.policy vars.policy x = .ok (act x))
    {f : (Fin d → K) → K}
    (hf : ∀ x ∈ states, P.futureValue eps vars none 1 x (act x) = .ok (f x)) :
    P.futureValues eps vars states = .ok (states.map f) := by
  unfold PolicyIteration.futureValues
  simp only [Option.getD_none]
  rw [mapM_ok hp]
  simp only [bind, Except.bind, List.length_map, ne_eq, not_true_eq_false, if_false]
  have : states.zip (states.map act) = states.map fun x => (x, act x) := by
    rw [List.zip_map_right]
    induction states with
    | nil => rfl
    | cons a l ih =>
      have := ih (fun x hx => hp x (List.mem_cons_of_mem _ hx))
        (fun x hx => hf x (List.mem_cons_of_mem _ hx))
      simp only [List.zip_cons_cons, List.map_cons, Prod.map_apply, id_eq, List.cons.injEq, true_and]
      exact this
  rw [this]
  have h2 := mapM_ok (l := states.map fun x => (x, act x))
    (f := fun sa => P.futureValue eps vars none 1 sa.1 sa.2) (g := fun sa => f sa.1) (by
      intro sa hsa
      obtain ⟨x, hx, rfl⟩ := List.mem_map.mp hsa
      exact hf x hx)
  rw [h2, List.map_map]
  rfl

/-- The value update in terms of weights. -/
theorem valueIteration_eq (S : RLSetup P g D eps project pp act) :
    ∃ W : Fin (nParams g) → Fin (nParams g) → K,
      (∀ i, ∑ j, W i j = 1) ∧
      (∀ i, ∑ j, |W i j| ≤ 1 + Spec.boundaryDefect g.lo g.hi g.num eps) ∧
      (∀ i, ConvexRegion g eps project (P.dynamics (pointAt g i) (act (pointAt g i))).nextMean →
        ∀ j, 0 ≤ W i j) ∧
      (∀ i θ, P.valueFunction.tfEvaluate eps (toParams θ)
        (P.dynamics (pointAt g i) (act (pointAt g i))).nextMean = .ok fun _ => ∑ j, W i j * θ j) ∧
      ∀ θ, P.valueIteration eps ⟨toParams θ, pp⟩ =
        .ok ⟨toParams fun i => P.reward (pointAt g i) (act (pointAt g i)) +
          P.gamma * ∑ j, W i j * θ j, pp⟩ := by
  choose! W h1 h2 h3 h4 using fun x (hx : x ∈ g.allPoints) =>
    exists_row S.tri S.new (P.dynamics x (act x)).nextMean (S.next x hx)
  have hm := pointAt_mem g
  refine ⟨fun i => W (pointAt g i), fun i => h1 _ (hm i), fun i => h2 _ (hm i),
    fun i => h3 _ (hm i), fun i => h4 _ (hm i), fun θ => ?_⟩
  unfold PolicyIteration.valueIteration PolicyIteration.stateSpace
  rw [(S.tri.good S.new).disc]
  rw [futureValues_policy (act := act) (fun x hx => S.policy x hx)
    (fun x hx => futureValue_none x (act x) (h4 x hx θ) 1)]
  simp only [bind, Except.bind, PolicyIteration.assignValue]
  rw [if_pos (by rw [List.length_map, toParams_length, (GridWorld.C03_all_points_enumerates g).1])]
  congr 2
  rw [allPoints_eq_ofFn, List.map_ofFn, List.map_ofFn]
  rfl

/-! ## C59 -/

/-- **C59 (wrong sizes).** If the value function has another number of parameters than there are states, `value_iteration` raises `ValueError`. -/
theorem C59_wrong_size (P : PolicyIteration K d m) (eps : K) (vars : Vars K m) (values : List K)
    (hv : P.futureValues eps vars P.stateSpace = .ok values) (hl : values.length ≠ vars.value.length) :
    P.valueIteration eps vars = .error .valueError := by
  unfold PolicyIteration.valueIteration PolicyIteration.assignValue
  simp [hv, hl, bind, Except.bind]

/-- **C59 (the update).** `value_iteration` succeeds, keeps the policy parameters, and the new parameter of every grid
point `x` is `reward(x, a) + gamma * V(next state)` for the action `a` of the policy. -/
theorem C59_update (S : RLSetup P g D eps project pp act) (vars : Vars K m) (hp : vars.policy = pp)
    (hlen : vars.value.length = ∏ i, g.num i) :
    ∃ out, P.valueIteration eps vars = .ok out ∧ out.policy = pp ∧
      out.value.length = ∏ i, g.num i ∧
      ∀ k x, IsGridPoint g.lo g.hi g.num k x → ∃ v e, out.value[k]? = some v ∧
        P.valueFunction.evaluate eps vars.value (P.dynamics x (act x)).nextMean = .ok e ∧
        v 0 = P.reward x (act x) + P.gamma * e 0 := by
  obtain ⟨W, -, -, -, h4, h5⟩ := valueIteration_eq S
  obtain ⟨θ, hθ⟩ := toParams_surj vars.value hlen
  obtain ⟨value, policy⟩ := vars
  simp only at hθ hp hlen
  subst hθ hp
  refine ⟨_, h5 θ, rfl, toParams_length _, fun k x hx => ?_⟩
  have hk : k < ∏ i, g.num i := by
    obtain ⟨a, ha, rfl, _⟩ := hx
    rw [Spec.rowMajor, ← ravel_eq_sum]
    exact ravel_lt _ _ ha
  have hpt : pointAt g ⟨k, hk⟩ = x := by
    refine IsGridPoint.unique ?_ hx
    exact ((GridWorld.C03_all_points_enumerates g).2 k _).2
  refine ⟨_, fun _ => ∑ j, W ⟨k, hk⟩ j * θ j, toParams_getElem? _ k hk, ?_, ?_⟩
  · rw [← C17_tf_agrees]
    have := h4 ⟨k, hk⟩ θ
    rwa [hpt] at this
  · rw [hpt]

/-- **C59 (monotone).** If no next state is in the boundary strip (or the domain is one-dimensional), larger values
give larger updated values. Missing: next states in the strip of width `2 * _EPS`, see `C59_boundary_refuted`. -/
theorem C59_monotone_partial (S : RLSetup P g D eps project pp act)
    (hr : ∀ x ∈ g.allPoints, ConvexRegion g eps project (P.dynamics x (act x)).nextMean)
    (vars vars' out out' : Vars K m) (hp : vars.policy = pp) (hp' : vars'.policy = pp)
    (hlen : vars.value.length = ∏ i, g.num i) (hlen' : vars'.value.length = ∏ i, g.num i)
    (ho : P.valueIteration eps vars = .ok out) (ho' : P.valueIteration eps vars' = .ok out')
    (h : Below vars.value vars'.value) : Below out.value out'.value := by
  obtain ⟨W, -, -, h3, -, h5⟩ := valueIteration_eq S
  obtain ⟨value, policy⟩ := vars
  obtain ⟨value', policy'⟩ := vars'
  simp only at hlen hlen' h hp hp'
  obtain ⟨θ, rfl⟩ := toParams_surj value hlen
  obtain ⟨θ', rfl⟩ := toParams_surj value' hlen'
  subst hp
  subst hp'
  rw [h5] at ho ho'
  cases ho; cases ho'
  rw [below_toParams] at h ⊢
  intro i
  have : ∑ j, W i j * θ j ≤ ∑ j, W i j * θ' j :=
    Finset.sum_le_sum fun j _ => mul_le_mul_of_nonneg_left (h j) (h3 i (hr _ (pointAt_mem g i)) j)
  linarith [mul_le_mul_of_nonneg_left this S.gamma]

theorem weighted_diff {n : ℕ} (w θ θ' : Fin n → K) {B c : K} (hB : 0 ≤ B)
    (hw : ∑ j, |w j| ≤ c) (h : ∀ j, |θ j - θ' j| ≤ B) :
    |∑ j, w j * θ j - ∑ j, w j * θ' j| ≤ c * B := by
  rw [← Finset.sum_sub_distrib]
  calc _ ≤ ∑ j, |w j * θ j - w j * θ' j| := Finset.abs_sum_le_sum_abs _ _
    _ = ∑ j, |w j| * |θ j - θ' j| := by
        refine Finset.sum_congr rfl fun j _ => ?_
        rw [← mul_sub, abs_mul]
    _ ≤ ∑ j, |w j| * B := Finset.sum_le_sum fun j _ =>
        mul_le_mul_of_nonneg_left (h j) (abs_nonneg _)
    _ = (∑ j, |w j|) * B := by rw [Finset.sum_mul]
    _ ≤ c * B := mul_le_mul_of_nonneg_right hw hB

/-- **C59 (contraction).** If no next state is in the boundary strip (or the domain is one-dimensional), the update
contracts the largest difference by the factor `gamma`. Missing: next states in the strip of width `2 * _EPS`, see
`C59_boundary_refuted` and `C59_contraction_boundary`. -/
theorem C59_contraction_partial (S : RLSetup P g D eps project pp act)
    (hr : ∀ x ∈ g.allPoints, ConvexRegion g eps project (P.dynamics x (act x)).nextMean)
    (vars vars' out out' : Vars K m) (hp : vars.policy = pp) (hp' : vars'.policy = pp)
    (hlen : vars.value.length = ∏ i, g.num i) (hlen' : vars'.value.length = ∏ i, g.num i)
    (ho : P.valueIteration eps vars = .ok out) (ho' : P.valueIteration eps vars' = .ok out')
    (B : K) (hB : 0 ≤ B) (h : Within B vars.value vars'.value) :
    Within (P.gamma * B) out.value out'.value := by
  obtain ⟨W, h1, -, h3, -, h5⟩ := valueIteration_eq S
  obtain ⟨value, policy⟩ := vars
  obtain ⟨value', policy'⟩ := vars'
  simp only at hlen hlen' h hp hp'
  obtain ⟨θ, rfl⟩ := toParams_surj value hlen
  obtain ⟨θ', rfl⟩ := toParams_surj value' hlen'
  subst hp
  subst hp'
  rw [h5] at ho ho'
  cases ho; cases ho'
  rw [within_toParams] at h ⊢
  intro i
  have h2 : ∑ j, |W i j| ≤ 1 := by
    rw [← h1 i]
    exact le_of_eq (Finset.sum_congr rfl fun j _ =>
      abs_of_nonneg (h3 i (hr _ (pointAt_mem g i)) j))
  have := weighted_diff (W i) θ θ' hB h2 h
  rw [show ∀ a b c e : K, a + e * b - (a + e * c) = e * (b - c) from fun a b c e => by ring,
    abs_mul, abs_of_nonneg S.gamma]
  rw [one_mul] at this
  exact mul_le_mul_of_nonneg_left this S.gamma

/-- **C59 (contraction up to the boundary).** For all next states the update contracts the largest difference by the factor
`gamma * (1 + boundaryDefect)`; `boundaryDefect` is a multiple of `_EPS`. -/
theorem C59_contraction_boundary (S : RLSetup P g D eps project pp act)
    (vars vars' out out' : Vars K m) (hp : vars.policy = pp) (hp' : vars'.policy = pp)
    (hlen : vars.value.length = ∏ i, g.num i) (hlen' : vars'.value.length = ∏ i, g.num i)
    (ho : P.valueIteration eps vars = .ok out) (ho' : P.valueIteration eps vars' = .ok out')
    (B : K) (hB : 0 ≤ B) (h : Within B vars.value vars'.value) :
    Within (P.gamma * (1 + Spec.boundaryDefect g.lo g.hi g.num eps) * B) out.value out'.value := by
  obtain ⟨W, -, h2, -, -, h5⟩ := valueIteration_eq S
  obtain ⟨value, policy⟩ := vars
  obtain ⟨value', policy'⟩ := vars'
  simp only at hlen hlen' h hp hp'
  obtain ⟨θ, rfl⟩ := toParams_surj value hlen
  obtain ⟨θ', rfl⟩ := toParams_surj value' hlen'
  subst hp
  subst hp'
  rw [h5] at ho ho'
  cases ho; cases ho'
  rw [within_toParams] at h ⊢
  intro i
  have := weighted_diff (W i) θ θ' hB (h2 i) h
  rw [show ∀ a b c e : K, a + e * b - (a + e * c) = e * (b - c) from fun a b c e => by ring,
    abs_mul, abs_of_nonneg S.gamma, mul_assoc]
  exact mul_le_mul_of_nonneg_left this S.gamma

/-! ## C60 -/

theorem le_of_le_mul_self {c B : K} (hc : c < 1) (h : B ≤ c * B) : B ≤ 0 := by
  by_contra hn
  push Not at hn
  have : c * B < 1 * B := mul_lt_mul_of_pos_right hc hn
  linarith

/-- A vector that equals a contracting combination of itself is zero. -/
theorem eq_zero_of_contract {n : ℕ} {W : Fin n → Fin n → K} {γ c : K} (hγ : 0 ≤ γ)
    (hW : ∀ i, ∑ j, |W i j| ≤ c) (hc : γ * c < 1) {v : Fin n → K}
    (hv : ∀ i, v i = γ * ∑ j, W i j * v j) (i : Fin n) : v i = 0 := by
  obtain ⟨k, -, hk⟩ := Finset.exists_max_image Finset.univ (fun i => |v i|) ⟨i, Finset.mem_univ i⟩
  have h1 := weighted_diff (W k) v 0 (abs_nonneg (v k)) (hW k) (fun j => by
    simpa using hk j (Finset.mem_univ j))
  simp only [Pi.zero_apply, mul_zero, Finset.sum_const_zero, sub_zero] at h1
  have h2 : |v k| ≤ γ * c * |v k| := by
    conv_lhs => rw [hv k, abs_mul, abs_of_nonneg hγ]
    rw [mul_assoc]
    exact mul_le_mul_of_nonneg_left h1 hγ
  have h3 := le_of_le_mul_self hc h2
  have := hk i (Finset.mem_univ i)
  exact abs_eq_zero.mp (le_antisymm (by linarith) (abs_nonneg _))

/-- Existence of the solution of the linear system. -/
theorem exists_fixed {n : ℕ} {W : Fin n → Fin n → K} {γ c : K} (hγ : 0 ≤ γ)
    (hW : ∀ i, ∑ j, |W i j| ≤ c) (hc : γ * c < 1) (r : Fin n → K) :
    ∃ v : Fin n → K, ∀ i, v i = r i + γ * ∑ j, W i j * v j := by
  let L : (Fin n → K) →ₗ[K] (Fin n → K) :=
    { toFun := fun v i => v i - γ * ∑ j, W i j * v j
      map_add' := by
        intro a b
        funext i
        simp only [Pi.add_apply, mul_add, Finset.sum_add_distrib]
        ring
      map_smul' := by
        intro a b
        funext i
        simp only [Pi.smul_apply, smul_eq_mul, RingHom.id_apply]
        rw [mul_sub, Finset.mul_sum, Finset.mul_sum, Finset.mul_sum]
        congr 1
        exact Finset.sum_congr rfl fun j _ => by ring }
  have hinj : Function.Injective L := by
    rw [injective_iff_map_eq_zero]
    intro v hv
    funext i
    refine eq_zero_of_contract hγ hW hc (fun k => ?_) i
    have := congrFun hv k
    simp only [L, LinearMap.coe_mk, AddHom.coe_mk, Pi.zero_apply] at this
    linarith
  obtain ⟨v, hv⟩ := (LinearMap.injective_iff_surjective.mp hinj) r
  refine ⟨v, fun i => ?_⟩
  have := congrFun hv i
  simp only [L, LinearMap.coe_mk, AddHom.coe_mk] at this
  linarith

/-- `θ` are the parameters of a solution of the Bellman equation at all grid points: `V(x) = reward + gamma * V(next)`. -/
def _root_.Spec.SolvesBellman (lo hi : Fin d → K) (num : Fin d → ℕ) (γ : K)
    (reward : (Fin d → K) → K) (next : (Fin d → K) → Fin d → K)
    (value : List (Fin 1 → K) → (Fin d → K) → Except PyErr (Fin 1 → K))
    (θ : List (Fin 1 → K)) : Prop :=
  θ.length = ∏ i, num i ∧ ∀ k x, IsGridPoint lo hi num k x → ∃ v e, θ[k]? = some v ∧
    value θ (next x) = .ok e ∧ v 0 = reward x + γ * e 0

/-- The Bellman equation for the policy. -/
abbrev Bellman (P : PolicyIteration K d m) (g : GridWorld K d) (eps : K)
    (act : (Fin d → K) → Fin m → K) (θ : List (Fin 1 → K)) : Prop :=
  Spec.SolvesBellman g.lo g.hi g.num P.gamma (fun x => P.reward x (act x))
    (fun x => (P.dynamics x (act x)).nextMean) (fun θ y => P.valueFunction.evaluate eps θ y) θ

theorem bellman_iff (S : RLSetup P g D eps project pp act) (θ : List (Fin 1 → K)) :
    Bellman P g eps act θ ↔
      θ.length = ∏ i, g.num i ∧ P.valueIteration eps ⟨θ, pp⟩ = .ok ⟨θ, pp⟩ := by
  constructor
  · rintro ⟨hl, h⟩
    refine ⟨hl, ?_⟩
    obtain ⟨out, h1, h2, h3, h4⟩ := C59_update S ⟨θ, pp⟩ rfl hl
    obtain ⟨ov, op⟩ := out
    simp only at h2 h3 h4
    rw [h1, h2]
    congr 2
    obtain ⟨ζ, rfl⟩ := toParams_surj ov h3
    obtain ⟨η, rfl⟩ := toParams_surj θ hl
    congr 1
    funext i
    have hx : IsGridPoint g.lo g.hi g.num i.1 (pointAt g i) :=
      ((GridWorld.C03_all_points_enumerates g).2 i.1 _).2
    obtain ⟨v, e, e1, e2, e3⟩ := h4 _ _ hx
    obtain ⟨v', e', e1', e2', e3'⟩ := h _ _ hx
    rw [toParams_getElem? _ _ i.2] at e1 e1'
    cases e1
    cases e1'
    beta_reduce at e2'
    rw [e2] at e2'
    cases e2'
    exact e3.trans e3'.symm
  · rintro ⟨hl, h⟩
    refine ⟨hl, fun k x hx => ?_⟩
    obtain ⟨out, h1, h2, h3, h4⟩ := C59_update S ⟨θ, pp⟩ rfl hl
    rw [h] at h1
    cases h1
    exact h4 k x hx

/-- **C60 (unique solution).** If `gamma * (1 + boundaryDefect) < 1`, the Bellman equation has exactly one solution. -/
theorem C60_unique_solution (S : RLSetup P g D eps project pp act)
    (hc : P.gamma * (1 + Spec.boundaryDefect g.lo g.hi g.num eps) < 1) :
    ∃! θ, Bellman P g eps act θ := by
  obtain ⟨W, -, h2, -, -, h5⟩ := valueIteration_eq S
  obtain ⟨v, hv⟩ := exists_fixed S.gamma h2 hc
    (fun i => P.reward (pointAt g i) (act (pointAt g i)))
  refine ⟨toParams v, (bellman_iff S _).mpr ⟨toParams_length _, ?_⟩, fun θ hθ => ?_⟩
  · rw [h5]
    congr 3
    funext i
    exact (hv i).symm
  · obtain ⟨hl, h⟩ := (bellman_iff S _).mp hθ
    obtain ⟨η, rfl⟩ := toParams_surj θ hl
    rw [h5] at h
    congr 1
    funext i
    have hη := toParams_inj (congrArg Vars.value (Except.ok.inj h))
    have := eq_zero_of_contract S.gamma h2 hc (v := fun i => η i - v i) (fun k => by
      have e1 := congrFun hη k
      have e2 := hv k
      simp only [mul_sub, Finset.sum_sub_distrib]
      linarith) i
    linarith

/-- **C60 (convergence).** After `n` runs of `value_iteration` from any initial values, the distance to the solution of
the Bellman equation is at most `(gamma * (1 + boundaryDefect)) ^ n` times the initial distance. -/
theorem C60_convergence (S : RLSetup P g D eps project pp act) (θ : List (Fin 1 → K))
    (hθ : Bellman P g eps act θ) (n : ℕ) (vars : Vars K m) (hp : vars.policy = pp)
    (hlen : vars.value.length = ∏ i, g.num i) (B : K) (hB : 0 ≤ B) (h : Within B vars.value θ) :
    ∃ out, P.iterate eps n vars = .ok out ∧ out.policy = pp ∧ out.value.length = ∏ i, g.num i ∧
      Within ((P.gamma * (1 + Spec.boundaryDefect g.lo g.hi g.num eps)) ^ n * B) out.value θ := by
  induction n generalizing vars B with
  | zero => exact ⟨vars, rfl, hp, hlen, by simpa using h⟩
  | succ n ih =>
    obtain ⟨out, h1, h2, h3, -⟩ := C59_update S vars hp hlen
    obtain ⟨hl, hfix⟩ := (bellman_iff S _).mp hθ
    have hd := boundaryDefect_nonneg S.tri.wf S.tri.eps_pos.le
    have h4 := C59_contraction_boundary S vars ⟨θ, pp⟩ out ⟨θ, pp⟩ hp rfl hlen hl h1 hfix B hB h
    obtain ⟨o2, e1, e2, e3, e4⟩ := ih out h2 h3 _
      (mul_nonneg (mul_nonneg S.gamma (by linarith)) hB) h4
    refine ⟨o2, ?_, e2, e3, ?_⟩
    · unfold PolicyIteration.iterate
      rw [h1]
      exact e1
    · rwa [pow_succ, mul_assoc]

/-- **C60 (convergence with the exact rate).** The same with factor `gamma ^ n` if no next state is in the boundary strip
or the domain is one-dimensional. -/
theorem C60_convergence_gamma (S : RLSetup P g D eps project pp act)
    (hr : ∀ x ∈ g.allPoints, ConvexRegion g eps project (P.dynamics x (act x)).nextMean)
    (θ : List (Fin 1 → K))
    (hθ : Bellman P g eps act θ) (n : ℕ) (vars : Vars K m) (hp : vars.policy = pp)
    (hlen : vars.value.length = ∏ i, g.num i) (B : K) (hB : 0 ≤ B) (h : Within B vars.value θ) :
    ∃ out, P.iterate eps n vars = .ok out ∧ out.policy = pp ∧ out.value.length = ∏ i, g.num i ∧
      Within (P.gamma ^ n * B) out.value θ := by
  induction n generalizing vars B with
  | zero => exact ⟨vars, rfl, hp, hlen, by simpa using h⟩
  | succ n ih =>
    obtain ⟨out, h1, h2, h3, -⟩ := C59_update S vars hp hlen
    obtain ⟨hl, hfix⟩ := (bellman_iff S _).mp hθ
    have h4 := C59_contraction_partial S hr vars ⟨θ, pp⟩ out ⟨θ, pp⟩ hp rfl hlen hl h1 hfix B hB h
    obtain ⟨o2, e1, e2, e3, e4⟩ := ih out h2 h3 _ (mul_nonneg S.gamma hB) h4
    refine ⟨o2, ?_, e2, e3, ?_⟩
    · unfold PolicyIteration.iterate
      rw [h1]
      exact e1
    · rwa [pow_succ, mul_assoc]

/-- **C60 (limit).** For every tolerance there is a number of iterations after which the values stay within the
tolerance of the solution. -/
theorem C60_limit (S : RLSetup P g D eps project pp act)
    (hc : P.gamma * (1 + Spec.boundaryDefect g.lo g.hi g.num eps) < 1) (θ : List (Fin 1 → K))
    (hθ : Bellman P g eps act θ) (vars : Vars K m) (hp : vars.policy = pp)
    (hlen : vars.value.length = ∏ i, g.num i) (tol : K) (htol : 0 < tol) :
    ∃ N, ∀ n, N ≤ n → ∃ out, P.iterate eps n vars = .ok out ∧ Within tol out.value θ := by
  have hd := boundaryDefect_nonneg S.tri.wf S.tri.eps_pos.le
  set c := P.gamma * (1 + Spec.boundaryDefect g.lo g.hi g.num eps)
  have hc0 : 0 ≤ c := mul_nonneg S.gamma (by linarith)
  obtain ⟨hl, -⟩ := (bellman_iff S _).mp hθ
  obtain ⟨η, rfl⟩ := toParams_surj θ hl
  obtain ⟨ζ, hζ⟩ := toParams_surj vars.value hlen
  have hW : Within (1 + ∑ j, |ζ j - η j|) vars.value (toParams η) := by
    rw [hζ, within_toParams]
    intro i
    have := Finset.single_le_sum (f := fun j => |ζ j - η j|) (fun j _ => abs_nonneg _)
      (Finset.mem_univ i)
    linarith
  have hB : 0 < 1 + ∑ j, |ζ j - η j| := by
    have := Finset.sum_nonneg (s := Finset.univ) (f := fun j => |ζ j - η j|)
      fun j _ => abs_nonneg _
    linarith
  obtain ⟨N, hN⟩ := exists_pow_lt_of_lt_one (div_pos htol hB) hc
  refine ⟨N, fun n hn => ?_⟩
  obtain ⟨out, h1, -, -, h4⟩ := C60_convergence S _ hθ n vars hp hlen _ hB.le hW
  refine ⟨out, h1, fun k v w hv hw => (h4 k v w hv hw).trans ?_⟩
  have h5 : c ^ n ≤ c ^ N := pow_le_pow_of_le_one hc0 hc.le hn
  have h6 : c ^ N * (1 + ∑ j, |ζ j - η j|) ≤ tol := by
    rw [lt_div_iff₀ hB] at hN
    exact hN.le
  exact (mul_le_mul_of_nonneg_right h5 hB.le).trans h6

end SafeLearning
