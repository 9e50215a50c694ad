import Verif.Props.Lqr
import Mathlib.Analysis.Calculus.MeanValue
import Mathlib.Analysis.Calculus.Deriv.Prod
import Mathlib.Analysis.Calculus.Deriv.Mul
import Mathlib.Analysis.SpecialFunctions.Exp
import Mathlib.Analysis.SpecialFunctions.ExpDeriv
import Mathlib.Analysis.SpecificLimits.Basic
import Mathlib.Topology.Algebra.Module.FiniteDimension
import Mathlib.LinearAlgebra.Matrix.DotProduct
set_option autoImplicit false

/-!
# C124, C125: the linear quadratic regulators are optimal
-/

namespace SafeLearning

open Matrix Filter Topology

variable {n m : ℕ}

/-- The cost of the first `T` steps. -/
noncomputable def _root_.Spec.stepCosts (Q : Matrix (Fin n) (Fin n) ℝ) (R : Matrix (Fin m) (Fin m) ℝ) (x : ℕ → Fin n → ℝ) (u : ℕ → Fin m → ℝ)
    (T : ℕ) : ℝ := ∑ t ∈ Finset.range T, (Spec.quad Q (x t) + Spec.quad R (u t))

/-- `x` and `u` are the states and inputs of the system `x⁺ = A x + B u`. -/
def _root_.Spec.DiscreteTrajectory (A : Matrix (Fin n) (Fin n) ℝ) (B : Matrix (Fin n) (Fin m) ℝ) (x : ℕ → Fin n → ℝ)
    (u : ℕ → Fin m → ℝ) : Prop := ∀ t, x (t + 1) = A *ᵥ x t + B *ᵥ u t

theorem continuous_quad (M : Matrix (Fin n) (Fin n) ℝ) : Continuous (Spec.quad M) := by
  unfold Spec.quad
  simp only [dotProduct, mulVec]
  fun_prop

theorem quad_smul (M : Matrix (Fin n) (Fin n) ℝ) (c : ℝ) (x : Fin n → ℝ) : Spec.quad M (c • x) = c ^ 2 * Spec.quad M x := by
  unfold Spec.quad
  rw [Matrix.mulVec_smul, dotProduct_smul, smul_dotProduct, smul_eq_mul, smul_eq_mul]
  ring

/-- A quadratic form is bounded by a multiple of a positive definite one. -/
theorem quad_le_mul (P Q : Matrix (Fin n) (Fin n) ℝ) (hQ : ∀ x, x ≠ 0 → 0 < Spec.quad Q x) :
    ∃ c > 0, ∀ x, Spec.quad P x ≤ c * Spec.quad Q x := by
  by_cases hne : (Metric.sphere (0 : Fin n → ℝ) 1).Nonempty
  · obtain ⟨y, hy, hmin⟩ := (isCompact_sphere (0 : Fin n → ℝ) 1).exists_isMinOn hne (continuous_quad Q).continuousOn
    obtain ⟨z, hz, hmax⟩ := (isCompact_sphere (0 : Fin n → ℝ) 1).exists_isMaxOn hne (continuous_quad P).continuousOn
    have hy0 : 0 < Spec.quad Q y := hQ y (by
      rintro rfl
      simp at hy)
    refine ⟨max (Spec.quad P z) 1 / Spec.quad Q y, div_pos (lt_max_of_lt_right one_pos) hy0, fun x => ?_⟩
    by_cases hx : x = 0
    · subst hx
      simp [Spec.quad]
    · have hn : 0 < ‖x‖ := norm_pos_iff.mpr hx
      have hs : ‖x‖⁻¹ • x ∈ Metric.sphere (0 : Fin n → ℝ) 1 := by
        rw [mem_sphere_zero_iff_norm, norm_smul, norm_inv, norm_norm, inv_mul_cancel₀ hn.ne']
      have h1 : Spec.quad Q y ≤ Spec.quad Q (‖x‖⁻¹ • x) := hmin hs
      have h2 : Spec.quad P (‖x‖⁻¹ • x) ≤ Spec.quad P z := hmax hs
      have hx' : ∀ M : Matrix (Fin n) (Fin n) ℝ, Spec.quad M x = ‖x‖ ^ 2 * Spec.quad M (‖x‖⁻¹ • x) := by
        intro M
        rw [← quad_smul, smul_smul, mul_inv_cancel₀ hn.ne', one_smul]
      rw [hx' P, hx' Q, mul_left_comm]
      refine mul_le_mul_of_nonneg_left ?_ (sq_nonneg ‖x‖)
      calc _ ≤ max (Spec.quad P z) 1 := h2.trans (le_max_left _ _)
        _ = max (Spec.quad P z) 1 / Spec.quad Q y * Spec.quad Q y := by field_simp
        _ ≤ _ := mul_le_mul_of_nonneg_left h1 (div_pos (lt_max_of_lt_right one_pos) hy0).le
  · refine ⟨1, one_pos, fun x => ?_⟩
    have hx : x = 0 := by
      by_contra hx
      apply hne
      have hn : 0 < ‖x‖ := norm_pos_iff.mpr hx
      exact ⟨‖x‖⁻¹ • x, by rw [mem_sphere_zero_iff_norm, norm_smul, norm_inv, norm_norm, inv_mul_cancel₀ hn.ne']⟩
    subst hx
    simp [Spec.quad]

theorem quad_nonneg_of_pos {Q : Matrix (Fin n) (Fin n) ℝ} (hQ : ∀ x, x ≠ 0 → 0 < Spec.quad Q x) (x : Fin n → ℝ) :
    0 ≤ Spec.quad Q x := by
  by_cases hx : x = 0
  · subst hx
    simp [Spec.quad]
  · exact (hQ x hx).le

/-- A form that is small makes the state small. -/
theorem tendsto_of_quad {ι : Type} {l : Filter ι} {Q : Matrix (Fin n) (Fin n) ℝ} (hQ : ∀ x, x ≠ 0 → 0 < Spec.quad Q x)
    {x : ι → Fin n → ℝ} (h : Tendsto (fun i => Spec.quad Q (x i)) l (𝓝 0)) : Tendsto x l (𝓝 0) := by
  obtain ⟨c, hc, hle⟩ := quad_le_mul 1 Q hQ
  rw [tendsto_pi_nhds]
  intro j
  have hb : ∀ i, (x i j) ^ 2 ≤ c * Spec.quad Q (x i) := by
    intro i
    refine le_trans ?_ (hle (x i))
    unfold Spec.quad
    rw [Matrix.one_mulVec, dotProduct]
    have := Finset.single_le_sum (f := fun j => x i j * x i j) (fun j _ => mul_self_nonneg _) (Finset.mem_univ j)
    simpa [sq] using this
  have h0 : Tendsto (fun i => (x i j) ^ 2) l (𝓝 0) :=
    squeeze_zero (fun i => sq_nonneg _) hb (by simpa using h.const_mul c)
  have := h0.sqrt
  simp only [Real.sqrt_sq_eq_abs, Real.sqrt_zero] at this
  exact (tendsto_zero_iff_abs_tendsto_zero _).mpr this

theorem quad_psd_sum {P : Matrix (Fin n) (Fin n) ℝ} {R : Matrix (Fin m) (Fin m) ℝ} (B : Matrix (Fin n) (Fin m) ℝ)
    (u : Fin m → ℝ) : Spec.quad (R + Bᵀ * P * B) u = Spec.quad R u + Spec.quad P (B *ᵥ u) := by
  unfold Spec.quad
  rw [Matrix.add_mulVec, dotProduct_add, ← Matrix.mulVec_mulVec, ← Matrix.mulVec_mulVec,
    Matrix.dotProduct_mulVec u Bᵀ, Matrix.vecMul_transpose]

/-- The step inequality: the value is at most the cost of a step plus the value afterwards, strictly less for other inputs. -/
theorem dlqr_step (A Q P : Matrix (Fin n) (Fin n) ℝ) (B : Matrix (Fin n) (Fin m) ℝ) (R : Matrix (Fin m) (Fin m) ℝ)
    (hP : Pᵀ = P) (hR : Rᵀ = R) (hP0 : ∀ x, 0 ≤ Spec.quad P x) (hR0 : ∀ u, u ≠ 0 → 0 < Spec.quad R u)
    (hare : Spec.SolvesDARE P A Q B R) {k : Matrix (Fin m) (Fin n) ℝ} {p : Matrix (Fin n) (Fin n) ℝ}
    (h : dlqr P A B R = .ok (k, p)) (x : Fin n → ℝ) (u : Fin m → ℝ) :
    Spec.quad P x ≤ Spec.quad Q x + Spec.quad R u + Spec.quad P (A *ᵥ x + B *ᵥ u) ∧
    (u ≠ -(k *ᵥ x) → Spec.quad P x < Spec.quad Q x + Spec.quad R u + Spec.quad P (A *ᵥ x + B *ᵥ u)) := by
  have hmin := C44_dlqr_minimises A P B R hP hR h x u
  have hdec := C44_dlqr_decrease A Q P B R hare h x
  have hpos : ∀ v, v ≠ 0 → 0 < Spec.quad (R + Bᵀ * P * B) v := by
    intro v hv
    rw [quad_psd_sum]
    linarith [hR0 v hv, hP0 (B *ᵥ v)]
  constructor
  · have := hmin.1 (quad_nonneg_of_pos hpos)
    simp only at this
    linarith
  · intro hu
    have := hmin.2 hpos hu
    simp only at this
    linarith

/-- **C124** For symmetric weights, `Q` and `R` positive definite, and a symmetric positive semidefinite solution `P` of the Riccati equation, `-K x` is the
optimal control and `xᵀ P x` the optimal cost: the total cost of the closed loop is `x₀ᵀ P x₀`; the states converge to the origin with an exponential rate; and no
sequence of inputs has a total cost below `x₀ᵀ P x₀`, the inputs `-K x` being the only ones with this total cost. -/
theorem C124_discrete (A Q P : Matrix (Fin n) (Fin n) ℝ) (B : Matrix (Fin n) (Fin m) ℝ) (R : Matrix (Fin m) (Fin m) ℝ)
    (hP : Pᵀ = P) (hR : Rᵀ = R) (hP0 : ∀ x, 0 ≤ Spec.quad P x) (hQ0 : ∀ x, x ≠ 0 → 0 < Spec.quad Q x)
    (hR0 : ∀ u, u ≠ 0 → 0 < Spec.quad R u) (hare : Spec.SolvesDARE P A Q B R)
    {k : Matrix (Fin m) (Fin n) ℝ} {p : Matrix (Fin n) (Fin n) ℝ} (h : dlqr P A B R = .ok (k, p)) :
    (∀ x u, Spec.DiscreteTrajectory A B x u → (∀ t, u t = -(k *ᵥ x t)) →
      Tendsto (Spec.stepCosts Q R x u) atTop (𝓝 (Spec.quad p (x 0))) ∧ Tendsto x atTop (𝓝 0)) ∧
    (∃ rho < 1, 0 ≤ rho ∧ ∀ x u, Spec.DiscreteTrajectory A B x u → (∀ t, u t = -(k *ᵥ x t)) →
      ∀ t, Spec.quad p (x t) ≤ rho ^ t * Spec.quad p (x 0)) ∧
    (∀ x u, Spec.DiscreteTrajectory A B x u → ∀ M, (∀ T, Spec.stepCosts Q R x u T ≤ M) → Spec.quad p (x 0) ≤ M) ∧
    (∀ x u, Spec.DiscreteTrajectory A B x u → (∀ T, Spec.stepCosts Q R x u T ≤ Spec.quad p (x 0)) →
      ∀ t, u t = -(k *ᵥ x t)) := by
  obtain rfl : p = P := (C44_dlqr_closed_loop A Q P B R hare h).1
  obtain ⟨c, hc, hcP⟩ := quad_le_mul p Q hQ0
  have hR0' := quad_nonneg_of_pos hR0
  have hQ0' := quad_nonneg_of_pos hQ0
  -- the closed loop
  have hclosed : ∀ x u, Spec.DiscreteTrajectory A B x u → (∀ t, u t = -(k *ᵥ x t)) → ∀ t,
      Spec.quad p (x (t + 1)) = Spec.quad p (x t) - (Spec.quad Q (x t) + Spec.quad R (u t)) := by
    intro x u hx hu t
    rw [hx t, hu t]
    exact C44_dlqr_decrease A Q p B R hare h (x t)
  have hsum : ∀ x u, Spec.DiscreteTrajectory A B x u → (∀ t, u t = -(k *ᵥ x t)) → ∀ T,
      Spec.stepCosts Q R x u T = Spec.quad p (x 0) - Spec.quad p (x T) := by
    intro x u hx hu T
    induction T with
    | zero => simp [Spec.stepCosts]
    | succ T ih =>
      unfold Spec.stepCosts at ih ⊢
      rw [Finset.sum_range_succ, ih, hclosed x u hx hu T]
      ring
  set rho : ℝ := 1 - 1 / (c + 1) with hrho
  have hc1 : 0 < 1 / (c + 1) := by positivity
  have hc2 : 1 / (c + 1) ≤ 1 := by
    rw [div_le_one (by linarith)]
    linarith
  have hrate : ∀ x u, Spec.DiscreteTrajectory A B x u → (∀ t, u t = -(k *ᵥ x t)) →
      ∀ t, Spec.quad p (x t) ≤ rho ^ t * Spec.quad p (x 0) := by
    intro x u hx hu t
    induction t with
    | zero => simp
    | succ t ih =>
      rw [hclosed x u hx hu t, pow_succ, mul_right_comm]
      have h1 : Spec.quad p (x t) / (c + 1) ≤ Spec.quad Q (x t) := by
        rw [div_le_iff₀ (by linarith)]
        nlinarith [hcP (x t), hQ0' (x t)]
      have h2 : Spec.quad p (x t) - (Spec.quad Q (x t) + Spec.quad R (u t)) ≤ Spec.quad p (x t) * rho := by
        rw [hrho, mul_sub, mul_one, mul_one_div]
        linarith [hR0' (u t)]
      exact h2.trans (mul_le_mul_of_nonneg_right ih (by rw [hrho]; linarith))
  have hV0 : ∀ x u, Spec.DiscreteTrajectory A B x u → (∀ t, u t = -(k *ᵥ x t)) →
      Tendsto (fun t => Spec.quad p (x t)) atTop (𝓝 0) := by
    intro x u hx hu
    refine squeeze_zero (fun t => hP0 _) (hrate x u hx hu) ?_
    have := (tendsto_pow_atTop_nhds_zero_of_lt_one (r := rho) (by rw [hrho]; linarith) (by rw [hrho]; linarith)).mul_const
      (Spec.quad p (x 0))
    simpa using this
  -- other inputs
  have hstep : ∀ x u, Spec.DiscreteTrajectory A B x u → ∀ T s, s ≤ T →
      Spec.quad p (x s) ≤ Spec.stepCosts Q R x u T - Spec.stepCosts Q R x u s + Spec.quad p (x T) := by
    intro x u hx T s hs
    induction T, hs using Nat.le_induction with
    | base => simp
    | succ T hT ih =>
      have := (dlqr_step A Q p B R hP hR hP0 hR0 hare h (x T) (u T)).1
      rw [← hx T] at this
      unfold Spec.stepCosts at ih ⊢
      rw [Finset.sum_range_succ]
      linarith
  -- the value becomes small if the cost is bounded
  have hsmall : ∀ x u, Spec.DiscreteTrajectory A B x u → ∀ M, (∀ T, Spec.stepCosts Q R x u T ≤ M) → ∀ eps > 0, ∀ s,
      ∃ t ≥ s, Spec.quad p (x t) < eps := by
    intro x u hx M hM eps heps s
    by_contra hno
    push Not at hno
    have hge : ∀ j : ℕ, Spec.stepCosts Q R x u s + j * (eps / c) ≤ Spec.stepCosts Q R x u (s + j) := by
      intro j
      induction j with
      | zero => simp
      | succ j ih =>
        have h1 := hno (s + j) (by omega)
        have h2 := hcP (x (s + j))
        have h3 : eps / c ≤ Spec.quad Q (x (s + j)) := by
          rw [div_le_iff₀ hc]
          linarith
        have h4 := hR0' (u (s + j))
        have h5 : Spec.stepCosts Q R x u (s + (j + 1)) = Spec.stepCosts Q R x u (s + j) +
            (Spec.quad Q (x (s + j)) + Spec.quad R (u (s + j))) := by
          unfold Spec.stepCosts
          rw [← add_assoc, Finset.sum_range_succ]
        rw [h5]
        push_cast
        linarith
    obtain ⟨j, hj⟩ := exists_nat_gt ((M - Spec.stepCosts Q R x u s) / (eps / c))
    have h1 := hge j
    have h2 := hM (s + j)
    rw [div_lt_iff₀ (div_pos heps hc)] at hj
    linarith
  refine ⟨fun x u hx hu => ⟨?_, ?_⟩, ⟨rho, by rw [hrho]; linarith, by rw [hrho]; linarith, hrate⟩, ?_, ?_⟩
  · have : Spec.stepCosts Q R x u = fun T => Spec.quad p (x 0) - Spec.quad p (x T) := funext (hsum x u hx hu)
    rw [this]
    simpa using (hV0 x u hx hu).const_sub (Spec.quad p (x 0))
  · refine tendsto_of_quad hQ0 ?_
    have h1 := hV0 x u hx hu
    have h2 := h1.comp (tendsto_add_atTop_nat 1)
    have h3 := h1.sub h2
    rw [sub_zero] at h3
    refine squeeze_zero (fun t => hQ0' _) (fun t => ?_) h3
    have := hclosed x u hx hu t
    simp only [Function.comp]
    linarith [hR0' (u t)]
  · intro x u hx M hM
    refine le_of_forall_pos_le_add fun eps heps => ?_
    obtain ⟨t, -, ht⟩ := hsmall x u hx M hM eps heps 0
    have h1 := hstep x u hx t 0 (Nat.zero_le _)
    have h2 := hM t
    have h3 : Spec.stepCosts Q R x u 0 = 0 := by simp [Spec.stepCosts]
    linarith
  · intro x u hx hM t
    by_contra hu
    have h1 := (dlqr_step A Q p B R hP hR hP0 hR0 hare h (x t) (u t)).2 hu
    rw [← hx t] at h1
    obtain ⟨T, hT, hs⟩ := hsmall x u hx _ hM _ (sub_pos.mpr h1) (t + 1)
    have h2 := hstep x u hx T (t + 1) hT
    have h3 := hstep x u hx t 0 (Nat.zero_le _)
    have h4 : Spec.stepCosts Q R x u (t + 1) = Spec.stepCosts Q R x u t + (Spec.quad Q (x t) + Spec.quad R (u t)) := by
      unfold Spec.stepCosts
      rw [Finset.sum_range_succ]
    have h5 := hM T
    have h6 : Spec.stepCosts Q R x u 0 = 0 := by simp [Spec.stepCosts]
    linarith

/-! ## Continuous time -/

/-- `x` is a solution of `x' = A x + B u` on `[0, ∞)` and `J` is its running cost: `J(0) = 0` and `J' = xᵀ Q x + uᵀ R u`. The derivatives are derivatives from
the right, so that the input may have jumps. -/
structure _root_.Spec.ContinuousTrajectory (A Q : Matrix (Fin n) (Fin n) ℝ) (B : Matrix (Fin n) (Fin m) ℝ)
    (R : Matrix (Fin m) (Fin m) ℝ) (x : ℝ → Fin n → ℝ) (u : ℝ → Fin m → ℝ) (J : ℝ → ℝ) : Prop where
  state_cont : ContinuousOn x (Set.Ici 0)
  state_deriv : ∀ t ≥ 0, HasDerivWithinAt x (A *ᵥ x t + B *ᵥ u t) (Set.Ici t) t
  cost_zero : J 0 = 0
  cost_cont : ContinuousOn J (Set.Ici 0)
  cost_deriv : ∀ t ≥ 0, HasDerivWithinAt J (Spec.quad Q (x t) + Spec.quad R (u t)) (Set.Ici t) t

/-- A function with non-negative derivative from the right grows. -/
theorem le_of_right_deriv {f f' : ℝ → ℝ} (hc : ContinuousOn f (Set.Ici 0))
    (hd : ∀ t ≥ 0, HasDerivWithinAt f (f' t) (Set.Ici t) t) {s t c : ℝ} (hs : 0 ≤ s) (hst : s ≤ t)
    (h0 : ∀ r, s ≤ r → r < t → c ≤ f' r) : f s + c * (t - s) ≤ f t := by
  have hIcc : Set.Icc s t ⊆ Set.Ici 0 := fun r hr => hs.trans hr.1
  have := image_le_of_deriv_right_le_deriv_boundary (f := fun r => f s + c * (r - s)) (f' := fun _ => c) (a := s) (b := t)
    (B := f) (B' := f') (by fun_prop)
    (fun r _ => by
      have := ((hasDerivWithinAt_id r (Set.Ici r)).sub_const s).const_mul c |>.const_add (f s)
      simpa using this)
    (by simp) (hc.mono hIcc) (fun r hr => hd r (hs.trans hr.1)) (fun r hr => h0 r hr.1 hr.2)
    (Set.right_mem_Icc.mpr hst)
  exact this

/-- The derivative of a quadratic form along a curve. -/
theorem hasDerivWithinAt_quad {P : Matrix (Fin n) (Fin n) ℝ} {x : ℝ → Fin n → ℝ} {x' : Fin n → ℝ} {s : Set ℝ} {t : ℝ}
    (h : HasDerivWithinAt x x' s t) :
    HasDerivWithinAt (fun r => Spec.quad P (x r)) (x' ⬝ᵥ (P *ᵥ x t) + x t ⬝ᵥ (P *ᵥ x')) s t := by
  have hi : ∀ i, HasDerivWithinAt (fun r => x r i) (x' i) s t := fun i => hasDerivWithinAt_pi.mp h i
  unfold Spec.quad
  simp only [dotProduct, mulVec]
  have := HasDerivWithinAt.fun_sum (u := Finset.univ) (x := t) (s := s) fun (i : Fin n) _ =>
    (hi i).mul (HasDerivWithinAt.fun_sum (u := Finset.univ) (x := t) (s := s) fun (j : Fin n) _ => (hi j).const_mul (P i j))
  rw [Finset.sum_add_distrib] at this
  exact this

/-- The value changes by the negative cost, up to a form in the difference to the optimal input. -/
theorem lqr_step (A Q P : Matrix (Fin n) (Fin n) ℝ) (B : Matrix (Fin n) (Fin m) ℝ) (R : Matrix (Fin m) (Fin m) ℝ)
    (hP : Pᵀ = P) (hR : Rᵀ = R) (hare : Spec.SolvesCARE P A Q B R) {k : Matrix (Fin m) (Fin n) ℝ}
    {p : Matrix (Fin n) (Fin n) ℝ} (h : lqr P B R = .ok (k, p)) (x : Fin n → ℝ) (u : Fin m → ℝ) :
    (A *ᵥ x + B *ᵥ u) ⬝ᵥ (P *ᵥ x) + x ⬝ᵥ (P *ᵥ (A *ᵥ x + B *ᵥ u)) =
      -(Spec.quad Q x + Spec.quad R u) + Spec.quad R (u + k *ᵥ x) := by
  have hk : R * k = Bᵀ * P := by
    unfold lqr at h
    simp only [Bind.bind, Except.bind] at h
    cases hk : linSolve R (Bᵀ * P) with
    | error e => simp [hk] at h
    | ok k' =>
      simp only [hk, Pure.pure, Except.pure, Except.ok.injEq, Prod.mk.injEq] at h
      obtain ⟨rfl, rfl⟩ := h
      exact (linSolve_ok hk).2
  have hdec := C45_lqr_decrease A Q P B R hP hR hare h x
  have q := quad_sub_gain R hR u (-(k *ᵥ x))
  rw [sub_neg_eq_add, Matrix.mulVec_neg, dotProduct_neg] at q
  have e1 : u ⬝ᵥ (R *ᵥ (k *ᵥ x)) = (B *ᵥ u) ⬝ᵥ (P *ᵥ x) := by
    rw [Matrix.mulVec_mulVec, hk, ← Matrix.mulVec_mulVec, Matrix.dotProduct_mulVec u Bᵀ, Matrix.vecMul_transpose]
  have e2 : (k *ᵥ x) ⬝ᵥ (R *ᵥ (k *ᵥ x)) = (B *ᵥ (k *ᵥ x)) ⬝ᵥ (P *ᵥ x) := by
    rw [Matrix.mulVec_mulVec, hk, ← Matrix.mulVec_mulVec, Matrix.dotProduct_mulVec _ Bᵀ, Matrix.vecMul_transpose]
  have sym : ∀ y : Fin n → ℝ, x ⬝ᵥ (P *ᵥ y) = y ⬝ᵥ (P *ᵥ x) := by
    intro y
    rw [Matrix.dotProduct_mulVec, ← Matrix.mulVec_transpose, hP, dotProduct_comm]
  have e3 : Spec.quad R (-(k *ᵥ x)) = (B *ᵥ (k *ᵥ x)) ⬝ᵥ (P *ᵥ x) := by
    unfold Spec.quad
    rw [Matrix.mulVec_neg, neg_dotProduct, dotProduct_neg, neg_neg, e2]
  simp only [sym, add_dotProduct, Matrix.mulVec_neg, neg_dotProduct] at hdec ⊢
  rw [e1] at q
  linarith

/-- A positive semidefinite solution of the Riccati equation is positive definite. -/
theorem care_pos (A Q P : Matrix (Fin n) (Fin n) ℝ) (B : Matrix (Fin n) (Fin m) ℝ) (R : Matrix (Fin m) (Fin m) ℝ)
    (hP : Pᵀ = P) (hP0 : ∀ x, 0 ≤ Spec.quad P x) (hQ0 : ∀ x, x ≠ 0 → 0 < Spec.quad Q x)
    (hare : Spec.SolvesCARE P A Q B R) (x : Fin n → ℝ) (hx : x ≠ 0) : 0 < Spec.quad P x := by
  refine lt_of_le_of_ne (hP0 x) fun h0 => ?_
  have sym : ∀ y : Fin n → ℝ, x ⬝ᵥ (P *ᵥ y) = y ⬝ᵥ (P *ᵥ x) := by
    intro y
    rw [Matrix.dotProduct_mulVec, ← Matrix.mulVec_transpose, hP, dotProduct_comm]
  -- `P x = 0`
  have hPx : ∀ y : Fin n → ℝ, y ⬝ᵥ (P *ᵥ x) = 0 := by
    intro y
    have key : ∀ s : ℝ, 0 ≤ 2 * s * (y ⬝ᵥ (P *ᵥ x)) + s ^ 2 * Spec.quad P y := by
      intro s
      have h1 := hP0 (x + s • y)
      have e : Spec.quad P (x + s • y) = Spec.quad P x + 2 * s * (y ⬝ᵥ (P *ᵥ x)) + s ^ 2 * Spec.quad P y := by
        unfold Spec.quad
        rw [Matrix.mulVec_add, Matrix.mulVec_smul, add_dotProduct, dotProduct_add, dotProduct_add, smul_dotProduct,
          smul_dotProduct, dotProduct_smul, dotProduct_smul, sym y]
        simp only [smul_eq_mul]
        ring
      rw [e, ← h0] at h1
      linarith
    have hq := hP0 y
    by_contra hne
    have := key (-(y ⬝ᵥ (P *ᵥ x)) / (Spec.quad P y + 1))
    have hpos : 0 < Spec.quad P y + 1 := by linarith
    have hsq : 0 < (y ⬝ᵥ (P *ᵥ x)) ^ 2 := by positivity
    have e : 2 * (-(y ⬝ᵥ (P *ᵥ x)) / (Spec.quad P y + 1)) * (y ⬝ᵥ (P *ᵥ x)) +
        (-(y ⬝ᵥ (P *ᵥ x)) / (Spec.quad P y + 1)) ^ 2 * Spec.quad P y =
        -((y ⬝ᵥ (P *ᵥ x)) ^ 2 * (Spec.quad P y + 2)) / (Spec.quad P y + 1) ^ 2 := by
      field_simp
      ring
    rw [e] at this
    have : -((y ⬝ᵥ (P *ᵥ x)) ^ 2 * (Spec.quad P y + 2)) / (Spec.quad P y + 1) ^ 2 < 0 := by
      apply div_neg_of_neg_of_pos
      · have : 0 < (y ⬝ᵥ (P *ᵥ x)) ^ 2 * (Spec.quad P y + 2) := mul_pos hsq (by linarith)
        linarith
      · positivity
    linarith
  have hz : P *ᵥ x = 0 := by
    have := hPx (P *ᵥ x)
    exact dotProduct_self_eq_zero.mp this
  have h2 := congrArg (fun M => x ⬝ᵥ (M *ᵥ x)) hare
  simp only [Matrix.sub_mulVec, Matrix.add_mulVec, dotProduct_sub, dotProduct_add, Matrix.zero_mulVec, dotProduct_zero,
    ← Matrix.mulVec_mulVec, hz, Matrix.mulVec_zero] at h2
  rw [sym (A *ᵥ x), hz, dotProduct_zero] at h2
  have := hQ0 x hx
  unfold Spec.quad at this
  linarith

/-- **C125** For `Q` and `R` positive definite, `R` symmetric and a symmetric positive semidefinite solution `P` of the Riccati equation, `-K x` is the optimal
control in continuous time and `xᵀ P x` the optimal cost: the running cost of the closed loop converges to `x₀ᵀ P x₀`; the states converge to the origin and the value decays with an exponential rate; and no input
has a cost below `x₀ᵀ P x₀`, the input `-K x` being the only one with this cost. -/
theorem C125_continuous (A Q P : Matrix (Fin n) (Fin n) ℝ) (B : Matrix (Fin n) (Fin m) ℝ) (R : Matrix (Fin m) (Fin m) ℝ)
    (hP : Pᵀ = P) (hR : Rᵀ = R) (hP0 : ∀ x, 0 ≤ Spec.quad P x) (hQ0 : ∀ x, x ≠ 0 → 0 < Spec.quad Q x)
    (hR0 : ∀ u, u ≠ 0 → 0 < Spec.quad R u) (hare : Spec.SolvesCARE P A Q B R)
    {k : Matrix (Fin m) (Fin n) ℝ} {p : Matrix (Fin n) (Fin n) ℝ} (h : lqr P B R = .ok (k, p)) :
    (∀ x u J, Spec.ContinuousTrajectory A Q B R x u J → (∀ t ≥ 0, u t = -(k *ᵥ x t)) →
      Tendsto J atTop (𝓝 (Spec.quad p (x 0))) ∧ Tendsto x atTop (𝓝 0)) ∧
    (∃ rate > 0, ∀ x u J, Spec.ContinuousTrajectory A Q B R x u J → (∀ t ≥ 0, u t = -(k *ᵥ x t)) →
      ∀ t ≥ 0, Spec.quad p (x t) ≤ Real.exp (-rate * t) * Spec.quad p (x 0)) ∧
    (∀ x u J, Spec.ContinuousTrajectory A Q B R x u J → ∀ M, (∀ t ≥ 0, J t ≤ M) → Spec.quad p (x 0) ≤ M) ∧
    (∀ x u J, Spec.ContinuousTrajectory A Q B R x u J → (∀ t ≥ 0, J t ≤ Spec.quad p (x 0)) →
      ∀ t ≥ 0, u t = -(k *ᵥ x t)) := by
  obtain rfl : p = P := (C45_lqr_closed_loop A Q P B R hP hR hare h).1
  obtain ⟨c, hc, hcP⟩ := quad_le_mul p Q hQ0
  have hR0' := quad_nonneg_of_pos hR0
  have hQ0' := quad_nonneg_of_pos hQ0
  have hcont : ∀ x u J, Spec.ContinuousTrajectory A Q B R x u J → ContinuousOn (fun t => Spec.quad p (x t)) (Set.Ici 0) :=
    fun x u J hx => (continuous_quad p).comp_continuousOn hx.state_cont
  have hderiv : ∀ x u J, Spec.ContinuousTrajectory A Q B R x u J → ∀ t ≥ 0,
      HasDerivWithinAt (fun t => Spec.quad p (x t))
        (-(Spec.quad Q (x t) + Spec.quad R (u t)) + Spec.quad R (u t + k *ᵥ x t)) (Set.Ici t) t := by
    intro x u J hx t ht
    have := hasDerivWithinAt_quad (P := p) (hx.state_deriv t ht)
    rwa [lqr_step A Q p B R hP hR hare h] at this
  -- cost plus value never decreases
  have hW : ∀ x u J, Spec.ContinuousTrajectory A Q B R x u J → ∀ s ≥ 0, ∀ t ≥ s,
      J s + Spec.quad p (x s) ≤ J t + Spec.quad p (x t) := by
    intro x u J hx s hs t ht
    have := le_of_right_deriv (f := fun t => J t + Spec.quad p (x t)) (hx.cost_cont.add (hcont x u J hx))
      (fun t ht => (hx.cost_deriv t ht).add (hderiv x u J hx t ht)) (c := 0) hs ht
      (fun r hr _ => by have := hR0' (u r + k *ᵥ x r); linarith)
    simpa using this
  -- the value becomes small if the cost is bounded
  have hsmall : ∀ x u J, Spec.ContinuousTrajectory A Q B R x u J → ∀ M, (∀ t ≥ 0, J t ≤ M) → ∀ eps > 0, ∀ s ≥ 0,
      ∃ t ≥ s, Spec.quad p (x t) < eps := by
    intro x u J hx M hM eps heps s hs
    by_contra hno
    push Not at hno
    have hJs := hM s hs
    set T : ℝ := (M - J s + 1) / (eps / c) with hT
    have hT0 : 0 ≤ T := div_nonneg (by linarith) (by positivity)
    have := le_of_right_deriv (f := J) hx.cost_cont hx.cost_deriv (c := eps / c) hs (le_add_of_nonneg_right hT0)
      (fun r hr _ => by
        have : eps / c ≤ Spec.quad Q (x r) := by
          rw [div_le_iff₀ hc]
          linarith [hno r hr, hcP (x r)]
        linarith [hR0' (u r)])
    have e : eps / c * (s + T - s) = M - J s + 1 := by
      rw [hT, add_sub_cancel_left]
      field_simp
    rw [e] at this
    linarith [hM (s + T) (by linarith)]
  -- in the closed loop it is constant
  have hW' : ∀ x u J, Spec.ContinuousTrajectory A Q B R x u J → (∀ t ≥ 0, u t = -(k *ᵥ x t)) → ∀ t ≥ 0,
      J t + Spec.quad p (x t) ≤ Spec.quad p (x 0) := by
    intro x u J hx hu t ht
    have := le_of_right_deriv (f := fun t => -(J t + Spec.quad p (x t))) (hx.cost_cont.add (hcont x u J hx)).neg
      (fun t ht => ((hx.cost_deriv t ht).add (hderiv x u J hx t ht)).neg) (c := 0) le_rfl ht
      (fun r hr _ => by
        have : Spec.quad R (u r + k *ᵥ x r) = 0 := by rw [hu r hr]; simp [Spec.quad]
        simp only [this]; linarith)
    simp only [hx.cost_zero] at this
    linarith
  have hrate : ∀ x u J, Spec.ContinuousTrajectory A Q B R x u J → (∀ t ≥ 0, u t = -(k *ᵥ x t)) →
      ∀ t ≥ 0, Spec.quad p (x t) ≤ Real.exp (-(1 / c) * t) * Spec.quad p (x 0) := by
    intro x u J hx hu t ht
    have hE : ∀ r : ℝ, HasDerivWithinAt (fun r => Real.exp (1 / c * r)) (Real.exp (1 / c * r) * (1 / c)) (Set.Ici r) r := by
      intro r
      have := (((hasDerivAt_id r).const_mul (1 / c)).exp).hasDerivWithinAt (s := Set.Ici r)
      simpa using this
    have := le_of_right_deriv (f := fun t => -(Real.exp (1 / c * t) * Spec.quad p (x t)))
      ((Continuous.continuousOn (by fun_prop)).mul (hcont x u J hx)).neg
      (fun t ht => ((hE t).mul (hderiv x u J hx t ht)).neg) (c := 0) le_rfl ht
      (fun r hr _ => by
        have h0 : Spec.quad R (u r + k *ᵥ x r) = 0 := by rw [hu r hr]; simp [Spec.quad]
        have h1 : Spec.quad p (x r) / c ≤ Spec.quad Q (x r) := by
          rw [div_le_iff₀ hc]
          linarith [hcP (x r)]
        have h2 := mul_nonneg (Real.exp_pos (1 / c * r)).le
          (show 0 ≤ Spec.quad Q (x r) + Spec.quad R (u r) - Spec.quad p (x r) / c by linarith [hR0' (u r)])
        simp only [h0]
        calc (0 : ℝ) ≤ _ := h2
          _ = _ := by ring)
    simp only [mul_zero, Real.exp_zero, one_mul, zero_mul, add_zero, neg_le_neg_iff] at this
    rw [neg_mul, Real.exp_neg, ← div_eq_inv_mul, le_div_iff₀ (Real.exp_pos _), mul_comm]
    exact this
  have hc1 : 0 < 1 / c := by positivity
  have hlim : ∀ x : ℝ → Fin n → ℝ, Tendsto (fun t : ℝ => Real.exp (-(1 / c) * t) * Spec.quad p (x 0)) atTop (𝓝 0) := by
    intro x
    have h1 : Tendsto (fun t : ℝ => -(1 / c) * t) atTop atBot := tendsto_id.const_mul_atTop_of_neg (by linarith)
    simpa using (Real.tendsto_exp_atBot.comp h1).mul_const (Spec.quad p (x 0))
  refine ⟨fun x u J hx hu => ⟨?_, ?_⟩, ⟨1 / c, by positivity, hrate⟩, ?_, ?_⟩
  · refine tendsto_of_tendsto_of_tendsto_of_le_of_le' (g := fun t => Spec.quad p (x 0) -
      Real.exp (-(1 / c) * t) * Spec.quad p (x 0)) (h := fun _ => Spec.quad p (x 0)) ?_ tendsto_const_nhds ?_ ?_
    · simpa using (hlim x).const_sub (Spec.quad p (x 0))
    · filter_upwards [eventually_ge_atTop 0] with t ht
      linarith [hW x u J hx 0 le_rfl t ht, hrate x u J hx hu t ht, hx.cost_zero]
    · filter_upwards [eventually_ge_atTop 0] with t ht
      linarith [hW' x u J hx hu t ht, hP0 (x t)]
  · refine tendsto_of_quad (care_pos A Q p B R hP hP0 hQ0 hare) ?_
    refine tendsto_of_tendsto_of_tendsto_of_le_of_le' tendsto_const_nhds (hlim x) (Eventually.of_forall fun t => hP0 _) ?_
    filter_upwards [eventually_ge_atTop 0] with t ht
    exact hrate x u J hx hu t ht
  · intro x u J hx M hM
    refine le_of_forall_pos_le_add fun eps heps => ?_
    obtain ⟨t, ht, hs⟩ := hsmall x u J hx M hM eps heps 0 le_rfl
    linarith [hW x u J hx 0 le_rfl t ht, hM t ht, hx.cost_zero]
  · intro x u J hx hM t ht
    -- cost plus value is constant
    have hconst : ∀ r ≥ 0, J r + Spec.quad p (x r) = Spec.quad p (x 0) := by
      intro r hr
      refine le_antisymm (le_of_forall_pos_le_add fun eps heps => ?_) (by linarith [hW x u J hx 0 le_rfl r hr, hx.cost_zero])
      obtain ⟨s, hs, hse⟩ := hsmall x u J hx _ hM eps heps r hr
      linarith [hW x u J hx r hr s hs, hM s (hr.trans hs)]
    have h1 : HasDerivWithinAt (fun r => J r + Spec.quad p (x r)) 0 (Set.Ici t) t :=
      (hasDerivWithinAt_const t (Set.Ici t) (Spec.quad p (x 0))).congr (fun r hr => hconst r (ht.le.trans hr)) (hconst t ht)
    have h2 := (hx.cost_deriv t ht).add (hderiv x u J hx t ht)
    have h3 := (uniqueDiffWithinAt_Ici t).eq_deriv _ h1 h2
    have h4 : Spec.quad R (u t + k *ᵥ x t) = 0 := by linarith
    by_contra hne
    have := hR0 (u t + k *ᵥ x t) fun h0 => hne (eq_neg_of_add_eq_zero_left h0)
    linarith

/-! ## Examples -/

theorem quad_one (a : ℝ) (x : Fin 1 → ℝ) : Spec.quad !![a] x = a * x 0 ^ 2 := by
  unfold Spec.quad
  simp [dotProduct, mulVec]
  ring

theorem quad_one_pos {a : ℝ} (ha : 0 < a) (x : Fin 1 → ℝ) (hx : x ≠ 0) : 0 < Spec.quad !![a] x := by
  rw [quad_one]
  have : x 0 ≠ 0 := by
    intro h0
    apply hx
    funext i
    fin_cases i
    exact h0
  positivity

theorem inv_one {a : ℝ} (ha : a ≠ 0) : (!![a] : Matrix (Fin 1) (Fin 1) ℝ)⁻¹ = !![a⁻¹] := by
  apply Matrix.inv_eq_right_inv
  ext i j
  fin_cases i; fin_cases j
  simp [ha]

theorem mul_one_one (a b : ℝ) : (!![a] : Matrix (Fin 1) (Fin 1) ℝ) * !![b] = !![a * b] := by
  ext i j
  fin_cases i; fin_cases j
  simp [Matrix.mul_apply]

theorem add_one_one (a b : ℝ) : (!![a] : Matrix (Fin 1) (Fin 1) ℝ) + !![b] = !![a + b] := by
  ext i j
  fin_cases i; fin_cases j
  simp

theorem sub_one_one (a b : ℝ) : (!![a] : Matrix (Fin 1) (Fin 1) ℝ) - !![b] = !![a - b] := by
  ext i j
  fin_cases i; fin_cases j
  simp

theorem transpose_one_one (a : ℝ) : (!![a] : Matrix (Fin 1) (Fin 1) ℝ)ᵀ = !![a] := by
  ext i j
  fin_cases i; fin_cases j
  simp

/-- `A = B = Q = 1`, `R = 2`: the gain is `1/2` and `P = 2`. -/
theorem exampleDlqr : dlqr (!![2] : Matrix (Fin 1) (Fin 1) ℝ) !![1] !![1] !![2] = .ok (!![1 / 2], !![2]) := by
  unfold dlqr linSolve
  simp only [transpose_one_one, mul_one_one, add_one_one]
  rw [inv_one (by norm_num), mul_one_one, if_neg (by norm_num [Matrix.det_fin_one])]
  norm_num [Bind.bind, Except.bind, Pure.pure, Except.pure]

/-- The total cost of the closed loop from `3` is `18`. -/
example (x u : ℕ → Fin 1 → ℝ) (hx : Spec.DiscreteTrajectory !![1] !![1] x u) (h0 : x 0 = ![3])
    (hu : ∀ t, u t = -(!![1 / 2] *ᵥ x t)) : Tendsto (Spec.stepCosts !![1] !![2] x u) atTop (𝓝 18) := by
  have := ((C124_discrete !![1] !![1] !![2] !![1] !![2] (transpose_one_one _) (transpose_one_one _)
    (fun x => by rw [quad_one]; positivity) (quad_one_pos one_pos) (quad_one_pos two_pos)
    (by
      unfold Spec.SolvesDARE
      simp only [transpose_one_one, mul_one_one, add_one_one, sub_one_one, inv_one (show (2 + 1 * 2 * 1 : ℝ) ≠ 0 by norm_num)]
      norm_num) exampleDlqr).1 x u hx hu).1
  rw [quad_one, h0] at this
  norm_num at this
  exact this

/-- `A = B = R = 1`, `Q = 3`: the gain is `3` and `P = 3`. -/
theorem exampleLqr : lqr (!![3] : Matrix (Fin 1) (Fin 1) ℝ) !![1] !![1] = .ok (!![3], !![3]) := by
  unfold lqr linSolve
  rw [transpose_one_one, mul_one_one, inv_one (by norm_num), mul_one_one, if_neg (by norm_num [Matrix.det_fin_one])]
  norm_num [Bind.bind, Except.bind, Pure.pure, Except.pure]

theorem exampleCare : Spec.SolvesCARE (!![3] : Matrix (Fin 1) (Fin 1) ℝ) !![1] !![3] !![1] !![1] := by
  unfold Spec.SolvesCARE
  rw [inv_one one_ne_zero]
  simp only [transpose_one_one, mul_one_one, add_one_one, sub_one_one]
  ext i j
  fin_cases i; fin_cases j
  norm_num

/-- The closed loop from `1` is `exp(-2t)`, with running cost `3 (1 - exp(-4t))`. -/
theorem exampleCurve : Spec.ContinuousTrajectory (n := 1) (m := 1) !![1] !![3] !![1] !![1] (fun t => ![Real.exp (-2 * t)])
    (fun t => ![-3 * Real.exp (-2 * t)]) (fun t => 3 - 3 * Real.exp (-4 * t)) := by
  have hE : ∀ a t : ℝ, HasDerivAt (fun t => Real.exp (a * t)) (Real.exp (a * t) * a) t := by
    intro a t
    have := ((hasDerivAt_id t).const_mul a).exp
    simpa using this
  refine ⟨?_, fun t _ => ?_, by simp, by fun_prop, fun t _ => ?_⟩
  · refine Continuous.continuousOn (continuous_pi fun i => ?_)
    fin_cases i
    show Continuous fun t : ℝ => Real.exp (-2 * t)
    fun_prop
  · rw [hasDerivWithinAt_pi]
    intro i
    fin_cases i
    have := (hE (-2) t).hasDerivWithinAt (s := Set.Ici t)
    have e : Real.exp (-2 * t) * -2 = (!![1] *ᵥ ![Real.exp (-2 * t)] + !![1] *ᵥ ![-3 * Real.exp (-2 * t)] : Fin 1 → ℝ) 0 := by
      rw [Pi.add_apply, Matrix.mulVec, Matrix.mulVec, dotProduct, dotProduct]
      simp only [Fin.sum_univ_one, Matrix.cons_val_zero, Matrix.of_apply]
      ring
    rw [e] at this
    exact this
  · have := (((hE (-4) t).const_mul 3).const_sub 3).hasDerivWithinAt (s := Set.Ici t)
    refine this.congr_deriv ?_
    rw [quad_one, quad_one]
    have e : Real.exp (-4 * t) = Real.exp (-2 * t) ^ 2 := by
      rw [← Real.exp_nat_mul]
      congr 1
      push_cast
      ring
    simp only [Matrix.cons_val_zero]
    rw [e]
    ring

/-- It is optimal: no input has a cost below `3` from the state `1`. -/
example (x : ℝ → Fin 1 → ℝ) (u : ℝ → Fin 1 → ℝ) (J : ℝ → ℝ)
    (hx : Spec.ContinuousTrajectory (n := 1) (m := 1) !![1] !![3] !![1] !![1] x u J) (h0 : x 0 = ![1]) (M : ℝ)
    (hM : ∀ t ≥ 0, J t ≤ M) : 3 ≤ M := by
  have := (C125_continuous !![1] !![3] !![3] !![1] !![1] (transpose_one_one _) (transpose_one_one _)
    (fun x => by rw [quad_one]; positivity) (quad_one_pos (by norm_num)) (quad_one_pos one_pos) exampleCare exampleLqr).2.2.1 x u J hx M hM
  rw [quad_one, h0] at this
  norm_num at this
  exact this

end SafeLearning
