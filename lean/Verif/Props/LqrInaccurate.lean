import Verif.Props.LqrOptimal
set_option autoImplicit false

/-!
# C145: linear quadratic regulators from inaccurate Riccati solvers
-/

namespace SafeLearning

open Matrix Filter Topology

variable {n m : ℕ}

/-! ## Specification -/

/-- By how much `P` fails to solve the discrete-time Riccati equation. -/
noncomputable def _root_.Spec.dareResidual (P A Q : Matrix (Fin n) (Fin n) ℝ) (B : Matrix (Fin n) (Fin m) ℝ) (R : Matrix (Fin m) (Fin m) ℝ) : Matrix (Fin n) (Fin n) ℝ :=
  Aᵀ * P * A - Aᵀ * P * B * (R + Bᵀ * P * B)⁻¹ * (Bᵀ * P * A) + Q - P

/-- By how much `P` fails to solve the continuous-time Riccati equation. -/
noncomputable def _root_.Spec.careResidual (P A Q : Matrix (Fin n) (Fin n) ℝ) (B : Matrix (Fin n) (Fin m) ℝ) (R : Matrix (Fin m) (Fin m) ℝ) : Matrix (Fin n) (Fin n) ℝ :=
  Aᵀ * P + P * A - P * B * R⁻¹ * Bᵀ * P + Q

theorem dareResidual_eq_zero (P A Q : Matrix (Fin n) (Fin n) ℝ) (B : Matrix (Fin n) (Fin m) ℝ) (R : Matrix (Fin m) (Fin m) ℝ) :
    Spec.dareResidual P A Q B R = 0 ↔ Spec.SolvesDARE P A Q B R := by
  unfold Spec.dareResidual Spec.SolvesDARE
  rw [sub_eq_zero]
  exact eq_comm

theorem careResidual_eq_zero (P A Q : Matrix (Fin n) (Fin n) ℝ) (B : Matrix (Fin n) (Fin m) ℝ) (R : Matrix (Fin m) (Fin m) ℝ) :
    Spec.careResidual P A Q B R = 0 ↔ Spec.SolvesCARE P A Q B R := Iff.rfl

/-- An inaccurate solution is a solution for other weights. -/
theorem solvesDARE_residual (P A Q : Matrix (Fin n) (Fin n) ℝ) (B : Matrix (Fin n) (Fin m) ℝ) (R : Matrix (Fin m) (Fin m) ℝ) :
    Spec.SolvesDARE P A (Q - Spec.dareResidual P A Q B R) B R := by
  unfold Spec.dareResidual Spec.SolvesDARE
  abel

theorem solvesCARE_residual (P A Q : Matrix (Fin n) (Fin n) ℝ) (B : Matrix (Fin n) (Fin m) ℝ) (R : Matrix (Fin m) (Fin m) ℝ) :
    Spec.SolvesCARE P A (Q - Spec.careResidual P A Q B R) B R := by
  unfold Spec.careResidual Spec.SolvesCARE
  abel

theorem quad_sub_matrix (M N : Matrix (Fin n) (Fin n) ℝ) (x : Fin n → ℝ) : Spec.quad (M - N) x = Spec.quad M x - Spec.quad N x := by
  unfold Spec.quad
  rw [Matrix.sub_mulVec, dotProduct_sub]

theorem quad_neg_vec (M : Matrix (Fin n) (Fin n) ℝ) (x : Fin n → ℝ) : Spec.quad M (-x) = Spec.quad M x := by
  unfold Spec.quad
  rw [Matrix.mulVec_neg, neg_dotProduct, dotProduct_neg, neg_neg]

theorem gain_difference (k k' : Matrix (Fin m) (Fin n) ℝ) (M : Matrix (Fin m) (Fin m) ℝ) (x : Fin n → ℝ) :
    Spec.quad M (-(k' *ᵥ x) + k *ᵥ x) = Spec.quad M ((k' - k) *ᵥ x) := by
  rw [← quad_neg_vec, Matrix.sub_mulVec]
  congr 1
  abel

/-! ## Discrete time -/

/-- One step of the closed loop with a computed gain. -/
theorem inaccurate_step (A Q P : Matrix (Fin n) (Fin n) ℝ) (B : Matrix (Fin n) (Fin m) ℝ) (R : Matrix (Fin m) (Fin m) ℝ)
    (hP : Pᵀ = P) (hR : Rᵀ = R) (hR0 : ∀ u, 0 ≤ Spec.quad R u) {k k' : Matrix (Fin m) (Fin n) ℝ} {p : Matrix (Fin n) (Fin n) ℝ}
    (h : dlqr P A B R = .ok (k, p)) (ε δ : ℝ) (hε : 0 ≤ ε) (hδ : 0 ≤ δ)
    (hres : ∀ x, |Spec.quad (Spec.dareResidual P A Q B R) x| ≤ ε * Spec.quad Q x)
    (hgain : ∀ x, Spec.quad (R + Bᵀ * P * B) ((k' - k) *ᵥ x) ≤ δ * Spec.quad Q x) (x : Fin n → ℝ) :
    Spec.quad P (A *ᵥ x + B *ᵥ -(k' *ᵥ x)) ≤ Spec.quad P x - (1 - ε - δ) * (Spec.quad Q x + Spec.quad R (-(k' *ᵥ x))) := by
  have hare := solvesDARE_residual P A Q B R
  have h1 := dlqr_cost A P B R hP hR h x (-(k' *ᵥ x))
  have h2 := dlqr_cost A P B R hP hR h x (-(k *ᵥ x))
  have h3 := C44_dlqr_decrease A (Q - Spec.dareResidual P A Q B R) P B R hare h x
  have h0 : Spec.quad (R + Bᵀ * P * B) (-(k *ᵥ x) + k *ᵥ x) = 0 := by simp [Spec.quad]
  have h4 : Spec.quad (R + Bᵀ * P * B) (-(k' *ᵥ x) + k *ᵥ x) ≤ δ * Spec.quad Q x := by
    rw [gain_difference]
    exact hgain x
  rw [quad_sub_matrix] at h3
  have h5 := (abs_le.mp (hres x)).2
  have h7 := mul_nonneg (add_nonneg hε hδ) (hR0 (-(k' *ᵥ x)))
  have h8 : (1 - ε - δ) * (Spec.quad Q x + Spec.quad R (-(k' *ᵥ x))) =
      Spec.quad Q x - ε * Spec.quad Q x - δ * Spec.quad Q x + Spec.quad R (-(k' *ᵥ x)) - (ε + δ) * Spec.quad R (-(k' *ᵥ x)) := by ring
  rw [h8]
  linarith

/-- **C145 (dlqr).** Let the matrix `P` that the Riccati solver returns be symmetric and positive semidefinite with a residual of at most the fraction `ε` of `Q`, and let the computed gain `k'` differ from the
exact gain for this `P` by at most the fraction `δ` of `Q`, with `ε + δ < 1`. Then the closed loop with `k'` is exponentially stable with the Lyapunov function `xᵀ P x`, its total cost from `x₀` is at most `x₀ᵀ P x₀ / (1 - ε - δ)`, no
sequence of inputs has a total cost below `x₀ᵀ P x₀ / (1 + ε)`, and so the controller is optimal up to the factor `(1 + ε) / (1 - ε - δ)`. -/
theorem C145_dlqr (A Q P : Matrix (Fin n) (Fin n) ℝ) (B : Matrix (Fin n) (Fin m) ℝ) (R : Matrix (Fin m) (Fin m) ℝ)
    (hP : Pᵀ = P) (hR : Rᵀ = R) (hP0 : ∀ x, 0 ≤ Spec.quad P x) (hQ0 : ∀ x, x ≠ 0 → 0 < Spec.quad Q x)
    (hR0 : ∀ u, u ≠ 0 → 0 < Spec.quad R u) {k k' : Matrix (Fin m) (Fin n) ℝ} {p : Matrix (Fin n) (Fin n) ℝ}
    (h : dlqr P A B R = .ok (k, p)) (ε δ : ℝ) (hε : 0 ≤ ε) (hδ : 0 ≤ δ) (hsmall : ε + δ < 1)
    (hres : ∀ x, |Spec.quad (Spec.dareResidual P A Q B R) x| ≤ ε * Spec.quad Q x)
    (hgain : ∀ x, Spec.quad (R + Bᵀ * P * B) ((k' - k) *ᵥ x) ≤ δ * Spec.quad Q x) :
    (∃ rho < 1, 0 ≤ rho ∧ ∀ x u, Spec.DiscreteTrajectory A B x u → (∀ t, u t = -(k' *ᵥ x t)) →
      ∀ t, Spec.quad P (x t) ≤ rho ^ t * Spec.quad P (x 0)) ∧
    (∀ x u, Spec.DiscreteTrajectory A B x u → (∀ t, u t = -(k' *ᵥ x t)) →
      Tendsto x atTop (𝓝 0) ∧ ∀ T, Spec.stepCosts Q R x u T ≤ Spec.quad P (x 0) / (1 - ε - δ)) ∧
    (∀ x u, Spec.DiscreteTrajectory A B x u → ∀ M, (∀ T, Spec.stepCosts Q R x u T ≤ M) → Spec.quad P (x 0) / (1 + ε) ≤ M) ∧
    ∀ x u y v, Spec.DiscreteTrajectory A B x u → (∀ t, u t = -(k' *ᵥ x t)) → Spec.DiscreteTrajectory A B y v → y 0 = x 0 →
      ∀ M, (∀ T, Spec.stepCosts Q R y v T ≤ M) → ∀ T, Spec.stepCosts Q R x u T ≤ (1 + ε) / (1 - ε - δ) * M := by
  obtain ⟨E, hE⟩ : ∃ E, E = Spec.dareResidual P A Q B R := ⟨_, rfl⟩
  have hare := solvesDARE_residual P A Q B R
  rw [← hE] at hare hres
  obtain ⟨c, hc, hcP⟩ := quad_le_mul P Q hQ0
  have hR0' := quad_nonneg_of_pos hR0
  have hQ0' := quad_nonneg_of_pos hQ0
  obtain ⟨g, hg⟩ : ∃ g, g = 1 - ε - δ := ⟨_, rfl⟩
  rw [← hg]
  have hg0 : 0 < g := by linarith
  have hg1 : g ≤ 1 := by linarith
  -- the closed loop
  have hclosed : ∀ x u, Spec.DiscreteTrajectory A B x u → (∀ t, u t = -(k' *ᵥ x t)) → ∀ t,
      Spec.quad P (x (t + 1)) ≤ Spec.quad P (x t) - g * (Spec.quad Q (x t) + Spec.quad R (u t)) := by
    intro x u hx hu t
    have := inaccurate_step A Q P B R hP hR hR0' h ε δ hε hδ (hE ▸ hres) hgain (x t)
    rwa [← hg, ← hu t, ← hx t] at this
  have hsum : ∀ x u, Spec.DiscreteTrajectory A B x u → (∀ t, u t = -(k' *ᵥ x t)) → ∀ T,
      g * Spec.stepCosts Q R x u T ≤ Spec.quad P (x 0) - Spec.quad P (x T) := by
    intro x u hx hu T
    induction T with
    | zero => simp [Spec.stepCosts]
    | succ T ih =>
      unfold Spec.stepCosts at ih ⊢
      rw [Finset.sum_range_succ, mul_add]
      linarith [hclosed x u hx hu T]
  obtain ⟨rho, hrho⟩ : ∃ rho, rho = 1 - g / (c + 1) := ⟨_, rfl⟩
  have hc1 : 0 < g / (c + 1) := by positivity
  have hc2 : g / (c + 1) ≤ 1 := by
    rw [div_le_one (by linarith)]
    linarith
  have hrate : ∀ x u, Spec.DiscreteTrajectory A B x u → (∀ t, u t = -(k' *ᵥ x t)) →
      ∀ t, Spec.quad P (x t) ≤ rho ^ t * Spec.quad P (x 0) := by
    intro x u hx hu t
    induction t with
    | zero => simp
    | succ t ih =>
      have h1 : Spec.quad P (x t) / (c + 1) ≤ Spec.quad Q (x t) := by
        rw [div_le_iff₀ (by linarith)]
        nlinarith [hcP (x t), hQ0' (x t)]
      have h2 : Spec.quad P (x (t + 1)) ≤ Spec.quad P (x t) * rho := by
        have h3 := mul_le_mul_of_nonneg_left h1 hg0.le
        have h4 := mul_nonneg hg0.le (hR0' (u t))
        have h5 : Spec.quad P (x t) * rho = Spec.quad P (x t) - g * (Spec.quad P (x t) / (c + 1)) := by rw [hrho]; ring
        have h6 := hclosed x u hx hu t
        rw [mul_add] at h6
        linarith
      rw [pow_succ, mul_right_comm]
      exact h2.trans (mul_le_mul_of_nonneg_right ih (by rw [hrho]; linarith))
  have hlower : ∀ x u, Spec.DiscreteTrajectory A B x u → ∀ M, (∀ T, Spec.stepCosts Q R x u T ≤ M) → Spec.quad P (x 0) ≤ (1 + ε) * M := by
    intro x u hx M hM
    have hQ' : ∀ x, x ≠ 0 → 0 < Spec.quad (Q - E) x := by
      intro x hx
      rw [quad_sub_matrix]
      have h1 := (abs_le.mp (hres x)).2
      have h2 := hQ0 x hx
      have h3 : ε * Spec.quad Q x < 1 * Spec.quad Q x := mul_lt_mul_of_pos_right (by linarith) h2
      linarith
    have hp : p = P := (C44_dlqr_closed_loop A (Q - E) P B R hare h).1
    have := (C124_discrete A (Q - E) P B R hP hR hP0 hQ' hR0 hare h).2.2.1 x u hx ((1 + ε) * M) fun T => by
      refine le_trans ?_ (mul_le_mul_of_nonneg_left (hM T) (by linarith))
      unfold Spec.stepCosts
      rw [Finset.mul_sum]
      refine Finset.sum_le_sum fun t _ => ?_
      rw [quad_sub_matrix]
      have h1 := (abs_le.mp (hres (x t))).1
      have h2 := mul_nonneg hε (hR0' (u t))
      linarith
    rwa [hp] at this
  have hupper : ∀ x u, Spec.DiscreteTrajectory A B x u → (∀ t, u t = -(k' *ᵥ x t)) → ∀ T, Spec.stepCosts Q R x u T ≤ Spec.quad P (x 0) / g := by
    intro x u hx hu T
    rw [le_div_iff₀ hg0, mul_comm]
    linarith [hsum x u hx hu T, hP0 (x T)]
  refine ⟨⟨rho, by rw [hrho]; linarith, by rw [hrho]; linarith, hrate⟩, fun x u hx hu => ⟨?_, hupper x u hx hu⟩, ?_, ?_⟩
  · refine tendsto_of_quad hQ0 ?_
    have h1 : Tendsto (fun t => Spec.quad P (x t)) atTop (𝓝 0) := by
      refine squeeze_zero (fun t => hP0 _) (hrate x u hx hu) ?_
      simpa using (tendsto_pow_atTop_nhds_zero_of_lt_one (r := rho) (by rw [hrho]; linarith) (by rw [hrho]; linarith)).mul_const (Spec.quad P (x 0))
    have h3 := (h1.sub (h1.comp (tendsto_add_atTop_nat 1))).div_const g
    rw [sub_zero, zero_div] at h3
    refine squeeze_zero (fun t => hQ0' _) (fun t => ?_) h3
    rw [le_div_iff₀ hg0, mul_comm]
    have h4 := hclosed x u hx hu t
    have h5 := mul_nonneg hg0.le (hR0' (u t))
    rw [mul_add] at h4
    simp only [Function.comp]
    linarith
  · intro x u hx M hM
    rw [div_le_iff₀ (by linarith), mul_comm]
    exact hlower x u hx M hM
  · intro x u y v hx hu hy h0 M hM T
    refine (hupper x u hx hu T).trans ?_
    rw [div_mul_eq_mul_div]
    refine div_le_div_of_nonneg_right ?_ hg0.le
    rw [← h0]
    exact hlower y v hy M hM

/-! ## Continuous time -/

/-- **C145 (lqr).** The same in continuous time. -/
theorem C145_lqr (A Q P : Matrix (Fin n) (Fin n) ℝ) (B : Matrix (Fin n) (Fin m) ℝ) (R : Matrix (Fin m) (Fin m) ℝ)
    (hP : Pᵀ = P) (hR : Rᵀ = R) (hP0 : ∀ x, 0 ≤ Spec.quad P x) (hQ0 : ∀ x, x ≠ 0 → 0 < Spec.quad Q x)
    (hR0 : ∀ u, u ≠ 0 → 0 < Spec.quad R u) {k k' : Matrix (Fin m) (Fin n) ℝ} {p : Matrix (Fin n) (Fin n) ℝ}
    (h : lqr P B R = .ok (k, p)) (ε δ : ℝ) (hε : 0 ≤ ε) (hδ : 0 ≤ δ) (hsmall : ε + δ < 1)
    (hres : ∀ x, |Spec.quad (Spec.careResidual P A Q B R) x| ≤ ε * Spec.quad Q x)
    (hgain : ∀ x, Spec.quad R ((k' - k) *ᵥ x) ≤ δ * Spec.quad Q x) :
    (∃ rate > 0, ∀ x u J, Spec.ContinuousTrajectory A Q B R x u J → (∀ t ≥ 0, u t = -(k' *ᵥ x t)) →
      ∀ t ≥ 0, Spec.quad P (x t) ≤ Real.exp (-rate * t) * Spec.quad P (x 0)) ∧
    (∀ x u J, Spec.ContinuousTrajectory A Q B R x u J → (∀ t ≥ 0, u t = -(k' *ᵥ x t)) →
      Tendsto x atTop (𝓝 0) ∧ ∀ t ≥ 0, J t ≤ Spec.quad P (x 0) / (1 - ε - δ)) ∧
    (∀ x u J, Spec.ContinuousTrajectory A Q B R x u J → ∀ M, (∀ t ≥ 0, J t ≤ M) → Spec.quad P (x 0) / (1 + ε) ≤ M) ∧
    ∀ x u J y v L, Spec.ContinuousTrajectory A Q B R x u J → (∀ t ≥ 0, u t = -(k' *ᵥ x t)) → Spec.ContinuousTrajectory A Q B R y v L → y 0 = x 0 →
      ∀ M, (∀ t ≥ 0, L t ≤ M) → ∀ t ≥ 0, J t ≤ (1 + ε) / (1 - ε - δ) * M := by
  obtain ⟨E, hE⟩ : ∃ E, E = Spec.careResidual P A Q B R := ⟨_, rfl⟩
  have hare := solvesCARE_residual P A Q B R
  rw [← hE] at hare hres
  obtain ⟨c, hc, hcP⟩ := quad_le_mul P Q hQ0
  have hR0' := quad_nonneg_of_pos hR0
  have hQ0' := quad_nonneg_of_pos hQ0
  obtain ⟨g, hg⟩ : ∃ g, g = 1 - ε - δ := ⟨_, rfl⟩
  rw [← hg]
  have hg0 : 0 < g := by linarith
  have hg1 : g ≤ 1 := by linarith
  have hcont : ∀ x u J, Spec.ContinuousTrajectory A Q B R x u J → ContinuousOn (fun t => Spec.quad P (x t)) (Set.Ici 0) :=
    fun x u J hx => (continuous_quad P).comp_continuousOn hx.state_cont
  have hderiv : ∀ x u J, Spec.ContinuousTrajectory A Q B R x u J → ∀ t ≥ 0,
      HasDerivWithinAt (fun t => Spec.quad P (x t))
        (-(Spec.quad Q (x t) - Spec.quad E (x t) + Spec.quad R (u t)) + Spec.quad R (u t + k *ᵥ x t)) (Set.Ici t) t := by
    intro x u J hx t ht
    have := hasDerivWithinAt_quad (P := P) (hx.state_deriv t ht)
    rwa [lqr_step A (Q - E) P B R hP hR hare h, quad_sub_matrix] at this
  have hclosed : ∀ (x : ℝ → Fin n → ℝ) (u : ℝ → Fin m → ℝ), (∀ t ≥ 0, u t = -(k' *ᵥ x t)) → ∀ t ≥ 0,
      -(Spec.quad Q (x t) - Spec.quad E (x t) + Spec.quad R (u t)) + Spec.quad R (u t + k *ᵥ x t) ≤ -(g * (Spec.quad Q (x t) + Spec.quad R (u t))) := by
    intro x u hu t ht
    have h4 : Spec.quad R (u t + k *ᵥ x t) ≤ δ * Spec.quad Q (x t) := by
      rw [hu t ht, gain_difference]
      exact hgain (x t)
    have h5 := (abs_le.mp (hres (x t))).2
    have h6 := hR0' (u t)
    have h7 : g * Spec.quad R (u t) ≤ Spec.quad R (u t) := mul_le_of_le_one_left h6 hg1
    have h8 : g * Spec.quad Q (x t) = Spec.quad Q (x t) - ε * Spec.quad Q (x t) - δ * Spec.quad Q (x t) := by rw [hg]; ring
    linarith
  -- a multiple of the cost plus the value never decreases
  have hW : ∀ x u J, Spec.ContinuousTrajectory A Q B R x u J → ∀ t ≥ 0, Spec.quad P (x 0) ≤ (1 + ε) * J t + Spec.quad P (x t) := by
    intro x u J hx t ht
    have := le_of_right_deriv (f := fun t => (1 + ε) * J t + Spec.quad P (x t)) ((hx.cost_cont.const_smul (1 + ε)).add (hcont x u J hx))
      (fun t ht => ((hx.cost_deriv t ht).const_mul (1 + ε)).add (hderiv x u J hx t ht)) (c := 0) le_rfl ht
      (fun r hr _ => by
        have h1 := hR0' (u r + k *ᵥ x r)
        have h2 := (abs_le.mp (hres (x r))).1
        have h3 := mul_nonneg hε (hR0' (u r))
        linarith)
    simp only [hx.cost_zero] at this
    linarith
  -- the value becomes small if the cost is bounded
  have hsm : ∀ x u J, Spec.ContinuousTrajectory A Q B R x u J → ∀ M, (∀ t ≥ 0, J t ≤ M) → ∀ eps > 0, ∃ t ≥ 0, Spec.quad P (x t) < eps := by
    intro x u J hx M hM eps heps
    by_contra hno
    push Not at hno
    have hJs := hM 0 le_rfl
    rw [hx.cost_zero] at hJs
    obtain ⟨T, hT⟩ : ∃ T : ℝ, T = (M + 1) / (eps / c) := ⟨_, rfl⟩
    have hT0 : 0 ≤ T := by rw [hT]; exact div_nonneg (by linarith) (by positivity)
    have := le_of_right_deriv (f := J) hx.cost_cont hx.cost_deriv (c := eps / c) le_rfl hT0
      (fun r hr _ => by
        have : eps / c ≤ Spec.quad Q (x r) := by
          rw [div_le_iff₀ hc]
          linarith [hno r hr, hcP (x r)]
        linarith [hR0' (u r)])
    have e : eps / c * (T - 0) = M + 1 := by
      rw [hT, sub_zero]
      field_simp
    rw [e, hx.cost_zero] at this
    linarith [hM T hT0]
  have hcost : ∀ x u J, Spec.ContinuousTrajectory A Q B R x u J → (∀ t ≥ 0, u t = -(k' *ᵥ x t)) → ∀ t ≥ 0,
      g * J t + Spec.quad P (x t) ≤ Spec.quad P (x 0) := by
    intro x u J hx hu t ht
    have := le_of_right_deriv (f := fun t => -(g * J t + Spec.quad P (x t))) ((hx.cost_cont.const_smul g).add (hcont x u J hx)).neg
      (fun t ht => (((hx.cost_deriv t ht).const_mul g).add (hderiv x u J hx t ht)).neg) (c := 0) le_rfl ht
      (fun r hr _ => by linarith [hclosed x u hu r hr])
    simp only [hx.cost_zero] at this
    linarith
  have hrate : ∀ x u J, Spec.ContinuousTrajectory A Q B R x u J → (∀ t ≥ 0, u t = -(k' *ᵥ x t)) →
      ∀ t ≥ 0, Spec.quad P (x t) ≤ Real.exp (-(g / c) * t) * Spec.quad P (x 0) := by
    intro x u J hx hu t ht
    have hE : ∀ r : ℝ, HasDerivWithinAt (fun r => Real.exp (g / c * r)) (Real.exp (g / c * r) * (g / c)) (Set.Ici r) r := by
      intro r
      have := (((hasDerivAt_id r).const_mul (g / c)).exp).hasDerivWithinAt (s := Set.Ici r)
      simpa using this
    have := le_of_right_deriv (f := fun t => -(Real.exp (g / c * t) * Spec.quad P (x t)))
      ((Continuous.continuousOn (by fun_prop)).mul (hcont x u J hx)).neg
      (fun t ht => ((hE t).mul (hderiv x u J hx t ht)).neg) (c := 0) le_rfl ht
      (fun r hr _ => by
        have h1 : Spec.quad P (x r) / c ≤ Spec.quad Q (x r) := by
          rw [div_le_iff₀ hc]
          linarith [hcP (x r)]
        have h3 := mul_le_mul_of_nonneg_left h1 hg0.le
        have h4 := hclosed x u hu r hr
        have h5 := mul_nonneg hg0.le (hR0' (u r))
        rw [mul_add] at h4
        have h6 : g / c * Spec.quad P (x r) = g * (Spec.quad P (x r) / c) := by ring
        have h2 := mul_nonneg (Real.exp_pos (g / c * r)).le
          (show 0 ≤ -(-(Spec.quad Q (x r) - Spec.quad E (x r) + Spec.quad R (u r)) + Spec.quad R (u r + k *ᵥ x r)) - g / c * Spec.quad P (x r) by linarith)
        calc (0 : ℝ) ≤ _ := h2
          _ = _ := by ring)
    simp only [mul_zero, Real.exp_zero, one_mul, zero_mul, add_zero, neg_le_neg_iff] at this
    rw [neg_mul, Real.exp_neg, ← div_eq_inv_mul, le_div_iff₀ (Real.exp_pos _), mul_comm]
    exact this
  have hgc : 0 < g / c := by positivity
  have hlower : ∀ x u J, Spec.ContinuousTrajectory A Q B R x u J → ∀ M, (∀ t ≥ 0, J t ≤ M) → Spec.quad P (x 0) ≤ (1 + ε) * M := by
    intro x u J hx M hM
    refine le_of_forall_pos_le_add fun eps heps => ?_
    obtain ⟨t, ht, hs⟩ := hsm x u J hx M hM eps heps
    have h1 := mul_le_mul_of_nonneg_left (hM t ht) (by linarith : 0 ≤ 1 + ε)
    linarith [hW x u J hx t ht]
  have hupper : ∀ x u J, Spec.ContinuousTrajectory A Q B R x u J → (∀ t ≥ 0, u t = -(k' *ᵥ x t)) → ∀ t ≥ 0, J t ≤ Spec.quad P (x 0) / g := by
    intro x u J hx hu t ht
    rw [le_div_iff₀ hg0, mul_comm]
    linarith [hcost x u J hx hu t ht, hP0 (x t)]
  have hQ' : ∀ x, x ≠ 0 → 0 < Spec.quad (Q - E) x := by
    intro x hx
    rw [quad_sub_matrix]
    have h1 := (abs_le.mp (hres x)).2
    have h2 := hQ0 x hx
    have h3 : ε * Spec.quad Q x < 1 * Spec.quad Q x := mul_lt_mul_of_pos_right (by linarith) h2
    linarith
  refine ⟨⟨g / c, hgc, hrate⟩, fun x u J hx hu => ⟨?_, hupper x u J hx hu⟩, ?_, ?_⟩
  · refine tendsto_of_quad (care_pos A (Q - E) P B R hP hP0 hQ' hare) ?_
    have hlim : Tendsto (fun t : ℝ => Real.exp (-(g / c) * t) * Spec.quad P (x 0)) atTop (𝓝 0) := by
      have h1 : Tendsto (fun t : ℝ => -(g / c) * t) atTop atBot := tendsto_id.const_mul_atTop_of_neg (by linarith)
      simpa using (Real.tendsto_exp_atBot.comp h1).mul_const (Spec.quad P (x 0))
    refine tendsto_of_tendsto_of_tendsto_of_le_of_le' tendsto_const_nhds hlim (Eventually.of_forall fun t => hP0 _) ?_
    filter_upwards [eventually_ge_atTop 0] with t ht
    exact hrate x u J hx hu t ht
  · intro x u J hx M hM
    rw [div_le_iff₀ (by linarith), mul_comm]
    exact hlower x u J hx M hM
  · intro x u J y v L hx hu hy h0 M hM t ht
    refine (hupper x u J hx hu t ht).trans ?_
    rw [div_mul_eq_mul_div]
    refine div_le_div_of_nonneg_right ?_ hg0.le
    rw [← h0]
    exact hlower y v L hy M hM

/-! ## Examples -/

theorem inaccurateDlqr : dlqr (!![21 / 10] : Matrix (Fin 1) (Fin 1) ℝ) !![1] !![1] !![2] = .ok (!![21 / 41], !![21 / 10]) := by
  unfold dlqr linSolve
  simp only [transpose_one_one, mul_one_one, add_one_one]
  rw [inv_one (by norm_num), mul_one_one, if_neg (by norm_num [Matrix.det_fin_one])]
  norm_num [Bind.bind, Except.bind, Pure.pure, Except.pure]

/-- For `A = B = Q = 1`, `R = 2` the solution is `2`. With `2.1` and the rounded gain `0.5`, the cost of the closed loop is at most `110 / 89` times the cost of any other controller. -/
example := C145_dlqr (k' := !![1 / 2]) !![1] !![1] !![21 / 10] !![1] !![2] (transpose_one_one _) (transpose_one_one _)
  (fun x => by rw [quad_one]; positivity) (quad_one_pos one_pos) (quad_one_pos (by norm_num)) inaccurateDlqr (1 / 10) (1 / 100) (by norm_num) (by norm_num) (by norm_num)
  (by
    intro x
    unfold Spec.dareResidual
    simp only [transpose_one_one, mul_one_one, add_one_one, sub_one_one, inv_one (show (2 + 1 * (21 / 10) * 1 : ℝ) ≠ 0 by norm_num)]
    rw [quad_one, quad_one, abs_le]
    constructor <;> linarith [sq_nonneg (x 0)])
  (by
    intro x
    simp only [transpose_one_one, mul_one_one, add_one_one, sub_one_one]
    rw [quad_one, quad_one]
    simp only [Matrix.mulVec, dotProduct, Fin.sum_univ_one, Matrix.cons_val_zero, Matrix.of_apply]
    nlinarith [sq_nonneg (x 0)])

theorem inaccurateLqr : lqr (!![31 / 10] : Matrix (Fin 1) (Fin 1) ℝ) !![1] !![1] = .ok (!![31 / 10], !![31 / 10]) := by
  unfold lqr linSolve
  rw [transpose_one_one, mul_one_one, inv_one (by norm_num), mul_one_one, if_neg (by norm_num [Matrix.det_fin_one])]
  norm_num [Bind.bind, Except.bind, Pure.pure, Except.pure]

/-- For `A = B = R = 1`, `Q = 3` the solution is `3`. With `3.1` and the gain `3`, the cost of the closed loop is at most `120 / 79` times the cost of any other controller. -/
example := C145_lqr (k' := !![3]) !![1] !![3] !![31 / 10] !![1] !![1] (transpose_one_one _) (transpose_one_one _)
  (fun x => by rw [quad_one]; positivity) (quad_one_pos (by norm_num)) (quad_one_pos one_pos) inaccurateLqr (1 / 5) (1 / 100) (by norm_num) (by norm_num) (by norm_num)
  (by
    intro x
    unfold Spec.careResidual
    rw [inv_one one_ne_zero]
    simp only [transpose_one_one, mul_one_one, add_one_one, sub_one_one]
    rw [quad_one, quad_one, abs_mul, abs_of_nonneg (sq_nonneg (x 0)), ← mul_assoc]
    refine mul_le_mul_of_nonneg_right ?_ (sq_nonneg _)
    rw [abs_le]
    constructor <;> norm_num)
  (by
    intro x
    simp only [sub_one_one]
    rw [quad_one, quad_one]
    simp only [Matrix.mulVec, dotProduct, Fin.sum_univ_one, Matrix.cons_val_zero, Matrix.of_apply]
    nlinarith [sq_nonneg (x 0)])

end SafeLearning
