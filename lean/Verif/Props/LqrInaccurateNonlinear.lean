import Verif.Props.LqrInaccurate
import Verif.Props.Linearisation
set_option autoImplicit false

/-!
# C147: nonlinear systems with regulators that are computed inaccurately for inaccurate models
-/

namespace SafeLearning

open Matrix Spec

variable {n m : ℕ}

/-- The decrease along the linear model. -/
theorem inaccurate_decrease (A Q P : Matrix (Fin n) (Fin n) ℝ) (B : Matrix (Fin n) (Fin m) ℝ) (R : Matrix (Fin m) (Fin m) ℝ)
    (hP : Pᵀ = P) (hR : Rᵀ = R) (hR0 : ∀ u, 0 ≤ quad R u) {k k' : Matrix (Fin m) (Fin n) ℝ} {p : Matrix (Fin n) (Fin n) ℝ}
    (h : dlqr P A B R = .ok (k, p)) {ε δ q : ℝ} (hε : 0 ≤ ε) (hδ : 0 ≤ δ) (hεδ : ε + δ < 1)
    (hres : ∀ x, |quad (dareResidual P A Q B R) x| ≤ ε * quad Q x)
    (hgain : ∀ x, quad (R + Bᵀ * P * B) ((k' - k) *ᵥ x) ≤ δ * quad Q x) (hQ : ∀ x, q * ‖x‖ ^ 2 ≤ quad Q x) (x : Fin n → ℝ) :
    quad P ((A - B * k') *ᵥ x) + (1 - ε - δ) * q * ‖x‖ ^ 2 ≤ quad P x := by
  have h1 := inaccurate_step A Q P B R hP hR hR0 h ε δ hε hδ hres hgain x
  have e : A *ᵥ x + B *ᵥ -(k' *ᵥ x) = (A - B * k') *ᵥ x := by
    rw [mulVec_neg, sub_mulVec, mulVec_mulVec, sub_eq_add_neg]
  rw [e] at h1
  have h2 := mul_le_mul_of_nonneg_left (hQ x) (by linarith : 0 ≤ 1 - ε - δ)
  have h3 := mul_nonneg (by linarith : 0 ≤ 1 - ε - δ) (hR0 (-(k' *ᵥ x)))
  rw [mul_add] at h1
  rw [mul_assoc]
  linarith

/-- **C147** Let the linearisation of `f` at the origin be `A'`, `B'`, and let `dlqr` be called with a model `A`, `B` of it that is off by at most `e`. Let the Riccati solver return a symmetric and positive semidefinite `P` with a
residual of at most the fraction `ε` of `Q`, and let the gain `k'` be computed up to the fraction `δ` of `Q`. If the part of `Q` that is left dominates the error of the model, the level sets of `P` are, up to some level, invariant under `f` with the policy
`-k' x` saturated to `[-1, 1]`, and their states converge to the origin. -/
theorem C147_nonlinear (f : (Fin n → ℝ) → (Fin m → ℝ) → Fin n → ℝ) (h0 : f 0 0 = 0) (A' : Matrix (Fin n) (Fin n) ℝ) (B' : Matrix (Fin n) (Fin m) ℝ)
    (hJ : IsJacobian f A' B' 0 0) (A Q P : Matrix (Fin n) (Fin n) ℝ) (B : Matrix (Fin n) (Fin m) ℝ) (R : Matrix (Fin m) (Fin m) ℝ) (e : ℝ) (he : 0 ≤ e)
    (hmodel : LinearModelsWithin A A' B B' e) (hP : Pᵀ = P) (hR : Rᵀ = R) (hP0 : ∀ x, 0 ≤ quad P x) (hR0 : ∀ u, 0 ≤ quad R u)
    (k k' : Matrix (Fin m) (Fin n) ℝ) (p : Matrix (Fin n) (Fin n) ℝ) (h : dlqr P A B R = .ok (k, p))
    (ε δ : ℝ) (hε : 0 ≤ ε) (hδ : 0 ≤ δ) (hεδ : ε + δ < 1) (hres : ∀ x, |quad (dareResidual P A Q B R) x| ≤ ε * quad Q x)
    (hgain : ∀ x, quad (R + Bᵀ * P * B) ((k' - k) *ᵥ x) ≤ δ * quad Q x)
    (g a q : ℝ) (hg1 : 1 ≤ g) (hg : ∀ i, ∑ j, |k' i j| ≤ g) (ha0 : 0 ≤ a) (ha : ∀ i, ∑ j, |(A - B * k') i j| ≤ a)
    (hQ : ∀ x, q * ‖x‖ ^ 2 ≤ quad Q x) (hsmall : absSum P * (e * g) * (2 * a + e * g) < (1 - ε - δ) * q) :
    ∃ level > 0, StableLevelSet P level fun x => f x (linearPolicy true k' x) := by
  have hdec := inaccurate_decrease A Q P B R hP hR hR0 h hε hδ hεδ hres hgain hQ
  have hq : 0 < (1 - ε - δ) * q := by
    refine lt_of_le_of_lt ?_ hsmall
    have : 0 ≤ absSum P := Finset.sum_nonneg fun _ _ => Finset.sum_nonneg fun _ _ => abs_nonneg _
    positivity
  refine C126_linearisation f A' B' h0 hJ k' P (fun x hx => ?_) fun x hx => decrease_of_close he hmodel k' hg1 hg ha0 ha hdec hsmall x hx
  have h1 := hdec x
  have h2 := mul_pos hq (pow_pos (norm_pos_iff.mpr hx) 2)
  linarith [hP0 ((A - B * k') *ᵥ x)]

/-- **C140 (pendulum, `dlqr` with inaccurate solvers).** The same for the matrices of `linearize` and the simulated pendulum. Missing: negative frictions. -/
theorem C140_pendulum_inaccurate_partial (p : InvertedPendulum) (hf : 0 ≤ p.friction) (hdt : 0 ≤ p.dt) (hn : ∀ T, p.normalization = some T → ∀ i, T.1 i ≠ 0)
    (A : Matrix (Fin 2) (Fin 2) ℝ) (B : Matrix (Fin 2) (Fin 1) ℝ) (hJ : IsScaledJacobian p.ode p.normalization A B) (m : ℝ) (hm : RowsAtMost A B m)
    (Ad : Matrix (Fin 2) (Fin 2) ℝ) (Bd : Matrix (Fin 2) (Fin 1) ℝ) (hlin : p.linearize zeroOrderHold = (Ad, Bd))
    (Q P : Matrix (Fin 2) (Fin 2) ℝ) (R : Matrix (Fin 1) (Fin 1) ℝ) (hP : Pᵀ = P) (hR : Rᵀ = R) (hP0 : ∀ x, 0 ≤ quad P x) (hR0 : ∀ u, 0 ≤ quad R u)
    (k k' : Matrix (Fin 1) (Fin 2) ℝ) (s : Matrix (Fin 2) (Fin 2) ℝ) (h : dlqr P Ad Bd R = .ok (k, s))
    (ε δ : ℝ) (hε : 0 ≤ ε) (hδ : 0 ≤ δ) (hεδ : ε + δ < 1) (hres : ∀ x, |quad (dareResidual P Ad Q Bd R) x| ≤ ε * quad Q x)
    (hgain : ∀ x, quad (R + Bdᵀ * P * Bd) ((k' - k) *ᵥ x) ≤ δ * quad Q x)
    (g a q : ℝ) (hg1 : 1 ≤ g) (hg : ∀ i, ∑ j, |k' i j| ≤ g) (ha0 : 0 ≤ a) (ha : ∀ i, ∑ j, |(Ad - Bd * k') i j| ≤ a) (hQ : ∀ x, q * ‖x‖ ^ 2 ≤ quad Q x)
    (hsmall : absSum P * ((p.dt * m) ^ 2 / 20 * Real.exp (p.dt * m) * g) * (2 * a + (p.dt * m) ^ 2 / 20 * Real.exp (p.dt * m) * g) < (1 - ε - δ) * q) :
    ∃ level > 0, StableLevelSet P level fun x => p.evaluate x (linearPolicy true k' x) := by
  have hE := evaluateSystem_jacobian p.normalization hn (ode := p.ode) (by
    funext i
    fin_cases i <;> simp [InvertedPendulum.ode]) hJ p.dt
  have hc := C140_pendulum_close_partial p hf hdt hn A _ B _ hJ hE m hm
  rw [hlin] at hc
  have hm0 : 0 ≤ m := le_trans (by positivity) (hm 0)
  exact C147_nonlinear p.evaluate (C67_equilibrium p) _ _ hE Ad Q P Bd R _ (by positivity) hc hP hR hP0 hR0 k k' s h ε δ hε hδ hεδ hres hgain g a q hg1 hg ha0 ha hQ hsmall

/-! ## Example -/

/-- `1.01 x + x² + u` -/
noncomputable def driftNonlinear (x u : Fin 1 → ℝ) : Fin 1 → ℝ := ![101 / 100 * x 0 + x 0 ^ 2 + u 0]

theorem driftNonlinear_jacobian : IsJacobian driftNonlinear !![101 / 100] !![1] 0 0 := by
  let p0 : (Fin 1 → ℝ) × (Fin 1 → ℝ) →L[ℝ] ℝ := (ContinuousLinearMap.proj 0).comp (ContinuousLinearMap.fst ℝ _ _)
  let p1 : (Fin 1 → ℝ) × (Fin 1 → ℝ) →L[ℝ] ℝ := (ContinuousLinearMap.proj 0).comp (ContinuousLinearMap.snd ℝ _ _)
  refine ⟨ContinuousLinearMap.pi fun _ => (101 / 100 : ℝ) • p0 + p1, ?_, fun dx du => ?_⟩
  · rw [hasFDerivAt_pi']
    intro i
    fin_cases i
    have h1 : HasFDerivAt (fun z : (Fin 1 → ℝ) × (Fin 1 → ℝ) => z.1 0) p0 ((0, 0) : (Fin 1 → ℝ) × (Fin 1 → ℝ)) :=
      p0.hasFDerivAt
    have h2 : HasFDerivAt (fun z : (Fin 1 → ℝ) × (Fin 1 → ℝ) => z.2 0) p1 ((0, 0) : (Fin 1 → ℝ) × (Fin 1 → ℝ)) :=
      p1.hasFDerivAt
    have := ((h1.const_mul (101 / 100)).add (h1.pow 2)).add h2
    refine this.congr_fderiv ?_
    ext <;> simp [p0, p1]
  · funext i
    fin_cases i
    simp [p0, p1, mulVec, dotProduct]

/-- The model `x + u` of this system, the Riccati matrix `2.1` instead of `2` and the rounded gain `0.5` give a policy with a stable level set. -/
example : ∃ level > 0, StableLevelSet !![21 / 10] level fun x => driftNonlinear x (linearPolicy true !![1 / 2] x) := by
  have hn : ∀ x : Fin 1 → ℝ, ‖x‖ = |x 0| := by
    intro x
    refine le_antisymm ((pi_norm_le_iff_of_nonneg (abs_nonneg _)).mpr fun i => ?_) (norm_le_pi_norm x 0)
    fin_cases i
    exact le_rfl
  refine C147_nonlinear driftNonlinear (by funext i; fin_cases i; simp [driftNonlinear]) !![101 / 100] !![1] driftNonlinear_jacobian
    !![1] !![1] !![21 / 10] !![1] !![2] (1 / 100) (by norm_num) ?_ (transpose_one_one _) (transpose_one_one _)
    (fun x => by rw [quad_one]; positivity) (quad_nonneg_of_pos (quad_one_pos (by norm_num))) _ !![1 / 2] _ inaccurateDlqr (1 / 10) (1 / 100) (by norm_num) (by norm_num)
    (by norm_num) ?_ ?_ 1 (1 / 2) 1 le_rfl ?_ (by norm_num) ?_ ?_ ?_
  · intro x u
    have e1 : ((!![1] *ᵥ x + !![1] *ᵥ u - ((!![101 / 100] : Matrix (Fin 1) (Fin 1) ℝ) *ᵥ x + !![1] *ᵥ u)) : Fin 1 → ℝ) 0 = -(1 / 100 * x 0) := by
      simp [mulVec, dotProduct]
      ring
    rw [hn, e1, abs_neg, abs_mul, abs_of_pos (by norm_num : (0 : ℝ) < 1 / 100), ← hn x]
    exact mul_le_mul_of_nonneg_left (le_max_left _ _) (by norm_num)
  · intro x
    unfold dareResidual
    simp only [transpose_one_one, mul_one_one, add_one_one, sub_one_one, inv_one (show (2 + 1 * (21 / 10) * 1 : ℝ) ≠ 0 by norm_num)]
    rw [quad_one, quad_one, abs_le]
    constructor <;> linarith [sq_nonneg (x 0)]
  · intro x
    simp only [transpose_one_one, mul_one_one, add_one_one, sub_one_one]
    rw [quad_one, quad_one]
    simp only [mulVec, dotProduct, Fin.sum_univ_one, cons_val_zero, of_apply]
    nlinarith [sq_nonneg (x 0)]
  · intro i
    fin_cases i
    norm_num
  · intro i
    fin_cases i
    norm_num [mul_one_one, sub_one_one]
  · intro x
    rw [hn, quad_one, sq_abs]
  · norm_num [absSum]

end SafeLearning
