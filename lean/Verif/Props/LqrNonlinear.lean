import Verif.Props.LqrOptimal
import Verif.Props.Systems
import Verif.Model.Setup
set_option autoImplicit false

/-!
# C126: saturated linear quadratic regulators on nonlinear systems
-/

namespace SafeLearning

open Matrix Filter Topology

variable {n m : ℕ}

/-- The states converge to the origin from every state with `xᵀ P x ≤ level`, without leaving this set, and with an exponential rate. -/
def _root_.Spec.StableLevelSet (P : Matrix (Fin n) (Fin n) ℝ) (level : ℝ) (F : (Fin n → ℝ) → Fin n → ℝ) : Prop :=
  ∃ rho, 0 ≤ rho ∧ rho < 1 ∧ ∀ x : ℕ → Fin n → ℝ, (∀ t, x (t + 1) = F (x t)) → Spec.quad P (x 0) ≤ level →
    (∀ t, Spec.quad P (x t) ≤ level ∧ Spec.quad P (x t) ≤ rho ^ t * Spec.quad P (x 0)) ∧ Tendsto x atTop (𝓝 0)

theorem norm_mulVec_le {p q : ℕ} (M : Matrix (Fin p) (Fin q) ℝ) (x : Fin q → ℝ) :
    ‖M *ᵥ x‖ ≤ (∑ i, ∑ j, |M i j|) * ‖x‖ := by
  refine (pi_norm_le_iff_of_nonneg (mul_nonneg (Finset.sum_nonneg fun _ _ => Finset.sum_nonneg fun _ _ => abs_nonneg _)
    (norm_nonneg _))).mpr fun i => ?_
  rw [Real.norm_eq_abs, mulVec, dotProduct]
  calc |∑ j, M i j * x j| ≤ ∑ j, |M i j * x j| := Finset.abs_sum_le_sum_abs _ _
    _ ≤ ∑ j, |M i j| * ‖x‖ := Finset.sum_le_sum fun j _ => by
        rw [abs_mul]
        exact mul_le_mul_of_nonneg_left (norm_le_pi_norm x j) (abs_nonneg _)
    _ = (∑ j, |M i j|) * ‖x‖ := by rw [Finset.sum_mul]
    _ ≤ _ := mul_le_mul_of_nonneg_right
        (Finset.single_le_sum (f := fun i => ∑ j, |M i j|) (fun i _ => Finset.sum_nonneg fun j _ => abs_nonneg _)
          (Finset.mem_univ i)) (norm_nonneg _)

theorem abs_dotProduct_le (y z : Fin n → ℝ) : |y ⬝ᵥ z| ≤ n * (‖y‖ * ‖z‖) := by
  rw [dotProduct]
  calc |∑ j, y j * z j| ≤ ∑ j, |y j * z j| := Finset.abs_sum_le_sum_abs _ _
    _ ≤ ∑ _j : Fin n, ‖y‖ * ‖z‖ := Finset.sum_le_sum fun j _ => by
        rw [abs_mul]
        exact mul_le_mul (norm_le_pi_norm y j) (norm_le_pi_norm z j) (abs_nonneg _) (norm_nonneg _)
    _ = n * (‖y‖ * ‖z‖) := by simp

theorem abs_bilinear_le (P : Matrix (Fin n) (Fin n) ℝ) (y z : Fin n → ℝ) :
    |y ⬝ᵥ (P *ᵥ z)| ≤ n * (∑ i, ∑ j, |P i j|) * (‖y‖ * ‖z‖) := by
  refine (abs_dotProduct_le _ _).trans ?_
  have := mul_le_mul_of_nonneg_left (norm_mulVec_le P z) (norm_nonneg y)
  calc (n : ℝ) * (‖y‖ * ‖P *ᵥ z‖) ≤ n * (‖y‖ * ((∑ i, ∑ j, |P i j|) * ‖z‖)) :=
        mul_le_mul_of_nonneg_left this (Nat.cast_nonneg _)
    _ = _ := by ring

/-- A positive definite form is bounded below by the squared norm. -/
theorem norm_sq_le_quad {Q : Matrix (Fin n) (Fin n) ℝ} (hQ : ∀ x, x ≠ 0 → 0 < Spec.quad Q x) :
    ∃ c > 0, ∀ x, ‖x‖ ^ 2 ≤ c * Spec.quad Q x := by
  obtain ⟨c, hc, hle⟩ := quad_le_mul 1 Q hQ
  refine ⟨c, hc, fun x => le_trans ?_ (hle x)⟩
  unfold Spec.quad
  rw [Matrix.one_mulVec, dotProduct]
  have h0 : 0 ≤ ∑ i, x i * x i := Finset.sum_nonneg fun i _ => mul_self_nonneg _
  refine (Real.le_sqrt (norm_nonneg x) h0).mp ?_
  refine (pi_norm_le_iff_of_nonneg (Real.sqrt_nonneg _)).mpr fun i => ?_
  rw [Real.norm_eq_abs]
  refine Real.abs_le_sqrt ?_
  rw [sq]
  exact Finset.single_le_sum (f := fun i => x i * x i) (fun i _ => mul_self_nonneg _) (Finset.mem_univ i)

/-- **C126 (policy).** The saturated policy is `-K x` with every entry cut off below `-1` and above `1`; without saturation it is `-K x`. -/
theorem C126_policy (k : Matrix (Fin m) (Fin n) ℝ) (x : Fin n → ℝ) (i : Fin m) :
    (|(k *ᵥ x) i| ≤ 1 → linearPolicy true k x i = -(k *ᵥ x) i) ∧ (1 < (k *ᵥ x) i → linearPolicy true k x i = -1) ∧
      ((k *ᵥ x) i < -1 → linearPolicy true k x i = 1) ∧ linearPolicy false k x i = -(k *ᵥ x) i := by
  have e : ∑ j, x j * (-k i j) = -(k *ᵥ x) i := by
    rw [mulVec, dotProduct, ← Finset.sum_neg_distrib]
    exact Finset.sum_congr rfl fun j _ => by ring
  simp only [linearPolicy, e, clip]
  refine ⟨fun h => ?_, fun h => ?_, fun h => ?_, by simp⟩
  · have := abs_le.mp h
    rw [if_pos trivial, max_eq_left (by linarith), min_eq_left (by linarith)]
  · rw [if_pos trivial, max_eq_right (by linarith), min_eq_left (by linarith)]
  · rw [if_pos trivial, max_eq_left (by linarith), min_eq_right (by linarith)]

example : linearPolicy true !![(3 : ℝ), 0; 0, 4; 0, 1 / 8] ![-1, 2] 0 = 1 ∧ linearPolicy true !![(3 : ℝ), 0; 0, 4; 0, 1 / 8] ![-1, 2] 1 = -1 ∧
    linearPolicy true !![(3 : ℝ), 0; 0, 4; 0, 1 / 8] ![-1, 2] 2 = -(1 / 4) := by
  have h := fun i => C126_policy !![(3 : ℝ), 0; 0, 4; 0, 1 / 8] ![-1, 2] i
  have e0 : ((!![(3 : ℝ), 0; 0, 4; 0, 1 / 8]) *ᵥ ![-1, 2]) = ![-3, 8, 1 / 4] := by
    funext i
    fin_cases i <;> simp [mulVec, dotProduct, Fin.sum_univ_two] <;> norm_num
  simp only [e0] at h
  refine ⟨(h 0).2.2.1 (by norm_num), (h 1).2.1 (by norm_num), ?_⟩
  refine (h 2).1 ?_
  change |(1 / 4 : ℝ)| ≤ 1
  norm_num [abs_of_pos]

/-- Near the origin the policy is not saturated. -/
theorem linearPolicy_eventually (k : Matrix (Fin m) (Fin n) ℝ) :
    ∀ᶠ x in 𝓝 (0 : Fin n → ℝ), linearPolicy true k x = -(k *ᵥ x) := by
  have h : ∀ i, ∀ᶠ x in 𝓝 (0 : Fin n → ℝ), |(k *ᵥ x) i| < 1 := by
    intro i
    have hc : Continuous fun x : Fin n → ℝ => |(k *ᵥ x) i| := by
      simp only [mulVec, dotProduct]
      fun_prop
    have := hc.tendsto 0
    simp only [Matrix.mulVec_zero, Pi.zero_apply, abs_zero] at this
    exact this.eventually (gt_mem_nhds one_pos)
  filter_upwards [eventually_all.mpr h] with x hx
  funext i
  have e : ∑ j, x j * (-k i j) = -(k *ᵥ x) i := by
    rw [mulVec, dotProduct, ← Finset.sum_neg_distrib]
    exact Finset.sum_congr rfl fun j _ => by ring
  have := abs_lt.mp (hx i)
  simp only [linearPolicy, if_true, e, clip]
  rw [Pi.neg_apply]
  rw [max_eq_left (by linarith), min_eq_left (by linarith)]

/-- The linearisation of the closed loop. -/
theorem closedLoop_littleO (f : (Fin n → ℝ) → (Fin m → ℝ) → Fin n → ℝ) (A : Matrix (Fin n) (Fin n) ℝ)
    (B : Matrix (Fin n) (Fin m) ℝ) (h0 : f 0 0 = 0) (hJ : Spec.IsJacobian f A B 0 0) (k : Matrix (Fin m) (Fin n) ℝ) :
    ∀ eps > 0, ∀ᶠ x in 𝓝 (0 : Fin n → ℝ), ‖f x (linearPolicy true k x) - (A - B * k) *ᵥ x‖ ≤ eps * ‖x‖ := by
  intro eps heps
  obtain ⟨L, hL, hLe⟩ := hJ
  let G : (Fin n → ℝ) →L[ℝ] (Fin n → ℝ) × (Fin m → ℝ) :=
    (ContinuousLinearMap.id ℝ _).prod (LinearMap.toContinuousLinearMap (Matrix.mulVecLin (-k)))
  have hG : ∀ x, G x = (x, -(k *ᵥ x)) := by
    intro x
    show (x, (-k) *ᵥ x) = _
    rw [Matrix.neg_mulVec]
  have hG0 : G 0 = (0, 0) := by rw [map_zero]; rfl
  have h1 : HasFDerivAt (fun x => f (G x).1 (G x).2) (L.comp G) 0 :=
    HasFDerivAt.comp (g := fun z : (Fin n → ℝ) × (Fin m → ℝ) => f z.1 z.2) (0 : Fin n → ℝ) (hG0 ▸ hL) G.hasFDerivAt
  have h2 := (hasFDerivAt_iff_isLittleO_nhds_zero.mp h1).def heps
  filter_upwards [h2, linearPolicy_eventually k] with x hx hp
  rw [hp]
  have e1 : (L.comp G) x = (A - B * k) *ᵥ x := by
    show L (G x) = _
    rw [hG, hLe, Matrix.mulVec_neg, Matrix.sub_mulVec, Matrix.mulVec_mulVec, sub_eq_add_neg]
  rw [e1, zero_add, hG0, hG] at hx
  simp only [h0, sub_zero] at hx
  exact hx

/-- **C126** If the quadratic form of `P` decreases along the linearisation of the closed loop at an equilibrium then, for the nonlinear system with the policy
`-K x` saturated to `[-1, 1]`, it decreases on a level set, which is forward invariant and whose states converge to the origin. -/
theorem C126_linearisation (f : (Fin n → ℝ) → (Fin m → ℝ) → Fin n → ℝ) (A : Matrix (Fin n) (Fin n) ℝ)
    (B : Matrix (Fin n) (Fin m) ℝ) (h0 : f 0 0 = 0) (hJ : Spec.IsJacobian f A B 0 0) (k : Matrix (Fin m) (Fin n) ℝ)
    (P : Matrix (Fin n) (Fin n) ℝ) (hP : ∀ x, x ≠ 0 → 0 < Spec.quad P x)
    (hdec : ∀ x, x ≠ 0 → Spec.quad P ((A - B * k) *ᵥ x) < Spec.quad P x) :
    ∃ level > 0, Spec.StableLevelSet P level fun x => f x (linearPolicy true k x) := by
  set M := A - B * k with hM
  set F := fun x => f x (linearPolicy true k x) with hF
  have hP' := quad_nonneg_of_pos hP
  -- the decrease of the linearisation
  have hD : ∀ x, Spec.quad (P - Mᵀ * P * M) x = Spec.quad P x - Spec.quad P (M *ᵥ x) := by
    intro x
    unfold Spec.quad
    rw [Matrix.sub_mulVec, dotProduct_sub, ← Matrix.mulVec_mulVec, ← Matrix.mulVec_mulVec, Matrix.dotProduct_mulVec x Mᵀ,
      Matrix.vecMul_transpose]
  obtain ⟨c1, hc1, hle1⟩ := norm_sq_le_quad (Q := P - Mᵀ * P * M) fun x hx => by rw [hD]; linarith [hdec x hx]
  obtain ⟨c2, hc2, hle2⟩ := norm_sq_le_quad hP
  -- constants
  set p1 : ℝ := n * ∑ i, ∑ j, |P i j| with hp1
  have hp10 : 0 ≤ p1 := mul_nonneg (Nat.cast_nonneg _) (Finset.sum_nonneg fun _ _ => Finset.sum_nonneg fun _ _ => abs_nonneg _)
  set m1 : ℝ := ∑ i, ∑ j, |M i j| with hm1
  have hm10 : 0 ≤ m1 := Finset.sum_nonneg fun _ _ => Finset.sum_nonneg fun _ _ => abs_nonneg _
  set b : ℝ := 2 * p1 * m1 + p1 with hb
  have hb0 : 0 ≤ b := by positivity
  set eps : ℝ := min 1 (1 / (2 * c1 * (b + 1))) with heps
  have heps0 : 0 < eps := lt_min one_pos (by positivity)
  have heps1 : eps ≤ 1 := min_le_left _ _
  have hepsb : eps * b ≤ 1 / (2 * c1) := by
    calc eps * b ≤ 1 / (2 * c1 * (b + 1)) * (b + 1) :=
          mul_le_mul (min_le_right _ _) (by linarith) hb0 (by positivity)
      _ = 1 / (2 * c1) := by field_simp
  -- the neighbourhood
  obtain ⟨r, hr, hball⟩ := Metric.eventually_nhds_iff.mp (closedLoop_littleO f A B h0 hJ k eps heps0)
  set rho : ℝ := max 0 (1 - 1 / (2 * c1 * (p1 + 1))) with hrho
  have hrho1 : rho < 1 := max_lt one_pos (by
    have : 0 < 1 / (2 * c1 * (p1 + 1)) := by positivity
    linarith)
  have hrho0 : 0 ≤ rho := le_max_left _ _
  have hstep : ∀ x : Fin n → ℝ, ‖x‖ < r → Spec.quad P (F x) ≤ rho * Spec.quad P x := by
    intro x hx
    have hx' := hball (y := x) (by simpa using hx)
    set e : Fin n → ℝ := F x - M *ᵥ x with he
    have hFx : F x = M *ᵥ x + e := by rw [he]; abel
    have hen : ‖e‖ ≤ eps * ‖x‖ := hx'
    have hMx := norm_mulVec_le M x
    rw [← hm1] at hMx
    have hxn := norm_nonneg x
    have q1 := (le_abs_self _).trans (abs_bilinear_le P e (M *ᵥ x))
    have q2 := (le_abs_self _).trans (abs_bilinear_le P (M *ᵥ x) e)
    have q3 := (le_abs_self _).trans (abs_bilinear_le P e e)
    rw [← hp1] at q1 q2 q3
    have r1 : ‖e‖ * ‖M *ᵥ x‖ ≤ eps * m1 * ‖x‖ ^ 2 := by
      calc ‖e‖ * ‖M *ᵥ x‖ ≤ (eps * ‖x‖) * (m1 * ‖x‖) := mul_le_mul hen hMx (norm_nonneg _) (by positivity)
        _ = _ := by ring
    have r2 : ‖e‖ * ‖e‖ ≤ eps * ‖x‖ ^ 2 := by
      calc ‖e‖ * ‖e‖ ≤ (eps * ‖x‖) * (eps * ‖x‖) := mul_le_mul hen hen (norm_nonneg _) (by positivity)
        _ = eps * (eps * ‖x‖ ^ 2) := by ring
        _ ≤ 1 * (eps * ‖x‖ ^ 2) := mul_le_mul_of_nonneg_right heps1 (by positivity)
        _ = _ := one_mul _
    have hV : Spec.quad P (F x) ≤ Spec.quad P (M *ᵥ x) + eps * b * ‖x‖ ^ 2 := by
      have e1 : Spec.quad P (F x) = Spec.quad P (M *ᵥ x) + (M *ᵥ x) ⬝ᵥ (P *ᵥ e) + e ⬝ᵥ (P *ᵥ (M *ᵥ x)) +
          e ⬝ᵥ (P *ᵥ e) := by
        rw [hFx]
        unfold Spec.quad
        rw [Matrix.mulVec_add, add_dotProduct, dotProduct_add, dotProduct_add]
        ring
      have s1 := mul_le_mul_of_nonneg_left r1 hp10
      have s2 := mul_le_mul_of_nonneg_left r2 hp10
      rw [mul_comm ‖M *ᵥ x‖] at q2
      have e2 : eps * b * ‖x‖ ^ 2 = p1 * (eps * m1 * ‖x‖ ^ 2) + p1 * (eps * m1 * ‖x‖ ^ 2) + p1 * (eps * ‖x‖ ^ 2) := by
        rw [hb]
        ring
      rw [e1, e2]
      linarith
    have h3 := hle1 x
    rw [hD] at h3
    have h4 : eps * b * ‖x‖ ^ 2 ≤ ‖x‖ ^ 2 / (2 * c1) := by
      calc eps * b * ‖x‖ ^ 2 ≤ 1 / (2 * c1) * ‖x‖ ^ 2 := mul_le_mul_of_nonneg_right hepsb (sq_nonneg _)
        _ = _ := by ring
    have h5 : ‖x‖ ^ 2 / (2 * c1) + ‖x‖ ^ 2 / (2 * c1) ≤ Spec.quad P x - Spec.quad P (M *ᵥ x) := by
      have : ‖x‖ ^ 2 / (2 * c1) + ‖x‖ ^ 2 / (2 * c1) = ‖x‖ ^ 2 / c1 := by field_simp; ring
      rw [this, div_le_iff₀ hc1]
      linarith
    have h6 : Spec.quad P x ≤ p1 * ‖x‖ ^ 2 := by
      have := (le_abs_self _).trans (abs_bilinear_le P x x)
      rw [← hp1, ← sq] at this
      exact this
    have h7 : Spec.quad P x / (2 * c1 * (p1 + 1)) ≤ ‖x‖ ^ 2 / (2 * c1) := by
      rw [div_le_div_iff₀ (by positivity) (by positivity)]
      have : Spec.quad P x ≤ (p1 + 1) * ‖x‖ ^ 2 := by nlinarith [sq_nonneg ‖x‖]
      calc Spec.quad P x * (2 * c1) ≤ (p1 + 1) * ‖x‖ ^ 2 * (2 * c1) := mul_le_mul_of_nonneg_right this (by positivity)
        _ = _ := by ring
    calc Spec.quad P (F x) ≤ Spec.quad P x - ‖x‖ ^ 2 / (2 * c1) := by linarith
      _ ≤ Spec.quad P x - Spec.quad P x / (2 * c1 * (p1 + 1)) := by linarith
      _ = (1 - 1 / (2 * c1 * (p1 + 1))) * Spec.quad P x := by ring
      _ ≤ rho * Spec.quad P x := mul_le_mul_of_nonneg_right (le_max_right _ _) (hP' x)
  refine ⟨(r / 2) ^ 2 / c2, by positivity, rho, hrho0, hrho1, fun x hx hx0 => ?_⟩
  have hin : ∀ y : Fin n → ℝ, Spec.quad P y ≤ (r / 2) ^ 2 / c2 → ‖y‖ < r := by
    intro y hy
    rw [le_div_iff₀ hc2] at hy
    have h1 : ‖y‖ ^ 2 ≤ (r / 2) ^ 2 := by linarith [hle2 y]
    have h2 := abs_le_of_sq_le_sq h1 (by positivity)
    rw [abs_of_nonneg (norm_nonneg y)] at h2
    linarith
  have hall : ∀ t, Spec.quad P (x t) ≤ (r / 2) ^ 2 / c2 ∧ Spec.quad P (x t) ≤ rho ^ t * Spec.quad P (x 0) := by
    intro t
    induction t with
    | zero => exact ⟨hx0, by simp⟩
    | succ t ih =>
      have h1 := hstep (x t) (hin _ ih.1)
      rw [← hx t] at h1
      constructor
      · refine h1.trans (le_trans ?_ ih.1)
        exact mul_le_of_le_one_left (hP' _) hrho1.le
      · rw [pow_succ, mul_right_comm, mul_comm _ rho]
        exact h1.trans (mul_le_mul_of_nonneg_left ih.2 hrho0)
  refine ⟨hall, tendsto_of_quad hP ?_⟩
  refine squeeze_zero (fun t => hP' _) (fun t => (hall t).2) ?_
  simpa using (tendsto_pow_atTop_nhds_zero_of_lt_one hrho0 hrho1).mul_const (Spec.quad P (x 0))

/-- **C126** for the gain that `dlqr` returns for the linearisation: the level sets of the matrix that `dlqr` returns. -/
theorem C126_lqr (f : (Fin n → ℝ) → (Fin m → ℝ) → Fin n → ℝ) (A Q P : Matrix (Fin n) (Fin n) ℝ)
    (B : Matrix (Fin n) (Fin m) ℝ) (R : Matrix (Fin m) (Fin m) ℝ) (h0 : f 0 0 = 0) (hJ : Spec.IsJacobian f A B 0 0)
    (hP0 : ∀ x, 0 ≤ Spec.quad P x) (hQ0 : ∀ x, x ≠ 0 → 0 < Spec.quad Q x)
    (hR0 : ∀ u, 0 ≤ Spec.quad R u) (hare : Spec.SolvesDARE P A Q B R)
    {k : Matrix (Fin m) (Fin n) ℝ} {p : Matrix (Fin n) (Fin n) ℝ} (h : dlqr P A B R = .ok (k, p)) :
    ∃ level > 0, Spec.StableLevelSet p level fun x => f x (linearPolicy true k x) := by
  obtain rfl : p = P := (C44_dlqr_closed_loop A Q P B R hare h).1
  have key : ∀ x, Spec.quad p ((A - B * k) *ᵥ x) = Spec.quad p x - (Spec.quad Q x + Spec.quad R (-(k *ᵥ x))) := by
    intro x
    rw [← C44_dlqr_decrease A Q p B R hare h x, Matrix.mulVec_neg, Matrix.sub_mulVec, Matrix.mulVec_mulVec, sub_eq_add_neg]
  refine C126_linearisation f A B h0 hJ k p (fun x hx => ?_) fun x hx => ?_
  · have := key x
    linarith [hP0 ((A - B * k) *ᵥ x), hQ0 x hx, hR0 (-(k *ᵥ x))]
  · rw [key]
    linarith [hQ0 x hx, hR0 (-(k *ᵥ x))]

/-- **C126** for `InvertedPendulum`. `linearize` discretises with a zero-order hold, but the system takes ten Euler steps, so the decrease is required for the
matrices of the Euler steps. -/
theorem C126_pendulum (p : InvertedPendulum) (hf : 0 ≤ p.friction)
    (hn : ∀ T, p.normalization = some T → ∀ i, T.1 i ≠ 0) :
    ∃ A B, (∀ zoh, p.linearize zoh = zoh A B p.dt) ∧ ∀ (k : Matrix (Fin 1) (Fin 2) ℝ) (P : Matrix (Fin 2) (Fin 2) ℝ),
      (∀ x, x ≠ 0 → 0 < Spec.quad P x) →
      (∀ x, x ≠ 0 → Spec.quad P (((1 + (p.dt / 10) • A) ^ 10 -
        (∑ j ∈ Finset.range 10, (1 + (p.dt / 10) • A) ^ j * ((p.dt / 10) • B)) * k) *ᵥ x) < Spec.quad P x) →
      ∃ level > 0, Spec.StableLevelSet P level fun x => p.evaluate x (linearPolicy true k x) := by
  obtain ⟨A, B, h1, h2⟩ := C67_discrete_jacobian_partial p hf hn
  exact ⟨A, B, h1, fun k P => C126_linearisation p.evaluate _ _ (C67_equilibrium p) h2 k P⟩

/-- **C126** for `CartPole`. For length `1` the matrices are those that `linearize` discretises (for other lengths see C68). -/
theorem C126_cart (p : CartPole) (hM : p.cartMass ≠ 0) (hm : p.pendulumMass ≠ 0)
    (hL : p.length ≠ 0) (hn : ∀ T, p.normalization = some T → ∀ i, T.1 i ≠ 0) :
    ∃ A B, Spec.IsScaledJacobian p.ode p.normalization A B ∧ (p.length = 1 → ∀ zoh, p.linearize zoh = zoh A B p.dt) ∧
      ∀ (k : Matrix (Fin 1) (Fin 4) ℝ) (P : Matrix (Fin 4) (Fin 4) ℝ),
      (∀ x, x ≠ 0 → 0 < Spec.quad P x) →
      (∀ x, x ≠ 0 → Spec.quad P (((1 + (p.dt / 10) • A) ^ 10 -
        (∑ j ∈ Finset.range 10, (1 + (p.dt / 10) • A) ^ j * ((p.dt / 10) • B)) * k) *ᵥ x) < Spec.quad P x) →
      ∃ level > 0, Spec.StableLevelSet P level fun x => p.evaluate x (linearPolicy true k x) := by
  obtain ⟨A, B, h1, h2⟩ : ∃ A B, Spec.IsScaledJacobian p.ode p.normalization A B ∧
      (p.length = 1 → ∀ zoh, p.linearize zoh = zoh A B p.dt) := by
    by_cases h : p.length = 1
    · obtain ⟨A, B, h1, h2⟩ := C68_linearize_partial p hM hm h
      exact ⟨A, B, h1, fun _ => h2⟩
    · exact ⟨_, _, scaled_jacobian (cart_jacobian p hM hL hm) p.normalization, fun h' => absurd h' h⟩
  have h3 : Spec.IsJacobian p.evaluate _ _ 0 0 := evaluateSystem_jacobian p.normalization hn (cart_ode_zero p) h1 p.dt
  exact ⟨A, B, h1, h2, fun k P => C126_linearisation p.evaluate _ _ (C68_equilibrium p) h3 k P⟩

/-! ### A concrete case -/

/-- `x + x² + u`: unstable without control, and `-x / 2` does not stabilise it globally. -/
def exampleNonlinear (x u : Fin 1 → ℝ) : Fin 1 → ℝ := ![x 0 + x 0 ^ 2 + u 0]

theorem exampleNonlinear_jacobian : Spec.IsJacobian exampleNonlinear !![1] !![1] 0 0 := by
  let p0 : (Fin 1 → ℝ) × (Fin 1 → ℝ) →L[ℝ] ℝ := (ContinuousLinearMap.proj 0).comp (ContinuousLinearMap.fst ℝ _ _)
  let p1 : (Fin 1 → ℝ) × (Fin 1 → ℝ) →L[ℝ] ℝ := (ContinuousLinearMap.proj 0).comp (ContinuousLinearMap.snd ℝ _ _)
  refine ⟨ContinuousLinearMap.pi fun _ => p0 + p1, ?_, fun dx du => ?_⟩
  · rw [hasFDerivAt_pi']
    intro i
    fin_cases i
    have h1 : HasFDerivAt (fun z : (Fin 1 → ℝ) × (Fin 1 → ℝ) => z.1 0) p0 ((0, 0) : (Fin 1 → ℝ) × (Fin 1 → ℝ)) :=
      p0.hasFDerivAt
    have h2 : HasFDerivAt (fun z : (Fin 1 → ℝ) × (Fin 1 → ℝ) => z.2 0) p1 ((0, 0) : (Fin 1 → ℝ) × (Fin 1 → ℝ)) :=
      p1.hasFDerivAt
    have := (h1.add (h1.pow 2)).add h2
    refine this.congr_fderiv ?_
    ext <;> simp [p0, p1]
  · funext i
    fin_cases i
    simp [p0, p1, mulVec, dotProduct]

/-- There is a level set from which `x + x² + sat(-x / 2)` converges to the origin. -/
example : ∃ level > 0, Spec.StableLevelSet !![2] level fun x => exampleNonlinear x (linearPolicy true !![1 / 2] x) :=
  C126_lqr exampleNonlinear !![1] !![1] !![2] !![1] !![2] (by funext i; fin_cases i; simp [exampleNonlinear])
    exampleNonlinear_jacobian (fun x => by rw [quad_one]; positivity) (quad_one_pos one_pos)
    (quad_nonneg_of_pos (quad_one_pos two_pos))
    (by
      unfold Spec.SolvesDARE
      simp only [transpose_one_one, mul_one_one, add_one_one, sub_one_one, inv_one (show (2 + 1 * 2 * 1 : ℝ) ≠ 0 by norm_num)]
      norm_num) exampleDlqr

/-- The level has to be small: from `2` this closed loop goes to `5`, whose saturated action does not bring it back. -/
example : exampleNonlinear ![2] (linearPolicy true !![1 / 2] ![2]) = ![5] := by
  funext i
  fin_cases i
  norm_num [exampleNonlinear, linearPolicy, clip]

/-- A pendulum whose Euler steps have the matrix `!![1, 1; 1, 0]`. -/
noncomputable def fibonacciPendulum : InvertedPendulum where
  mass := 1 / 9.81 ^ 2
  length := 9.81
  friction := 1
  dt := 10
  normalization := none

/-- A stabilising gain and the unit matrix meet the hypotheses for this pendulum. -/
example : ∃ level > 0, Spec.StableLevelSet (1 : Matrix (Fin 2) (Fin 2) ℝ) level
    fun x => fibonacciPendulum.evaluate x (linearPolicy true !![89 / 88, 5 / 8] x) := by
  obtain ⟨A, B, hz, h⟩ := C126_pendulum fibonacciPendulum zero_le_one (by simp [fibonacciPendulum])
  have hAB := hz fun A B _ => (A, B)
  have hA : A = !![0, 1; 1, -1] := by
    refine (congrArg Prod.fst hAB).symm.trans ?_
    show !![0, 1; InvertedPendulum.gravity / 9.81, -1 / (1 / 9.81 ^ 2 * 9.81 ^ 2)] = _
    norm_num [InvertedPendulum.gravity]
  have hB : B = !![0; 1] := by
    refine (congrArg Prod.snd hAB).symm.trans ?_
    show !![0; 1 / (1 / 9.81 ^ 2 * 9.81 ^ 2)] = _
    norm_num
  have hM : 1 + (fibonacciPendulum.dt / 10) • A = !![1, 1; 1, 0] := by
    rw [hA]
    ext i j
    fin_cases i <;> fin_cases j <;> norm_num [fibonacciPendulum]
  have hB' : (fibonacciPendulum.dt / 10) • B = !![0; 1] := by
    rw [hB]
    ext i j
    fin_cases i <;> fin_cases j <;> norm_num [fibonacciPendulum]
  have hloop : (1 + (fibonacciPendulum.dt / 10) • A) ^ 10 - (∑ j ∈ Finset.range 10, (1 + (fibonacciPendulum.dt / 10) • A) ^ j *
      ((fibonacciPendulum.dt / 10) • B)) *
      (!![89 / 88, 5 / 8] : Matrix (Fin 1) (Fin 2) ℝ) = !![0, 0; -5 / 8, -3 / 8] := by
    rw [hM, hB']
    simp only [Finset.sum_range_succ, Finset.range_zero, Finset.sum_empty]
    ext i j
    fin_cases i <;> fin_cases j <;> norm_num [pow_succ, Matrix.mul_apply, Fin.sum_univ_two, Matrix.one_apply]
  have hq : ∀ x : Fin 2 → ℝ, Spec.quad (1 : Matrix (Fin 2) (Fin 2) ℝ) x = x 0 ^ 2 + x 1 ^ 2 := by
    intro x
    simp [Spec.quad, dotProduct, Fin.sum_univ_two, sq]
  have hpos : ∀ x : Fin 2 → ℝ, x ≠ 0 → 0 < x 0 ^ 2 + x 1 ^ 2 := by
    intro x hx
    by_contra hcon
    apply hx
    funext i
    fin_cases i
    · show x 0 = 0
      nlinarith [sq_nonneg (x 0), sq_nonneg (x 1)]
    · show x 1 = 0
      nlinarith [sq_nonneg (x 0), sq_nonneg (x 1)]
  refine h _ _ (fun x hx => by rw [hq]; exact hpos x hx) fun x hx => ?_
  rw [hloop, hq, hq]
  simp only [mulVec, dotProduct, Fin.sum_univ_two, Matrix.of_apply, Matrix.cons_val_zero, Matrix.cons_val_one]
  nlinarith [hpos x hx, sq_nonneg (3 * x 0 - 5 * x 1)]

end SafeLearning
