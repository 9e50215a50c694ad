import Verif.Model.Systems
import Mathlib.Analysis.SpecialFunctions.Trigonometric.Deriv
import Mathlib.Analysis.Calculus.Deriv.Prod
import Mathlib.Tactic.FinCases
set_option autoImplicit false

/-!
# C133: equations of motion and energy of the example systems
-/

namespace SafeLearning

/-- The curve `x` follows the vector field `field` at time `t`. -/
def _root_.Spec.Follows {n : ℕ} (x : ℝ → Fin n → ℝ) (field : (Fin n → ℝ) → Fin n → ℝ) (t : ℝ) : Prop :=
  HasDerivAt x (field (x t)) t

/-- Kinetic and potential energy of a point mass `m` at the end of a rod of length `l`, with the angle measured from the upright position and
the gravity of the earth. -/
noncomputable def _root_.Spec.pendulumEnergy (m l : ℝ) (s : Fin 2 → ℝ) : ℝ :=
  m * (l * s 1) ^ 2 / 2 + m * 9.81 * (l * Real.cos (s 0))

/-- Kinetic energy of the cart, and kinetic and potential energy of a point mass `m` at the position `(x - L sin θ, L cos θ)`. -/
noncomputable def _root_.Spec.cartPoleEnergy (m M L : ℝ) (s : Fin 4 → ℝ) : ℝ :=
  M * s 2 ^ 2 / 2 + m * ((s 2 - L * Real.cos (s 1) * s 3) ^ 2 + (L * Real.sin (s 1) * s 3) ^ 2) / 2 +
    m * 9.81 * (L * Real.cos (s 1))

/-! ## Pendulum -/

/-- **C133, partial (pendulum).** The vector field is Newton's law for the angle: inertia times acceleration is the sum of the torques of gravity, action
and friction. Missing: negative frictions, which are ignored. -/
theorem C133_pendulum_motion_partial (p : InvertedPendulum) (hm : p.mass ≠ 0) (hl : p.length ≠ 0) (hf : 0 ≤ p.friction) (s : Fin 2 → ℝ)
    (a : Fin 1 → ℝ) :
    p.ode s a 0 = s 1 ∧
      p.mass * p.length ^ 2 * p.ode s a 1 = p.mass * 9.81 * p.length * Real.sin (s 0) + a 0 - p.friction * s 1 := by
  refine ⟨rfl, ?_⟩
  have h : p.ode s a 1 = 9.81 / p.length * Real.sin (s 0) + a 0 / (p.mass * p.length ^ 2) -
      p.friction / (p.mass * p.length ^ 2) * s 1 := by
    unfold InvertedPendulum.ode InvertedPendulum.inertia InvertedPendulum.gravity
    by_cases h : 0 < p.friction
    · simp [h]
    · have : p.friction = 0 := le_antisymm (not_lt.mp h) hf
      simp [this]
  rw [h]
  field_simp

/-- **C133, partial (pendulum).** The mechanical energy changes by the work of the action and the loss by friction. In particular it does not increase without
action. -/
theorem C133_pendulum_energy_partial (p : InvertedPendulum) (hm : p.mass ≠ 0) (hl : p.length ≠ 0) (hf : 0 ≤ p.friction) (a : Fin 1 → ℝ)
    (x : ℝ → Fin 2 → ℝ) (t : ℝ) (hx : Spec.Follows x (fun s => p.ode s a) t) :
    HasDerivAt (fun t => Spec.pendulumEnergy p.mass p.length (x t)) (a 0 * x t 1 - p.friction * x t 1 ^ 2) t ∧
      (a = 0 → deriv (fun t => Spec.pendulumEnergy p.mass p.length (x t)) t ≤ 0) := by
  have h := hasDerivAt_pi.mp hx
  obtain ⟨m0, m1⟩ := C133_pendulum_motion_partial p hm hl hf (x t) a
  have h0 := h 0
  have h1 := h 1
  simp only [m0] at h0
  have key : HasDerivAt (fun t => Spec.pendulumEnergy p.mass p.length (x t)) (a 0 * x t 1 - p.friction * x t 1 ^ 2) t := by
    unfold Spec.pendulumEnergy
    have e1 := (((h1.const_mul p.length).pow 2).const_mul p.mass).div_const 2
    have e2 := (h0.cos.const_mul p.length).const_mul (p.mass * 9.81)
    refine (e1.add e2).congr_deriv ?_
    push_cast
    linear_combination (x t 1) * m1
  refine ⟨key, fun ha => ?_⟩
  rw [key.deriv, ha]
  have := mul_nonneg hf (sq_nonneg (x t 1))
  simp only [Pi.zero_apply]
  linarith

/-- The hypotheses hold at time zero for the straight line with the velocity of the pendulum. -/
example (p : InvertedPendulum) (a : Fin 1 → ℝ) (s : Fin 2 → ℝ) : Spec.Follows (fun t => s + t • p.ode s a) (fun s => p.ode s a) 0 := by
  have h : HasDerivAt (fun t : ℝ => s + t • p.ode s a) ((1 : ℝ) • p.ode s a) 0 :=
    ((hasDerivAt_id (0 : ℝ)).smul_const (p.ode s a)).const_add s
  unfold Spec.Follows
  simpa using h

/-! ## Cart-pole -/

theorem cart_det_pos (p : CartPole) (hM : 0 < p.cartMass) (hm : 0 < p.pendulumMass) (θ : ℝ) :
    0 < p.cartMass + p.pendulumMass * Real.sin θ ^ 2 := by
  have := mul_nonneg hm.le (sq_nonneg (Real.sin θ))
  linarith

/-- **C133, partial (cart-pole of length one).** The vector field is given by Newton's laws for the whole system along the rail and for the pendulum. Missing:
other lengths, see `C133_cart_energy_refuted`. -/
theorem C133_cart_motion_partial (p : CartPole) (hM : 0 < p.cartMass) (hm : 0 < p.pendulumMass) (hL : p.length = 1) (s : Fin 4 → ℝ)
    (a : Fin 1 → ℝ) :
    p.ode s a 0 = s 2 ∧ p.ode s a 1 = s 3 ∧
      (p.cartMass + p.pendulumMass) * p.ode s a 2 - p.pendulumMass * p.length * Real.cos (s 1) * p.ode s a 3 +
          p.pendulumMass * p.length * s 3 ^ 2 * Real.sin (s 1) = a 0 ∧
      p.pendulumMass * p.length ^ 2 * p.ode s a 3 - p.pendulumMass * p.length * Real.cos (s 1) * p.ode s a 2 =
        p.pendulumMass * 9.81 * p.length * Real.sin (s 1) - p.rotFriction * s 3 := by
  have hd := (cart_det_pos p hM hm (s 1)).ne'
  have hm' := hm.ne'
  have hsc := Real.sin_sq_add_cos_sq (s 1)
  have e2 : (p.cartMass + p.pendulumMass * Real.sin (s 1) ^ 2) * p.ode s a 2 = a 0 - p.pendulumMass * s 3 ^ 2 * Real.sin (s 1) -
      p.rotFriction * s 3 * Real.cos (s 1) + p.pendulumMass * 9.81 * (Real.sin (s 1) * Real.cos (s 1)) := by
    unfold CartPole.ode CartPole.gravity
    simp only [hL, Real.sin_two_mul]
    simp
    field_simp
    ring
  have e3 : p.pendulumMass * (p.cartMass + p.pendulumMass * Real.sin (s 1) ^ 2) * p.ode s a 3 =
      p.pendulumMass * (a 0 * Real.cos (s 1)) - p.pendulumMass ^ 2 * s 3 ^ 2 * (Real.sin (s 1) * Real.cos (s 1)) -
      p.rotFriction * (p.pendulumMass + p.cartMass) * s 3 +
      p.pendulumMass * (p.pendulumMass + p.cartMass) * 9.81 * Real.sin (s 1) := by
    unfold CartPole.ode CartPole.gravity
    simp only [hL, Real.sin_two_mul]
    simp
    field_simp
    ring
  refine ⟨rfl, rfl, ?_, ?_⟩
  · apply mul_left_cancel₀ hd
    rw [hL]
    linear_combination (p.cartMass + p.pendulumMass) * e2 - Real.cos (s 1) * e3 +
      (p.pendulumMass ^ 2 * Real.sin (s 1) * s 3 ^ 2 - p.pendulumMass * a 0) * hsc
  · apply mul_left_cancel₀ hd
    rw [hL]
    linear_combination e3 - p.pendulumMass * Real.cos (s 1) * e2 +
      (p.pendulumMass * s 3 * p.rotFriction - p.pendulumMass ^ 2 * Real.sin (s 1) * 9.81) * hsc

theorem cartPoleEnergy_deriv (m M L : ℝ) (x : ℝ → Fin 4 → ℝ) (f : Fin 4 → ℝ) (t : ℝ) (h : HasDerivAt x f t) (h1 : f 1 = x t 3) :
    HasDerivAt (fun t => Spec.cartPoleEnergy m M L (x t))
      (x t 2 * ((M + m) * f 2 - m * L * Real.cos (x t 1) * f 3 + m * L * x t 3 ^ 2 * Real.sin (x t 1)) +
        x t 3 * (m * L ^ 2 * f 3 - m * L * Real.cos (x t 1) * f 2 - m * 9.81 * L * Real.sin (x t 1))) t := by
  have h' := hasDerivAt_pi.mp h
  have d1 := h' 1
  have d2 := h' 2
  have d3 := h' 3
  rw [h1] at d1
  have hsc := Real.sin_sq_add_cos_sq (x t 1)
  unfold Spec.cartPoleEnergy
  have e1 := ((d2.pow 2).const_mul M).div_const 2
  have e2 := (d2.sub ((d1.cos.const_mul L).mul d3)).pow 2
  have e3 := ((d1.sin.const_mul L).mul d3).pow 2
  have e4 := (d1.cos.const_mul L).const_mul (m * 9.81)
  refine ((e1.add (((e2.add e3).const_mul m).div_const 2)).add e4).congr_deriv ?_
  push_cast
  simp only [Pi.sub_apply, Pi.mul_apply]
  linear_combination (m * L ^ 2 * x t 3 * f 3) * hsc

/-- **C133, partial (cart-pole of length one).** The mechanical energy changes by the work of the action and the loss by friction; in particular it does not increase
without action. Missing: other lengths, see `C133_cart_energy_refuted`. -/
theorem C133_cart_energy_partial (p : CartPole) (hM : 0 < p.cartMass) (hm : 0 < p.pendulumMass) (hL : p.length = 1) (a : Fin 1 → ℝ)
    (x : ℝ → Fin 4 → ℝ) (t : ℝ) (hx : Spec.Follows x (fun s => p.ode s a) t) :
    HasDerivAt (fun t => Spec.cartPoleEnergy p.pendulumMass p.cartMass p.length (x t)) (a 0 * x t 2 - p.rotFriction * x t 3 ^ 2) t ∧
      (a = 0 → 0 ≤ p.rotFriction →
        deriv (fun t => Spec.cartPoleEnergy p.pendulumMass p.cartMass p.length (x t)) t ≤ 0) := by
  obtain ⟨-, -, m2, m3⟩ := C133_cart_motion_partial p hM hm hL (x t) a
  have key : HasDerivAt (fun t => Spec.cartPoleEnergy p.pendulumMass p.cartMass p.length (x t))
      (a 0 * x t 2 - p.rotFriction * x t 3 ^ 2) t := by
    refine (cartPoleEnergy_deriv p.pendulumMass p.cartMass p.length x _ t hx rfl).congr_deriv ?_
    linear_combination (x t 2) * m2 + (x t 3) * m3
  refine ⟨key, fun ha hb => ?_⟩
  rw [key.deriv, ha]
  have := mul_nonneg hb (sq_nonneg (x t 3))
  simp only [Pi.zero_apply]
  linarith

/-- **C133, refuted** for every other length: whatever the friction is, there is a state from which the energy increases without any action. -/
theorem C133_cart_energy_refuted (p : CartPole) (hM : 0 < p.cartMass) (hm : 0 < p.pendulumMass) (hL : 0 < p.length) (hL1 : p.length ≠ 1) :
    ∃ s : Fin 4 → ℝ, ∀ (x : ℝ → Fin 4 → ℝ) (t : ℝ), x t = s → Spec.Follows x (fun s => p.ode s 0) t →
      0 < deriv (fun t => Spec.cartPoleEnergy p.pendulumMass p.cartMass p.length (x t)) t := by
  refine ⟨![0, Real.pi / 4, p.length - 1, 0], fun x t hs hx => ?_⟩
  rw [(cartPoleEnergy_deriv p.pendulumMass p.cartMass p.length x _ t hx rfl).deriv, hs]
  have hd := cart_det_pos p hM hm (Real.pi / 4)
  have hr : Real.sin (Real.pi / 4) ^ 2 = 1 / 2 := by
    rw [Real.sin_pi_div_four, div_pow, Real.sq_sqrt (by norm_num)]; norm_num
  have hr2 : Real.sin (Real.pi / 4) = Real.cos (Real.pi / 4) := by rw [Real.sin_pi_div_four, Real.cos_pi_div_four]
  have hsq : 0 < (p.length - 1) ^ 2 := by
    have : p.length - 1 ≠ 0 := sub_ne_zero.mpr hL1
    positivity
  have hc : Real.cos (Real.pi / 4) ^ 2 = 1 / 2 := by rw [← hr2, hr]
  rw [hr] at hd
  have h2 : p.ode ![0, Real.pi / 4, p.length - 1, 0] 0 2 = 0.5 * p.pendulumMass * 9.81 * p.length /
      (p.cartMass + p.pendulumMass * (1 / 2)) := by
    unfold CartPole.ode CartPole.gravity
    have : (2 : ℝ) * (Real.pi / 4) = Real.pi / 2 := by ring
    simp [this, hr, -Real.sin_pi_div_four, -Real.cos_pi_div_four]
    field_simp
  have h3 : p.ode ![0, Real.pi / 4, p.length - 1, 0] 0 3 = (p.pendulumMass + p.cartMass) * 9.81 * Real.cos (Real.pi / 4) /
      (p.length * (p.cartMass + p.pendulumMass * (1 / 2))) := by
    unfold CartPole.ode CartPole.gravity
    simp [hr2, hc, -Real.sin_pi_div_four, -Real.cos_pi_div_four]
  beta_reduce
  rw [h2, h3]
  simp only [Matrix.cons_val]
  have : (p.length - 1) * ((p.cartMass + p.pendulumMass) * (0.5 * p.pendulumMass * 9.81 * p.length /
      (p.cartMass + p.pendulumMass * (1 / 2))) - p.pendulumMass * p.length * Real.cos (Real.pi / 4) *
      ((p.pendulumMass + p.cartMass) * 9.81 * Real.cos (Real.pi / 4) /
      (p.length * (p.cartMass + p.pendulumMass * (1 / 2))))) =
      (p.length - 1) ^ 2 * ((p.cartMass + p.pendulumMass) * p.pendulumMass * 9.81 / 2 /
        (p.cartMass + p.pendulumMass * (1 / 2))) := by
    have hd' := hd.ne'
    field_simp
    rw [hc]
    ring
  have hpos : 0 < (p.length - 1) ^ 2 * ((p.cartMass + p.pendulumMass) * p.pendulumMass * 9.81 / 2 /
        (p.cartMass + p.pendulumMass * (1 / 2))) := by positivity
  nlinarith [this, hpos]

/-! ## Van der Pol oscillator -/

/-- **C133 (Van der Pol).** The oscillator is the one of van der Pol in reverse time: run backwards, the position `q` of a solution satisfies
`q'' = μ (1 - q²) q' - q`. -/
theorem C133_van_der_pol_reverse (p : VanDerPol) (x : ℝ → Fin 2 → ℝ) (t : ℝ) (hx : Spec.Follows x p.ode (-t)) :
    HasDerivAt (fun t => x (-t) 0) (x (-t) 1) t ∧
      HasDerivAt (fun t => x (-t) 1) (p.damping * (1 - x (-t) 0 ^ 2) * x (-t) 1 - x (-t) 0) t := by
  have h := hasDerivAt_pi.mp hx
  refine ⟨((h 0).comp t (hasDerivAt_neg t)).congr_deriv ?_, ((h 1).comp t (hasDerivAt_neg t)).congr_deriv ?_⟩
  · simp [VanDerPol.ode]
  · simp [VanDerPol.ode]
    ring

/-- **C133 (Van der Pol).** While the position is between `-1` and `1`, the distance of a solution to the origin does not increase, for every damping that is
not negative. -/
theorem C133_van_der_pol_energy (p : VanDerPol) (hd : 0 ≤ p.damping) (x : ℝ → Fin 2 → ℝ) (t : ℝ) (hx : Spec.Follows x p.ode t)
    (h1 : |x t 0| ≤ 1) : deriv (fun t => x t 0 ^ 2 + x t 1 ^ 2) t ≤ 0 := by
  have h := hasDerivAt_pi.mp hx
  have e := ((h 0).pow 2).add ((h 1).pow 2)
  have : deriv (fun t => x t 0 ^ 2 + x t 1 ^ 2) t = -(2 * p.damping * (1 - x t 0 ^ 2) * x t 1 ^ 2) := by
    refine e.deriv.trans ?_
    simp [VanDerPol.ode]
    ring
  rw [this, Left.neg_nonpos_iff]
  have h2 : 0 ≤ 1 - x t 0 ^ 2 := by
    rw [sub_nonneg, sq_le_one_iff_abs_le_one]
    exact h1
  positivity

end SafeLearning
