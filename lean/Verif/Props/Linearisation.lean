import Verif.Lemmas.MatrixExp
import Verif.Props.LqrNonlinear
import Mathlib.Analysis.Complex.ExponentialBounds
set_option autoImplicit false

/-!
# C140: the discrete-time linearisations of the example systems
-/

namespace SafeLearning

open Matrix Spec Set

variable {n k : ℕ}

/-! ## Specification -/

/-- The curve `y` solves `y' = A y + B u` for `dt` seconds, with a constant action `u`. -/
def _root_.Spec.SolvesLinear (A : Matrix (Fin n) (Fin n) ℝ) (B : Matrix (Fin n) (Fin k) ℝ) (u : Fin k → ℝ) (dt : ℝ) (y : ℝ → Fin n → ℝ) : Prop :=
  ∀ t ∈ Icc 0 dt, HasDerivWithinAt y (A *ᵥ y t + B *ᵥ u) (Icc 0 dt) t

/-- `(Ad, Bd)` maps the state at time `0` and a constant action to the state at time `dt`, for the differential equation `y' = A y + B u`. -/
def _root_.Spec.IsExactDiscretisation (A : Matrix (Fin n) (Fin n) ℝ) (B : Matrix (Fin n) (Fin k) ℝ) (dt : ℝ) (Ad : Matrix (Fin n) (Fin n) ℝ)
    (Bd : Matrix (Fin n) (Fin k) ℝ) : Prop :=
  (∀ x u, ∃ y, y 0 = x ∧ SolvesLinear A B u dt y) ∧ ∀ u y, SolvesLinear A B u dt y → y dt = Ad *ᵥ y 0 + Bd *ᵥ u

/-- The sums of the absolute values in the rows of `A` and `B` next to each other are at most `m`. -/
def _root_.Spec.RowsAtMost (A : Matrix (Fin n) (Fin n) ℝ) (B : Matrix (Fin n) (Fin k) ℝ) (m : ℝ) : Prop :=
  ∀ i, ∑ j, |A i j| + ∑ j, |B i j| ≤ m

/-- The predictions of the linear models `(A, B)` and `(A', B')` differ by at most `e` times the largest entry of the state and the action. -/
def _root_.Spec.LinearModelsWithin (A A' : Matrix (Fin n) (Fin n) ℝ) (B B' : Matrix (Fin n) (Fin k) ℝ) (e : ℝ) : Prop :=
  ∀ x u, ‖(A *ᵥ x + B *ᵥ u) - (A' *ᵥ x + B' *ᵥ u)‖ ≤ e * max ‖x‖ ‖u‖

/-! ## The zero-order hold -/

theorem zoh_mulVec (A : Matrix (Fin n) (Fin n) ℝ) (B : Matrix (Fin n) (Fin k) ℝ) (dt : ℝ) (x : Fin n → ℝ) (u : Fin k → ℝ) :
    (zeroOrderHold A B dt).1 *ᵥ x + (zeroOrderHold A B dt).2 *ᵥ u =
      fun i => (NormedSpace.exp (dt • augmented A B) *ᵥ Sum.elim x u) (Sum.inl i) := by
  funext i
  conv_rhs => rw [← fromBlocks_toBlocks (NormedSpace.exp (dt • augmented A B)), fromBlocks_mulVec]
  rfl

open scoped Matrix.Norms.Operator in
theorem exact_zoh (A : Matrix (Fin n) (Fin n) ℝ) (B : Matrix (Fin n) (Fin k) ℝ) {dt : ℝ} (hdt : 0 ≤ dt) :
    IsExactDiscretisation A B dt (zeroOrderHold A B dt).1 (zeroOrderHold A B dt).2 := by
  have key : ∀ u y, SolvesLinear A B u dt y → ∀ t ∈ Icc 0 dt, HasDerivWithinAt (fun t => (Sum.elim (y t) u : Fin n ⊕ Fin k → ℝ))
      (augmented A B *ᵥ Sum.elim (y t) u) (Icc 0 dt) t := by
    intro u y hy t ht
    rw [augmented_mulVec, hasDerivWithinAt_pi]
    rintro (i | i)
    · exact hasDerivWithinAt_pi.mp (hy t ht) i
    · exact hasDerivWithinAt_const _ _ _
  refine ⟨fun x u => ?_, fun u y hy => ?_⟩
  · let ev : Matrix (Fin n ⊕ Fin k) (Fin n ⊕ Fin k) ℝ →L[ℝ] (Fin n ⊕ Fin k → ℝ) := LinearMap.toContinuousLinearMap
      { toFun := fun N => N *ᵥ Sum.elim x u
        map_add' := fun a b => add_mulVec a b _
        map_smul' := fun c a => smul_mulVec c a _ }
    have hev : ∀ N, ev N = N *ᵥ Sum.elim x u := fun _ => rfl
    have hg : ∀ t, HasDerivAt (fun t : ℝ => NormedSpace.exp (t • augmented A B) *ᵥ Sum.elim x u)
        (augmented A B *ᵥ (NormedSpace.exp (t • augmented A B) *ᵥ Sum.elim x u)) t := by
      intro t
      have h1 := ev.hasFDerivAt.comp_hasDerivAt t (hasDerivAt_exp_smul_const' (augmented A B) t)
      exact h1.congr_deriv ((hev _).trans (mulVec_mulVec _ _ _).symm)
    set z : ℝ → Fin n ⊕ Fin k → ℝ := fun t => NormedSpace.exp (t • augmented A B) *ᵥ Sum.elim x u with hz
    have h0 : z 0 = Sum.elim x u := by simp [hz, NormedSpace.exp_zero]
    -- the action part is constant
    have hu : ∀ t i, z t (Sum.inr i) = u i := by
      intro t i
      have hd : ∀ t, HasDerivAt (fun t => z t (Sum.inr i)) 0 t := by
        intro t
        have h1 := hasDerivAt_pi.mp (hg t) (Sum.inr i)
        refine h1.congr_deriv ?_
        have : NormedSpace.exp (t • augmented A B) *ᵥ Sum.elim x u = Sum.elim (fun j => z t (Sum.inl j)) (fun j => z t (Sum.inr j)) := by
          funext j
          cases j <;> rfl
        rw [this, augmented_mulVec]
        rfl
      have h2 := is_const_of_deriv_eq_zero (fun t => (hd t).differentiableAt) (fun t => (hd t).deriv) t 0
      rw [h2, h0]
      rfl
    refine ⟨fun t i => z t (Sum.inl i), ?_, fun t _ => ?_⟩
    · funext i
      exact congrFun h0 (Sum.inl i)
    · rw [hasDerivWithinAt_pi]
      intro i
      have h1 := hasDerivAt_pi.mp (hg t) (Sum.inl i)
      have : NormedSpace.exp (t • augmented A B) *ᵥ Sum.elim x u = Sum.elim (fun j => z t (Sum.inl j)) u := by
        funext j
        cases j with
        | inl j => rfl
        | inr j => exact hu t j
      rw [this, augmented_mulVec] at h1
      exact h1.hasDerivWithinAt
  · have h1 := exp_solution (augmented A B) hdt _ (key u y hy)
    rw [zoh_mulVec, ← h1]
    rfl

open scoped Matrix.Norms.Operator in
theorem zoh_close_euler [NeZero n] (A : Matrix (Fin n) (Fin n) ℝ) (B : Matrix (Fin n) (Fin k) ℝ) {dt m : ℝ} (hdt : 0 ≤ dt) (hm : RowsAtMost A B m) :
    LinearModelsWithin (zeroOrderHold A B dt).1 ((1 + (dt / 10) • A) ^ 10) (zeroOrderHold A B dt).2
      (∑ j ∈ Finset.range 10, (1 + (dt / 10) • A) ^ j * ((dt / 10) • B)) ((dt * m) ^ 2 / 20 * Real.exp (dt * m)) := by
  intro x u
  have hm0 : 0 ≤ m := le_trans (by positivity) (hm 0)
  haveI : Nonempty (Fin n ⊕ Fin k) := ⟨Sum.inl 0⟩
  set X := dt • augmented A B with hX
  have h1 : ‖X‖ ≤ dt * m := by
    rw [hX, norm_smul, Real.norm_of_nonneg hdt]
    exact mul_le_mul_of_nonneg_left (norm_augmented_le A B hm0 hm) hdt
  have h2 : ‖NormedSpace.exp X - (1 + (dt / 10) • augmented A B) ^ 10‖ ≤ (dt * m) ^ 2 / 20 * Real.exp (dt * m) := by
    have e : (1 / 10 : ℝ) • X = (dt / 10) • augmented A B := by
      rw [hX, smul_smul]
      congr 1
      ring
    rw [← e]
    refine (norm_exp_sub_euler_le X).trans ?_
    exact mul_le_mul (div_le_div_of_nonneg_right (pow_le_pow_left₀ (norm_nonneg _) h1 2) (by norm_num)) (Real.exp_le_exp.mpr h1) (Real.exp_pos _).le (by positivity)
  have h3 : ‖(NormedSpace.exp X - (1 + (dt / 10) • augmented A B) ^ 10) *ᵥ Sum.elim x u‖ ≤ (dt * m) ^ 2 / 20 * Real.exp (dt * m) * max ‖x‖ ‖u‖ := by
    refine (linfty_opNorm_mulVec _ _).trans (mul_le_mul h2 ?_ (norm_nonneg _) (by positivity))
    refine (pi_norm_le_iff_of_nonneg (by positivity)).mpr ?_
    rintro (i | i)
    · exact (norm_le_pi_norm x i).trans (le_max_left _ _)
    · exact (norm_le_pi_norm u i).trans (le_max_right _ _)
  refine (pi_norm_le_iff_of_nonneg (by positivity)).mpr fun i => ?_
  refine le_trans (le_of_eq ?_) ((norm_le_pi_norm _ (Sum.inl i)).trans h3)
  rw [zoh_mulVec, sub_mulVec, euler_augmented, fromBlocks_mulVec]
  rfl

/-! ## C140: exact discretisation of the linear system -/

theorem IsScaledJacobian.unique {f : (Fin n → ℝ) → (Fin k → ℝ) → Fin n → ℝ} {norm : Normalization n k} {A A' : Matrix (Fin n) (Fin n) ℝ}
    {B B' : Matrix (Fin n) (Fin k) ℝ} (h : IsScaledJacobian f norm A B) (h' : IsScaledJacobian f norm A' B') : A = A' ∧ B = B' := by
  cases norm with
  | none => exact IsJacobian.unique (h.1 rfl) (h'.1 rfl)
  | some T => exact IsJacobian.unique (h.2 T.1 T.2 rfl) (h'.2 T.1 T.2 rfl)

/-- **C140 (pendulum, linear system).** The matrices that `linearize` returns map the state and a constant action to the state `dt` seconds later, exactly, for the
differential equation linearised at the upright equilibrium (in normalised units if a normalisation is given). Missing: negative frictions, see
`C67_negative_friction_refuted`. -/
theorem C140_pendulum_exact_partial (p : InvertedPendulum) (hf : 0 ≤ p.friction) (hdt : 0 ≤ p.dt) (A : Matrix (Fin 2) (Fin 2) ℝ) (B : Matrix (Fin 2) (Fin 1) ℝ)
    (hJ : IsScaledJacobian p.ode p.normalization A B) :
    IsExactDiscretisation A B p.dt (p.linearize zeroOrderHold).1 (p.linearize zeroOrderHold).2 := by
  obtain ⟨A', B', h1, h2⟩ := C67_linearize_partial p hf
  obtain ⟨rfl, rfl⟩ := IsScaledJacobian.unique hJ h1
  rw [h2]
  exact exact_zoh A B hdt

/-- **C140 (cart pole, linear system)** for pendulums of length one. Missing: other lengths, see `C68_linearize_refuted`. -/
theorem C140_cart_pole_exact_partial (p : CartPole) (hM : p.cartMass ≠ 0) (hm : p.pendulumMass ≠ 0) (hL : p.length = 1) (hdt : 0 ≤ p.dt)
    (A : Matrix (Fin 4) (Fin 4) ℝ) (B : Matrix (Fin 4) (Fin 1) ℝ) (hJ : IsScaledJacobian p.ode p.normalization A B) :
    IsExactDiscretisation A B p.dt (p.linearize zeroOrderHold).1 (p.linearize zeroOrderHold).2 := by
  obtain ⟨A', B', h1, h2⟩ := C68_linearize_partial p hM hm hL
  obtain ⟨rfl, rfl⟩ := IsScaledJacobian.unique hJ h1
  rw [h2]
  exact exact_zoh A B hdt

/-- **C140 (Van der Pol oscillator, linear system)** for damping one. Missing: other dampings, see `C69_linearize_refuted`. -/
theorem C140_van_der_pol_exact_partial (p : VanDerPol) (hd : p.damping = 1) (hdt : 0 ≤ p.dt) (A : Matrix (Fin 2) (Fin 2) ℝ)
    (hJ : IsScaledStateJacobian p.ode p.normalization A) :
    IsExactDiscretisation A (0 : Matrix (Fin 2) (Fin 1) ℝ) p.dt (p.linearize zeroOrderHold) 0 := by
  obtain ⟨A', h1, h2⟩ := C69_linearize_partial p hd
  obtain ⟨rfl, -⟩ := IsScaledJacobian.unique hJ h1
  rw [h2]
  obtain ⟨h3, h4⟩ := exact_zoh A (0 : Matrix (Fin 2) (Fin 1) ℝ) hdt
  refine ⟨h3, fun u y hy => ?_⟩
  have e : ∀ u', SolvesLinear A (0 : Matrix (Fin 2) (Fin 1) ℝ) u' p.dt y := by
    intro u' t ht
    simpa using hy t ht
  simpa using h4 0 y (e 0)

/-! ## C140: the simulated system -/

/-- **C140 (pendulum, simulated system).** The matrices that `linearize` returns differ from the Jacobian of the simulated system, which takes ten Euler steps, by at most
`(dt m)² / 20 * exp (dt m)`, where `m` bounds the rows of the Jacobian of the differential equation. Missing: negative frictions, see
`C140_pendulum_refuted`. -/
theorem C140_pendulum_close_partial (p : InvertedPendulum) (hf : 0 ≤ p.friction) (hdt : 0 ≤ p.dt) (hn : ∀ T, p.normalization = some T → ∀ i, T.1 i ≠ 0)
    (A JA : Matrix (Fin 2) (Fin 2) ℝ) (B JB : Matrix (Fin 2) (Fin 1) ℝ) (hJ : IsScaledJacobian p.ode p.normalization A B)
    (hE : IsJacobian p.evaluate JA JB 0 0) (m : ℝ) (hm : RowsAtMost A B m) :
    LinearModelsWithin (p.linearize zeroOrderHold).1 JA (p.linearize zeroOrderHold).2 JB ((p.dt * m) ^ 2 / 20 * Real.exp (p.dt * m)) := by
  obtain ⟨A', B', h1, h2⟩ := C67_linearize_partial p hf
  obtain ⟨rfl, rfl⟩ := IsScaledJacobian.unique hJ h1
  have h3 := evaluateSystem_jacobian p.normalization hn (ode := p.ode) (by
    funext i
    fin_cases i <;> simp [InvertedPendulum.ode]) hJ p.dt
  obtain ⟨rfl, rfl⟩ := IsJacobian.unique hE h3
  rw [h2]
  exact zoh_close_euler A B hdt hm

/-- **C140 (cart pole, simulated system)** for pendulums of length one. Missing: other lengths, see `C140_cart_pole_refuted`. -/
theorem C140_cart_pole_close_partial (p : CartPole) (hM : p.cartMass ≠ 0) (hm : p.pendulumMass ≠ 0) (hL : p.length = 1) (hdt : 0 ≤ p.dt)
    (hn : ∀ T, p.normalization = some T → ∀ i, T.1 i ≠ 0)
    (A JA : Matrix (Fin 4) (Fin 4) ℝ) (B JB : Matrix (Fin 4) (Fin 1) ℝ) (hJ : IsScaledJacobian p.ode p.normalization A B)
    (hE : IsJacobian p.evaluate JA JB 0 0) (m : ℝ) (hr : RowsAtMost A B m) :
    LinearModelsWithin (p.linearize zeroOrderHold).1 JA (p.linearize zeroOrderHold).2 JB ((p.dt * m) ^ 2 / 20 * Real.exp (p.dt * m)) := by
  obtain ⟨A', B', h1, h2⟩ := C68_linearize_partial p hM hm hL
  obtain ⟨rfl, rfl⟩ := IsScaledJacobian.unique hJ h1
  obtain ⟨rfl, rfl⟩ := IsJacobian.unique hE (evaluateSystem_jacobian p.normalization hn (cart_ode_zero p) hJ p.dt)
  rw [h2]
  exact zoh_close_euler A B hdt hr

/-- **C140 (Van der Pol oscillator, simulated system)** for damping one. Missing: other dampings, see `C140_van_der_pol_refuted`. -/
theorem C140_van_der_pol_close_partial (p : VanDerPol) (hd : p.damping = 1) (hdt : 0 ≤ p.dt) (hn : ∀ T, p.normalization = some T → ∀ i, T i ≠ 0)
    (A JA : Matrix (Fin 2) (Fin 2) ℝ) (JB : Matrix (Fin 2) (Fin 1) ℝ) (hJ : IsScaledStateJacobian p.ode p.normalization A)
    (hE : IsJacobian p.evaluate JA JB 0 0) (m : ℝ) (hm : RowsAtMost A (0 : Matrix (Fin 2) (Fin 1) ℝ) m) :
    JB = 0 ∧ LinearModelsWithin (p.linearize zeroOrderHold) JA (0 : Matrix (Fin 2) (Fin 1) ℝ) 0 ((p.dt * m) ^ 2 / 20 * Real.exp (p.dt * m)) := by
  obtain ⟨A', h1, h2⟩ := C69_linearize_partial p hd
  obtain ⟨rfl, -⟩ := IsScaledJacobian.unique hJ h1
  obtain ⟨rfl, rfl⟩ := IsJacobian.unique hE (C69_discrete_jacobian p hn A hJ)
  refine ⟨rfl, ?_⟩
  rw [h2]
  intro x u
  have := zoh_close_euler A (0 : Matrix (Fin 2) (Fin 1) ℝ) hdt hm x 0
  simp only [smul_zero, mul_zero, Finset.sum_const_zero, zero_mulVec, mulVec_zero, add_zero, norm_zero] at this ⊢
  refine this.trans (mul_le_mul_of_nonneg_left (max_le (le_max_left _ _) ((norm_nonneg x).trans (le_max_left _ _))) ?_)
  have hm0 : 0 ≤ m := le_trans (by positivity) (hm 0)
  positivity

open scoped Matrix.Norms.Operator in
theorem abs_entry_le {ι : Type} [Fintype ι] [DecidableEq ι] (N : Matrix ι ι ℝ) (i j : ι) : |N i j| ≤ ‖N‖ := by
  have h1 := (norm_le_pi_norm (N *ᵥ Pi.single j 1) i).trans (linfty_opNorm_mulVec N (Pi.single j 1))
  rw [Pi.norm_single, norm_one, mul_one] at h1
  simpa using h1

open scoped Matrix.Norms.Operator in
/-- Different matrices are told apart by their discretisations. -/
theorem zoh_not_close_euler (A A' : Matrix (Fin n) (Fin n) ℝ) (B B' : Matrix (Fin n) (Fin k) ℝ) {i j : Fin n} (hij : A' i j ≠ A i j) (C : ℝ) :
    ∃ dt, 0 < dt ∧ dt ≤ 1 ∧ ¬ LinearModelsWithin (zeroOrderHold A' B' dt).1 ((1 + (dt / 10) • A) ^ 10) (zeroOrderHold A' B' dt).2
      (∑ j ∈ Finset.range 10, (1 + (dt / 10) • A) ^ j * ((dt / 10) • B)) (C * dt ^ 2) := by
  haveI : Nonempty (Fin n ⊕ Fin k) := ⟨Sum.inl i⟩
  set M := augmented A B with hM
  set M' := augmented A' B' with hM'
  set c := |C| + ‖M'‖ ^ 2 / 2 * Real.exp ‖M'‖ + ‖M‖ ^ 2 / 2 * Real.exp ‖M‖ + ‖M‖ ^ 2 / 20 * Real.exp ‖M‖ with hc
  have hc0 : 0 ≤ c := by positivity
  have hd : 0 < |A' i j - A i j| := abs_pos.mpr (sub_ne_zero.mpr hij)
  have hdt0 : 0 < min 1 (|A' i j - A i j| / (c + 1)) := lt_min one_pos (by positivity)
  have hdt1 : min 1 (|A' i j - A i j| / (c + 1)) ≤ 1 := min_le_left _ _
  have hdt2 : min 1 (|A' i j - A i j| / (c + 1)) ≤ |A' i j - A i j| / (c + 1) := min_le_right _ _
  generalize min 1 (|A' i j - A i j| / (c + 1)) = dt at hdt0 hdt1 hdt2
  refine ⟨dt, hdt0, hdt1, fun h => ?_⟩
  have hs : ∀ N : Matrix (Fin n ⊕ Fin k) (Fin n ⊕ Fin k) ℝ, ∀ r : ℝ, 0 < r →
      ‖dt • N‖ ^ 2 / r * Real.exp ‖dt • N‖ ≤ dt ^ 2 * (‖N‖ ^ 2 / r * Real.exp ‖N‖) := by
    intro N r hr
    have h1 : ‖dt • N‖ = dt * ‖N‖ := by rw [norm_smul, Real.norm_of_nonneg hdt0.le]
    have h2 : Real.exp ‖dt • N‖ ≤ Real.exp ‖N‖ := Real.exp_le_exp.mpr (h1.trans_le (mul_le_of_le_one_left (norm_nonneg _) hdt1))
    calc ‖dt • N‖ ^ 2 / r * Real.exp ‖dt • N‖ ≤ ‖dt • N‖ ^ 2 / r * Real.exp ‖N‖ := mul_le_mul_of_nonneg_left h2 (by positivity)
      _ = _ := by rw [h1]; ring
  have h1 := (abs_entry_le _ (Sum.inl i) (Sum.inl j)).trans ((norm_exp_sub_le (dt • M')).trans (hs M' 2 two_pos))
  have h2 := (abs_entry_le _ (Sum.inl i) (Sum.inl j)).trans ((norm_exp_sub_le (dt • M)).trans (hs M 2 two_pos))
  have h3 := (abs_entry_le _ (Sum.inl i) (Sum.inl j)).trans ((norm_exp_sub_euler_le (dt • M)).trans (hs M 20 (by norm_num)))
  have h4 := (norm_le_pi_norm _ i).trans (h (Pi.single j 1) 0)
  have e1 : (1 / 10 : ℝ) • dt • M = (dt / 10) • M := by
    rw [smul_smul]
    congr 1
    ring
  rw [e1, euler_augmented] at h3
  simp only [mulVec_zero, add_zero, Pi.norm_single, norm_one, norm_zero, Pi.sub_apply, mulVec_single_one, col_apply, Real.norm_eq_abs] at h4
  rw [max_eq_left zero_le_one, mul_one] at h4
  simp only [Matrix.sub_apply, fromBlocks_apply₁₁, Matrix.smul_apply, smul_eq_mul] at h1 h2 h3
  set o := (1 : Matrix (Fin n ⊕ Fin k) (Fin n ⊕ Fin k) ℝ) (Sum.inl i) (Sum.inl j)
  set a3 := ((1 + (dt / 10) • A) ^ 10 : Matrix (Fin n) (Fin n) ℝ) i j
  replace h1 : |(zeroOrderHold A' B' dt).1 i j - o - dt * A' i j| ≤ dt ^ 2 * (‖M'‖ ^ 2 / 2 * Real.exp ‖M'‖) := h1
  replace h2 : |(zeroOrderHold A B dt).1 i j - o - dt * A i j| ≤ dt ^ 2 * (‖M‖ ^ 2 / 2 * Real.exp ‖M‖) := h2
  replace h3 : |(zeroOrderHold A B dt).1 i j - a3| ≤ dt ^ 2 * (‖M‖ ^ 2 / 20 * Real.exp ‖M‖) := h3
  have h5 : |dt * (A' i j - A i j)| ≤ dt ^ 2 * c := by
    have hC : C * dt ^ 2 ≤ |C| * dt ^ 2 := mul_le_mul_of_nonneg_right (le_abs_self C) (sq_nonneg _)
    have e : dt ^ 2 * c = |C| * dt ^ 2 + dt ^ 2 * (‖M'‖ ^ 2 / 2 * Real.exp ‖M'‖) + dt ^ 2 * (‖M‖ ^ 2 / 2 * Real.exp ‖M‖) +
        dt ^ 2 * (‖M‖ ^ 2 / 20 * Real.exp ‖M‖) := by
      rw [hc]
      ring
    rw [abs_le] at h1 h2 h3 h4 ⊢
    rw [e, mul_sub]
    constructor <;> linarith [h1.1, h1.2, h2.1, h2.2, h3.1, h3.2, h4.1, h4.2]
  rw [abs_mul, abs_of_pos hdt0, sq, mul_assoc] at h5
  have h6 := le_of_mul_le_mul_left h5 hdt0
  rw [le_div_iff₀ (by positivity)] at hdt2
  linarith

/-- **C140 refuted** for cart poles of every other length: the matrices of `linearize` do not agree with the Jacobian of the simulated system up to second order in the
time step. -/
theorem C140_cart_pole_refuted (p : CartPole) (hM : p.cartMass ≠ 0) (hm : p.pendulumMass ≠ 0) (hL : p.length ≠ 0) (hL1 : p.length ≠ 1)
    (hn : p.normalization = none) :
    ¬ ∃ C, ∀ dt, 0 < dt → dt ≤ 1 → ∀ JA JB, IsJacobian ({ p with dt := dt } : CartPole).evaluate JA JB 0 0 →
      LinearModelsWithin (({ p with dt := dt } : CartPole).linearize zeroOrderHold).1 JA (({ p with dt := dt } : CartPole).linearize zeroOrderHold).2 JB (C * dt ^ 2) := by
  rintro ⟨C, h⟩
  obtain ⟨JA, hne, hJ⟩ : ∃ JA, p.matrices.1 2 1 ≠ JA 2 1 ∧ IsJacobian p.ode JA !![0; 0; 1 / p.cartMass; 1 / (p.cartMass * p.length)] 0 0 := by
    refine ⟨_, fun e => ?_, cart_jacobian p hM hL hm⟩
    have hg : CartPole.gravity ≠ 0 := by norm_num [CartPole.gravity]
    simp [CartPole.matrices, scaleSystem, hn] at e
    field_simp at e
    exact hL1 e.symm
  obtain ⟨dt, h0, h1, h2⟩ := zoh_not_close_euler JA p.matrices.1 !![0; 0; 1 / p.cartMass; 1 / (p.cartMass * p.length)] p.matrices.2 hne C
  refine h2 (h dt h0 h1 _ _ ?_)
  have := evaluateSystem_jacobian p.normalization (fun T hT => by rw [hn] at hT; cases hT) (cart_ode_zero p) (A := _) (B := _)
    ⟨fun _ => hJ, fun Tx Tu e => by rw [hn] at e; cases e⟩ dt
  exact this

/-- **C140 refuted** for pendulums with negative frictions: the simulated system ignores them, the matrices of `linearize` do not, and the error is of first order in the
time step. -/
theorem C140_pendulum_refuted (p : InvertedPendulum) (hf : p.friction < 0) (hm : p.mass ≠ 0) (hl : p.length ≠ 0) (hn : p.normalization = none) :
    ¬ ∃ C, ∀ dt, 0 < dt → dt ≤ 1 → ∀ JA JB, IsJacobian ({ p with dt := dt } : InvertedPendulum).evaluate JA JB 0 0 →
      LinearModelsWithin (({ p with dt := dt } : InvertedPendulum).linearize zeroOrderHold).1 JA (({ p with dt := dt } : InvertedPendulum).linearize zeroOrderHold).2 JB
        (C * dt ^ 2) := by
  rintro ⟨C, h⟩
  have hi : p.inertia ≠ 0 := by
    unfold InvertedPendulum.inertia
    positivity
  have hJ := pendulum_jacobian { p with friction := 0 } le_rfl
  have hq : ({ p with friction := 0 } : InvertedPendulum).ode = p.ode := by
    funext s a
    simp [InvertedPendulum.ode, hf.not_gt, InvertedPendulum.inertia]
  rw [hq] at hJ
  obtain ⟨JA, JB, hne, hJ⟩ : ∃ JA JB, p.matrices.1 1 1 ≠ JA 1 1 ∧ IsJacobian p.ode JA JB 0 0 := by
    refine ⟨_, _, fun e => ?_, hJ⟩
    simp [InvertedPendulum.matrices, scaleSystem, hn, hf.ne, hi] at e
  obtain ⟨dt, h0, h1, h2⟩ := zoh_not_close_euler JA p.matrices.1 JB p.matrices.2 hne C
  refine h2 (h dt h0 h1 _ _ ?_)
  exact evaluateSystem_jacobian p.normalization (fun T hT => by rw [hn] at hT; cases hT) (by
    funext i
    fin_cases i <;> simp [InvertedPendulum.ode]) ⟨fun _ => hJ, fun Tx Tu e => by rw [hn] at e; cases e⟩ dt

theorem zoh_zero (A : Matrix (Fin n) (Fin n) ℝ) {dt : ℝ} (hdt : 0 ≤ dt) : (zeroOrderHold A (0 : Matrix (Fin n) (Fin k) ℝ) dt).2 = 0 := by
  have h := (exact_zoh A (0 : Matrix (Fin n) (Fin k) ℝ) hdt).2
  refine Matrix.ext_of_mulVec_single fun j => ?_
  have := h (Pi.single j 1) 0 (fun t _ => by
    simp only [Pi.zero_apply, mulVec_zero, zero_mulVec, add_zero]
    exact hasDerivWithinAt_const _ _ _)
  rw [zero_mulVec]
  simpa only [Pi.zero_apply, mulVec_zero, zero_add] using this.symm

/-- **C140 refuted** for oscillators with every other damping: the error is of first order in the time step. -/
theorem C140_van_der_pol_refuted (p : VanDerPol) (hd : p.damping ≠ 1) (hn : p.normalization = none) :
    ¬ ∃ C, ∀ dt, 0 < dt → dt ≤ 1 → ∀ JA JB, IsJacobian ({ p with dt := dt } : VanDerPol).evaluate JA JB 0 0 →
      LinearModelsWithin (({ p with dt := dt } : VanDerPol).linearize zeroOrderHold) JA (0 : Matrix (Fin 2) (Fin 1) ℝ) 0 (C * dt ^ 2) := by
  rintro ⟨C, h⟩
  obtain ⟨JA, hne, hJ⟩ : ∃ JA, p.matrix 1 1 ≠ JA 1 1 ∧ IsJacobian (k := 1) (fun s _ => p.ode s) JA 0 0 0 := by
    refine ⟨_, fun e => ?_, vdp_jacobian p⟩
    simp [VanDerPol.matrix, hn] at e
    exact hd e.symm
  obtain ⟨dt, h0, h1, h2⟩ := zoh_not_close_euler JA p.matrix (0 : Matrix (Fin 2) (Fin 1) ℝ) 0 hne C
  refine h2 ?_
  rw [zoh_zero _ h0.le]
  simp only [smul_zero, Matrix.mul_zero, Finset.sum_const_zero]
  refine h dt h0 h1 _ _ (C69_discrete_jacobian { p with dt := dt } (fun T hT => by rw [hn] at hT; cases hT) _ ?_)
  rw [Spec.IsScaledStateJacobian, hn]
  exact ⟨fun _ => hJ, fun Tx Tu e => by cases e⟩

/-! ## C140: controllers -/

/-- The sum of the absolute values of the entries. -/
def _root_.Spec.absSum {p q : ℕ} (M : Matrix (Fin p) (Fin q) ℝ) : ℝ := ∑ i, ∑ j, |M i j|

theorem abs_bilinear_le_absSum (P : Matrix (Fin n) (Fin n) ℝ) (y z : Fin n → ℝ) : |y ⬝ᵥ (P *ᵥ z)| ≤ absSum P * (‖y‖ * ‖z‖) := by
  unfold dotProduct mulVec dotProduct absSum
  rw [Finset.sum_mul]
  refine (Finset.abs_sum_le_sum_abs _ _).trans (Finset.sum_le_sum fun i _ => ?_)
  rw [abs_mul, Finset.sum_mul]
  have h1 : |∑ j, P i j * z j| ≤ ∑ j, |P i j| * ‖z‖ := by
    refine (Finset.abs_sum_le_sum_abs _ _).trans (Finset.sum_le_sum fun j _ => ?_)
    rw [abs_mul]
    exact mul_le_mul_of_nonneg_left (norm_le_pi_norm z j) (abs_nonneg _)
  refine (mul_le_mul (norm_le_pi_norm y i) h1 (abs_nonneg _) (norm_nonneg _)).trans (le_of_eq ?_)
  rw [Finset.mul_sum]
  exact Finset.sum_congr rfl fun j _ => by ring

theorem norm_mulVec_le_rows {p q : ℕ} (M : Matrix (Fin p) (Fin q) ℝ) {c : ℝ} (hc : 0 ≤ c) (h : ∀ i, ∑ j, |M i j| ≤ c) (x : Fin q → ℝ) : ‖M *ᵥ x‖ ≤ c * ‖x‖ := by
  refine (pi_norm_le_iff_of_nonneg (by positivity)).mpr fun i => ?_
  rw [Real.norm_eq_abs, mulVec, dotProduct]
  refine (Finset.abs_sum_le_sum_abs _ _).trans ?_
  calc ∑ j, |M i j * x j| ≤ ∑ j, |M i j| * ‖x‖ := Finset.sum_le_sum fun j _ => by
        rw [abs_mul]
        exact mul_le_mul_of_nonneg_left (norm_le_pi_norm x j) (abs_nonneg _)
    _ = (∑ j, |M i j|) * ‖x‖ := (Finset.sum_mul _ _ _).symm
    _ ≤ c * ‖x‖ := mul_le_mul_of_nonneg_right (h i) (norm_nonneg _)

/-- A certificate for a linear model is one for every linear model that is close enough. -/
theorem decrease_of_close {A A' P : Matrix (Fin n) (Fin n) ℝ} {B B' : Matrix (Fin n) (Fin k) ℝ} {e : ℝ} (he : 0 ≤ e) (h : LinearModelsWithin A A' B B' e)
    (gain : Matrix (Fin k) (Fin n) ℝ) {g a q : ℝ} (hg1 : 1 ≤ g) (hg : ∀ i, ∑ j, |gain i j| ≤ g) (ha0 : 0 ≤ a) (ha : ∀ i, ∑ j, |(A - B * gain) i j| ≤ a)
    (hdec : ∀ x, quad P ((A - B * gain) *ᵥ x) + q * ‖x‖ ^ 2 ≤ quad P x) (hsmall : absSum P * (e * g) * (2 * a + e * g) < q) (x : Fin n → ℝ) (hx : x ≠ 0) :
    quad P ((A' - B' * gain) *ᵥ x) < quad P x := by
  set y := (A - B * gain) *ᵥ x with hy
  set d := (A' - B' * gain) *ᵥ x - y with hd
  have hx0 : 0 < ‖x‖ := norm_pos_iff.mpr hx
  have h1 : ‖d‖ ≤ e * g * ‖x‖ := by
    have h2 := h x (-(gain *ᵥ x))
    have e1 : ∀ (M : Matrix (Fin n) (Fin n) ℝ) (N : Matrix (Fin n) (Fin k) ℝ), M *ᵥ x + N *ᵥ (-(gain *ᵥ x)) = (M - N * gain) *ᵥ x := by
      intro M N
      rw [mulVec_neg, sub_mulVec, mulVec_mulVec, sub_eq_add_neg]
    rw [e1, e1, ← norm_neg, neg_sub] at h2
    refine h2.trans ?_
    rw [mul_assoc]
    refine mul_le_mul_of_nonneg_left (max_le (le_mul_of_one_le_left (norm_nonneg _) hg1) ?_) he
    rw [norm_neg]
    exact norm_mulVec_le_rows gain (zero_le_one.trans hg1) hg x
  have h2 : ‖y‖ ≤ a * ‖x‖ := norm_mulVec_le_rows _ ha0 ha x
  have e2 : (A' - B' * gain) *ᵥ x = y + d := by rw [hd]; abel
  have e3 : quad P (y + d) = quad P y + y ⬝ᵥ (P *ᵥ d) + d ⬝ᵥ (P *ᵥ y) + d ⬝ᵥ (P *ᵥ d) := by
    unfold quad
    rw [mulVec_add, add_dotProduct, dotProduct_add, dotProduct_add]
    ring
  have hs0 : 0 ≤ absSum P := Finset.sum_nonneg fun _ _ => Finset.sum_nonneg fun _ _ => abs_nonneg _
  have q1 := (le_abs_self _).trans (abs_bilinear_le_absSum P y d)
  have q2 := (le_abs_self _).trans (abs_bilinear_le_absSum P d y)
  have q3 := (le_abs_self _).trans (abs_bilinear_le_absSum P d d)
  have r1 : ‖y‖ * ‖d‖ ≤ (a * ‖x‖) * (e * g * ‖x‖) := mul_le_mul h2 h1 (norm_nonneg _) (by positivity)
  have r3 : ‖d‖ * ‖d‖ ≤ (e * g * ‖x‖) * (e * g * ‖x‖) := mul_le_mul h1 h1 (norm_nonneg _) (by positivity)
  have s1 := mul_le_mul_of_nonneg_left r1 hs0
  have s3 := mul_le_mul_of_nonneg_left r3 hs0
  rw [mul_comm ‖d‖ ‖y‖] at q2
  have h3 := mul_lt_mul_of_pos_right hsmall (pow_pos hx0 2)
  have e4 : absSum P * (e * g) * (2 * a + e * g) * ‖x‖ ^ 2 = absSum P * ((a * ‖x‖) * (e * g * ‖x‖)) + absSum P * ((a * ‖x‖) * (e * g * ‖x‖)) +
      absSum P * ((e * g * ‖x‖) * (e * g * ‖x‖)) := by ring
  rw [e4] at h3
  have h4 := hdec x
  rw [e2, e3]
  linarith

/-- **C140 (pendulum, controllers).** Let `P` be a quadratic Lyapunov function of the model that `linearize` returns, with a gain of which the entries of each row sum up
to at most `g`. If its decrease dominates the error of the model, the saturated controller stabilises the simulated, nonlinear system, on a level set of `P`. Missing:
negative frictions. -/
theorem C140_pendulum_controller_partial (p : InvertedPendulum) (hf : 0 ≤ p.friction) (hdt : 0 ≤ p.dt) (hn : ∀ T, p.normalization = some T → ∀ i, T.1 i ≠ 0)
    (A : Matrix (Fin 2) (Fin 2) ℝ) (B : Matrix (Fin 2) (Fin 1) ℝ) (hJ : IsScaledJacobian p.ode p.normalization A B) (m : ℝ) (hm : RowsAtMost A B m)
    (Ad : Matrix (Fin 2) (Fin 2) ℝ) (Bd : Matrix (Fin 2) (Fin 1) ℝ) (hlin : p.linearize zeroOrderHold = (Ad, Bd))
    (gain : Matrix (Fin 1) (Fin 2) ℝ) (P : Matrix (Fin 2) (Fin 2) ℝ) (g a q : ℝ) (hg1 : 1 ≤ g) (hg : ∀ i, ∑ j, |gain i j| ≤ g) (ha0 : 0 ≤ a)
    (ha : ∀ i, ∑ j, |(Ad - Bd * gain) i j| ≤ a) (hP : ∀ x, x ≠ 0 → 0 < quad P x)
    (hdec : ∀ x, quad P ((Ad - Bd * gain) *ᵥ x) + q * ‖x‖ ^ 2 ≤ quad P x)
    (hsmall : absSum P * ((p.dt * m) ^ 2 / 20 * Real.exp (p.dt * m) * g) * (2 * a + (p.dt * m) ^ 2 / 20 * Real.exp (p.dt * m) * g) < q) :
    ∃ level > 0, StableLevelSet P level fun x => p.evaluate x (linearPolicy true gain x) := by
  have hE := evaluateSystem_jacobian p.normalization hn (ode := p.ode) (by
    funext i
    fin_cases i <;> simp [InvertedPendulum.ode]) hJ p.dt
  have hc := C140_pendulum_close_partial p hf hdt hn A _ B _ hJ hE m hm
  rw [hlin] at hc
  have hm0 : 0 ≤ m := le_trans (by positivity) (hm 0)
  exact C126_linearisation p.evaluate _ _ (C67_equilibrium p) hE gain P hP fun x hx =>
    decrease_of_close (by positivity) hc gain hg1 hg ha0 ha hdec hsmall x hx

/-- **C140 (cart pole, controllers)** for pendulums of length one. Missing: other lengths. -/
theorem C140_cart_pole_controller_partial (p : CartPole) (hM : p.cartMass ≠ 0) (hpm : p.pendulumMass ≠ 0) (hL : p.length = 1) (hdt : 0 ≤ p.dt)
    (hn : ∀ T, p.normalization = some T → ∀ i, T.1 i ≠ 0)
    (A : Matrix (Fin 4) (Fin 4) ℝ) (B : Matrix (Fin 4) (Fin 1) ℝ) (hJ : IsScaledJacobian p.ode p.normalization A B) (m : ℝ) (hm : RowsAtMost A B m)
    (Ad : Matrix (Fin 4) (Fin 4) ℝ) (Bd : Matrix (Fin 4) (Fin 1) ℝ) (hlin : p.linearize zeroOrderHold = (Ad, Bd))
    (gain : Matrix (Fin 1) (Fin 4) ℝ) (P : Matrix (Fin 4) (Fin 4) ℝ) (g a q : ℝ) (hg1 : 1 ≤ g) (hg : ∀ i, ∑ j, |gain i j| ≤ g) (ha0 : 0 ≤ a)
    (ha : ∀ i, ∑ j, |(Ad - Bd * gain) i j| ≤ a) (hP : ∀ x, x ≠ 0 → 0 < quad P x)
    (hdec : ∀ x, quad P ((Ad - Bd * gain) *ᵥ x) + q * ‖x‖ ^ 2 ≤ quad P x)
    (hsmall : absSum P * ((p.dt * m) ^ 2 / 20 * Real.exp (p.dt * m) * g) * (2 * a + (p.dt * m) ^ 2 / 20 * Real.exp (p.dt * m) * g) < q) :
    ∃ level > 0, StableLevelSet P level fun x => p.evaluate x (linearPolicy true gain x) := by
  have hE := evaluateSystem_jacobian p.normalization hn (cart_ode_zero p) hJ p.dt
  have hc := C140_cart_pole_close_partial p hM hpm hL hdt hn A _ B _ hJ hE m hm
  rw [hlin] at hc
  have hm0 : 0 ≤ m := le_trans (by positivity) (hm 0)
  exact C126_linearisation p.evaluate _ _ (C68_equilibrium p) hE gain P hP fun x hx =>
    decrease_of_close (by positivity) hc gain hg1 hg ha0 ha hdec hsmall x hx

/-- **C140 (pendulum, `dlqr`).** The controller that `dlqr` returns for the matrices of `linearize` stabilises the simulated, nonlinear pendulum, if the cost `Q` dominates
the error of the model. Missing: negative frictions. -/
theorem C140_pendulum_dlqr_partial (p : InvertedPendulum) (hf : 0 ≤ p.friction) (hdt : 0 ≤ p.dt) (hn : ∀ T, p.normalization = some T → ∀ i, T.1 i ≠ 0)
    (A : Matrix (Fin 2) (Fin 2) ℝ) (B : Matrix (Fin 2) (Fin 1) ℝ) (hJ : IsScaledJacobian p.ode p.normalization A B) (m : ℝ) (hm : RowsAtMost A B m)
    (Ad : Matrix (Fin 2) (Fin 2) ℝ) (Bd : Matrix (Fin 2) (Fin 1) ℝ) (hlin : p.linearize zeroOrderHold = (Ad, Bd))
    (Q S : Matrix (Fin 2) (Fin 2) ℝ) (R : Matrix (Fin 1) (Fin 1) ℝ) (hare : SolvesDARE S Ad Q Bd R) (hS : ∀ x, 0 ≤ quad S x) (hR : ∀ u, 0 ≤ quad R u)
    (gain : Matrix (Fin 1) (Fin 2) ℝ) (P : Matrix (Fin 2) (Fin 2) ℝ) (hlqr : dlqr S Ad Bd R = .ok (gain, P))
    (g a q : ℝ) (hg1 : 1 ≤ g) (hg : ∀ i, ∑ j, |gain i j| ≤ g) (ha0 : 0 ≤ a) (ha : ∀ i, ∑ j, |(Ad - Bd * gain) i j| ≤ a)
    (hQ : ∀ x, q * ‖x‖ ^ 2 ≤ quad Q x)
    (hsmall : absSum P * ((p.dt * m) ^ 2 / 20 * Real.exp (p.dt * m) * g) * (2 * a + (p.dt * m) ^ 2 / 20 * Real.exp (p.dt * m) * g) < q) :
    ∃ level > 0, StableLevelSet P level fun x => p.evaluate x (linearPolicy true gain x) := by
  obtain rfl : P = S := (C44_dlqr_closed_loop Ad Q S Bd R hare hlqr).1
  have key : ∀ x, quad P ((Ad - Bd * gain) *ᵥ x) = quad P x - (quad Q x + quad R (-(gain *ᵥ x))) := by
    intro x
    rw [← C44_dlqr_decrease Ad Q P Bd R hare hlqr x, mulVec_neg, sub_mulVec, mulVec_mulVec, sub_eq_add_neg]
  have hm0 : 0 ≤ m := le_trans (by positivity) (hm 0)
  have hq : 0 < q := by
    refine lt_of_le_of_lt ?_ hsmall
    have : 0 ≤ absSum P := Finset.sum_nonneg fun _ _ => Finset.sum_nonneg fun _ _ => abs_nonneg _
    positivity
  refine C140_pendulum_controller_partial p hf hdt hn A B hJ m hm Ad Bd hlin gain P g a q hg1 hg ha0 ha (fun x hx => ?_) (fun x => ?_) hsmall
  · have h1 := key x
    have h2 : 0 < q * ‖x‖ ^ 2 := mul_pos hq (pow_pos (norm_pos_iff.mpr hx) 2)
    linarith [hS ((Ad - Bd * gain) *ᵥ x), hQ x, hR (-(gain *ᵥ x))]
  · rw [key]
    linarith [hQ x, hR (-(gain *ᵥ x))]

/-! ## A concrete case -/

/-- A pendulum with `x'' = sin x + u`, sampled every millisecond. -/
noncomputable def heldPendulum : InvertedPendulum := ⟨1 / 9.81 ^ 2, 9.81, 0, 1 / 1000, none⟩

theorem heldPendulum_matrices : heldPendulum.matrices = (!![0, 1; 1, 0], !![0; 1]) := by
  unfold InvertedPendulum.matrices heldPendulum scaleSystem InvertedPendulum.inertia InvertedPendulum.gravity
  norm_num

theorem heldPendulum_jacobian : IsScaledJacobian heldPendulum.ode heldPendulum.normalization !![0, 1; 1, 0] !![0; 1] := by
  have h1 := scaled_jacobian (pendulum_jacobian heldPendulum le_rfl) heldPendulum.normalization
  have h2 := heldPendulum_matrices
  unfold InvertedPendulum.matrices at h2
  rw [h2] at h1
  exact h1

theorem heldPendulum_rows : RowsAtMost (!![0, 1; 1, 0] : Matrix (Fin 2) (Fin 2) ℝ) (!![0; 1] : Matrix (Fin 2) (Fin 1) ℝ) 2 := by
  intro i
  fin_cases i <;> norm_num [Fin.sum_univ_two]

theorem exp_held_le : Real.exp (1 / 1000 * 2) ≤ 1.01 := by
  have h := Real.exp_bound_div_one_sub_of_interval (x := 1 / 1000 * 2) (by norm_num) (by norm_num)
  exact h.trans (by norm_num)

open scoped Matrix.Norms.Operator in
/-- The matrices of `linearize` up to second order. -/
theorem heldPendulum_linearize : ∃ a b c d e f : ℝ, (|a| ≤ 3e-6 ∧ |b| ≤ 3e-6 ∧ |c| ≤ 3e-6 ∧ |d| ≤ 3e-6 ∧ |e| ≤ 3e-6 ∧ |f| ≤ 3e-6) ∧
    heldPendulum.linearize zeroOrderHold = (!![1 + a, 1 / 1000 + b; 1 / 1000 + c, 1 + d], !![e; 1 / 1000 + f]) := by
  set X := (1 / 1000 : ℝ) • augmented (!![0, 1; 1, 0] : Matrix (Fin 2) (Fin 2) ℝ) (!![0; 1] : Matrix (Fin 2) (Fin 1) ℝ) with hX
  have h1 : ‖X‖ ≤ 1 / 1000 * 2 := by
    rw [hX, norm_smul, Real.norm_of_nonneg (by norm_num)]
    exact mul_le_mul_of_nonneg_left (norm_augmented_le _ _ (by norm_num) heldPendulum_rows) (by norm_num)
  have h2 : ‖NormedSpace.exp X - 1 - X‖ ≤ 3e-6 := by
    refine (norm_exp_sub_le X).trans ?_
    have h3 : Real.exp ‖X‖ ≤ 1.01 := (Real.exp_le_exp.mpr h1).trans exp_held_le
    calc ‖X‖ ^ 2 / 2 * Real.exp ‖X‖ ≤ (1 / 1000 * 2) ^ 2 / 2 * 1.01 :=
          mul_le_mul (div_le_div_of_nonneg_right (pow_le_pow_left₀ (norm_nonneg _) h1 2) (by norm_num)) h3 (Real.exp_pos _).le (by norm_num)
      _ ≤ 3e-6 := by norm_num
  have h3 := fun i j => (abs_entry_le (NormedSpace.exp X - 1 - X) i j).trans h2
  have e1 : heldPendulum.linearize zeroOrderHold = zeroOrderHold !![0, 1; 1, 0] !![0; 1] (1 / 1000) := by
    unfold InvertedPendulum.linearize
    rw [heldPendulum_matrices]
    rfl
  set D := NormedSpace.exp X - 1 - X with hD
  have e2 : NormedSpace.exp X = 1 + X + D := by rw [hD]; abel
  have e3 : zeroOrderHold !![0, 1; 1, 0] !![0; 1] (1 / 1000) = ((1 + X + D).toBlocks₁₁, (1 + X + D).toBlocks₁₂) := by
    rw [← e2]
    rfl
  refine ⟨D (Sum.inl 0) (Sum.inl 0), D (Sum.inl 0) (Sum.inl 1), D (Sum.inl 1) (Sum.inl 0), D (Sum.inl 1) (Sum.inl 1), D (Sum.inl 0) (Sum.inr 0),
    D (Sum.inl 1) (Sum.inr 0), ⟨h3 _ _, h3 _ _, h3 _ _, h3 _ _, h3 _ _, h3 _ _⟩, ?_⟩
  rw [e1, e3]
  clear_value D
  refine Prod.ext ?_ ?_
  · ext i j
    fin_cases i <;> fin_cases j <;> simp [toBlocks₁₁, hX, augmented]
  · ext i j
    fin_cases i <;> fin_cases j <;> simp [toBlocks₁₂, hX, augmented]

/-- A quadratic Lyapunov function. -/
def heldForm : Matrix (Fin 2) (Fin 2) ℝ := !![6, 3; 3, 3]

theorem quad_heldForm (x : Fin 2 → ℝ) : quad heldForm x = 6 * x 0 ^ 2 + 6 * x 0 * x 1 + 3 * x 1 ^ 2 := by
  simp only [quad, heldForm, dotProduct, mulVec, Fin.sum_univ_two, of_apply, cons_val_zero, cons_val_one, cons_val_fin_one]
  ring

theorem held_decrease {a b c d e f x y N : ℝ} (ha : |a| ≤ 3e-6) (hb : |b| ≤ 3e-6) (hc : |c| ≤ 3e-6) (hd : |d| ≤ 3e-6) (he : |e| ≤ 3e-6) (hf : |f| ≤ 3e-6)
    (hx : |x| ≤ N) (hy : |y| ≤ N) (hN : N ^ 2 ≤ x ^ 2 + y ^ 2) :
    2e-3 * N ^ 2 ≤ 6 * x ^ 2 + 6 * x * y + 3 * y ^ 2 - (6 * ((1 + a) * x + (1 / 1000 + b) * y - e * (3 * x + 3 * y)) ^ 2 +
      6 * ((1 + a) * x + (1 / 1000 + b) * y - e * (3 * x + 3 * y)) * ((1 / 1000 + c) * x + (1 + d) * y - (1 / 1000 + f) * (3 * x + 3 * y)) +
      3 * ((1 / 1000 + c) * x + (1 + d) * y - (1 / 1000 + f) * (3 * x + 3 * y)) ^ 2) - 1 / 1000 * (3 * x + 3 * y) ^ 2 := by
  have hN0 : 0 ≤ N := (abs_nonneg x).trans hx
  have prod : ∀ {r s R S : ℝ}, |r| ≤ R → |s| ≤ S → |r * s| ≤ R * S := fun {r s R S} hr hs => by
    rw [abs_mul]
    exact mul_le_mul hr hs (abs_nonneg _) ((abs_nonneg _).trans hr)
  set u := a * x + b * y - e * (3 * x + 3 * y) with hu
  set v := c * x + d * y - f * (3 * x + 3 * y) with hv
  set M0 := x + 1 / 1000 * y with hM0
  set M1 := y - 1 / 1000 * (2 * x + 3 * y) with hM1
  have e0 : (1 + a) * x + (1 / 1000 + b) * y - e * (3 * x + 3 * y) = M0 + u := by rw [hu, hM0]; ring
  have e1 : (1 / 1000 + c) * x + (1 + d) * y - (1 / 1000 + f) * (3 * x + 3 * y) = M1 + v := by rw [hv, hM1]; ring
  rw [e0, e1]
  have bu : |u| ≤ 2.4e-5 * N := by
    have h1 := abs_le.mp (prod ha hx)
    have h2 := abs_le.mp (prod hb hy)
    have h3 := abs_le.mp (prod he hx)
    have h4 := abs_le.mp (prod he hy)
    rw [hu, abs_le]
    constructor <;> nlinarith [h1.1, h1.2, h2.1, h2.2, h3.1, h3.2, h4.1, h4.2]
  have bv : |v| ≤ 2.4e-5 * N := by
    have h1 := abs_le.mp (prod hc hx)
    have h2 := abs_le.mp (prod hd hy)
    have h3 := abs_le.mp (prod hf hx)
    have h4 := abs_le.mp (prod hf hy)
    rw [hv, abs_le]
    constructor <;> nlinarith [h1.1, h1.2, h2.1, h2.2, h3.1, h3.2, h4.1, h4.2]
  have hx' := abs_le.mp hx
  have hy' := abs_le.mp hy
  have b0 : |M0| ≤ 1.01 * N := by
    rw [hM0, abs_le]
    constructor <;> linarith [hx'.1, hx'.2, hy'.1, hy'.2]
  have b1 : |M1| ≤ 1.01 * N := by
    rw [hM1, abs_le]
    constructor <;> linarith [hx'.1, hx'.2, hy'.1, hy'.2]
  have p1 := abs_le.mp (prod b0 bu)
  have p2 := abs_le.mp (prod b0 bv)
  have p3 := abs_le.mp (prod b1 bu)
  have p4 := abs_le.mp (prod b1 bv)
  have p5 := abs_le.mp (prod bu bu)
  have p6 := abs_le.mp (prod bu bv)
  have p7 := abs_le.mp (prod bv bv)
  have q1 := abs_le.mp (prod hx hx)
  have q2 := abs_le.mp (prod hx hy)
  have q3 := abs_le.mp (prod hy hy)
  have main : 6 * M0 ^ 2 + 6 * M0 * M1 + 3 * M1 ^ 2 = 6 * x ^ 2 + 6 * x * y + 3 * y ^ 2 - 1 / 1000 * (12 * x ^ 2 + 18 * (x * y) + 12 * y ^ 2) +
      (1 / 1000) ^ 2 * (12 * (x * x) + 24 * (x * y) + 15 * (y * y)) := by
    rw [hM0, hM1]
    ring
  have expand : 6 * (M0 + u) ^ 2 + 6 * (M0 + u) * (M1 + v) + 3 * (M1 + v) ^ 2 = 6 * M0 ^ 2 + 6 * M0 * M1 + 3 * M1 ^ 2 +
      (12 * (M0 * u) + 6 * (M0 * v) + 6 * (M1 * u) + 6 * (M1 * v) + 6 * (u * u) + 6 * (u * v) + 3 * (v * v)) := by ring
  rw [expand, main]
  have hN2 : 0 ≤ N ^ 2 := sq_nonneg N
  have sq1 : (3 * x + 3 * y) ^ 2 = 9 * x ^ 2 + 18 * (x * y) + 9 * y ^ 2 := by ring
  have n1 : 1.01 * N * (2.4e-5 * N) = 1.01 * 2.4e-5 * N ^ 2 := by ring
  have n2 : 2.4e-5 * N * (2.4e-5 * N) = 2.4e-5 * 2.4e-5 * N ^ 2 := by ring
  have n3 : N * N = N ^ 2 := by ring
  rw [n1] at p1 p2 p3 p4
  rw [n2] at p5 p6 p7
  rw [n3] at q1 q2 q3
  rw [sq1]
  linarith [p1.2, p2.2, p3.2, p4.2, p5.2, p6.2, p7.2, q1.2, q2.2, q3.2]

theorem held_square {a b c d e f x0 x1 s t g1 g2 rho w0 w1 : ℝ} (hg1 : g1 = 6 * e + 3 * (1 / 1000 + f)) (hg2 : g2 = 3 * e + 3 * (1 / 1000 + f))
    (hrho : rho = g1 * e + g2 * (1 / 1000 + f) + 1 / 1000) (hw0 : w0 = g1 * (1 + a) + g2 * (1 / 1000 + c)) (hw1 : w1 = g1 * (1 / 1000 + b) + g2 * (1 + d))
    (hrho0 : 0 < rho) (hrs : rho * s = w0 * x0 + w1 * x1) :
    (6 * ((1 + a) * x0 + (1 / 1000 + b) * x1 - e * s) ^ 2 +
      6 * ((1 + a) * x0 + (1 / 1000 + b) * x1 - e * s) * ((1 / 1000 + c) * x0 + (1 + d) * x1 - (1 / 1000 + f) * s) +
      3 * ((1 / 1000 + c) * x0 + (1 + d) * x1 - (1 / 1000 + f) * s) ^ 2) + 1 / 1000 * s ^ 2 ≤
    (6 * ((1 + a) * x0 + (1 / 1000 + b) * x1 - e * t) ^ 2 +
      6 * ((1 + a) * x0 + (1 / 1000 + b) * x1 - e * t) * ((1 / 1000 + c) * x0 + (1 + d) * x1 - (1 / 1000 + f) * t) +
      3 * ((1 / 1000 + c) * x0 + (1 + d) * x1 - (1 / 1000 + f) * t) ^ 2) + 1 / 1000 * t ^ 2 := by
  have h3 := mul_nonneg hrho0.le (sq_nonneg (t - s))
  have e9 : (6 * ((1 + a) * x0 + (1 / 1000 + b) * x1 - e * t) ^ 2 +
      6 * ((1 + a) * x0 + (1 / 1000 + b) * x1 - e * t) * ((1 / 1000 + c) * x0 + (1 + d) * x1 - (1 / 1000 + f) * t) +
      3 * ((1 / 1000 + c) * x0 + (1 + d) * x1 - (1 / 1000 + f) * t) ^ 2) + 1 / 1000 * t ^ 2 -
      ((6 * ((1 + a) * x0 + (1 / 1000 + b) * x1 - e * s) ^ 2 +
      6 * ((1 + a) * x0 + (1 / 1000 + b) * x1 - e * s) * ((1 / 1000 + c) * x0 + (1 + d) * x1 - (1 / 1000 + f) * s) +
      3 * ((1 / 1000 + c) * x0 + (1 + d) * x1 - (1 / 1000 + f) * s) ^ 2) + 1 / 1000 * s ^ 2) =
      rho * (t - s) ^ 2 - 2 * (t - s) * (w0 * x0 + w1 * x1 - rho * s) := by
    rw [hw0, hw1, hrho, hg1, hg2]
    ring
  rw [hrs, sub_self, mul_zero, sub_zero] at e9
  linarith

theorem held_hsmall : absSum heldForm * ((heldPendulum.dt * 2) ^ 2 / 20 * Real.exp (heldPendulum.dt * 2) * 7) *
    (2 * 1.02 + (heldPendulum.dt * 2) ^ 2 / 20 * Real.exp (heldPendulum.dt * 2) * 7) < 2e-3 := by
  have h1 : absSum heldForm = 15 := by
    simp [absSum, heldForm, Fin.sum_univ_two]
    norm_num
  have h2 : heldPendulum.dt = 1 / 1000 := rfl
  have h3 := exp_held_le
  rw [h1, h2]
  have h4 : (1 / 1000 * 2 : ℝ) ^ 2 / 20 * Real.exp (1 / 1000 * 2) * 7 ≤ 2e-6 := by linarith
  have h5 : (0 : ℝ) ≤ (1 / 1000 * 2 : ℝ) ^ 2 / 20 * Real.exp (1 / 1000 * 2) * 7 := by positivity
  generalize (1 / 1000 * 2 : ℝ) ^ 2 / 20 * Real.exp (1 / 1000 * 2) * 7 = z at h4 h5
  nlinarith

theorem norm_sq_le_two (x : Fin 2 → ℝ) : ‖x‖ ^ 2 ≤ x 0 ^ 2 + x 1 ^ 2 := by
  have : ‖x‖ ≤ Real.sqrt (x 0 ^ 2 + x 1 ^ 2) := by
    refine (pi_norm_le_iff_of_nonneg (Real.sqrt_nonneg _)).mpr fun i => ?_
    rw [Real.norm_eq_abs]
    fin_cases i
    · exact Real.abs_le_sqrt (le_add_of_nonneg_right (sq_nonneg _))
    · exact Real.abs_le_sqrt (le_add_of_nonneg_left (sq_nonneg _))
  calc ‖x‖ ^ 2 ≤ Real.sqrt (x 0 ^ 2 + x 1 ^ 2) ^ 2 := pow_le_pow_left₀ (norm_nonneg _) this 2
    _ = _ := Real.sq_sqrt (by positivity)

/-- The regulator for a cost of `1 / 1000` for the actions and a suitable cost for the states stabilises the simulated pendulum. -/
example : ∃ Ad Bd Q gain, heldPendulum.linearize zeroOrderHold = (Ad, Bd) ∧ SolvesDARE heldForm Ad Q Bd !![1 / 1000] ∧ (∀ x, 2e-3 * ‖x‖ ^ 2 ≤ quad Q x) ∧
    dlqr heldForm Ad Bd !![1 / 1000] = .ok (gain, heldForm) ∧
    ∃ level > 0, StableLevelSet heldForm level fun x => heldPendulum.evaluate x (linearPolicy true gain x) := by
  obtain ⟨a, b, c, d, e, f, ⟨ha, hb, hc, hd, he, hf⟩, hlin⟩ := heldPendulum_linearize
  have ha' := abs_le.mp ha
  have hb' := abs_le.mp hb
  have hc' := abs_le.mp hc
  have hd' := abs_le.mp hd
  have he' := abs_le.mp he
  have hf' := abs_le.mp hf
  obtain ⟨g1, hg1⟩ : ∃ g1, g1 = 6 * e + 3 * (1 / 1000 + f) := ⟨_, rfl⟩
  obtain ⟨g2, hg2⟩ : ∃ g2, g2 = 3 * e + 3 * (1 / 1000 + f) := ⟨_, rfl⟩
  obtain ⟨rho, hrho⟩ : ∃ rho, rho = g1 * e + g2 * (1 / 1000 + f) + 1 / 1000 := ⟨_, rfl⟩
  have hrho1 : 1 / 1000 ≤ rho := by
    rw [hrho, hg1, hg2]
    nlinarith [sq_nonneg e, sq_nonneg (e + (1 / 1000 + f))]
  have hrho0 : 0 < rho := lt_of_lt_of_le (by norm_num) hrho1
  obtain ⟨w0, hw0⟩ : ∃ w0, w0 = g1 * (1 + a) + g2 * (1 / 1000 + c) := ⟨_, rfl⟩
  obtain ⟨w1, hw1⟩ : ∃ w1, w1 = g1 * (1 / 1000 + b) + g2 * (1 + d) := ⟨_, rfl⟩
  have bg1 : |g1| ≤ 3.03e-3 := by
    rw [hg1, abs_le]
    constructor <;> linarith [he'.1, he'.2, hf'.1, hf'.2]
  have bg2 : |g2| ≤ 3.03e-3 := by
    rw [hg2, abs_le]
    constructor <;> linarith [he'.1, he'.2, hf'.1, hf'.2]
  have prod : ∀ {r s R S : ℝ}, |r| ≤ R → |s| ≤ S → |r * s| ≤ R * S := fun {r s R S} hr hs => by
    rw [abs_mul]
    exact mul_le_mul hr hs (abs_nonneg _) ((abs_nonneg _).trans hr)
  have bone : ∀ {r : ℝ}, |r| ≤ 3e-6 → |1 + r| ≤ 1.001 := fun {r} hr => by
    have := abs_le.mp hr
    rw [abs_le]
    constructor <;> linarith [this.1, this.2]
  have bsmall : ∀ {r : ℝ}, |r| ≤ 3e-6 → |1 / 1000 + r| ≤ 1.01e-3 := fun {r} hr => by
    have := abs_le.mp hr
    rw [abs_le]
    constructor <;> linarith [this.1, this.2]
  have bw0 : |w0| ≤ 3.1e-3 := by
    rw [hw0]
    refine (abs_add_le _ _).trans ((add_le_add (prod bg1 (bone ha)) (prod bg2 (bsmall hc))).trans (by norm_num))
  have bw1 : |w1| ≤ 3.1e-3 := by
    rw [hw1]
    refine (abs_add_le _ _).trans ((add_le_add (prod bg1 (bsmall hb)) (prod bg2 (bone hd))).trans (by norm_num))
  have bk : ∀ {w : ℝ}, |w| ≤ 3.1e-3 → |w / rho| ≤ 3.1 := fun {w} hw => by
    rw [abs_div, abs_of_pos hrho0, div_le_iff₀ hrho0]
    exact hw.trans (by linarith)
  obtain ⟨Ad, hAd⟩ : ∃ Ad : Matrix (Fin 2) (Fin 2) ℝ, Ad = !![1 + a, 1 / 1000 + b; 1 / 1000 + c, 1 + d] := ⟨_, rfl⟩
  obtain ⟨Bd, hBd⟩ : ∃ Bd : Matrix (Fin 2) (Fin 1) ℝ, Bd = !![e; 1 / 1000 + f] := ⟨_, rfl⟩
  rw [← hAd, ← hBd] at hlin
  have e1 : Bdᵀ * heldForm = !![g1, g2] := by
    rw [hBd, hg1, hg2]
    ext i j
    fin_cases i; fin_cases j <;> simp [heldForm, Matrix.mul_apply, Fin.sum_univ_two] <;> ring
  have e2 : Bdᵀ * heldForm * Bd + !![1 / 1000] = !![rho] := by
    rw [e1, hBd, hrho]
    ext i j
    fin_cases i; fin_cases j; simp [Matrix.mul_apply, Fin.sum_univ_two]
  have e3 : Bdᵀ * heldForm * Ad = !![w0, w1] := by
    rw [e1, hAd, hw0, hw1]
    ext i j
    fin_cases i; fin_cases j <;> simp [Matrix.mul_apply, Fin.sum_univ_two]
  have hlqr : dlqr heldForm Ad Bd !![1 / 1000] = .ok (!![w0 / rho, w1 / rho], heldForm) := by
    have e4 : (!![rho] : Matrix (Fin 1) (Fin 1) ℝ).det = rho := by simp
    unfold dlqr linSolve
    simp only [e2, e3, e4, hrho0.ne', if_false, bind, Except.bind, pure, Except.pure]
    congr 2
    ext i j
    fin_cases i; fin_cases j <;> simp [Matrix.inv_def, Matrix.mul_apply] <;> ring
  obtain ⟨Q, hare⟩ : ∃ Q, SolvesDARE heldForm Ad Q Bd !![1 / 1000] :=
    ⟨heldForm - (Adᵀ * heldForm * Ad - Adᵀ * heldForm * Bd * (!![1 / 1000] + Bdᵀ * heldForm * Bd)⁻¹ * (Bdᵀ * heldForm * Ad)), by unfold SolvesDARE; abel⟩
  have hQ : ∀ x, 2e-3 * ‖x‖ ^ 2 ≤ quad Q x := by
    intro x
    have h1 := C44_dlqr_decrease Ad Q heldForm Bd !![1 / 1000] hare hlqr x
    obtain ⟨s, hs⟩ : ∃ s, s = w0 / rho * x 0 + w1 / rho * x 1 := ⟨_, rfl⟩
    have e5 : (!![w0 / rho, w1 / rho] : Matrix (Fin 1) (Fin 2) ℝ) *ᵥ x = ![s] := by
      funext i
      fin_cases i
      simp [mulVec, dotProduct, Fin.sum_univ_two, hs]
    have e6 : quad (!![1 / 1000] : Matrix (Fin 1) (Fin 1) ℝ) (-![s]) = 1 / 1000 * s ^ 2 := by
      simp [quad, mulVec, dotProduct]
      ring
    rw [e5, e6, quad_heldForm, quad_heldForm] at h1
    have e7 : (Ad *ᵥ x + Bd *ᵥ -![s]) 0 = (1 + a) * x 0 + (1 / 1000 + b) * x 1 - e * s := by
      simp [hAd, hBd, mulVec, dotProduct, Fin.sum_univ_two]
      ring
    have e8 : (Ad *ᵥ x + Bd *ᵥ -![s]) 1 = (1 / 1000 + c) * x 0 + (1 + d) * x 1 - (1 / 1000 + f) * s := by
      simp [hAd, hBd, mulVec, dotProduct, Fin.sum_univ_two]
      ring
    rw [e7, e8] at h1
    have h2 := held_decrease ha hb hc hd he hf (norm_le_pi_norm x 0) (norm_le_pi_norm x 1) (norm_sq_le_two x)
    have hrs : rho * s = w0 * x 0 + w1 * x 1 := by
      rw [hs]
      field_simp
    have h3 := held_square (t := 3 * x 0 + 3 * x 1) hg1 hg2 hrho hw0 hw1 hrho0 hrs
    linarith only [h1, h2, h3]
  refine ⟨Ad, Bd, Q, _, hlin, hare, hQ, hlqr, ?_⟩
  refine C140_pendulum_dlqr_partial heldPendulum le_rfl (by norm_num [heldPendulum]) (fun T hT => by cases hT) _ _ heldPendulum_jacobian 2 heldPendulum_rows
    Ad Bd hlin Q heldForm !![1 / 1000] hare (fun x => ?_) (fun u => ?_) _ _ hlqr 7 1.02 2e-3 (by norm_num) (fun i => ?_) (by norm_num) (fun i => ?_) hQ held_hsmall
  · rw [quad_heldForm]
    nlinarith [sq_nonneg (x 0 + x 1), sq_nonneg (x 0)]
  · simp [quad, mulVec, dotProduct]
    nlinarith [mul_self_nonneg (u 0)]
  · fin_cases i
    have h1 := bk bw0
    have h2 := bk bw1
    simp [Fin.sum_univ_two]
    linarith
  · have k0 := bk bw0
    have k1 := bk bw1
    have key : ∀ {r s u v R S U V : ℝ}, |r| ≤ R → |u| ≤ U → |s| ≤ S → |v| ≤ V → |r - u * s| + |v - u * (w1 / rho)| ≤ R + U * S + (V + U * 3.1) := by
      intro r s u v R S U V hr hu hs hv
      refine add_le_add ((abs_sub _ _).trans (add_le_add hr (prod hu hs))) ((abs_sub _ _).trans (add_le_add hv (prod hu k1)))
    fin_cases i
    · have := key (bone ha) he k0 (bsmall hb)
      simp [Fin.sum_univ_two, hAd, hBd, Matrix.mul_apply] at this ⊢
      exact this.trans (by norm_num)
    · have := key (bsmall hc) (bsmall hf) k0 (bone hd)
      simp [Fin.sum_univ_two, hAd, hBd, Matrix.mul_apply] at this ⊢
      exact this.trans (by norm_num)

end SafeLearning
