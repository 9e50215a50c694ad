import Verif.Spec.Systems
import Verif.Model.Systems
import Mathlib.Analysis.SpecialFunctions.Trigonometric.Deriv
import Mathlib.Analysis.Calculus.FDeriv.Comp
import Mathlib.Analysis.Calculus.FDeriv.Add
import Mathlib.Analysis.Calculus.FDeriv.Mul
import Mathlib.Analysis.Calculus.Deriv.Comp
import Mathlib.Analysis.Calculus.Deriv.Inv
import Mathlib.Analysis.Calculus.Deriv.Prod
import Mathlib.Topology.Algebra.Module.FiniteDimension
import Mathlib.Tactic.LinearCombination
set_option autoImplicit false

/-!
# C67-C69: the example systems
-/

namespace SafeLearning

open Matrix Spec

/-! ## Tools -/

/-- A differentiable vector field with the right derivatives along all lines has the Jacobian. -/
theorem isJacobian_of_lines {n k : ℕ} {f : (Fin n → ℝ) → (Fin k → ℝ) → Fin n → ℝ}
    {A : Matrix (Fin n) (Fin n) ℝ} {B : Matrix (Fin n) (Fin k) ℝ} {x : Fin n → ℝ} {u : Fin k → ℝ}
    (hd : DifferentiableAt ℝ (fun z : (Fin n → ℝ) × (Fin k → ℝ) => f z.1 z.2) (x, u))
    (hl : ∀ dx du i, HasDerivAt (fun t : ℝ => f (fun j => x j + t * dx j) (fun j => u j + t * du j) i)
      ((A *ᵥ dx + B *ᵥ du) i) 0) : IsJacobian f A B x u := by
  obtain ⟨L, hL⟩ := hd
  refine ⟨L, hL, fun dx du => ?_⟩
  have hline : HasDerivAt (fun t : ℝ => ((fun j => x j + t * dx j, fun j => u j + t * du j) :
      (Fin n → ℝ) × (Fin k → ℝ))) (dx, du) 0 := by
    refine HasDerivAt.prodMk ?_ ?_
    · refine hasDerivAt_pi.mpr fun j => ?_
      simpa using ((hasDerivAt_id (0 : ℝ)).mul_const (dx j)).const_add (x j)
    · refine hasDerivAt_pi.mpr fun j => ?_
      simpa using ((hasDerivAt_id (0 : ℝ)).mul_const (du j)).const_add (u j)
  have h0 : ((fun j => x j + (0 : ℝ) * dx j, fun j => u j + (0 : ℝ) * du j) :
      (Fin n → ℝ) × (Fin k → ℝ)) = (x, u) := by simp
  have hc := HasFDerivAt.comp_hasDerivAt (0 : ℝ) (by rw [h0]; exact hL) hline
  have hcomp := hasDerivAt_pi.mp hc
  funext i
  exact (hcomp i).unique (hl dx du i)

/-- The Jacobian of the rescaled field. -/
theorem isJacobian_rescaled {n k : ℕ} {f : (Fin n → ℝ) → (Fin k → ℝ) → Fin n → ℝ}
    {A : Matrix (Fin n) (Fin n) ℝ} {B : Matrix (Fin n) (Fin k) ℝ} (h : IsJacobian f A B 0 0)
    (Tx : Fin n → ℝ) (Tu : Fin k → ℝ) :
    IsJacobian (rescaled f Tx Tu) (diagonal (fun i => (Tx i)⁻¹) * A * diagonal Tx)
      (diagonal (fun i => (Tx i)⁻¹) * B * diagonal Tu) 0 0 := by
  obtain ⟨L, hL, hAB⟩ := h
  -- the linear change of units
  let S : (Fin n → ℝ) × (Fin k → ℝ) →ₗ[ℝ] (Fin n → ℝ) × (Fin k → ℝ) :=
    { toFun := fun z => (fun j => Tx j * z.1 j, fun j => Tu j * z.2 j)
      map_add' := fun a b => by ext j <;> simp [mul_add]
      map_smul' := fun c a => by ext j <;> simp [mul_left_comm] }
  let R : (Fin n → ℝ) →ₗ[ℝ] (Fin n → ℝ) :=
    { toFun := fun y i => y i / Tx i
      map_add' := fun a b => by ext j; simp [add_div]
      map_smul' := fun c a => by ext j; simp [mul_div_assoc] }
  have hS : HasFDerivAt (fun z => S z) (LinearMap.toContinuousLinearMap S) (0, 0) :=
    (LinearMap.toContinuousLinearMap S).hasFDerivAt
  have hR : ∀ y, HasFDerivAt (fun y => R y) (LinearMap.toContinuousLinearMap R) y := fun y =>
    (LinearMap.toContinuousLinearMap R).hasFDerivAt
  have hS0 : S (0, 0) = (0, 0) := map_zero S
  have h1 := HasFDerivAt.comp ((0, 0) : (Fin n → ℝ) × (Fin k → ℝ)) (by rw [hS0]; exact hL) hS
  have h2 := HasFDerivAt.comp ((0, 0) : (Fin n → ℝ) × (Fin k → ℝ)) (hR _) h1
  refine ⟨_, h2, fun dx du => ?_⟩
  have e : L (S (dx, du)) = A *ᵥ (fun j => Tx j * dx j) + B *ᵥ (fun j => Tu j * du j) := hAB _ _
  have d1 : ∀ v : Fin n → ℝ, diagonal Tx *ᵥ v = fun j => Tx j * v j := fun v => by
    funext j; rw [mulVec_diagonal]
  have d2 : ∀ v : Fin k → ℝ, diagonal Tu *ᵥ v = fun j => Tu j * v j := fun v => by
    funext j; rw [mulVec_diagonal]
  rw [← mulVec_mulVec, ← mulVec_mulVec, ← mulVec_mulVec, ← mulVec_mulVec, d1, d2, ← mulVec_add, ← e]
  funext i
  rw [mulVec_diagonal]
  change R (L (S (dx, du))) i = _
  simp [R, div_eq_inv_mul]

/-- The scaled matrices are the Jacobian of the rescaled field, or of the field itself without normalisation. -/
def _root_.Spec.IsScaledJacobian {n k : ℕ} (f : (Fin n → ℝ) → (Fin k → ℝ) → Fin n → ℝ)
    (norm : Option ((Fin n → ℝ) × (Fin k → ℝ))) (A : Matrix (Fin n) (Fin n) ℝ)
    (B : Matrix (Fin n) (Fin k) ℝ) : Prop :=
  (norm = none → IsJacobian f A B 0 0) ∧
    ∀ Tx Tu, norm = some (Tx, Tu) → IsJacobian (rescaled f Tx Tu) A B 0 0

theorem scaled_jacobian {n k : ℕ} {f : (Fin n → ℝ) → (Fin k → ℝ) → Fin n → ℝ}
    {A : Matrix (Fin n) (Fin n) ℝ} {B : Matrix (Fin n) (Fin k) ℝ} (h : IsJacobian f A B 0 0)
    (norm : Normalization n k) :
    IsScaledJacobian f norm (scaleSystem norm A B).1 (scaleSystem norm A B).2 := by
  refine ⟨fun hn => by subst hn; exact h, fun Tx Tu hn => ?_⟩
  subst hn
  exact isJacobian_rescaled h Tx Tu

/-- Jacobians are unique. -/
theorem IsJacobian.unique {n k : ℕ} {f : (Fin n → ℝ) → (Fin k → ℝ) → Fin n → ℝ}
    {A A' : Matrix (Fin n) (Fin n) ℝ} {B B' : Matrix (Fin n) (Fin k) ℝ} {x : Fin n → ℝ}
    {u : Fin k → ℝ} (h : IsJacobian f A B x u) (h' : IsJacobian f A' B' x u) : A = A' ∧ B = B' := by
  obtain ⟨L, hL, e⟩ := h
  obtain ⟨L', hL', e'⟩ := h'
  have hLL := hL.unique hL'
  subst hLL
  constructor
  · ext i j
    have := congrFun ((e (Pi.single j 1) 0).symm.trans (e' (Pi.single j 1) 0)) i
    simpa using this
  · ext i j
    have := congrFun ((e 0 (Pi.single j 1)).symm.trans (e' 0 (Pi.single j 1))) i
    simpa using this

/-! ## Normalisation -/

/-- **C67 (normalisation).** For non-zero scales `normalize` and `denormalize` are inverse to each other, on states and on
actions, for the systems with any number of states and actions. -/
theorem C67_normalize_inverse {n k : ℕ} (norm : Normalization n k)
    (hn : ∀ T, norm = some T → (∀ i, T.1 i ≠ 0) ∧ ∀ i, T.2 i ≠ 0) (state : Fin n → ℝ)
    (action : Option (Fin k → ℝ)) :
    (normalize norm (denormalize norm state action).1 (denormalize norm state action).2 =
      (state, action)) ∧
    (denormalize norm (normalize norm state action).1 (normalize norm state action).2 =
      (state, action)) := by
  cases norm with
  | none => exact ⟨rfl, rfl⟩
  | some T =>
    obtain ⟨h1, h2⟩ := hn T rfl
    have e1 : ∀ s : Fin n → ℝ, (s ᵥ* diagonal T.1) ᵥ* diagonal (invNorm T).1 = s := fun s => by
      funext i
      simp only [vecMul_diagonal, invNorm]
      rw [mul_assoc, mul_inv_cancel₀ (h1 i), mul_one]
    have e2 : ∀ s : Fin n → ℝ, (s ᵥ* diagonal (invNorm T).1) ᵥ* diagonal T.1 = s := fun s => by
      funext i
      simp only [vecMul_diagonal, invNorm]
      rw [mul_assoc, inv_mul_cancel₀ (h1 i), mul_one]
    have e3 : ∀ s : Fin k → ℝ, (s ᵥ* diagonal T.2) ᵥ* diagonal (invNorm T).2 = s := fun s => by
      funext i
      simp only [vecMul_diagonal, invNorm]
      rw [mul_assoc, mul_inv_cancel₀ (h2 i), mul_one]
    have e4 : ∀ s : Fin k → ℝ, (s ᵥ* diagonal (invNorm T).2) ᵥ* diagonal T.2 = s := fun s => by
      funext i
      simp only [vecMul_diagonal, invNorm]
      rw [mul_assoc, inv_mul_cancel₀ (h2 i), mul_one]
    cases action with
    | none => simp [normalize, denormalize, e1, e2]
    | some a => simp [normalize, denormalize, e1, e2, e3, e4]

/-! ## Fixed points and the derivative of the discrete dynamics -/

theorem eulerSteps_fixed {n : ℕ} (dt : ℝ) {field : (Fin n → ℝ) → Fin n → ℝ} {x : Fin n → ℝ}
    (h : field x = 0) (i : ℕ) : eulerSteps dt field i x = x := by
  induction i with
  | zero => rfl
  | succ i ih =>
    unfold eulerSteps
    have : (fun j => x j + dt * field x j) = x := by
      funext j
      rw [h]
      simp
    rw [this, ih]

theorem evaluateSystem_zero {n k : ℕ} (norm : Normalization n k)
    {ode : (Fin n → ℝ) → (Fin k → ℝ) → Fin n → ℝ} (h : ode 0 0 = 0) (dt : ℝ) :
    evaluateSystem norm ode dt 0 0 = 0 := by
  cases norm with
  | none =>
    simp only [evaluateSystem, denormalize, normalize, Option.getD_some]
    exact eulerSteps_fixed _ h 10
  | some T =>
    simp only [evaluateSystem, denormalize, normalize, Option.map_some, Option.getD_some, zero_vecMul]
    rw [eulerSteps_fixed (field := fun s => ode s 0) _ h 10, zero_vecMul]

/-- The derivative of `i` Euler steps at the equilibrium. -/
theorem eulerSteps_jacobian {n k : ℕ} {ode : (Fin n → ℝ) → (Fin k → ℝ) → Fin n → ℝ}
    {A : Matrix (Fin n) (Fin n) ℝ} {B : Matrix (Fin n) (Fin k) ℝ} (h : IsJacobian ode A B 0 0)
    (h0 : ode 0 0 = 0) (dt : ℝ) (i : ℕ) :
    IsJacobian (fun x u => eulerSteps dt (fun s => ode s u) i x) ((1 + dt • A) ^ i)
      (∑ j ∈ Finset.range i, (1 + dt • A) ^ j * (dt • B)) 0 0 := by
  induction i with
  | zero =>
    refine ⟨ContinuousLinearMap.fst ℝ _ _, ?_, fun dx du => by simp⟩
    exact (ContinuousLinearMap.fst ℝ (Fin n → ℝ) (Fin k → ℝ)).hasFDerivAt
  | succ i ih =>
    obtain ⟨G, hG, hGab⟩ := ih
    obtain ⟨L, hL, hAB⟩ := h
    let F := ContinuousLinearMap.fst ℝ (Fin n → ℝ) (Fin k → ℝ)
    let Sn := ContinuousLinearMap.snd ℝ (Fin n → ℝ) (Fin k → ℝ)
    have h1 : HasFDerivAt (fun z : (Fin n → ℝ) × (Fin k → ℝ) =>
        ((fun j => z.1 j + dt * ode z.1 z.2 j, z.2) : (Fin n → ℝ) × (Fin k → ℝ)))
        ((F + dt • L).prod Sn) (0, 0) := by
      refine HasFDerivAt.prodMk ?_ Sn.hasFDerivAt
      exact F.hasFDerivAt.add (hL.const_smul dt)
    have hz : ((fun j => (0 : Fin n → ℝ) j + dt * ode 0 0 j, 0) : (Fin n → ℝ) × (Fin k → ℝ)) =
        (0, 0) := by
      refine Prod.ext (funext fun j => ?_) rfl
      simp [h0]
    have h2 := HasFDerivAt.comp ((0, 0) : (Fin n → ℝ) × (Fin k → ℝ)) (by rw [hz]; exact hG) h1
    refine ⟨_, h2, fun dx du => ?_⟩
    have e1 : ((F + dt • L).prod Sn) (dx, du) = (dx + dt • (A *ᵥ dx + B *ᵥ du), du) := by
      rw [← hAB]
      rfl
    change G (((F + dt • L).prod Sn) (dx, du)) = _
    rw [e1, hGab, Finset.sum_range_succ, add_mulVec, pow_succ]
    have e2 : dx + dt • (A *ᵥ dx + B *ᵥ du) = (1 + dt • A) *ᵥ dx + (dt • B) *ᵥ du := by
      rw [add_mulVec, one_mulVec, smul_mulVec, smul_mulVec, smul_add, add_assoc]
    rw [e2, mulVec_add, mulVec_mulVec, mulVec_mulVec]
    abel

/-- The evaluation of a normalised system consists of Euler steps of the rescaled field. -/
theorem evaluateSystem_rescaled {n k : ℕ} (Tx : Fin n → ℝ) (Tu : Fin k → ℝ) (hx : ∀ i, Tx i ≠ 0)
    (ode : (Fin n → ℝ) → (Fin k → ℝ) → Fin n → ℝ) (dt : ℝ) (x : Fin n → ℝ) (u : Fin k → ℝ) :
    evaluateSystem (some (Tx, Tu)) ode dt x u =
      eulerSteps (dt / 10) (fun s => rescaled ode Tx Tu s u) 10 x := by
  simp only [evaluateSystem, denormalize, normalize, Option.map_some, Option.getD_some]
  have hu : u ᵥ* diagonal Tu = fun j => Tu j * u j := by
    funext j
    rw [vecMul_diagonal, mul_comm]
  rw [hu]
  generalize dt / 10 = h
  generalize 10 = i
  induction i generalizing x with
  | zero =>
    funext j
    simp only [eulerSteps, vecMul_diagonal, invNorm]
    rw [mul_assoc, mul_inv_cancel₀ (hx j), mul_one]
  | succ i ih =>
    unfold eulerSteps
    rw [← ih]
    congr 2
    funext j
    simp only [vecMul_diagonal, rescaled]
    have e : x ᵥ* diagonal Tx = fun j => Tx j * x j := by
      funext j
      rw [vecMul_diagonal, mul_comm]
    rw [e, add_mul, mul_assoc h, div_mul_cancel₀ _ (hx j)]

theorem evaluateSystem_jacobian {n k : ℕ} (norm : Normalization n k)
    (hn : ∀ T, norm = some T → ∀ i, T.1 i ≠ 0)
    {ode : (Fin n → ℝ) → (Fin k → ℝ) → Fin n → ℝ} {A : Matrix (Fin n) (Fin n) ℝ}
    {B : Matrix (Fin n) (Fin k) ℝ} (h0 : ode 0 0 = 0) (h : IsScaledJacobian ode norm A B) (dt : ℝ) :
    IsJacobian (evaluateSystem norm ode dt) ((1 + (dt / 10) • A) ^ 10)
      (∑ j ∈ Finset.range 10, (1 + (dt / 10) • A) ^ j * ((dt / 10) • B)) 0 0 := by
  cases norm with
  | none => exact eulerSteps_jacobian (h.1 rfl) h0 (dt / 10) 10
  | some T =>
    obtain ⟨Tx, Tu⟩ := T
    have : evaluateSystem (some (Tx, Tu)) ode dt = fun x u =>
        eulerSteps (dt / 10) (fun s => rescaled ode Tx Tu s u) 10 x := by
      funext x u
      exact evaluateSystem_rescaled Tx Tu (hn _ rfl) ode dt x u
    rw [this]
    refine eulerSteps_jacobian (h.2 Tx Tu rfl) ?_ (dt / 10) 10
    funext i
    have e1 : (fun j => Tx j * (0 : Fin n → ℝ) j) = 0 := by funext j; simp
    have e2 : (fun j => Tu j * (0 : Fin k → ℝ) j) = 0 := by funext j; simp
    rw [rescaled, e1, e2, h0]
    simp

/-! ## C67: the pendulum -/

/-- **C67 (equilibrium).** The upright position at rest without action is a fixed point of the discrete dynamics. -/
theorem C67_equilibrium (p : InvertedPendulum) : p.evaluate 0 0 = 0 := by
  refine evaluateSystem_zero p.normalization ?_ p.dt
  funext i
  fin_cases i <;> simp [InvertedPendulum.ode]

theorem pendulum_jacobian (p : InvertedPendulum) (hf : 0 ≤ p.friction) :
    IsJacobian p.ode !![0, 1; InvertedPendulum.gravity / p.length, -p.friction / p.inertia]
      !![0; 1 / p.inertia] 0 0 := by
  have hode : p.ode = fun s a => ![s 1, InvertedPendulum.gravity / p.length * Real.sin (s 0) +
      a 0 / p.inertia - p.friction / p.inertia * s 1] := by
    funext s a
    unfold InvertedPendulum.ode
    by_cases h : 0 < p.friction
    · simp [h]
    · have : p.friction = 0 := le_antisymm (not_lt.mp h) hf
      simp [this]
  rw [hode]
  refine isJacobian_of_lines ?_ fun dx du i => ?_
  · rw [differentiableAt_pi]
    intro i
    fin_cases i
    · simp only [Fin.zero_eta, Matrix.cons_val_zero]
      fun_prop
    · simp only [Fin.mk_one, Matrix.cons_val_one, Matrix.cons_val_fin_one]
      fun_prop
  · have hl : ∀ c : ℝ, HasDerivAt (fun t : ℝ => (0 : ℝ) + t * c) c 0 := fun c => by
      simpa using ((hasDerivAt_id (0 : ℝ)).mul_const c).const_add 0
    fin_cases i
    · simpa [mulVec, dotProduct, Fin.sum_univ_two] using hl (dx 1)
    · have h1 := (((hl (dx 0)).sin.const_mul (InvertedPendulum.gravity / p.length)).add
        ((hl (du 0)).div_const p.inertia)).sub ((hl (dx 1)).const_mul (p.friction / p.inertia))
      simp only [Fin.mk_one, Matrix.cons_val_one, Matrix.cons_val_fin_one, Pi.zero_apply]
      refine h1.congr_deriv ?_
      simp [mulVec, dotProduct, Fin.sum_univ_two]
      ring

/-- **C67 (linearisation).** `linearize` discretises the Jacobian of the vector field at the upright equilibrium, in normalised
units if a normalisation is given. Missing: negative frictions, see `C67_negative_friction_refuted`. -/
theorem C67_linearize_partial (p : InvertedPendulum) (hf : 0 ≤ p.friction) :
    ∃ A B, IsScaledJacobian p.ode p.normalization A B ∧ ∀ zoh, p.linearize zoh = zoh A B p.dt :=
  ⟨_, _, scaled_jacobian (pendulum_jacobian p hf) p.normalization, fun _ => rfl⟩

/-- **C67 (discrete dynamics).** The Jacobian of the discrete dynamics at the equilibrium is the one of ten Euler steps with
the matrices that `linearize` discretises. Missing: negative frictions. -/
theorem C67_discrete_jacobian_partial (p : InvertedPendulum) (hf : 0 ≤ p.friction)
    (hn : ∀ T, p.normalization = some T → ∀ i, T.1 i ≠ 0) :
    ∃ A B, (∀ zoh, p.linearize zoh = zoh A B p.dt) ∧
      IsJacobian p.evaluate ((1 + (p.dt / 10) • A) ^ 10)
        (∑ j ∈ Finset.range 10, (1 + (p.dt / 10) • A) ^ j * ((p.dt / 10) • B)) 0 0 := by
  refine ⟨p.matrices.1, p.matrices.2, fun _ => rfl, ?_⟩
  refine evaluateSystem_jacobian p.normalization hn ?_
    (scaled_jacobian (pendulum_jacobian p hf) p.normalization) p.dt
  funext i
  fin_cases i <;> simp [InvertedPendulum.ode]

/-- **C67 refuted** for negative frictions: they are accepted by the constructor, but `ode` ignores them while `linearize` does not. -/
theorem C67_negative_friction_refuted (p : InvertedPendulum) (hf : p.friction < 0) (hm : p.mass ≠ 0)
    (hl : p.length ≠ 0) (hn : p.normalization = none) :
    ¬ ∃ A B, IsScaledJacobian p.ode p.normalization A B ∧ ∀ zoh, p.linearize zoh = zoh A B p.dt := by
  rintro ⟨A, B, hJ, hz⟩
  have h1 := hJ.1 hn
  have hA : p.matrices.1 = A := congrArg Prod.fst (hz fun A B _ => (A, B))
  let q : InvertedPendulum := { p with friction := 0 }
  have hq : q.ode = p.ode := by
    funext s a
    simp [q, InvertedPendulum.ode, hf.not_gt, InvertedPendulum.inertia]
  have h2 := pendulum_jacobian q le_rfl
  rw [hq] at h2
  have h3 := (IsJacobian.unique h1 h2).1
  have h4 := congrFun (congrFun (hA.trans h3) 1) 1
  have hi : p.inertia ≠ 0 := by
    unfold InvertedPendulum.inertia
    positivity
  simp [InvertedPendulum.matrices, scaleSystem, hn, q, hf.ne, hi] at h4

/-! ## C68: the cart with the pendulum -/

theorem cart_ode_zero (p : CartPole) : p.ode 0 0 = 0 := by
  funext i
  fin_cases i <;> simp [CartPole.ode]

/-- **C68 (equilibrium).** The upright equilibrium without action is a fixed point of the discrete dynamics. -/
theorem C68_equilibrium (p : CartPole) : p.evaluate 0 0 = 0 :=
  evaluateSystem_zero p.normalization (cart_ode_zero p) p.dt

/-- The Jacobian of `ode`. -/
theorem cart_jacobian (p : CartPole) (hM : p.cartMass ≠ 0) (hL : p.length ≠ 0)
    (hm : p.pendulumMass ≠ 0) :
    IsJacobian p.ode
      !![0, 0, 1, 0;
         0, 0, 0, 1;
         0, CartPole.gravity * p.pendulumMass * p.length / p.cartMass, 0, -p.rotFriction / p.cartMass;
         0, CartPole.gravity * (p.pendulumMass + p.cartMass) / (p.length * p.cartMass), 0,
          -p.rotFriction * (p.pendulumMass + p.cartMass) /
            (p.pendulumMass * p.cartMass * p.length ^ 2)]
      !![0; 0; 1 / p.cartMass; 1 / (p.cartMass * p.length)] 0 0 := by
  obtain ⟨m, M, L, b, dt, norm⟩ := p
  simp only at hM hL hm
  have hdet : L * (M + m * Real.sin ((0 : Fin 4 → ℝ) 1) ^ 2) ≠ 0 := by
    simp [hL, hM]
  refine isJacobian_of_lines ?_ fun dx du i => ?_
  · rw [differentiableAt_pi]
    intro i
    fin_cases i <;> simp only [CartPole.ode, Fin.zero_eta, Fin.mk_one, Fin.reduceFinMk,
      Matrix.cons_val]
    · fun_prop
    · fun_prop
    · fun_prop (disch := exact hdet)
    · fun_prop (disch := exact hdet)
  · have hl : ∀ c : ℝ, HasDerivAt (fun t : ℝ => (0 : ℝ) + t * c) c 0 := fun c => by
      simpa using ((hasDerivAt_id (0 : ℝ)).mul_const c).const_add 0
    have hθ := hl (dx 1)
    have hω := hl (dx 3)
    have hu := hl (du 0)
    have hd : HasDerivAt (fun t : ℝ => L * (M + m * Real.sin (0 + t * dx 1) ^ 2))
        (L * (m * (2 * Real.sin (0 + 0 * dx 1) ^ 1 * (Real.cos (0 + 0 * dx 1) * dx 1)))) 0 := by
      simpa using (((hθ.sin.pow 2).const_mul m).const_add M).const_mul L
    have hd0 : L * (M + m * Real.sin (0 + 0 * dx 1) ^ 2) ≠ 0 := by simp [hL, hM]
    have hn1 := (((hu.sub (((hω.pow 2).const_mul (m * L)).mul hθ.sin)).sub
      ((hω.const_mul b).mul hθ.cos)).add
      ((hθ.const_mul 2).sin.const_mul (0.5 * m * CartPole.gravity * L))).mul_const L
    have hn2 := (((hu.mul hθ.cos).sub (((hω.pow 2).const_mul (0.5 * m * L)).mul
      (hθ.const_mul 2).sin)).sub ((hω.const_mul (b * (m + M))).div_const (m * L))).add
      (hθ.sin.const_mul ((m + M) * CartPole.gravity))
    fin_cases i
    · simpa [CartPole.ode, mulVec, dotProduct, Fin.sum_univ_four] using hl (dx 2)
    · simpa [CartPole.ode, mulVec, dotProduct, Fin.sum_univ_four] using hl (dx 3)
    · simp only [CartPole.ode, Fin.reduceFinMk, Matrix.cons_val, Pi.zero_apply]
      refine (hn1.div hd hd0).congr_deriv ?_
      simp [mulVec, dotProduct, Fin.sum_univ_four]
      field_simp
      ring
    · simp only [CartPole.ode, Fin.reduceFinMk, Matrix.cons_val, Pi.zero_apply]
      refine (hn2.div hd hd0).congr_deriv ?_
      simp [mulVec, dotProduct, Fin.sum_univ_four]
      field_simp
      ring

/-- **C68 (linearisation).** For pendulums of length one, `linearize` discretises the Jacobian of the vector field at the upright
equilibrium, in normalised units if a normalisation is given. Missing: all other lengths, see
`C68_linearize_refuted`. -/
theorem C68_linearize_partial (p : CartPole) (hM : p.cartMass ≠ 0) (hm : p.pendulumMass ≠ 0)
    (hL : p.length = 1) :
    ∃ A B, IsScaledJacobian p.ode p.normalization A B ∧ ∀ zoh, p.linearize zoh = zoh A B p.dt := by
  refine ⟨_, _, scaled_jacobian (cart_jacobian p hM (by rw [hL]; norm_num) hm) p.normalization,
    fun zoh => ?_⟩
  unfold CartPole.linearize CartPole.matrices
  simp only [hL, mul_one]

/-- **C68 (discrete dynamics)** for length one: the Jacobian of the discrete dynamics is the one of ten Euler steps with the
matrices of `linearize`. -/
theorem C68_discrete_jacobian_partial (p : CartPole) (hM : p.cartMass ≠ 0) (hm : p.pendulumMass ≠ 0)
    (hL : p.length = 1) (hn : ∀ T, p.normalization = some T → ∀ i, T.1 i ≠ 0) :
    ∃ A B, (∀ zoh, p.linearize zoh = zoh A B p.dt) ∧
      IsJacobian p.evaluate ((1 + (p.dt / 10) • A) ^ 10)
        (∑ j ∈ Finset.range 10, (1 + (p.dt / 10) • A) ^ j * ((p.dt / 10) • B)) 0 0 := by
  obtain ⟨A, B, h1, h2⟩ := C68_linearize_partial p hM hm hL
  exact ⟨A, B, h2, evaluateSystem_jacobian p.normalization hn (cart_ode_zero p) h1 p.dt⟩

/-- **C68 refuted** for every other length: without normalisation, the matrices that `linearize` discretises are not the
Jacobian of the vector field. -/
theorem C68_linearize_refuted (p : CartPole) (hM : p.cartMass ≠ 0) (hm : p.pendulumMass ≠ 0)
    (hL : p.length ≠ 0) (hL1 : p.length ≠ 1) (hn : p.normalization = none) :
    ¬ ∃ A B, IsScaledJacobian p.ode p.normalization A B ∧ ∀ zoh, p.linearize zoh = zoh A B p.dt := by
  rintro ⟨A, B, hJ, hz⟩
  have h1 := hJ.1 hn
  have hA : p.matrices.1 = A := congrArg Prod.fst (hz fun A B _ => (A, B))
  have h3 := (IsJacobian.unique h1 (cart_jacobian p hM hL hm)).1
  have h4 := congrFun (congrFun (hA.trans h3) 2) 1
  have hg : CartPole.gravity ≠ 0 := by norm_num [CartPole.gravity]
  simp [CartPole.matrices, scaleSystem, hn] at h4
  field_simp at h4
  exact hL1 h4.symm

/-! ## C69: the Van der Pol oscillator -/

/-- The vector field with the (ignored) action. -/
theorem vdp_jacobian (p : VanDerPol) :
    IsJacobian (fun s (_ : Fin 1 → ℝ) => p.ode s) !![0, -1; 1, -p.damping] 0 0 0 := by
  refine isJacobian_of_lines ?_ fun dx du i => ?_
  · rw [differentiableAt_pi]
    intro i
    fin_cases i <;> simp only [VanDerPol.ode, Fin.zero_eta, Fin.mk_one, Matrix.cons_val_zero,
      Matrix.cons_val_one, Matrix.cons_val_fin_one] <;> fun_prop
  · have hl : ∀ c : ℝ, HasDerivAt (fun t : ℝ => (0 : ℝ) + t * c) c 0 := fun c => by
      simpa using ((hasDerivAt_id (0 : ℝ)).mul_const c).const_add 0
    fin_cases i
    · simp only [VanDerPol.ode, Fin.zero_eta, Matrix.cons_val_zero, Pi.zero_apply]
      refine (hl (dx 1)).neg.congr_deriv ?_
      simp [mulVec, dotProduct, Fin.sum_univ_two]
    · simp only [VanDerPol.ode, Fin.mk_one, Matrix.cons_val_one, Matrix.cons_val_fin_one,
        Pi.zero_apply]
      have := (hl (dx 0)).add (((((hl (dx 0)).pow 2).sub_const 1).const_mul p.damping).mul (hl (dx 1)))
      refine this.congr_deriv ?_
      simp [mulVec, dotProduct, Fin.sum_univ_two]

/-- **C69 (equilibrium).** The origin is a fixed point of the discrete dynamics. -/
theorem C69_equilibrium (p : VanDerPol) (u : Fin 1 → ℝ) : p.evaluate 0 u = 0 := by
  have h0 : p.ode 0 = 0 := by
    funext i
    fin_cases i <;> simp [VanDerPol.ode]
  unfold VanDerPol.evaluate VanDerPol.denormalize VanDerPol.normalize
  cases p.normalization with
  | none => exact eulerSteps_fixed _ h0 10
  | some T => simp only [zero_vecMul, eulerSteps_fixed _ h0]

/-- **C69 (normalisation).** `normalize` and `denormalize` are inverse to each other. -/
theorem C69_normalize_inverse (p : VanDerPol) (hn : ∀ T, p.normalization = some T → ∀ i, T i ≠ 0)
    (s : Fin 2 → ℝ) : p.normalize (p.denormalize s) = s ∧ p.denormalize (p.normalize s) = s := by
  unfold VanDerPol.denormalize VanDerPol.normalize
  cases h : p.normalization with
  | none => exact ⟨rfl, rfl⟩
  | some T =>
    constructor <;> funext i <;> simp only [vecMul_diagonal] <;> rw [mul_assoc]
    · rw [mul_inv_cancel₀ (hn T h i), mul_one]
    · rw [inv_mul_cancel₀ (hn T h i), mul_one]

/-- The Jacobian of an uncontrolled vector field at the origin, in normalised units if a normalisation is given. -/
def _root_.Spec.IsScaledStateJacobian {n : ℕ} (f : (Fin n → ℝ) → Fin n → ℝ)
    (norm : Option (Fin n → ℝ)) (A : Matrix (Fin n) (Fin n) ℝ) : Prop :=
  IsScaledJacobian (k := 1) (fun s _ => f s) (norm.map fun T => (T, 1)) A 0

/-- **C69 (linearisation).** For damping one, `linearize` discretises the Jacobian of the vector field at the origin.
Missing: all other values of the damping, see `C69_linearize_refuted`. -/
theorem C69_linearize_partial (p : VanDerPol) (hd : p.damping = 1) :
    ∃ A, IsScaledStateJacobian p.ode p.normalization A ∧ ∀ zoh, p.linearize zoh = (zoh A 0 p.dt).1 := by
  refine ⟨p.matrix, ?_, fun _ => rfl⟩
  have h := vdp_jacobian p
  rw [hd] at h
  have := scaled_jacobian h (p.normalization.map fun T => (T, 1))
  unfold Spec.IsScaledStateJacobian VanDerPol.matrix
  cases hn : p.normalization with
  | none => rw [hn] at this; exact this
  | some T =>
    rw [hn] at this
    simpa [scaleSystem, invNorm] using this

/-- **C69 (discrete dynamics).** For every damping, the Jacobian of the discrete dynamics at the origin is the one of ten Euler steps with the Jacobian of the vector field. -/
theorem C69_discrete_jacobian (p : VanDerPol) (hn : ∀ T, p.normalization = some T → ∀ i, T i ≠ 0) (A : Matrix (Fin 2) (Fin 2) ℝ)
    (hA : IsScaledStateJacobian p.ode p.normalization A) : IsJacobian p.evaluate ((1 + (p.dt / 10) • A) ^ 10) 0 0 0 := by
  have he : p.evaluate = evaluateSystem (p.normalization.map fun T => (T, (1 : Fin 1 → ℝ))) (fun s _ => p.ode s) p.dt := by
    funext x u
    unfold VanDerPol.evaluate VanDerPol.denormalize VanDerPol.normalize evaluateSystem
    cases p.normalization <;> rfl
  have := evaluateSystem_jacobian (p.normalization.map fun T => (T, (1 : Fin 1 → ℝ))) (by
      intro T hT i
      obtain ⟨T', h1, rfl⟩ := Option.map_eq_some_iff.mp hT
      exact hn T' h1 i) (ode := fun s _ => p.ode s) (by
      funext i
      fin_cases i <;> simp [VanDerPol.ode]) hA p.dt
  rw [he]
  simpa using this

example : IsJacobian (⟨3, 1 / 10, some ![2, 5]⟩ : VanDerPol).evaluate
    ((1 + ((1 / 10 : ℝ) / 10) • (diagonal (fun i => (![2, 5] i)⁻¹) * !![0, -1; 1, -3] * diagonal ![2, 5])) ^ 10) 0 0 0 :=
  C69_discrete_jacobian _ (by rintro _ ⟨⟩ i; fin_cases i <;> simp) _ (by
    have := scaled_jacobian (vdp_jacobian ⟨3, 1 / 10, some ![2, 5]⟩) (some (![2, 5], 1))
    simpa [scaleSystem, invNorm, Spec.IsScaledStateJacobian] using this)

/-- **C69 refuted** for every other damping: without normalisation, the matrix that `linearize` discretises is not the Jacobian. -/
theorem C69_linearize_refuted (p : VanDerPol) (hd : p.damping ≠ 1) (hn : p.normalization = none) :
    ¬ ∃ A, IsScaledStateJacobian p.ode p.normalization A ∧
      ∀ zoh, p.linearize zoh = (zoh A 0 p.dt).1 := by
  rintro ⟨A, hJ, hz⟩
  have h1 := hJ.1 (by rw [hn]; rfl)
  have hA : p.matrix = A := hz fun A B _ => (A, B)
  have h3 := (IsJacobian.unique h1 (vdp_jacobian p)).1
  have h4 := congrFun (congrFun (hA.trans h3) 1) 1
  simp [VanDerPol.matrix, hn] at h4
  exact hd h4.symm

/-! ## Cases that meet the hypotheses -/

/-- The pendulum of the examples. -/
noncomputable def examplePendulum : InvertedPendulum := ⟨0.15, 0.5, 0.1, 1 / 80, some (![30, 2], ![5])⟩

example : (∃ A B, IsScaledJacobian examplePendulum.ode examplePendulum.normalization A B ∧
    ∀ zoh, examplePendulum.linearize zoh = zoh A B examplePendulum.dt) :=
  C67_linearize_partial _ (by norm_num [examplePendulum])

example : ∀ T, examplePendulum.normalization = some T → (∀ i, T.1 i ≠ 0) ∧ ∀ i, T.2 i ≠ 0 := by
  intro T h
  cases h
  constructor <;> intro i <;> fin_cases i <;> norm_num

/-- The cart of the examples has a pendulum of length `0.28`: its linearisation is not the Jacobian. -/
example : ¬ ∃ A B, IsScaledJacobian (CartPole.mk 0.175 1.732 0.28 0.01 0.01 none).ode none A B ∧
    ∀ zoh, (CartPole.mk 0.175 1.732 0.28 0.01 0.01 none).linearize zoh = zoh A B 0.01 :=
  C68_linearize_refuted _ (by norm_num) (by norm_num) (by norm_num) (by norm_num) rfl

end SafeLearning
