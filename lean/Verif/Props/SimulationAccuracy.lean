import Verif.Props.Systems
import Mathlib.Analysis.Calculus.MeanValue
import Mathlib.Analysis.ODE.ExistUnique
import Mathlib.Analysis.Complex.ExponentialBounds
import Mathlib.Analysis.SpecialFunctions.ExpDeriv
import Mathlib.Analysis.SpecialFunctions.Trigonometric.Bounds
set_option autoImplicit false

/-!
# C139: the example systems approximate the solutions of their differential equations
-/

namespace SafeLearning

open Matrix Spec Set

/-! ## Specification -/

/-- The curve `y` solves the differential equation `y' = f y u` on `N` intervals of length `dt`, with the constant action `u j` on the interval number `j`. -/
def _root_.Spec.SampledSolution {n k : ℕ} (f : (Fin n → ℝ) → (Fin k → ℝ) → Fin n → ℝ) (dt : ℝ) (u : ℕ → Fin k → ℝ) (N : ℕ) (y : ℝ → Fin n → ℝ) : Prop :=
  ∀ j < N, ∀ t ∈ Icc (j * dt) ((j + 1) * dt), HasDerivWithinAt y (f (y t) (u j)) (Icc (j * dt) ((j + 1) * dt)) t

/-- The states of a discrete system with the actions `u`. -/
def _root_.Spec.discreteStates {n k : ℕ} (step : (Fin n → ℝ) → (Fin k → ℝ) → Fin n → ℝ) (u : ℕ → Fin k → ℝ) (x : Fin n → ℝ) : ℕ → Fin n → ℝ
  | 0 => x
  | j + 1 => step (discreteStates step u x j) (u j)

/-- A vector in physical units, if `scale` is the unit of each entry. -/
def _root_.Spec.inUnits {n : ℕ} (scale : Option (Fin n → ℝ)) (x : Fin n → ℝ) : Fin n → ℝ :=
  match scale with
  | none => x
  | some T => fun i => T i * x i

/-- The states with a distance of at most `r` to the curve `y` on the first `T` seconds. -/
def _root_.Spec.tube {n : ℕ} (y : ℝ → Fin n → ℝ) (T r : ℝ) : Set (Fin n → ℝ) := {x | ∃ t ∈ Icc 0 T, ‖x - y t‖ ≤ r}

/-! ## Euler steps -/

/-- The local error of an Euler step. -/
theorem euler_local {n : ℕ} {f : (Fin n → ℝ) → Fin n → ℝ} {y : ℝ → Fin n → ℝ} {a h L B : ℝ} (hh : 0 ≤ h) (hL0 : 0 ≤ L)
    (hy : ∀ t ∈ Icc a (a + h), HasDerivWithinAt y (f (y t)) (Icc a (a + h)) t)
    (hL : ∀ t ∈ Icc a (a + h), ‖f (y t) - f (y a)‖ ≤ L * ‖y t - y a‖) (hB : ∀ t ∈ Icc a (a + h), ‖f (y t)‖ ≤ B) :
    ‖y (a + h) - (y a + h • f (y a))‖ ≤ L * B * h ^ 2 / 2 := by
  have h1 := norm_image_sub_le_of_norm_deriv_le_segment' hy fun t ht => hB t (Ico_subset_Icc_self ht)
  have hg : ∀ t ∈ Icc a (a + h), HasDerivWithinAt (fun t => y t - (y a + (t - a) • f (y a))) (f (y t) - f (y a)) (Icc a (a + h)) t := by
    intro t ht
    have e : HasDerivAt (fun t : ℝ => y a + (t - a) • f (y a)) (f (y a)) t := by
      simpa using (((hasDerivAt_id t).sub_const a).smul_const (f (y a))).const_add (y a)
    exact (hy t ht).sub e.hasDerivWithinAt
  have h2 := image_norm_le_of_norm_deriv_right_le_deriv_boundary (a := a) (b := a + h) (f := fun t => y t - (y a + (t - a) • f (y a)))
    (f' := fun t => f (y t) - f (y a)) (fun t ht => (hg t ht).continuousWithinAt)
    (fun t ht => (hg t (Ico_subset_Icc_self ht)).mono_of_mem_nhdsWithin (Icc_mem_nhdsGE_of_mem ht))
    (B := fun t => L * B * (t - a) ^ 2 / 2) (B' := fun t => L * B * (t - a)) (by simp)
    (fun t => by
      have := ((((hasDerivAt_id t).sub_const a).pow 2).const_mul (L * B)).div_const 2
      refine this.congr_deriv ?_
      simp
      ring)
    (fun t ht => by
      refine (hL t (Ico_subset_Icc_self ht)).trans ?_
      rw [mul_assoc]
      exact mul_le_mul_of_nonneg_left (h1 t (Ico_subset_Icc_self ht)) hL0)
    (right_mem_Icc.mpr (by linarith))
  simpa using h2

/-- The bound after `m` Euler steps of length `h`. -/
noncomputable def eulerBound (B L h : ℝ) (m : ℕ) : ℝ := B * h / 2 * ((1 + h * L) ^ m - 1)

theorem eulerBound_mono {B L h : ℝ} (hB : 0 ≤ B) (hL : 0 ≤ L) (hh : 0 ≤ h) {m m' : ℕ} (hm : m ≤ m') : eulerBound B L h m ≤ eulerBound B L h m' := by
  unfold eulerBound
  have := pow_le_pow_right₀ (show 1 ≤ 1 + h * L by nlinarith [mul_nonneg hh hL]) hm
  exact mul_le_mul_of_nonneg_left (by linarith) (by positivity)

theorem euler_error {n : ℕ} {f : (Fin n → ℝ) → Fin n → ℝ} {y : ℝ → Fin n → ℝ} {h L B r : ℝ} (hh : 0 ≤ h) (hL0 : 0 ≤ L) (hB0 : 0 ≤ B) {S : Set (Fin n → ℝ)}
    (hL : ∀ a ∈ S, ∀ b ∈ S, ‖f a - f b‖ ≤ L * ‖a - b‖) (i m : ℕ) (a : ℝ) (x : Fin n → ℝ)
    (hy : ∀ t ∈ Icc a (a + i * h), HasDerivWithinAt y (f (y t)) (Icc a (a + i * h)) t)
    (hS : ∀ t ∈ Icc a (a + i * h), ∀ z, ‖z - y t‖ ≤ r → z ∈ S) (hr : eulerBound B L h (m + i) ≤ r)
    (hB : ∀ t ∈ Icc a (a + i * h), ‖f (y t)‖ ≤ B) (hx : ‖x - y a‖ ≤ eulerBound B L h m) :
    ‖eulerSteps h f i x - y (a + i * h)‖ ≤ eulerBound B L h (m + i) := by
  induction i generalizing m a x with
  | zero => simpa [eulerSteps] using hx
  | succ i ih =>
    have hle : a + h ≤ a + (i + 1 : ℕ) * h := by
      push_cast
      nlinarith [Nat.cast_nonneg (α := ℝ) i, mul_nonneg (Nat.cast_nonneg (α := ℝ) i) hh]
    have hsub1 : Icc a (a + h) ⊆ Icc a (a + (i + 1 : ℕ) * h) := Icc_subset_Icc le_rfl hle
    have hend : a + h + i * h = a + (i + 1 : ℕ) * h := by push_cast; ring
    have hsub2 : Icc (a + h) (a + h + i * h) ⊆ Icc a (a + (i + 1 : ℕ) * h) := by
      rw [hend]
      exact Icc_subset_Icc (by linarith) le_rfl
    have ha : a ∈ Icc a (a + h) := left_mem_Icc.mpr (by linarith)
    have hr0 : 0 ≤ r := by
      refine le_trans ?_ hr
      have := eulerBound_mono hB0 hL0 hh (Nat.zero_le (m + (i + 1)))
      simpa [eulerBound] using this
    have hyS : ∀ t ∈ Icc a (a + (i + 1 : ℕ) * h), y t ∈ S := fun t ht => hS t ht (y t) (by simpa using hr0)
    have hxS : x ∈ S := hS a (hsub1 ha) x (hx.trans ((eulerBound_mono hB0 hL0 hh (by omega)).trans hr))
    have hloc := euler_local hh hL0 (fun t ht => (hy t (hsub1 ht)).mono hsub1) (fun t ht => hL _ (hyS t (hsub1 ht)) _ (hyS a (hsub1 ha)))
      fun t ht => hB t (hsub1 ht)
    have hstep : ‖(x + h • f x) - y (a + h)‖ ≤ eulerBound B L h (m + 1) := by
      have e : (x + h • f x) - y (a + h) = (x - y a) + h • (f x - f (y a)) - (y (a + h) - (y a + h • f (y a))) := by
        rw [smul_sub]
        abel
      rw [e]
      refine (norm_sub_le _ _).trans ((add_le_add (norm_add_le _ _) hloc).trans ?_)
      rw [norm_smul, Real.norm_of_nonneg hh]
      have h3 := hL x hxS (y a) (hyS a (hsub1 ha))
      have h4 : h * ‖f x - f (y a)‖ ≤ h * (L * ‖x - y a‖) := mul_le_mul_of_nonneg_left h3 hh
      have h5 : ‖x - y a‖ + h * (L * ‖x - y a‖) = (1 + h * L) * ‖x - y a‖ := by ring
      have h6 : (1 + h * L) * ‖x - y a‖ ≤ (1 + h * L) * eulerBound B L h m := mul_le_mul_of_nonneg_left hx (by positivity)
      have h7 : (1 + h * L) * eulerBound B L h m + L * B * h ^ 2 / 2 = eulerBound B L h (m + 1) := by
        unfold eulerBound
        ring
      linarith
    have := ih (m + 1) (a + h) (x + h • f x) (fun t ht => (hy t (hsub2 ht)).mono hsub2) (fun t ht => hS t (hsub2 ht))
      (by rw [show m + 1 + i = m + (i + 1) by ring]; exact hr) (fun t ht => hB t (hsub2 ht)) hstep
    rw [hend, show m + 1 + i = m + (i + 1) by ring] at this
    exact this

/-! ## The systems of the examples -/

theorem evaluateSystem_units {n k : ℕ} (norm : Normalization n k) (hn : ∀ T, norm = some T → ∀ i, T.1 i ≠ 0)
    (ode : (Fin n → ℝ) → (Fin k → ℝ) → Fin n → ℝ) (dt : ℝ) (x : Fin n → ℝ) (u : Fin k → ℝ) :
    inUnits (norm.map Prod.fst) (evaluateSystem norm ode dt x u) =
      eulerSteps (dt / 10) (fun s => ode s (inUnits (norm.map Prod.snd) u)) 10 (inUnits (norm.map Prod.fst) x) := by
  cases norm with
  | none => rfl
  | some T =>
    have e1 : ∀ {n : ℕ} (T x : Fin n → ℝ), x ᵥ* diagonal T = fun i => T i * x i := by
      intro n T x
      funext i
      rw [vecMul_diagonal, mul_comm]
    simp only [evaluateSystem, denormalize, normalize, Option.map_some, Option.getD_some, e1, inUnits]
    funext i
    simp only [invNorm]
    rw [mul_inv_cancel_left₀ (hn T rfl i)]

/-- **C139.** Let `y` be a solution of the differential equation with actions that are constant for `dt` seconds. If the vector field is Lipschitz with constant `L` in a tube around the solution,
and at most `B` on it, then after `N` calls of the discrete system the state differs from the solution by at most `B dt / 20 * ((1 + L dt / 10) ^ (10 N) - 1)`, provided that this
is at most the radius of the tube. -/
theorem C139_accuracy {n k : ℕ} (norm : Normalization n k) (hn : ∀ T, norm = some T → ∀ i, T.1 i ≠ 0)
    (ode : (Fin n → ℝ) → (Fin k → ℝ) → Fin n → ℝ) (dt : ℝ) (hdt : 0 ≤ dt) (x : Fin n → ℝ) (u : ℕ → Fin k → ℝ) (N : ℕ) (y : ℝ → Fin n → ℝ)
    (hy0 : y 0 = inUnits (norm.map Prod.fst) x) (hy : Spec.SampledSolution ode dt (fun j => inUnits (norm.map Prod.snd) (u j)) N y)
    (r L B : ℝ) (hL0 : 0 ≤ L) (hB0 : 0 ≤ B)
    (hL : ∀ j < N, ∀ a ∈ Spec.tube y (N * dt) r, ∀ b ∈ Spec.tube y (N * dt) r,
      ‖ode a (inUnits (norm.map Prod.snd) (u j)) - ode b (inUnits (norm.map Prod.snd) (u j))‖ ≤ L * ‖a - b‖)
    (hB : ∀ j < N, ∀ t ∈ Icc (j * dt) ((j + 1) * dt), ‖ode (y t) (inUnits (norm.map Prod.snd) (u j))‖ ≤ B)
    (hr : B * dt / 20 * ((1 + L * dt / 10) ^ (10 * N) - 1) ≤ r) :
    ‖inUnits (norm.map Prod.fst) (Spec.discreteStates (evaluateSystem norm ode dt) u x N) - y (N * dt)‖ ≤
      B * dt / 20 * ((1 + L * dt / 10) ^ (10 * N) - 1) := by
  have hE : ∀ m : ℕ, B * dt / 20 * ((1 + L * dt / 10) ^ m - 1) = eulerBound B L (dt / 10) m := by
    intro m
    unfold eulerBound
    rw [show L * dt / 10 = dt / 10 * L by ring]
    ring
  rw [hE] at hr ⊢
  have hh : 0 ≤ dt / 10 := by positivity
  suffices key : ∀ j ≤ N, ‖inUnits (norm.map Prod.fst) (Spec.discreteStates (evaluateSystem norm ode dt) u x j) - y (j * dt)‖ ≤ eulerBound B L (dt / 10) (10 * j) from
    key N le_rfl
  intro j
  induction j with
  | zero =>
    intro _
    simp [Spec.discreteStates, hy0, eulerBound]
  | succ j ih =>
    intro hj
    have h10 : (j * dt + (10 : ℕ) * (dt / 10) : ℝ) = (j + 1) * dt := by
      push_cast
      ring
    have hjN : ((j : ℝ) + 1) * dt ≤ N * dt := mul_le_mul_of_nonneg_right (by exact_mod_cast hj) hdt
    have hsub : ∀ t ∈ Icc (j * dt : ℝ) ((j + 1) * dt), t ∈ Icc 0 (N * dt) := fun t ht =>
      ⟨le_trans (by positivity) ht.1, ht.2.trans hjN⟩
    have := euler_error (f := fun s => ode s (inUnits (norm.map Prod.snd) (u j))) (y := y) hh hL0 hB0 (S := Spec.tube y (N * dt) r) (r := r)
      (hL j hj) 10 (10 * j) (j * dt) (inUnits (norm.map Prod.fst) (Spec.discreteStates (evaluateSystem norm ode dt) u x j))
      (by rw [h10]; exact hy j hj) (by rw [h10]; exact fun t ht z hz => ⟨t, hsub t ht, hz⟩)
      ((eulerBound_mono hB0 hL0 hh (by omega)).trans hr) (by rw [h10]; exact hB j hj) (ih (by omega))
    rw [h10] at this
    rw [Spec.discreteStates, evaluateSystem_units norm hn, show 10 * (j + 1) = 10 * j + 10 by ring]
    push_cast
    exact this

theorem bound_le_exp {B L dt : ℝ} (hB : 0 ≤ B) (hL : 0 ≤ L) (hdt : 0 ≤ dt) (N : ℕ) :
    B * dt / 20 * ((1 + L * dt / 10) ^ (10 * N) - 1) ≤ B * dt / 20 * (Real.exp (L * (N * dt)) - 1) := by
  have h1 : (1 + L * dt / 10) ^ (10 * N) ≤ Real.exp (L * (N * dt)) := by
    have h2 : 1 + L * dt / 10 ≤ Real.exp (L * dt / 10) := by linarith [Real.add_one_le_exp (L * dt / 10)]
    calc (1 + L * dt / 10) ^ (10 * N) ≤ Real.exp (L * dt / 10) ^ (10 * N) := pow_le_pow_left₀ (by positivity) h2 _
      _ = Real.exp (L * (N * dt)) := by
        rw [← Real.exp_nat_mul]
        congr 1
        push_cast
        ring
  exact mul_le_mul_of_nonneg_left (by linarith) (by positivity)

/-- **C139 (pendulum).** With a constant that depends on the length, the mass and the friction only, the state after `N` calls differs from every solution of the equation of motion
with a speed of at most `B` by at most `B dt / 20 * (exp (L N dt) - 1)`. Negative frictions are ignored by the code (C67). -/
theorem C139_pendulum (p : InvertedPendulum) (hm : 0 < p.mass) (hl : 0 < p.length) (hf : 0 ≤ p.friction) (hdt : 0 < p.dt)
    (hn : ∀ T, p.normalization = some T → ∀ i, T.1 i ≠ 0) (x : Fin 2 → ℝ) (u : ℕ → Fin 1 → ℝ) (N : ℕ) (y : ℝ → Fin 2 → ℝ)
    (hy0 : y 0 = inUnits (p.normalization.map Prod.fst) x)
    (hy : Spec.SampledSolution (fun s a => ![s 1, 9.81 / p.length * Real.sin (s 0) + (a 0 - p.friction * s 1) / (p.mass * p.length ^ 2)]) p.dt
      (fun j => inUnits (p.normalization.map Prod.snd) (u j)) N y)
    (B : ℝ) (hB0 : 0 ≤ B) (hB : ∀ j < N, ∀ t ∈ Icc (j * p.dt) ((j + 1) * p.dt), ‖derivWithin y (Icc (j * p.dt) ((j + 1) * p.dt)) t‖ ≤ B) :
    ‖inUnits (p.normalization.map Prod.fst) (Spec.discreteStates p.evaluate u x N) - y (N * p.dt)‖ ≤
      B * p.dt / 20 * (Real.exp (max 1 (9.81 / p.length + p.friction / (p.mass * p.length ^ 2)) * (N * p.dt)) - 1) := by
  set L := max 1 (9.81 / p.length + p.friction / (p.mass * p.length ^ 2)) with hLdef
  have hL0 : 0 ≤ L := le_trans zero_le_one (le_max_left _ _)
  have hode : p.ode = fun s a => ![s 1, 9.81 / p.length * Real.sin (s 0) + (a 0 - p.friction * s 1) / (p.mass * p.length ^ 2)] := by
    funext s a
    unfold InvertedPendulum.ode InvertedPendulum.gravity InvertedPendulum.inertia
    by_cases h : 0 < p.friction
    · simp only [h, if_true]
      congr 2
      field_simp
      ring
    · have : p.friction = 0 := le_antisymm (not_lt.mp h) hf
      simp [this]
  rw [← hode] at hy
  have hB' : ∀ j < N, ∀ t ∈ Icc (j * p.dt) ((j + 1) * p.dt), ‖p.ode (y t) (inUnits (p.normalization.map Prod.snd) (u j))‖ ≤ B := by
    intro j hj t ht
    rw [← (hy j hj t ht).derivWithin (uniqueDiffOn_Icc (by nlinarith) t ht)]
    exact hB j hj t ht
  refine (C139_accuracy p.normalization hn p.ode p.dt hdt.le x u N y hy0 hy (B * p.dt / 20 * ((1 + L * p.dt / 10) ^ (10 * N) - 1)) L B hL0 hB0 ?_ hB' le_rfl).trans
    (bound_le_exp hB0 hL0 hdt.le N)
  intro j hj a _ b _
  rw [hode]
  have h0 := norm_le_pi_norm (a - b) 0
  have h1 := norm_le_pi_norm (a - b) 1
  simp only [Pi.sub_apply, Real.norm_eq_abs] at h0 h1
  refine (pi_norm_le_iff_of_nonneg (by positivity)).mpr fun i => ?_
  fin_cases i
  · simp only [Pi.sub_apply, Fin.zero_eta, cons_val_zero, Real.norm_eq_abs]
    calc |a 1 - b 1| ≤ 1 * ‖a - b‖ := by rw [one_mul]; exact h1
      _ ≤ L * ‖a - b‖ := mul_le_mul_of_nonneg_right (le_max_left _ _) (norm_nonneg _)
  · simp only [Pi.sub_apply, Fin.mk_one, cons_val_one, cons_val_fin_one, Real.norm_eq_abs]
    generalize inUnits (p.normalization.map Prod.snd) (u j) 0 = c
    have e : 9.81 / p.length * Real.sin (a 0) + (c - p.friction * a 1) / (p.mass * p.length ^ 2) -
        (9.81 / p.length * Real.sin (b 0) + (c - p.friction * b 1) / (p.mass * p.length ^ 2)) =
        9.81 / p.length * (Real.sin (a 0) - Real.sin (b 0)) - p.friction / (p.mass * p.length ^ 2) * (a 1 - b 1) := by
      field_simp
      ring
    rw [e]
    have h2 : |Real.sin (a 0) - Real.sin (b 0)| ≤ ‖a - b‖ := (Real.abs_sin_sub_sin_le _ _).trans h0
    have hg : 0 ≤ 9.81 / p.length := by positivity
    have hfr : 0 ≤ p.friction / (p.mass * p.length ^ 2) := by positivity
    calc _ ≤ |9.81 / p.length * (Real.sin (a 0) - Real.sin (b 0))| + |p.friction / (p.mass * p.length ^ 2) * (a 1 - b 1)| := abs_sub _ _
      _ ≤ 9.81 / p.length * ‖a - b‖ + p.friction / (p.mass * p.length ^ 2) * ‖a - b‖ := by
        rw [abs_mul, abs_mul, abs_of_nonneg hg, abs_of_nonneg hfr]
        gcongr
      _ = (9.81 / p.length + p.friction / (p.mass * p.length ^ 2)) * ‖a - b‖ := by ring
      _ ≤ L * ‖a - b‖ := mul_le_mul_of_nonneg_right (le_max_right _ _) (norm_nonneg _)

/-- **C139 (cart-pole).** The general bound for the vector field of `CartPole`. -/
theorem C139_cart_pole (p : CartPole) (hn : ∀ T, p.normalization = some T → ∀ i, T.1 i ≠ 0) (hdt : 0 ≤ p.dt) (x : Fin 4 → ℝ) (u : ℕ → Fin 1 → ℝ) (N : ℕ)
    (y : ℝ → Fin 4 → ℝ) (hy0 : y 0 = inUnits (p.normalization.map Prod.fst) x)
    (hy : Spec.SampledSolution p.ode p.dt (fun j => inUnits (p.normalization.map Prod.snd) (u j)) N y) (r L B : ℝ) (hL0 : 0 ≤ L) (hB0 : 0 ≤ B)
    (hL : ∀ j < N, ∀ a ∈ Spec.tube y (N * p.dt) r, ∀ b ∈ Spec.tube y (N * p.dt) r,
      ‖p.ode a (inUnits (p.normalization.map Prod.snd) (u j)) - p.ode b (inUnits (p.normalization.map Prod.snd) (u j))‖ ≤ L * ‖a - b‖)
    (hB : ∀ j < N, ∀ t ∈ Icc (j * p.dt) ((j + 1) * p.dt), ‖p.ode (y t) (inUnits (p.normalization.map Prod.snd) (u j))‖ ≤ B)
    (hr : B * p.dt / 20 * (Real.exp (L * (N * p.dt)) - 1) ≤ r) :
    ‖inUnits (p.normalization.map Prod.fst) (Spec.discreteStates p.evaluate u x N) - y (N * p.dt)‖ ≤ B * p.dt / 20 * (Real.exp (L * (N * p.dt)) - 1) :=
  (C139_accuracy p.normalization hn p.ode p.dt hdt x u N y hy0 hy r L B hL0 hB0 hL hB ((bound_le_exp hB0 hL0 hdt N).trans hr)).trans (bound_le_exp hB0 hL0 hdt N)

theorem vdp_evaluate (p : VanDerPol) : p.evaluate = evaluateSystem (p.normalization.map fun T => (T, (1 : Fin 1 → ℝ))) (fun s _ => p.ode s) p.dt := by
  funext x u
  unfold VanDerPol.evaluate VanDerPol.denormalize VanDerPol.normalize evaluateSystem
  cases p.normalization <;> rfl

/-- **C139 (Van der Pol oscillator).** Along a solution with entries of at most `R`, the state after `N` calls differs from the solution by at most `B dt / 20 * (exp (L N dt) - 1)` with
constants that depend on `R` and the damping only, as long as this is at most one. -/
theorem C139_van_der_pol (p : VanDerPol) (hn : ∀ T, p.normalization = some T → ∀ i, T i ≠ 0) (hdt : 0 ≤ p.dt) (x : Fin 2 → ℝ) (u : ℕ → Fin 1 → ℝ) (N : ℕ)
    (y : ℝ → Fin 2 → ℝ) (hy0 : y 0 = inUnits p.normalization x)
    (hy : ∀ t ∈ Icc 0 (N * p.dt), HasDerivWithinAt y ![-y t 1, y t 0 + p.damping * (y t 0 ^ 2 - 1) * y t 1] (Icc 0 (N * p.dt)) t)
    (R : ℝ) (hR : ∀ t ∈ Icc 0 (N * p.dt), |y t 0| ≤ R ∧ |y t 1| ≤ R) :
    let L := 1 + |p.damping| * (3 * (R + 1) ^ 2 + 1)
    let B := R * (1 + |p.damping| * (R ^ 2 + 1))
    let E := B * p.dt / 20 * (Real.exp (L * (N * p.dt)) - 1)
    E ≤ 1 → ‖inUnits p.normalization (Spec.discreteStates p.evaluate u x N) - y (N * p.dt)‖ ≤ E := by
  intro L B E hE
  have hT : (0 : ℝ) ≤ N * p.dt := by positivity
  have hR0 : 0 ≤ R := (abs_nonneg _).trans (hR 0 ⟨le_rfl, hT⟩).1
  have hL0 : 0 ≤ L := by positivity
  have hB0 : 0 ≤ B := by positivity
  have e1 : (p.normalization.map fun T => (T, (1 : Fin 1 → ℝ))).map Prod.fst = p.normalization := by
    cases p.normalization <;> rfl
  have hsub : ∀ j < N, Icc ((j : ℝ) * p.dt) ((j + 1) * p.dt) ⊆ Icc 0 (N * p.dt) := fun j hj =>
    Icc_subset_Icc (by positivity) (mul_le_mul_of_nonneg_right (by exact_mod_cast hj) hdt)
  have key := C139_accuracy (p.normalization.map fun T => (T, (1 : Fin 1 → ℝ))) (by
      intro T hT i
      obtain ⟨T', h1, rfl⟩ := Option.map_eq_some_iff.mp hT
      exact hn T' h1 i) (fun s _ => p.ode s) p.dt hdt x u N y (by rw [e1]; exact hy0)
    (fun j hj t ht => (hy t (hsub j hj ht)).mono (hsub j hj)) 1 L B hL0 hB0 ?_ ?_ ((bound_le_exp hB0 hL0 hdt N).trans hE)
  · rw [e1, ← vdp_evaluate] at key
    exact key.trans (bound_le_exp hB0 hL0 hdt N)
  · have hbox : ∀ a ∈ Spec.tube y (N * p.dt) 1, |a 0| ≤ R + 1 ∧ |a 1| ≤ R + 1 := by
      rintro a ⟨t, ht, hat⟩
      have h0 := (norm_le_pi_norm (a - y t) 0).trans hat
      have h1 := (norm_le_pi_norm (a - y t) 1).trans hat
      simp only [Pi.sub_apply, Real.norm_eq_abs] at h0 h1
      obtain ⟨h2, h3⟩ := hR t ht
      constructor
      · calc |a 0| = |(a 0 - y t 0) + y t 0| := by rw [sub_add_cancel]
          _ ≤ |a 0 - y t 0| + |y t 0| := abs_add_le _ _
          _ ≤ R + 1 := by linarith
      · calc |a 1| = |(a 1 - y t 1) + y t 1| := by rw [sub_add_cancel]
          _ ≤ |a 1 - y t 1| + |y t 1| := abs_add_le _ _
          _ ≤ R + 1 := by linarith
    intro j _ a ha b hb
    obtain ⟨a0, a1⟩ := hbox a ha
    obtain ⟨b0, b1⟩ := hbox b hb
    have h0 := norm_le_pi_norm (a - b) 0
    have h1 := norm_le_pi_norm (a - b) 1
    simp only [Pi.sub_apply, Real.norm_eq_abs] at h0 h1
    refine (pi_norm_le_iff_of_nonneg (by positivity)).mpr fun i => ?_
    fin_cases i
    · simp only [VanDerPol.ode, Pi.sub_apply, Fin.zero_eta, cons_val_zero, Real.norm_eq_abs]
      rw [show -a 1 - -b 1 = -(a 1 - b 1) by ring, abs_neg]
      calc |a 1 - b 1| ≤ 1 * ‖a - b‖ := by rw [one_mul]; exact h1
        _ ≤ L * ‖a - b‖ := by
          refine mul_le_mul_of_nonneg_right ?_ (norm_nonneg _)
          have : 0 ≤ |p.damping| * (3 * (R + 1) ^ 2 + 1) := by positivity
          linarith
    · simp only [VanDerPol.ode, Pi.sub_apply, Fin.mk_one, cons_val_one, cons_val_fin_one, cons_val_zero, Real.norm_eq_abs]
      have e : a 0 + p.damping * (a 0 ^ 2 - 1) * a 1 - (b 0 + p.damping * (b 0 ^ 2 - 1) * b 1) =
          (a 0 - b 0) + p.damping * ((a 0 ^ 2 - 1) * (a 1 - b 1) + (a 0 + b 0) * b 1 * (a 0 - b 0)) := by ring
      rw [e]
      have q1 : |a 0 ^ 2 - 1| ≤ (R + 1) ^ 2 + 1 := by
        rw [abs_le]
        have := sq_le_sq' (by linarith [(abs_le.mp a0).1]) (abs_le.mp a0).2
        constructor <;> nlinarith [sq_nonneg (a 0), sq_nonneg (R + 1)]
      have q2 : |(a 0 + b 0) * b 1| ≤ 2 * (R + 1) ^ 2 := by
        rw [abs_mul]
        calc _ ≤ (2 * (R + 1)) * (R + 1) := mul_le_mul ((abs_add_le _ _).trans (by linarith)) b1 (abs_nonneg _) (by positivity)
          _ = _ := by ring
      calc _ ≤ |a 0 - b 0| + |p.damping * ((a 0 ^ 2 - 1) * (a 1 - b 1) + (a 0 + b 0) * b 1 * (a 0 - b 0))| := abs_add_le _ _
        _ ≤ ‖a - b‖ + |p.damping| * (((R + 1) ^ 2 + 1) * ‖a - b‖ + 2 * (R + 1) ^ 2 * ‖a - b‖) := by
          rw [abs_mul]
          gcongr
          refine (abs_add_le _ _).trans ?_
          rw [abs_mul, abs_mul ((a 0 + b 0) * b 1)]
          gcongr
        _ = L * ‖a - b‖ := by
          simp only [L]
          ring
  · intro j hj t ht
    obtain ⟨h0, h1⟩ := hR t (hsub j hj ht)
    refine (pi_norm_le_iff_of_nonneg hB0).mpr fun i => ?_
    have hR2 : R ≤ B := by
      have : 0 ≤ R * (|p.damping| * (R ^ 2 + 1)) := by positivity
      simp only [B]
      linarith
    fin_cases i
    · simp only [VanDerPol.ode, Fin.zero_eta, cons_val_zero, Real.norm_eq_abs, abs_neg]
      exact h1.trans hR2
    · simp only [VanDerPol.ode, Fin.mk_one, cons_val_one, cons_val_fin_one, Real.norm_eq_abs]
      have q1 : |y t 0 ^ 2 - 1| ≤ R ^ 2 + 1 := by
        rw [abs_le]
        have := sq_le_sq' (by linarith [(abs_le.mp h0).1]) (abs_le.mp h0).2
        constructor <;> nlinarith [sq_nonneg (y t 0), sq_nonneg R]
      calc _ ≤ |y t 0| + |p.damping * (y t 0 ^ 2 - 1) * y t 1| := abs_add_le _ _
        _ ≤ R + |p.damping| * (R ^ 2 + 1) * R := by
          rw [abs_mul, abs_mul]
          gcongr
        _ = B := by
          simp only [B]
          ring

/-! ## Non-vacuity -/

/-- Fifty calls with a step of 0.01 follow the circle of the oscillator without damping up to an error of less than 0.001. -/
example : ‖Spec.discreteStates (⟨0, 1 / 100, none⟩ : VanDerPol).evaluate (fun _ => 0) ![1, 0] 50 - ![Real.cos (1 / 2), Real.sin (1 / 2)]‖ < 1 / 1000 := by
  have hexp : Real.exp (1 / 2) < 2 := by
    have h1 : Real.exp (1 / 2) ^ 2 = Real.exp 1 := by
      rw [← Real.exp_nat_mul]
      norm_num
    nlinarith [Real.exp_one_lt_d9, Real.exp_pos (1 / 2)]
  have h := C139_van_der_pol ⟨0, 1 / 100, none⟩ (by simp) (by norm_num) ![1, 0] (fun _ => 0) 50 (fun t => ![Real.cos t, Real.sin t]) (by simp [inUnits]) (by
      intro t _
      refine HasDerivAt.hasDerivWithinAt (hasDerivAt_pi.mpr fun i => ?_)
      fin_cases i
      · simpa using Real.hasDerivAt_cos t
      · simpa using Real.hasDerivAt_sin t)
    1 (fun t _ => ⟨by simpa using Real.abs_cos_le_one t, by simpa using Real.abs_sin_le_one t⟩)
  have hT : ((50 : ℕ) : ℝ) * (1 / 100) = 1 / 2 := by norm_num
  simp only [hT] at h
  have hE : (1 : ℝ) * (1 + |0| * (1 ^ 2 + 1)) * (1 / 100) / 20 * (Real.exp ((1 + |0| * (3 * (1 + 1) ^ 2 + 1)) * (1 / 2)) - 1) < 1 / 1000 := by
    norm_num
    linarith
  exact (h (hE.le.trans (by norm_num))).trans_lt hE

/-- The pendulum from an angle of one: there is a solution, and the call of the system follows it. -/
example : ∃ dt > 0, ∃ (y : ℝ → Fin 2 → ℝ) (B : ℝ), y 0 = ![1, 0] ∧
    ‖Spec.discreteStates (⟨0.15, 0.5, 0.1, dt, none⟩ : InvertedPendulum).evaluate (fun _ => 0) ![1, 0] 1 - y dt‖ ≤
      B * dt / 20 * (Real.exp (max 1 (9.81 / 0.5 + 0.1 / (0.15 * 0.5 ^ 2)) * dt) - 1) := by
  have hc : ContDiff ℝ 1 fun s : Fin 2 → ℝ => (![s 1, 9.81 / 0.5 * Real.sin (s 0) + (0 - 0.1 * s 1) / (0.15 * 0.5 ^ 2)] : Fin 2 → ℝ) := by
    refine contDiff_pi.mpr fun i => ?_
    fin_cases i
    · simp only [Fin.zero_eta, cons_val_zero]
      fun_prop
    · simp only [Fin.mk_one, cons_val_one, cons_val_fin_one]
      fun_prop
  obtain ⟨r, hr, ε, hε, h⟩ := (hc.contDiffAt (x := ![1, 0])).exists_forall_mem_closedBall_exists_eq_forall_mem_Ioo_hasDerivAt 0
  obtain ⟨y, hy0, hy⟩ := h ![1, 0] (Metric.mem_closedBall_self hr.le)
  have hsub : Icc 0 (ε / 2) ⊆ Ioo (0 - ε) (0 + ε) := fun t ht => ⟨by linarith [ht.1], by linarith [ht.2]⟩
  have hcont : ContinuousOn (fun t => (![y t 1, 9.81 / 0.5 * Real.sin (y t 0) + (0 - 0.1 * y t 1) / (0.15 * 0.5 ^ 2)] : Fin 2 → ℝ)) (Icc 0 (ε / 2)) :=
    hc.continuous.comp_continuousOn fun t ht => (hy t (hsub ht)).continuousAt.continuousWithinAt
  obtain ⟨B, hB⟩ := isCompact_Icc.exists_bound_of_continuousOn hcont
  refine ⟨ε / 2, by positivity, y, max B 0, hy0, ?_⟩
  have := C139_pendulum ⟨0.15, 0.5, 0.1, ε / 2, none⟩ (by norm_num) (by norm_num) (by norm_num) (by simpa using hε) (by simp) ![1, 0] (fun _ => 0) 1 y hy0 (by
      intro j hj t ht
      have : j = 0 := by omega
      subst this
      have ht' : t ∈ Icc 0 (ε / 2) := by simpa using ht
      have := (hy t (hsub ht')).hasDerivWithinAt (s := Icc ((0 : ℕ) * (ε / 2)) (((0 : ℕ) + 1) * (ε / 2)))
      simpa [inUnits] using this) (max B 0) (le_max_right _ _) (by
      intro j hj t ht
      have : j = 0 := by omega
      subst this
      have ht' : t ∈ Icc 0 (ε / 2) := by simpa using ht
      have h1 := (hy t (hsub ht')).hasDerivWithinAt (s := Icc ((0 : ℕ) * (ε / 2)) (((0 : ℕ) + 1) * (ε / 2)))
      rw [h1.derivWithin (uniqueDiffOn_Icc (by simpa using hε) t ht)]
      exact (hB t ht').trans (le_max_left _ _))
  simpa [inUnits] using this

end SafeLearning
