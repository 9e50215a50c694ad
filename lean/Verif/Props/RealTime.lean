import Verif.Props.SimulationAccuracy
import Verif.Props.Decrease
import Verif.Lemmas.Flow
import Verif.Lemmas.ExampleWorld
import Mathlib.Analysis.Complex.ExponentialBounds
set_option autoImplicit false

/-!
# C141: safe sets of the simulated systems hold for the real systems in continuous time
-/

namespace SafeLearning

open Matrix Spec Set

variable {n k : ℕ}

/-! ## Specification -/

/-- The real closed loop: `y` moves according to the differential equation, in physical units, while the action is computed every `dt` seconds from the measured state by the
policy and held. The measured states `z` and the actions of the policy are in normalised units. -/
structure _root_.Spec.SampledLoop (ode : (Fin n → ℝ) → (Fin k → ℝ) → Fin n → ℝ) (norm : Normalization n k) (policy : (Fin n → ℝ) → Fin k → ℝ) (dt : ℝ)
    (z : ℕ → Fin n → ℝ) (y : ℝ → Fin n → ℝ) : Prop where
  measured : ∀ j : ℕ, y (j * dt) = inUnits (norm.map Prod.fst) (z j)
  motion : ∀ j : ℕ, ∀ t ∈ Icc (j * dt) ((j + 1) * dt),
    HasDerivWithinAt y (ode (y t) (inUnits (norm.map Prod.snd) (policy (z j)))) (Icc (j * dt) ((j + 1) * dt)) t

/-- The vector field is Lipschitz in the state with constant `L` and in the action with constant `M`, for the largest absolute value of the entries. -/
structure _root_.Spec.LipschitzField (ode : (Fin n → ℝ) → (Fin k → ℝ) → Fin n → ℝ) (L M : ℝ) : Prop where
  pos : 0 < L
  nonneg : 0 ≤ M
  state : ∀ a b u, ‖ode a u - ode b u‖ ≤ L * ‖a - b‖
  action : ∀ a u v, ‖ode a u - ode a v‖ ≤ M * ‖u - v‖

/-- The error of one call of the simulated system at the state `x` with the action `u`, in physical units. -/
noncomputable def _root_.Spec.simulationError (ode : (Fin n → ℝ) → (Fin k → ℝ) → Fin n → ℝ) (L dt : ℝ) (x : Fin n → ℝ) (u : Fin k → ℝ) : ℝ :=
  ‖ode x u‖ * Real.exp (L * dt) * dt / 20 * (Real.exp (L * dt) - 1)

/-! ## One step -/

/-- **C141 (one call).** A call of the simulated system differs from the real system after `dt` seconds by at most `simulationError`. -/
theorem C141_one_call (norm : Normalization n k) (hn : ∀ T, norm = some T → ∀ i, T.1 i ≠ 0) {ode : (Fin n → ℝ) → (Fin k → ℝ) → Fin n → ℝ} {L M dt : ℝ}
    (hf : LipschitzField ode L M) (hdt : 0 ≤ dt) (x : Fin n → ℝ) (u : Fin k → ℝ) (y : ℝ → Fin n → ℝ) (hy0 : y 0 = inUnits (norm.map Prod.fst) x)
    (hy : ∀ t ∈ Icc 0 dt, HasDerivWithinAt y (ode (y t) (inUnits (norm.map Prod.snd) u)) (Icc 0 dt) t) :
    ‖inUnits (norm.map Prod.fst) (evaluateSystem norm ode dt x u) - y dt‖ ≤
      simulationError ode L dt (inUnits (norm.map Prod.fst) x) (inUnits (norm.map Prod.snd) u) := by
  obtain ⟨U, hU⟩ : ∃ U, U = inUnits (norm.map Prod.snd) u := ⟨_, rfl⟩
  rw [← hU] at hy
  obtain ⟨B, hB⟩ : ∃ B, B = ‖ode (y 0) U‖ * Real.exp (L * dt) := ⟨_, rfl⟩
  have hB0 : 0 ≤ B := by rw [hB]; positivity
  have hL0 := hf.pos
  have h := C139_accuracy norm hn ode dt hdt x (fun _ => u) 1 y hy0 (by
      intro j hj t ht
      obtain rfl : j = 0 := by omega
      simp only [Nat.cast_zero, zero_mul, zero_add, one_mul] at ht ⊢
      rw [← hU]
      exact hy t ht) (B * dt / 20 * (Real.exp (L * dt) - 1)) L B hL0.le hB0 (fun j _ a _ b _ => hf.state a b _) (by
      intro j hj t ht
      obtain rfl : j = 0 := by omega
      simp only [Nat.cast_zero, zero_mul, zero_add, one_mul] at ht ⊢
      rw [← hU, hB]
      refine (speed_le hL0 (fun a b => hf.state a b U) hy ht).2.trans ?_
      gcongr
      exact ht.2) (by
      have := bound_le_exp hB0 hL0.le hdt 1
      simpa using this)
  have h2 := bound_le_exp hB0 hL0.le hdt 1
  simp only [Nat.cast_one, one_mul] at h h2
  refine (h.trans h2).trans (le_of_eq ?_)
  rw [simulationError, ← hU, ← hy0, hB]

theorem inUnits_injective {s : Option (Fin n → ℝ)} (hs : ∀ T, s = some T → ∀ i, T i ≠ 0) : Function.Injective (inUnits s) := by
  intro x x' h
  cases s with
  | none => exact h
  | some T =>
    funext i
    exact mul_left_cancel₀ (hs T rfl i) (congrFun h i)

theorem inUnits_eq (s : Option (Fin n → ℝ)) (x : Fin n → ℝ) (i : Fin n) : inUnits s x i = inUnits s 1 i * x i := by
  cases s <;> simp [inUnits]

theorem inUnits_surjective {s : Option (Fin n → ℝ)} (hs : ∀ T, s = some T → ∀ i, T i ≠ 0) (y : Fin n → ℝ) : ∃ x, inUnits s x = y := by
  cases s with
  | none => exact ⟨y, rfl⟩
  | some T => exact ⟨fun i => y i / T i, funext fun i => by simp [inUnits, mul_div_cancel₀ _ (hs T rfl i)]⟩

/-- The part of a sampled loop between two measurements. -/
theorem SampledLoop_shift {ode : (Fin n → ℝ) → (Fin k → ℝ) → Fin n → ℝ} {norm : Normalization n k} {policy : (Fin n → ℝ) → Fin k → ℝ} {dt : ℝ}
    {z : ℕ → Fin n → ℝ} {y : ℝ → Fin n → ℝ} (h : SampledLoop ode norm policy dt z y) (j : ℕ) :
    ∀ t ∈ Icc 0 dt, HasDerivWithinAt (fun t => y (j * dt + t)) (ode (y (j * dt + t)) (inUnits (norm.map Prod.snd) (policy (z j)))) (Icc 0 dt) t := by
  intro t ht
  have h1 := h.motion j (j * dt + t) ⟨by linarith [ht.1], by linarith [ht.2]⟩
  have h2 : HasDerivWithinAt (fun s : ℝ => j * dt + s) 1 (Icc 0 dt) t := ((hasDerivAt_id t).const_add (j * dt)).hasDerivWithinAt
  have := h1.scomp t h2 (fun s hs => (⟨by linarith [hs.1], by linarith [hs.2]⟩ : (j * dt + s) ∈ Icc (j * dt) ((j + 1) * dt)))
  rw [one_smul] at this
  exact this

/-- **C141 (existence).** The real closed loop exists for every initial state, and it is unique. -/
theorem C141_exists (norm : Normalization n k) (hn : ∀ T, norm = some T → ∀ i, T.1 i ≠ 0) {ode : (Fin n → ℝ) → (Fin k → ℝ) → Fin n → ℝ} {L M dt : ℝ}
    (hf : LipschitzField ode L M) (hdt : 0 < dt) (policy : (Fin n → ℝ) → Fin k → ℝ) (x : Fin n → ℝ) :
    (∃ z y, z 0 = x ∧ SampledLoop ode norm policy dt z y) ∧
    ∀ z y z' y', SampledLoop ode norm policy dt z y → SampledLoop ode norm policy dt z' y' → z 0 = z' 0 → z = z' ∧ ∀ t, 0 ≤ t → y t = y' t := by
  have hs : ∀ T, norm.map Prod.fst = some T → ∀ i, T i ≠ 0 := by
    intro T hT i
    obtain ⟨T', h1, rfl⟩ := Option.map_eq_some_iff.mp hT
    exact hn T' h1 i
  constructor
  · choose Y hY0 hY using fun x => exists_solution hf.pos.le (fun a b => hf.state a b (inUnits (norm.map Prod.snd) (policy x))) hdt.le (inUnits (norm.map Prod.fst) x)
    choose F hF using fun x => inUnits_surjective hs (Y x dt)
    obtain ⟨z, hz⟩ : ∃ z : ℕ → Fin n → ℝ, z = fun j => F^[j] x := ⟨_, rfl⟩
    have hz0 : z 0 = x := by rw [hz]; rfl
    have hz1 : ∀ j, z (j + 1) = F (z j) := fun j => by rw [hz]; exact Function.iterate_succ_apply' F j x
    obtain ⟨y, hy⟩ : ∃ y : ℝ → Fin n → ℝ, y = fun t => Y (z ⌊t / dt⌋₊) (t - ⌊t / dt⌋₊ * dt) := ⟨_, rfl⟩
    have hyj : ∀ j : ℕ, ∀ t ∈ Icc (j * dt) ((j + 1) * dt), y t = Y (z j) (t - j * dt) := by
      intro j t ht
      rcases ht.2.lt_or_eq with h1 | h1
      · have : ⌊t / dt⌋₊ = j := by
          rw [Nat.floor_eq_iff (by
            have : 0 ≤ t := le_trans (by positivity) ht.1
            positivity)]
          exact ⟨(le_div_iff₀ hdt).mpr ht.1, (div_lt_iff₀ hdt).mpr h1⟩
        simp only [hy, this]
      · have : ⌊t / dt⌋₊ = j + 1 := by
          rw [h1, mul_div_assoc, div_self hdt.ne', mul_one]
          exact_mod_cast Nat.floor_natCast (R := ℝ) (j + 1)
        simp only [hy, this]
        rw [h1, hz1]
        push_cast
        rw [sub_self, hY0, hF]
        congr 1
        ring
    refine ⟨z, y, hz0, ⟨fun j => ?_, fun j t ht => ?_⟩⟩
    · rw [hyj j (j * dt) ⟨le_rfl, by nlinarith⟩, sub_self, hY0]
    · have h1 := hY (z j) (t - j * dt) ⟨by linarith [ht.1], by linarith [ht.2]⟩
      have h2 : HasDerivWithinAt (fun s : ℝ => s - j * dt) 1 (Icc (j * dt) ((j + 1) * dt)) t := ((hasDerivAt_id t).sub_const (j * dt)).hasDerivWithinAt
      have h3 := h1.scomp t h2 (fun s hs => (⟨by linarith [hs.1], by linarith [hs.2]⟩ : s - j * dt ∈ Icc 0 dt))
      rw [one_smul] at h3
      rw [hyj j t ht]
      exact h3.congr (fun s hs => hyj j s hs) (hyj j t ht)
  · intro z y z' y' h h' h0
    have key : ∀ j, z j = z' j → ∀ t ∈ Icc 0 dt, y (j * dt + t) = y' (j * dt + t) := by
      intro j hj t ht
      have h1 := SampledLoop_shift h j
      have h2 := SampledLoop_shift h' j
      rw [← hj] at h2
      have h3 := solutions_close (f := fun a => ode a (inUnits (norm.map Prod.snd) (policy (z j)))) (g := fun a => ode a (inUnits (norm.map Prod.snd) (policy (z j))))
        (ε := 0) hf.pos (fun a b => hf.state a b _) (fun a => by simp) h1 h2 ht
      rw [add_zero, h.measured, h'.measured, hj, sub_self, norm_zero, zero_mul, zero_div, zero_mul, add_zero] at h3
      exact sub_eq_zero.mp (norm_le_zero_iff.mp h3)
    have hz : ∀ j, z j = z' j := by
      intro j
      induction j with
      | zero => exact h0
      | succ j ih =>
        have h1 := key j ih dt ⟨hdt.le, le_rfl⟩
        have e : (j : ℝ) * dt + dt = (j + 1 : ℕ) * dt := by push_cast; ring
        rw [e, h.measured, h'.measured] at h1
        exact inUnits_injective hs h1
    refine ⟨funext hz, fun t ht => ?_⟩
    have h1 : (⌊t / dt⌋₊ : ℝ) * dt ≤ t := (le_div_iff₀ hdt).mp (Nat.floor_le (by positivity))
    have h2 : t < (⌊t / dt⌋₊ + 1) * dt := (div_lt_iff₀ hdt).mp (Nat.lt_floor_add_one _)
    have := key ⌊t / dt⌋₊ (hz _) (t - ⌊t / dt⌋₊ * dt) ⟨by linarith, by linarith⟩
    simpa using this

/-- **C141 (between the measurements).** Between two measurements the state moves by at most `speed / L * (exp (L dt) - 1)` in physical units, where `speed` is the speed at
the first one. -/
theorem C141_between (norm : Normalization n k) {ode : (Fin n → ℝ) → (Fin k → ℝ) → Fin n → ℝ} {L M dt : ℝ}
    (hf : LipschitzField ode L M) (policy : (Fin n → ℝ) → Fin k → ℝ) (z : ℕ → Fin n → ℝ) (y : ℝ → Fin n → ℝ)
    (h : SampledLoop ode norm policy dt z y) (j : ℕ) (t : ℝ) (ht : t ∈ Icc (j * dt) ((j + 1) * dt)) :
    ‖y t - inUnits (norm.map Prod.fst) (z j)‖ ≤
      ‖ode (inUnits (norm.map Prod.fst) (z j)) (inUnits (norm.map Prod.snd) (policy (z j)))‖ / L * (Real.exp (L * dt) - 1) := by
  have hL0 := hf.pos
  have hm : t - j * dt ∈ Icc 0 dt := ⟨by linarith [ht.1], by linarith [ht.2]⟩
  have h1 := (speed_le hL0 (fun a b => hf.state a b _) (SampledLoop_shift h j) hm).1
  simp only [add_zero, h.measured, add_sub_cancel] at h1
  refine h1.trans (mul_le_mul_of_nonneg_left ?_ (by positivity))
  have : Real.exp (L * (t - j * dt)) ≤ Real.exp (L * dt) := Real.exp_le_exp.mpr (mul_le_mul_of_nonneg_left hm.2 hL0.le)
  linarith

/-! ## The safe set -/

/-- The real system from one measurement to the next, as a map of the normalised states: it is Lipschitz continuous and differs from one call of the simulation by at most `simulationError`. -/
theorem exists_sampled_map (norm : Normalization n k) (hn : ∀ T, norm = some T → ∀ i, T.1 i ≠ 0) (ode : (Fin n → ℝ) → (Fin k → ℝ) → Fin n → ℝ) (L M dt : ℝ)
    (hf : LipschitzField ode L M) (hdt : 0 < dt) (policy : (Fin n → ℝ) → Fin k → ℝ) (P : ℝ) (hP0 : 0 ≤ P)
    (hP : ∀ x x', ‖inUnits (norm.map Prod.snd) (policy x) - inUnits (norm.map Prod.snd) (policy x')‖ ≤
      P * ‖inUnits (norm.map Prod.fst) x - inUnits (norm.map Prod.fst) x'‖)
    (a b : ℝ) (hb0 : 0 < b) (hunits : ∀ i, b ≤ |inUnits (norm.map Prod.fst) 1 i| ∧ |inUnits (norm.map Prod.fst) 1 i| ≤ a) (Lf : ℝ)
    (hLf : n * (a / b) * (Real.exp (L * dt) + M * P / L * (Real.exp (L * dt) - 1)) ≤ Lf) :
    0 ≤ Lf ∧ ∃ F : (Fin n → ℝ) → Fin n → ℝ, (∀ x x', ∑ i, |F x i - F x' i| ≤ Lf * ∑ i, |x i - x' i|) ∧
      (∀ x i, |inUnits (norm.map Prod.fst) 1 i| * |F x i - evaluateSystem norm ode dt x (policy x) i| ≤
        simulationError ode L dt (inUnits (norm.map Prod.fst) x) (inUnits (norm.map Prod.snd) (policy x))) ∧
      ∀ z y, SampledLoop ode norm policy dt z y → ∀ j, z j = F^[j] (z 0) := by
  have hs : ∀ T, norm.map Prod.fst = some T → ∀ i, T i ≠ 0 := by
    intro T hT i
    obtain ⟨T', h1, rfl⟩ := Option.map_eq_some_iff.mp hT
    exact hn T' h1 i
  have hL0 := hf.pos
  -- the real system after `dt` seconds
  choose Y hY0 hY using fun x => exists_solution hL0.le (fun a b => hf.state a b (inUnits (norm.map Prod.snd) (policy x))) hdt.le (inUnits (norm.map Prod.fst) x)
  choose F hF using fun x => inUnits_surjective hs (Y x dt)
  have hunit : ∀ x x' : Fin n → ℝ, ∀ i, |x i - x' i| * |inUnits (norm.map Prod.fst) 1 i| = |inUnits (norm.map Prod.fst) x i - inUnits (norm.map Prod.fst) x' i| := by
    intro x x' i
    rw [inUnits_eq _ x, inUnits_eq _ x', ← mul_sub, abs_mul, mul_comm]
  have hexp : 1 ≤ Real.exp (L * dt) := Real.one_le_exp (by positivity)
  obtain ⟨C, hC⟩ : ∃ C, C = Real.exp (L * dt) + M * P / L * (Real.exp (L * dt) - 1) := ⟨_, rfl⟩
  have hM := hf.nonneg
  have hC0 : 0 ≤ C := by
    have : 0 ≤ M * P / L * (Real.exp (L * dt) - 1) := mul_nonneg (by positivity) (by linarith)
    rw [hC]
    linarith [Real.exp_pos (L * dt)]
  have hlip : ∀ x x', ‖Y x dt - Y x' dt‖ ≤ C * ‖inUnits (norm.map Prod.fst) x - inUnits (norm.map Prod.fst) x'‖ := by
    intro x x'
    have h1 := solutions_close (f := fun a => ode a (inUnits (norm.map Prod.snd) (policy x))) (g := fun a => ode a (inUnits (norm.map Prod.snd) (policy x')))
      (ε := M * (P * ‖inUnits (norm.map Prod.fst) x - inUnits (norm.map Prod.fst) x'‖)) hL0 (fun a b => hf.state a b _) (fun a => by
        refine (hf.action a _ _).trans (mul_le_mul_of_nonneg_left ?_ hM)
        rw [norm_sub_rev]
        exact hP x x') (hY x) (hY x') ⟨hdt.le, le_rfl⟩
    rw [hY0, hY0] at h1
    refine h1.trans (le_of_eq ?_)
    rw [hC]
    ring
  have hLf' : ∀ x x', ∑ i, |F x i - F x' i| ≤ Lf * ∑ i, |x i - x' i| := by
    intro x x'
    have h1 : ∀ i, |F x i - F x' i| ≤ a / b * C * ∑ i, |x i - x' i| := by
      intro i
      have e1 := hunit (F x) (F x') i
      rw [hF, hF] at e1
      have h3 : |Y x dt i - Y x' dt i| ≤ C * ‖inUnits (norm.map Prod.fst) x - inUnits (norm.map Prod.fst) x'‖ :=
        (norm_le_pi_norm (Y x dt - Y x' dt) i).trans (hlip x x')
      have ha0 : 0 ≤ a := le_trans hb0.le ((hunits i).1.trans (hunits i).2)
      have h4 : ‖inUnits (norm.map Prod.fst) x - inUnits (norm.map Prod.fst) x'‖ ≤ a * ∑ i, |x i - x' i| := by
        refine (pi_norm_le_iff_of_nonneg (by positivity)).mpr fun l => ?_
        rw [Pi.sub_apply, Real.norm_eq_abs, ← hunit, mul_comm]
        exact mul_le_mul (hunits l).2 (Finset.single_le_sum (f := fun i => |x i - x' i|) (fun i _ => abs_nonneg _) (Finset.mem_univ l)) (abs_nonneg _) ha0
      have h5 : |F x i - F x' i| * b ≤ C * (a * ∑ i, |x i - x' i|) := by
        refine (mul_le_mul_of_nonneg_left (hunits i).1 (abs_nonneg _)).trans ?_
        rw [e1]
        exact h3.trans (mul_le_mul_of_nonneg_left h4 hC0)
      rw [← le_div_iff₀ hb0] at h5
      refine h5.trans (le_of_eq ?_)
      ring
    refine (Finset.sum_le_sum fun i _ => h1 i).trans ?_
    rw [Finset.sum_const, Finset.card_univ, Fintype.card_fin, nsmul_eq_mul, ← mul_assoc, ← mul_assoc]
    refine mul_le_mul_of_nonneg_right ?_ (Finset.sum_nonneg fun i _ => abs_nonneg _)
    rw [← hC] at hLf
    exact hLf
  have hLf0 : 0 ≤ Lf := by
    refine le_trans ?_ hLf
    rw [← hC]
    rcases Nat.eq_zero_or_pos n with h0 | h0
    · simp [h0]
    · have : 0 ≤ a := le_trans hb0.le ((hunits ⟨0, h0⟩).1.trans (hunits ⟨0, h0⟩).2)
      positivity
  refine ⟨hLf0, F, hLf', fun x i => ?_, fun z y hzy => ?_⟩
  · have h1 := (norm_le_pi_norm _ i).trans (C141_one_call norm hn hf hdt.le x (policy x) (Y x) (hY0 _) (hY _))
    rw [← hF, Pi.sub_apply, Real.norm_eq_abs, ← hunit, mul_comm, abs_sub_comm] at h1
    exact h1
  · intro j
    induction j with
    | zero => rfl
    | succ j ih =>
      rw [Function.iterate_succ_apply', ← ih]
      have h1 := solutions_close (f := fun a => ode a (inUnits (norm.map Prod.snd) (policy (z j)))) (g := fun a => ode a (inUnits (norm.map Prod.snd) (policy (z j))))
        (ε := 0) hL0 (fun a b => hf.state a b _) (fun a => by simp) (SampledLoop_shift hzy j) (hY (z j)) ⟨hdt.le, le_rfl⟩
      rw [add_zero, hzy.measured, hY0, sub_self, norm_zero, zero_mul, zero_div, zero_mul, add_zero] at h1
      have e : (j : ℝ) * dt + dt = (j + 1 : ℕ) * dt := by push_cast; ring
      have h3 := sub_eq_zero.mp (norm_le_zero_iff.mp h1)
      rw [e, hzy.measured, ← hF] at h3
      exact inUnits_injective hs h3

/-- **C141.** The dynamics of the `Lyapunov` object are a simulated system together with error bounds of at least `simulationError` at the grid states, and the constant for the dynamics
is large enough. Then what the safe set promises holds for the real system in continuous time: along every solution of the differential equation whose action is updated by the policy every `dt` seconds
and that starts in a level set of certified grid states, the value decreases from each measurement to the next until the state is close to an initially safe one. -/
theorem C141_region {Prog Θ : Type} (norm : Normalization n k) (hn : ∀ T, norm = some T → ∀ i, T.1 i ≠ 0) (ode : (Fin n → ℝ) → (Fin k → ℝ) → Fin n → ℝ) (L M dt : ℝ)
    (hf : LipschitzField ode L M) (hdt : 0 < dt) (policy : (Fin n → ℝ) → Fin k → ℝ) (P : ℝ) (hP0 : 0 ≤ P)
    (hP : ∀ x x', ‖inUnits (norm.map Prod.snd) (policy x) - inUnits (norm.map Prod.snd) (policy x')‖ ≤
      P * ‖inUnits (norm.map Prod.fst) x - inUnits (norm.map Prod.fst) x'‖)
    (a b : ℝ) (hb0 : 0 < b) (hunits : ∀ i, b ≤ |inUnits (norm.map Prod.fst) 1 i| ∧ |inUnits (norm.map Prod.fst) 1 i| ≤ a)
    (sys : System ℝ Prog Θ n) (g : GridWorld ℝ n)
    (argsort : (Fin g.nindex → ℝ) → List (Fin g.nindex)) (tauDiv : ℝ → ℕ → ℝ) (hW : (sys.world g argsort tauDiv).SortContract) (prog : Prog) (θ : Θ)
    (error : (Fin n → ℝ) → Fin n → ℝ) (hloop : ∀ j : Fin g.nindex, sys.closedLoop prog θ (gridState g j) =
      .uncertain (evaluateSystem norm ode dt (gridState g j) (policy (gridState g j))) (error (gridState g j)))
    (herr : ∀ (j : Fin g.nindex) (i : Fin n), simulationError ode L dt (inUnits (norm.map Prod.fst) (gridState g j))
      (inUnits (norm.map Prod.snd) (policy (gridState g j))) ≤ |inUnits (norm.map Prod.fst) 1 i| * error (gridState g j) i)
    (Lv Lf tau : ℝ) (h2 : ∀ i, 2 ≤ g.num i) (hlt : ∀ i, g.lo i < g.hi i) (hlv : sys.lv θ = .const Lv) (hlf : sys.lf θ = .const Lf)
    (hLv : 0 ≤ Lv) (hV : ∀ y z, |sys.V θ y - sys.V θ z| ≤ Lv * ∑ i, |y i - z i|)
    (hLf : n * (a / b) * (Real.exp (L * dt) + M * P / L * (Real.exp (L * dt) - 1)) ≤ Lf)
    (htau : ∑ i, (g.hi i - g.lo i) / ((g.num i : ℝ) - 1) / 2 ≤ tau)
    (initial : Option (Fin g.nindex → Bool)) (adaptive : Bool) (θ₀ : Θ)
    (history : List (Lyap.Op ℝ Prog Θ)) (hh : ∀ op ∈ history, op.IsMethod)
    (batch : ℕ) (hb : 0 < batch) (args : Lyap.UpdateArgs ℝ) (hcs : args.canShrink = true)
    (hna : ¬(adaptive = true ∧ 1 < args.maxRefinement)) :
    let W := sys.world g argsort tauDiv
    let s := Lyap.run W (Lyap.new W prog tau initial adaptive θ₀) history
    let r := Lyap.updateSafeSet W batch args s θ
    (∀ j, s.values j = sys.V θ (gridState g j)) →
    ∀ c, (∀ j, s.values j < c → r.1.safeSet j = true) →
    (∀ x, sys.V θ x < c - Lv * tau → ∀ i, g.lo i ≤ x i ∧ x i ≤ g.hi i) →
    ∃ ε, 0 < ε ∧ ∀ z y, SampledLoop ode norm policy dt z y → sys.V θ (z 0) < c - Lv * tau →
      ∃ T, (∀ j < T, sys.V θ (z (j + 1)) ≤ sys.V θ (z j) - ε) ∧ (∀ j ≤ T, sys.V θ (z j) < c - Lv * tau) ∧
        ∃ j, InInitial initial j ∧ ∑ i, |z T i - gridState g j i| ≤ tau := by
  intro W s r hval c hc hbox
  obtain ⟨hLf0, F, hLf', herrF, hz⟩ := exists_sampled_map norm hn ode L M dt hf hdt policy P hP0 hP a b hb0 hunits Lf hLf
  have hA : Assumptions sys g prog θ F Lv Lf tau := by
    refine ⟨h2, hlt, hlv, hlf, hLv, hLf0, hV, hLf', fun j => ?_, htau⟩
    rw [hloop]
    intro i
    exact le_of_mul_le_mul_left ((herrF _ i).trans (herr j i)) (lt_of_lt_of_le hb0 (hunits i).1)
  obtain ⟨ε, hε, hmain⟩ := C27_reaches_initial_set sys g argsort tauDiv hW prog θ F Lv Lf tau hA initial adaptive θ₀ history hh batch hb args hcs hna hval c hc hbox
  refine ⟨ε, hε, fun z y hzy hz0 => ?_⟩
  have hz := hz z y hzy
  obtain ⟨T, h3, h4, j, h5, h6⟩ := hmain (z 0) hz0
  simp only [← hz] at h3 h4 h6
  exact ⟨T, h3, h4, j, h5, h6⟩

/-! ## The pendulum -/

theorem pendulum_field (p : InvertedPendulum) (hm : 0 < p.mass) (hl : 0 < p.length) (hf : 0 ≤ p.friction) :
    LipschitzField (fun (s : Fin 2 → ℝ) (a : Fin 1 → ℝ) => ![s 1, 9.81 / p.length * Real.sin (s 0) + (a 0 - p.friction * s 1) / (p.mass * p.length ^ 2)])
      (max 1 (9.81 / p.length + p.friction / (p.mass * p.length ^ 2))) (1 / (p.mass * p.length ^ 2)) := by
  refine ⟨lt_of_lt_of_le one_pos (le_max_left _ _), by positivity, fun a b u => ?_, fun a u v => ?_⟩
  · obtain ⟨L, hL⟩ : ∃ L, L = max 1 (9.81 / p.length + p.friction / (p.mass * p.length ^ 2)) := ⟨_, rfl⟩
    have hL1 : 1 ≤ L := by rw [hL]; exact le_max_left _ _
    have hL2 : 9.81 / p.length + p.friction / (p.mass * p.length ^ 2) ≤ L := by rw [hL]; exact le_max_right _ _
    rw [← hL]
    have h0 := norm_le_pi_norm (a - b) 0
    have h1 := norm_le_pi_norm (a - b) 1
    simp only [Pi.sub_apply, Real.norm_eq_abs] at h0 h1
    refine (pi_norm_le_iff_of_nonneg (by positivity)).mpr fun i => ?_
    fin_cases i
    · simp only [Pi.sub_apply, Fin.zero_eta, cons_val_zero, Real.norm_eq_abs]
      calc |a 1 - b 1| ≤ 1 * ‖a - b‖ := by rw [one_mul]; exact h1
        _ ≤ L * ‖a - b‖ := mul_le_mul_of_nonneg_right hL1 (norm_nonneg _)
    · simp only [Pi.sub_apply, Fin.mk_one, cons_val_one, cons_val_fin_one, Real.norm_eq_abs]
      have e : 9.81 / p.length * Real.sin (a 0) + (u 0 - p.friction * a 1) / (p.mass * p.length ^ 2) -
          (9.81 / p.length * Real.sin (b 0) + (u 0 - p.friction * b 1) / (p.mass * p.length ^ 2)) =
          9.81 / p.length * (Real.sin (a 0) - Real.sin (b 0)) - p.friction / (p.mass * p.length ^ 2) * (a 1 - b 1) := by
        field_simp
        ring
      rw [e]
      have h2 : |Real.sin (a 0) - Real.sin (b 0)| ≤ ‖a - b‖ := (Real.abs_sin_sub_sin_le _ _).trans h0
      have hg : 0 ≤ 9.81 / p.length := by positivity
      have hfr : 0 ≤ p.friction / (p.mass * p.length ^ 2) := by positivity
      calc _ ≤ |9.81 / p.length * (Real.sin (a 0) - Real.sin (b 0))| + |p.friction / (p.mass * p.length ^ 2) * (a 1 - b 1)| := abs_sub _ _
        _ ≤ 9.81 / p.length * ‖a - b‖ + p.friction / (p.mass * p.length ^ 2) * ‖a - b‖ := by
          rw [abs_mul, abs_mul, abs_of_nonneg hg, abs_of_nonneg hfr]
          gcongr
        _ = (9.81 / p.length + p.friction / (p.mass * p.length ^ 2)) * ‖a - b‖ := by ring
        _ ≤ L * ‖a - b‖ := mul_le_mul_of_nonneg_right hL2 (norm_nonneg _)
  · have h0 := norm_le_pi_norm (u - v) 0
    simp only [Pi.sub_apply, Real.norm_eq_abs] at h0
    refine (pi_norm_le_iff_of_nonneg (by positivity)).mpr fun i => ?_
    fin_cases i
    · simp
      positivity
    · simp only [Pi.sub_apply, Fin.mk_one, cons_val_one, cons_val_fin_one, Real.norm_eq_abs]
      have e : 9.81 / p.length * Real.sin (a 0) + (u 0 - p.friction * a 1) / (p.mass * p.length ^ 2) -
          (9.81 / p.length * Real.sin (a 0) + (v 0 - p.friction * a 1) / (p.mass * p.length ^ 2)) = 1 / (p.mass * p.length ^ 2) * (u 0 - v 0) := by
        field_simp
        ring
      rw [e, abs_mul, abs_of_nonneg (by positivity)]
      gcongr

/-- The equation of motion of a pendulum: `mass length² angle'' = 9.81 mass length sin angle + action - friction angle'`. -/
noncomputable def _root_.Spec.pendulumMotion (mass length friction : ℝ) (s : Fin 2 → ℝ) (a : Fin 1 → ℝ) : Fin 2 → ℝ :=
  ![s 1, 9.81 / length * Real.sin (s 0) + (a 0 - friction * s 1) / (mass * length ^ 2)]

theorem pendulum_motion (p : InvertedPendulum) (hf : 0 ≤ p.friction) : p.ode = pendulumMotion p.mass p.length p.friction := by
  funext s a
  unfold InvertedPendulum.ode InvertedPendulum.gravity InvertedPendulum.inertia pendulumMotion
  by_cases h : 0 < p.friction
  · simp only [h, if_true]
    congr 2
    field_simp
    ring
  · have : p.friction = 0 := le_antisymm (not_lt.mp h) hf
    simp [this]

/-- **C141 (pendulum).** The safe set of a `Lyapunov` object whose dynamics are an `InvertedPendulum` with error bounds of at least `simulationError` holds for the real pendulum in
continuous time, for every policy. -/
theorem C141_pendulum {Prog Θ : Type} (p : InvertedPendulum) (hm : 0 < p.mass) (hl : 0 < p.length) (hfr : 0 ≤ p.friction) (hdt : 0 < p.dt)
    (hn : ∀ T, p.normalization = some T → ∀ i, T.1 i ≠ 0) (L : ℝ) (hL : L = max 1 (9.81 / p.length + p.friction / (p.mass * p.length ^ 2)))
    (policy : (Fin 2 → ℝ) → Fin 1 → ℝ) (P : ℝ) (hP0 : 0 ≤ P)
    (hP : ∀ x x', ‖inUnits (p.normalization.map Prod.snd) (policy x) - inUnits (p.normalization.map Prod.snd) (policy x')‖ ≤
      P * ‖inUnits (p.normalization.map Prod.fst) x - inUnits (p.normalization.map Prod.fst) x'‖)
    (a b : ℝ) (hb0 : 0 < b) (hunits : ∀ i, b ≤ |inUnits (p.normalization.map Prod.fst) 1 i| ∧ |inUnits (p.normalization.map Prod.fst) 1 i| ≤ a)
    (sys : System ℝ Prog Θ 2) (g : GridWorld ℝ 2)
    (argsort : (Fin g.nindex → ℝ) → List (Fin g.nindex)) (tauDiv : ℝ → ℕ → ℝ) (hW : (sys.world g argsort tauDiv).SortContract) (prog : Prog) (θ : Θ)
    (error : (Fin 2 → ℝ) → Fin 2 → ℝ) (hloop : ∀ j : Fin g.nindex, sys.closedLoop prog θ (gridState g j) =
      .uncertain (p.evaluate (gridState g j) (policy (gridState g j))) (error (gridState g j)))
    (herr : ∀ (j : Fin g.nindex) (i : Fin 2), simulationError (pendulumMotion p.mass p.length p.friction) L p.dt
      (inUnits (p.normalization.map Prod.fst) (gridState g j)) (inUnits (p.normalization.map Prod.snd) (policy (gridState g j))) ≤
        |inUnits (p.normalization.map Prod.fst) 1 i| * error (gridState g j) i)
    (Lv Lf tau : ℝ) (h2 : ∀ i, 2 ≤ g.num i) (hlt : ∀ i, g.lo i < g.hi i) (hlv : sys.lv θ = .const Lv) (hlf : sys.lf θ = .const Lf)
    (hLv : 0 ≤ Lv) (hV : ∀ y z, |sys.V θ y - sys.V θ z| ≤ Lv * ∑ i, |y i - z i|)
    (hLf : 2 * (a / b) * (Real.exp (L * p.dt) + 1 / (p.mass * p.length ^ 2) * P / L * (Real.exp (L * p.dt) - 1)) ≤ Lf)
    (htau : ∑ i, (g.hi i - g.lo i) / ((g.num i : ℝ) - 1) / 2 ≤ tau)
    (initial : Option (Fin g.nindex → Bool)) (adaptive : Bool) (θ₀ : Θ)
    (history : List (Lyap.Op ℝ Prog Θ)) (hh : ∀ op ∈ history, op.IsMethod)
    (batch : ℕ) (hb : 0 < batch) (args : Lyap.UpdateArgs ℝ) (hcs : args.canShrink = true)
    (hna : ¬(adaptive = true ∧ 1 < args.maxRefinement)) :
    let W := sys.world g argsort tauDiv
    let s := Lyap.run W (Lyap.new W prog tau initial adaptive θ₀) history
    let r := Lyap.updateSafeSet W batch args s θ
    (∀ j, s.values j = sys.V θ (gridState g j)) →
    ∀ c, (∀ j, s.values j < c → r.1.safeSet j = true) →
    (∀ x, sys.V θ x < c - Lv * tau → ∀ i, g.lo i ≤ x i ∧ x i ≤ g.hi i) →
    ∃ ε, 0 < ε ∧ ∀ z y, SampledLoop (pendulumMotion p.mass p.length p.friction) p.normalization policy p.dt z y → sys.V θ (z 0) < c - Lv * tau →
      ∃ T, (∀ j < T, sys.V θ (z (j + 1)) ≤ sys.V θ (z j) - ε) ∧ (∀ j ≤ T, sys.V θ (z j) < c - Lv * tau) ∧
        ∃ j, InInitial initial j ∧ ∑ i, |z T i - gridState g j i| ≤ tau := by
  have hf := pendulum_field p hm hl hfr
  rw [← hL] at hf
  have he : p.evaluate = evaluateSystem p.normalization (pendulumMotion p.mass p.length p.friction) p.dt := by
    funext x u
    rw [InvertedPendulum.evaluate, pendulum_motion p hfr]
  rw [he] at hloop
  exact C141_region p.normalization hn (pendulumMotion p.mass p.length p.friction) L _ p.dt hf hdt policy P hP0 hP a b hb0 hunits sys g argsort tauDiv hW prog θ error hloop herr
    Lv Lf tau h2 hlt hlv hlf hLv hV (by exact_mod_cast hLf) htau initial adaptive θ₀ history hh batch hb args hcs hna

/-! ## A case that meets the hypotheses -/

/-- The line from -2 to 2 with 21 states. -/
noncomputable def fineLine : GridWorld ℝ 1 where
  lo := ![-2]
  hi := ![2]
  num := ![21]

/-- `x' = -x`, one second per step, simulated and known up to the error of the simulation. -/
noncomputable def decaying : System ℝ Unit Unit 1 where
  V := fun _ x => |x 0|
  lv := fun _ => .const 1
  lf := fun _ => .const (Real.exp 1)
  closedLoop := fun _ _ x => .uncertain (evaluateSystem (none : Normalization 1 1) (fun s _ => -s) 1 x 0)
    fun _ => simulationError (k := 1) (fun s _ => -s) 1 1 x 0

theorem decaying_evaluate (x : Fin 1 → ℝ) : evaluateSystem (none : Normalization 1 1) (fun s _ => -s) 1 x 0 = fun i => (9 / 10) ^ 10 * x i := by
  funext i
  simp only [evaluateSystem, denormalize, normalize, eulerSteps, Pi.neg_apply]
  ring

theorem decaying_certified (x : Fin 1 → ℝ) (hx : 1 ≤ |x 0|) :
    vDecreaseBound (decaying.V ()) (decaying.lv ()) x (decaying.closedLoop () () x) < thresholdAt (decaying.lv ()) (decaying.lf ()) x (1 / 10) := by
  have e1 := Real.exp_one_gt_d9
  have e2 := Real.exp_one_lt_d9
  have hn : ‖-x‖ = |x 0| := by
    rw [norm_neg]
    refine le_antisymm ((pi_norm_le_iff_of_nonneg (abs_nonneg _)).mpr fun i => ?_) (norm_le_pi_norm x 0)
    obtain rfl : i = 0 := Subsingleton.elim _ _
    exact le_rfl
  simp only [vDecreaseBound, vDecreaseConfidence, thresholdAt, decaying, LipArg.forThreshold, LipDyn.at, LipArg.entry, decaying_evaluate, simulationError, Fin.sum_univ_one, hn, one_mul, mul_one]
  rw [abs_mul, abs_of_pos (by positivity : (0 : ℝ) < (9 / 10) ^ 10)]
  have h3 : |x 0| * Real.exp 1 / 20 * (Real.exp 1 - 1) ≤ |x 0| * (24 / 100) := by
    have : Real.exp 1 / 20 * (Real.exp 1 - 1) ≤ 24 / 100 := by nlinarith
    calc _ = |x 0| * (Real.exp 1 / 20 * (Real.exp 1 - 1)) := by ring
      _ ≤ _ := mul_le_mul_of_nonneg_left this (abs_nonneg _)
  norm_num
  linarith

open Classical in
/-- All hypotheses of `C141_region` are met: the real system `x' = -x`, whose state is measured every second, comes close to `|x| < 1` from every `|x| < 2`, although the
safe set was computed with ten steps of Euler's method. -/
example : ∃ ε, 0 < ε ∧ ∀ z y, SampledLoop (fun s (_ : Fin 1 → ℝ) => -s) none (fun _ => 0) 1 z y → |z 0 0| < 21 / 10 - 1 * (1 / 10) →
      ∃ T, (∀ j < T, |z (j + 1) 0| ≤ |z j 0| - ε) ∧ (∀ j ≤ T, |z j 0| < 21 / 10 - 1 * (1 / 10)) ∧
        ∃ j : Fin fineLine.nindex, InInitial (some fun j : Fin fineLine.nindex => decide (|gridState fineLine j 0| < 1)) j ∧
          ∑ i, |z T i - gridState fineLine j i| ≤ 1 / 10 := by
  obtain ⟨ini, hini⟩ : ∃ ini : Option (Fin fineLine.nindex → Bool), ini = some fun j : Fin fineLine.nindex => decide (|gridState fineLine j 0| < 1) := ⟨_, rfl⟩
  rw [← hini]
  obtain ⟨sort, hsort⟩ : ∃ sort : (Fin fineLine.nindex → ℝ) → List (Fin fineLine.nindex), (fun v => (List.finRange _).insertionSort fun i j => v i ≤ v j) = sort := ⟨_, rfl⟩
  have hW : (decaying.world fineLine sort (fun t k => t / k)).SortContract := sortContract_insertionSort _ hsort.symm
  have hn : 0 < fineLine.nindex := by simp [GridWorld.nindex, shapeProd, fineLine]
  refine C141_region none (by simp) (fun s (_ : Fin 1 → ℝ) => -s) 1 0 1 ⟨one_pos, le_rfl, ?_, by simp⟩ one_pos (fun _ => 0) 0 le_rfl (by simp) 1 1 one_pos
    (by simp [inUnits]) decaying fineLine sort (fun t k => t / k) hW () () (fun x _ => simulationError (k := 1) (fun s _ => -s) 1 1 x 0) (fun _ => rfl)
    (by intro j i; simp [inUnits]) 1 (Real.exp 1) (1 / 10) (by simp [fineLine]) (by simp [fineLine]) rfl rfl zero_le_one ?_ (by simp)
    (by norm_num [fineLine]) ini false () [] (by simp) 10 (by norm_num) ⟨true, 1, 1⟩ rfl (by simp) (fun j => rfl) (21 / 10) ?_ ?_
  · intro a b _
    rw [one_mul, neg_sub_neg, norm_sub_rev]
  · intro y z
    rw [Fin.sum_univ_one, one_mul]
    exact abs_abs_sub_abs_le _ _
  · intro j _
    obtain ⟨P, hP, hsafe⟩ := Lyap.C20_largest_level_set _ hW hn () (1 / 10) ini false () [] (by simp) 10 (by norm_num) ⟨true, 1, 1⟩ rfl () (by simp)
    refine (hsafe j).mpr (Or.inr ?_)
    rcases hP.maximal with h | ⟨b, -, hb, -⟩
    · exact h j
    · refine absurd ?_ hb
      by_cases h1 : |gridState fineLine b 0| < 1
      · exact Or.inl (by rw [hini]; simpa [InInitial] using h1)
      · exact Or.inr (decaying_certified _ (not_lt.mp h1))
  · intro x hx i
    have h2 := abs_lt.mp (show |x 0| < 21 / 10 - 1 * (1 / 10) from hx)
    obtain rfl : i = 0 := Subsingleton.elim _ _
    simp only [fineLine, Matrix.cons_val_zero]
    constructor <;> linarith

/-- A square with 101 states per dimension. -/
noncomputable def fineSquare : GridWorld ℝ 2 where
  lo := ![-1, -1]
  hi := ![1, 1]
  num := ![101, 101]

/-- A pendulum of one metre and one kilogram, simulated with 100 steps per second and known up to the error of the simulation. -/
noncomputable def swinging : System ℝ Unit Unit 2 where
  V := fun _ x => |x 0| + |x 1|
  lv := fun _ => .const 1
  lf := fun _ => .const (2 * (1 / 1) * (Real.exp (9.91 * (1 / 100)) + 1 / (1 * 1 ^ 2) * 20 / 9.91 * (Real.exp (9.91 * (1 / 100)) - 1)))
  closedLoop := fun _ _ x => .uncertain ((⟨1, 1, 1 / 10, 1 / 100, none⟩ : InvertedPendulum).evaluate x ![-20 * x 0])
    fun _ => simulationError (pendulumMotion 1 1 (1 / 10)) 9.91 (1 / 100) x ![-20 * x 0]

open Classical in
/-- The hypotheses of `C141_pendulum` about the pendulum, the policy and the constants can be met: with the error bounds `simulationError` and the smallest allowed
`lipschitz_dynamics`. -/
example (sort : (Fin fineSquare.nindex → ℝ) → List (Fin fineSquare.nindex)) (hsort : sort = fun v => (List.finRange _).insertionSort fun i j => v i ≤ v j) :=
  C141_pendulum ⟨1, 1, 1 / 10, 1 / 100, none⟩ one_pos one_pos (by norm_num) (by norm_num) (by simp) 9.91 (by norm_num) (fun x => ![-20 * x 0])
    20 (by norm_num) (by
      intro x x'
      simp only [inUnits, Option.map_none]
      rw [pi_norm_le_iff_of_nonneg (by positivity)]
      intro i
      obtain rfl : i = 0 := Subsingleton.elim _ _
      have := norm_le_pi_norm (x - x') 0
      simp only [Pi.sub_apply, Matrix.cons_val_zero, Real.norm_eq_abs] at this ⊢
      rw [show -20 * x 0 - -20 * x' 0 = -20 * (x 0 - x' 0) by ring, abs_mul]
      norm_num
      exact this) 1 1 one_pos (by simp [inUnits]) swinging fineSquare
    sort (fun t k => t / k) (sortContract_insertionSort _ hsort) () ()
    (fun x _ => simulationError (pendulumMotion 1 1 (1 / 10)) 9.91 (1 / 100) x ![-20 * x 0]) (fun _ => rfl) (by intro j i; simp [inUnits])
    1 _ (2 / 100) (by intro i; fin_cases i <;> simp [fineSquare]) (by intro i; fin_cases i <;> norm_num [fineSquare]) rfl rfl zero_le_one (by
      intro y z
      simp only [Fin.sum_univ_two, one_mul, swinging]
      have h1 := abs_abs_sub_abs_le (y 0) (z 0)
      have h2 := abs_abs_sub_abs_le (y 1) (z 1)
      calc _ = |(|y 0| - |z 0|) + (|y 1| - |z 1|)| := by ring_nf
        _ ≤ _ := (abs_add_le _ _).trans (add_le_add h1 h2)) le_rfl (by norm_num [Fin.sum_univ_two, fineSquare])
    (some fun j => decide (‖gridState fineSquare j.val‖ < 1 / 2)) false () [] (by simp) 10 (by norm_num) ⟨true, 1, 1⟩ rfl (by simp) (fun _ => rfl)

/-! ## The error bounds are needed -/

/-- The line from -2 to 2 with 51 states. -/
noncomputable def finerLine : GridWorld ℝ 1 where
  lo := ![-2]
  hi := ![2]
  num := ![51]

/-- `x' = x + u` with the policy `u = -2.2 x`, one second per step, simulated and taken to be exact. -/
noncomputable def overshooting : System ℝ Unit Unit 1 where
  V := fun _ x => |x 0|
  lv := fun _ => .const 1
  lf := fun _ => .const (92 / 100)
  closedLoop := fun _ _ x => .exact (evaluateSystem (none : Normalization 1 1) (fun s u => s + u) 1 x ![-(22 / 10) * x 0])

theorem overshooting_evaluate (x : Fin 1 → ℝ) : evaluateSystem (none : Normalization 1 1) (fun s u => s + u) 1 x ![-(22 / 10) * x 0] =
    fun i => ((11 / 10) ^ 10 * (1 - 22 / 10) + 22 / 10) * x i := by
  funext i
  obtain rfl : i = 0 := Subsingleton.elim _ _
  simp only [evaluateSystem, denormalize, normalize, eulerSteps, Pi.add_apply, Option.getD_some, Matrix.cons_val_zero]
  ring

/-- **C141 (the error bounds are needed).** The simulated system alone is not enough: for `x' = x + u` with the policy `u = -2.2 x` all assumptions of C27 hold with the simulated
system in place of the real one, every grid state is in the safe set, but every state of the real system, except for zero, is further away from zero after every step. -/
theorem C141_simulated_alone (initial : Option (Fin finerLine.nindex → Bool)) (hini : ∀ j : Fin finerLine.nindex, InInitial initial j ↔ |gridState finerLine j 0| < 1)
    (sort : (Fin finerLine.nindex → ℝ) → List (Fin finerLine.nindex)) (hW : (overshooting.world finerLine sort (fun t k => t / k)).SortContract) :
    Assumptions overshooting finerLine () () (fun x => evaluateSystem (none : Normalization 1 1) (fun s u => s + u) 1 x ![-(22 / 10) * x 0]) 1 (92 / 100) (4 / 100) ∧
    (let W := overshooting.world finerLine sort (fun t k => t / k)
     ∀ j, (Lyap.updateSafeSet W 10 ⟨true, 1, 1⟩ (Lyap.new W () (4 / 100) initial false ()) ()).1.safeSet j = true) ∧
    ∀ x : Fin 1 → ℝ, x ≠ 0 → ∃ z y, z 0 = x ∧ SampledLoop (fun s u => s + u) none (fun x => ![-(22 / 10) * x 0]) 1 z y ∧ ∀ j, |z j 0| < |z (j + 1) 0| := by
  have hn : 0 < finerLine.nindex := by simp [GridWorld.nindex, shapeProd, finerLine]
  refine ⟨?_, ?_, ?_⟩
  · exact
    { two_le := by simp [finerLine]
      lt := by simp [finerLine]
      lv_eq := rfl
      lf_eq := rfl
      lv_nonneg := zero_le_one
      lf_nonneg := by norm_num
      V_lipschitz := fun y z => by
        rw [Fin.sum_univ_one, one_mul]
        exact abs_abs_sub_abs_le _ _
      f_lipschitz := fun y z => by
        simp only [overshooting_evaluate, Fin.sum_univ_one]
        rw [← mul_sub, abs_mul]
        refine mul_le_mul_of_nonneg_right ?_ (abs_nonneg _)
        rw [abs_le]
        constructor <;> norm_num
      model := fun _ => rfl
      tau_le := by norm_num [finerLine] }
  · intro W j
    obtain ⟨P, hP, hsafe⟩ := Lyap.C20_largest_level_set W hW hn () (4 / 100) initial false () [] (by simp) 10 (by norm_num) ⟨true, 1, 1⟩ rfl () (by simp)
    refine (hsafe j).mpr (Or.inr ?_)
    rcases hP.maximal with h | ⟨b, -, hb, -⟩
    · exact h j
    · refine absurd ?_ hb
      by_cases h1 : |gridState finerLine b 0| < 1
      · exact Or.inl ((hini b).mpr h1)
      · refine Or.inr ?_
        obtain ⟨x, hx⟩ : ∃ x, x = gridState finerLine b := ⟨_, rfl⟩
        rw [← hx] at h1
        simp only [W, System.world, ← hx, vDecreaseBound, vDecreaseConfidence, thresholdAt, overshooting, LipArg.forThreshold, LipDyn.at, overshooting_evaluate, abs_mul]
        rw [abs_of_nonpos (by norm_num : ((11 / 10 : ℝ) ^ 10 * (1 - 22 / 10) + 22 / 10) ≤ 0)]
        norm_num
        linarith [not_lt.mp h1]
  · intro x hx
    have hf : LipschitzField (fun (s u : Fin 1 → ℝ) => s + u) 1 1 :=
      ⟨one_pos, zero_le_one, fun a b u => by simp, fun a u v => by simp⟩
    obtain ⟨⟨z, y, h0, hzy⟩, -⟩ := C141_exists none (by simp) hf one_pos (fun x => ![-(22 / 10) * x 0]) x
    refine ⟨z, y, h0, hzy, ?_⟩
    have hstep : ∀ j, z (j + 1) 0 = (Real.exp 1 * (1 - 22 / 10) + 22 / 10) * z j 0 := by
      intro j
      have hm := hzy.motion j
      simp only [inUnits, Option.map_none, mul_one] at hm
      have e0 := hzy.measured j
      have e1 := hzy.measured (j + 1)
      simp only [inUnits, Option.map_none, mul_one] at e0 e1
      push_cast at e1
      have hw : ∀ t ∈ Icc (j : ℝ) (j + 1), HasDerivWithinAt (fun t => (y t 0 - 22 / 10 * z j 0) * Real.exp (j - t)) 0 (Icc (j : ℝ) (j + 1)) t := by
        intro t ht
        have h1 := (hasDerivWithinAt_pi.mp (hm t ht)) 0
        have h2 : HasDerivAt (fun t : ℝ => Real.exp (j - t)) (Real.exp (j - t) * (0 - 1)) t := ((hasDerivAt_const t (j : ℝ)).sub (hasDerivAt_id t)).exp
        refine ((h1.sub_const (22 / 10 * z j 0)).mul h2.hasDerivWithinAt).congr_deriv ?_
        simp only [Pi.add_apply, Matrix.cons_val_zero]
        ring
      have hc := constant_of_has_deriv_right_zero (right_deriv hw).1 (right_deriv hw).2 (j + 1) ⟨by linarith, le_rfl⟩
      simp only [e0, e1, sub_self, Real.exp_zero, sub_add_cancel_left, Real.exp_neg] at hc
      have := Real.exp_pos 1
      field_simp at hc
      linarith
    have hz : ∀ j, z j 0 ≠ 0 := by
      intro j
      have e1 := Real.exp_one_gt_d9
      induction j with
      | zero =>
        rw [h0]
        intro h
        exact hx (funext fun i => by rw [Subsingleton.elim i 0]; exact h)
      | succ j ih =>
        rw [hstep]
        exact mul_ne_zero (by linarith) ih
    intro j
    rw [hstep, abs_mul]
    have e1 := Real.exp_one_gt_d9
    rw [abs_of_nonpos (by linarith : Real.exp 1 * (1 - 22 / 10) + 22 / 10 ≤ 0)]
    have := abs_pos.mpr (hz j)
    nlinarith

open Classical in
/-- The hypotheses of `C141_simulated_alone` are met. -/
example (sort : (Fin finerLine.nindex → ℝ) → List (Fin finerLine.nindex)) (hsort : sort = fun v => (List.finRange _).insertionSort fun i j => v i ≤ v j) :=
  C141_simulated_alone (some fun j : Fin finerLine.nindex => decide (|gridState finerLine j 0| < 1)) (fun j => by simp [InInitial]) sort (sortContract_insertionSort _ hsort)

end SafeLearning
