import Mathlib.Analysis.ODE.ExistUnique
import Mathlib.Analysis.ODE.Gronwall
import Mathlib.Algebra.Order.Floor.Ring
set_option autoImplicit false

/-!
# Solutions of differential equations with Lipschitz vector fields
-/

namespace SafeLearning

open Set Metric

variable {E : Type} [NormedAddCommGroup E] [NormedSpace ℝ E]

theorem lipschitzWith_of_norm {f : E → E} {L : ℝ} (hL0 : 0 ≤ L) (hL : ∀ a b, ‖f a - f b‖ ≤ L * ‖a - b‖) : LipschitzWith L.toNNReal f :=
  LipschitzWith.of_dist_le_mul fun a b => by
    rw [dist_eq_norm, dist_eq_norm, Real.coe_toNNReal _ hL0]
    exact hL a b

/-- Solutions exist for a short time. -/
theorem short_solution [CompleteSpace E] {f : E → E} {L : ℝ} (hL0 : 0 ≤ L) (hL : ∀ a b, ‖f a - f b‖ ≤ L * ‖a - b‖) {h : ℝ} (hh : 0 ≤ h) (hLh : L * h < 1) (x : E) :
    ∃ y : ℝ → E, y 0 = x ∧ ∀ t ∈ Icc 0 h, HasDerivWithinAt y (f (y t)) (Icc 0 h) t := by
  have hd : 0 < 1 - L * h := by linarith
  obtain ⟨a, ha⟩ : ∃ a, a = ‖f x‖ * h / (1 - L * h) := ⟨_, rfl⟩
  have ha0 : 0 ≤ a := by rw [ha]; positivity
  have ha1 : (‖f x‖ + L * a) * h = a := by
    rw [ha]
    field_simp
    ring
  have hp : IsPicardLindelof (fun _ => f) (tmin := 0) (tmax := h) ⟨0, left_mem_Icc.mpr hh⟩ x a.toNNReal 0 (‖f x‖ + L * a).toNNReal L.toNNReal := by
    have hb0 : 0 ≤ ‖f x‖ + L * a := by positivity
    refine ⟨fun t _ => (lipschitzWith_of_norm hL0 hL).lipschitzOnWith, fun z _ => continuousOn_const, fun t _ z hz => ?_, ?_⟩
    · have h1 := hL z x
      have h2 : ‖z - x‖ ≤ a := by simpa [dist_eq_norm, ha0] using hz
      have h3 := norm_add_le (f z - f x) (f x)
      rw [sub_add_cancel] at h3
      have h4 := mul_le_mul_of_nonneg_left h2 hL0
      rw [Real.coe_toNNReal _ hb0]
      linarith
    · rw [Real.coe_toNNReal _ hb0, Real.coe_toNNReal _ ha0, NNReal.coe_zero]
      simp only []
      rw [sub_zero, sub_zero, max_eq_left hh, ha1, sub_zero]
  exact hp.exists_eq_forall_mem_Icc_hasDerivWithinAt₀

/-- Two solutions are put together. -/
theorem glue_solution {f : E → E} {c h : ℝ} (hc : 0 ≤ c) (hh : 0 ≤ h) {y z : ℝ → E} (hy : ∀ t ∈ Icc 0 c, HasDerivWithinAt y (f (y t)) (Icc 0 c) t)
    (hz0 : z 0 = y c) (hz : ∀ t ∈ Icc 0 h, HasDerivWithinAt z (f (z t)) (Icc 0 h) t) :
    ∃ w : ℝ → E, (∀ t ≤ c, w t = y t) ∧ (∀ t, c ≤ t → w t = z (t - c)) ∧ ∀ t ∈ Icc 0 (c + h), HasDerivWithinAt w (f (w t)) (Icc 0 (c + h)) t := by
  have hw1 : ∀ t ≤ c, (fun t => if t ≤ c then y t else z (t - c)) t = y t := fun t ht => if_pos ht
  have hw2 : ∀ t, c ≤ t → (fun t => if t ≤ c then y t else z (t - c)) t = z (t - c) := by
    intro t ht
    by_cases h1 : t ≤ c
    · have : t = c := le_antisymm h1 ht
      simp [this, hz0]
    · exact if_neg h1
  generalize (fun t => if t ≤ c then y t else z (t - c)) = w at hw1 hw2
  have hl : ∀ t ∈ Icc 0 c, HasDerivWithinAt w (f (w t)) (Icc 0 c) t := by
    intro t ht
    rw [hw1 t ht.2]
    exact (hy t ht).congr (fun s hs => hw1 s hs.2) (hw1 t ht.2)
  have hr : ∀ t ∈ Icc c (c + h), HasDerivWithinAt w (f (w t)) (Icc c (c + h)) t := by
    intro t ht
    rw [hw2 t ht.1]
    have h1 : HasDerivWithinAt (fun s => z (s - c)) (f (z (t - c))) (Icc c (c + h)) t := by
      have h2 := hz (t - c) ⟨by linarith [ht.1], by linarith [ht.2]⟩
      have h3 : HasDerivWithinAt (fun s : ℝ => s - c) 1 (Icc c (c + h)) t := ((hasDerivAt_id t).sub_const c).hasDerivWithinAt
      have := h2.scomp t h3 (fun s hs => (⟨by linarith [hs.1], by linarith [hs.2]⟩ : s - c ∈ Icc 0 h))
      rw [one_smul] at this
      exact this
    exact h1.congr (fun s hs => hw2 s hs.1) (hw2 t ht.1)
  refine ⟨w, hw1, hw2, fun t ht => ?_⟩
  rcases lt_trichotomy t c with h1 | h1 | h1
  · exact (hl t ⟨ht.1, h1.le⟩).mono_of_mem_nhdsWithin (mem_nhdsWithin.mpr ⟨Iio c, isOpen_Iio, h1, fun s hs => ⟨hs.2.1, le_of_lt hs.1⟩⟩)
  · subst h1
    rw [← Icc_union_Icc_eq_Icc hc (by linarith : t ≤ t + h)]
    exact (hl t ⟨hc, le_rfl⟩).union (hr t ⟨le_rfl, by linarith⟩)
  · exact (hr t ⟨h1.le, ht.2⟩).mono_of_mem_nhdsWithin (mem_nhdsWithin.mpr ⟨Ioi c, isOpen_Ioi, h1, fun s hs => ⟨le_of_lt hs.1, hs.2.2⟩⟩)

/-- Solutions exist for all times. -/
theorem exists_solution [CompleteSpace E] {f : E → E} {L : ℝ} (hL0 : 0 ≤ L) (hL : ∀ a b, ‖f a - f b‖ ≤ L * ‖a - b‖) {T : ℝ} (hT : 0 ≤ T) (x : E) :
    ∃ y : ℝ → E, y 0 = x ∧ ∀ t ∈ Icc 0 T, HasDerivWithinAt y (f (y t)) (Icc 0 T) t := by
  obtain ⟨m, hm⟩ := exists_nat_gt (L * T)
  have hm0 : (0 : ℝ) < m := lt_of_le_of_lt (by positivity) hm
  have hh : 0 ≤ T / m := by positivity
  have hLh : L * (T / m) < 1 := by
    rw [← mul_div_assoc, div_lt_one hm0]
    exact hm
  have key : ∀ k : ℕ, ∃ y : ℝ → E, y 0 = x ∧ ∀ t ∈ Icc 0 (k * (T / m)), HasDerivWithinAt y (f (y t)) (Icc 0 (k * (T / m))) t := by
    intro k
    induction k with
    | zero =>
      simpa using short_solution hL0 hL le_rfl (by simp) x
    | succ k ih =>
      obtain ⟨y, hy0, hy⟩ := ih
      obtain ⟨z, hz0, hz⟩ := short_solution hL0 hL hh hLh (y (k * (T / m)))
      obtain ⟨w, hw1, -, hw⟩ := glue_solution (by positivity) hh hy hz0 hz
      refine ⟨w, by rw [hw1 0 (by positivity), hy0], ?_⟩
      have e : ((k + 1 : ℕ) : ℝ) * (T / m) = k * (T / m) + T / m := by push_cast; ring
      rw [e]
      exact hw
  obtain ⟨y, hy⟩ := key m
  rw [mul_div_cancel₀ _ hm0.ne'] at hy
  exact ⟨y, hy⟩

theorem right_deriv {y : ℝ → E} {y' : ℝ → E} {a b : ℝ} (hy : ∀ t ∈ Icc a b, HasDerivWithinAt y (y' t) (Icc a b) t) :
    ContinuousOn y (Icc a b) ∧ ∀ t ∈ Ico a b, HasDerivWithinAt y (y' t) (Ici t) t :=
  ⟨fun t ht => (hy t ht).continuousWithinAt, fun t ht => (hy t (Ico_subset_Icc_self ht)).mono_of_mem_nhdsWithin (Icc_mem_nhdsGE_of_mem ht)⟩

/-- Solutions of two equations that differ by at most `ε`. -/
theorem solutions_close {f g : E → E} {L ε : ℝ} (hL0 : 0 < L) (hL : ∀ a b, ‖f a - f b‖ ≤ L * ‖a - b‖) (hfg : ∀ a, ‖g a - f a‖ ≤ ε) {T : ℝ} {y z : ℝ → E}
    (hy : ∀ t ∈ Icc 0 T, HasDerivWithinAt y (f (y t)) (Icc 0 T) t) (hz : ∀ t ∈ Icc 0 T, HasDerivWithinAt z (g (z t)) (Icc 0 T) t) {t : ℝ} (ht : t ∈ Icc 0 T) :
    ‖y t - z t‖ ≤ ‖y 0 - z 0‖ * Real.exp (L * t) + ε / L * (Real.exp (L * t) - 1) := by
  have h := dist_le_of_approx_trajectories_ODE (v := fun _ => f) (K := L.toNNReal) (εf := 0) (εg := ε) (δ := ‖y 0 - z 0‖) (fun _ => lipschitzWith_of_norm hL0.le hL)
    (right_deriv hy).1 (right_deriv hy).2 (fun t _ => by simp) (right_deriv hz).1 (right_deriv hz).2
    (fun t _ => by rw [dist_eq_norm]; exact hfg _) (by rw [dist_eq_norm]) t ht
  rw [dist_eq_norm, zero_add, Real.coe_toNNReal _ hL0.le, gronwallBound_of_K_ne_0 hL0.ne', sub_zero] at h
  exact h

/-- The speed grows at most exponentially. -/
theorem speed_le {f : E → E} {L : ℝ} (hL0 : 0 < L) (hL : ∀ a b, ‖f a - f b‖ ≤ L * ‖a - b‖) {T : ℝ} {y : ℝ → E}
    (hy : ∀ t ∈ Icc 0 T, HasDerivWithinAt y (f (y t)) (Icc 0 T) t) {t : ℝ} (ht : t ∈ Icc 0 T) :
    ‖y t - y 0‖ ≤ ‖f (y 0)‖ / L * (Real.exp (L * t) - 1) ∧ ‖f (y t)‖ ≤ ‖f (y 0)‖ * Real.exp (L * t) := by
  have h := dist_le_of_approx_trajectories_ODE (v := fun _ => f) (K := L.toNNReal) (εf := 0) (εg := ‖f (y 0)‖) (δ := 0) (g := fun _ => y 0) (g' := fun _ => 0)
    (fun _ => lipschitzWith_of_norm hL0.le hL)
    (right_deriv hy).1 (right_deriv hy).2 (fun t _ => by simp) continuousOn_const (fun t _ => hasDerivWithinAt_const _ _ _)
    (fun t _ => by simp) (by simp) t ht
  rw [dist_eq_norm, zero_add, Real.coe_toNNReal _ hL0.le, gronwallBound_of_K_ne_0 hL0.ne', sub_zero] at h
  simp only [zero_mul, zero_add] at h
  refine ⟨h, ?_⟩
  have h1 := hL (y t) (y 0)
  have h2 := norm_add_le (f (y t) - f (y 0)) (f (y 0))
  rw [sub_add_cancel] at h2
  have h3 := mul_le_mul_of_nonneg_left h hL0.le
  have h4 : L * (‖f (y 0)‖ / L * (Real.exp (L * t) - 1)) = ‖f (y 0)‖ * Real.exp (L * t) - ‖f (y 0)‖ := by
    field_simp
  linarith

end SafeLearning
