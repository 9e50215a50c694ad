import Verif.Model.Discretise
import Mathlib.Analysis.Matrix.Normed
import Mathlib.Analysis.SpecialFunctions.Exponential
import Mathlib.Analysis.ODE.ExistUnique
set_option autoImplicit false

/-!
# Exponentials of matrices and powers of Euler steps
-/

namespace SafeLearning

open Matrix Set

section Algebra

variable {𝔸 : Type} [NormedRing 𝔸] [NormedAlgebra ℝ 𝔸] [CompleteSpace 𝔸]

theorem norm_exp_sub_le (Y : 𝔸) : ‖NormedSpace.exp Y - 1 - Y‖ ≤ ‖Y‖ ^ 2 / 2 * Real.exp ‖Y‖ := by
  have h1 : HasSum (fun n : ℕ => (n.factorial⁻¹ : ℝ) • Y ^ n) (NormedSpace.exp Y) := NormedSpace.exp_series_hasSum_exp' Y
  have h2 := (hasSum_nat_add_iff' 2).mpr h1
  have h3 : HasSum (fun n : ℕ => ‖Y‖ ^ n / n.factorial) (Real.exp ‖Y‖) := by
    rw [Real.exp_eq_exp_ℝ]
    exact NormedSpace.expSeries_div_hasSum_exp ‖Y‖
  have h4 := h3.mul_left (‖Y‖ ^ 2 / 2)
  have h5 : NormedSpace.exp Y - ∑ i ∈ Finset.range 2, (i.factorial⁻¹ : ℝ) • Y ^ i = NormedSpace.exp Y - 1 - Y := by
    simp [Finset.sum_range_succ, sub_sub]
  rw [h5] at h2
  rw [← h2.tsum_eq]
  refine tsum_of_norm_bounded h4 fun n => ?_
  rw [norm_smul, Real.norm_of_nonneg (by positivity)]
  have h6 : ‖Y ^ (n + 2)‖ ≤ ‖Y‖ ^ (n + 2) := norm_pow_le' Y (by omega)
  have h7 : (2 * n.factorial : ℝ) ≤ (n + 2).factorial := by
    have : 2 * n.factorial ≤ (n + 2).factorial := by
      rw [Nat.factorial_succ, Nat.factorial_succ]
      rw [← mul_assoc]
      exact Nat.mul_le_mul_right _ (by nlinarith)
    exact_mod_cast this
  have h8 : (0 : ℝ) < 2 * n.factorial := by positivity
  calc ((n + 2).factorial : ℝ)⁻¹ * ‖Y ^ (n + 2)‖ ≤ (2 * n.factorial : ℝ)⁻¹ * ‖Y‖ ^ (n + 2) :=
        mul_le_mul (inv_anti₀ h8 h7) h6 (norm_nonneg _) (by positivity)
    _ = ‖Y‖ ^ 2 / 2 * (‖Y‖ ^ n / n.factorial) := by
        field_simp
        ring

variable [NormOneClass 𝔸]

theorem norm_exp_le_exp (Y : 𝔸) : ‖NormedSpace.exp Y‖ ≤ Real.exp ‖Y‖ := by
  have h1 : HasSum (fun n : ℕ => (n.factorial⁻¹ : ℝ) • Y ^ n) (NormedSpace.exp Y) := NormedSpace.exp_series_hasSum_exp' Y
  have h3 : HasSum (fun n : ℕ => ‖Y‖ ^ n / n.factorial) (Real.exp ‖Y‖) := by
    rw [Real.exp_eq_exp_ℝ]
    exact NormedSpace.expSeries_div_hasSum_exp ‖Y‖
  rw [← h1.tsum_eq]
  refine tsum_of_norm_bounded h3 fun n => ?_
  rw [norm_smul, Real.norm_of_nonneg (by positivity), div_eq_inv_mul]
  exact mul_le_mul_of_nonneg_left (norm_pow_le Y n) (by positivity)

omit [NormedAlgebra ℝ 𝔸] [CompleteSpace 𝔸] in
theorem norm_pow_sub_pow_le {a b : 𝔸} {c : ℝ} (ha : ‖a‖ ≤ c) (hb : ‖b‖ ≤ c) (m : ℕ) :
    ‖a ^ (m + 1) - b ^ (m + 1)‖ ≤ (m + 1) * c ^ m * ‖a - b‖ := by
  have hc : 0 ≤ c := (norm_nonneg _).trans ha
  induction m with
  | zero => simp
  | succ m ih =>
    have e : a ^ (m + 1 + 1) - b ^ (m + 1 + 1) = a ^ (m + 1) * (a - b) + (a ^ (m + 1) - b ^ (m + 1)) * b := by
      rw [mul_sub, sub_mul, ← pow_succ, ← pow_succ]
      abel
    rw [e]
    have h1 : ‖a ^ (m + 1) * (a - b)‖ ≤ c ^ (m + 1) * ‖a - b‖ :=
      (norm_mul_le _ _).trans (mul_le_mul_of_nonneg_right ((norm_pow_le a _).trans (pow_le_pow_left₀ (norm_nonneg _) ha _)) (norm_nonneg _))
    have h2 : ‖(a ^ (m + 1) - b ^ (m + 1)) * b‖ ≤ (m + 1) * c ^ m * ‖a - b‖ * c :=
      (norm_mul_le _ _).trans (mul_le_mul ih hb (norm_nonneg _) (by positivity))
    refine (norm_add_le _ _).trans ((add_le_add h1 h2).trans (le_of_eq ?_))
    push_cast
    ring

/-- Ten Euler steps and the exponential. -/
theorem norm_exp_sub_euler_le (X : 𝔸) : ‖NormedSpace.exp X - (1 + (1 / 10 : ℝ) • X) ^ 10‖ ≤ ‖X‖ ^ 2 / 20 * Real.exp ‖X‖ := by
  set Y := (1 / 10 : ℝ) • X with hY
  have e : NormedSpace.exp X = NormedSpace.exp Y ^ 10 := by
    letI : NormedAlgebra ℚ 𝔸 := NormedAlgebra.restrictScalars ℚ ℝ 𝔸
    rw [← NormedSpace.exp_nsmul, hY]
    congr 1
    rw [← Nat.cast_smul_eq_nsmul ℝ, smul_smul]
    norm_num
  have hn : ‖Y‖ = ‖X‖ / 10 := by
    rw [hY, norm_smul]
    norm_num
    ring
  have h1 := norm_exp_le_exp Y
  have h2 : ‖1 + Y‖ ≤ Real.exp ‖Y‖ := by
    refine (norm_add_le _ _).trans ?_
    rw [norm_one, add_comm]
    exact Real.add_one_le_exp _
  rw [e]
  refine (norm_pow_sub_pow_le h1 h2 9).trans ?_
  have h3 := norm_exp_sub_le Y
  rw [sub_sub] at h3
  calc ((9 : ℕ) + 1 : ℝ) * Real.exp ‖Y‖ ^ 9 * ‖NormedSpace.exp Y - (1 + Y)‖
      ≤ ((9 : ℕ) + 1 : ℝ) * Real.exp ‖Y‖ ^ 9 * (‖Y‖ ^ 2 / 2 * Real.exp ‖Y‖) := mul_le_mul_of_nonneg_left h3 (by positivity)
    _ = 5 * ‖Y‖ ^ 2 * Real.exp ‖Y‖ ^ 10 := by push_cast; ring
    _ = ‖X‖ ^ 2 / 20 * Real.exp ‖X‖ := by
      rw [← Real.exp_nat_mul, hn]
      push_cast
      rw [mul_div_cancel₀ _ (by norm_num : (10 : ℝ) ≠ 0)]
      ring

end Algebra

/-! ## The augmented matrix -/

variable {n k : ℕ}

theorem augmented_mulVec (A : Matrix (Fin n) (Fin n) ℝ) (B : Matrix (Fin n) (Fin k) ℝ) (x : Fin n → ℝ) (u : Fin k → ℝ) :
    augmented A B *ᵥ Sum.elim x u = Sum.elim (A *ᵥ x + B *ᵥ u) 0 := by
  rw [augmented, fromBlocks_mulVec]
  simp

theorem euler_augmented (A : Matrix (Fin n) (Fin n) ℝ) (B : Matrix (Fin n) (Fin k) ℝ) (h : ℝ) (m : ℕ) :
    (1 + h • augmented A B) ^ m = fromBlocks ((1 + h • A) ^ m) (∑ j ∈ Finset.range m, (1 + h • A) ^ j * (h • B)) 0 1 := by
  have e : 1 + h • augmented A B = fromBlocks (1 + h • A) (h • B) 0 1 := by
    rw [augmented, fromBlocks_smul, ← fromBlocks_one, fromBlocks_add]
    simp
  rw [e]
  induction m with
  | zero => simp
  | succ m ih =>
    rw [pow_succ, ih, fromBlocks_multiply]
    simp [pow_succ, Finset.sum_range_succ, add_comm]

open scoped Matrix.Norms.Operator in
theorem norm_augmented_le (A : Matrix (Fin n) (Fin n) ℝ) (B : Matrix (Fin n) (Fin k) ℝ) {m : ℝ} (hm0 : 0 ≤ m)
    (hm : ∀ i, ∑ j, |A i j| + ∑ j, |B i j| ≤ m) : ‖augmented A B‖ ≤ m := by
  rw [linfty_opNorm_def]
  lift m to NNReal using hm0
  rw [NNReal.coe_le_coe]
  refine Finset.sup_le fun i _ => ?_
  rw [← NNReal.coe_le_coe, NNReal.coe_sum, Fintype.sum_sum_type]
  cases i with
  | inl i => simpa [augmented] using hm i
  | inr i => simp [augmented]

open scoped Matrix.Norms.Operator in
/-- Curves that solve `z' = M z` are given by the exponential. -/
theorem exp_solution {ι : Type} [Fintype ι] [DecidableEq ι] (M : Matrix ι ι ℝ) {T : ℝ} (hT : 0 ≤ T) (z : ℝ → ι → ℝ)
    (hz : ∀ t ∈ Icc 0 T, HasDerivWithinAt z (M *ᵥ z t) (Icc 0 T) t) : z T = NormedSpace.exp (T • M) *ᵥ z 0 := by
  let ev : Matrix ι ι ℝ →L[ℝ] (ι → ℝ) := LinearMap.toContinuousLinearMap
    { toFun := fun N => N *ᵥ z 0
      map_add' := fun a b => add_mulVec a b _
      map_smul' := fun c a => smul_mulVec c a _ }
  have hev : ∀ N, ev N = N *ᵥ z 0 := fun _ => rfl
  have hg : ∀ t, HasDerivAt (fun t : ℝ => NormedSpace.exp (t • M) *ᵥ z 0) (M *ᵥ (NormedSpace.exp (t • M) *ᵥ z 0)) t := by
    intro t
    have h1 := ev.hasFDerivAt.comp_hasDerivAt t (hasDerivAt_exp_smul_const' M t)
    have h2 : ev (M * NormedSpace.exp (t • M)) = M *ᵥ (NormedSpace.exp (t • M) *ᵥ z 0) := (hev _).trans (mulVec_mulVec _ _ _).symm
    exact h1.congr_deriv h2
  have hlip : ∀ t ∈ Ico (0 : ℝ) T, LipschitzOnWith ‖M‖₊ (fun z : ι → ℝ => M *ᵥ z) univ := by
    intro t _
    refine LipschitzOnWith.of_dist_le_mul fun x _ y _ => ?_
    rw [dist_eq_norm, dist_eq_norm, ← mulVec_sub]
    exact linfty_opNorm_mulVec _ _
  have := ODE_solution_unique_of_mem_Icc_right (v := fun _ z => M *ᵥ z) (s := fun _ => univ) hlip
    (f := z) (g := fun t => NormedSpace.exp (t • M) *ᵥ z 0) (fun t ht => (hz t ht).continuousWithinAt)
    (fun t ht => (hz t (Ico_subset_Icc_self ht)).mono_of_mem_nhdsWithin (Icc_mem_nhdsGE_of_mem ht)) (fun _ _ => mem_univ _)
    (fun t _ => (hg t).continuousAt.continuousWithinAt) (fun t _ => (hg t).hasDerivWithinAt) (fun _ _ => mem_univ _) (by simp)
  exact this ⟨hT, le_rfl⟩

end SafeLearning
