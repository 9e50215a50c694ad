import Verif.Spec.RandomTruth
import Verif.Props.Confidence
import Mathlib.Probability.Distributions.Gaussian.IsGaussianProcess.Independence
import Mathlib.Probability.Distributions.Gaussian.IsGaussianProcess.Basic
import Mathlib.Probability.Distributions.Gaussian.HasGaussianLaw.Basic
import Mathlib.Probability.Moments.SubGaussian
set_option autoImplicit false

/-!
# Random functions and their posterior
-/

namespace SafeLearning

open Matrix Spec MeasureTheory ProbabilityTheory

variable {Ω : Type} [MeasurableSpace Ω] {d : ℕ} {μ : Measure Ω} {kern : Fin d → List ℝ → List ℝ → ℝ} {mean : Fin d → List ℝ → ℝ}
  {noise : Fin d → ℝ} {F : Ω → List ℝ → Fin d → ℝ} {ε : Ω → ℕ → Fin d → ℝ}

/-! ## Covariances -/

theorem dev_integrable [IsProbabilityMeasure μ] (h : PriorMoments μ kern mean noise F ε) (a : Fin d × (List ℝ ⊕ ℕ)) :
    Integrable (deviation mean F ε a) μ := (h.square_integrable a).integrable (by norm_num)

theorem value_integrable [IsProbabilityMeasure μ] (h : PriorMoments μ kern mean noise F ε) (x : List ℝ) (i : Fin d) :
    Integrable (fun ω => F ω x i) μ := by
  have := (dev_integrable h (i, .inl x)).add (integrable_const (mean i x))
  refine this.congr (Filter.Eventually.of_forall fun ω => ?_)
  simp [deviation]

theorem dev_mean [IsProbabilityMeasure μ] (h : PriorMoments μ kern mean noise F ε) (a : Fin d × (List ℝ ⊕ ℕ)) :
    ∫ ω, deviation mean F ε a ω ∂μ = 0 := by
  obtain ⟨i, x | t⟩ := a
  · simp only [deviation]
    rw [integral_sub (value_integrable h x i) (integrable_const _), h.mean_value]
    simp
  · exact h.mean_error t i

theorem cov_values [IsProbabilityMeasure μ] (h : PriorMoments μ kern mean noise F ε) (x y : List ℝ) (i j : Fin d) :
    cov[deviation mean F ε (i, .inl x), deviation mean F ε (j, .inl y); μ] = if i = j then kern i x y else 0 := by
  simp only [deviation]
  rw [covariance_sub_const_left (value_integrable h x i), covariance_sub_const_right (value_integrable h y j)]
  split_ifs with hij
  · subst hij
    exact h.values x y i
  · exact h.components x y i j hij

theorem cov_value_error [IsProbabilityMeasure μ] (h : PriorMoments μ kern mean noise F ε) (x : List ℝ) (t : ℕ) (i j : Fin d) :
    cov[deviation mean F ε (i, .inl x), deviation mean F ε (j, .inr t); μ] = 0 := by
  simp only [deviation]
  rw [covariance_sub_const_left (value_integrable h x i)]
  exact h.values_errors x t i j

theorem cov_errors [IsProbabilityMeasure μ] (h : PriorMoments μ kern mean noise F ε) (t u : ℕ) (i j : Fin d) :
    cov[deviation mean F ε (i, .inr t), deviation mean F ε (j, .inr u); μ] = if i = j ∧ t = u then noise i else 0 := by
  split_ifs with hij
  · obtain ⟨rfl, rfl⟩ := hij
    rw [covariance_self (h.square_integrable (i, .inr t)).aestronglyMeasurable.aemeasurable]
    exact h.errors t i
  · exact h.different_errors t u i j fun e => hij ⟨congrArg Prod.snd e, congrArg Prod.fst e⟩

/-! ## Measurements and residuals -/

/-- The deviation of measurement number `k` at the inputs `X`. -/
def datum (mean : Fin d → List ℝ → ℝ) (F : Ω → List ℝ → Fin d → ℝ) (ε : Ω → ℕ → Fin d → ℝ) (X : List (List ℝ)) (k : Fin X.length) (j : Fin d) :
    Ω → ℝ := deviation mean F ε (j, .inl (X.get k)) + deviation mean F ε (j, .inr k)

theorem datum_memLp (h : PriorMoments μ kern mean noise F ε) (X : List (List ℝ)) (k : Fin X.length) (j : Fin d) :
    MemLp (datum mean F ε X k j) 2 μ := (h.square_integrable _).add (h.square_integrable _)

theorem cov_value_datum [IsProbabilityMeasure μ] (h : PriorMoments μ kern mean noise F ε) (x : List ℝ) (X : List (List ℝ)) (l : Fin X.length)
    (i j : Fin d) : cov[deviation mean F ε (i, .inl x), datum mean F ε X l j; μ] = if i = j then kern i x (X.get l) else 0 := by
  rw [datum, covariance_add_right (h.square_integrable _) (h.square_integrable _) (h.square_integrable _), cov_values h, cov_value_error h, add_zero]

theorem cov_datum [IsProbabilityMeasure μ] (h : PriorMoments μ kern mean noise F ε) (X : List (List ℝ)) (k l : Fin X.length) (i j : Fin d) :
    cov[datum mean F ε X k i, datum mean F ε X l j; μ] = if i = j then noisyGram (kern i) (noise i) X.get k l else 0 := by
  rw [datum, covariance_add_left (h.square_integrable _) (h.square_integrable _) (datum_memLp h X l j), cov_value_datum h, datum,
    covariance_add_right (h.square_integrable _) (h.square_integrable _) (h.square_integrable _), cov_errors h, covariance_comm, cov_value_error h, zero_add]
  by_cases hij : i = j
  · subst hij
    simp only [if_true, true_and, noisyGram, Matrix.add_apply, Matrix.of_apply, Matrix.smul_apply, Matrix.one_apply, smul_eq_mul, mul_ite, mul_one, mul_zero]
    congr 1
    simp only [Fin.ext_iff]
  · simp [hij]

/-- The difference between the true value at `x` and the posterior mean of the measurements at the inputs `X`. -/
noncomputable def residual (kern : Fin d → List ℝ → List ℝ → ℝ) (mean : Fin d → List ℝ → ℝ) (noise : Fin d → ℝ)
    (F : Ω → List ℝ → Fin d → ℝ) (ε : Ω → ℕ → Fin d → ℝ) (X : List (List ℝ)) (i : Fin d) (x : List ℝ) : Ω → ℝ := fun ω =>
  F ω x i - posteriorMean (kern i) (mean i) (noise i) X.get (fun k => F ω (X.get k) i + ε ω k i) x

theorem residual_eq {X : List (List ℝ)} {i : Fin d} (hpd : PD (noisyGram (kern i) (noise i) X.get)) (x : List ℝ) :
    residual kern mean noise F ε X i x =
      fun ω => deviation mean F ε (i, .inl x) ω - ∑ k, dataWeights (kern i) (noise i) X.get x k * datum mean F ε X k i ω := by
  funext ω
  unfold residual
  rw [posteriorMean_weights hpd]
  simp only [datum, deviation, Pi.add_apply]
  rw [← sub_sub]
  congr 1
  exact Finset.sum_congr rfl fun k _ => by ring

theorem sum_memLp (h : PriorMoments μ kern mean noise F ε) (X : List (List ℝ)) (i : Fin d) (w : Fin X.length → ℝ) :
    MemLp (fun ω => ∑ k, w k * datum mean F ε X k i ω) 2 μ := by
  have := memLp_finsetSum' (μ := μ) (p := 2) Finset.univ (f := fun k ω => w k * datum mean F ε X k i ω)
    fun k _ => (datum_memLp h X k i).const_mul (w k)
  convert this using 1
  ext ω
  simp

theorem residual_memLp (h : PriorMoments μ kern mean noise F ε) {X : List (List ℝ)} {i : Fin d} (hpd : PD (noisyGram (kern i) (noise i) X.get))
    (x : List ℝ) : MemLp (residual kern mean noise F ε X i x) 2 μ := by
  rw [residual_eq hpd]
  exact (h.square_integrable _).sub (sum_memLp h X i _)

theorem datum_mean [IsProbabilityMeasure μ] (h : PriorMoments μ kern mean noise F ε) (X : List (List ℝ)) (k : Fin X.length) (j : Fin d) :
    ∫ ω, datum mean F ε X k j ω ∂μ = 0 := by
  unfold datum
  simp only [Pi.add_apply]
  rw [integral_add (dev_integrable h _) (dev_integrable h _), dev_mean h, dev_mean h, add_zero]

theorem residual_mean [IsProbabilityMeasure μ] (h : PriorMoments μ kern mean noise F ε) {X : List (List ℝ)} {i : Fin d}
    (hpd : PD (noisyGram (kern i) (noise i) X.get)) (x : List ℝ) : ∫ ω, residual kern mean noise F ε X i x ω ∂μ = 0 := by
  rw [residual_eq hpd, integral_sub (dev_integrable h _) ((sum_memLp h X i _).integrable (by norm_num)), dev_mean h,
    integral_finsetSum _ fun k _ => ((datum_memLp h X k i).const_mul _).integrable (by norm_num)]
  simp [integral_const_mul, datum_mean h]

theorem cov_weighted [IsProbabilityMeasure μ] (h : PriorMoments μ kern mean noise F ε) (X : List (List ℝ)) (i : Fin d) (w : Fin X.length → ℝ)
    (Z : Ω → ℝ) (hZ : MemLp Z 2 μ) :
    cov[fun ω => ∑ k, w k * datum mean F ε X k i ω, Z; μ] = ∑ k, w k * cov[datum mean F ε X k i, Z; μ] := by
  rw [covariance_fun_sum_left (fun k => (datum_memLp h X k i).const_mul (w k)) hZ]
  exact Finset.sum_congr rfl fun k _ => covariance_const_mul_left _

/-- The residual is uncorrelated with all measurements, of all components. -/
theorem residual_datum [IsProbabilityMeasure μ] (h : PriorMoments μ kern mean noise F ε) {X : List (List ℝ)} {i : Fin d}
    (hpd : PD (noisyGram (kern i) (noise i) X.get)) (x : List ℝ) (l : Fin X.length) (j : Fin d) :
    cov[residual kern mean noise F ε X i x, datum mean F ε X l j; μ] = 0 := by
  rw [residual_eq hpd, covariance_fun_sub_left (h.square_integrable _) (sum_memLp h X i _) (datum_memLp h X l j), cov_value_datum h,
    cov_weighted h X i _ _ (datum_memLp h X l j)]
  simp only [cov_datum h]
  split_ifs with hij
  · subst hij
    have hw : noisyGram (kern i) (noise i) X.get *ᵥ dataWeights (kern i) (noise i) X.get x = fun k => kern i (X.get k) x := by
      rw [dataWeights, Matrix.mulVec_mulVec, Matrix.mul_nonsing_inv _ hpd.det_ne.isUnit, Matrix.one_mulVec]
    have h1 := congrFun hw l
    rw [Matrix.mulVec, dotProduct] at h1
    have h2 : kern i x (X.get l) = kern i (X.get l) x := by
      rw [← h.values, ← h.values, covariance_comm]
    rw [h2, ← h1, sub_eq_zero]
    exact Finset.sum_congr rfl fun k _ => by rw [hpd.symm l k, mul_comm]
  · simp

/-- The variance of the residual is the posterior variance. -/
theorem residual_variance [IsProbabilityMeasure μ] (h : PriorMoments μ kern mean noise F ε) {X : List (List ℝ)} {i : Fin d}
    (hpd : PD (noisyGram (kern i) (noise i) X.get)) (x : List ℝ) :
    Var[residual kern mean noise F ε X i x; μ] = posteriorCov (kern i) (noise i) X.get x x := by
  have hm := residual_memLp h hpd x
  rw [← covariance_self hm.aestronglyMeasurable.aemeasurable]
  conv_lhs => rw [covariance_comm]
  nth_rewrite 1 [residual_eq hpd]
  rw [covariance_fun_sub_left (h.square_integrable _) (sum_memLp h X i _) hm, cov_weighted h X i _ _ hm]
  have h1 : ∀ k, cov[datum mean F ε X k i, residual kern mean noise F ε X i x; μ] = 0 := fun k => by
    rw [covariance_comm, residual_datum h hpd]
  simp only [h1, mul_zero, Finset.sum_const_zero, sub_zero]
  rw [covariance_comm, residual_eq hpd, covariance_fun_sub_left (h.square_integrable _) (sum_memLp h X i _) (h.square_integrable _),
    cov_weighted h X i _ _ (h.square_integrable _), cov_values h, if_pos rfl, posteriorCov]
  congr 1
  rw [dotProduct]
  refine Finset.sum_congr rfl fun k _ => ?_
  rw [covariance_comm, cov_value_datum h, if_pos rfl, mul_comm]
  congr 1
  rw [← h.values, ← h.values, covariance_comm]

/-- The mean squared difference between the true value and the posterior mean is the posterior variance. -/
theorem residual_square [IsProbabilityMeasure μ] (h : PriorMoments μ kern mean noise F ε) {X : List (List ℝ)} {i : Fin d}
    (hpd : PD (noisyGram (kern i) (noise i) X.get)) (x : List ℝ) :
    ∫ ω, residual kern mean noise F ε X i x ω ^ 2 ∂μ = posteriorCov (kern i) (noise i) X.get x x := by
  rw [← residual_variance h hpd x, variance_eq_integral (residual_memLp h hpd x).aestronglyMeasurable.aemeasurable, residual_mean h hpd x]
  simp

/-! ## Tails -/

theorem chebyshev_tail [IsProbabilityMeasure μ] {e : Ω → ℝ} (he : MemLp e 2 μ) {v : ℝ} (hv : ∫ ω, e ω ^ 2 ∂μ = v) {b : ℝ} (hb : 0 < b) :
    μ.real {ω | b * Real.sqrt v < |e ω|} ≤ 1 / b ^ 2 := by
  have hi : Integrable (fun ω => e ω ^ 2) μ := he.integrable_sq
  have hv0 : 0 ≤ v := hv ▸ integral_nonneg fun ω => sq_nonneg _
  rcases hv0.eq_or_lt with h0 | h0
  · have hz : (fun ω => e ω ^ 2) =ᵐ[μ] 0 := (integral_eq_zero_iff_of_nonneg (fun ω => sq_nonneg _) hi).mp (hv.trans h0.symm)
    have : μ {ω | b * Real.sqrt v < |e ω|} = 0 := by
      refine measure_mono_null (fun ω hω => ?_) (ae_iff.mp hz)
      rw [Set.mem_ofPred_eq, ← h0, Real.sqrt_zero, mul_zero, abs_pos] at hω
      simpa using hω
    rw [measureReal_def, this]
    simp only [ENNReal.toReal_zero]
    positivity
  · have h1 := mul_meas_ge_le_integral_of_nonneg (μ := μ) (Filter.Eventually.of_forall fun ω => sq_nonneg (e ω)) hi (b ^ 2 * v)
    have h2 : μ.real {ω | b * Real.sqrt v < |e ω|} ≤ μ.real {ω | b ^ 2 * v ≤ e ω ^ 2} := by
      refine measureReal_mono fun ω hω => ?_
      rw [Set.mem_ofPred_eq] at hω ⊢
      have h3 : (b * Real.sqrt v) ^ 2 ≤ |e ω| ^ 2 := pow_le_pow_left₀ (by positivity) hω.le 2
      rwa [mul_pow, Real.sq_sqrt h0.le, sq_abs] at h3
    rw [hv] at h1
    have h4 : b ^ 2 * μ.real {ω | b ^ 2 * v ≤ e ω ^ 2} ≤ 1 := by
      have : v * (b ^ 2 * μ.real {ω | b ^ 2 * v ≤ e ω ^ 2}) ≤ v * 1 := by linarith
      exact le_of_mul_le_mul_left this h0
    rw [le_div_iff₀ (by positivity)]
    nlinarith [sq_nonneg b]

theorem gaussian_tail [IsProbabilityMeasure μ] {e : Ω → ℝ} {v : ℝ} (hv0 : 0 ≤ v) (he : μ.map e = gaussianReal 0 v.toNNReal) {b : ℝ} (hb : 0 < b) :
    μ.real {ω | b * Real.sqrt v < |e ω|} ≤ 2 * Real.exp (-b ^ 2 / 2) := by
  have hm : AEMeasurable e μ := AEMeasurable.of_map_ne_zero (by rw [he]; exact NeZero.ne _)
  have hs : HasSubgaussianMGF e v.toNNReal μ := by
    refine ⟨fun t => ?_, fun t => ?_⟩
    · have := integrable_exp_mul_gaussianReal (μ := 0) (v := v.toNNReal) t
      rw [← he, integrable_map_measure (by fun_prop) hm] at this
      exact this
    · rw [mgf_gaussianReal he]
      simp
  rcases hv0.eq_or_lt with h0 | h0
  · have hz : e =ᵐ[μ] 0 := by
      rw [← h0, Real.toNNReal_zero] at hs
      exact hs.ae_eq_zero_of_hasSubgaussianMGF_zero
    have : μ {ω | b * Real.sqrt v < |e ω|} = 0 := by
      refine measure_mono_null (fun ω hω => ?_) (ae_iff.mp hz)
      rw [Set.mem_ofPred_eq, ← h0, Real.sqrt_zero, mul_zero, abs_pos] at hω
      simpa using hω
    rw [measureReal_def, this]
    simp only [ENNReal.toReal_zero]
    positivity
  · have hq : -(b * Real.sqrt v) ^ 2 / (2 * (v.toNNReal : ℝ)) = -b ^ 2 / 2 := by
      rw [Real.coe_toNNReal _ hv0, mul_pow, Real.sq_sqrt hv0]
      field_simp
    have h1 := hs.measure_ge_le (ε := b * Real.sqrt v) (by positivity)
    have h2 := hs.neg.measure_ge_le (ε := b * Real.sqrt v) (by positivity)
    rw [hq] at h1 h2
    have h3 : {ω | b * Real.sqrt v < |e ω|} ⊆ {ω | b * Real.sqrt v ≤ e ω} ∪ {ω | b * Real.sqrt v ≤ (-e) ω} := by
      intro ω hω
      rw [Set.mem_ofPred_eq, lt_abs] at hω
      exact hω.imp le_of_lt le_of_lt
    have h4 := measureReal_mono (μ := μ) h3
    have h5 := measureReal_union_le (μ := μ) {ω | b * Real.sqrt v ≤ e ω} {ω | b * Real.sqrt v ≤ (-e) ω}
    linarith

/-! ## Gaussian priors -/

/-- The residual is independent of all measurements, of all components. -/
theorem residual_indep [IsProbabilityMeasure μ] (h : GaussianPrior μ kern mean noise F ε) {X : List (List ℝ)} {i : Fin d}
    (hpd : PD (noisyGram (kern i) (noise i) X.get)) (x : List ℝ) :
    IndepFun (residual kern mean noise F ε X i x) (fun ω (k : Fin X.length) (j : Fin d) => F ω (X.get k) j + ε ω k j) μ := by
  classical
  have hg : IsGaussianProcess (Sum.elim (fun _ : Unit => residual kern mean noise F ε X i x)
      fun a : Fin X.length × Fin d => datum mean F ε X a.1 a.2) μ := by
    refine h.gaussian.of_isGaussianProcess fun s => ?_
    let I : Finset (Fin d × (List ℝ ⊕ ℕ)) := {(i, .inl x)} ∪ (Finset.univ.image fun a : Fin X.length × Fin d => (a.2, .inl (X.get a.1))) ∪
      (Finset.univ.image fun a : Fin X.length × Fin d => (a.2, .inr (a.1 : ℕ)))
    have m1 : (i, .inl x) ∈ I := by simp [I]
    have m2 : ∀ a : Fin X.length × Fin d, (a.2, .inl (X.get a.1)) ∈ I := fun a => by
      refine Finset.mem_union_left _ (Finset.mem_union_right _ (Finset.mem_image_of_mem (fun a : Fin X.length × Fin d => (a.2, Sum.inl (X.get a.1))) (Finset.mem_univ a)))
    have m3 : ∀ a : Fin X.length × Fin d, (a.2, .inr (a.1 : ℕ)) ∈ I := fun a =>
      Finset.mem_union_right _ (Finset.mem_image_of_mem (fun a : Fin X.length × Fin d => (a.2, Sum.inr (a.1 : ℕ))) (Finset.mem_univ a))
    refine ⟨I, ?_⟩
    rcases s with s | a
    · refine ⟨ContinuousLinearMap.proj (R := ℝ) (φ := fun _ : I => ℝ) ⟨_, m1⟩ - ∑ k : Fin X.length, dataWeights (kern i) (noise i) X.get x k •
        (ContinuousLinearMap.proj (R := ℝ) (φ := fun _ : I => ℝ) ⟨_, m2 (k, i)⟩ + ContinuousLinearMap.proj (R := ℝ) (φ := fun _ : I => ℝ) ⟨_, m3 (k, i)⟩), fun ω => ?_⟩
      simp [residual_eq hpd, datum, mul_add]
    · refine ⟨ContinuousLinearMap.proj (R := ℝ) (φ := fun _ : I => ℝ) ⟨_, m2 a⟩ + ContinuousLinearMap.proj (R := ℝ) (φ := fun _ : I => ℝ) ⟨_, m3 a⟩, fun ω => ?_⟩
      simp [datum]
  have hi := hg.indepFun_of_covariance_eq_zero (fun _ => (residual_memLp h.toPriorMoments hpd x).aestronglyMeasurable.aemeasurable)
    (fun a => (datum_memLp h.toPriorMoments X a.1 a.2).aestronglyMeasurable.aemeasurable) fun _ a => residual_datum h.toPriorMoments hpd x a.1 a.2
  have := hi.comp (φ := fun u : Unit → ℝ => u ()) (ψ := fun y : Fin X.length × Fin d → ℝ => fun (k : Fin X.length) (j : Fin d) => y (k, j) + mean j (X.get k))
    (show Measurable fun u : Unit → ℝ => u () by fun_prop) (by fun_prop)
  refine this.congr (Filter.Eventually.of_forall fun ω => rfl) (Filter.Eventually.of_forall fun ω => ?_)
  funext k j
  simp only [Function.comp, datum, deviation, Pi.add_apply]
  ring

theorem residual_law [IsProbabilityMeasure μ] (h : GaussianPrior μ kern mean noise F ε) {X : List (List ℝ)} {i : Fin d}
    (hpd : PD (noisyGram (kern i) (noise i) X.get)) (x : List ℝ) :
    μ.map (residual kern mean noise F ε X i x) = gaussianReal 0 (posteriorCov (kern i) (noise i) X.get x x).toNNReal := by
  classical
  have hg : HasGaussianLaw (residual kern mean noise F ε X i x) μ := by
    have : IsGaussianProcess (fun _ : Unit => residual kern mean noise F ε X i x) μ := by
      refine h.gaussian.of_isGaussianProcess fun s => ?_
      let I : Finset (Fin d × (List ℝ ⊕ ℕ)) := {(i, .inl x)} ∪ (Finset.univ.image fun k : Fin X.length => (i, .inl (X.get k))) ∪
        (Finset.univ.image fun k : Fin X.length => (i, .inr (k : ℕ)))
      have m1 : (i, .inl x) ∈ I := by simp [I]
      have m2 : ∀ k : Fin X.length, (i, .inl (X.get k)) ∈ I := fun k =>
        Finset.mem_union_left _ (Finset.mem_union_right _ (Finset.mem_image_of_mem (fun k : Fin X.length => (i, Sum.inl (X.get k))) (Finset.mem_univ k)))
      have m3 : ∀ k : Fin X.length, (i, .inr (k : ℕ)) ∈ I := fun k =>
        Finset.mem_union_right _ (Finset.mem_image_of_mem (fun k : Fin X.length => (i, Sum.inr (k : ℕ))) (Finset.mem_univ k))
      refine ⟨I, ContinuousLinearMap.proj (R := ℝ) (φ := fun _ : I => ℝ) ⟨_, m1⟩ - ∑ k : Fin X.length, dataWeights (kern i) (noise i) X.get x k •
        (ContinuousLinearMap.proj (R := ℝ) (φ := fun _ : I => ℝ) ⟨_, m2 k⟩ + ContinuousLinearMap.proj (R := ℝ) (φ := fun _ : I => ℝ) ⟨_, m3 k⟩), fun ω => ?_⟩
      simp [residual_eq hpd, datum, mul_add]
    exact this.hasGaussianLaw_eval ()
  rw [hg.map_eq_gaussianReal, residual_variance h.toPriorMoments hpd, residual_mean h.toPriorMoments hpd]

end SafeLearning
