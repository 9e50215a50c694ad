import Verif.Lemmas.FeaturePrior
import Mathlib.Analysis.Complex.ExponentialBounds
set_option autoImplicit false

/-!
# C137: the predictions are the posterior of a random function
-/

namespace SafeLearning

open Matrix Spec MeasureTheory ProbabilityTheory

variable {Ω : Type} [MeasurableSpace Ω] {d : ℕ} {μ : Measure Ω} {F : Ω → List ℝ → Fin d → ℝ} {ε : Ω → ℕ → Fin d → ℝ}

/-! ## Specification -/

/-- The first two moments of the true function and of the measurement errors are those of the processes. -/
def _root_.Spec.MomentsOf (μ : Measure Ω) (gps : Fin d → GPModel 1) (F : Ω → List ℝ → Fin d → ℝ) (ε : Ω → ℕ → Fin d → ℝ) : Prop :=
  Spec.PriorMoments μ (fun i => (gps i).kern) (fun i x => (gps i).mean x 0) (fun i => (gps i).noise) F ε

/-- The true function and the measurement errors are drawn from the priors of the processes. -/
def _root_.Spec.DrawnFrom (μ : Measure Ω) (gps : Fin d → GPModel 1) (F : Ω → List ℝ → Fin d → ℝ) (ε : Ω → ℕ → Fin d → ℝ) : Prop :=
  Spec.GaussianPrior μ (fun i => (gps i).kern) (fun i x => (gps i).mean x 0) (fun i => (gps i).noise) F ε

/-- The process `i` has seen the component `i` of the measurements `Y` at the inputs `X`. -/
def _root_.Spec.TrainedComponent (gps : Fin d → GPModel 1) (i : Fin d) (s : GPState 1) (X : List (List ℝ)) (Y : List (Fin d → ℝ)) : Prop :=
  Spec.TrainedOn (gps i) s X (Y.map fun y => [y i])

/-! ## The predictions of a trained process -/

theorem entryOf_measurements (f : List ℝ → Fin d → ℝ) (n : ℕ → Fin d → ℝ) (X : List (List ℝ)) (i : Fin d) (k : Fin X.length) :
    entryOf ((measurements f n X).map fun y => [y i]) k 0 = f (X.get k) i + n k i := by
  simp [entryOf, measurements, List.getD_eq_getElem?_getD]

theorem trained_rows (gps : Fin d → GPModel 1) (i : Fin d) (hscale : (gps i).scale ≠ 0) (beta : ℝ) (f : List ℝ → Fin d → ℝ) (n : ℕ → Fin d → ℝ)
    (X : List (List ℝ)) (s : GPState 1) (hs : Spec.TrainedComponent gps i s X (measurements f n X)) (pts : List (List ℝ)) :
    PD (noisyGram (gps i).kern (gps i).noise X.get) ∧ (gps i).evaluateRows beta s pts =
      .ok (List.ofFn fun r : Fin pts.length => [posteriorMean (gps i).kern (fun x => (gps i).mean x 0) (gps i).noise X.get
          (fun k => f (X.get k) i + n k i) (pts.get r)],
        List.ofFn fun r : Fin pts.length => [beta * Real.sqrt (posteriorCov (gps i).kern (gps i).noise X.get (pts.get r) (pts.get r))]) := by
  have hlen : ((measurements f n X).map fun y => [y i]).length = X.length := by simp [measurements]
  have hent := entryOf_measurements f n X i
  unfold Spec.TrainedComponent at hs
  generalize (measurements f n X).map (fun y => [y i]) = Y at *
  obtain ⟨X₀, Y₀, s₀, calls, h1, h2, rfl, rfl⟩ := hs
  have hinit := (C54_history (gps i) X₀ Y₀ s₀ h1 calls s h2).2.2
  obtain ⟨mean, error, e, he⟩ := C53_posterior (gps i) hscale beta _ _ pts hlen s hinit
  obtain ⟨cache, hcache, -⟩ := init_inv hinit
  refine ⟨computeCache_pd hscale hcache, ?_⟩
  unfold GPModel.evaluateRows
  rw [e]
  simp only [bind, Except.bind, pure, Except.pure, List.ofFn_succ, List.ofFn_zero]
  congr 2
  · congr 1
    funext r
    rw [(he r 0).1]
    congr 2
    funext k
    exact hent k
  · congr 1
    funext r
    rw [(he r 0).2]

theorem trained_point (gps : Fin d → GPModel 1) (i : Fin d) (hscale : (gps i).scale ≠ 0) (beta : ℝ) (f : List ℝ → Fin d → ℝ) (n : ℕ → Fin d → ℝ)
    (X : List (List ℝ)) (s : GPState 1) (hs : Spec.TrainedComponent gps i s X (measurements f n X)) (x : List ℝ) :
    PD (noisyGram (gps i).kern (gps i).noise X.get) ∧ (gps i).evaluateRows beta s [x] =
      .ok ([[posteriorMean (gps i).kern (fun x => (gps i).mean x 0) (gps i).noise X.get (fun k => f (X.get k) i + n k i) x]],
        [[beta * Real.sqrt (posteriorCov (gps i).kern (gps i).noise X.get x x)]]) :=
  trained_rows gps i hscale beta f n X s hs [x]

/-! ## Calibration -/

/-- **C137 (calibration).** Whatever the distribution of the true function: if its moments are those of the prior, the prediction of a process that was trained on measurements at
the inputs `X` is unbiased, and the error that is returned is `beta` times the root of the mean squared difference between the true value and the mean that is
returned. -/
theorem C137_calibrated [IsProbabilityMeasure μ] (gps : Fin d → GPModel 1) (h : Spec.MomentsOf μ gps F ε) (i : Fin d)
    (hscale : (gps i).scale ≠ 0) (beta : ℝ) (X : List (List ℝ)) (s : Ω → GPState 1)
    (hs : ∀ ω, Spec.TrainedComponent gps i (s ω) X (measurements (F ω) (ε ω) X)) (x : List ℝ) :
    ∃ (m : Ω → ℝ) (v : ℝ), (∀ ω, (gps i).evaluateRows beta (s ω) [x] = .ok ([[m ω]], [[beta * Real.sqrt v]])) ∧
      ∫ ω, F ω x i - m ω ∂μ = 0 ∧ ∫ ω, (F ω x i - m ω) ^ 2 ∂μ = v := by
  obtain ⟨ω₀⟩ := nonempty_of_isProbabilityMeasure μ
  have hpd := (trained_point gps i hscale beta _ _ X (s ω₀) (hs ω₀) x).1
  exact ⟨_, _, fun ω => (trained_point gps i hscale beta _ _ X (s ω) (hs ω) x).2, residual_mean h hpd x, residual_square h hpd x⟩

/-- **C137 (best linear prediction).** No prediction that is affine in the measurements has a smaller mean squared difference to the true value than the mean that is returned. -/
theorem C137_best_linear [IsProbabilityMeasure μ] (gps : Fin d → GPModel 1) (h : Spec.MomentsOf μ gps F ε) (i : Fin d)
    (hscale : (gps i).scale ≠ 0) (beta : ℝ) (X : List (List ℝ)) (s : Ω → GPState 1)
    (hs : ∀ ω, Spec.TrainedComponent gps i (s ω) X (measurements (F ω) (ε ω) X)) (x : List ℝ) :
    ∃ (m : Ω → ℝ) (e : ℝ), (∀ ω, (gps i).evaluateRows beta (s ω) [x] = .ok ([[m ω]], [[e]])) ∧
      ∀ (c : ℝ) (a : Fin X.length → ℝ),
        ∫ ω, (F ω x i - m ω) ^ 2 ∂μ ≤ ∫ ω, (F ω x i - (c + ∑ k, a k * (F ω (X.get k) i + ε ω k i))) ^ 2 ∂μ := by
  obtain ⟨ω₀⟩ := nonempty_of_isProbabilityMeasure μ
  have hpd := (trained_point gps i hscale beta _ _ X (s ω₀) (hs ω₀) x).1
  refine ⟨_, _, fun ω => (trained_point gps i hscale beta _ _ X (s ω) (hs ω) x).2, fun c a => ?_⟩
  set kern := fun i => (gps i).kern
  set mean := fun (i : Fin d) x => (gps i).mean x 0
  set noise := fun i => (gps i).noise
  set w := dataWeights (kern i) (noise i) X.get x with hw
  set e := residual kern mean noise F ε X i x with he
  -- the difference between the two predictions
  set c' := mean i x - c - ∑ k, a k * mean i (X.get k) with hc'
  set g : Ω → ℝ := fun ω => c' + ∑ k, (w k - a k) * datum mean F ε X k i ω with hg
  have hsplit : ∀ ω, F ω x i - (c + ∑ k, a k * (F ω (X.get k) i + ε ω k i)) = e ω + g ω := by
    intro ω
    have h1 := congrFun (residual_eq (kern := kern) (mean := mean) (noise := noise) (F := F) (ε := ε) hpd x) ω
    rw [← he] at h1
    rw [h1, hg]
    simp only [← hw, hc', sub_mul, Finset.sum_sub_distrib]
    have h2 : ∑ k, a k * (F ω (X.get k) i + ε ω k i) = ∑ k, a k * datum mean F ε X k i ω + ∑ k, a k * mean i (X.get k) := by
      rw [← Finset.sum_add_distrib]
      exact Finset.sum_congr rfl fun k _ => by simp only [datum, deviation, Pi.add_apply]; ring
    rw [h2]
    simp only [deviation]
    ring
  have hem : MemLp e 2 μ := residual_memLp h hpd x
  have hgm : MemLp g 2 μ := (memLp_const c').add (sum_memLp h X i _)
  have hcross : ∫ ω, e ω * g ω ∂μ = 0 := by
    have h1 := covariance_eq_sub hem hgm
    rw [show ∫ ω, e ω ∂μ = 0 from residual_mean h hpd x, zero_mul, sub_zero] at h1
    have h2 : cov[e, g; μ] = 0 := by
      rw [hg, covariance_comm, covariance_const_add_left ((sum_memLp h X i _).integrable (by norm_num)), cov_weighted h X i _ _ hem]
      refine Finset.sum_eq_zero fun k _ => ?_
      rw [covariance_comm, residual_datum h hpd, mul_zero]
    rw [← h2, h1]
    rfl
  have hexp : ∫ ω, (F ω x i - (c + ∑ k, a k * (F ω (X.get k) i + ε ω k i))) ^ 2 ∂μ = ∫ ω, e ω ^ 2 ∂μ + ∫ ω, g ω ^ 2 ∂μ := by
    have h1 : ∀ ω, (F ω x i - (c + ∑ k, a k * (F ω (X.get k) i + ε ω k i))) ^ 2 = e ω ^ 2 + 2 * (e ω * g ω) + g ω ^ 2 := by
      intro ω
      rw [hsplit]
      ring
    simp only [h1]
    have i1 : Integrable (fun ω => 2 * (e ω * g ω)) μ := (hem.integrable_mul hgm).const_mul 2
    have i2 : Integrable (fun ω => e ω ^ 2 + 2 * (e ω * g ω)) μ := hem.integrable_sq.add i1
    rw [integral_add i2 hgm.integrable_sq, integral_add hem.integrable_sq i1, integral_const_mul, hcross]
    ring
  rw [hexp]
  have : 0 ≤ ∫ ω, g ω ^ 2 ∂μ := integral_nonneg fun ω => sq_nonneg _
  exact le_add_of_nonneg_right this

/-! ## The posterior distribution -/

theorem measurable_posteriorMean (gp : GPModel 1) (X : List (List ℝ)) (i : Fin d) (x : List ℝ) :
    Measurable fun y : Fin X.length → Fin d → ℝ => posteriorMean gp.kern (fun x => gp.mean x 0) gp.noise X.get (fun k => y k i) x := by
  unfold posteriorMean
  simp only [dotProduct, Matrix.mulVec]
  fun_prop

/-- **C137 (Bayes).** If the true function and the measurement errors are drawn from the priors, the prediction is the conditional distribution of the true value given all
measurements, of all components: a Gaussian distribution whose mean is the mean that is returned, and whose standard deviation is the error that is returned divided by `beta`. -/
theorem C137_bayes [IsProbabilityMeasure μ] (gps : Fin d → GPModel 1) (h : Spec.DrawnFrom μ gps F ε) (i : Fin d)
    (hscale : (gps i).scale ≠ 0) (beta : ℝ) (X : List (List ℝ)) (s : Ω → GPState 1)
    (hs : ∀ ω, Spec.TrainedComponent gps i (s ω) X (measurements (F ω) (ε ω) X)) (x : List ℝ) :
    ∃ (m : Ω → ℝ) (v : NNReal), (∀ ω, (gps i).evaluateRows beta (s ω) [x] = .ok ([[m ω]], [[beta * Real.sqrt v]])) ∧
      ∀ (A : Set (Fin X.length → Fin d → ℝ)) (B : Set ℝ), MeasurableSet A → MeasurableSet B →
        μ {ω | (fun k j => F ω (X.get k) j + ε ω k j) ∈ A ∧ F ω x i ∈ B} =
          ∫⁻ ω in {ω | (fun k j => F ω (X.get k) j + ε ω k j) ∈ A}, gaussianReal (m ω) v B ∂μ := by
  obtain ⟨ω₀⟩ := nonempty_of_isProbabilityMeasure μ
  have hpd := (trained_point gps i hscale beta _ _ X (s ω₀) (hs ω₀) x).1
  have hv0 : 0 ≤ posteriorCov (gps i).kern (gps i).noise X.get x x := by
    rw [← residual_variance h.toPriorMoments (kern := fun i => (gps i).kern) (mean := fun i x => (gps i).mean x 0) (noise := fun i => (gps i).noise) hpd]
    exact variance_nonneg _ _
  refine ⟨fun ω => posteriorMean (gps i).kern (fun x => (gps i).mean x 0) (gps i).noise X.get (fun k => F ω (X.get k) i + ε ω k i) x,
    (posteriorCov (gps i).kern (gps i).noise X.get x x).toNNReal, fun ω => ?_, fun A B hA hB => ?_⟩
  · rw [Real.coe_toNNReal _ hv0]
    exact (trained_point gps i hscale beta _ _ X (s ω) (hs ω) x).2
  · set Y : Ω → Fin X.length → Fin d → ℝ := fun ω k j => F ω (X.get k) j + ε ω k j with hY
    set pm : (Fin X.length → Fin d → ℝ) → ℝ := fun y => posteriorMean (gps i).kern (fun x => (gps i).mean x 0) (gps i).noise X.get (fun k => y k i) x with hpm
    have hpmm : Measurable pm := measurable_posteriorMean (gps i) X i x
    set e := residual (fun i => (gps i).kern) (fun i x => (gps i).mean x 0) (fun i => (gps i).noise) F ε X i x with he
    set v := (posteriorCov (gps i).kern (gps i).noise X.get x x).toNNReal with hv
    have hind : IndepFun e Y μ := residual_indep h hpd x
    have hlaw : μ.map e = gaussianReal 0 v := residual_law h hpd x
    have hem : AEMeasurable e μ := (residual_memLp h.toPriorMoments hpd x).aestronglyMeasurable.aemeasurable
    have hYm : AEMeasurable Y μ := by
      refine aemeasurable_pi_lambda _ fun k => aemeasurable_pi_lambda _ fun j => ?_
      have h1 := (datum_memLp h.toPriorMoments X k j).aestronglyMeasurable.aemeasurable.add_const ((gps j).mean (X.get k) 0)
      refine h1.congr (Filter.Eventually.of_forall fun ω => ?_)
      simp only [datum, deviation, Pi.add_apply, hY]
      ring
    have hval : ∀ ω, F ω x i = pm (Y ω) + e ω := by
      intro ω
      simp only [he, residual, hpm, hY]
      ring
    have hprod : μ.map (fun ω => (Y ω, e ω)) = (μ.map Y).prod (gaussianReal 0 v) := by
      rw [← hlaw]
      exact (indepFun_iff_map_prod_eq_prod_map_map hYm hem).mp hind.symm
    have hS : MeasurableSet {z : (Fin X.length → Fin d → ℝ) × ℝ | z.1 ∈ A ∧ pm z.1 + z.2 ∈ B} :=
      (measurable_fst hA).inter (((hpmm.comp measurable_fst).add measurable_snd) hB)
    have h1 : {ω | Y ω ∈ A ∧ F ω x i ∈ B} = (fun ω => (Y ω, e ω)) ⁻¹' {z | z.1 ∈ A ∧ pm z.1 + z.2 ∈ B} := by
      ext ω
      simp only [Set.mem_ofPred_eq, Set.mem_preimage, hval]
    have h2 : ∀ y, gaussianReal 0 v (Prod.mk y ⁻¹' {z | z.1 ∈ A ∧ pm z.1 + z.2 ∈ B}) = A.indicator (fun y => gaussianReal (pm y) v B) y := by
      intro y
      by_cases hy : y ∈ A
      · rw [Set.indicator_of_mem hy]
        have h3 := gaussianReal_map_const_add (μ := 0) (v := v) (pm y)
        rw [zero_add] at h3
        rw [← h3, Measure.map_apply (by fun_prop) hB]
        congr 1
        ext r
        simp [hy]
      · rw [Set.indicator_of_notMem hy]
        have : Prod.mk y ⁻¹' {z : (Fin X.length → Fin d → ℝ) × ℝ | z.1 ∈ A ∧ pm z.1 + z.2 ∈ B} = ∅ := by
          ext r
          simp [hy]
        rw [this, measure_empty]
    have hker : Measurable fun y => gaussianReal (pm y) v B := by
      have := measurable_measure_prodMk_left (ν := gaussianReal 0 v) (s := {z : (Fin X.length → Fin d → ℝ) × ℝ | pm z.1 + z.2 ∈ B})
        (((hpmm.comp measurable_fst).add measurable_snd) hB)
      have h3 : (fun y => gaussianReal (pm y) v B) = fun y => gaussianReal 0 v (Prod.mk y ⁻¹' {z : (Fin X.length → Fin d → ℝ) × ℝ | pm z.1 + z.2 ∈ B}) := by
        funext y
        have h3 := gaussianReal_map_const_add (μ := 0) (v := v) (pm y)
        rw [zero_add] at h3
        rw [← h3, Measure.map_apply (by fun_prop) hB]
        rfl
      rw [h3]
      exact this
    rw [h1, ← Measure.map_apply_of_aemeasurable (hYm.prodMk hem) hS, hprod, Measure.prod_apply hS]
    simp only [h2]
    rw [lintegral_indicator hA, Measure.restrict_map_of_aemeasurable hYm hA, lintegral_map' hker.aemeasurable hYm.restrict]
    rfl

/-! ## Coverage -/

theorem stack_prediction (hd : 0 < d) (gps : Fin d → GPModel 1) (hscale : ∀ i, (gps i).scale ≠ 0) (beta : Fin d → ℝ) (f : List ℝ → Fin d → ℝ)
    (n : ℕ → Fin d → ℝ) (X : List (List ℝ)) (s : Fin d → GPState 1) (hs : ∀ i, Spec.TrainedComponent gps i (s i) X (measurements f n X))
    (pts : List (List ℝ)) :
    stackEvaluate (List.ofFn fun i => (gps i).evaluateRows (beta i) (s i)) pts =
      .ok (List.ofFn fun r : Fin pts.length => List.ofFn fun i => posteriorMean (gps i).kern (fun x => (gps i).mean x 0) (gps i).noise X.get
          (fun k => f (X.get k) i + n k i) (pts.get r),
        List.ofFn fun r : Fin pts.length => List.ofFn fun i =>
          beta i * Real.sqrt (posteriorCov (gps i).kern (gps i).noise X.get (pts.get r) (pts.get r))) :=
  stack_rows hd gps beta s pts
    (fun i r => posteriorMean (gps i).kern (fun x => (gps i).mean x 0) (gps i).noise X.get (fun k => f (X.get k) i + n k i) (pts.get r))
    (fun i r => beta i * Real.sqrt (posteriorCov (gps i).kern (gps i).noise X.get (pts.get r) (pts.get r)))
    fun i => (trained_rows gps i (hscale i) (beta i) f n X (s i) (hs i) pts).2

theorem union_bound {p : ℕ} (A : Fin p → Fin d → Set Ω) (q : Fin d → ℝ) (h : ∀ r i, μ.real (A r i) ≤ q i) :
    μ.real {ω | ∃ r i, ω ∈ A r i} ≤ p * ∑ i, q i := by
  have h1 : {ω | ∃ r i, ω ∈ A r i} = ⋃ a ∈ (Finset.univ : Finset (Fin p × Fin d)), A a.1 a.2 := by
    ext ω
    simp
  rw [h1]
  refine (measureReal_biUnion_finset_le _ _).trans ?_
  refine (Finset.sum_le_sum fun a _ => h a.1 a.2).trans ?_
  rw [← Finset.univ_product_univ, Finset.sum_product]
  simp

/-- **C137 (coverage for all distributions).** If only the first two moments of the prior are right, the intervals for all the points `pts` and all components contain the
true values at the same time, except with a probability of at most `1 / beta ^ 2` for each point and component. -/
theorem C137_chebyshev [IsProbabilityMeasure μ] (hd : 0 < d) (gps : Fin d → GPModel 1) (h : Spec.MomentsOf μ gps F ε)
    (hscale : ∀ i, (gps i).scale ≠ 0) (beta : Fin d → ℝ) (hb : ∀ i, 0 < beta i) (X : List (List ℝ)) (s : Ω → Fin d → GPState 1)
    (hs : ∀ ω i, Spec.TrainedComponent gps i (s ω i) X (measurements (F ω) (ε ω) X)) (pts : List (List ℝ)) :
    ∃ (m : Ω → Fin pts.length → Fin d → ℝ) (e : Fin pts.length → Fin d → ℝ),
      (∀ ω, stackEvaluate (List.ofFn fun i => (gps i).evaluateRows (beta i) (s ω i)) pts =
        .ok (List.ofFn fun r => List.ofFn (m ω r), List.ofFn fun r => List.ofFn (e r))) ∧
      μ.real {ω | ∃ r i, ¬|F ω (pts.get r) i - m ω r i| ≤ e r i} ≤ pts.length * ∑ i, 1 / beta i ^ 2 := by
  obtain ⟨ω₀⟩ := nonempty_of_isProbabilityMeasure μ
  refine ⟨_, _, fun ω => stack_prediction hd gps hscale beta _ _ X (s ω) (hs ω) pts, ?_⟩
  simp only [not_le]
  refine union_bound _ _ fun r i => ?_
  have hpd := (trained_point gps i (hscale i) (beta i) _ _ X (s ω₀ i) (hs ω₀ i) (pts.get r)).1
  exact chebyshev_tail (residual_memLp h hpd (pts.get r)) (residual_square h hpd (pts.get r)) (hb i)

/-- **C137 (coverage for Gaussian processes).** If the true function and the errors are drawn from the priors, the probability is at most `2 exp (-beta ^ 2 / 2)` for each point and
component. -/
theorem C137_gaussian [IsProbabilityMeasure μ] (hd : 0 < d) (gps : Fin d → GPModel 1) (h : Spec.DrawnFrom μ gps F ε)
    (hscale : ∀ i, (gps i).scale ≠ 0) (beta : Fin d → ℝ) (hb : ∀ i, 0 < beta i) (X : List (List ℝ)) (s : Ω → Fin d → GPState 1)
    (hs : ∀ ω i, Spec.TrainedComponent gps i (s ω i) X (measurements (F ω) (ε ω) X)) (pts : List (List ℝ)) :
    ∃ (m : Ω → Fin pts.length → Fin d → ℝ) (e : Fin pts.length → Fin d → ℝ),
      (∀ ω, stackEvaluate (List.ofFn fun i => (gps i).evaluateRows (beta i) (s ω i)) pts =
        .ok (List.ofFn fun r => List.ofFn (m ω r), List.ofFn fun r => List.ofFn (e r))) ∧
      μ.real {ω | ∃ r i, ¬|F ω (pts.get r) i - m ω r i| ≤ e r i} ≤ pts.length * ∑ i, 2 * Real.exp (-beta i ^ 2 / 2) := by
  obtain ⟨ω₀⟩ := nonempty_of_isProbabilityMeasure μ
  refine ⟨_, _, fun ω => stack_prediction hd gps hscale beta _ _ X (s ω) (hs ω) pts, ?_⟩
  simp only [not_le]
  refine union_bound _ _ fun r i => ?_
  have hpd := (trained_point gps i (hscale i) (beta i) _ _ X (s ω₀ i) (hs ω₀ i) (pts.get r)).1
  have hv0 : 0 ≤ posteriorCov (gps i).kern (gps i).noise X.get (pts.get r) (pts.get r) := by
    rw [← residual_square (F := F) (ε := ε) h.toPriorMoments hpd]
    exact integral_nonneg fun _ => sq_nonneg _
  exact gaussian_tail hv0 (residual_law h hpd (pts.get r)) (hb i)

/-! ## Non-vacuity -/

theorem trained_exists (gps : Fin d → GPModel 1) (hk : ∀ i, IsKernel (gps i).kern) (hn : ∀ i, 0 < (gps i).noise) (hscale : ∀ i, (gps i).scale ≠ 0)
    (X : List (List ℝ)) (f : List ℝ → Fin d → ℝ) (n : ℕ → Fin d → ℝ) (i : Fin d) : ∃ s, Spec.TrainedComponent gps i s X (measurements f n X) := by
  obtain ⟨s, hs⟩ := C53_defined (gps i) (hk i) (hn i) (hscale i) X ((measurements f n X).map fun y => [y i]) (by simp [measurements])
  exact ⟨s, _, _, s, [], hs, rfl, by simp, by simp⟩

/-- Two components with the linear kernel: random affine functions, and measurement errors of variance 1. -/
theorem linear_drawn : Spec.DrawnFrom (featureMeasure 2 fun _ : Fin 2 => exampleGP.noise) (fun _ : Fin 2 => exampleGP)
    (featureTruth (fun _ x => exampleGP.mean x 0) fun _ j x => ![1, x.getD 0 0] j) featureError :=
  feature_prior _ _ _ _ (fun _ x y => by simp [exampleGP, linearKernel, Fin.sum_univ_two]) fun _ => by norm_num [exampleGP]

theorem linear_trained (X : List (List ℝ)) (f : List ℝ → Fin 2 → ℝ) (n : ℕ → Fin 2 → ℝ) (i : Fin 2) :
    ∃ s, Spec.TrainedComponent (fun _ : Fin 2 => exampleGP) i s X (measurements f n X) :=
  trained_exists _ (fun _ => linearKernel_isKernel) (fun _ => by norm_num [exampleGP]) (fun _ => by norm_num [exampleGP]) X f n i

theorem exp_three : Real.exp (-(3 : ℝ) ^ 2 / 2) ≤ 1 / 53 := by
  have h1 : (53 : ℝ) ≤ Real.exp 4 := by
    have h := Real.exp_nat_mul 1 4
    have h2 : (2.7 : ℝ) ^ 4 ≤ Real.exp 1 ^ 4 := pow_le_pow_left₀ (by norm_num) (by linarith [Real.exp_one_gt_d9]) 4
    norm_num at h h2 ⊢
    linarith
  calc Real.exp (-(3 : ℝ) ^ 2 / 2) ≤ Real.exp (-4) := Real.exp_le_exp.mpr (by norm_num)
    _ = (Real.exp 4)⁻¹ := Real.exp_neg 4
    _ ≤ 1 / 53 := by
      rw [one_div]
      exact inv_anti₀ (by norm_num) h1

/-- All hypotheses of the theorems are met by two random affine functions and measurements at 1 and 2: the predictions at 0, 4 and 1 contain all true values, except with a
probability of less than a quarter. -/
example : ∃ (Ω : Type) (_ : MeasurableSpace Ω) (μ : Measure Ω) (_ : IsProbabilityMeasure μ) (F : Ω → List ℝ → Fin 2 → ℝ) (s : Ω → Fin 2 → GPState 1)
    (m : Ω → Fin 3 → Fin 2 → ℝ) (e : Fin 3 → Fin 2 → ℝ),
    (∀ ω, stackEvaluate (List.ofFn fun i => exampleGP.evaluateRows 3 (s ω i)) [[0], [4], [1]] =
      .ok (List.ofFn fun r => List.ofFn (m ω r), List.ofFn fun r => List.ofFn (e r))) ∧
    μ.real {ω | ∃ r i, ¬|F ω (([[0], [4], [1]] : List (List ℝ)).get r) i - m ω r i| ≤ e r i} < 1 / 4 := by
  choose s hs using fun ω : Fin 2 × (Fin 2 ⊕ ℕ) → ℝ => linear_trained [[1], [2]]
    (featureTruth (fun _ x => exampleGP.mean x 0) (fun _ j x => ![1, x.getD 0 0] j) ω) (featureError ω)
  obtain ⟨m, e, h1, h2⟩ := C137_gaussian two_pos _ linear_drawn (fun _ => by norm_num [exampleGP]) (fun _ => 3) (fun _ => by norm_num) [[1], [2]] s hs [[0], [4], [1]]
  refine ⟨_, _, _, inferInstance, _, s, m, e, h1, h2.trans_lt ?_⟩
  simp only [List.length_cons, List.length_nil, Fin.sum_univ_two]
  push_cast
  linarith [exp_three]

/-- The prediction at 4 is the conditional distribution, and no affine prediction is better. -/
example : ∃ (Ω : Type) (_ : MeasurableSpace Ω) (μ : Measure Ω) (_ : IsProbabilityMeasure μ) (F : Ω → List ℝ → Fin 2 → ℝ) (ε : Ω → ℕ → Fin 2 → ℝ) (s : Ω → GPState 1)
    (m : Ω → ℝ) (v : NNReal), (∀ ω, exampleGP.evaluateRows 3 (s ω) [[4]] = .ok ([[m ω]], [[3 * Real.sqrt v]])) ∧
    ∫ ω, (F ω [4] 1 - m ω) ^ 2 ∂μ = v ∧
    (∀ (c : ℝ) (a : Fin 2 → ℝ), ∫ ω, (F ω [4] 1 - m ω) ^ 2 ∂μ ≤
      ∫ ω, (F ω [4] 1 - (c + ∑ k, a k * (F ω (([[1], [2]] : List (List ℝ)).get k) 1 + ε ω k 1))) ^ 2 ∂μ) ∧
    ∀ (A : Set (Fin 2 → Fin 2 → ℝ)) (B : Set ℝ), MeasurableSet A → MeasurableSet B →
      μ {ω | (fun k j => F ω (([[1], [2]] : List (List ℝ)).get k) j + ε ω k j) ∈ A ∧ F ω [4] 1 ∈ B} =
        ∫⁻ ω in {ω | (fun k j => F ω (([[1], [2]] : List (List ℝ)).get k) j + ε ω k j) ∈ A}, gaussianReal (m ω) v B ∂μ := by
  choose s hs using fun ω : Fin 2 × (Fin 2 ⊕ ℕ) → ℝ => linear_trained [[1], [2]]
    (featureTruth (fun _ x => exampleGP.mean x 0) (fun _ j x => ![1, x.getD 0 0] j) ω) (featureError ω)
  have hsc : exampleGP.scale ≠ 0 := by norm_num [exampleGP]
  obtain ⟨m, v, h1, h2⟩ := C137_bayes _ linear_drawn 1 hsc 3 [[1], [2]] (fun ω => s ω 1) (fun ω => hs ω 1) [4]
  obtain ⟨m', v', h1', -, h3⟩ := C137_calibrated _ linear_drawn.toPriorMoments 1 hsc 3 [[1], [2]] (fun ω => s ω 1) (fun ω => hs ω 1) [4]
  obtain ⟨m'', e'', h1'', h4⟩ := C137_best_linear _ linear_drawn.toPriorMoments 1 hsc 3 [[1], [2]] (fun ω => s ω 1) (fun ω => hs ω 1) [4]
  have hm' : m' = m := funext fun ω => (show _ ∧ _ by simpa using ((h1' ω).symm.trans (h1 ω))).1
  have hm'' : m'' = m := funext fun ω => (show _ ∧ _ by simpa using ((h1'' ω).symm.trans (h1 ω))).1
  have hv : v' = v := by
    have h5 : Real.sqrt v' = Real.sqrt v := (show _ ∧ _ by simpa using ((h1' fun _ => 0).symm.trans (h1 fun _ => 0))).2
    have h6 : 0 ≤ v' := h3 ▸ integral_nonneg fun _ => sq_nonneg _
    exact (Real.sqrt_inj h6 v.2).mp h5
  rw [hm', hv] at h3
  rw [hm''] at h4
  exact ⟨_, _, _, inferInstance, _, _, fun ω => s ω 1, m, v, h1, h3, h4, h2⟩

end SafeLearning
