import Verif.Lemmas.RandomTruth
import Mathlib.Probability.Independence.InfinitePi
import Mathlib.Probability.Distributions.Gaussian.HasGaussianLaw.Independence
set_option autoImplicit false

/-!
# Priors exist: random functions with finitely many features
-/

namespace SafeLearning

open Matrix Spec MeasureTheory ProbabilityTheory

variable {d m : ℕ}

/-- The variances of the weights of the features and of the measurement errors. -/
noncomputable def weightVar (noise : Fin d → ℝ) : Fin d × (Fin m ⊕ ℕ) → NNReal
  | (_, .inl _) => 1
  | (i, .inr _) => (noise i).toNNReal

/-- Independent Gaussian weights and errors. -/
noncomputable def featureMeasure (m : ℕ) (noise : Fin d → ℝ) : Measure (Fin d × (Fin m ⊕ ℕ) → ℝ) := Measure.infinitePi fun a => gaussianReal 0 (weightVar noise a)

instance (noise : Fin d → ℝ) : IsProbabilityMeasure (featureMeasure m noise) := by
  unfold featureMeasure
  infer_instance

/-- The mean function plus a random combination of the features. -/
def featureTruth (mean : Fin d → List ℝ → ℝ) (φ : Fin d → Fin m → List ℝ → ℝ) (ω : Fin d × (Fin m ⊕ ℕ) → ℝ) (x : List ℝ) (i : Fin d) : ℝ :=
  mean i x + ∑ j, φ i j x * ω (i, .inl j)

/-- The measurement errors. -/
def featureError (ω : Fin d × (Fin m ⊕ ℕ) → ℝ) (t : ℕ) (i : Fin d) : ℝ := ω (i, .inr t)

theorem weight_law (noise : Fin d → ℝ) (a : Fin d × (Fin m ⊕ ℕ)) : (featureMeasure m noise).map (fun ω => ω a) = gaussianReal 0 (weightVar noise a) :=
  Measure.infinitePi_map_eval (fun a => gaussianReal 0 (weightVar noise a)) a

theorem weight_gaussian (noise : Fin d → ℝ) (a : Fin d × (Fin m ⊕ ℕ)) : HasGaussianLaw (fun ω : Fin d × (Fin m ⊕ ℕ) → ℝ => ω a) (featureMeasure m noise) where
  isGaussian_map := by
    rw [weight_law]
    infer_instance

theorem weight_memLp (noise : Fin d → ℝ) (a : Fin d × (Fin m ⊕ ℕ)) : MemLp (fun ω : Fin d × (Fin m ⊕ ℕ) → ℝ => ω a) 2 (featureMeasure m noise) :=
  (weight_gaussian noise a).memLp_two

theorem weight_indep (noise : Fin d → ℝ) : iIndepFun (fun (a : Fin d × (Fin m ⊕ ℕ)) (ω : Fin d × (Fin m ⊕ ℕ) → ℝ) => ω a) (featureMeasure m noise) :=
  iIndepFun_infinitePi (P := fun a => gaussianReal 0 (weightVar noise a)) (X := fun _ x => x) fun _ => measurable_id

theorem weight_mean (noise : Fin d → ℝ) (a : Fin d × (Fin m ⊕ ℕ)) : ∫ ω, ω a ∂featureMeasure m noise = 0 := by
  have h := integral_map (μ := featureMeasure m noise) (φ := fun ω => ω a) (measurable_pi_apply a).aemeasurable (f := fun x : ℝ => x) (by fun_prop)
  rw [weight_law] at h
  rw [← h]
  exact integral_id_gaussianReal

theorem weight_cov (noise : Fin d → ℝ) (a b : Fin d × (Fin m ⊕ ℕ)) :
    cov[fun ω => ω a, fun ω => ω b; featureMeasure m noise] = if a = b then (weightVar noise a : ℝ) else 0 := by
  split_ifs with hab
  · subst hab
    rw [covariance_self (measurable_pi_apply a).aemeasurable]
    have h := variance_map (μ := featureMeasure m noise) (Y := fun ω => ω a) (X := fun x : ℝ => x) (by fun_prop) (measurable_pi_apply a).aemeasurable
    rw [weight_law] at h
    rw [show Var[fun ω => ω a; featureMeasure m noise] = Var[(fun x : ℝ => x) ∘ fun ω => ω a; featureMeasure m noise] from rfl, ← h]
    exact variance_id_gaussianReal
  · exact ((weight_indep noise).indepFun hab).covariance_eq_zero (weight_memLp noise a) (weight_memLp noise b)

theorem combination_memLp (noise : Fin d → ℝ) (φ : Fin d → Fin m → List ℝ → ℝ) (x : List ℝ) (i : Fin d) :
    MemLp (fun ω : Fin d × (Fin m ⊕ ℕ) → ℝ => ∑ j, φ i j x * ω (i, .inl j)) 2 (featureMeasure m noise) :=
  memLp_finsetSum _ fun j _ => (weight_memLp noise (i, .inl j)).const_mul _

theorem combination_cov (noise : Fin d → ℝ) (φ : Fin d → Fin m → List ℝ → ℝ) (x : List ℝ) (i : Fin d) {Y : (Fin d × (Fin m ⊕ ℕ) → ℝ) → ℝ}
    (hY : MemLp Y 2 (featureMeasure m noise)) :
    cov[fun ω => ∑ j, φ i j x * ω (i, .inl j), Y; featureMeasure m noise] = ∑ j, φ i j x * cov[fun ω => ω (i, .inl j), Y; featureMeasure m noise] := by
  rw [covariance_fun_sum_left (fun j => (weight_memLp noise (i, .inl j)).const_mul _) hY]
  exact Finset.sum_congr rfl fun j _ => covariance_const_mul_left _

/-- Every kernel with finitely many features has a true function and errors that are drawn from the prior. -/
theorem feature_prior (kern : Fin d → List ℝ → List ℝ → ℝ) (mean : Fin d → List ℝ → ℝ) (noise : Fin d → ℝ) (φ : Fin d → Fin m → List ℝ → ℝ)
    (hk : ∀ i x y, kern i x y = ∑ j, φ i j x * φ i j y) (hn : ∀ i, 0 ≤ noise i) :
    Spec.GaussianPrior (featureMeasure m noise) kern mean noise (featureTruth mean φ) featureError := by
  have hdev : ∀ a ω, deviation mean (featureTruth mean φ) featureError a ω =
      match a with
      | (i, .inl x) => ∑ j, φ i j x * ω (i, .inl j)
      | (i, .inr t) => ω (i, .inr t) := by
    rintro ⟨i, x | t⟩ ω
    · simp [deviation, featureTruth]
    · rfl
  have hFi : ∀ x i, Integrable (fun ω => ∑ j, φ i j x * ω (i, .inl j)) (featureMeasure m noise) := fun x i => (combination_memLp noise φ x i).integrable (by norm_num)
  refine
    { square_integrable := ?_, mean_value := ?_, mean_error := ?_, values := ?_, components := ?_, errors := ?_, different_errors := ?_,
      values_errors := ?_, gaussian := ?_ }
  · rintro ⟨i, x | t⟩
    · rw [show deviation mean (featureTruth mean φ) featureError (i, .inl x) = fun ω => ∑ j, φ i j x * ω (i, .inl j) from funext (hdev (i, .inl x))]
      exact combination_memLp noise φ x i
    · exact weight_memLp noise (i, .inr t)
  · intro x i
    simp only [featureTruth]
    rw [integral_add (integrable_const _) (hFi x i), integral_finsetSum _ fun j _ => ((weight_memLp noise (i, .inl j)).integrable (by norm_num)).const_mul _]
    simp [integral_const_mul, weight_mean]
  · intro t i
    exact weight_mean noise _
  · intro x y i
    simp only [featureTruth]
    rw [covariance_const_add_left (hFi x i), covariance_const_add_right (hFi y i), combination_cov noise φ x i (combination_memLp noise φ y i), hk]
    refine Finset.sum_congr rfl fun j _ => ?_
    rw [covariance_comm, combination_cov noise φ y i (weight_memLp noise _)]
    simp [weight_cov, weightVar]
  · intro x y i j hij
    simp only [featureTruth]
    rw [covariance_const_add_left (hFi x i), covariance_const_add_right (hFi y j), combination_cov noise φ x i (combination_memLp noise φ y j)]
    refine Finset.sum_eq_zero fun l _ => ?_
    rw [covariance_comm, combination_cov noise φ y j (weight_memLp noise _)]
    simp [weight_cov, hij.symm]
  · intro t i
    rw [← covariance_self (measurable_pi_apply (i, Sum.inr t)).aemeasurable]
    have := weight_cov (m := m) noise (i, .inr t) (i, .inr t)
    rw [if_pos rfl] at this
    simp only [featureError]
    rw [this]
    exact Real.coe_toNNReal _ (hn i)
  · intro t u i j hne
    simp only [featureError]
    rw [weight_cov, if_neg]
    intro e
    apply hne
    simp only [Prod.mk.injEq, Sum.inr.injEq] at e
    rw [e.1, e.2]
  · intro x t i j
    simp only [featureTruth, featureError]
    rw [covariance_const_add_left (hFi x i), combination_cov noise φ x i (weight_memLp noise _)]
    refine Finset.sum_eq_zero fun l _ => ?_
    simp [weight_cov]
  · have hW : IsGaussianProcess (fun (a : Fin d × (Fin m ⊕ ℕ)) (ω : Fin d × (Fin m ⊕ ℕ) → ℝ) => ω a) (featureMeasure m noise) := ⟨fun I =>
      iIndepFun.hasGaussianLaw (fun a => weight_gaussian noise a.1) ((weight_indep noise).precomp Subtype.val_injective)⟩
    refine hW.of_isGaussianProcess ?_
    rintro ⟨i, x | t⟩
    · refine ⟨Finset.univ.map ⟨fun j => (i, Sum.inl j), fun a b h => by simpa using h⟩,
        ∑ j : Fin m, φ i j x • ContinuousLinearMap.proj ⟨(i, Sum.inl j), by simpa using ⟨j, rfl⟩⟩, fun ω => ?_⟩
      rw [hdev]
      simp
    · refine ⟨{(i, .inr t)}, ContinuousLinearMap.proj ⟨(i, .inr t), by simp⟩, fun ω => ?_⟩
      rw [hdev]
      simp

end SafeLearning
