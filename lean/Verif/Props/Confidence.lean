import Verif.Props.GaussianProcess
import Verif.Props.Hyperparameters
import Verif.Props.FunctionStack
import Verif.Props.Decrease
set_option autoImplicit false

/-!
# C129: the confidence intervals contain the true function
-/

namespace SafeLearning

set_option linter.unusedSectionVars false

open Matrix Spec

variable {o : ℕ} {P : Type}

/-! ## Specification -/

/-- The quadratic form of a kernel: the squared norm of the function `∑ i, c i * k (X i) ·`. -/
def _root_.Spec.kernelForm (k : P → P → ℝ) {n : ℕ} (X : Fin n → P) (c : Fin n → ℝ) : ℝ := ∑ i, ∑ j, c i * c j * k (X i) (X j)

/-- The function `h` is in the reproducing kernel Hilbert space of `k` and its norm is at most `B`: the functional `k (x) ↦ h x` is bounded by `B` on
all combinations of kernel functions. -/
def _root_.Spec.NormAtMost (k : P → P → ℝ) (B : ℝ) (h : P → ℝ) : Prop :=
  0 ≤ B ∧ ∀ (n : ℕ) (X : Fin n → P) (c : Fin n → ℝ), |∑ i, c i * h (X i)| ≤ B * Real.sqrt (Spec.kernelForm k X c)

/-! ## Functions in the space -/

/-- Cauchy-Schwarz for a form that is non-negative. -/
theorem abs_le_of_forms {a b c : ℝ} (ha : 0 ≤ a) (hc : 0 ≤ c) (h : ∀ s t : ℝ, 0 ≤ s ^ 2 * a + 2 * s * t * b + t ^ 2 * c) :
    |b| ≤ Real.sqrt a * Real.sqrt c := by
  rw [← Real.sqrt_mul ha, ← Real.sqrt_sq_eq_abs]
  refine Real.sqrt_le_sqrt ?_
  rcases ha.eq_or_lt with h0 | h0
  · -- `a = 0`
    have hb : b = 0 := by
      by_contra hb
      have h1 := h (-(c + 1) / b) 1
      rw [← h0] at h1
      have h2 : -(c + 1) / b * b = -(c + 1) := div_mul_cancel₀ _ hb
      nlinarith
    rw [hb, ← h0]
    simp
  · have h1 := h (-b) a
    have : 0 ≤ a * (a * c - b ^ 2) := by nlinarith
    nlinarith [nonneg_of_mul_nonneg_right this h0]

/-- Combinations of kernel functions are in the space. -/
theorem normAtMost_span {k : P → P → ℝ} (hk : IsKernel k) {N : ℕ} (Z : Fin N → P) (a : Fin N → ℝ) {B : ℝ} (hB : 0 ≤ B)
    (h : Spec.kernelForm k Z a ≤ B ^ 2) : Spec.NormAtMost k B fun x => ∑ j, a j * k (Z j) x := by
  refine ⟨hB, fun n X c => ?_⟩
  have h1 : ∀ s t : ℝ, 0 ≤ s ^ 2 * Spec.kernelForm k X c + 2 * s * t * (∑ i, c i * ∑ j, a j * k (Z j) (X i)) +
      t ^ 2 * Spec.kernelForm k Z a := by
    intro s t
    have h2 := hk.nonneg (n + N) (Fin.append X Z) (Fin.append (fun i => s * c i) fun j => t * a j)
    simp only [Fin.sum_univ_add, Fin.append_left, Fin.append_right] at h2
    unfold Spec.kernelForm
    have e1 : ∑ i, ∑ j, s * c i * (s * c j) * k (X i) (X j) = s ^ 2 * ∑ i, ∑ j, c i * c j * k (X i) (X j) := by
      simp only [Finset.mul_sum]
      exact Finset.sum_congr rfl fun i _ => Finset.sum_congr rfl fun j _ => by ring
    have e2 : ∑ i, ∑ j, t * a i * (t * a j) * k (Z i) (Z j) = t ^ 2 * ∑ i, ∑ j, a i * a j * k (Z i) (Z j) := by
      simp only [Finset.mul_sum]
      exact Finset.sum_congr rfl fun i _ => Finset.sum_congr rfl fun j _ => by ring
    have e3 : ∑ i, ∑ j, s * c i * (t * a j) * k (X i) (Z j) = s * t * ∑ i, c i * ∑ j, a j * k (Z j) (X i) := by
      simp only [Finset.mul_sum]
      exact Finset.sum_congr rfl fun i _ => Finset.sum_congr rfl fun j _ => by rw [hk.symm]; ring
    have e4 : ∑ i, ∑ j, t * a i * (s * c j) * k (Z i) (X j) = s * t * ∑ i, c i * ∑ j, a j * k (Z j) (X i) := by
      rw [Finset.sum_comm]
      simp only [Finset.mul_sum]
      exact Finset.sum_congr rfl fun i _ => Finset.sum_congr rfl fun j _ => by ring
    rw [Finset.sum_add_distrib, Finset.sum_add_distrib, e1, e2, e3, e4] at h2
    linarith
  refine (abs_le_of_forms (hk.nonneg n X c) (hk.nonneg N Z a) h1).trans ?_
  rw [mul_comm]
  refine mul_le_mul_of_nonneg_right ?_ (Real.sqrt_nonneg _)
  rw [Real.sqrt_le_left hB]
  exact h

/-! ## The interval -/

/-- The weights of the data in the posterior mean. -/
noncomputable def dataWeights (k : P → P → ℝ) (noise : ℝ) {n : ℕ} (X : Fin n → P) (x : P) : Fin n → ℝ :=
  (noisyGram k noise X)⁻¹ *ᵥ fun i => k (X i) x

theorem posteriorMean_weights {k : P → P → ℝ} {noise : ℝ} {n : ℕ} {X : Fin n → P} (h : PD (noisyGram k noise X)) (m : P → ℝ)
    (y : Fin n → ℝ) (x : P) : posteriorMean k m noise X y x = m x + ∑ i, dataWeights k noise X x i * (y i - m (X i)) := by
  unfold posteriorMean
  congr 1
  have hT : ((noisyGram k noise X)⁻¹)ᵀ = (noisyGram k noise X)⁻¹ := by
    rw [Matrix.transpose_nonsing_inv]
    congr 1
    ext i j
    exact h.symm j i
  rw [Matrix.dotProduct_mulVec, ← Matrix.mulVec_transpose, hT]
  rfl

/-- The posterior variance is the squared norm of `k(x, ·) - ∑ i, w i * k(X i, ·)` plus the effect of the noise. -/
theorem posteriorCov_weights {k : P → P → ℝ} (hk : IsKernel k) {noise : ℝ} {n : ℕ} {X : Fin n → P} (h : PD (noisyGram k noise X)) (x : P) :
    posteriorCov k noise X x x =
      Spec.kernelForm k (Fin.cons x X) (Fin.cons 1 fun i => -dataWeights k noise X x i) + noise * ∑ i, dataWeights k noise X x i ^ 2 := by
  have h1 := h.min_attained fun i => k (X i) x
  rw [posteriorCov]
  unfold dataWeights Spec.kernelForm
  set b : Fin n → ℝ := fun i => k (X i) x with hb
  set v := (noisyGram k noise X)⁻¹ *ᵥ b with hv
  rw [noisyGram_quad] at h1
  simp only [Fin.sum_univ_succ, Fin.cons_zero, Fin.cons_succ]
  have h4 : ∑ i, 1 * -(v i) * k x (X i) = -(b ⬝ᵥ v) := by
    rw [dotProduct, ← Finset.sum_neg_distrib]
    exact Finset.sum_congr rfl fun i _ => by rw [hb, hk.symm]; ring
  have h5 : ∑ i, (-(v i) * 1 * k (X i) x + ∑ j, -(v i) * -(v j) * k (X i) (X j)) =
      -(b ⬝ᵥ v) + ∑ i, ∑ j, v i * v j * k (X i) (X j) := by
    rw [Finset.sum_add_distrib]
    congr 1
    · rw [dotProduct, ← Finset.sum_neg_distrib]
      exact Finset.sum_congr rfl fun i _ => by rw [hb]; ring
    · exact Finset.sum_congr rfl fun i _ => Finset.sum_congr rfl fun j _ => by ring
  rw [h4, h5]
  linarith

/-- The interval contains the function. -/
theorem interval_core {k : P → P → ℝ} (hk : IsKernel k) {noise : ℝ} (hn : 0 ≤ noise) {n : ℕ} {X : Fin n → P} (h : PD (noisyGram k noise X))
    (m f : P → ℝ) (y : Fin n → ℝ) {B R beta : ℝ} (hB : Spec.NormAtMost k B fun x => f x - m x) (hR : ∑ i, (y i - f (X i)) ^ 2 ≤ noise * R ^ 2)
    (hb : 0 ≤ beta) (hbeta : B ^ 2 + R ^ 2 ≤ beta ^ 2) (x : P) :
    |f x - posteriorMean k m noise X y x| ≤ beta * Real.sqrt (posteriorCov k noise X x x) := by
  rw [posteriorMean_weights h, posteriorCov_weights hk h]
  set w := dataWeights k noise X x with hw
  set q := Spec.kernelForm k (Fin.cons x X) (Fin.cons 1 fun i => -w i) with hq
  have hq0 : 0 ≤ q := hk.nonneg _ _ _
  set A := ∑ i, w i ^ 2 with hA
  have hA0 : 0 ≤ A := Finset.sum_nonneg fun i _ => sq_nonneg _
  have h1 := hB.2 (n + 1) (Fin.cons x X) (Fin.cons 1 fun i => -w i)
  rw [← hq, Fin.sum_univ_succ] at h1
  simp only [Fin.cons_zero, Fin.cons_succ, one_mul] at h1
  set T := f x - m x + ∑ i, -w i * (f (X i) - m (X i)) with hT
  set N := ∑ i, w i * (y i - f (X i)) with hN
  have e : f x - (m x + ∑ i, w i * (y i - m (X i))) = T - N := by
    have : ∑ i, w i * (y i - m (X i)) = N - ∑ i, -w i * (f (X i) - m (X i)) := by
      rw [hN, ← Finset.sum_sub_distrib]
      exact Finset.sum_congr rfl fun i _ => by ring
    rw [hT, this]
    ring
  rw [e]
  have h2 : N ^ 2 ≤ A * (noise * R ^ 2) :=
    (Finset.sum_mul_sq_le_sq_mul_sq Finset.univ w fun i => y i - f (X i)).trans (mul_le_mul_of_nonneg_left hR hA0)
  have h3 : |N| ≤ |R| * Real.sqrt (noise * A) := by
    rw [← Real.sqrt_sq_eq_abs, ← Real.sqrt_sq_eq_abs, ← Real.sqrt_mul (sq_nonneg _)]
    refine Real.sqrt_le_sqrt ?_
    linarith
  have h4 : |T - N| ≤ B * Real.sqrt q + |R| * Real.sqrt (noise * A) := (abs_sub _ _).trans (add_le_add h1 h3)
  refine h4.trans ?_
  have hp : 0 ≤ q + noise * A := add_nonneg hq0 (mul_nonneg hn hA0)
  refine abs_le_of_sq_le_sq' ?_ (mul_nonneg hb (Real.sqrt_nonneg _)) |>.2
  rw [mul_pow, Real.sq_sqrt hp]
  have s1 := Real.sq_sqrt hq0
  have s2 := Real.sq_sqrt (mul_nonneg hn hA0)
  have s3 := sq_abs R
  set u := Real.sqrt q
  set v := Real.sqrt (noise * A)
  have : (B * u + |R| * v) ^ 2 ≤ (B ^ 2 + R ^ 2) * (u ^ 2 + v ^ 2) := by
    rw [← s3]
    nlinarith [sq_nonneg (B * v - |R| * u)]
  rw [s1, s2] at this
  exact this.trans (mul_le_mul_of_nonneg_right hbeta hp)

/-- **C129.** Let a Gaussian process be built from data and extended by any sequence of `add_data_point` calls that return. Let
the difference of the true function `f` and the mean function have a norm of at most `B` in the space of the kernel, and let the squares of all measurement errors
add up to at most `noise * R ^ 2`. If `B ^ 2 + R ^ 2 ≤ beta ^ 2`, then the confidence interval contains `f`, at all points and for all outputs. -/
theorem C129_interval (gp : GPModel o) (hk : IsKernel gp.kern) (hn : 0 ≤ gp.noise) (hs : gp.scale ≠ 0) (beta : ℝ) (hb : 0 ≤ beta)
    (X Y : List (List ℝ)) (hl : Y.length = X.length) (s : GPState o) (h : gp.init X Y = .ok s)
    (calls : List (Arr ℝ × Arr ℝ)) (hc : ∀ c ∈ calls, c.2.rows.length = c.1.rows.length)
    (t : GPState o) (ht : addHistory gp s calls = .ok t)
    (f : List ℝ → Fin o → ℝ) (B R : Fin o → ℝ) (hB : ∀ l, Spec.NormAtMost gp.kern (B l) fun x => f x l - gp.mean x l)
    (hR : ∀ l : Fin o, ∑ i : Fin (X ++ calls.flatMap fun c => c.1.rows).length,
      (entryOf (Y ++ calls.flatMap fun c => c.2.rows) i l - f ((X ++ calls.flatMap fun c => c.1.rows).get i) l) ^ 2 ≤ gp.noise * R l ^ 2)
    (hbeta : ∀ l, B l ^ 2 + R l ^ 2 ≤ beta ^ 2) (pts : List (List ℝ)) :
    ∃ mean error, gp.evaluate beta t pts = .ok (mean, error) ∧ ∀ i l, |f (pts.get i) l - mean i l| ≤ error i l := by
  have hinit := (C54_history gp X Y s h calls t ht).2.2
  obtain ⟨mean, error, e, he⟩ := C54_prediction gp hs beta X Y pts s h calls t ht hl hc
  obtain ⟨cache, hcache, -⟩ := init_inv hinit
  refine ⟨mean, error, e, fun i l => ?_⟩
  rw [(he i l).1, (he i l).2]
  exact interval_core hk hn (computeCache_pd hs hcache) _ (fun x => f x l) _ (hB l) (hR l) hb (hbeta l) _

/-- **C129 (exact measurements).** Without measurement errors it is enough that `beta` is at least the norm. -/
theorem C129_exact (gp : GPModel o) (hk : IsKernel gp.kern) (hn : 0 ≤ gp.noise) (hs : gp.scale ≠ 0) (beta : ℝ)
    (X Y : List (List ℝ)) (hl : Y.length = X.length) (s : GPState o) (h : gp.init X Y = .ok s)
    (f : List ℝ → Fin o → ℝ) (hB : ∀ l, Spec.NormAtMost gp.kern beta fun x => f x l - gp.mean x l) (hb : 0 ≤ beta)
    (hY : ∀ (i : Fin X.length) (l : Fin o), entryOf Y i l = f (X.get i) l) (pts : List (List ℝ)) :
    ∃ mean error, gp.evaluate beta s pts = .ok (mean, error) ∧ ∀ i l, |f (pts.get i) l - mean i l| ≤ error i l := by
  obtain ⟨mean, error, e, he⟩ := C53_posterior gp hs beta X Y pts hl s h
  obtain ⟨cache, hcache, -⟩ := init_inv h
  refine ⟨mean, error, e, fun i l => ?_⟩
  rw [(he i l).1, (he i l).2]
  refine interval_core hk hn (computeCache_pd hs hcache) _ (fun x => f x l) _ (hB l) (R := 0) ?_ hb (by simp) _
  simp [hY]

/-- **C129 (sharpness).** No smaller interval would do: for every kernel, all inputs, every query point and `beta`, there are a
function and measurements with `B ^ 2 + R ^ 2 = beta ^ 2` for which the difference to the mean is exactly `beta` times the standard deviation. -/
theorem C129_sharp (gp : GPModel 1) (hk : IsKernel gp.kern) (hn : 0 ≤ gp.noise) (hs : gp.scale ≠ 0) (beta : ℝ) (hb : 0 ≤ beta)
    (X : List (List ℝ)) (hX : PD (noisyGram gp.kern gp.noise X.get)) (x : List ℝ)
    (hvar : 0 < posteriorCov gp.kern gp.noise X.get x x) :
    ∃ (f : List ℝ → ℝ) (Y : List (List ℝ)) (B R : ℝ) (s : GPState 1), Y.length = X.length ∧
      Spec.NormAtMost gp.kern B (fun z => f z - gp.mean z 0) ∧
      ∑ i : Fin X.length, (entryOf Y i 0 - f (X.get i)) ^ 2 = gp.noise * R ^ 2 ∧ B ^ 2 + R ^ 2 = beta ^ 2 ∧
      gp.init X Y = .ok s ∧ ∃ mean error, gp.evaluate beta s [x] = .ok (mean, error) ∧ f x - mean 0 0 = error 0 0 := by
  set σ2 := posteriorCov gp.kern gp.noise X.get x x with hσ
  have hcov := posteriorCov_weights hk hX x
  rw [← hσ] at hcov
  set w := dataWeights gp.kern gp.noise X.get x with hw
  set q := Spec.kernelForm gp.kern (Fin.cons x X.get) (Fin.cons 1 fun i => -w i) with hq
  have hq0 : 0 ≤ q := hk.nonneg _ _ _
  set A := ∑ i, w i ^ 2 with hA
  have hA0 : 0 ≤ A := Finset.sum_nonneg fun i _ => sq_nonneg _
  set c := beta / Real.sqrt σ2 with hc
  have hsq : 0 < Real.sqrt σ2 := Real.sqrt_pos.mpr hvar
  have hc0 : 0 ≤ c := div_nonneg hb hsq.le
  have hcσ : c ^ 2 * σ2 = beta ^ 2 := by
    rw [hc, div_pow, Real.sq_sqrt hvar.le]
    field_simp
  have hcσ' : c * σ2 = beta * Real.sqrt σ2 := by
    rw [hc]
    have := Real.mul_self_sqrt hvar.le
    field_simp
    nlinarith
  set g : List ℝ → ℝ := fun z => ∑ j, (Fin.cons c fun i => -(c * w i) : Fin (X.length + 1) → ℝ) j * gp.kern ((Fin.cons x X.get : Fin (X.length + 1) → List ℝ) j) z with hg
  have hgz : ∀ z, g z = c * (gp.kern x z - ∑ i, w i * gp.kern (X.get i) z) := by
    intro z
    rw [hg]
    simp only [Fin.sum_univ_succ, Fin.cons_zero, Fin.cons_succ]
    rw [mul_sub, Finset.mul_sum, sub_eq_add_neg, ← Finset.sum_neg_distrib]
    congr 1
    exact Finset.sum_congr rfl fun i _ => by ring
  have hform : Spec.kernelForm gp.kern (Fin.cons x X.get) (Fin.cons c fun i => -(c * w i)) = c ^ 2 * q := by
    rw [hq]
    unfold Spec.kernelForm
    rw [Finset.mul_sum]
    refine Finset.sum_congr rfl fun i _ => ?_
    rw [Finset.mul_sum]
    refine Finset.sum_congr rfl fun j _ => ?_
    refine Fin.cases ?_ (fun i => ?_) i <;> refine Fin.cases ?_ (fun j => ?_) j <;> simp only [Fin.cons_zero, Fin.cons_succ] <;> ring
  have hnorm : Spec.NormAtMost gp.kern (c * Real.sqrt q) g := by
    refine normAtMost_span hk _ _ (mul_nonneg hc0 (Real.sqrt_nonneg _)) ?_
    rw [hform, mul_pow, Real.sq_sqrt hq0]
  set Y : List (List ℝ) := List.ofFn fun i : Fin X.length => [g (X.get i) + gp.mean (X.get i) 0 - c * gp.noise * w i] with hY
  have hYl : Y.length = X.length := by rw [hY, List.length_ofFn]
  have hent : ∀ i : Fin X.length, entryOf Y i 0 = g (X.get i) + gp.mean (X.get i) 0 - c * gp.noise * w i := by
    intro i
    unfold entryOf
    rw [hY]
    simp
  have hcache : ∃ s, gp.init X Y = .ok s := by
    obtain ⟨L, hL, _⟩ := cholesky_ok (hX.smul (c := gp.scale ^ 2) (by positivity))
    have : gp.computeCache X Y = .ok { n := X.length, chol := L, alpha := triangularSolve L (gp.target X Y) } := by
      unfold GPModel.computeCache
      rw [if_pos (Or.inl hYl), scaledKernel_eq, hL]
      rfl
    exact ⟨_, init_of_cache this⟩
  obtain ⟨s, hsx⟩ := hcache
  obtain ⟨mean, error, e, he⟩ := C53_posterior gp hs beta X Y [x] hYl s hsx
  refine ⟨fun z => g z + gp.mean z 0, Y, c * Real.sqrt q, c * Real.sqrt (gp.noise * A), s, hYl, by simpa using hnorm, ?_, ?_, hsx, mean, error, e, ?_⟩
  · rw [mul_pow, Real.sq_sqrt (mul_nonneg hn hA0), hA, Finset.mul_sum, Finset.mul_sum, Finset.mul_sum]
    exact Finset.sum_congr rfl fun i _ => by rw [hent]; ring
  · rw [mul_pow, mul_pow, Real.sq_sqrt hq0, Real.sq_sqrt (mul_nonneg hn hA0), ← hcσ, hcov]
    ring
  · have e0 : ([x] : List (List ℝ)).get (0 : Fin 1) = x := rfl
    have hm := (he 0 0).1
    have hv := (he 0 0).2
    rw [e0] at hm hv
    rw [hm, hv, posteriorMean_weights hX, ← hσ, ← hcσ', ← hw]
    have hsum : ∑ i, w i * (entryOf Y i ((0 : Fin 1) : ℕ) - gp.mean (X.get i) 0) = ∑ i, w i * g (X.get i) - c * gp.noise * A := by
      rw [hA, Finset.mul_sum, ← Finset.sum_sub_distrib]
      refine Finset.sum_congr rfl fun i _ => ?_
      have : entryOf Y i ((0 : Fin 1) : ℕ) = g (X.get i) + gp.mean (X.get i) 0 - c * gp.noise * w i := hent i
      rw [this]
      ring
    rw [hsum]
    have hgq : g x - ∑ i, w i * g (X.get i) = c * q := by
      rw [hq]
      unfold Spec.kernelForm
      simp only [Fin.sum_univ_succ, Fin.cons_zero, Fin.cons_succ, hgz]
      have f1 : ∑ i, w i * (c * (gp.kern x (X.get i) - ∑ j, w j * gp.kern (X.get j) (X.get i))) =
          c * (∑ i, w i * gp.kern x (X.get i) - ∑ i, ∑ j, w i * w j * gp.kern (X.get j) (X.get i)) := by
        rw [← Finset.sum_sub_distrib, Finset.mul_sum]
        refine Finset.sum_congr rfl fun i _ => ?_
        rw [mul_sub, mul_sub, mul_sub, Finset.mul_sum, Finset.mul_sum, Finset.mul_sum]
        congr 1
        · ring
        · exact Finset.sum_congr rfl fun j _ => by ring
      have f2 : ∑ i, 1 * -w i * gp.kern x (X.get i) = -∑ i, w i * gp.kern x (X.get i) := by
        rw [← Finset.sum_neg_distrib]
        exact Finset.sum_congr rfl fun i _ => by ring
      have f3 : ∑ i, (-w i * 1 * gp.kern (X.get i) x + ∑ j, -w i * -w j * gp.kern (X.get i) (X.get j)) =
          -(∑ i, w i * gp.kern (X.get i) x) + ∑ i, ∑ j, w i * w j * gp.kern (X.get j) (X.get i) := by
        rw [Finset.sum_add_distrib, ← Finset.sum_neg_distrib]
        congr 1
        · exact Finset.sum_congr rfl fun i _ => by ring
        · exact Finset.sum_congr rfl fun i _ => Finset.sum_congr rfl fun j _ => by rw [hk.symm]; ring
      rw [f1, f2, f3]
      ring
    rw [hcov]
    linear_combination hgq

/-! ## A fixed factor is not enough -/

theorem constant_weights (n : ℕ) (x : List ℝ) (X : Fin n → List ℝ) :
    dataWeights (constantGP 1).kern 1 X x = fun _ => 1 / ((n : ℝ) + 1) := by
  have hpd := noisyGram_pd (constantKernel_isKernel zero_le_one) (one_pos : (0 : ℝ) < 1) X
  have hdet : IsUnit (noisyGram (constantGP 1).kern 1 X).det := isUnit_iff_ne_zero.mpr hpd.det_ne
  have h : noisyGram (constantGP 1).kern 1 X *ᵥ (fun _ => 1 / ((n : ℝ) + 1)) = fun i => (constantGP 1).kern (X i) x := by
    ext i
    have hn : (n : ℝ) + 1 ≠ 0 := by positivity
    have hs : ∀ j, noisyGram (constantGP 1).kern 1 X i j = 1 + if i = j then 1 else 0 := by
      intro j
      simp [noisyGram, constantGP, Matrix.one_apply]
    simp only [mulVec, dotProduct, hs, add_mul, Finset.sum_add_distrib, Finset.sum_const, Finset.card_univ,
      Fintype.card_fin, ite_mul, one_mul, zero_mul, Finset.sum_ite_eq, Finset.mem_univ, if_true, nsmul_eq_mul]
    show _ = (1 : ℝ)
    field_simp
  unfold dataWeights
  rw [← h, Matrix.mulVec_mulVec, Matrix.nonsing_inv_mul _ hdet, Matrix.one_mulVec]

/-- **C129 (a fixed factor fails).** That each single measurement error is at most the standard deviation of the noise is not enough, however
large `beta` is: for the constant kernel with noise 1, the true function 0 and enough measurements that are all 1, the interval excludes the true function, at all points. -/
theorem C129_fixed_beta_fails (beta : ℝ) : ∃ n : ℕ, ∃ s : GPState 1,
    (constantGP 1).init (List.replicate n [0]) (List.replicate n [1]) = .ok s ∧
    ∀ pts : List (List ℝ), ∃ mean error, (constantGP 1).evaluate beta s pts = .ok (mean, error) ∧ ∀ i l, error i l < |0 - mean i l| := by
  obtain ⟨m, hm⟩ := exists_nat_ge (|beta| + 2)
  have hm2 : (2 : ℝ) ≤ m := by linarith [abs_nonneg beta]
  have hm2' : 2 ≤ m := by exact_mod_cast hm2
  set n := m ^ 2 - 1 with hn
  have hm1 : 1 ≤ m ^ 2 := Nat.one_le_pow _ _ (by omega)
  have hnR : (n : ℝ) + 1 = (m : ℝ) ^ 2 := by
    rw [hn, Nat.cast_sub hm1]
    push_cast
    ring
  have hl : (List.replicate n ([1] : List ℝ)).length = (List.replicate n ([0] : List ℝ)).length := by simp
  obtain ⟨s, hs⟩ := C53_defined (constantGP 1) (constantKernel_isKernel zero_le_one) (by norm_num [constantGP])
    (by norm_num [constantGP]) (List.replicate n [0]) (List.replicate n [1]) hl
  refine ⟨n, s, hs, fun pts => ?_⟩
  obtain ⟨mean, error, e, he⟩ := C53_posterior (constantGP 1) (by norm_num [constantGP]) beta (List.replicate n [0])
    (List.replicate n [1]) pts hl s hs
  refine ⟨mean, error, e, fun i l => ?_⟩
  rw [(he i l).1, (he i l).2]
  have hpd := noisyGram_pd (constantKernel_isKernel zero_le_one) (one_pos : (0 : ℝ) < 1) (List.replicate n ([0] : List ℝ)).get
  have hnoise : (constantGP 1).noise = 1 := rfl
  rw [hnoise, posteriorMean_weights hpd]
  have hy : ∀ i : Fin (List.replicate n ([0] : List ℝ)).length, entryOf (List.replicate n [1]) i (l : ℕ) = 1 := by
    intro i
    have hi : (i : ℕ) < n := by simpa using i.2
    have : l = 0 := Subsingleton.elim _ _
    subst this
    unfold entryOf
    have : (List.replicate n ([1] : List ℝ)).getD i [] = [1] := by
      rw [List.getD_eq_getElem?_getD, List.getElem?_replicate, if_pos hi]
      rfl
    rw [this]
    rfl
  have hmean : ∀ z l, (constantGP 1).mean z l = 0 := fun _ _ => rfl
  have hlen : (List.replicate n ([0] : List ℝ)).length = n := by simp
  have hmR : (0 : ℝ) < m := by linarith
  have hcov : posteriorCov (constantGP 1).kern 1 (List.replicate n ([0] : List ℝ)).get (pts.get i) (pts.get i) = 1 / (m : ℝ) ^ 2 := by
    unfold posteriorCov
    have := constant_weights _ (pts.get i) (List.replicate n ([0] : List ℝ)).get
    unfold dataWeights at this
    rw [this]
    simp only [dotProduct, constantGP, Finset.sum_const, Finset.card_univ, Fintype.card_fin, nsmul_eq_mul, hlen, hnR]
    field_simp
    linarith
  rw [hcov, constant_weights]
  simp only [hy, hmean, Finset.sum_const, Finset.card_univ, Fintype.card_fin, nsmul_eq_mul, hlen, hnR]
  rw [Real.sqrt_div zero_le_one, Real.sqrt_one, Real.sqrt_sq hmR.le]
  have e1 : (0 : ℝ) - (0 + (n : ℝ) * (1 / (m : ℝ) ^ 2 * (1 - 0))) = -((n : ℝ) / (m : ℝ) ^ 2) := by ring
  rw [e1, abs_neg, abs_of_nonneg (by positivity), mul_one_div, div_lt_div_iff₀ hmR (by positivity)]
  have h1 : beta ≤ |beta| := le_abs_self _
  have h2 : (n : ℝ) = (m : ℝ) ^ 2 - 1 := by linarith
  rw [h2]
  nlinarith [mul_pos hmR hmR, mul_nonneg (sub_nonneg.mpr h1) (mul_pos hmR hmR).le]

/-! ## Dynamics with several outputs -/

/-- A process has been built from data, by the constructor or by any sequence of `add_data_point` calls that return. -/
def _root_.Spec.TrainedOn (gp : GPModel o) (s : GPState o) (X Y : List (List ℝ)) : Prop :=
  ∃ X₀ Y₀ s₀ calls, gp.init X₀ Y₀ = .ok s₀ ∧ addHistory gp s₀ calls = .ok s ∧ X = X₀ ++ calls.flatMap (fun c => c.1.rows) ∧
    Y = Y₀ ++ calls.flatMap fun c => c.2.rows

/-- What is known of one component `f` of the true system, for a process with one output: its distance to the mean function in the space of the kernel and the size of the
measurement errors are covered by the factor `beta`. -/
structure _root_.Spec.Covered (gp : GPModel 1) (beta : ℝ) (X Y : List (List ℝ)) (f : List ℝ → ℝ) (B R : ℝ) : Prop where
  kernel : IsKernel gp.kern
  noise_nonneg : 0 ≤ gp.noise
  scale_ne : gp.scale ≠ 0
  length : Y.length = X.length
  norm : Spec.NormAtMost gp.kern B fun x => f x - gp.mean x 0
  errors : ∑ i : Fin X.length, (entryOf Y i 0 - f (X.get i)) ^ 2 ≤ gp.noise * R ^ 2
  beta_nonneg : 0 ≤ beta
  factor : B ^ 2 + R ^ 2 ≤ beta ^ 2

theorem covered_rows (gp : GPModel 1) (beta : ℝ) (X Y : List (List ℝ)) (f : List ℝ → ℝ) (B R : ℝ) (h : Spec.Covered gp beta X Y f B R)
    (s : GPState 1) (hs : Spec.TrainedOn gp s X Y) (pts : List (List ℝ)) :
    ∃ mean error : Fin pts.length → ℝ, gp.evaluateRows beta s pts = .ok (List.ofFn fun i => [mean i], List.ofFn fun i => [error i]) ∧
      ∀ i, |f (pts.get i) - mean i| ≤ error i := by
  obtain ⟨X₀, Y₀, s₀, calls, h1, h2, rfl, rfl⟩ := hs
  have hinit := (C54_history gp X₀ Y₀ s₀ h1 calls s h2).2.2
  obtain ⟨mean, error, e, he⟩ := C53_posterior gp h.scale_ne beta _ _ pts h.length s hinit
  obtain ⟨cache, hcache, -⟩ := init_inv hinit
  refine ⟨fun i => mean i 0, fun i => error i 0, ?_, fun i => ?_⟩
  · unfold GPModel.evaluateRows
    rw [e]
    simp [bind, Except.bind, pure, Except.pure]
  · beta_reduce
    rw [(he i 0).1, (he i 0).2]
    exact interval_core h.kernel h.noise_nonneg (computeCache_pd h.scale_ne hcache) _ f _ h.norm h.errors h.beta_nonneg h.factor _

/-- A stack returns the predictions of its processes side by side. -/
theorem stack_rows {d : ℕ} (hd : 0 < d) (gps : Fin d → GPModel 1) (beta : Fin d → ℝ) (s : Fin d → GPState 1) (pts : List (List ℝ))
    (mean error : Fin d → Fin pts.length → ℝ)
    (he : ∀ i, (gps i).evaluateRows (beta i) (s i) pts = .ok (List.ofFn fun r => [mean i r], List.ofFn fun r => [error i r])) :
    stackEvaluate (List.ofFn fun i => (gps i).evaluateRows (beta i) (s i)) pts =
      .ok (List.ofFn fun r => List.ofFn fun i => mean i r, List.ofFn fun r => List.ofFn fun i => error i r) := by
  have := C52_evaluate (List.ofFn fun i => (gps i).evaluateRows (beta i) (s i)) (by
      intro h0
      have := congrArg List.length h0
      simp at this
      omega) pts
    (List.ofFn fun i => (List.ofFn fun r => [mean i r], List.ofFn fun r => [error i r])) (by
      rw [List.map_ofFn, List.map_ofFn]
      congr 1
      funext i
      exact he i) (by
      intro r hr
      obtain ⟨i, rfl⟩ := (List.mem_ofFn' _ _).mp hr
      simp)
  rw [this]
  have key : ∀ v : Fin d → Fin pts.length → ℝ, joinColumns pts.length (List.ofFn fun i => List.ofFn fun r => [v i r]) =
      List.ofFn fun r => List.ofFn fun i => v i r := by
    intro v
    unfold joinColumns
    apply List.ext_getElem
    · simp
    · intro r h1 h2
      have hr : r < pts.length := by simpa using h1
      rw [List.getElem_map, List.getElem_range, List.getElem_ofFn, List.map_ofFn]
      have : (fun m : List (List ℝ) => m.getD r []) ∘ (fun i : Fin d => List.ofFn fun r => [v i r]) = fun i => [v i ⟨r, hr⟩] := by
        funext i
        simp [List.getD_eq_getElem?_getD, hr]
      rw [this]
      have : ∀ (n : ℕ) (u : Fin n → ℝ), (List.ofFn fun i => [u i]).flatten = List.ofFn u := by
        intro n
        induction n with
        | zero => intro u; simp
        | succ n ih => intro u; simp [List.ofFn_succ, ih]
      exact this d fun i => v i ⟨r, hr⟩
  rw [List.map_ofFn, List.map_ofFn]
  have k1 := key mean
  have k2 := key error
  exact congrArg Except.ok (Prod.ext k1 k2)

/-- **C129 (a stack of processes).** A stack of one Gaussian process for each component of the true dynamics `F` returns, for all points, intervals that
contain all components of `F`. The processes may have different kernels, data and factors. -/
theorem C129_stack {d : ℕ} (hd : 0 < d) (gps : Fin d → GPModel 1) (beta : Fin d → ℝ) (s : Fin d → GPState 1) (X Y : Fin d → List (List ℝ))
    (F : List ℝ → Fin d → ℝ) (B R : Fin d → ℝ) (hs : ∀ i, Spec.TrainedOn (gps i) (s i) (X i) (Y i))
    (h : ∀ i, Spec.Covered (gps i) (beta i) (X i) (Y i) (fun x => F x i) (B i) (R i)) (pts : List (List ℝ)) :
    ∃ mean error : Fin pts.length → Fin d → ℝ,
      stackEvaluate (List.ofFn fun i => (gps i).evaluateRows (beta i) (s i)) pts =
        .ok (List.ofFn fun r => List.ofFn (mean r), List.ofFn fun r => List.ofFn (error r)) ∧
      ∀ r i, |F (pts.get r) i - mean r i| ≤ error r i := by
  choose mean error he hc using fun i => covered_rows (gps i) (beta i) (X i) (Y i) _ (B i) (R i) (h i) (s i) (hs i) pts
  refine ⟨fun r i => mean i r, fun r i => error i r, stack_rows hd gps beta s pts mean error he, fun r i => hc i r⟩

/-! ## The region of attraction -/

/-- **C129 (region of attraction).** The end to end guarantee: the dynamics are a stack of Gaussian processes on states and actions, each component of the true dynamics `F` is
covered by the factor `beta` of its process, and `V` and the true closed loop are Lipschitz. Then what the safe set promises holds for the true
system: every trajectory that starts in a level set of certified grid states stays in it, and reaches the neighbourhood of an initially safe state. -/
theorem C129_region {d : ℕ} {Prog Θ : Type} (hd : 0 < d) (gps : Fin d → GPModel 1) (beta : Fin d → ℝ) (st : Fin d → GPState 1)
    (X Y : Fin d → List (List ℝ)) (F : List ℝ → Fin d → ℝ) (B R : Fin d → ℝ) (hs : ∀ i, Spec.TrainedOn (gps i) (st i) (X i) (Y i))
    (hcov : ∀ i, Spec.Covered (gps i) (beta i) (X i) (Y i) (fun x => F x i) (B i) (R i))
    (sys : System ℝ Prog Θ d) (g : GridWorld ℝ d)
    (argsort : (Fin g.nindex → ℝ) → List (Fin g.nindex)) (tauDiv : ℝ → ℕ → ℝ)
    (hW : (sys.world g argsort tauDiv).SortContract) (prog : Prog) (θ : Θ) (policy : (Fin d → ℝ) → List ℝ)
    (hloop : ∀ x mean error, stackEvaluate (List.ofFn fun i => (gps i).evaluateRows (beta i) (st i)) [List.ofFn x ++ policy x] =
        .ok ([List.ofFn mean], [List.ofFn error]) → sys.closedLoop prog θ x = .uncertain mean error)
    (Lv Lf tau : ℝ) (h2 : ∀ i, 2 ≤ g.num i) (hlt : ∀ i, g.lo i < g.hi i) (hlv : sys.lv θ = .const Lv) (hlf : sys.lf θ = .const Lf)
    (hLv : 0 ≤ Lv) (hLf : 0 ≤ Lf) (hV : ∀ y z, |sys.V θ y - sys.V θ z| ≤ Lv * ∑ i, |y i - z i|)
    (hF : ∀ y z : Fin d → ℝ, ∑ i, |F (List.ofFn y ++ policy y) i - F (List.ofFn z ++ policy z) i| ≤ Lf * ∑ i, |y i - z i|)
    (htau : ∑ i, (g.hi i - g.lo i) / ((g.num i : ℝ) - 1) / 2 ≤ tau)
    (initial : Option (Fin g.nindex → Bool)) (adaptive : Bool) (θ₀ : Θ)
    (history : List (Lyap.Op ℝ Prog Θ)) (hh : ∀ op ∈ history, op.IsMethod)
    (batch : ℕ) (hb : 0 < batch) (args : Lyap.UpdateArgs ℝ) (hcs : args.canShrink = true)
    (hna : ¬(adaptive = true ∧ 1 < args.maxRefinement)) :
    let f : (Fin d → ℝ) → Fin d → ℝ := fun x => F (List.ofFn x ++ policy x)
    let W := sys.world g argsort tauDiv
    let s := Lyap.run W (Lyap.new W prog tau initial adaptive θ₀) history
    let r := Lyap.updateSafeSet W batch args s θ
    (∀ j, s.values j = sys.V θ (gridState g j)) →
    ∀ c, (∀ j, s.values j < c → r.1.safeSet j = true) →
    (∀ x, sys.V θ x < c - Lv * tau → ∀ i, g.lo i ≤ x i ∧ x i ≤ g.hi i) →
    ∃ ε, 0 < ε ∧ ∀ x₀, sys.V θ x₀ < c - Lv * tau →
      ∃ T, (∀ t < T, sys.V θ (f^[t + 1] x₀) ≤ sys.V θ (f^[t] x₀) - ε) ∧
        (∀ t ≤ T, sys.V θ (f^[t] x₀) < c - Lv * tau) ∧
        ∃ j, InInitial initial j ∧ ∑ i, |f^[T] x₀ i - gridState g j i| ≤ tau := by
  intro f
  refine C27_reaches_initial_set sys g argsort tauDiv hW prog θ f Lv Lf tau
    ⟨h2, hlt, hlv, hlf, hLv, hLf, hV, hF, fun k => ?_, htau⟩ initial adaptive θ₀ history hh batch hb args hcs hna
  set x := gridState g k
  obtain ⟨mean, error, e, hc⟩ := C129_stack hd gps beta st X Y F B R hs hcov [List.ofFn x ++ policy x]
  rw [hloop x (mean 0) (error 0) (by rw [e]; simp)]
  exact fun i => hc 0 i

/-! ## A concrete system -/

/-- The function `x ↦ 1 / 2 + 3 x` and the mean function `2 x` of `exampleGP` differ by a function of norm `√5 / 2`. -/
theorem example_norm : Spec.NormAtMost exampleGP.kern (3 / 2) fun x => (1 / 2 + 3 * x.getD 0 0) - exampleGP.mean x 0 := by
  have := normAtMost_span (k := exampleGP.kern) linearKernel_isKernel (N := 2) ![[0], [1]] ![-1 / 2, 1] (B := 3 / 2) (by norm_num) (by
    norm_num [Spec.kernelForm, Fin.sum_univ_two, exampleGP, linearKernel])
  convert this using 2 with x
  simp [Fin.sum_univ_two, exampleGP, linearKernel]
  ring

/-- Measurements at 1 and 2 with errors `1/2` and `-1/2`. -/
theorem example_covered : Spec.Covered exampleGP 2 [[1], [2]] [[4], [6]] (fun x => 1 / 2 + 3 * x.getD 0 0) (3 / 2) 1 where
  kernel := linearKernel_isKernel
  noise_nonneg := by norm_num [exampleGP]
  scale_ne := by norm_num [exampleGP]
  length := rfl
  norm := example_norm
  errors := by
    have : (∑ i : Fin ([[1], [2]] : List (List ℝ)).length, (entryOf [[4], [6]] i 0 -
        (fun x : List ℝ => 1 / 2 + 3 * x.getD 0 0) (([[1], [2]] : List (List ℝ)).get i)) ^ 2) =
        (entryOf [[4], [6]] 0 0 - (1 / 2 + 3 * 1)) ^ 2 + (entryOf [[4], [6]] 1 0 - (1 / 2 + 3 * 2)) ^ 2 := Fin.sum_univ_two _
    rw [this]
    norm_num [entryOf, exampleGP]
  beta_nonneg := by norm_num
  factor := by norm_num

theorem example_trained : ∃ s, Spec.TrainedOn exampleGP s [[1], [2]] [[4], [6]] := by
  obtain ⟨s, hs⟩ := C53_defined exampleGP linearKernel_isKernel (by norm_num [exampleGP])
    (by norm_num [exampleGP]) [[1], [2]] [[4], [6]] rfl
  exact ⟨s, _, _, s, [], hs, rfl, by simp, by simp⟩

example : ∃ s, ∃ mean error : Fin 1 → Fin 2 → ℝ,
    stackEvaluate (List.ofFn fun _ : Fin 2 => exampleGP.evaluateRows 2 s) [[7]] =
      .ok (List.ofFn fun r => List.ofFn (mean r), List.ofFn fun r => List.ofFn (error r)) ∧
    ∀ i, |43 / 2 - mean 0 i| ≤ error 0 i := by
  obtain ⟨s, hs⟩ := example_trained
  obtain ⟨mean, error, e, he⟩ := C129_stack (d := 2) (by norm_num) (fun _ => exampleGP) (fun _ => 2) (fun _ => s) (fun _ => [[1], [2]])
    (fun _ => [[4], [6]]) (fun x _ => 1 / 2 + 3 * x.getD 0 0) (fun _ => 3 / 2) (fun _ => 1) (fun _ => hs) (fun _ => example_covered) [[7]]
  refine ⟨s, mean, error, e, fun i => ?_⟩
  have := he 0 i
  norm_num at this
  exact this

/-- A process with a constant kernel for the dynamics `x / 5 + u` of a state and an action. -/
noncomputable def lineGP : GPModel 1 where
  kern _ _ := 1 / 200
  mean z _ := z.getD 0 0 / 5 + z.getD 1 0
  noise := 1 / 200
  scale := 1
  xdim := 2

theorem lineKernel_isKernel : IsKernel lineGP.kern where
  symm _ _ := rfl
  nonneg n X c := (constantKernel_isKernel (v := 1 / 200) (by norm_num)).nonneg n X c

/-- The true dynamics: the mean function plus `1 / 20`. -/
noncomputable def lineTruth (z : List ℝ) (_ : Fin 1) : ℝ := z.getD 0 0 / 5 + z.getD 1 0 + 1 / 20

/-- The policy `u = -x / 10`. -/
noncomputable def linePolicy (x : Fin 1 → ℝ) : List ℝ := [-x 0 / 10]

theorem line_covered : Spec.Covered lineGP 1 [[0, 0]] [[0]] (fun z => lineTruth z 0) (1 / Real.sqrt 2) (1 / Real.sqrt 2) where
  kernel := lineKernel_isKernel
  noise_nonneg := by norm_num [lineGP]
  scale_ne := by norm_num [lineGP]
  length := rfl
  norm := by
    have := normAtMost_span (k := lineGP.kern) lineKernel_isKernel (N := 1) (fun _ => [0, 0]) (fun _ => 10) (B := 1 / Real.sqrt 2) (by positivity) (by
      rw [div_pow, Real.sq_sqrt (by norm_num)]
      norm_num [Spec.kernelForm, lineGP])
    convert this using 2 with x
    norm_num [lineTruth, lineGP]
  errors := by
    have : (∑ i : Fin ([[0, 0]] : List (List ℝ)).length, (entryOf [[0]] i 0 -
        (fun z => lineTruth z 0) (([[0, 0]] : List (List ℝ)).get i)) ^ 2) = (entryOf [[0]] 0 0 - lineTruth [0, 0] 0) ^ 2 := Fin.sum_univ_one _
    rw [this, div_pow, Real.sq_sqrt (by norm_num)]
    norm_num [entryOf, lineGP, lineTruth]
  beta_nonneg := by norm_num
  factor := by
    rw [div_pow, Real.sq_sqrt (by norm_num)]
    norm_num

theorem line_trained : ∃ s, lineGP.init [[0, 0]] [[0]] = .ok s ∧ Spec.TrainedOn lineGP s [[0, 0]] [[0]] := by
  obtain ⟨s, hs⟩ := C53_defined lineGP lineKernel_isKernel (by norm_num [lineGP]) (by norm_num [lineGP]) [[0, 0]] [[0]] rfl
  exact ⟨s, hs, _, _, s, [], hs, rfl, by simp, by simp⟩

theorem line_prediction (s : GPState 1) (hs : lineGP.init [[0, 0]] [[0]] = .ok s) (z : List ℝ) :
    stackEvaluate [lineGP.evaluateRows 1 s] [z] = .ok ([[z.getD 0 0 / 5 + z.getD 1 0]], [[1 / 20]]) := by
  obtain ⟨mean, error, e, he⟩ := C53_posterior lineGP (by norm_num [lineGP]) 1 [[0, 0]] [[0]] [z] rfl s hs
  have hm := (he 0 0).1
  have hv := (he 0 0).2
  have hy : ∀ i : Fin ([[0, 0]] : List (List ℝ)).length, entryOf [[0]] i ((0 : Fin 1) : ℕ) - lineGP.mean (([[0, 0]] : List (List ℝ)).get i) 0 = 0 := by
    intro i
    have : i = 0 := Subsingleton.elim (α := Fin 1) i 0
    subst this
    norm_num [entryOf, lineGP]
  have hg : noisyGram lineGP.kern lineGP.noise ([[0, 0]] : List (List ℝ)).get = Matrix.of fun _ _ => 1 / 100 := by
    ext i j
    have hi : i = j := Subsingleton.elim (α := Fin 1) i j
    subst hi
    norm_num [noisyGram, lineGP]
  have e1 : mean 0 0 = z.getD 0 0 / 5 + z.getD 1 0 := by
    rw [hm, posteriorMean_weights (noisyGram_pd lineKernel_isKernel (by norm_num [lineGP]) _)]
    simp only [hy, mul_zero, Finset.sum_const_zero, add_zero]
    rfl
  have e2 : error 0 0 = 1 / 20 := by
    rw [hv]
    unfold posteriorCov
    rw [hg]
    have hi : (Matrix.of fun _ _ => 1 / 100 : Matrix (Fin ([[0, 0]] : List (List ℝ)).length) (Fin ([[0, 0]] : List (List ℝ)).length) ℝ)⁻¹ =
      Matrix.of fun _ _ => 100 := by
      have := inv_one_by_one (1 / 100)
      norm_num at this
      simpa using this
    rw [hi]
    have : lineGP.kern = fun _ _ => 1 / 200 := rfl
    simp only [this, dotProduct, mulVec, Matrix.of_apply, Finset.sum_const, Finset.card_univ, Fintype.card_fin, List.length_singleton]
    rw [one_mul, Real.sqrt_eq_iff_mul_self_eq (by norm_num) (by norm_num)]
    norm_num
  have hrows : lineGP.evaluateRows 1 s [z] = .ok ([[z.getD 0 0 / 5 + z.getD 1 0]], [[1 / 20]]) := by
    unfold GPModel.evaluateRows
    rw [e]
    simp only [bind, Except.bind, pure, Except.pure]
    simp only [List.length_singleton, List.ofFn_succ, List.ofFn_zero, Fin.isValue]
    rw [← e1, ← e2]
  have := C52_evaluate [lineGP.evaluateRows 1 s] (by simp) [z] [([[z.getD 0 0 / 5 + z.getD 1 0]], [[1 / 20]])] (by simp [hrows]) (by simp)
  rw [this]
  rfl

/-- The line from -2 to 2 with five states, as real numbers. -/
def realLine : GridWorld ℝ 1 where
  lo := ![-2]
  hi := ![2]
  num := ![5]

/-- `V(x) = |x|` and the closed loop of the process and the policy. -/
noncomputable def lineSystem (s : GPState 1) : System ℝ Unit Unit 1 where
  V := fun _ x => |x 0|
  lv := fun _ => .const 1
  lf := fun _ => .const (1 / 10)
  closedLoop := fun _ _ x =>
    match stackEvaluate [lineGP.evaluateRows 1 s] [List.ofFn x ++ linePolicy x] with
    | .ok (mean, error) => .uncertain (fun i => entryOf mean 0 i) (fun i => entryOf error 0 i)
    | .error _ => .exact x

/-- All hypotheses of `C129_region` are met: every trajectory of `x / 10 + 1 / 20` from `|x| < 2` comes close to the origin. -/
example : ∃ ε : ℝ, 0 < ε ∧ ∀ x₀ : Fin 1 → ℝ, |x₀ 0| < 5 / 2 - 1 * (1 / 2) → ∃ T : ℕ,
    ∃ j : Fin realLine.nindex, InInitial (some fun k : Fin realLine.nindex => decide (k.val = 2)) j ∧
      ∑ i, |(fun x => lineTruth (List.ofFn x ++ linePolicy x))^[T] x₀ i - gridState realLine j i| ≤ 1 / 2 := by
  obtain ⟨s, hinit, hs⟩ := line_trained
  have hsort : (lineSystem s |>.world realLine (fun v => (List.finRange _).insertionSort fun i j => v i ≤ v j) fun t k => t / k).SortContract :=
    sortContract_insertionSort _ rfl
  have hn : realLine.nindex = 5 := by simp [GridWorld.nindex, shapeProd, realLine]
  have hgood : ∀ j : Fin realLine.nindex, InInitial (some fun k : Fin realLine.nindex => decide (k.val = 2)) j ∨
      (lineSystem s |>.world realLine (fun v => (List.finRange _).insertionSort fun i j => v i ≤ v j) fun t k => t / k).decrease () () j <
      (lineSystem s |>.world realLine (fun v => (List.finRange _).insertionSort fun i j => v i ≤ v j) fun t k => t / k).threshold () j (1 / 2) := by
    intro j
    have hj : (j : ℕ) < 5 := hn ▸ j.2
    by_cases h2 : (j : ℕ) = 2
    · left
      simpa [InInitial] using h2
    · right
      have hx : 1 ≤ |gridState realLine j 0| := by
        have hval : gridState realLine j 0 = (j : ℕ) + -2 := by
          unfold gridState GridWorld.ijkToState GridWorld.unit
          have : unravel realLine.num j 0 = j := by
            simp [unravel, realLine, shapeProd]
          rw [this]
          simp [realLine]
          norm_num
        rw [hval]
        obtain ⟨j, hj'⟩ := j
        simp only at hj h2 ⊢
        interval_cases j <;> first | (exact absurd rfl h2) | norm_num
      have hmean : (lineSystem s).closedLoop () () (gridState realLine j) = .uncertain (fun _ => gridState realLine j 0 / 10) fun _ => 1 / 20 := by
        simp only [lineSystem, line_prediction s hinit]
        congr 1 <;> (funext i; have : i = 0 := Subsingleton.elim _ _; subst this; simp [entryOf, linePolicy])
        ring
      simp only [System.world, hmean]
      set x := gridState realLine j 0 with hxd
      have h10 : |x / 10| = |x| / 10 := by rw [abs_div]; norm_num
      simp only [vDecreaseBound, vDecreaseConfidence, thresholdAt, lineSystem, LipArg.forThreshold, LipArg.entry, LipDyn.at, Fin.sum_univ_one]
      rw [← hxd, h10]
      linarith
  obtain ⟨ε, hε, h⟩ := C129_region (d := 1) one_pos (fun _ => lineGP) (fun _ => 1) (fun _ => s) (fun _ => [[0, 0]]) (fun _ => [[0]]) lineTruth
    (fun _ => 1 / Real.sqrt 2) (fun _ => 1 / Real.sqrt 2) (fun _ => hs) (fun i => by have : i = 0 := Subsingleton.elim _ _; subst this; exact line_covered)
    (lineSystem s) realLine (fun v => (List.finRange _).insertionSort fun i j => v i ≤ v j) (fun t k => t / k) hsort () () linePolicy
    (by
      intro x mean error h
      have h' : stackEvaluate [lineGP.evaluateRows 1 s] [List.ofFn x ++ linePolicy x] = .ok ([List.ofFn mean], [List.ofFn error]) := h
      simp only [lineSystem, h']
      congr 1 <;> (funext i; have : i = 0 := Subsingleton.elim _ _; subst this; simp [entryOf]))
    1 (1 / 10) (1 / 2) (by intro i; fin_cases i; simp [realLine]) (by intro i; fin_cases i; simp [realLine]) rfl rfl (by norm_num) (by norm_num)
    (by intro y z; simp only [Fin.sum_univ_one, one_mul]; exact abs_abs_sub_abs_le _ _)
    (by
      intro y z
      simp only [Fin.sum_univ_one, lineTruth, linePolicy]
      have : ∀ y : Fin 1 → ℝ, (List.ofFn y ++ [-y 0 / 10]).getD 0 0 / 5 + (List.ofFn y ++ [-y 0 / 10]).getD 1 0 + 1 / 20 = y 0 / 10 + 1 / 20 := by
        intro y
        simp
        ring
      rw [this, this]
      have e : y 0 / 10 + 1 / 20 - (z 0 / 10 + 1 / 20) = 1 / 10 * (y 0 - z 0) := by ring
      rw [e, abs_mul]
      norm_num)
    (by simp [realLine]; norm_num)
    (some fun k => decide (k.val = 2)) false () [] (by simp) 10 (by decide) ⟨true, 1, 1⟩ rfl (by simp) (fun j => rfl) (5 / 2)
    (by
      intro j _
      obtain ⟨Q, hQ, hsafe⟩ := Lyap.C20_largest_level_set (lineSystem s |>.world realLine (fun v => (List.finRange _).insertionSort fun i j => v i ≤ v j) fun t k => t / k)
        hsort (by omega) () (1 / 2) (some fun k => decide (k.val = 2)) false () [] (by simp) 10 (by decide) ⟨true, 1, 1⟩ rfl () (by simp)
      refine (hsafe j).mpr (Or.inr ?_)
      rcases hQ.maximal with h | ⟨b, -, hb, -⟩
      · exact h j
      · exact absurd (hgood b) hb)
    (by
      intro x hx i
      have h1 : |x 0| < 5/2 - 1 * (1/2) := hx
      have h2 := abs_lt.mp h1
      have hi : i = 0 := Subsingleton.elim _ _
      subst hi
      simp only [realLine, Matrix.cons_val_zero]
      constructor <;> linarith)
  exact ⟨ε, hε, fun x₀ hx => let ⟨T, _, _, hT⟩ := h x₀ hx; ⟨T, hT⟩⟩

end SafeLearning
