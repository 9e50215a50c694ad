import Verif.Props.GaussianProcess
import Verif.Model.ParametricFunctions
set_option autoImplicit false

/-!
# C78: functions sampled from a Gaussian process
-/

namespace SafeLearning

open Matrix Spec

/-- The full property C78: the function takes the drawn values at the points of the discretisation, up to the error `tol`. -/
def _root_.Spec.PassesThrough {P : Type} {n : ℕ} (f : P → ℝ) (points : Fin n → P) (draw : Fin n → ℝ)
    (tol : Fin n → ℝ) : Prop :=
  ∀ i, |f (points i) - draw i| ≤ tol i

/-! ## Lemmas -/

/-- The posterior covariance matrix of any points is positive semidefinite. -/
theorem posteriorCov_psd {P : Type} {k : P → P → ℝ} (hk : IsKernel k) {noise : ℝ} (hn : 0 ≤ noise)
    {n m : ℕ} (X : Fin n → P) (h : PD (noisyGram k noise X)) (D : Fin m → P) (c : Fin m → ℝ) :
    0 ≤ ∑ i, ∑ j, c i * c j * posteriorCov k noise X (D i) (D j) := by
  set b : Fin n → ℝ := fun a => ∑ i, c i * k (X a) (D i) with hb
  have h1 := h.min_attained b
  set v := (noisyGram k noise X)⁻¹ *ᵥ b with hv
  rw [noisyGram_quad] at h1
  have h2 := hk.nonneg (m + n) (Fin.append D X) (Fin.append c fun i => -(v i))
  simp only [Fin.sum_univ_add, Fin.append_left, Fin.append_right] at h2
  have h3 : 0 ≤ noise * ∑ i, v i ^ 2 := mul_nonneg hn (Finset.sum_nonneg fun _ _ => sq_nonneg _)
  have hbv : ∑ i, ∑ a, c i * v a * k (X a) (D i) = b ⬝ᵥ v := by
    rw [Finset.sum_comm, dotProduct]
    refine Finset.sum_congr rfl fun a _ => ?_
    rw [hb, Finset.sum_mul]
    exact Finset.sum_congr rfl fun i _ => by ring
  have h4 : ∑ i, (∑ j, c i * c j * k (D i) (D j) + ∑ a, c i * -(v a) * k (D i) (X a)) =
      ∑ i, ∑ j, c i * c j * k (D i) (D j) - b ⬝ᵥ v := by
    rw [Finset.sum_add_distrib, sub_eq_add_neg, ← hbv, ← Finset.sum_neg_distrib]
    congr 1
    refine Finset.sum_congr rfl fun i _ => ?_
    rw [← Finset.sum_neg_distrib]
    exact Finset.sum_congr rfl fun a _ => by rw [hk.symm]; ring
  have h5 : ∑ a, (∑ i, -(v a) * c i * k (X a) (D i) + ∑ a', -(v a) * -(v a') * k (X a) (X a')) =
      -(b ⬝ᵥ v) + ∑ i, ∑ j, v i * v j * k (X i) (X j) := by
    rw [Finset.sum_add_distrib, ← hbv, Finset.sum_comm, ← Finset.sum_neg_distrib]
    congr 1
    · refine Finset.sum_congr rfl fun i _ => ?_
      rw [← Finset.sum_neg_distrib]
      exact Finset.sum_congr rfl fun a _ => by ring
    · exact Finset.sum_congr rfl fun i _ => Finset.sum_congr rfl fun j _ => by ring
  rw [h4, h5] at h2
  have h6 : ∑ i, ∑ j, c i * c j * posteriorCov k noise X (D i) (D j) =
      ∑ i, ∑ j, c i * c j * k (D i) (D j) - b ⬝ᵥ v := by
    have e1 : b ⬝ᵥ v = ∑ i, ∑ j, c i * c j * ((fun a => k (X a) (D i)) ⬝ᵥ
        ((noisyGram k noise X)⁻¹ *ᵥ fun a => k (X a) (D j))) := by
      have eb : b = ∑ i, c i • fun a => k (X a) (D i) := by
        funext a; simp [hb, Finset.sum_apply]
      rw [hv]
      conv_lhs => rw [eb]
      rw [Matrix.mulVec_sum, sum_dotProduct]
      refine Finset.sum_congr rfl fun i _ => ?_
      rw [dotProduct_sum]
      refine Finset.sum_congr rfl fun j _ => ?_
      rw [Matrix.mulVec_smul, dotProduct_smul, smul_dotProduct, smul_eq_mul, smul_eq_mul]
      ring
    rw [e1, ← Finset.sum_sub_distrib]
    refine Finset.sum_congr rfl fun i _ => ?_
    rw [← Finset.sum_sub_distrib]
    exact Finset.sum_congr rfl fun j _ => by rw [posteriorCov]; ring
  rw [h6]
  linarith

theorem IsCholesky.solve {n : ℕ} {A L : Matrix (Fin n) (Fin n) ℝ} (h : IsCholesky A L) (b : Fin n → ℝ) :
    A *ᵥ ((Lᵀ)⁻¹ *ᵥ forwardSubst L b) = b := by
  have hut : IsUnit Lᵀ.det := by rw [Matrix.det_transpose]; exact h.det_ne.isUnit
  rw [← h.mul, ← Matrix.mulVec_mulVec, Matrix.mulVec_mulVec _ Lᵀ, Matrix.mul_nonsing_inv _ hut, Matrix.one_mulVec]
  exact forwardSubst_spec L b h.lower fun i => (h.pos i).ne'

theorem jitter_pos : 0 < sampleJitter := by norm_num [sampleJitter]

theorem sampleCov_eq {gp : GPModel 1} (hs : gp.scale ≠ 0) {X Y : List (List ℝ)} (hl : Y.length = X.length)
    {s : GPState 1} (h : gp.init X Y = .ok s) (disc : List (List ℝ)) :
    ∃ C, sampleCov gp s disc = .ok C ∧ ∀ i j, C i j =
      posteriorCov gp.kern gp.noise X.get (disc.get i) (disc.get j) + if i = j then sampleJitter else 0 := by
  obtain ⟨C, p, hC, _, hCi, _⟩ := C53_covariance gp hs X Y disc hl s h
  refine ⟨C + sampleJitter • (1 : Matrix (Fin disc.length) (Fin disc.length) ℝ), ?_, fun i j => ?_⟩
  · unfold sampleCov
    rw [hC]
    rfl
  · rw [Matrix.add_apply, hCi, Matrix.smul_apply, Matrix.one_apply]
    simp

/-- What `alpha` solves. -/
theorem sampleAlpha_inv {gp : GPModel 1} (hs : gp.scale ≠ 0) {X Y : List (List ℝ)} (hl : Y.length = X.length)
    {s : GPState 1} (h : gp.init X Y = .ok s) {disc : List (List ℝ)} {output alpha : Fin disc.length → ℝ}
    (ha : sampleAlpha gp s disc output = .ok alpha) (i : Fin disc.length) :
    ∑ j, posteriorCov gp.kern gp.noise X.get (disc.get i) (disc.get j) * alpha j + sampleJitter * alpha i =
      output i := by
  obtain ⟨C, hC, hCi⟩ := sampleCov_eq hs hl h disc
  unfold sampleAlpha at ha
  rw [hC] at ha
  simp only [bind, Except.bind] at ha
  cases hL : cholesky C with
  | error e => simp [hL] at ha
  | ok L =>
    simp only [hL, pure, Except.pure, Except.ok.injEq] at ha
    have := congrFun ((cholesky_inv hL).solve output) i
    rw [ha, mulVec, dotProduct] at this
    rw [← this]
    simp only [hCi, add_mul, Finset.sum_add_distrib, ite_mul, zero_mul]
    simp

/-! ## C78 -/

/-- **C78 (definedness).** For a positive semidefinite kernel and non-negative noise every draw gives a function: the covariance with the added diagonal has
a Cholesky factor. -/
theorem C78_defined (gp : GPModel 1) (hk : IsKernel gp.kern) (hn : 0 ≤ gp.noise) (hs : gp.scale ≠ 0)
    (X Y : List (List ℝ)) (hl : Y.length = X.length) (s : GPState 1) (h : gp.init X Y = .ok s)
    (disc : List (List ℝ)) (output : Fin disc.length → ℝ) :
    ∃ alpha, sampleAlpha gp s disc output = .ok alpha := by
  obtain ⟨C, hC, hCi⟩ := sampleCov_eq hs hl h disc
  obtain ⟨c, hc, _⟩ := init_inv h
  have hG := computeCache_pd hs hc
  have hpd : PD C := by
    refine ⟨fun i j => ?_, fun x hx => ?_⟩
    · rw [hCi, hCi]
      congr 1
      · have hT : ((noisyGram gp.kern gp.noise X.get)⁻¹)ᵀ = (noisyGram gp.kern gp.noise X.get)⁻¹ := by
          rw [Matrix.transpose_nonsing_inv]
          congr 1
          ext a b
          exact hG.symm b a
        rw [posteriorCov, posteriorCov, hk.symm]
        congr 1
        conv_rhs => rw [dotProduct_comm, ← Matrix.vecMul_transpose, hT, ← Matrix.dotProduct_mulVec]
      · simp only [eq_comm]
    · have h1 := posteriorCov_psd hk hn X.get hG disc.get x
      have h2 : x ⬝ᵥ (C *ᵥ x) = ∑ i, ∑ j, x i * x j *
          posteriorCov gp.kern gp.noise X.get (disc.get i) (disc.get j) + sampleJitter * ∑ i, x i ^ 2 := by
        simp only [dotProduct, mulVec, hCi, add_mul, Finset.sum_add_distrib, mul_add, Finset.mul_sum, ite_mul,
          zero_mul, Finset.sum_ite_eq, Finset.mem_univ, if_true]
        congr 1
        · exact Finset.sum_congr rfl fun i _ => Finset.sum_congr rfl fun j _ => by ring
        · exact Finset.sum_congr rfl fun i _ => by ring
      have h3 : 0 < ∑ i, x i ^ 2 := by
        obtain ⟨i, hi⟩ := Function.ne_iff.mp hx
        exact Finset.sum_pos' (fun _ _ => sq_nonneg _) ⟨i, Finset.mem_univ _, by
          have : x i ≠ 0 := by simpa using hi
          positivity⟩
      have := mul_pos jitter_pos h3
      rw [h2]
      linarith
  obtain ⟨L, hL, _⟩ := cholesky_ok hpd
  exact ⟨_, by unfold sampleAlpha; rw [hC]; simp only [bind, Except.bind, hL]; rfl⟩

/-- **C78, partial.** Without data and with a mean function that is zero at the points of the discretisation, the returned function takes the drawn
values there up to `1e-8 * |alpha i|`, which is the effect of the added diagonal. Missing: processes with data or with another mean function
(`C78_mean_refuted`, `C78_data_refuted`). -/
theorem C78_interpolates_partial (gp : GPModel 1) (hs : gp.scale ≠ 0) (s : GPState 1) (h : gp.init [] [] = .ok s)
    (disc : List (List ℝ)) (hm : ∀ i, gp.mean (disc.get i) 0 = 0) (output alpha : Fin disc.length → ℝ)
    (ha : sampleAlpha gp s disc output = .ok alpha) :
    PassesThrough (gpSampleFunction gp disc alpha) disc.get output fun i => sampleJitter * |alpha i| := by
  intro i
  have h1 := sampleAlpha_inv hs rfl h ha i
  have h2 : ∀ x x' : List ℝ, posteriorCov gp.kern gp.noise ([] : List (List ℝ)).get x x' = gp.kern x x' := by
    intro x x'
    rw [posteriorCov]
    have : ∀ a b : Fin ([] : List (List ℝ)).length → ℝ, a ⬝ᵥ b = 0 := fun a b => by simp [dotProduct]
    rw [this, sub_zero]
  simp only [h2] at h1
  rw [gpSampleFunction, hm, zero_add, ← h1]
  rw [show ∀ a b : ℝ, a - (a + b) = -b by intros; ring, abs_neg, abs_mul, abs_of_pos jitter_pos]

/-- **C78 (mean), refuted.** The drawn values already contain the mean, which is added once more: whatever the data, the function for the draw
that is zero everywhere is the prior mean function, not zero. -/
theorem C78_mean_refuted (gp : GPModel 1) (hk : IsKernel gp.kern) (hn : 0 ≤ gp.noise) (hs : gp.scale ≠ 0)
    (X Y : List (List ℝ)) (hl : Y.length = X.length) (s : GPState 1) (h : gp.init X Y = .ok s)
    (disc : List (List ℝ)) (i : Fin disc.length) (hm : gp.mean (disc.get i) 0 ≠ 0) :
    ∃ alpha, sampleAlpha gp s disc (fun _ => 0) = .ok alpha ∧
      (∀ x, gpSampleFunction gp disc alpha x = gp.mean x 0) ∧
      ¬ PassesThrough (gpSampleFunction gp disc alpha) disc.get (fun _ => 0)
        fun i => sampleJitter * |alpha i| := by
  obtain ⟨alpha, ha⟩ := C78_defined gp hk hn hs X Y hl s h disc fun _ => 0
  have h0 : ∀ j, alpha j = 0 := by
    have h1 := sampleAlpha_inv hs hl h ha
    obtain ⟨c, hc, _⟩ := init_inv h
    have h2 := posteriorCov_psd hk hn X.get (computeCache_pd hs hc) disc.get alpha
    have h3 : ∑ i, alpha i * (∑ j, posteriorCov gp.kern gp.noise X.get (disc.get i) (disc.get j) * alpha j +
        sampleJitter * alpha i) = 0 := Finset.sum_eq_zero fun i _ => by rw [h1, mul_zero]
    have h4 : ∑ i, alpha i * (∑ j, posteriorCov gp.kern gp.noise X.get (disc.get i) (disc.get j) * alpha j +
        sampleJitter * alpha i) = ∑ i, ∑ j, alpha i * alpha j *
          posteriorCov gp.kern gp.noise X.get (disc.get i) (disc.get j) + sampleJitter * ∑ i, alpha i ^ 2 := by
      simp only [mul_add, Finset.sum_add_distrib, Finset.mul_sum]
      congr 1
      · exact Finset.sum_congr rfl fun i _ => Finset.sum_congr rfl fun j _ => by ring
      · exact Finset.sum_congr rfl fun i _ => by ring
    have h5 : 0 ≤ ∑ i, alpha i ^ 2 := Finset.sum_nonneg fun _ _ => sq_nonneg _
    have h6 : ∑ i, alpha i ^ 2 = 0 := by
      by_contra hne
      have := mul_pos jitter_pos (lt_of_le_of_ne h5 (Ne.symm hne))
      linarith
    intro j
    have := (Finset.sum_eq_zero_iff_of_nonneg fun i _ => sq_nonneg (alpha i)).mp h6 j (Finset.mem_univ j)
    exact pow_eq_zero_iff (two_ne_zero) |>.mp this
  have hf : ∀ x, gpSampleFunction gp disc alpha x = gp.mean x 0 := by
    intro x
    simp [gpSampleFunction, h0]
  refine ⟨alpha, ha, hf, fun hp => ?_⟩
  have := hp i
  rw [hf] at this
  simp [h0] at this
  exact hm this

/-- **C78 (data), refuted.** With the kernel `1 + x y`, zero mean, noise 1 and one data point at 0, the function for the draw `1` at the
point 0 takes a value greater than 1.9 there. -/
theorem C78_data_refuted : ∃ (gp : GPModel 1) (s : GPState 1) (alpha : Fin 1 → ℝ),
    IsKernel gp.kern ∧ gp.noise = 1 ∧ (∀ x, gp.mean x 0 = 0) ∧ gp.init [[0]] [[0]] = .ok s ∧
    sampleAlpha gp s [[0]] (fun _ => 1) = .ok alpha ∧
    1.9 < gpSampleFunction gp [[0]] alpha [0] := by
  let gp : GPModel 1 := { kern := linearKernel, mean := fun _ _ => 0, noise := 1, scale := 1, xdim := 1 }
  have hn : (0 : ℝ) < gp.noise := one_pos
  have hs : gp.scale ≠ 0 := one_ne_zero
  obtain ⟨s, h⟩ := C53_defined gp linearKernel_isKernel hn hs [[0]] [[0]] rfl
  obtain ⟨alpha, ha⟩ := C78_defined gp linearKernel_isKernel hn.le hs [[0]] [[0]] rfl s h [[0]] fun _ => 1
  refine ⟨gp, s, alpha, linearKernel_isKernel, rfl, fun _ => rfl, h, ha, ?_⟩
  have h1 := sampleAlpha_inv (X := [[0]]) (Y := [[0]]) hs rfl h ha 0
  have h2 : posteriorCov gp.kern gp.noise ([[0]] : List (List ℝ)).get [0] [0] = 1 / 2 := by
    rw [posteriorCov]
    have e1 : noisyGram gp.kern gp.noise ([[0]] : List (List ℝ)).get = (2 : ℝ) • 1 := by
      ext i j
      have hi : i = 0 := Subsingleton.elim (α := Fin 1) i 0
      have hj : j = 0 := Subsingleton.elim (α := Fin 1) j 0
      subst hi hj
      norm_num [noisyGram, gp, linearKernel]
    have e2 : ((2 : ℝ) • (1 : Matrix (Fin ([[0]] : List (List ℝ)).length)
        (Fin ([[0]] : List (List ℝ)).length) ℝ))⁻¹ = (1 / 2 : ℝ) • 1 := by
      apply Matrix.inv_eq_left_inv
      rw [Matrix.smul_mul, Matrix.mul_smul, smul_smul, Matrix.one_mul]
      norm_num
    rw [e1, e2, Matrix.smul_mulVec, Matrix.one_mulVec]
    norm_num [dotProduct, gp, linearKernel]
  have h3 : (1 / 2 + sampleJitter) * alpha 0 = 1 := by
    have e : ∑ j : Fin ([[0]] : List (List ℝ)).length, posteriorCov gp.kern gp.noise ([[0]] : List (List ℝ)).get
        (([[0]] : List (List ℝ)).get 0) (([[0]] : List (List ℝ)).get j) * alpha j = 1 / 2 * alpha 0 := by
      have := Fin.sum_univ_one (fun j : Fin 1 => posteriorCov gp.kern gp.noise ([[0]] : List (List ℝ)).get
        [0] [0] * alpha j)
      rw [← h2, ← this]
      refine Finset.sum_congr rfl fun j _ => ?_
      have hj : j = 0 := Subsingleton.elim (α := Fin 1) j 0
      subst hj
      rfl
    rw [e] at h1
    linarith
  have h4 : gpSampleFunction gp [[0]] alpha [0] = alpha 0 := by
    have : gpSampleFunction gp [[0]] alpha [0] = 0 + ∑ j : Fin 1, linearKernel [0] [0] * alpha j := by
      unfold gpSampleFunction
      congr 1
    rw [this, Fin.sum_univ_one]
    norm_num [linearKernel]
  rw [h4]
  have : sampleJitter = 1 / 10 ^ 8 := rfl
  rw [this] at h3
  norm_num at h3 ⊢
  linarith

/-- The hypotheses of the positive theorem are met by a process without data on a discretisation with three points. -/
example : ∃ (gp : GPModel 1) (s : GPState 1) (alpha : Fin 3 → ℝ), gp.init [] [] = .ok s ∧
    sampleAlpha gp s [[0], [1], [2]] ![3, -1, 4] = .ok alpha ∧
    PassesThrough (gpSampleFunction gp [[0], [1], [2]] alpha) ([[0], [1], [2]] : List (List ℝ)).get ![3, -1, 4]
      fun i => sampleJitter * |alpha i| := by
  let gp : GPModel 1 := { kern := linearKernel, mean := fun _ _ => 0, noise := 1, scale := 2, xdim := 1 }
  have hn : (0 : ℝ) < gp.noise := one_pos
  have hs : gp.scale ≠ 0 := two_ne_zero
  obtain ⟨s, h⟩ := C53_defined gp linearKernel_isKernel hn hs [] [] rfl
  obtain ⟨alpha, ha⟩ := C78_defined gp linearKernel_isKernel hn.le hs [] [] rfl s h [[0], [1], [2]] ![3, -1, 4]
  exact ⟨gp, s, alpha, h, ha, C78_interpolates_partial gp hs s h _ (fun _ => rfl) _ _ ha⟩

end SafeLearning
