import Verif.Model.GaussianProcess
import Verif.Spec.GaussianProcess
import Mathlib.LinearAlgebra.Matrix.Block
import Mathlib.LinearAlgebra.Matrix.ToLinearEquiv
import Mathlib.LinearAlgebra.Matrix.DotProduct
import Mathlib.Tactic.Linarith
import Mathlib.Tactic.Ring
import Mathlib.Tactic.FieldSimp
set_option autoImplicit false

/-!
# Lemmas about triangular systems, Cholesky factors and quadratic forms
-/

namespace SafeLearning

open Matrix

/-! ## Forward substitution -/

theorem forwardSubst_spec : ∀ {n : ℕ} (L : Matrix (Fin n) (Fin n) ℝ) (b : Fin n → ℝ),
    (∀ i j, i < j → L i j = 0) → (∀ i, L i i ≠ 0) → L *ᵥ forwardSubst L b = b
  | 0, _, _, _, _ => Subsingleton.elim _ _
  | n + 1, L, b, hl, hd => by
    have ih := forwardSubst_spec (fun i j => L i.castSucc j.castSucc) (fun i => b i.castSucc)
      (fun i j hij => hl _ _ (by simpa using hij)) fun i => hd _
    funext i
    rw [forwardSubst]
    simp only [mulVec, dotProduct] at ih ⊢
    rw [Fin.sum_univ_castSucc]
    simp only [Fin.snoc_castSucc, Fin.snoc_last]
    refine Fin.lastCases ?_ (fun i => ?_) i
    · have := hd (Fin.last n)
      field_simp
      ring
    · rw [hl _ _ (Fin.castSucc_lt_last i), zero_mul, add_zero]
      exact congrFun ih i

theorem triangularSolve_spec {n m : ℕ} {L : Matrix (Fin n) (Fin n) ℝ} (B : Matrix (Fin n) (Fin m) ℝ)
    (hl : ∀ i j, i < j → L i j = 0) (hd : ∀ i, L i i ≠ 0) : L * triangularSolve L B = B := by
  ext i j
  have := congrFun (forwardSubst_spec L (fun k => B k j) hl hd) i
  simpa [Matrix.mul_apply, mulVec, dotProduct, triangularSolve] using this

theorem IsCholesky.det_ne {n : ℕ} {A L : Matrix (Fin n) (Fin n) ℝ} (h : IsCholesky A L) :
    L.det ≠ 0 := by
  rw [Matrix.det_of_isLowerTriangular L fun i j hij => h.lower i j hij]
  exact Finset.prod_ne_zero_iff.mpr fun i _ => (h.pos i).ne'

/-- For `L Lᵀ = A`, the product of two solutions is the quadratic form of `A⁻¹`. -/
theorem IsCholesky.solve_mul {n m l : ℕ} {A L : Matrix (Fin n) (Fin n) ℝ} (h : IsCholesky A L)
    (B : Matrix (Fin n) (Fin m) ℝ) (C : Matrix (Fin n) (Fin l) ℝ) :
    (triangularSolve L B)ᵀ * triangularSolve L C = Bᵀ * (A⁻¹ * C) := by
  have hd : ∀ i, L i i ≠ 0 := fun i => (h.pos i).ne'
  have hB := triangularSolve_spec B h.lower hd
  have hC := triangularSolve_spec C h.lower hd
  have hu : IsUnit L.det := h.det_ne.isUnit
  have hut : IsUnit Lᵀ.det := by rwa [Matrix.det_transpose]
  have hA : A⁻¹ = (Lᵀ)⁻¹ * L⁻¹ := by rw [← h.mul, Matrix.mul_inv_rev]
  have h1 : L⁻¹ * C = triangularSolve L C := by
    rw [← hC, ← Matrix.mul_assoc, Matrix.nonsing_inv_mul _ hu, Matrix.one_mul, hC]
  have h2 : Bᵀ * (Lᵀ)⁻¹ = (triangularSolve L B)ᵀ := by
    rw [← hB, Matrix.transpose_mul, Matrix.mul_assoc, Matrix.mul_nonsing_inv _ hut, Matrix.mul_one, hB]
  rw [hA, Matrix.mul_assoc, h1, ← Matrix.mul_assoc, h2]

/-! ## Positive definite matrices -/

/-- A symmetric matrix with positive quadratic form. -/
structure PD {n : ℕ} (A : Matrix (Fin n) (Fin n) ℝ) : Prop where
  symm : ∀ i j, A i j = A j i
  pos : ∀ x : Fin n → ℝ, x ≠ 0 → 0 < x ⬝ᵥ (A *ᵥ x)

theorem PD.det_ne {n : ℕ} {A : Matrix (Fin n) (Fin n) ℝ} (h : PD A) : A.det ≠ 0 := by
  intro hd
  obtain ⟨v, hv, h0⟩ := Matrix.exists_mulVec_eq_zero_iff.mpr hd
  have := h.pos v hv
  rw [h0, dotProduct_zero] at this
  exact lt_irrefl _ this

theorem quad_snoc {n : ℕ} (A : Matrix (Fin (n + 1)) (Fin (n + 1)) ℝ) (hs : ∀ i j, A i j = A j i)
    (x : Fin n → ℝ) (c : ℝ) :
    (Fin.snoc (α := fun _ => ℝ) x c) ⬝ᵥ (A *ᵥ Fin.snoc (α := fun _ => ℝ) x c) =
      x ⬝ᵥ ((fun i j => A (Fin.castSucc i) (Fin.castSucc j)) *ᵥ x) +
      2 * c * ∑ i, A (Fin.last n) (Fin.castSucc i) * x i + c * c * A (Fin.last n) (Fin.last n) := by
  simp only [dotProduct, mulVec]
  rw [Fin.sum_univ_castSucc]
  simp only [Fin.sum_univ_castSucc, Fin.snoc_castSucc, Fin.snoc_last]
  simp only [mul_add, Finset.sum_add_distrib]
  have h1 : ∑ i, x i * (A (Fin.castSucc i) (Fin.last n) * c) =
      c * ∑ i, A (Fin.last n) (Fin.castSucc i) * x i := by
    rw [Finset.mul_sum]
    exact Finset.sum_congr rfl fun i _ => by rw [hs]; ring
  rw [h1]
  ring

theorem PD.leading {n : ℕ} {A : Matrix (Fin (n + 1)) (Fin (n + 1)) ℝ} (h : PD A) :
    PD (fun i j => A (Fin.castSucc i) (Fin.castSucc j) : Matrix (Fin n) (Fin n) ℝ) where
  symm i j := h.symm _ _
  pos x hx := by
    have := h.pos (Fin.snoc (α := fun _ => ℝ) x 0) (by
      intro h0
      apply hx
      funext i
      have := congrFun h0 i.castSucc
      rwa [Fin.snoc_castSucc] at this)
    rw [quad_snoc A h.symm] at this
    simpa using this

/-- Every positive definite matrix has a Cholesky factor. -/
theorem PD.exists_cholesky : ∀ {n : ℕ} {A : Matrix (Fin n) (Fin n) ℝ}, PD A → ∃ L, IsCholesky A L
  | 0, A, _ => ⟨A, fun i => i.elim0, fun i => i.elim0, Subsingleton.elim _ _⟩
  | n + 1, A, h => by
    obtain ⟨L, hL⟩ := h.leading.exists_cholesky
    set b : Fin n → ℝ := fun i => A (Fin.last n) (Fin.castSucc i) with hb
    set l : Fin n → ℝ := forwardSubst L b with hl
    have hbl : L *ᵥ l = b := forwardSubst_spec L b hL.lower fun i => (hL.pos i).ne'
    have hut : IsUnit Lᵀ.det := by rw [Matrix.det_transpose]; exact hL.det_ne.isUnit
    set y : Fin n → ℝ := (Lᵀ)⁻¹ *ᵥ l with hy
    have hyl : Lᵀ *ᵥ y = l := by
      rw [hy, Matrix.mulVec_mulVec, Matrix.mul_nonsing_inv _ hut, Matrix.one_mulVec]
    have hpos : 0 < A (Fin.last n) (Fin.last n) - l ⬝ᵥ l := by
      have h1 := h.pos (Fin.snoc (α := fun _ => ℝ) (-y) 1) (by
        intro h0
        have := congrFun h0 (Fin.last n)
        simp at this)
      rw [quad_snoc A h.symm] at h1
      have h2 : (-y) ⬝ᵥ ((fun i j => A (Fin.castSucc i) (Fin.castSucc j)) *ᵥ (-y)) = l ⬝ᵥ l := by
        have : (fun i j => A (Fin.castSucc i) (Fin.castSucc j) : Matrix (Fin n) (Fin n) ℝ) = L * Lᵀ :=
          hL.mul.symm
        rw [this, Matrix.mulVec_neg, neg_dotProduct_neg, ← Matrix.mulVec_mulVec, hyl,
          Matrix.dotProduct_mulVec, ← Matrix.mulVec_transpose, hyl]
      have h3 : ∑ i, A (Fin.last n) (Fin.castSucc i) * (-y) i = -(l ⬝ᵥ l) := by
        have h4 : b ⬝ᵥ y = l ⬝ᵥ l := by
          rw [← hbl, dotProduct_comm, Matrix.dotProduct_mulVec, ← Matrix.mulVec_transpose, hyl]
        rw [← h4]
        simp only [dotProduct, hb, Pi.neg_apply, mul_neg, Finset.sum_neg_distrib]
      rw [h2, h3] at h1
      linarith
    refine ⟨Matrix.of fun i j => Fin.lastCases (motive := fun _ => ℝ)
      (Fin.lastCases (motive := fun _ => ℝ) (Real.sqrt (A (Fin.last n) (Fin.last n) - l ⬝ᵥ l)) l j)
      (fun i => Fin.lastCases (motive := fun _ => ℝ) 0 (fun j => L i j) j) i, ?_, ?_, ?_⟩
    · intro i j
      refine Fin.lastCases (fun hij => ?_) (fun i => ?_) i
      · exact absurd hij (not_lt.mpr (Fin.le_last _))
      · refine Fin.lastCases (fun _ => ?_) (fun j hij => ?_) j
        · simp
        · simpa using hL.lower i j (by simpa using hij)
    · intro i
      refine Fin.lastCases ?_ (fun i => ?_) i
      · simpa using hpos
      · simpa using hL.pos i
    · ext i j
      rw [Matrix.mul_apply, Fin.sum_univ_castSucc]
      simp only [Matrix.transpose_apply, Matrix.of_apply, Fin.lastCases_castSucc, Fin.lastCases_last]
      refine Fin.lastCases ?_ (fun i => ?_) i
      · refine Fin.lastCases ?_ (fun j => ?_) j
        · simp only [Fin.lastCases_last]
          rw [Real.mul_self_sqrt hpos.le]
          simp only [dotProduct]
          ring
        · simp only [Fin.lastCases_last, Fin.lastCases_castSucc, mul_zero, add_zero]
          have := congrFun hbl j
          simp only [mulVec, dotProduct] at this
          rw [← show b j = A (Fin.last n) (Fin.castSucc j) from rfl, ← this]
          exact Finset.sum_congr rfl fun k _ => mul_comm _ _
      · refine Fin.lastCases ?_ (fun j => ?_) j
        · simp only [Fin.lastCases_last, Fin.lastCases_castSucc, zero_mul, add_zero]
          have := congrFun hbl i
          simp only [mulVec, dotProduct] at this
          rw [h.symm, ← show b i = A (Fin.last n) (Fin.castSucc i) from rfl, ← this]
        · simp only [Fin.lastCases_castSucc, mul_zero, add_zero]
          have := congrFun (congrFun hL.mul i) j
          rw [Matrix.mul_apply] at this
          simpa using this

/-- A matrix with a Cholesky factor is positive definite. -/
theorem IsCholesky.pd {n : ℕ} {A L : Matrix (Fin n) (Fin n) ℝ} (h : IsCholesky A L) : PD A where
  symm i j := by
    rw [← h.mul, Matrix.mul_apply, Matrix.mul_apply]
    exact Finset.sum_congr rfl fun k _ => mul_comm _ _
  pos x hx := by
    rw [← h.mul, ← Matrix.mulVec_mulVec, Matrix.dotProduct_mulVec, ← Matrix.mulVec_transpose]
    have hne : Lᵀ *ᵥ x ≠ 0 := by
      intro h0
      apply hx
      have hut : IsUnit Lᵀ.det := by rw [Matrix.det_transpose]; exact h.det_ne.isUnit
      have := congrArg (fun v => (Lᵀ)⁻¹ *ᵥ v) h0
      simpa [Matrix.mulVec_mulVec, Matrix.nonsing_inv_mul _ hut] using this
    have h0 : 0 ≤ (Lᵀ *ᵥ x) ⬝ᵥ (Lᵀ *ᵥ x) := Finset.sum_nonneg fun i _ => mul_self_nonneg _
    exact lt_of_le_of_ne h0 fun he => hne (dotProduct_self_eq_zero.mp he.symm)

theorem cholesky_ok {n : ℕ} {A : Matrix (Fin n) (Fin n) ℝ} (h : PD A) :
    ∃ L, cholesky A = .ok L ∧ IsCholesky A L := by
  have hex := h.exists_cholesky
  unfold cholesky
  rw [dif_pos hex]
  exact ⟨_, rfl, hex.choose_spec⟩

theorem cholesky_inv {n : ℕ} {A L : Matrix (Fin n) (Fin n) ℝ} (h : cholesky A = .ok L) :
    IsCholesky A L := by
  unfold cholesky at h
  split_ifs at h with hex
  · simp only [Except.ok.injEq] at h
    subst h
    exact hex.choose_spec

/-! ## Minimisation of quadratic forms -/

/-- `c - bᵀ A⁻¹ b` is the minimum of `c - 2 bᵀ w + wᵀ A w`. -/
theorem PD.min_quadratic {n : ℕ} {A : Matrix (Fin n) (Fin n) ℝ} (h : PD A) (b w : Fin n → ℝ) :
    -(b ⬝ᵥ (A⁻¹ *ᵥ b)) ≤ w ⬝ᵥ (A *ᵥ w) - 2 * (b ⬝ᵥ w) := by
  have hu : IsUnit A.det := h.det_ne.isUnit
  have hT : Aᵀ = A := by ext i j; exact h.symm j i
  set v := A⁻¹ *ᵥ b with hv
  have hAv : A *ᵥ v = b := by
    rw [hv, Matrix.mulVec_mulVec, Matrix.mul_nonsing_inv _ hu, Matrix.one_mulVec]
  have h1 : 0 ≤ (w - v) ⬝ᵥ (A *ᵥ (w - v)) := by
    by_cases h0 : w - v = 0
    · rw [h0]; simp
    · exact (h.pos _ h0).le
  have h2 : v ⬝ᵥ (A *ᵥ w) = b ⬝ᵥ w := by
    rw [Matrix.dotProduct_mulVec, ← Matrix.mulVec_transpose, hT, hAv]
  have h3 : w ⬝ᵥ b = b ⬝ᵥ w := dotProduct_comm _ _
  have h4 : v ⬝ᵥ b = b ⬝ᵥ v := dotProduct_comm _ _
  rw [Matrix.mulVec_sub, sub_dotProduct, dotProduct_sub, dotProduct_sub, hAv, h2, h3, h4] at h1
  linarith

theorem PD.min_attained {n : ℕ} {A : Matrix (Fin n) (Fin n) ℝ} (h : PD A) (b : Fin n → ℝ) :
    (A⁻¹ *ᵥ b) ⬝ᵥ (A *ᵥ (A⁻¹ *ᵥ b)) - 2 * (b ⬝ᵥ (A⁻¹ *ᵥ b)) = -(b ⬝ᵥ (A⁻¹ *ᵥ b)) := by
  have hu : IsUnit A.det := h.det_ne.isUnit
  have hAv : A *ᵥ (A⁻¹ *ᵥ b) = b := by
    rw [Matrix.mulVec_mulVec, Matrix.mul_nonsing_inv _ hu, Matrix.one_mulVec]
  rw [hAv, dotProduct_comm]
  ring

end SafeLearning

namespace SafeLearning

open Matrix

variable {P : Type}

/-! ## Kernel matrices -/

theorem noisyGram_quad (k : P → P → ℝ) (noise : ℝ) {n : ℕ} (X : Fin n → P) (c : Fin n → ℝ) :
    c ⬝ᵥ (Spec.noisyGram k noise X *ᵥ c) =
      ∑ i, ∑ j, c i * c j * k (X i) (X j) + noise * ∑ i, c i ^ 2 := by
  rw [Spec.noisyGram, Matrix.add_mulVec, dotProduct_add, Matrix.smul_mulVec, Matrix.one_mulVec,
    dotProduct_smul]
  congr 1
  · simp only [dotProduct, mulVec, Matrix.of_apply, Finset.mul_sum]
    exact Finset.sum_congr rfl fun i _ => Finset.sum_congr rfl fun j _ => by ring
  · simp only [dotProduct, smul_eq_mul]
    congr 1
    exact Finset.sum_congr rfl fun i _ => by ring

theorem noisyGram_pd {k : P → P → ℝ} (hk : Spec.IsKernel k) {noise : ℝ} (hn : 0 < noise) {n : ℕ}
    (X : Fin n → P) : PD (Spec.noisyGram k noise X) where
  symm i j := by
    simp only [Spec.noisyGram, Matrix.add_apply, Matrix.of_apply, Matrix.smul_apply]
    rw [hk.symm, Matrix.one_apply, Matrix.one_apply]
    simp only [eq_comm]
  pos c hc := by
    rw [noisyGram_quad]
    have h1 := hk.nonneg n X c
    have h2 : 0 < ∑ i, c i ^ 2 := by
      obtain ⟨i, hi⟩ := Function.ne_iff.mp hc
      exact Finset.sum_pos' (fun _ _ => sq_nonneg _) ⟨i, Finset.mem_univ _, by
        have : c i ≠ 0 := by simpa using hi
        positivity⟩
    have := mul_pos hn h2
    linarith

theorem posteriorCov_le_prior {k : P → P → ℝ} {noise : ℝ} {n : ℕ} (X : Fin n → P)
    (h : PD (Spec.noisyGram k noise X)) (x : P) : Spec.posteriorCov k noise X x x ≤ k x x := by
  have := h.min_quadratic (fun i => k (X i) x) 0
  rw [Spec.posteriorCov]
  simp only [zero_dotProduct, dotProduct_zero] at this
  linarith

theorem posteriorCov_nonneg {k : P → P → ℝ} (hk : Spec.IsKernel k) {noise : ℝ} (hn : 0 ≤ noise)
    {n : ℕ} (X : Fin n → P) (h : PD (Spec.noisyGram k noise X)) (x : P) :
    0 ≤ Spec.posteriorCov k noise X x x := by
  have h1 := h.min_attained fun i => k (X i) x
  rw [Spec.posteriorCov]
  set b : Fin n → ℝ := fun i => k (X i) x with hb
  set v := (Spec.noisyGram k noise X)⁻¹ *ᵥ b with hv
  rw [noisyGram_quad] at h1
  have h2 := hk.nonneg (n + 1) (Fin.cons x X) (Fin.cons 1 fun i => -(v i))
  simp only [Fin.sum_univ_succ, Fin.cons_zero, Fin.cons_succ] at h2
  have h3 : 0 ≤ noise * ∑ i, v i ^ 2 := mul_nonneg hn (Finset.sum_nonneg fun _ _ => sq_nonneg _)
  have h4 : ∑ i, 1 * -(v i) * k x (X i) = -(b ⬝ᵥ v) := by
    rw [dotProduct, ← Finset.sum_neg_distrib]
    exact Finset.sum_congr rfl fun i _ => by rw [hb, hk.symm]; ring
  have h5 : ∑ i, (-(v i) * 1 * k (X i) x + ∑ j, -(v i) * -(v j) * k (X i) (X j)) =
      -(b ⬝ᵥ v) + ∑ i, ∑ j, v i * v j * k (X i) (X j) := by
    rw [Finset.sum_add_distrib]
    congr 1
    · rw [dotProduct, ← Finset.sum_neg_distrib]
      exact Finset.sum_congr rfl fun i _ => by rw [hb]; ring
    · exact Finset.sum_congr rfl fun i _ => Finset.sum_congr rfl fun j _ => by ring
  rw [h4, h5] at h2
  linarith

/-- Data on a larger set of points never give a larger posterior variance. -/
theorem posteriorCov_mono {k : P → P → ℝ} {noise : ℝ} {n N : ℕ} (X : Fin n → P) (X' : Fin N → P)
    (e : Fin n → Fin N) (he : Function.Injective e) (hX : ∀ i, X' (e i) = X i)
    (h : PD (Spec.noisyGram k noise X)) (h' : PD (Spec.noisyGram k noise X')) (x : P) :
    Spec.posteriorCov k noise X' x x ≤ Spec.posteriorCov k noise X x x := by
  have h1 := h.min_attained fun i => k (X i) x
  rw [Spec.posteriorCov, Spec.posteriorCov]
  set b : Fin n → ℝ := fun i => k (X i) x with hb
  set v := (Spec.noisyGram k noise X)⁻¹ *ᵥ b with hv
  have h2 := h'.min_quadratic (fun i => k (X' i) x) (Function.extend e v 0)
  have hext : ∀ i, Function.extend e v 0 (e i) = v i := fun i => he.extend_apply _ _ _
  have h0 : ∀ j, j ∉ Set.range e → Function.extend e v 0 j = 0 := fun j hj =>
    Function.extend_apply' _ _ _ (by simpa using hj)
  have hs : ∀ g : Fin N → ℝ, ∑ j, Function.extend e v 0 j * g j = ∑ i, v i * g (e i) := fun g =>
    (Fintype.sum_of_injective e he _ _ (fun j hj => by rw [h0 j hj, zero_mul])
      fun i => by rw [hext]).symm
  have h3 : (fun i => k (X' i) x) ⬝ᵥ Function.extend e v 0 = b ⬝ᵥ v := by
    rw [dotProduct_comm, dotProduct, hs, dotProduct_comm, dotProduct]
    exact Finset.sum_congr rfl fun i _ => by rw [hX]
  have h4 : Function.extend e v 0 ⬝ᵥ (Spec.noisyGram k noise X' *ᵥ Function.extend e v 0) =
      v ⬝ᵥ (Spec.noisyGram k noise X *ᵥ v) := by
    rw [noisyGram_quad, noisyGram_quad]
    congr 1
    · have : ∀ j, ∑ l, Function.extend e v 0 j * Function.extend e v 0 l * k (X' j) (X' l) =
          Function.extend e v 0 j * ∑ l, v l * k (X' j) (X' (e l)) := by
        intro j
        rw [← hs fun l => k (X' j) (X' l), Finset.mul_sum]
        exact Finset.sum_congr rfl fun _ _ => by ring
      rw [Finset.sum_congr rfl fun j _ => this j, hs]
      refine Finset.sum_congr rfl fun i _ => ?_
      rw [Finset.mul_sum]
      exact Finset.sum_congr rfl fun l _ => by rw [hX, hX]; ring
    · congr 1
      simp only [sq]
      rw [hs]
      exact Finset.sum_congr rfl fun i _ => by rw [hext]
  rw [h3, h4] at h2
  linarith

/-- The posterior does not depend on the order of the data. -/
theorem posterior_reindex (k : P → P → ℝ) (m : P → ℝ) (noise : ℝ) {n N : ℕ} (X : Fin n → P)
    (X' : Fin N → P) (y : Fin n → ℝ) (y' : Fin N → ℝ) (e : Fin n ≃ Fin N)
    (hX : ∀ i, X' (e i) = X i) (hy : ∀ i, y' (e i) = y i) (x x' : P) :
    Spec.posteriorMean k m noise X' y' x = Spec.posteriorMean k m noise X y x ∧
    Spec.posteriorCov k noise X' x x' = Spec.posteriorCov k noise X x x' := by
  have hG : Spec.noisyGram k noise X = (Spec.noisyGram k noise X').submatrix e e := by
    ext i j
    simp [Spec.noisyGram, Matrix.one_apply, hX]
  have key : ∀ b c : Fin N → ℝ,
      b ⬝ᵥ ((Spec.noisyGram k noise X')⁻¹ *ᵥ c) =
        (b ∘ e) ⬝ᵥ ((Spec.noisyGram k noise X)⁻¹ *ᵥ (c ∘ e)) := by
    intro b c
    rw [hG, Matrix.inv_submatrix_equiv]
    simp only [dotProduct, mulVec, Function.comp, Matrix.submatrix_apply]
    rw [← e.sum_comp]
    refine Finset.sum_congr rfl fun i _ => ?_
    congr 1
    exact (e.sum_comp fun j => (Spec.noisyGram k noise X')⁻¹ (e i) j * c j).symm
  constructor
  · rw [Spec.posteriorMean, Spec.posteriorMean, key]
    congr 2
    · funext i; simp [hX]
    · congr 1; funext i; simp [hX, hy]
  · rw [Spec.posteriorCov, Spec.posteriorCov, key]
    congr 2
    · funext i; simp [hX]
    · congr 1; funext i; simp [hX]

end SafeLearning
