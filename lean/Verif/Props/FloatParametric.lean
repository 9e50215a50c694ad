import Verif.Model.FloatParametric
import Verif.Props.FloatDecrease
import Verif.Props.ParametricFunctions
set_option autoImplicit false

/-!
# C154: quadratic functions and linear systems in floating point arithmetic
-/

namespace SafeLearning

open Matrix Spec

variable {K : Type} [Field K] [LinearOrder K] [IsStrictOrderedRing K] {fl : K → K} {u : K} {m n h : ℕ}

/-- Every entry is added exactly once, and no number passes through more than `h` additions. -/
structure _root_.Spec.AddsAll {n : ℕ} (order : SumOrder n) (h : ℕ) : Prop where
  once : order.entries.Perm (List.finRange n)
  height : order.height ≤ h

theorem SumOrder.eval_near (hr : RoundsWithin fl u) {f b s : Fin n → K} {k : ℕ} (hf : ∀ i, NearBy u k (f i) (b i) (s i)) (t : SumOrder n) :
    NearBy u (k + 1 + t.height) (t.eval fl f) (t.entries.map b).sum (t.entries.map s).sum := by
  induction t with
  | zero => exact ⟨by simp [entries], by simp [eval, entries]⟩
  | entry i => simpa [entries, eval, height] using (hf i).round hr
  | fused l i hl =>
    have h1 := (hf i).mono hr.nonneg (show k ≤ k + 1 + l.height by omega)
    have h3 := (hl.add h1).round hr
    simpa [entries, eval, height, add_assoc] using h3
  | add l r hl hr' =>
    have h1 := hl.mono hr.nonneg (show k + 1 + l.height ≤ k + 1 + max l.height r.height by omega)
    have h2 := hr'.mono hr.nonneg (show k + 1 + r.height ≤ k + 1 + max l.height r.height by omega)
    have h3 := (h1.add h2).round hr
    simpa [entries, eval, height, add_assoc] using h3

theorem _root_.Spec.AddsAll.near (hr : RoundsWithin fl u) {t : SumOrder n} (ht : AddsAll t h) {f b s : Fin n → K} {k : ℕ} (hf : ∀ i, NearBy u k (f i) (b i) (s i)) :
    NearBy u (k + 1 + h) (t.eval fl f) (∑ i, b i) (∑ i, s i) := by
  have h1 := (t.eval_near hr hf).mono hr.nonneg (Nat.add_le_add_left ht.height (k + 1))
  have e : ∀ c : Fin n → K, (t.entries.map c).sum = ∑ i, c i := by
    intro c
    rw [(ht.once.map c).sum_eq, ← List.ofFn_eq_map, List.sum_ofFn]
  rwa [e, e] at h1

theorem flDot_near (hr : RoundsWithin fl u) {t : SumOrder n} (ht : AddsAll t h) (x : Fin n → K) {y b s : Fin n → K} {k : ℕ} (hy : ∀ i, NearBy u k (y i) (b i) (s i)) :
    NearBy u (k + 1 + h) (flDot fl t x y) (∑ i, x i * b i) (∑ i, |x i| * s i) := by
  refine ht.near hr fun i => ?_
  have := (NearBy.exact u (x i)).mul (hy i)
  simpa [add_comm] using this

/-- **C154 (quadratic functions).** Whatever the order of the additions, the computed value differs from `xᵀ P x` by at most `(1 + u)^(2 h + 2) - 1` times the sum of the absolute values of the terms. -/
theorem C154_quadratic (hr : RoundsWithin fl u) (order : Fin n → SumOrder n) (total : SumOrder n) (ho : ∀ j, AddsAll (order j) h) (ht : AddsAll total h)
    (P : Matrix (Fin n) (Fin n) K) (x : Fin n → K) :
    |flQuadratic fl order total P x - x ⬝ᵥ (P *ᵥ x)| ≤ ((1 + u) ^ (2 * h + 2) - 1) * ∑ i, ∑ j, |x i| * |P i j| * |x j| := by
  have h1 : ∀ j, NearBy u (h + 1) (flDot fl (order j) x (fun i => P i j) * x j) ((∑ i, x i * P i j) * x j) ((∑ i, |x i| * |P i j|) * |x j|) := by
    intro j
    have := (flDot_near hr (ho j) x fun i => NearBy.exact u (P i j)).mul (NearBy.exact u (x j))
    exact this.mono hr.nonneg (by omega)
  have h2 := (ht.near hr h1).2
  have e1 : ∑ j, (∑ i, x i * P i j) * x j = x ⬝ᵥ (P *ᵥ x) := C56_value P x
  have e2 : ∑ j, (∑ i, |x i| * |P i j|) * |x j| = ∑ i, ∑ j, |x i| * |P i j| * |x j| := by
    simp only [Finset.sum_mul]
    exact Finset.sum_comm
  rw [e1, e2, show h + 1 + 1 + h = 2 * h + 2 by ring] at h2
  exact h2

/-- **C154 (gradients).** The computed gradient differs from `(P + Pᵀ) x` by at most `(1 + u)^(h + 2) - 1` times the sum of the absolute values of the terms. -/
theorem C154_gradient (hr : RoundsWithin fl u) (order : Fin n → SumOrder n) (ho : ∀ j, AddsAll (order j) h) (P : Matrix (Fin n) (Fin n) K) (x : Fin n → K) (j : Fin n) :
    |flQuadraticGradient fl order P x j - ∑ i, x i * (P i j + P j i)| ≤ ((1 + u) ^ (h + 2) - 1) * ∑ i, |x i| * |P i j + P j i| := by
  have h1 := (flDot_near hr (ho j) x fun i => (NearBy.exact u (P i j + P j i)).round hr).2
  rw [show 0 + 1 + 1 + h = h + 2 by ring] at h1
  exact h1

/-- **C154 (linear systems).** The computed next state differs from `M x` by at most `(1 + u)^(h + 1) - 1` times the sum of the absolute values of the terms. -/
theorem C154_linear (hr : RoundsWithin fl u) (order : Fin m → SumOrder n) (ho : ∀ i, AddsAll (order i) h) (M : Matrix (Fin m) (Fin n) K) (x : Fin n → K) (i : Fin m) :
    |flLinear fl order M x i - (M *ᵥ x) i| ≤ ((1 + u) ^ (h + 1) - 1) * ∑ j, |M i j| * |x j| := by
  have h1 := (flDot_near hr (ho i) x fun j => NearBy.exact u (M i j)).2
  rw [show 0 + 1 + h = h + 1 by ring] at h1
  have e1 : ∑ j, x j * M i j = (M *ᵥ x) i := by
    simp only [mulVec, dotProduct]
    exact Finset.sum_congr rfl fun j _ => mul_comm _ _
  have e2 : ∑ j, |x j| * |M i j| = ∑ j, |M i j| * |x j| := Finset.sum_congr rfl fun j _ => mul_comm _ _
  rw [e1, e2] at h1
  exact h1

/-- The terms of a quadratic form on the unit ball. -/
theorem terms_le (P : Matrix (Fin n) (Fin n) K) (x : Fin n → K) (s : K) (hx : ∀ i j, |x i| * |x j| ≤ s) :
    ∑ i, ∑ j, |x i| * |P i j| * |x j| ≤ s * ∑ i, ∑ j, |P i j| := by
  rw [Finset.mul_sum]
  refine Finset.sum_le_sum fun i _ => ?_
  rw [Finset.mul_sum]
  refine Finset.sum_le_sum fun j _ => ?_
  have := mul_le_mul_of_nonneg_right (hx i j) (abs_nonneg (P i j))
  linarith

/-- **C154 (positive values).** If the smallest eigenvalue `λ` of the quadratic form is larger than the rounding errors allow for, the computed value is positive at every state except the origin. -/
theorem C154_positive_partial (hr : RoundsWithin fl u) (order : Fin n → SumOrder n) (total : SumOrder n) (ho : ∀ j, AddsAll (order j) h) (ht : AddsAll total h)
    (P : Matrix (Fin n) (Fin n) K) (lam : K) (hP : ∀ x : Fin n → K, lam * ∑ i, x i ^ 2 ≤ x ⬝ᵥ (P *ᵥ x))
    (hlam : ((1 + u) ^ (2 * h + 2) - 1) * ∑ i, ∑ j, |P i j| < lam) (x : Fin n → K) (hx : x ≠ 0) :
    0 < flQuadratic fl order total P x := by
  have h1 := (abs_le.mp (C154_quadratic hr order total ho ht P x)).1
  have h2 : ∀ i j, |x i| * |x j| ≤ ∑ k, x k ^ 2 := by
    intro i j
    have h3 : ∀ i, x i ^ 2 ≤ ∑ k, x k ^ 2 := fun i => Finset.single_le_sum (f := fun k => x k ^ 2) (fun k _ => sq_nonneg _) (Finset.mem_univ i)
    have h4 := h3 i
    have h5 := h3 j
    rw [← sq_abs] at h4 h5
    nlinarith [sq_nonneg (|x i| - |x j|)]
  have h3 : 0 < ∑ k, x k ^ 2 := by
    obtain ⟨i, hi⟩ := Function.ne_iff.mp hx
    have : 0 < x i ^ 2 := by
      have hi' : x i ≠ 0 := hi
      positivity
    exact lt_of_lt_of_le this (Finset.single_le_sum (f := fun k => x k ^ 2) (fun k _ => sq_nonneg _) (Finset.mem_univ i))
  have h4 := mul_le_mul_of_nonneg_left (terms_le P x _ h2) (NearBy.gamma_nonneg hr.nonneg (2 * h + 2))
  have h5 := mul_lt_mul_of_pos_right hlam h3
  have h6 := hP x
  nlinarith

theorem NearBy.abs {k : ℕ} {a b s : K} (h : NearBy u k a b s) : NearBy u k |a| |b| s :=
  ⟨by rw [abs_abs]; exact h.1, (abs_abs_sub_abs_le_abs_sub a b).trans h.2⟩

/-- **C154 (Lipschitz constants).** The computed `‖2 P x‖₁`, which the examples use as the Lipschitz constant of the quadratic Lyapunov function at `x`, differs from the exact one by at most `(1 + u)^(2 h + 3) - 1` times the sum
of the absolute values of the terms, so that the exact one is at most the computed one plus this error. -/
theorem C154_lipschitz (hr : RoundsWithin fl u) (order : Fin n → SumOrder n) (total : SumOrder n) (ho : ∀ j, AddsAll (order j) h) (ht : AddsAll total h)
    (P : Matrix (Fin n) (Fin n) K) (x : Fin n → K) :
    |flValueLipschitz fl order total P x - (∑ i, |2 * (P *ᵥ x) i|)| ≤ ((1 + u) ^ (2 * h + 3) - 1) * ∑ i, ∑ j, |x j| * |2 * P i j| := by
  have h1 : ∀ i, NearBy u (h + 2) |flLinear fl order (Matrix.of fun i j => fl (2 * P i j)) x i| |∑ j, x j * (2 * P i j)| (∑ j, |x j| * |2 * P i j|) := by
    intro i
    have := (flDot_near hr (ho i) x fun j => (NearBy.exact u (2 * P i j)).round hr).abs
    exact this.mono hr.nonneg (by omega)
  have h2 := (ht.near hr h1).2
  have e1 : ∀ i, ∑ j, x j * (2 * P i j) = 2 * (P *ᵥ x) i := by
    intro i
    simp only [mulVec, dotProduct, Finset.mul_sum]
    exact Finset.sum_congr rfl fun j _ => by ring
  simp only [e1] at h2
  rw [show h + 2 + 1 + h = 2 * h + 3 by ring] at h2
  exact h2

/-! ## Concrete cases -/

/-- From left to right, starting with zero. -/
def leftToRight2 : SumOrder 2 := .add (.add .zero (.entry 0)) (.entry 1)

theorem leftToRight2_adds : AddsAll leftToRight2 2 := ⟨by decide, by decide⟩

/-- A symmetric matrix with a positive determinant of less than `2^-50`. -/
def thinMatrix : Matrix (Fin 2) (Fin 2) ℚ := !![1, 413416372043777 / 2 ^ 47; 413416372043777 / 2 ^ 47, 607205296439299 / 2 ^ 46]

/-- **C154 (refuted).** A positive definite quadratic function can be computed as negative in double precision: there are a symmetric matrix and a state, all representable, at which `xᵀ P x` is positive,
as it is at every state except the origin, but the computed value is negative. -/
theorem C154_positive_refuted : thinMatrix.IsSymm ∧ (∀ x : Fin 2 → ℚ, x ≠ 0 → 0 < x ⬝ᵥ (thinMatrix *ᵥ x)) ∧ (∀ i j, roundBinary 53 (thinMatrix i j) = thinMatrix i j) ∧
    ∃ x : Fin 2 → ℚ, x ≠ 0 ∧ (∀ i, roundBinary 53 (x i) = x i) ∧ flQuadratic (roundBinary 53) (fun _ => leftToRight2) leftToRight2 thinMatrix x < 0 := by
  refine ⟨by ext i j; fin_cases i <;> fin_cases j <;> rfl, fun x hx => ?_, fun i j => by fin_cases i <;> fin_cases j <;> decide +kernel, ![1188572069625859 / 2 ^ 44, -23], ?_, fun i => by fin_cases i <;> decide +kernel, by decide +kernel⟩
  · have e : x ⬝ᵥ (thinMatrix *ᵥ x) = (x 0 + 413416372043777 / 2 ^ 47 * x 1) ^ 2 + (607205296439299 / 2 ^ 46 - (413416372043777 / 2 ^ 47) ^ 2) * x 1 ^ 2 := by
      simp [thinMatrix, dotProduct, mulVec, Fin.sum_univ_two]
      ring
    have hc : (0 : ℚ) < 607205296439299 / 2 ^ 46 - (413416372043777 / 2 ^ 47) ^ 2 := by norm_num
    rw [e]
    by_cases h1 : x 1 = 0
    · have h0 : x 0 ≠ 0 := by
        intro h0
        exact hx (by ext i; fin_cases i <;> simp [h0, h1])
      rw [h1]
      have : 0 < x 0 ^ 2 := by positivity
      simpa using this
    · have h2 : 0 < x 1 ^ 2 := by positivity
      have := mul_pos hc h2
      have := sq_nonneg (x 0 + 413416372043777 / 2 ^ 47 * x 1)
      linarith
  · intro h
    have := congrFun h 1
    norm_num at this

/-- **C154 (Lipschitz constants, refuted).** In double precision the computed constant can be smaller than the exact one, and smaller than the slope of the quadratic function. -/
theorem C154_lipschitz_refuted : ∃ P x : ℚ, roundBinary 53 P = P ∧ roundBinary 53 x = x ∧ 0 < P ∧
    flValueLipschitz (roundBinary 53) (fun _ : Fin 1 => .entry 0) (.entry 0) !![P] ![x] < |2 * P * x| :=
  ⟨(1 + 1 / 2 ^ 52) / 2, 1 + 1 / 2 ^ 52, by decide +kernel, by decide +kernel, by norm_num, by decide +kernel⟩

/-- In double precision, the computed constant of a quadratic function in two dimensions is right up to `10^-14` on `[-1, 1]^2`. -/
example (x : Fin 2 → ℚ) (h0 : |x 0| ≤ 1) (h1 : |x 1| ≤ 1) :
    ∑ i, |(2 * ((!![2, 1; 1, 3] : Matrix (Fin 2) (Fin 2) ℚ) *ᵥ x) i)| ≤
      flValueLipschitz (roundBinary 53) (fun _ => leftToRight2) (.fused (.entry 1) 0) !![2, 1; 1, 3] x + 2 / 10 ^ 14 := by
  have h := (abs_le.mp (C154_lipschitz (h := 2) (roundBinary_within 53 (by norm_num)) (fun _ => leftToRight2) (.fused (.entry 1) 0) (fun _ => leftToRight2_adds) ⟨by decide, by decide⟩ !![2, 1; 1, 3] x)).1
  have hs : ∑ i, ∑ j, |x j| * |2 * (!![2, 1; 1, 3] : Matrix (Fin 2) (Fin 2) ℚ) i j| ≤ 14 := by
    simp [Fin.sum_univ_two]
    norm_num [abs_of_pos]
    linarith
  have hc : (1 + 2 ^ (-((53 : ℕ) : ℤ)) : ℚ) ^ (2 * 2 + 3) - 1 ≤ 1 / 10 ^ 15 := by norm_num
  have hs0 : (0 : ℚ) ≤ ∑ i, ∑ j, |x j| * |2 * (!![2, 1; 1, 3] : Matrix (Fin 2) (Fin 2) ℚ) i j| := by positivity
  have h3 := (neg_le_neg (mul_le_mul hc hs hs0 (by norm_num : (0 : ℚ) ≤ 1 / 10 ^ 15))).trans h
  norm_num at h3 ⊢
  linarith

/-- In double precision, with fused multiplications and additions in one column, the computed values of a well-conditioned quadratic function are positive. -/
example (x : Fin 2 → ℚ) (hx : x ≠ 0) :
    0 < flQuadratic (roundBinary 53) ![leftToRight2, .fused (.entry 1) 0] leftToRight2 !![2, 1; 1, 3] x := by
  refine C154_positive_partial (h := 2) (roundBinary_within 53 (by norm_num)) _ _ (fun j => by fin_cases j <;> exact ⟨by decide, by decide⟩) leftToRight2_adds _ 1 (fun x => ?_) ?_ x hx
  · simp [dotProduct, mulVec, Fin.sum_univ_two]
    nlinarith [sq_nonneg (x 0 + x 1), sq_nonneg (x 1)]
  · simp only [Fin.sum_univ_two]
    norm_num

/-- A linear system with one state and one action, in double precision: the error on the unit square is at most `10^-15`. -/
example (x : Fin 2 → ℚ) (h0 : |x 0| ≤ 1) (h1 : |x 1| ≤ 1) :
    |flLinear (roundBinary 53) (fun _ => leftToRight2) !![9 / 10, 1 / 2] x 0 - (9 / 10 * x 0 + 1 / 2 * x 1)| ≤ 1 / 10 ^ 15 := by
  have h := C154_linear (roundBinary_within 53 (by norm_num)) (fun _ : Fin 1 => leftToRight2) (fun _ => leftToRight2_adds) !![9 / 10, 1 / 2] x 0
  have e : (!![(9 : ℚ) / 10, 1 / 2] *ᵥ x) 0 = 9 / 10 * x 0 + 1 / 2 * x 1 := by simp [mulVec, dotProduct, Fin.sum_univ_two]
  rw [e] at h
  refine h.trans ?_
  simp only [Fin.sum_univ_two]
  have : |(!![(9 : ℚ) / 10, 1 / 2] : Matrix (Fin 1) (Fin 2) ℚ) 0 0| * |x 0| + |(!![(9 : ℚ) / 10, 1 / 2] : Matrix (Fin 1) (Fin 2) ℚ) 0 1| * |x 1| ≤ 2 := by
    norm_num [abs_of_pos]
    linarith
  refine (mul_le_mul_of_nonneg_left this (by norm_num)).trans (by norm_num)

end SafeLearning
