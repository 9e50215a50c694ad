import Verif.Lemmas.GaussianProcess
import Verif.Props.NeuralNetwork
import Mathlib.Algebra.Order.BigOperators.Ring.Finset
import Mathlib.Algebra.BigOperators.Field
set_option autoImplicit false

/-!
# Quadratic forms of inverse matrices computed with inaccurate factors and inaccurate triangular solves
-/

namespace SafeLearning

open Matrix Spec

variable {n : ℕ}

theorem dot_le_euclid (x y : Fin n → ℝ) : |x ⬝ᵥ y| ≤ euclid x * euclid y := by
  have h := Finset.sum_mul_sq_le_sq_mul_sq Finset.univ x y
  rw [← euclid_sq, ← euclid_sq, ← mul_pow] at h
  exact abs_le_of_sq_le_sq h (mul_nonneg (euclid_nonneg _) (euclid_nonneg _))

theorem dot_self_euclid (x : Fin n → ℝ) : x ⬝ᵥ x = euclid x ^ 2 := by
  rw [euclid_sq, dotProduct]
  exact Finset.sum_congr rfl fun _ _ => (sq _).symm

theorem euclid_add_le (x y : Fin n → ℝ) : euclid (x + y) ≤ euclid x + euclid y := by
  refine abs_le_of_sq_le_sq' ?_ (add_nonneg (euclid_nonneg _) (euclid_nonneg _)) |>.2
  rw [← dot_self_euclid, add_dotProduct, dotProduct_add, dotProduct_add, dot_self_euclid, dot_self_euclid, dotProduct_comm y x]
  have := (abs_le.mp (dot_le_euclid x y)).2
  nlinarith

theorem euclid_le_rows {x w : Fin n → ℝ} {m : ℝ} (hm : 0 ≤ m) (h : ∀ i, |x i| ≤ w i * m) : euclid x ≤ euclid w * m := by
  have h1 : euclid x ≤ euclid fun i => w i * m := euclid_mono fun i => (h i).trans (le_abs_self _)
  rwa [euclid_smul, abs_of_nonneg hm, mul_comm] at h1

theorem sum_abs_le_euclid (x y : Fin n → ℝ) : ∑ i, |x i| * |y i| ≤ euclid x * euclid y := by
  have h := (abs_le.mp (dot_le_euclid (fun i => |x i|) fun i => |y i|)).2
  have e : ∀ z : Fin n → ℝ, euclid (fun i => |z i|) = euclid z := fun z => by
    unfold euclid; simp only [sq_abs]
  rwa [e, e] at h

/-- The relative error `c / (1 - c)` of an inaccurate factorisation, times the trace. -/
noncomputable def _root_.Spec.factorError (c tr : ℝ) : ℝ := c / (1 - c) * tr

/-- `c` times the condition number of the factor. -/
noncomputable def _root_.Spec.solveCondition (c σ tr : ℝ) : ℝ := c * Real.sqrt (tr / ((1 - c) * (σ - factorError c tr)))

/-- The relative residual of an inaccurate triangular solve. -/
noncomputable def _root_.Spec.solveError (c σ tr : ℝ) : ℝ := solveCondition c σ tr / (1 - solveCondition c σ tr)

/-- `L` is, up to relative errors `c` in every product, a factor of `G`. -/
def FactorsNearly (c : ℝ) (G L : Matrix (Fin n) (Fin n) ℝ) : Prop :=
  ∀ i j, |G i j - ∑ k, L i k * L j k| ≤ c * ∑ k, |L i k| * |L j k|

/-- `x` solves `L x = b` up to relative errors `c` in every product. -/
def SolvesNearly (c : ℝ) (L : Matrix (Fin n) (Fin n) ℝ) (b x : Fin n → ℝ) : Prop :=
  ∀ i, |b i - ∑ j, L i j * x j| ≤ c * ∑ j, |L i j| * |x j|

section

variable {G L : Matrix (Fin n) (Fin n) ℝ} {c σ tr : ℝ}

theorem FactorsNearly.rows (h : FactorsNearly c G L) (hc1 : c < 1) (htr : ∑ i, G i i ≤ tr) :
    ∑ i, euclid (L i) ^ 2 ≤ tr / (1 - c) := by
  refine le_trans ?_ (div_le_div_of_nonneg_right htr (by linarith))
  rw [Finset.sum_div]
  refine Finset.sum_le_sum fun i _ => ?_
  have h1 := h i i
  have h2 : ∑ k, |L i k| * |L i k| = euclid (L i) ^ 2 := by
    rw [euclid_sq]; exact Finset.sum_congr rfl fun k _ => by rw [abs_mul_abs_self, sq]
  have h3 : ∑ k, L i k * L i k = euclid (L i) ^ 2 := by
    rw [euclid_sq]; exact Finset.sum_congr rfl fun k _ => by rw [sq]
  rw [h2, h3, abs_le] at h1
  rw [le_div_iff₀ (by linarith)]
  linarith [h1.1]

theorem FactorsNearly.error_le (h : FactorsNearly c G L) (hc0 : 0 ≤ c) (hc1 : c < 1) (htr : ∑ i, G i i ≤ tr) (z : Fin n → ℝ) :
    euclid ((L * Lᵀ - G) *ᵥ z) ≤ factorError c tr * euclid z := by
  obtain ⟨R, hR⟩ : ∃ R, R = euclid fun i => euclid (L i) := ⟨_, rfl⟩
  have hR0 : 0 ≤ R := hR ▸ euclid_nonneg _
  have hR2 : R ^ 2 ≤ tr / (1 - c) := by rw [hR, euclid_sq]; exact h.rows hc1 htr
  have h1 : ∀ i, |((L * Lᵀ - G) *ᵥ z) i| ≤ euclid (L i) * (c * (R * euclid z)) := by
    intro i
    have h2 : ∀ j, |(L * Lᵀ - G) i j * z j| ≤ euclid (L i) * c * (|euclid (L j)| * |z j|) := by
      intro j
      rw [abs_mul, ← mul_assoc, abs_of_nonneg (euclid_nonneg (L j))]
      refine mul_le_mul_of_nonneg_right ?_ (abs_nonneg _)
      have h3 : (L * Lᵀ - G) i j = -(G i j - ∑ k, L i k * L j k) := by
        rw [Matrix.sub_apply, Matrix.mul_apply]
        simp only [Matrix.transpose_apply]
        ring
      rw [h3, abs_neg]
      refine (h i j).trans ?_
      have := mul_le_mul_of_nonneg_left (sum_abs_le_euclid (L i) (L j)) hc0
      linarith
    calc |((L * Lᵀ - G) *ᵥ z) i| = |∑ j, (L * Lᵀ - G) i j * z j| := rfl
      _ ≤ ∑ j, |(L * Lᵀ - G) i j * z j| := Finset.abs_sum_le_sum_abs _ _
      _ ≤ ∑ j, euclid (L i) * c * (|euclid (L j)| * |z j|) := Finset.sum_le_sum fun j _ => h2 j
      _ = euclid (L i) * c * ∑ j, |euclid (L j)| * |z j| := by rw [Finset.mul_sum]
      _ ≤ euclid (L i) * c * (R * euclid z) := by
        refine mul_le_mul_of_nonneg_left ?_ (mul_nonneg (euclid_nonneg _) hc0)
        rw [hR]
        exact sum_abs_le_euclid (fun j => euclid (L j)) z
      _ = _ := by ring
  have h4 := euclid_le_rows (mul_nonneg hc0 (mul_nonneg hR0 (euclid_nonneg z))) h1
  rw [← hR] at h4
  refine h4.trans ?_
  have h5 : R * (c * (R * euclid z)) = c * R ^ 2 * euclid z := by ring
  rw [h5]
  refine mul_le_mul_of_nonneg_right ?_ (euclid_nonneg _)
  have := mul_le_mul_of_nonneg_left hR2 hc0
  unfold factorError
  calc _ ≤ c * (tr / (1 - c)) := this
    _ = _ := by ring

variable (hG : ∀ x : Fin n → ℝ, σ * euclid x ^ 2 ≤ x ⬝ᵥ (G *ᵥ x))

include hG in
theorem FactorsNearly.lower_transpose (h : FactorsNearly c G L) (hc0 : 0 ≤ c) (hc1 : c < 1) (htr : ∑ i, G i i ≤ tr)
    (v : Fin n → ℝ) : (σ - factorError c tr) * euclid v ^ 2 ≤ euclid (Lᵀ *ᵥ v) ^ 2 := by
  have h1 : euclid (Lᵀ *ᵥ v) ^ 2 = v ⬝ᵥ (G *ᵥ v) + v ⬝ᵥ ((L * Lᵀ - G) *ᵥ v) := by
    rw [← dot_self_euclid, ← dotProduct_add, ← Matrix.add_mulVec, add_sub_cancel, ← Matrix.mulVec_mulVec,
      Matrix.dotProduct_mulVec v L, ← Matrix.mulVec_transpose]
  have h2 := (abs_le.mp (dot_le_euclid v ((L * Lᵀ - G) *ᵥ v))).1
  have h3 := mul_le_mul_of_nonneg_left (h.error_le hc0 hc1 htr v) (euclid_nonneg v)
  rw [h1]
  nlinarith [hG v]

include hG in
theorem FactorsNearly.exists_transpose (h : FactorsNearly c G L) (hc0 : 0 ≤ c) (hc1 : c < 1) (htr : ∑ i, G i i ≤ tr)
    (hτ : 0 < σ - factorError c tr) (x : Fin n → ℝ) : ∃ w, Lᵀ *ᵥ w = x := by
  have hlow : ∀ v : Fin n → ℝ, (σ - factorError c tr) * euclid v ^ 2 ≤ euclid (Lᵀ *ᵥ v) ^ 2 := fun v =>
    h.lower_transpose hG hc0 hc1 htr v
  have hdet : Lᵀ.det ≠ 0 := by
    intro hd
    obtain ⟨v, hv, h0⟩ := Matrix.exists_mulVec_eq_zero_iff.mpr hd
    have h1 := hlow v
    rw [h0, ← dot_self_euclid, ← dot_self_euclid, dotProduct_zero] at h1
    have h2 : 0 ≤ v ⬝ᵥ v := by rw [dot_self_euclid]; positivity
    have h3 : v ⬝ᵥ v = 0 := by nlinarith
    exact hv (dotProduct_self_eq_zero.mp h3)
  exact ⟨(Lᵀ)⁻¹ *ᵥ x, by rw [Matrix.mulVec_mulVec, Matrix.mul_nonsing_inv _ hdet.isUnit, Matrix.one_mulVec]⟩

include hG in
theorem FactorsNearly.lower (h : FactorsNearly c G L) (hc0 : 0 ≤ c) (hc1 : c < 1) (htr : ∑ i, G i i ≤ tr)
    (hτ : 0 < σ - factorError c tr) (x : Fin n → ℝ) :
    Real.sqrt (σ - factorError c tr) * euclid x ≤ euclid (L *ᵥ x) := by
  obtain ⟨w, hw⟩ := h.exists_transpose hG hc0 hc1 htr hτ x
  obtain ⟨τ, hτe⟩ : ∃ τ, τ = σ - factorError c tr := ⟨_, rfl⟩
  have hlow : ∀ v : Fin n → ℝ, τ * euclid v ^ 2 ≤ euclid (Lᵀ *ᵥ v) ^ 2 := fun v => by
    rw [hτe]; exact h.lower_transpose hG hc0 hc1 htr v
  rw [← hτe] at hτ ⊢
  have h1 : euclid x ^ 2 ≤ euclid (L *ᵥ x) * euclid w := by
    have : x ⬝ᵥ x = (L *ᵥ x) ⬝ᵥ w := by
      nth_rw 2 [← hw]
      rw [Matrix.dotProduct_mulVec, ← Matrix.mulVec_transpose, Matrix.transpose_transpose]
    rw [← dot_self_euclid, this]
    exact (abs_le.mp (dot_le_euclid _ _)).2
  have h2 := hlow w
  rw [hw] at h2
  have h3 : Real.sqrt τ * euclid w ≤ euclid x := by
    refine abs_le_of_sq_le_sq' ?_ (euclid_nonneg _) |>.2
    rw [mul_pow, Real.sq_sqrt hτ.le]
    exact h2
  rcases (euclid_nonneg x).eq_or_lt with h0 | h0
  · rw [← h0, mul_zero]; exact euclid_nonneg _
  · have h4 := mul_le_mul_of_nonneg_left h3 (euclid_nonneg (L *ᵥ x))
    have h5 := mul_le_mul_of_nonneg_left h1 (Real.sqrt_nonneg τ)
    have h6 : Real.sqrt τ * euclid x * euclid x ≤ euclid (L *ᵥ x) * euclid x := by nlinarith
    exact le_of_mul_le_mul_right h6 h0

theorem SolvesNearly.residual_sq (h : FactorsNearly c G L) (hc0 : 0 ≤ c) (hc1 : c < 1) (htr : ∑ i, G i i ≤ tr)
    {b x : Fin n → ℝ} (hx : SolvesNearly c L b x) :
    euclid (b - L *ᵥ x) ^ 2 ≤ c * factorError c tr * euclid x ^ 2 := by
  obtain ⟨R, hR⟩ : ∃ R, R = euclid fun i => euclid (L i) := ⟨_, rfl⟩
  have hR2 : R ^ 2 ≤ tr / (1 - c) := by rw [hR, euclid_sq]; exact h.rows hc1 htr
  have h1 : euclid (b - L *ᵥ x) ≤ R * (c * euclid x) := by
    rw [hR]
    refine euclid_le_rows (mul_nonneg hc0 (euclid_nonneg _)) fun i => ?_
    refine (hx i).trans ?_
    have := mul_le_mul_of_nonneg_left (sum_abs_le_euclid (L i) x) hc0
    linarith
  calc _ ≤ (R * (c * euclid x)) ^ 2 := pow_le_pow_left₀ (euclid_nonneg _) h1 2
    _ = R ^ 2 * (c * euclid x) ^ 2 := by ring
    _ ≤ tr / (1 - c) * (c * euclid x) ^ 2 := mul_le_mul_of_nonneg_right hR2 (sq_nonneg _)
    _ = _ := by unfold factorError; ring

include hG in
theorem SolvesNearly.bounds (h : FactorsNearly c G L) (hc0 : 0 ≤ c) (hc1 : c < 1) (htr : ∑ i, G i i ≤ tr)
    (hτ : 0 < σ - factorError c tr) (hq : solveCondition c σ tr < 1) {b x : Fin n → ℝ} (hx : SolvesNearly c L b x) :
    0 ≤ solveError c σ tr ∧ euclid (b - L *ᵥ x) ≤ solveError c σ tr * euclid b ∧
    Real.sqrt (σ - factorError c tr) * euclid x ≤ (1 + solveError c σ tr) * euclid b := by
  obtain ⟨q, hqe⟩ : ∃ q, q = solveCondition c σ tr := ⟨_, rfl⟩
  have hρ : solveError c σ tr = q / (1 - q) := by rw [solveError, ← hqe]
  have hq0 : 0 ≤ q := by rw [hqe, solveCondition]; exact mul_nonneg hc0 (Real.sqrt_nonneg _)
  rw [← hqe] at hq
  obtain ⟨R, hR⟩ : ∃ R, R = euclid fun i => euclid (L i) := ⟨_, rfl⟩
  have hR0 : 0 ≤ R := hR ▸ euclid_nonneg _
  have hR2 : R ^ 2 ≤ tr / (1 - c) := by rw [hR, euclid_sq]; exact h.rows hc1 htr
  have h1 : euclid (b - L *ᵥ x) ≤ R * (c * euclid x) := by
    rw [hR]
    refine euclid_le_rows (mul_nonneg hc0 (euclid_nonneg _)) fun i => ?_
    refine (hx i).trans ?_
    have := mul_le_mul_of_nonneg_left (sum_abs_le_euclid (L i) x) hc0
    linarith
  have hlow := h.lower hG hc0 hc1 htr hτ x
  obtain ⟨τ, hτe⟩ : ∃ τ, τ = σ - factorError c tr := ⟨_, rfl⟩
  rw [← hτe] at hτ hlow ⊢
  have hsq : 0 < Real.sqrt τ := Real.sqrt_pos.mpr hτ
  have h2 : c * R ≤ q * Real.sqrt τ := by
    have h3 : q * Real.sqrt τ = c * Real.sqrt (tr / (1 - c)) := by
      rw [hqe, solveCondition, ← hτe, mul_assoc, ← Real.sqrt_mul' _ hτ.le]
      congr 2
      have : 1 - c ≠ 0 := by linarith
      have := hτ.ne'
      field_simp
    rw [h3]
    exact mul_le_mul_of_nonneg_left (Real.le_sqrt_of_sq_le hR2) hc0
  have h4 : euclid (L *ᵥ x) ≤ euclid b + euclid (b - L *ᵥ x) := by
    have e : L *ᵥ x = b + -(b - L *ᵥ x) := by rw [neg_sub, add_sub_cancel]
    have e2 : euclid (-(b - L *ᵥ x)) = euclid (b - L *ᵥ x) := by
      unfold euclid; simp only [Pi.neg_apply, neg_sq]
    calc _ = euclid (b + -(b - L *ᵥ x)) := by rw [← e]
      _ ≤ _ := by rw [← e2]; exact euclid_add_le _ _
  have h5 : euclid (b - L *ᵥ x) ≤ q * (euclid b + euclid (b - L *ᵥ x)) := by
    calc _ ≤ R * (c * euclid x) := h1
      _ = c * R * euclid x := by ring
      _ ≤ q * Real.sqrt τ * euclid x := mul_le_mul_of_nonneg_right h2 (euclid_nonneg _)
      _ = q * (Real.sqrt τ * euclid x) := by ring
      _ ≤ _ := mul_le_mul_of_nonneg_left (hlow.trans h4) hq0
  have h1q : 0 < 1 - q := by linarith
  have h6 : euclid (b - L *ᵥ x) ≤ q / (1 - q) * euclid b := by
    rw [div_mul_eq_mul_div, le_div_iff₀ h1q]
    linarith
  rw [hρ]
  refine ⟨by positivity, h6, ?_⟩
  have := hlow.trans h4
  linarith

include hG in
/-- The computed quadratic form is close to the exact one. -/
theorem FactorsNearly.quadratic (h : FactorsNearly c G L) (hσ : 0 < σ) (hc0 : 0 ≤ c) (hc1 : c < 1) (htr : ∑ i, G i i ≤ tr)
    (hτ : 0 < σ - factorError c tr) (hq : solveCondition c σ tr < 1) {k y a α z : Fin n → ℝ}
    (ha : SolvesNearly c L k a) (hα : SolvesNearly c L y α) (hz : G *ᵥ z = y) :
    |a ⬝ᵥ α - k ⬝ᵥ z| ≤ euclid k * euclid y * (solveError c σ tr / σ +
      (1 + solveError c σ tr) * (factorError c tr / σ + solveError c σ tr) / (σ - factorError c tr)) := by
  obtain ⟨hρ0, ha1, ha2⟩ := SolvesNearly.bounds hG h hc0 hc1 htr hτ hq ha
  obtain ⟨-, hα1, -⟩ := SolvesNearly.bounds hG h hc0 hc1 htr hτ hq hα
  have hEz := h.error_le hc0 hc1 htr z
  have hd := h.lower hG hc0 hc1 htr hτ (α - Lᵀ *ᵥ z)
  have hε0 : 0 ≤ factorError c tr := by
    have h1 : 0 ≤ tr := by
      have h2 := h.rows hc1 htr
      have h3 : 0 ≤ ∑ i, euclid (L i) ^ 2 := Finset.sum_nonneg fun _ _ => sq_nonneg _
      have h4 := h3.trans h2
      have h5 : 0 < 1 - c := by linarith
      by_contra hneg
      exact absurd h4 (not_le.mpr (div_neg_of_neg_of_pos (not_le.mp hneg) h5))
    exact mul_nonneg (div_nonneg hc0 (by linarith)) h1
  obtain ⟨ρ, hρ⟩ : ∃ ρ, ρ = solveError c σ tr := ⟨_, rfl⟩
  obtain ⟨ε, hε⟩ : ∃ ε, ε = factorError c tr := ⟨_, rfl⟩
  rw [← hε] at hEz hd hε0 ha2 hτ
  rw [← hρ] at hρ0 ha1 ha2 hα1
  rw [← hρ, ← hε]
  have hz1 : euclid z ≤ euclid y / σ := by
    rw [le_div_iff₀ hσ]
    have h1 := hG z
    rw [hz] at h1
    have h2 := (abs_le.mp (dot_le_euclid z y)).2
    rcases (euclid_nonneg z).eq_or_lt with h0 | h0
    · rw [← h0, zero_mul]; exact euclid_nonneg _
    · have h3 : euclid z * (euclid z * σ) ≤ euclid z * euclid y := by nlinarith
      exact le_of_mul_le_mul_left h3 h0
  have hLd : L *ᵥ (α - Lᵀ *ᵥ z) = -((y - L *ᵥ α) + (L * Lᵀ - G) *ᵥ z) := by
    rw [Matrix.mulVec_sub, Matrix.sub_mulVec, hz, ← Matrix.mulVec_mulVec]
    abel
  have hd1 : euclid (L *ᵥ (α - Lᵀ *ᵥ z)) ≤ ρ * euclid y + ε * (euclid y / σ) := by
    have e2 : ∀ v : Fin n → ℝ, euclid (-v) = euclid v := fun v => by unfold euclid; simp only [Pi.neg_apply, neg_sq]
    rw [hLd, e2]
    exact (euclid_add_le _ _).trans (add_le_add hα1 (hEz.trans (mul_le_mul_of_nonneg_left hz1 hε0)))
  have hdiff : a ⬝ᵥ α - k ⬝ᵥ z = a ⬝ᵥ (α - Lᵀ *ᵥ z) - (k - L *ᵥ a) ⬝ᵥ z := by
    rw [dotProduct_sub, sub_dotProduct]
    have : a ⬝ᵥ (Lᵀ *ᵥ z) = (L *ᵥ a) ⬝ᵥ z := by
      rw [Matrix.dotProduct_mulVec, ← Matrix.mulVec_transpose, Matrix.transpose_transpose]
    rw [this]
    ring
  obtain ⟨τ, hτe⟩ : ∃ τ, τ = σ - ε := ⟨_, rfl⟩
  rw [← hτe] at hd ha2 hτ ⊢
  have hsq : 0 < Real.sqrt τ := Real.sqrt_pos.mpr hτ
  have h1 : euclid a * euclid (α - Lᵀ *ᵥ z) ≤ (1 + ρ) * euclid k * (ρ * euclid y + ε * (euclid y / σ)) / τ := by
    rw [le_div_iff₀ hτ]
    have e : euclid a * euclid (α - Lᵀ *ᵥ z) * τ =
        (Real.sqrt τ * euclid a) * (Real.sqrt τ * euclid (α - Lᵀ *ᵥ z)) := by
      nth_rw 1 [← Real.mul_self_sqrt hτ.le]
      ring
    rw [e]
    exact mul_le_mul ha2 (hd.trans hd1) (mul_nonneg hsq.le (euclid_nonneg _))
      (mul_nonneg (by linarith) (euclid_nonneg _))
  have h2 : euclid (k - L *ᵥ a) * euclid z ≤ ρ * euclid k * (euclid y / σ) :=
    mul_le_mul ha1 hz1 (euclid_nonneg _) (mul_nonneg hρ0 (euclid_nonneg _))
  rw [hdiff]
  calc _ ≤ |a ⬝ᵥ (α - Lᵀ *ᵥ z)| + |(k - L *ᵥ a) ⬝ᵥ z| := abs_sub _ _
    _ ≤ euclid a * euclid (α - Lᵀ *ᵥ z) + euclid (k - L *ᵥ a) * euclid z :=
      add_le_add (dot_le_euclid _ _) (dot_le_euclid _ _)
    _ ≤ (1 + ρ) * euclid k * (ρ * euclid y + ε * (euclid y / σ)) / τ + ρ * euclid k * (euclid y / σ) := add_le_add h1 h2
    _ = _ := by ring

include hG in
/-- The pivot of a row that is added to a nearly exact factor: at least `σ` more than nearly the square of the row. -/
theorem FactorsNearly.pivot (h : FactorsNearly c G L) (hc0 : 0 ≤ c) (hc1 : c < 1) (htr : ∑ i, G i i ≤ tr)
    (hτ : 0 < σ - factorError c tr) {b l : Fin n → ℝ} (hl : SolvesNearly c L b l) {g : ℝ}
    (hg : ∀ w : Fin n → ℝ, σ * (euclid w ^ 2 + 1) ≤ w ⬝ᵥ (G *ᵥ w) - 2 * (b ⬝ᵥ w) + g) :
    σ + euclid l ^ 2 * (1 - c * factorError c tr / (σ - factorError c tr)) ≤ g := by
  obtain ⟨w, hw⟩ := h.exists_transpose hG hc0 hc1 htr hτ l
  have h1 := hg w
  have h2 : w ⬝ᵥ (G *ᵥ w) = euclid l ^ 2 - w ⬝ᵥ ((L * Lᵀ - G) *ᵥ w) := by
    rw [Matrix.sub_mulVec, dotProduct_sub, ← Matrix.mulVec_mulVec, hw, Matrix.dotProduct_mulVec w L, ← Matrix.mulVec_transpose,
      hw, dot_self_euclid]
    ring
  have h3 := (abs_le.mp (dot_le_euclid w ((L * Lᵀ - G) *ᵥ w))).1
  have h4 := mul_le_mul_of_nonneg_left (h.error_le hc0 hc1 htr w) (euclid_nonneg w)
  have h5 : b ⬝ᵥ w = euclid l ^ 2 + (b - L *ᵥ l) ⬝ᵥ w := by
    have : (L *ᵥ l) ⬝ᵥ w = l ⬝ᵥ (Lᵀ *ᵥ w) := by
      rw [Matrix.dotProduct_mulVec l, ← Matrix.mulVec_transpose, Matrix.transpose_transpose]
    rw [sub_dotProduct, this, hw, dot_self_euclid]
    ring
  have h6 := (abs_le.mp (dot_le_euclid (b - L *ᵥ l) w)).1
  have h7 := SolvesNearly.residual_sq h hc0 hc1 htr hl
  obtain ⟨ε, hε⟩ : ∃ ε, ε = factorError c tr := ⟨_, rfl⟩
  obtain ⟨r, hr⟩ : ∃ r, r = euclid (b - L *ᵥ l) := ⟨_, rfl⟩
  obtain ⟨v, hv⟩ : ∃ v, v = euclid w := ⟨_, rfl⟩
  obtain ⟨m, hm⟩ : ∃ m, m = euclid l ^ 2 := ⟨_, rfl⟩
  rw [← hε] at hτ h4 h7 ⊢
  rw [← hr] at h6 h7
  rw [← hv] at h1 h3 h4 h6
  rw [← hm] at h2 h5 h7 ⊢
  have h8 : 0 ≤ (σ - ε) * v ^ 2 - 2 * (r * v) + r ^ 2 / (σ - ε) := by
    have e : (σ - ε) * v ^ 2 - 2 * (r * v) + r ^ 2 / (σ - ε) = ((σ - ε) * v - r) ^ 2 / (σ - ε) := by
      field_simp; ring
    rw [e]
    exact div_nonneg (sq_nonneg _) hτ.le
  have h9 : r ^ 2 / (σ - ε) ≤ m * (c * ε / (σ - ε)) := by
    rw [← mul_div_assoc]
    exact div_le_div_of_nonneg_right (by linarith) hτ.le
  nlinarith

end

end SafeLearning
