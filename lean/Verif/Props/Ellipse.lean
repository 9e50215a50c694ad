import Verif.Model.Utilities
import Verif.Spec.Utilities
import Mathlib.Tactic.Linarith
import Mathlib.Tactic.FieldSimp
import Mathlib.Analysis.SpecialFunctions.Trigonometric.Arctan
set_option autoImplicit false

/-!
# C48: ellipses
-/

namespace SafeLearning

open Matrix

/-- The contract of `np.linalg.eig` for a symmetric positive definite matrix: positive eigenvalues and orthonormal
eigenvectors in the columns. -/
structure _root_.Spec.IsEig (P : Matrix (Fin 2) (Fin 2) ℝ) (eigval : Fin 2 → ℝ)
    (eigvec : Matrix (Fin 2) (Fin 2) ℝ) : Prop where
  pos : ∀ j, 0 < eigval j
  eig : ∀ j, P *ᵥ (fun i => eigvec i j) = eigval j • fun i => eigvec i j
  orth : eigvecᵀ * eigvec = 1

variable {P : Matrix (Fin 2) (Fin 2) ℝ} {eigval : Fin 2 → ℝ} {eigvec : Matrix (Fin 2) (Fin 2) ℝ}

/-- **C48 (the positions).** Every computed position satisfies `xᵀ P x = level`. -/
theorem C48_positions_on_ellipse (h : Spec.IsEig P eigval eigvec) {level : ℝ} (hl : 0 ≤ level)
    (n k : ℕ) : Spec.quad P (ellipsePos eigval eigvec level n k) = level := by
  unfold ellipsePos
  dsimp only
  generalize (k : ℝ) * (2 * Real.pi / ((n : ℝ) - 1)) + arctanDiv _ _ = a
  have h0 := h.eig 0
  have h1 := h.eig 1
  have o00 := congrFun (congrFun h.orth 0) 0
  have o01 := congrFun (congrFun h.orth 0) 1
  have o11 := congrFun (congrFun h.orth 1) 1
  have s0 : Real.sqrt (level / eigval 0) ^ 2 * eigval 0 = level := by
    rw [Real.sq_sqrt (div_nonneg hl (h.pos 0).le), div_mul_cancel₀ _ (h.pos 0).ne']
  have s1 : Real.sqrt (level / eigval 1) ^ 2 * eigval 1 = level := by
    rw [Real.sq_sqrt (div_nonneg hl (h.pos 1).le), div_mul_cancel₀ _ (h.pos 1).ne']
  have h00 := congrFun h0 0
  have h01 := congrFun h0 1
  have h10 := congrFun h1 0
  have h11 := congrFun h1 1
  have cs := Real.cos_sq_add_sin_sq a
  simp only [Matrix.mul_apply, Fin.sum_univ_two, Matrix.transpose_apply, Matrix.one_apply_eq,
    Matrix.mulVec, dotProduct, Pi.smul_apply, smul_eq_mul, Matrix.one_apply] at o00 o01 o11 h00 h01 h10 h11
  simp only [if_false, zero_ne_one] at o01
  unfold Spec.quad
  simp only [Matrix.mulVec, dotProduct, Fin.sum_univ_two]
  generalize Real.cos a = c at *
  generalize Real.sin a = s at *
  generalize Real.sqrt (level / eigval 0) = t0 at *
  generalize Real.sqrt (level / eigval 1) = t1 at *
  generalize eigvec 0 0 = v00 at *
  generalize eigvec 0 1 = v01 at *
  generalize eigvec 1 0 = v10 at *
  generalize eigvec 1 1 = v11 at *
  have e0 : P 0 0 * (c * (v00 * t0) + s * (v01 * t1)) + P 0 1 * (c * (v10 * t0) + s * (v11 * t1)) =
      c * t0 * (eigval 0 * v00) + s * t1 * (eigval 1 * v01) := by
    rw [← h00, ← h10]; ring
  have e1 : P 1 0 * (c * (v00 * t0) + s * (v01 * t1)) + P 1 1 * (c * (v10 * t0) + s * (v11 * t1)) =
      c * t0 * (eigval 0 * v10) + s * t1 * (eigval 1 * v11) := by
    rw [← h01, ← h11]; ring
  rw [e0, e1]
  have : (c * (v00 * t0) + s * (v01 * t1)) * (c * t0 * (eigval 0 * v00) + s * t1 * (eigval 1 * v01)) +
      (c * (v10 * t0) + s * (v11 * t1)) * (c * t0 * (eigval 0 * v10) + s * t1 * (eigval 1 * v11)) =
      c ^ 2 * (t0 ^ 2 * eigval 0) * (v00 * v00 + v10 * v10) +
      s ^ 2 * (t1 ^ 2 * eigval 1) * (v01 * v01 + v11 * v11) +
      (c * s * t0 * t1 * (eigval 0 + eigval 1)) * (v00 * v01 + v10 * v11) := by ring
  rw [this, o00, o01, o11, s0, s1]
  linear_combination level * cs

theorem arctanDiv_spec (a b : ℝ) : b * Real.sin (arctanDiv a b) = a * Real.cos (arctanDiv a b) := by
  unfold arctanDiv
  by_cases hb : b = 0
  · subst hb
    simp only [if_true, zero_mul]
    split_ifs
    · simp
    · simp
  · rw [if_neg hb]
    have hc := (Real.cos_arctan_pos (a / b)).ne'
    have := Real.tan_arctan (a / b)
    rw [Real.tan_eq_sin_div_cos, div_eq_div_iff hc hb] at this
    linarith

/-- The positions are listed symmetrically: the `k`-th and the `k`-th from the end have the same first
coordinate. -/
theorem ellipsePos_symm (eigval : Fin 2 → ℝ) (eigvec : Matrix (Fin 2) (Fin 2) ℝ) (level : ℝ)
    {n k : ℕ} (hn : 2 ≤ n) (hk : k < n) :
    ellipsePos eigval eigvec level n (n - 1 - k) 0 = ellipsePos eigval eigvec level n k 0 := by
  unfold ellipsePos
  dsimp only
  have hs := arctanDiv_spec (eigvec 0 1 * Real.sqrt (level / eigval 1))
    (eigvec 0 0 * Real.sqrt (level / eigval 0))
  generalize eigvec 0 1 * Real.sqrt (level / eigval 1) = e1 at *
  generalize eigvec 0 0 * Real.sqrt (level / eigval 0) = e0 at *
  generalize arctanDiv e1 e0 = φ at *
  have hn1 : ((n : ℝ) - 1) ≠ 0 := by
    have : (2 : ℝ) ≤ n := by exact_mod_cast hn
    linarith
  have ht : ((n - 1 - k : ℕ) : ℝ) * (2 * Real.pi / ((n : ℝ) - 1)) =
      2 * Real.pi - (k : ℝ) * (2 * Real.pi / ((n : ℝ) - 1)) := by
    rw [Nat.cast_sub (by omega), Nat.cast_sub (by omega)]
    push_cast
    field_simp
  rw [ht]
  generalize (k : ℝ) * (2 * Real.pi / ((n : ℝ) - 1)) = t
  rw [Real.cos_add, Real.sin_add, Real.cos_add, Real.sin_add, Real.cos_two_pi_sub,
    Real.sin_two_pi_sub]
  linear_combination 2 * Real.sin t * hs

/-- **C48 is violated**: `ellipse_bounds` raises `TypeError` for all arguments, because the half number of points is a
float and is used in slices. -/
theorem C48_refuted (eigval : Fin 2 → ℝ) (eigvec : Matrix (Fin 2) (Fin 2) ℝ) (level : ℝ) (n : ℕ) :
    ellipseBounds false eigval eigvec level n = .error .typeError := rfl

/-- **C48 (partial).** With an integer division on line 405 the function would return three lists of the same length such
that for each first coordinate both the upper and the lower bound satisfy `xᵀ P x = level`. -/
theorem C48_ellipse_partial (h : Spec.IsEig P eigval eigvec) {level : ℝ} (hl : 0 ≤ level) (n : ℕ) :
    ∃ xs upper lower, ellipseBounds true eigval eigvec level n = .ok (xs, upper, lower) ∧
      xs.length = (n + 1) / 2 ∧ upper.length = xs.length ∧ lower.length = xs.length ∧
      ∀ (k : ℕ) (x u l : ℝ), xs[k]? = some x → upper[k]? = some u → lower[k]? = some l →
        Spec.quad P ![x, u] = level ∧ Spec.quad P ![x, l] = level := by
  refine ⟨_, _, _, rfl, ?_, by simp, by simp; omega, ?_⟩
  · simp only [List.length_map, List.length_range]
    omega
  · intro k x u l hx hu hlow
    have hk : k < (n + n % 2) / 2 := by
      by_contra hk
      rw [List.getElem?_eq_none (by simpa using hk)] at hx
      simp at hx
    have hk' : k < n + n % 2 - (n + n % 2) / 2 := by omega
    simp only [List.getElem?_map, List.getElem?_range hk, List.getElem?_range hk', Option.map_some,
      Option.some.injEq] at hx hu hlow
    have hpos := fun k => C48_positions_on_ellipse h hl (n + n % 2) k
    have e1 : (![x, u] : Fin 2 → ℝ) = ellipsePos eigval eigvec level (n + n % 2) k := by
      funext i
      fin_cases i
      · exact hx.symm
      · exact hu.symm
    have e2 : (![x, l] : Fin 2 → ℝ) =
        ellipsePos eigval eigvec level (n + n % 2) (n + n % 2 - 1 - k) := by
      funext i
      fin_cases i
      · exact hx.symm.trans (ellipsePos_symm eigval eigvec level (n := n + n % 2) (k := k)
          (by omega) (by omega)).symm
      · exact hlow.symm
    rw [e1, e2]
    exact ⟨hpos _, hpos _⟩

/-- Sign of the first coordinate of the first position. -/
theorem arctanDiv_sign (a b : ℝ) : (0 ≤ b → 0 ≤ Real.cos (arctanDiv a b) * b + Real.sin (arctanDiv a b) * a) ∧
    (b < 0 → Real.cos (arctanDiv a b) * b + Real.sin (arctanDiv a b) * a < 0) := by
  unfold arctanDiv
  by_cases hb : b = 0
  · subst hb
    refine ⟨fun _ => ?_, fun h => absurd h (lt_irrefl _)⟩
    rw [if_pos rfl]
    split_ifs with ha
    · simpa using ha.le
    · simp only [Real.sin_neg, Real.sin_pi_div_two, mul_zero, zero_add]
      linarith
  · rw [if_neg hb]
    have hc := Real.cos_arctan_pos (a / b)
    have hs : Real.sin (Real.arctan (a / b)) = a / b * Real.cos (Real.arctan (a / b)) := by
      have := Real.tan_arctan (a / b)
      rw [Real.tan_eq_sin_div_cos, div_eq_iff hc.ne'] at this
      exact this
    have e : Real.cos (Real.arctan (a / b)) * b + Real.sin (Real.arctan (a / b)) * a =
        Real.cos (Real.arctan (a / b)) * ((b ^ 2 + a ^ 2) / b) := by
      rw [hs]
      field_simp
    rw [e]
    have h2 : 0 < b ^ 2 + a ^ 2 := by positivity
    exact ⟨fun h => mul_nonneg hc.le (div_nonneg h2.le h), fun h => mul_neg_of_pos_of_neg hc (div_neg_of_pos_of_neg h2 h)⟩

/-- The coordinates of the positions, with `x` the first coordinate of the first position. -/
theorem ellipsePos_coords (eigval : Fin 2 → ℝ) (eigvec : Matrix (Fin 2) (Fin 2) ℝ) (level : ℝ) (n : ℕ) :
    ∃ x c : ℝ, x ^ 2 = (eigvec 0 0 * Real.sqrt (level / eigval 0)) ^ 2 + (eigvec 0 1 * Real.sqrt (level / eigval 1)) ^ 2 ∧
      c * x = Real.sqrt (level / eigval 0) * Real.sqrt (level / eigval 1) * eigvec.det ∧
      (0 ≤ eigvec 0 0 * Real.sqrt (level / eigval 0) → 0 ≤ x) ∧ (eigvec 0 0 * Real.sqrt (level / eigval 0) < 0 → x < 0) ∧
      (∀ k, ellipsePos eigval eigvec level n k 0 = Real.cos (k * (2 * Real.pi / ((n : ℝ) - 1))) * x) ∧
      ∀ k, 2 ≤ n → k < n → ellipsePos eigval eigvec level n k 1 - ellipsePos eigval eigvec level n (n - 1 - k) 1 =
        2 * Real.sin (k * (2 * Real.pi / ((n : ℝ) - 1))) * c := by
  unfold ellipsePos
  dsimp only
  rw [Matrix.det_fin_two]
  have hs := arctanDiv_spec (eigvec 0 1 * Real.sqrt (level / eigval 1)) (eigvec 0 0 * Real.sqrt (level / eigval 0))
  have hg := arctanDiv_sign (eigvec 0 1 * Real.sqrt (level / eigval 1)) (eigvec 0 0 * Real.sqrt (level / eigval 0))
  generalize arctanDiv _ _ = φ at *
  have cs := Real.cos_sq_add_sin_sq φ
  refine ⟨_, -Real.sin φ * (eigvec 1 0 * Real.sqrt (level / eigval 0)) + Real.cos φ * (eigvec 1 1 * Real.sqrt (level / eigval 1)),
    ?_, ?_, hg.1, hg.2, ?_, ?_⟩
  · generalize eigvec 0 1 * Real.sqrt (level / eigval 1) = e1 at *
    generalize eigvec 0 0 * Real.sqrt (level / eigval 0) = e0 at *
    linear_combination (-(e0 * Real.sin φ) + e1 * Real.cos φ) * hs + (e0 ^ 2 + e1 ^ 2) * cs
  · generalize Real.sqrt (level / eigval 1) = t1 at *
    generalize Real.sqrt (level / eigval 0) = t0 at *
    linear_combination (-(Real.cos φ * (eigvec 1 0 * t0)) - Real.sin φ * (eigvec 1 1 * t1)) * hs +
      (eigvec 0 0 * t0 * (eigvec 1 1 * t1) - eigvec 0 1 * t1 * (eigvec 1 0 * t0)) * cs
  · intro k
    rw [Real.cos_add, Real.sin_add]
    linear_combination -Real.sin (k * (2 * Real.pi / ((n : ℝ) - 1))) * hs
  · intro k hn hk
    have hn1 : ((n : ℝ) - 1) ≠ 0 := by
      have : (2 : ℝ) ≤ n := by exact_mod_cast hn
      linarith
    have ht : ((n - 1 - k : ℕ) : ℝ) * (2 * Real.pi / ((n : ℝ) - 1)) =
        2 * Real.pi - (k : ℝ) * (2 * Real.pi / ((n : ℝ) - 1)) := by
      rw [Nat.cast_sub (by omega), Nat.cast_sub (by omega)]
      push_cast
      field_simp
    rw [ht]
    generalize (k : ℝ) * (2 * Real.pi / ((n : ℝ) - 1)) = t
    rw [Real.cos_add, Real.sin_add, Real.cos_add, Real.sin_add, Real.cos_two_pi_sub, Real.sin_two_pi_sub]
    ring

/-- No point of the ellipse has a larger first coordinate. -/
theorem ellipse_extent (h : Spec.IsEig P eigval eigvec) {level : ℝ} (hl : 0 < level) (y : Fin 2 → ℝ) (hy : Spec.quad P y = level) :
    y 0 ^ 2 ≤ (eigvec 0 0 * Real.sqrt (level / eigval 0)) ^ 2 + (eigvec 0 1 * Real.sqrt (level / eigval 1)) ^ 2 := by
  have p0 := h.pos 0
  have p1 := h.pos 1
  rw [mul_pow, mul_pow, Real.sq_sqrt (by positivity), Real.sq_sqrt (by positivity)]
  have h00 := congrFun (h.eig 0) 0
  have h01 := congrFun (h.eig 0) 1
  have h10 := congrFun (h.eig 1) 0
  have h11 := congrFun (h.eig 1) 1
  have horth' : eigvec * eigvecᵀ = 1 := mul_eq_one_comm.mp h.orth
  have o00 := congrFun (congrFun horth' 0) 0
  have o01 := congrFun (congrFun horth' 0) 1
  have o11 := congrFun (congrFun horth' 1) 1
  simp only [Matrix.mul_apply, Fin.sum_univ_two, Matrix.transpose_apply, Matrix.one_apply_eq,
    Matrix.mulVec, dotProduct, Pi.smul_apply, smul_eq_mul, Matrix.one_apply] at o00 o01 o11 h00 h01 h10 h11
  simp only [if_false, zero_ne_one] at o01
  unfold Spec.quad at hy
  simp only [Matrix.mulVec, dotProduct, Fin.sum_univ_two] at hy
  set c0 := eigvec 0 0 * y 0 + eigvec 1 0 * y 1 with hc0
  set c1 := eigvec 0 1 * y 0 + eigvec 1 1 * y 1 with hc1
  have y0 : y 0 = eigvec 0 0 * c0 + eigvec 0 1 * c1 := by
    rw [hc0, hc1]
    linear_combination (-y 0) * o00 - y 1 * o01
  have y1 : y 1 = eigvec 1 0 * c0 + eigvec 1 1 * c1 := by
    rw [hc0, hc1]
    linear_combination (-y 0) * o01 - y 1 * o11
  have r0 : P 0 0 * y 0 + P 0 1 * y 1 = eigval 0 * eigvec 0 0 * c0 + eigval 1 * eigvec 0 1 * c1 := by
    rw [y0, y1]
    linear_combination c0 * h00 + c1 * h10
  have r1 : P 1 0 * y 0 + P 1 1 * y 1 = eigval 0 * eigvec 1 0 * c0 + eigval 1 * eigvec 1 1 * c1 := by
    rw [y0, y1]
    linear_combination c0 * h01 + c1 * h11
  have hlev : level = eigval 0 * c0 ^ 2 + eigval 1 * c1 ^ 2 := by
    rw [← hy, r0, r1, hc0, hc1]
    ring
  have key : eigvec 0 0 ^ 2 * (level / eigval 0) + eigvec 0 1 ^ 2 * (level / eigval 1) - y 0 ^ 2 =
      (eigval 0 * c0 * eigvec 0 1 - eigval 1 * c1 * eigvec 0 0) ^ 2 / (eigval 0 * eigval 1) := by
    rw [y0, hlev]
    field_simp
    ring
  have : 0 ≤ (eigval 0 * c0 * eigvec 0 1 - eigval 1 * c1 * eigvec 0 0) ^ 2 / (eigval 0 * eigval 1) := by positivity
  linarith

/-- **C48 (partial, bounds).** With an integer division on line 405, the first coordinates would start at the largest one of the ellipse and decrease if the first entry of the eigenvectors is not negative,
otherwise start at the smallest one and increase. The upper bounds would be above the lower bounds, apart from the first point, where they are equal, if moreover the eigenvectors have positive determinant, or if both have the
opposite sign; otherwise they would be below. -/
theorem C48_bounds_partial (h : Spec.IsEig P eigval eigvec) {level : ℝ} (hl : 0 < level) (n : ℕ) :
    ∃ xs upper lower, ellipseBounds true eigval eigvec level n = .ok (xs, upper, lower) ∧
      (0 ≤ eigvec 0 0 → xs.Pairwise (· > ·) ∧ ∀ x, xs.head? = some x → IsGreatest {a | ∃ b, Spec.quad P ![a, b] = level} x) ∧
      (eigvec 0 0 < 0 → xs.Pairwise (· < ·) ∧ ∀ x, xs.head? = some x → IsLeast {a | ∃ b, Spec.quad P ![a, b] = level} x) ∧
      ∀ (k : ℕ) (u l : ℝ), upper[k]? = some u → lower[k]? = some l → (k = 0 → u = l) ∧
        (0 < k → (l < u ↔ (0 ≤ eigvec 0 0 ↔ 0 < eigvec.det)) ∧ (u < l ↔ ¬(0 ≤ eigvec 0 0 ↔ 0 < eigvec.det))) := by
  obtain ⟨x, c, hx2, hcx, hxp, hxn, hxk, hyk⟩ := ellipsePos_coords eigval eigvec level (n + n % 2)
  have t0 : 0 < Real.sqrt (level / eigval 0) := Real.sqrt_pos.mpr (div_pos hl (h.pos 0))
  have t1 : 0 < Real.sqrt (level / eigval 1) := Real.sqrt_pos.mpr (div_pos hl (h.pos 1))
  have hdet : eigvec.det ≠ 0 := by
    intro h0
    have := congrArg Matrix.det h.orth
    rw [Matrix.det_mul, h0, mul_zero, Matrix.det_one] at this
    exact zero_ne_one this
  have hcx0 : c * x ≠ 0 := by rw [hcx]; exact mul_ne_zero (mul_ne_zero t0.ne' t1.ne') hdet
  have hx0 : x ≠ 0 := right_ne_zero_of_mul hcx0
  have hc0 : c ≠ 0 := left_ne_zero_of_mul hcx0
  have hpos : 0 ≤ eigvec 0 0 ↔ 0 < x := by
    constructor
    · intro h0
      exact lt_of_le_of_ne (hxp (mul_nonneg h0 t0.le)) hx0.symm
    · intro h0
      by_contra hneg
      exact absurd (hxn (mul_neg_of_neg_of_pos (not_le.mp hneg) t0)) (not_lt.mpr h0.le)
  have hdc : 0 < eigvec.det ↔ 0 < c * x := by
    rw [hcx]
    exact (mul_pos_iff_of_pos_left (mul_pos t0 t1)).symm
  have hc : (0 ≤ eigvec 0 0 ↔ 0 < eigvec.det) ↔ 0 < c := by
    rw [hpos, hdc]
    rcases lt_or_gt_of_ne hx0 with hx | hx
    · rw [iff_false_left (not_lt.mpr hx.le), not_lt]
      constructor
      · intro h0
        rcases lt_or_gt_of_ne hc0 with hc | hc
        · exact absurd (mul_pos_of_neg_of_neg hc hx) (not_lt.mpr h0)
        · exact hc
      · exact fun h0 => (mul_neg_of_pos_of_neg h0 hx).le
    · rw [iff_true_left hx]
      exact mul_pos_iff_of_pos_right hx
  -- the angles of the first half lie in [0, π)
  have hang : ∀ k : ℕ, k < (n + n % 2) / 2 → 0 ≤ (k : ℝ) * (2 * Real.pi / (((n + n % 2 : ℕ) : ℝ) - 1)) ∧
      (k : ℝ) * (2 * Real.pi / (((n + n % 2 : ℕ) : ℝ) - 1)) < Real.pi := by
    intro k hk
    have h1 : (2 * k + 2 : ℝ) ≤ ((n + n % 2 : ℕ) : ℝ) := by exact_mod_cast (by omega : 2 * k + 2 ≤ n + n % 2)
    have hk0 : (0 : ℝ) ≤ k := Nat.cast_nonneg k
    have hd : 0 < ((n + n % 2 : ℕ) : ℝ) - 1 := by linarith
    refine ⟨mul_nonneg hk0 (div_nonneg (by positivity) hd.le), ?_⟩
    rw [mul_div_assoc', div_lt_iff₀ hd]
    nlinarith [Real.pi_pos]
  have hmono : ∀ a b : ℕ, a < b → b < (n + n % 2) / 2 → Real.cos (b * (2 * Real.pi / (((n + n % 2 : ℕ) : ℝ) - 1))) <
      Real.cos (a * (2 * Real.pi / (((n + n % 2 : ℕ) : ℝ) - 1))) := by
    intro a b hab hb
    refine Real.cos_lt_cos_of_nonneg_of_le_pi (hang a (by omega)).1 (hang b hb).2.le ?_
    have hd : 0 < ((n + n % 2 : ℕ) : ℝ) - 1 := by
      have : (2 : ℝ) ≤ ((n + n % 2 : ℕ) : ℝ) := by exact_mod_cast (by omega : 2 ≤ n + n % 2)
      linarith
    have : (a : ℝ) < b := by exact_mod_cast hab
    exact mul_lt_mul_of_pos_right this (div_pos (by positivity) hd)
  have hhead : ∀ z, ((List.range ((n + n % 2) / 2)).map fun k => ellipsePos eigval eigvec level (n + n % 2) k 0).head? = some z →
      z = x ∧ ∃ b, Spec.quad P ![z, b] = level := by
    intro z hz
    rcases Nat.eq_zero_or_pos ((n + n % 2) / 2) with h0 | h0
    · rw [h0] at hz
      simp at hz
    · rw [List.head?_map, List.head?_range, if_neg h0.ne'] at hz
      simp only [Option.map_some, Option.some.injEq] at hz
      have hz' := hz
      rw [hxk] at hz
      refine ⟨by simpa using hz.symm, ellipsePos eigval eigvec level (n + n % 2) 0 1, ?_⟩
      refine Eq.trans ?_ (C48_positions_on_ellipse h hl.le (n + n % 2) 0)
      congr 1
      funext i
      fin_cases i
      · exact hz'.symm
      · rfl
  have hbound : ∀ a, a ∈ {a | ∃ b, Spec.quad P ![a, b] = level} → a ^ 2 ≤ x ^ 2 := by
    rintro a ⟨b, hb⟩
    rw [hx2]
    exact ellipse_extent h hl ![a, b] hb
  refine ⟨_, _, _, rfl, ?_, ?_, ?_⟩
  · intro h0
    have hx := hpos.mp h0
    refine ⟨?_, ?_⟩
    · rw [List.pairwise_map]
      refine (List.pairwise_lt_range).imp_of_mem ?_
      intro a b ha hb hab
      rw [hxk, hxk]
      exact mul_lt_mul_of_pos_right (hmono a b hab (List.mem_range.mp hb)) hx
    · intro z hz
      obtain ⟨rfl, hz'⟩ := hhead z hz
      exact ⟨hz', fun a ha => (abs_le_of_sq_le_sq' (hbound a ha) hx.le).2⟩
  · intro h0
    have hx : x < 0 := hxn (mul_neg_of_neg_of_pos h0 t0)
    refine ⟨?_, ?_⟩
    · rw [List.pairwise_map]
      refine (List.pairwise_lt_range).imp_of_mem ?_
      intro a b ha hb hab
      rw [hxk, hxk]
      exact mul_lt_mul_of_neg_right (hmono a b hab (List.mem_range.mp hb)) hx
    · intro z hz
      obtain ⟨rfl, hz'⟩ := hhead z hz
      refine ⟨hz', fun a ha => ?_⟩
      have := (abs_le_of_sq_le_sq' (a := a) (b := -z) (by simpa using hbound a ha) (by linarith)).1
      linarith
  · intro k u l hu hlow
    have hk : k < (n + n % 2) / 2 := by
      by_contra hk
      rw [List.getElem?_eq_none (by simpa using hk)] at hu
      simp at hu
    have hk' : k < n + n % 2 - (n + n % 2) / 2 := by omega
    simp only [List.getElem?_map, List.getElem?_range hk, List.getElem?_range hk', Option.map_some,
      Option.some.injEq] at hu hlow
    have hd := hyk k (by omega) (by omega)
    rw [hu, hlow] at hd
    refine ⟨?_, fun hk0 => ?_⟩
    · rintro rfl
      simp only [Nat.cast_zero, zero_mul, Real.sin_zero, mul_zero] at hd
      linarith
    · have hkr : (0 : ℝ) < k := by exact_mod_cast hk0
      have hsin : 0 < Real.sin (k * (2 * Real.pi / (((n + n % 2 : ℕ) : ℝ) - 1))) := by
        refine Real.sin_pos_of_pos_of_lt_pi ?_ (hang k hk).2
        have : (2 : ℝ) ≤ ((n + n % 2 : ℕ) : ℝ) := by exact_mod_cast (by omega : 2 ≤ n + n % 2)
        exact mul_pos hkr (div_pos (by positivity) (by linarith))
      rw [hc]
      have hp : 0 < 2 * Real.sin (k * (2 * Real.pi / (((n + n % 2 : ℕ) : ℝ) - 1))) := by linarith
      constructor
      · rw [← sub_pos, hd, mul_pos_iff_of_pos_left hp]
      · rw [← sub_neg, hd, not_lt, ← not_le, mul_nonneg_iff_of_pos_left hp, not_le]
        exact ⟨le_of_lt, fun h => lt_of_le_of_ne h hc0⟩

/-- **C48 (bounds, refuted).** Even with an integer division the documented upper bound could be the lower one: for the unit circle and the eigenvectors `(1, 0)` and `(0, -1)` and for every number of points larger than two. -/
theorem C48_upper_refuted (n : ℕ) (hn : 2 < n) : ∃ eigvec : Matrix (Fin 2) (Fin 2) ℝ, Spec.IsEig 1 1 eigvec ∧
    ∃ xs upper lower u l, ellipseBounds true 1 eigvec 1 n = .ok (xs, upper, lower) ∧ upper[1]? = some u ∧ lower[1]? = some l ∧ u < l := by
  have he : Spec.IsEig 1 1 (!![1, 0; 0, -1] : Matrix (Fin 2) (Fin 2) ℝ) := by
    refine ⟨fun j => by simp, fun j => by simp, ?_⟩
    ext i j
    fin_cases i <;> fin_cases j <;> simp [Matrix.mul_apply, Fin.sum_univ_two]
  refine ⟨_, he, ?_⟩
  obtain ⟨xs, upper, lower, e, hlx, hlu, hll, -⟩ := C48_ellipse_partial he zero_le_one n
  obtain ⟨xs', upper', lower', e', -, -, hb⟩ := C48_bounds_partial he zero_lt_one n
  rw [e] at e'
  obtain ⟨rfl, rfl, rfl⟩ : xs = xs' ∧ upper = upper' ∧ lower = lower' := by simpa using e'
  have h1 : 1 < upper.length := by omega
  have h2 : 1 < lower.length := by omega
  refine ⟨xs, upper, lower, upper[1], lower[1], e, List.getElem?_eq_getElem h1, List.getElem?_eq_getElem h2, ?_⟩
  refine ((hb 1 _ _ (List.getElem?_eq_getElem h1) (List.getElem?_eq_getElem h2)).2 one_pos).2.mpr ?_
  norm_num [Matrix.det_fin_two]

/-- A matrix that meets the contract: `diag(1, 4)`. -/
example : Spec.IsEig !![1, 0; 0, 4] ![1, 4] 1 where
  pos j := by fin_cases j <;> simp
  eig j := by
    fin_cases j <;> (ext i; fin_cases i <;> simp [Matrix.mulVec, dotProduct, Matrix.one_apply])
  orth := by simp

end SafeLearning
