import Verif.Model.Utilities
import Verif.Spec.Utilities
import Mathlib.Tactic.NoncommRing
import Mathlib.Tactic.Linarith
set_option autoImplicit false

/-!
# C44, C45: linear quadratic regulators
-/

namespace SafeLearning

open Matrix

set_option linter.unusedSectionVars false

variable {K : Type} [Field K] [LinearOrder K] [IsStrictOrderedRing K] {n m : ℕ}

theorem linSolve_ok {a : Matrix (Fin n) (Fin n) K} {b k : Matrix (Fin n) (Fin m) K}
    (h : linSolve a b = .ok k) : a.det ≠ 0 ∧ a * k = b := by
  unfold linSolve at h
  split_ifs at h with hd
  simp only [Except.ok.injEq] at h
  refine ⟨hd, ?_⟩
  rw [← h, Matrix.mul_nonsing_inv_cancel_left _ _ (isUnit_iff_ne_zero.mpr hd)]

/-- **C44.** If the Riccati solver returns a solution of the discrete-time Riccati equation, then
`dlqr` returns it as the second result, and the gain `K` satisfies the closed-loop equation
`(A - B K)ᵀ P (A - B K) - P = -(Q + Kᵀ R K)`. -/
theorem C44_dlqr_closed_loop (A Q P : Matrix (Fin n) (Fin n) K) (B : Matrix (Fin n) (Fin m) K)
    (R : Matrix (Fin m) (Fin m) K) (hare : Spec.SolvesDARE P A Q B R) {k : Matrix (Fin m) (Fin n) K}
    {p : Matrix (Fin n) (Fin n) K} (h : dlqr P A B R = .ok (k, p)) :
    p = P ∧ (A - B * k)ᵀ * P * (A - B * k) - P = -(Q + kᵀ * R * k) := by
  unfold dlqr at h
  simp only [bind, Except.bind] at h
  cases hk : linSolve (Bᵀ * P * B + R) (Bᵀ * P * A) with
  | error e => simp [hk] at h
  | ok k' =>
    simp only [hk, pure, Except.pure, Except.ok.injEq, Prod.mk.injEq] at h
    obtain ⟨rfl, rfl⟩ := h
    refine ⟨rfl, ?_⟩
    obtain ⟨hd, hs⟩ := linSolve_ok hk
    have hk' : k' = (R + Bᵀ * P * B)⁻¹ * (Bᵀ * P * A) := by
      rw [add_comm R, ← hs, Matrix.nonsing_inv_mul_cancel_left _ _ (isUnit_iff_ne_zero.mpr hd)]
    have h1 : P = Aᵀ * P * A - Aᵀ * P * B * k' + Q := by
      conv_lhs => rw [hare]
      rw [hk', Matrix.mul_assoc (Aᵀ * P * B)]
    have h3 : k'ᵀ * Bᵀ * P * A = k'ᵀ * Bᵀ * P * B * k' + k'ᵀ * R * k' := by
      have := congrArg (k'ᵀ * ·) hs
      simp only [Matrix.add_mul, Matrix.mul_add, ← Matrix.mul_assoc] at this
      exact this.symm
    have e : (A - B * k')ᵀ * P * (A - B * k') =
        Aᵀ * P * A - Aᵀ * P * B * k' - k'ᵀ * Bᵀ * P * A + k'ᵀ * Bᵀ * P * B * k' := by
      rw [Matrix.transpose_sub, Matrix.transpose_mul]
      simp only [Matrix.mul_sub, Matrix.sub_mul, ← Matrix.mul_assoc]
      abel
    rw [e, h3]
    have h5 : Aᵀ * P * A - Aᵀ * P * B * k' = P - Q := by
      conv_rhs => rw [h1]
      abel
    rw [h5]
    abel

theorem quad_sub_gain (S : Matrix (Fin m) (Fin m) K) (hS : Sᵀ = S) (u v : Fin m → K) :
    Spec.quad S u - 2 * (u ⬝ᵥ (S *ᵥ v)) + Spec.quad S v = Spec.quad S (u - v) := by
  unfold Spec.quad
  have : v ⬝ᵥ (S *ᵥ u) = u ⬝ᵥ (S *ᵥ v) := by
    rw [Matrix.dotProduct_mulVec, ← Matrix.mulVec_transpose, hS, dotProduct_comm]
  rw [Matrix.mulVec_sub, sub_dotProduct, dotProduct_sub, dotProduct_sub, this]
  ring

/-- The one-step cost, with the square completed. -/
theorem dlqr_cost (A P : Matrix (Fin n) (Fin n) K) (B : Matrix (Fin n) (Fin m) K)
    (R : Matrix (Fin m) (Fin m) K) (hP : Pᵀ = P) (hR : Rᵀ = R)
    {k : Matrix (Fin m) (Fin n) K} {p : Matrix (Fin n) (Fin n) K}
    (h : dlqr P A B R = .ok (k, p)) (x : Fin n → K) (u : Fin m → K) :
    Spec.quad R u + Spec.quad P (A *ᵥ x + B *ᵥ u) = Spec.quad (R + Bᵀ * P * B) (u + k *ᵥ x) + Spec.quad P (A *ᵥ x)
      - Spec.quad (R + Bᵀ * P * B) (k *ᵥ x) := by
  have hs : (R + Bᵀ * P * B) * k = Bᵀ * P * A := by
    unfold dlqr at h
    simp only [bind, Except.bind] at h
    cases hk : linSolve (Bᵀ * P * B + R) (Bᵀ * P * A) with
    | error e => simp [hk] at h
    | ok k' =>
      simp only [hk, pure, Except.pure, Except.ok.injEq, Prod.mk.injEq] at h
      obtain ⟨rfl, rfl⟩ := h
      rw [add_comm]
      exact (linSolve_ok hk).2
  have hS : (R + Bᵀ * P * B)ᵀ = R + Bᵀ * P * B := by
    simp [Matrix.transpose_add, Matrix.transpose_mul, hP, hR, Matrix.mul_assoc]
  have e1 : Spec.quad (R + Bᵀ * P * B) u = Spec.quad R u + Spec.quad P (B *ᵥ u) := by
    unfold Spec.quad
    rw [Matrix.add_mulVec, dotProduct_add, ← Matrix.mulVec_mulVec, ← Matrix.mulVec_mulVec,
      Matrix.dotProduct_mulVec u Bᵀ, Matrix.vecMul_transpose]
  have e2 : u ⬝ᵥ ((R + Bᵀ * P * B) *ᵥ (k *ᵥ x)) = (B *ᵥ u) ⬝ᵥ (P *ᵥ (A *ᵥ x)) := by
    rw [Matrix.mulVec_mulVec, hs, ← Matrix.mulVec_mulVec, ← Matrix.mulVec_mulVec,
      Matrix.dotProduct_mulVec u Bᵀ, Matrix.vecMul_transpose]
  have e3 : (A *ᵥ x) ⬝ᵥ (P *ᵥ (B *ᵥ u)) = (B *ᵥ u) ⬝ᵥ (P *ᵥ (A *ᵥ x)) := by
    rw [Matrix.dotProduct_mulVec, ← Matrix.mulVec_transpose, hP, dotProduct_comm]
  have q := quad_sub_gain _ hS u (-(k *ᵥ x))
  rw [sub_neg_eq_add, Matrix.mulVec_neg, dotProduct_neg, e2, e1] at q
  have q2 : Spec.quad (R + Bᵀ * P * B) (-(k *ᵥ x)) = Spec.quad (R + Bᵀ * P * B) (k *ᵥ x) := by
    unfold Spec.quad
    rw [Matrix.mulVec_neg, neg_dotProduct, dotProduct_neg, neg_neg]
  have e4 : Spec.quad P (A *ᵥ x + B *ᵥ u) = Spec.quad P (A *ᵥ x) +
      2 * ((B *ᵥ u) ⬝ᵥ (P *ᵥ (A *ᵥ x))) + Spec.quad P (B *ᵥ u) := by
    unfold Spec.quad
    rw [Matrix.mulVec_add, add_dotProduct, dotProduct_add, dotProduct_add, e3]
    ring
  rw [e4, ← q, q2]
  ring

/-- **C44.** The action `-K x` minimises the one-step cost `uᵀ R u + (A x + B u)ᵀ P (A x + B u)` over all
actions, for every state, if the matrix `R + Bᵀ P B` of the quadratic cost is positive semidefinite; it is
the only minimiser if the matrix is positive definite. -/
theorem C44_dlqr_minimises (A P : Matrix (Fin n) (Fin n) K) (B : Matrix (Fin n) (Fin m) K)
    (R : Matrix (Fin m) (Fin m) K) (hP : Pᵀ = P) (hR : Rᵀ = R)
    {k : Matrix (Fin m) (Fin n) K} {p : Matrix (Fin n) (Fin n) K}
    (h : dlqr P A B R = .ok (k, p)) (x : Fin n → K) (u : Fin m → K) :
    let cost := fun u => Spec.quad R u + Spec.quad P (A *ᵥ x + B *ᵥ u)
    ((∀ v, 0 ≤ Spec.quad (R + Bᵀ * P * B) v) → cost (-(k *ᵥ x)) ≤ cost u) ∧
    ((∀ v, v ≠ 0 → 0 < Spec.quad (R + Bᵀ * P * B) v) → u ≠ -(k *ᵥ x) →
      cost (-(k *ᵥ x)) < cost u) := by
  intro cost
  have key : ∀ u, cost u = Spec.quad (R + Bᵀ * P * B) (u + k *ᵥ x) + Spec.quad P (A *ᵥ x)
      - Spec.quad (R + Bᵀ * P * B) (k *ᵥ x) := dlqr_cost A P B R hP hR h x
  have k0 : cost (-(k *ᵥ x)) = Spec.quad P (A *ᵥ x) - Spec.quad (R + Bᵀ * P * B) (k *ᵥ x) := by
    rw [key]
    simp [Spec.quad]
  constructor
  · intro hpos
    rw [k0, key u]
    have := hpos (u + k *ᵥ x)
    linarith
  · intro hpos hu
    rw [k0, key u]
    have := hpos (u + k *ᵥ x) (fun h0 => hu (eq_neg_of_add_eq_zero_left h0))
    linarith

/-- **C44.** Consequently `x ↦ xᵀ P x` decreases by exactly the stage cost along the closed loop, so that it strictly
decreases away from the origin for positive definite `Q` and positive semidefinite `R`. -/
theorem C44_dlqr_decrease (A Q P : Matrix (Fin n) (Fin n) K) (B : Matrix (Fin n) (Fin m) K)
    (R : Matrix (Fin m) (Fin m) K) (hare : Spec.SolvesDARE P A Q B R) {k : Matrix (Fin m) (Fin n) K}
    {p : Matrix (Fin n) (Fin n) K} (h : dlqr P A B R = .ok (k, p)) (x : Fin n → K) :
    Spec.quad P (A *ᵥ x + B *ᵥ (-(k *ᵥ x))) =
      Spec.quad P x - (Spec.quad Q x + Spec.quad R (-(k *ᵥ x))) := by
  have h1 := (C44_dlqr_closed_loop A Q P B R hare h).2
  have h2 := congrArg (fun M => x ⬝ᵥ (M *ᵥ x)) h1
  simp only [Matrix.sub_mulVec, Matrix.neg_mulVec, Matrix.add_mulVec, dotProduct_sub,
    dotProduct_neg, dotProduct_add] at h2
  have hx : A *ᵥ x + B *ᵥ (-(k *ᵥ x)) = (A - B * k) *ᵥ x := by
    rw [Matrix.mulVec_neg, Matrix.sub_mulVec, Matrix.mulVec_mulVec, sub_eq_add_neg]
  have e1 : Spec.quad P ((A - B * k) *ᵥ x) = x ⬝ᵥ ((A - B * k)ᵀ * P * (A - B * k)) *ᵥ x := by
    unfold Spec.quad
    rw [← Matrix.mulVec_mulVec, ← Matrix.mulVec_mulVec, Matrix.dotProduct_mulVec x,
      Matrix.vecMul_transpose]
  have e2 : Spec.quad R (-(k *ᵥ x)) = x ⬝ᵥ (kᵀ * R * k) *ᵥ x := by
    unfold Spec.quad
    rw [Matrix.mulVec_neg, neg_dotProduct, dotProduct_neg, neg_neg, ← Matrix.mulVec_mulVec,
      ← Matrix.mulVec_mulVec, Matrix.dotProduct_mulVec x, Matrix.vecMul_transpose]
  rw [hx, e1, e2]
  unfold Spec.quad
  linarith

/-- **C45.** If the Riccati solver returns a symmetric solution of the continuous-time Riccati equation, then `lqr`
returns it as the second result, and the gain satisfies
`(A - B K)ᵀ P + P (A - B K) = -(Q + Kᵀ R K)`. -/
theorem C45_lqr_closed_loop (A Q P : Matrix (Fin n) (Fin n) K) (B : Matrix (Fin n) (Fin m) K)
    (R : Matrix (Fin m) (Fin m) K) (hP : Pᵀ = P) (hR : Rᵀ = R)
    (hare : Spec.SolvesCARE P A Q B R) {k : Matrix (Fin m) (Fin n) K}
    {p : Matrix (Fin n) (Fin n) K} (h : lqr P B R = .ok (k, p)) :
    p = P ∧ (A - B * k)ᵀ * P + P * (A - B * k) = -(Q + kᵀ * R * k) := by
  unfold lqr at h
  simp only [bind, Except.bind] at h
  cases hk : linSolve R (Bᵀ * P) with
  | error e => simp [hk] at h
  | ok k' =>
    simp only [hk, pure, Except.pure, Except.ok.injEq, Prod.mk.injEq] at h
    obtain ⟨rfl, rfl⟩ := h
    refine ⟨rfl, ?_⟩
    obtain ⟨hd, hs⟩ := linSolve_ok hk
    have hk' : k' = R⁻¹ * (Bᵀ * P) := by
      rw [← hs, Matrix.nonsing_inv_mul_cancel_left _ _ (isUnit_iff_ne_zero.mpr hd)]
    have hcare : Aᵀ * P + P * A - P * B * k' + Q = 0 := by
      have := hare
      unfold Spec.SolvesCARE at this
      rw [hk']
      simpa only [Matrix.mul_assoc] using this
    have h3 : P * B * k' = k'ᵀ * R * k' := by
      have := congrArg Matrix.transpose hs
      rw [Matrix.transpose_mul, Matrix.transpose_mul, hR, hP, Matrix.transpose_transpose] at this
      rw [this]
    have h4 : k'ᵀ * Bᵀ * P = k'ᵀ * R * k' := by
      rw [Matrix.mul_assoc, ← hs, Matrix.mul_assoc]
    have e : (A - B * k')ᵀ * P + P * (A - B * k') =
        (Aᵀ * P + P * A - P * B * k' + Q) - Q - k'ᵀ * Bᵀ * P := by
      rw [Matrix.transpose_sub, Matrix.transpose_mul]
      simp only [Matrix.mul_sub, Matrix.sub_mul, ← Matrix.mul_assoc]
      abel
    rw [e, hcare, h4]
    abel

/-- **C45.** Along the closed loop `x' = (A - B K) x` the derivative of `xᵀ P x` is minus the stage cost. -/
theorem C45_lqr_decrease (A Q P : Matrix (Fin n) (Fin n) K) (B : Matrix (Fin n) (Fin m) K)
    (R : Matrix (Fin m) (Fin m) K) (hP : Pᵀ = P) (hR : Rᵀ = R)
    (hare : Spec.SolvesCARE P A Q B R) {k : Matrix (Fin m) (Fin n) K}
    {p : Matrix (Fin n) (Fin n) K} (h : lqr P B R = .ok (k, p)) (x : Fin n → K) :
    let x' := A *ᵥ x + B *ᵥ (-(k *ᵥ x))
    x' ⬝ᵥ (P *ᵥ x) + x ⬝ᵥ (P *ᵥ x') = -(Spec.quad Q x + Spec.quad R (-(k *ᵥ x))) := by
  intro x'
  have h1 := (C45_lqr_closed_loop A Q P B R hP hR hare h).2
  have h2 := congrArg (fun M => x ⬝ᵥ (M *ᵥ x)) h1
  simp only [Matrix.neg_mulVec, Matrix.add_mulVec, dotProduct_neg, dotProduct_add] at h2
  have hx : x' = (A - B * k) *ᵥ x := by
    show A *ᵥ x + B *ᵥ (-(k *ᵥ x)) = _
    rw [Matrix.mulVec_neg, Matrix.sub_mulVec, Matrix.mulVec_mulVec, sub_eq_add_neg]
  have e1 : ((A - B * k) *ᵥ x) ⬝ᵥ (P *ᵥ x) = x ⬝ᵥ ((A - B * k)ᵀ * P) *ᵥ x := by
    rw [← Matrix.mulVec_mulVec, Matrix.dotProduct_mulVec x, Matrix.vecMul_transpose]
  have e3 : x ⬝ᵥ (P *ᵥ ((A - B * k) *ᵥ x)) = x ⬝ᵥ (P * (A - B * k)) *ᵥ x := by
    rw [← Matrix.mulVec_mulVec]
  have e2 : Spec.quad R (-(k *ᵥ x)) = x ⬝ᵥ (kᵀ * R * k) *ᵥ x := by
    unfold Spec.quad
    rw [Matrix.mulVec_neg, neg_dotProduct, dotProduct_neg, neg_neg, ← Matrix.mulVec_mulVec,
      ← Matrix.mulVec_mulVec, Matrix.dotProduct_mulVec x, Matrix.vecMul_transpose]
  rw [hx, e1, e3, e2]
  unfold Spec.quad
  linarith

/-- The hypotheses of C44 can be met: `A = 3`, `B = 2`, `R = 1`, `P = 3`, with gain `18 / 13`. -/
example : ∃ k, dlqr (K := ℚ) (n := 1) (m := 1) !![3] !![3] !![2] !![1] = .ok (k, !![3]) ∧
    Spec.SolvesDARE (K := ℚ) !![3] !![3] !![3 - 27 + 18 * (1 / 13) * 18] !![2] !![1] := by
  have hi : (!![13] : Matrix (Fin 1) (Fin 1) ℚ)⁻¹ = !![1 / 13] := by
    apply Matrix.inv_eq_right_inv
    ext i j
    fin_cases i; fin_cases j
    simp
  refine ⟨!![1 / 13] * !![18], ?_, ?_⟩
  · unfold dlqr linSolve
    have h1 : (!![2] : Matrix (Fin 1) (Fin 1) ℚ)ᵀ * !![3] * !![2] + !![1] = !![13] := by
      ext i j
      fin_cases i; fin_cases j
      norm_num [Matrix.mul_apply, Matrix.transpose_apply, Matrix.vecMul, dotProduct]
    have h2 : (!![2] : Matrix (Fin 1) (Fin 1) ℚ)ᵀ * !![3] * !![3] = !![18] := by
      ext i j
      fin_cases i; fin_cases j
      norm_num [Matrix.mul_apply, Matrix.transpose_apply, Matrix.vecMul, dotProduct]
    simp only [h1, h2, hi]
    simp [bind, Except.bind, pure, Except.pure]
  · unfold Spec.SolvesDARE
    have h1 : !![1] + (!![2] : Matrix (Fin 1) (Fin 1) ℚ)ᵀ * !![3] * !![2] = !![13] := by
      ext i j
      fin_cases i; fin_cases j
      norm_num [Matrix.mul_apply, Matrix.transpose_apply, Matrix.vecMul, dotProduct]
    rw [h1, hi]
    ext i j
    fin_cases i; fin_cases j
    norm_num [Matrix.mul_apply, Matrix.transpose_apply, Matrix.vecMul, dotProduct]

/-- The hypotheses of C45 can be met: `A = 1`, `B = 2`, `R = 4`, `P = 6`, `Q = 24`, with gain `3`. -/
example : ∃ k, lqr (K := ℚ) (n := 1) (m := 1) !![6] !![2] !![4] = .ok (k, !![6]) ∧
    Spec.SolvesCARE (K := ℚ) !![6] !![1] !![24] !![2] !![4] := by
  have hi : (!![4] : Matrix (Fin 1) (Fin 1) ℚ)⁻¹ = !![1 / 4] := by
    apply Matrix.inv_eq_right_inv
    ext i j
    fin_cases i; fin_cases j
    simp
  refine ⟨!![1 / 4] * (!![2]ᵀ * !![6]), ?_, ?_⟩
  · unfold lqr linSolve
    simp only [hi]
    simp [bind, Except.bind, pure, Except.pure]
  · unfold Spec.SolvesCARE
    rw [hi]
    ext i j
    fin_cases i; fin_cases j
    norm_num [Matrix.mul_apply, Matrix.transpose_apply, Matrix.vecMul, dotProduct]

end SafeLearning
