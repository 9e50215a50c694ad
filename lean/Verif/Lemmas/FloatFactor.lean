import Verif.Lemmas.FloatGaussianProcess
import Verif.Props.FloatGrid
set_option autoImplicit false

/-!
# Backward error analysis of triangular solves and Cholesky factorisations
-/

namespace SafeLearning

open Matrix Spec

/-- A factor between `w ^ (-k)` and `w ^ k`: the effect of at most `k` roundings. -/
def Factor (w : ℝ) (k : ℕ) (t : ℝ) : Prop := (w ^ k)⁻¹ ≤ t ∧ t ≤ w ^ k

variable {w : ℝ} {j k : ℕ} {s t : ℝ}

theorem Factor.pos (hw : 1 ≤ w) (h : Factor w k t) : 0 < t := lt_of_lt_of_le (by positivity) h.1

theorem Factor.one (hw : 1 ≤ w) : Factor w k 1 := ⟨inv_le_one_of_one_le₀ (one_le_pow₀ hw), one_le_pow₀ hw⟩

theorem Factor.mul (hw : 1 ≤ w) (h : Factor w j s) (h' : Factor w k t) : Factor w (j + k) (s * t) := by
  constructor
  · rw [pow_add, mul_inv]
    exact mul_le_mul h.1 h'.1 (by positivity) (h.pos hw).le
  · rw [pow_add]
    exact mul_le_mul h.2 h'.2 (h'.pos hw).le (by positivity)

theorem Factor.inv (hw : 1 ≤ w) (h : Factor w k t) : Factor w k t⁻¹ :=
  ⟨inv_anti₀ (h.pos hw) h.2, by
    have := inv_anti₀ (by positivity) h.1
    rwa [inv_inv] at this⟩

theorem Factor.mono (hw : 1 ≤ w) (h : Factor w j t) (hjk : j ≤ k) : Factor w k t :=
  ⟨(inv_anti₀ (by positivity) (pow_le_pow_right₀ hw hjk)).trans h.1, h.2.trans (pow_le_pow_right₀ hw hjk)⟩

theorem Factor.abs_sub_one (hw : 1 ≤ w) (h : Factor w k t) : |t - 1| ≤ w ^ k - 1 := by
  have h1 : 1 ≤ w ^ k := one_le_pow₀ hw
  have h2 : 2 - w ^ k ≤ (w ^ k)⁻¹ := by
    have h3 : (w ^ k)⁻¹ - (2 - w ^ k) = (w ^ k - 1) ^ 2 / w ^ k := by field_simp; ring
    have h4 : 0 ≤ (w ^ k - 1) ^ 2 / w ^ k := by positivity
    linarith
  rw [abs_le]
  constructor <;> linarith [h.1, h.2]

/-- One rounding. -/
theorem _root_.Spec.RoundsWithin.rounding {fl : ℝ → ℝ} {u : ℝ} (h : RoundsWithin fl u) (x : ℝ) :
    ∃ t, Factor (1 - u)⁻¹ 1 t ∧ fl x = x * t := by
  obtain ⟨δ, hδ, he⟩ := h.factor x
  have hu := h.small
  have hu0 := h.nonneg
  rw [abs_le] at hδ
  have h1 : 0 < 1 - u := by linarith
  refine ⟨1 + δ, ⟨?_, ?_⟩, he⟩
  · rw [pow_one, inv_inv]
    linarith
  · rw [pow_one]
    have : (1 - u)⁻¹ - (1 + u) = u ^ 2 / (1 - u) := by field_simp; ring
    have : 0 ≤ u ^ 2 / (1 - u) := by positivity
    linarith

theorem one_le_factor {fl : ℝ → ℝ} {u : ℝ} (h : RoundsWithin fl u) : 1 ≤ (1 - u)⁻¹ :=
  (one_le_inv₀ (by linarith [h.small])).mpr (by linarith [h.nonneg])

section

variable {fl : ℝ → ℝ} {u : ℝ}

theorem flSubProducts_factor (h : RoundsWithin fl u) : ∀ {n : ℕ} (b : ℝ) (x y : Fin n → ℝ),
    ∃ (T0 : ℝ) (T : Fin n → ℝ), Factor (1 - u)⁻¹ n T0 ∧ (∀ j, Factor (1 - u)⁻¹ n (T j)) ∧
      b = flSubProducts fl b (List.ofFn fun j => (x j, y j)) * T0 + ∑ j, x j * y j * T j
  | 0, b, x, y => ⟨1, fun _ => 1, Factor.one (one_le_factor h), fun j => j.elim0, by simp [flSubProducts]⟩
  | n + 1, b, x, y => by
    have hw := one_le_factor h
    obtain ⟨t, ht, hte⟩ := h.rounding (x 0 * y 0)
    obtain ⟨r, hr, hre⟩ := h.rounding (b - fl (x 0 * y 0))
    obtain ⟨T0, T, hT0, hT, he⟩ := flSubProducts_factor h (fl (b - fl (x 0 * y 0))) (fun j => x j.succ) fun j => y j.succ
    have hr0 := (hr.pos hw).ne'
    refine ⟨r⁻¹ * T0, Fin.cons t fun j => r⁻¹ * T j, ?_, fun j => ?_, ?_⟩
    · exact ((hr.inv hw).mul hw hT0).mono hw (by omega)
    · refine Fin.cases ?_ (fun j => ?_) j
      · exact ht.mono hw (by omega)
      · exact ((hr.inv hw).mul hw (hT j)).mono hw (by omega)
    · have h1 : b = fl (b - fl (x 0 * y 0)) * r⁻¹ + x 0 * y 0 * t := by
        rw [hre, ← hte]
        field_simp
        ring
      rw [Fin.sum_univ_succ]
      simp only [Fin.cons_zero, Fin.cons_succ]
      have h2 : flSubProducts fl b (List.ofFn fun j => (x j, y j)) =
          flSubProducts fl (fl (b - fl (x 0 * y 0))) (List.ofFn fun j : Fin n => (x j.succ, y j.succ)) := by
        simp only [flSubProducts, List.ofFn_succ, List.foldl_cons]
      rw [h2]
      calc b = fl (b - fl (x 0 * y 0)) * r⁻¹ + x 0 * y 0 * t := h1
        _ = (flSubProducts fl (fl (b - fl (x 0 * y 0))) (List.ofFn fun j : Fin n => (x j.succ, y j.succ)) * T0 +
            ∑ j : Fin n, x j.succ * y j.succ * T j) * r⁻¹ + x 0 * y 0 * t := by rw [← he]
        _ = _ := by
          rw [add_mul, Finset.sum_mul]
          have : ∀ j : Fin n, x j.succ * y j.succ * T j * r⁻¹ = x j.succ * y j.succ * (r⁻¹ * T j) := fun j => by ring
          rw [Finset.sum_congr rfl fun j _ => this j]
          ring

theorem flSumProducts_factor_from (h : RoundsWithin fl u) : ∀ {n : ℕ} (b : ℝ) (x y : Fin n → ℝ),
    ∃ (T0 : ℝ) (T : Fin n → ℝ), Factor (1 - u)⁻¹ n T0 ∧ (∀ j, Factor (1 - u)⁻¹ (n + 1) (T j)) ∧
      (List.ofFn fun j => (x j, y j)).foldl (fun s p => fl (s + fl (p.1 * p.2))) b = b * T0 + ∑ j, x j * y j * T j
  | 0, b, x, y => ⟨1, fun _ => 1, Factor.one (one_le_factor h), fun j => j.elim0, by simp⟩
  | n + 1, b, x, y => by
    have hw := one_le_factor h
    obtain ⟨t, ht, hte⟩ := h.rounding (x 0 * y 0)
    obtain ⟨r, hr, hre⟩ := h.rounding (b + fl (x 0 * y 0))
    obtain ⟨T0, T, hT0, hT, he⟩ := flSumProducts_factor_from h (fl (b + fl (x 0 * y 0))) (fun j => x j.succ) fun j => y j.succ
    refine ⟨r * T0, Fin.cons (t * (r * T0)) T, ?_, fun j => ?_, ?_⟩
    · exact (hr.mul hw hT0).mono hw (by omega)
    · refine Fin.cases ?_ (fun j => ?_) j
      · exact (ht.mul hw (hr.mul hw hT0)).mono hw (by omega)
      · exact (hT j).mono hw (by omega)
    · simp only [List.ofFn_succ, List.foldl_cons]
      rw [he, hre, hte, Fin.sum_univ_succ]
      simp only [Fin.cons_zero, Fin.cons_succ]
      ring

theorem flSumProducts_factor (h : RoundsWithin fl u) {n : ℕ} (x y : Fin n → ℝ) :
    ∃ T : Fin n → ℝ, (∀ j, Factor (1 - u)⁻¹ (n + 1) (T j)) ∧
      flSumProducts fl (List.ofFn fun j => (x j, y j)) = ∑ j, x j * y j * T j := by
  obtain ⟨_, T, _, hT, he⟩ := flSumProducts_factor_from h 0 x y
  exact ⟨T, hT, by rw [flSumProducts, he, zero_mul, zero_add]⟩

/-- Forward substitution solves a nearby triangular system exactly. -/
theorem flForwardSubst_factor (h : RoundsWithin fl u) : ∀ {n : ℕ} (L : Matrix (Fin n) (Fin n) ℝ) (b : Fin n → ℝ),
    (∀ i j, i < j → L i j = 0) → (∀ i, L i i ≠ 0) →
    ∃ T : Fin n → Fin n → ℝ, (∀ i j, Factor (1 - u)⁻¹ n (T i j)) ∧
      ∀ i, b i = ∑ j, L i j * flForwardSubst fl L b j * T i j
  | 0, _, _, _, _ => ⟨fun i => i.elim0, fun i => i.elim0, fun i => i.elim0⟩
  | n + 1, L, b, hl, hd => by
    have hw := one_le_factor h
    obtain ⟨T, hT, he⟩ := flForwardSubst_factor h (fun i j => L i.castSucc j.castSucc) (fun i => b i.castSucc)
      (fun i j hij => hl _ _ (by simpa using hij)) fun i => hd _
    obtain ⟨x, hx⟩ : ∃ x, x = flForwardSubst fl (fun i j : Fin n => L i.castSucc j.castSucc) fun i => b i.castSucc := ⟨_, rfl⟩
    rw [← hx] at he
    obtain ⟨S, hS⟩ : ∃ S, S = flSubProducts fl (b (Fin.last n)) (List.ofFn fun j : Fin n => (L (Fin.last n) j.castSucc, x j)) := ⟨_, rfl⟩
    obtain ⟨T0, R, hT0, hR, hb⟩ := flSubProducts_factor h (b (Fin.last n)) (fun j : Fin n => L (Fin.last n) j.castSucc) x
    rw [← hS] at hb
    obtain ⟨r, hr, hre⟩ := h.rounding (S / L (Fin.last n) (Fin.last n))
    have hr0 := (hr.pos hw).ne'
    have hd0 := hd (Fin.last n)
    refine ⟨Fin.snoc (α := fun _ => Fin (n + 1) → ℝ) (fun i => Fin.snoc (α := fun _ => ℝ) (T i) 1)
      (Fin.snoc (α := fun _ => ℝ) R (r⁻¹ * T0)), fun i j => ?_, fun i => ?_⟩
    · refine Fin.lastCases ?_ (fun i => ?_) i <;> refine Fin.lastCases ?_ (fun j => ?_) j <;>
        simp only [Fin.snoc_last, Fin.snoc_castSucc]
      · exact ((hr.inv hw).mul hw hT0).mono hw (by omega)
      · exact (hR j).mono hw (by omega)
      · exact Factor.one hw
      · exact (hT i j).mono hw (by omega)
    · rw [Fin.sum_univ_castSucc]
      simp only [flForwardSubst, ← hx, ← hS, Fin.snoc_last, Fin.snoc_castSucc]
      refine Fin.lastCases ?_ (fun i => ?_) i
      · simp only [Fin.snoc_last, Fin.snoc_castSucc]
        rw [hre]
        have : L (Fin.last n) (Fin.last n) * (S / L (Fin.last n) (Fin.last n) * r) * (r⁻¹ * T0) = S * T0 := by
          field_simp
        rw [this, add_comm]
        exact hb
      · simp only [Fin.snoc_last, Fin.snoc_castSucc]
        rw [hl _ _ (Fin.castSucc_lt_last i), zero_mul, zero_mul, add_zero]
        exact he i

/-- The computed factor is the exact factor of a nearby matrix. -/
theorem flCholesky_factor (h : RoundsWithin fl u) : ∀ {n : ℕ} (A L : Matrix (Fin n) (Fin n) ℝ), flCholesky fl A = .ok L →
    (∀ i j, i < j → L i j = 0) ∧ (∀ i, 0 < L i i) ∧ ∀ i j, j ≤ i → ∃ T : Fin n → ℝ,
      (∀ k, Factor (1 - u)⁻¹ (n + 1) (T k)) ∧ A i j = ∑ k, L i k * L j k * T k
  | 0, _, _, _ => ⟨fun i => i.elim0, fun i => i.elim0, fun i => i.elim0⟩
  | n + 1, A, M, hM => by
    have hw := one_le_factor h
    simp only [flCholesky, Bind.bind, Except.bind, Pure.pure, Except.pure] at hM
    cases hL : flCholesky fl (fun i j : Fin n => A i.castSucc j.castSucc) with
    | error e => rw [hL] at hM; simp at hM
    | ok L =>
      rw [hL] at hM
      dsimp only at hM
      obtain ⟨h1, h2, h3⟩ := flCholesky_factor h _ L hL
      obtain ⟨l, hl⟩ : ∃ l, l = flForwardSubst fl L fun j : Fin n => A (Fin.last n) j.castSucc := ⟨_, rfl⟩
      obtain ⟨S, hS⟩ : ∃ S, S = flSubProducts fl (A (Fin.last n) (Fin.last n)) (List.ofFn fun j : Fin n => (l j, l j)) := ⟨_, rfl⟩
      rw [← hl, ← hS] at hM
      split_ifs at hM with hpos
      simp only [Except.ok.injEq] at hM
      subst hM
      obtain ⟨r, hr, hre⟩ := h.rounding (Real.sqrt S)
      have hr0 := hr.pos hw
      obtain ⟨R, hR, hRe⟩ := flForwardSubst_factor h L (fun j : Fin n => A (Fin.last n) j.castSucc) h1 fun i => (h2 i).ne'
      rw [← hl] at hRe
      obtain ⟨T0, Q, hT0, hQ, hb⟩ := flSubProducts_factor h (A (Fin.last n) (Fin.last n)) l l
      rw [← hS] at hb
      refine ⟨fun i j hij => ?_, fun i => ?_, fun i j hij => ?_⟩
      · revert hij
        refine Fin.lastCases (fun hij => ?_) (fun i => ?_) i
        · exact absurd hij (not_lt.mpr (Fin.le_last _))
        · refine Fin.lastCases (fun _ => ?_) (fun j hij => ?_) j
          · simp [borderLower]
          · simpa [borderLower] using h1 i j (by simpa using hij)
      · refine Fin.lastCases ?_ (fun i => ?_) i
        · simp only [borderLower, Fin.snoc_last]
          rw [hre]
          exact mul_pos (Real.sqrt_pos.mpr hpos) hr0
        · simpa only [borderLower, Fin.snoc_castSucc] using h2 i
      · revert hij
        refine Fin.lastCases ?_ (fun i => ?_) i
        · refine Fin.lastCases (fun _ => ?_) (fun j _ => ?_) j
          · refine ⟨Fin.snoc (α := fun _ => ℝ) Q (r⁻¹ * r⁻¹ * T0), fun k => ?_, ?_⟩
            · refine Fin.lastCases ?_ (fun k => ?_) k <;> simp only [Fin.snoc_last, Fin.snoc_castSucc]
              · exact (((hr.inv hw).mul hw (hr.inv hw)).mul hw hT0).mono hw (by omega)
              · exact (hQ k).mono hw (by omega)
            · rw [Fin.sum_univ_castSucc]
              simp only [borderLower, Fin.snoc_last, Fin.snoc_castSucc]
              rw [hre]
              have : Real.sqrt S * r * (Real.sqrt S * r) * (r⁻¹ * r⁻¹ * T0) = S * T0 := by
                have e : Real.sqrt S * Real.sqrt S = S := Real.mul_self_sqrt hpos.le
                calc _ = Real.sqrt S * Real.sqrt S * T0 * (r * r⁻¹) * (r * r⁻¹) := by ring
                  _ = S * T0 := by rw [e, mul_inv_cancel₀ hr0.ne', mul_one, mul_one]
              rw [this, add_comm]
              exact hb
          · refine ⟨Fin.snoc (α := fun _ => ℝ) (R j) 1, fun k => ?_, ?_⟩
            · refine Fin.lastCases ?_ (fun k => ?_) k <;> simp only [Fin.snoc_last, Fin.snoc_castSucc]
              · exact Factor.one hw
              · exact (hR j k).mono hw (by omega)
            · rw [Fin.sum_univ_castSucc]
              simp only [borderLower, Fin.snoc_last, Fin.snoc_castSucc, mul_zero, zero_mul, add_zero]
              rw [hRe j]
              exact Finset.sum_congr rfl fun k _ => by ring
        · refine Fin.lastCases (fun hij => ?_) (fun j hij => ?_) j
          · exact absurd hij (not_le.mpr (Fin.castSucc_lt_last i))
          · obtain ⟨T, hT, he⟩ := h3 i j (by simpa using hij)
            refine ⟨Fin.snoc (α := fun _ => ℝ) T 1, fun k => ?_, ?_⟩
            · refine Fin.lastCases ?_ (fun k => ?_) k <;> simp only [Fin.snoc_last, Fin.snoc_castSucc]
              · exact Factor.one hw
              · exact (hT k).mono hw (by omega)
            · rw [Fin.sum_univ_castSucc]
              simp only [borderLower, Fin.snoc_last, Fin.snoc_castSucc, mul_zero, zero_mul, add_zero]
              exact he

end

end SafeLearning
