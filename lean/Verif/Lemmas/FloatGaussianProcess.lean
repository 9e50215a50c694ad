import Verif.Model.FloatGaussianProcess
import Verif.Lemmas.GaussianProcess
import Mathlib.Topology.Algebra.Order.Field
import Mathlib.Topology.Instances.Real.Lemmas
import Mathlib.Analysis.SpecialFunctions.Sqrt
set_option autoImplicit false

/-!
# Limits of the linear algebra of Gaussian processes as the rounding errors vanish
-/

namespace SafeLearning

open Matrix Filter Topology

/-- Roundings whose errors vanish in the limit. -/
def Rounds {ι : Type} (F : Filter ι) (fl : ι → ℝ → ℝ) : Prop :=
  ∀ (a : ι → ℝ) (x : ℝ), Tendsto a F (𝓝 x) → Tendsto (fun i => fl i (a i)) F (𝓝 x)

variable {ι : Type} {F : Filter ι} {fl : ι → ℝ → ℝ}

theorem flSubProducts_tendsto (h : Rounds F fl) : ∀ {n : ℕ} (b : ι → ℝ) (b0 : ℝ) (x y : ι → Fin n → ℝ) (x0 y0 : Fin n → ℝ),
    Tendsto b F (𝓝 b0) → (∀ j, Tendsto (fun i => x i j) F (𝓝 (x0 j))) → (∀ j, Tendsto (fun i => y i j) F (𝓝 (y0 j))) →
    Tendsto (fun i => flSubProducts (fl i) (b i) (List.ofFn fun j => (x i j, y i j))) F (𝓝 (b0 - ∑ j, x0 j * y0 j))
  | 0, b, b0, x, y, x0, y0, hb, _, _ => by simpa [flSubProducts] using hb
  | n + 1, b, b0, x, y, x0, y0, hb, hx, hy => by
    have := flSubProducts_tendsto h (fun i => fl i (b i - fl i (x i 0 * y i 0))) (b0 - x0 0 * y0 0)
      (fun i j => x i j.succ) (fun i j => y i j.succ) (fun j => x0 j.succ) (fun j => y0 j.succ)
      (h _ _ (hb.sub (h _ _ ((hx 0).mul (hy 0))))) (fun j => hx _) fun j => hy _
    rw [Fin.sum_univ_succ, ← sub_sub]
    simpa only [flSubProducts, List.ofFn_succ, List.foldl_cons] using this

theorem flSumProducts_from (h : Rounds F fl) : ∀ {n : ℕ} (b : ι → ℝ) (b0 : ℝ) (x y : ι → Fin n → ℝ) (x0 y0 : Fin n → ℝ),
    Tendsto b F (𝓝 b0) → (∀ j, Tendsto (fun i => x i j) F (𝓝 (x0 j))) → (∀ j, Tendsto (fun i => y i j) F (𝓝 (y0 j))) →
    Tendsto (fun i => (List.ofFn fun j => (x i j, y i j)).foldl (fun s p => fl i (s + fl i (p.1 * p.2))) (b i)) F
      (𝓝 (b0 + ∑ j, x0 j * y0 j))
  | 0, b, b0, x, y, x0, y0, hb, _, _ => by simpa using hb
  | n + 1, b, b0, x, y, x0, y0, hb, hx, hy => by
    have := flSumProducts_from h (fun i => fl i (b i + fl i (x i 0 * y i 0))) (b0 + x0 0 * y0 0)
      (fun i j => x i j.succ) (fun i j => y i j.succ) (fun j => x0 j.succ) (fun j => y0 j.succ)
      (h _ _ (hb.add (h _ _ ((hx 0).mul (hy 0))))) (fun j => hx _) fun j => hy _
    rw [Fin.sum_univ_succ, ← add_assoc]
    simpa only [List.ofFn_succ, List.foldl_cons] using this

theorem flSumProducts_tendsto (h : Rounds F fl) {n : ℕ} {x y : ι → Fin n → ℝ} {x0 y0 : Fin n → ℝ}
    (hx : ∀ j, Tendsto (fun i => x i j) F (𝓝 (x0 j))) (hy : ∀ j, Tendsto (fun i => y i j) F (𝓝 (y0 j))) :
    Tendsto (fun i => flSumProducts (fl i) (List.ofFn fun j => (x i j, y i j))) F (𝓝 (∑ j, x0 j * y0 j)) := by
  have := flSumProducts_from h (fun _ => 0) 0 x y x0 y0 tendsto_const_nhds hx hy
  rwa [zero_add] at this

theorem flForwardSubst_tendsto (h : Rounds F fl) : ∀ {n : ℕ} (L : ι → Matrix (Fin n) (Fin n) ℝ) (L0 : Matrix (Fin n) (Fin n) ℝ)
    (b : ι → Fin n → ℝ) (b0 : Fin n → ℝ), (∀ j k, Tendsto (fun i => L i j k) F (𝓝 (L0 j k))) → (∀ j, L0 j j ≠ 0) →
    (∀ j, Tendsto (fun i => b i j) F (𝓝 (b0 j))) →
    ∀ j, Tendsto (fun i => flForwardSubst (fl i) (L i) (b i) j) F (𝓝 (forwardSubst L0 b0 j))
  | 0, _, _, _, _, _, _, _ => fun j => j.elim0
  | n + 1, L, L0, b, b0, hL, hd, hb => by
    have ih := flForwardSubst_tendsto h (fun i j k => L i j.castSucc k.castSucc) (fun j k => L0 j.castSucc k.castSucc)
      (fun i j => b i j.castSucc) (fun j => b0 j.castSucc) (fun _ _ => hL _ _) (fun _ => hd _) fun _ => hb _
    intro j
    refine Fin.lastCases ?_ (fun j => ?_) j
    · simp only [flForwardSubst, forwardSubst, Fin.snoc_last]
      exact h _ _ ((flSubProducts_tendsto h _ _ _ _ _ _ (hb _) (fun j => hL _ _) ih).div (hL _ _) (hd _))
    · simp only [flForwardSubst, forwardSubst, Fin.snoc_castSucc]
      exact ih j

theorem forwardSubst_unique {n : ℕ} {L : Matrix (Fin n) (Fin n) ℝ} {x b : Fin n → ℝ}
    (hl : ∀ i j, i < j → L i j = 0) (hd : ∀ i, 0 < L i i) (hx : L *ᵥ x = b) : forwardSubst L b = x := by
  have hdet : L.det ≠ 0 := by
    rw [Matrix.det_of_isLowerTriangular L fun i j hij => hl i j hij]
    exact Finset.prod_ne_zero_iff.mpr fun i _ => (hd i).ne'
  have h1 := forwardSubst_spec L b hl fun i => (hd i).ne'
  by_contra hne
  refine hdet (Matrix.exists_mulVec_eq_zero_iff.mp ⟨forwardSubst L b - x, sub_ne_zero.mpr hne, ?_⟩)
  rw [Matrix.mulVec_sub, h1, hx, sub_self]

/-- The parts of a Cholesky factor: its leading block, its last row, and its last diagonal entry. -/
theorem IsCholesky.parts {n : ℕ} {A L : Matrix (Fin (n + 1)) (Fin (n + 1)) ℝ} (h : IsCholesky A L) :
    IsCholesky (fun i j => A (Fin.castSucc i) (Fin.castSucc j) : Matrix (Fin n) (Fin n) ℝ)
      (fun i j => L i.castSucc j.castSucc) ∧
    forwardSubst (fun i j => L (Fin.castSucc i) (Fin.castSucc j) : Matrix (Fin n) (Fin n) ℝ)
      (fun j => A (Fin.last n) j.castSucc) = (fun j => L (Fin.last n) j.castSucc) ∧
    A (Fin.last n) (Fin.last n) - ∑ j : Fin n, L (Fin.last n) j.castSucc * L (Fin.last n) j.castSucc =
      L (Fin.last n) (Fin.last n) ^ 2 := by
  have hA : ∀ i j, A i j = ∑ k : Fin n, L i k.castSucc * L j k.castSucc + L i (Fin.last n) * L j (Fin.last n) := by
    intro i j
    rw [← h.mul, Matrix.mul_apply, Fin.sum_univ_castSucc]
    rfl
  have h0 : ∀ i : Fin n, L i.castSucc (Fin.last n) = 0 := fun i => h.lower _ _ (Fin.castSucc_lt_last i)
  refine ⟨⟨fun i j hij => h.lower _ _ (by simpa using hij), fun i => h.pos _, ?_⟩, ?_, ?_⟩
  · funext i j
    have := hA i.castSucc j.castSucc
    rw [h0, zero_mul, add_zero] at this
    exact this.symm
  · refine forwardSubst_unique (fun i j hij => h.lower _ _ (by simpa using hij)) (fun i => h.pos _) ?_
    funext j
    rw [hA, h0, mul_zero, add_zero]
    simp only [mulVec, dotProduct]
    exact Finset.sum_congr rfl fun _ _ => mul_comm _ _
  · rw [hA]
    ring

/-- As the errors vanish, the computed factorisations exist and converge to the exact Cholesky factor. -/
theorem flCholesky_tendsto (h : Rounds F fl) : ∀ {n : ℕ} (A : ι → Matrix (Fin n) (Fin n) ℝ) (A0 L0 : Matrix (Fin n) (Fin n) ℝ),
    (∀ j k, Tendsto (fun i => A i j k) F (𝓝 (A0 j k))) → IsCholesky A0 L0 →
    ∃ g : ι → Matrix (Fin n) (Fin n) ℝ, (∀ᶠ i in F, flCholesky (fl i) (A i) = .ok (g i)) ∧
      ∀ j k, Tendsto (fun i => g i j k) F (𝓝 (L0 j k))
  | 0, A, _, _, _, _ => ⟨A, Eventually.of_forall fun _ => rfl, fun j => j.elim0⟩
  | n + 1, A, A0, L0, hA, hL => by
    obtain ⟨hlead, hrow, hdiag⟩ := hL.parts
    obtain ⟨g, hg, hgt⟩ := flCholesky_tendsto h (fun i j k => A i j.castSucc k.castSucc) _ _ (fun _ _ => hA _ _) hlead
    have hl := flForwardSubst_tendsto h g _ (fun i j => A i (Fin.last n) j.castSucc) _ hgt (fun j => (hlead.pos j).ne')
      fun j => hA _ _
    rw [hrow] at hl
    have hs := flSubProducts_tendsto h _ _ _ _ _ _ (hA (Fin.last n) (Fin.last n)) hl hl
    rw [hdiag] at hs
    have hp := hL.pos (Fin.last n)
    have hsq := h _ _ ((Real.continuous_sqrt.tendsto _).comp hs)
    rw [Real.sqrt_sq hp.le] at hsq
    refine ⟨fun i => borderLower (g i) (flForwardSubst (fl i) (g i) fun j => A i (Fin.last n) j.castSucc)
      (fl i (Real.sqrt (flSubProducts (fl i) (A i (Fin.last n) (Fin.last n)) (List.ofFn fun j =>
        (flForwardSubst (fl i) (g i) (fun j => A i (Fin.last n) j.castSucc) j,
         flForwardSubst (fl i) (g i) (fun j => A i (Fin.last n) j.castSucc) j))))), ?_, ?_⟩
    · filter_upwards [hg, hs.eventually (lt_mem_nhds (pow_pos hp 2))] with i h1 h2
      simp only [flCholesky, Bind.bind, Except.bind, Pure.pure, Except.pure]
      rw [h1]
      dsimp only
      rw [if_pos h2]
    · intro j k
      refine Fin.lastCases ?_ (fun j => ?_) j
      · refine Fin.lastCases ?_ (fun k => ?_) k
        · simpa only [borderLower, Fin.snoc_last, Function.comp] using hsq
        · simpa only [borderLower, Fin.snoc_last, Fin.snoc_castSucc] using hl k
      · refine Fin.lastCases ?_ (fun k => ?_) k
        · simp only [borderLower, Fin.snoc_last, Fin.snoc_castSucc]
          rw [hL.lower _ _ (Fin.castSucc_lt_last j)]
          exact tendsto_const_nhds
        · simpa only [borderLower, Fin.snoc_castSucc] using hgt j k

end SafeLearning
