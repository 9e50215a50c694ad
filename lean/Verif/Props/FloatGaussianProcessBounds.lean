import Verif.Props.FloatGaussianProcess
import Verif.Lemmas.FloatFactor
import Verif.Lemmas.InaccurateFactor
set_option autoImplicit false

/-!
# C150: explicit error bounds for Gaussian processes in floating point arithmetic
(safe_learning/functions.py:395-458, 507-546)
-/

namespace SafeLearning

open Matrix Spec

variable {o : ℕ}

/-- The relative error caused by at most `n + 5` roundings with rounding unit `u`. -/
noncomputable def _root_.Spec.roundingEffect (u : ℝ) (n : ℕ) : ℝ := ((1 - u)⁻¹) ^ (n + 5) - 1

/-- The error of a computed quadratic form `bᵀ G⁻¹ b'`, relative to the norms of `b` and `b'`: the errors of the triangular solves and of the factorisation, and the
rounding of the sum. -/
noncomputable def _root_.Spec.predictionError (c σ tr : ℝ) : ℝ :=
  solveError c σ tr / σ + (1 + solveError c σ tr) * (factorError c tr / σ + solveError c σ tr) / (σ - factorError c tr) +
    c * (1 + solveError c σ tr) ^ 2 / (σ - factorError c tr)

section

variable {w c : ℝ} {n : ℕ}

theorem sum_factor_sub {m : ℕ} (hw : 1 ≤ w) {p T : Fin n → ℝ} (hT : ∀ k, Factor w m (T k)) (hm : w ^ m - 1 ≤ c) :
    |∑ k, p k * T k - ∑ k, p k| ≤ c * ∑ k, |p k| := by
  rw [← Finset.sum_sub_distrib, Finset.mul_sum]
  refine (Finset.abs_sum_le_sum_abs _ _).trans (Finset.sum_le_sum fun k _ => ?_)
  have : p k * T k - p k = (T k - 1) * p k := by ring
  rw [this, abs_mul]
  exact mul_le_mul_of_nonneg_right (((hT k).abs_sub_one hw).trans hm) (abs_nonneg _)

/-- A rounded non-negative summand. -/
theorem Factor.add_left {k : ℕ} {a b t : ℝ} (hw : 1 ≤ w) (ha : 0 ≤ a) (hb : 0 < b) (ht : Factor w k t) :
    ∃ r, Factor w k r ∧ a + b * t = (a + b) * r := by
  have hab : 0 < a + b := by linarith
  have h1 : (w ^ k)⁻¹ ≤ 1 := inv_le_one_of_one_le₀ (one_le_pow₀ hw)
  have h2 : 1 ≤ w ^ k := one_le_pow₀ hw
  refine ⟨(a + b * t) / (a + b), ⟨?_, ?_⟩, by field_simp⟩
  · rw [le_div_iff₀ hab]
    have e1 := mul_le_mul_of_nonneg_right h1 ha
    have e2 := mul_le_mul_of_nonneg_left ht.1 hb.le
    linarith
  · rw [div_le_iff₀ hab]
    have e1 := mul_le_mul_of_nonneg_right h2 ha
    have e2 := mul_le_mul_of_nonneg_left ht.2 hb.le
    linarith

end

section

variable {fl : ℝ → ℝ} {u : ℝ} {gp : GPModel o}

theorem flScaleSq_factor (h : RoundsWithin fl u) :
    ∃ t, Factor (1 - u)⁻¹ 1 t ∧ gp.flScaleSq fl = gp.scale ^ 2 * t := by
  obtain ⟨t, ht, he⟩ := h.rounding (gp.scale * gp.scale)
  exact ⟨t, ht, by rw [GPModel.flScaleSq, he, sq]⟩

theorem kernel_diag_nonneg {P : Type} {k : P → P → ℝ} (hk : IsKernel k) (x : P) : 0 ≤ k x x := by
  have := hk.nonneg 1 (fun _ => x) fun _ => 1
  simpa using this

theorem flScaledKernel_factor (h : RoundsWithin fl u) (hk : IsKernel gp.kern) (hn : 0 < gp.noise) (X : List (List ℝ))
    (i j : Fin X.length) : ∃ t, Factor (1 - u)⁻¹ 4 t ∧
      gp.flScaledKernel fl X i j = gp.scale ^ 2 * noisyGram gp.kern gp.noise X.get i j * t := by
  have hw := one_le_factor h
  obtain ⟨t, ht, hte⟩ := flScaleSq_factor (gp := gp) h
  obtain ⟨r, hr, hre⟩ : ∃ r, Factor (1 - u)⁻¹ 1 r ∧
      gp.kern (X.getD i []) (X.getD j []) + fl ((if i = j then 1 else 0) * gp.noise) =
        noisyGram gp.kern gp.noise X.get i j * r := by
    by_cases hij : i = j
    · subst hij
      obtain ⟨t, ht, hte⟩ := h.rounding (1 * gp.noise)
      obtain ⟨r, hr, hre⟩ := ht.add_left hw (kernel_diag_nonneg hk (X.getD i [])) hn
      refine ⟨r, hr, ?_⟩
      rw [if_pos rfl, hte, one_mul, hre]
      simp [noisyGram]
    · refine ⟨1, Factor.one hw, ?_⟩
      obtain ⟨t, ht, hte⟩ := h.rounding (0 * gp.noise)
      rw [if_neg hij, hte]
      simp [noisyGram, Matrix.one_apply_ne hij]
  obtain ⟨a, ha, hae⟩ := h.rounding (noisyGram gp.kern gp.noise X.get i j * r)
  obtain ⟨b, hb, hbe⟩ := h.rounding (noisyGram gp.kern gp.noise X.get i j * r * a * (gp.scale ^ 2 * t))
  refine ⟨r * a * t * b, ((hr.mul hw ha).mul hw ht).mul hw hb, ?_⟩
  rw [GPModel.flScaledKernel, hre, hae, hte, hbe]
  ring

theorem flCross_factor (h : RoundsWithin fl u) (n : ℕ) (X pts : List (List ℝ)) (i : Fin n) (j : Fin pts.length) :
    ∃ t, Factor (1 - u)⁻¹ 2 t ∧
      gp.flCross fl n X pts i j = gp.scale ^ 2 * gp.kern (X.getD i []) (pts.getD j []) * t := by
  have hw := one_le_factor h
  obtain ⟨t, ht, hte⟩ := flScaleSq_factor (gp := gp) h
  obtain ⟨r, hr, hre⟩ := h.rounding (gp.scale ^ 2 * t * gp.kern (X.getD i []) (pts.getD j []))
  refine ⟨t * r, ht.mul hw hr, ?_⟩
  rw [GPModel.flCross, hte, hre]
  ring

theorem flTarget_factor (h : RoundsWithin fl u) (X Y : List (List ℝ)) (i : Fin X.length) (l : Fin o) :
    ∃ t, Factor (1 - u)⁻¹ 2 t ∧ gp.flTarget fl X Y i l =
      gp.scale * (entryOf Y (if Y.length = 1 then 0 else i) l - gp.mean (X.getD i []) l) * t := by
  have hw := one_le_factor h
  obtain ⟨t, ht, hte⟩ := h.rounding (entryOf Y (if Y.length = 1 then 0 else i) l - gp.mean (X.getD i []) l)
  obtain ⟨r, hr, hre⟩ := h.rounding (gp.scale *
    ((entryOf Y (if Y.length = 1 then 0 else i) l - gp.mean (X.getD i []) l) * t))
  refine ⟨t * r, ht.mul hw hr, ?_⟩
  rw [GPModel.flTarget, hte, hre]
  ring

/-- A computed solution of the scaled system is nearly a solution of the unscaled one. -/
theorem solvesNearly_of_factor {n : ℕ} (h : RoundsWithin fl u) {L : Matrix (Fin n) (Fin n) ℝ} {b b0 : Fin n → ℝ} {s s' c : ℝ}
    (hc : roundingEffect u n ≤ c) (hs : s ≠ 0) (hs' : s' ≠ 0) (hl : ∀ i j, i < j → L i j = 0) (hd : ∀ i, 0 < L i i)
    (hb : ∀ i, ∃ t, Factor (1 - u)⁻¹ 4 t ∧ b i = s * s' * b0 i * t) :
    SolvesNearly c (fun i j => L i j / s) b0 fun j => flForwardSubst fl L b j / s' := by
  have hw := one_le_factor h
  obtain ⟨T, hT, he⟩ := flForwardSubst_factor h L b hl fun i => (hd i).ne'
  intro i
  obtain ⟨t, ht, hte⟩ := hb i
  have ht0 := (ht.pos hw).ne'
  have h1 : b0 i = ∑ j, L i j / s * (flForwardSubst fl L b j / s') * (T i j * t⁻¹) := by
    have h2 : s * s' * b0 i * t = ∑ j, L i j * flForwardSubst fl L b j * T i j := by rw [← hte, ← he i]
    have h3 : b0 i = (s * s' * b0 i * t) / (s * s' * t) := by field_simp
    rw [h3, h2, Finset.sum_div]
    exact Finset.sum_congr rfl fun j _ => by field_simp
  rw [h1]
  have h4 : ∀ j, |L i j / s| * |flForwardSubst fl L b j / s'| = |L i j / s * (flForwardSubst fl L b j / s')| :=
    fun j => (abs_mul _ _).symm
  rw [Finset.sum_congr rfl fun j _ => h4 j]
  exact sum_factor_sub hw (m := n + 4) (fun j => (hT i j).mul hw (ht.inv hw))
    (le_trans (sub_le_sub_right (pow_le_pow_right₀ hw (by omega)) 1) hc)

theorem factorsNearly_of_factor {n : ℕ} (h : RoundsWithin fl u) {A G L : Matrix (Fin n) (Fin n) ℝ} {s c : ℝ}
    (hc : roundingEffect u n ≤ c) (hs : s ≠ 0) (hG : ∀ i j, G i j = G j i)
    (hA : ∀ i j, ∃ t, Factor (1 - u)⁻¹ 4 t ∧ A i j = s ^ 2 * G i j * t) (hL : flCholesky fl A = .ok L) :
    FactorsNearly c G fun i j => L i j / s := by
  have hw := one_le_factor h
  obtain ⟨_, _, h3⟩ := flCholesky_factor h _ L hL
  have key : ∀ i j, j ≤ i → |G i j - ∑ k, L i k / s * (L j k / s)| ≤ c * ∑ k, |L i k / s| * |L j k / s| := by
    intro i j hij
    obtain ⟨T, hT, he⟩ := h3 i j hij
    obtain ⟨t, ht, hte⟩ := hA i j
    have ht0 := (ht.pos hw).ne'
    have h1 : G i j = ∑ k, L i k / s * (L j k / s) * (T k * t⁻¹) := by
      have h2 : G i j = (s ^ 2 * G i j * t) / (s ^ 2 * t) := by field_simp
      rw [h2, ← hte, he, Finset.sum_div]
      exact Finset.sum_congr rfl fun k _ => by field_simp
    rw [h1]
    simp only [← abs_mul]
    exact sum_factor_sub hw (m := n + 1 + 4) (fun k => (hT k).mul hw (ht.inv hw)) hc
  intro i j
  rcases le_total j i with hij | hij
  · exact key i j hij
  · have h1 := key j i hij
    rw [hG i j]
    simp only [mul_comm] at h1 ⊢
    exact h1

theorem euclid_snoc {n : ℕ} (x : Fin n → ℝ) (a : ℝ) : euclid (Fin.snoc (α := fun _ => ℝ) x a) ^ 2 = euclid x ^ 2 + a ^ 2 := by
  rw [euclid_sq, euclid_sq, Fin.sum_univ_castSucc]
  simp only [Fin.snoc_castSucc, Fin.snoc_last]

theorem roundingEffect_mono (h : RoundsWithin fl u) {m n : ℕ} (hmn : m ≤ n) : roundingEffect u m ≤ roundingEffect u n :=
  sub_le_sub_right (pow_le_pow_right₀ (one_le_factor h) (by omega)) 1

theorem roundingEffect_nonneg (h : RoundsWithin fl u) (n : ℕ) : 0 ≤ roundingEffect u n := by
  rw [roundingEffect]
  linarith [one_le_pow₀ (one_le_factor h) (n := n + 5)]

theorem neg_quad {n : ℕ} (M : Matrix (Fin n) (Fin n) ℝ) (w : Fin n → ℝ) : (-w) ⬝ᵥ (M *ᵥ (-w)) = w ⬝ᵥ (M *ᵥ w) := by
  rw [Matrix.mulVec_neg, neg_dotProduct_neg]

/-- The factorisation succeeds if the smallest eigenvalue is larger than twice the error. -/
theorem flCholesky_succeeds (h : RoundsWithin fl u) {s c σ tr : ℝ} (hs : s ≠ 0) (hc1 : c < 1) (hσ : 0 < σ)
    (hε : 2 * factorError c tr < σ) : ∀ {n : ℕ} (A G : Matrix (Fin n) (Fin n) ℝ), roundingEffect u n ≤ c →
    (∀ i j, G i j = G j i) → (∀ x : Fin n → ℝ, σ * euclid x ^ 2 ≤ x ⬝ᵥ (G *ᵥ x)) → ∑ i, G i i ≤ tr →
    (∀ i j, ∃ t, Factor (1 - u)⁻¹ 4 t ∧ A i j = s ^ 2 * G i j * t) → ∃ L, flCholesky fl A = .ok L
  | 0, A, _, _, _, _, _, _ => ⟨A, rfl⟩
  | n + 1, A, G, hc, hsym, hG, htr, hA => by
    have hw := one_le_factor h
    have hc0 : 0 ≤ c := (roundingEffect_nonneg h _).trans hc
    have hdiag : ∀ i, 0 ≤ G i i := by
      intro i
      have h1 := hG (Pi.single i 1)
      have h2 : 0 ≤ σ * euclid (Pi.single i 1 : Fin (n + 1) → ℝ) ^ 2 := by positivity
      simpa using h2.trans h1
    have hlead : ∀ x : Fin n → ℝ, σ * euclid x ^ 2 ≤
        x ⬝ᵥ ((fun i j => G (Fin.castSucc i) (Fin.castSucc j) : Matrix (Fin n) (Fin n) ℝ) *ᵥ x) := by
      intro x
      have h1 := hG (Fin.snoc (α := fun _ => ℝ) x 0)
      rw [quad_snoc G hsym, euclid_snoc] at h1
      simpa using h1
    have htr0 : 0 ≤ tr := (Finset.sum_nonneg fun i _ => hdiag i).trans htr
    have htr' : ∑ i : Fin n, G i.castSucc i.castSucc + G (Fin.last n) (Fin.last n) ≤ tr := by
      rw [Fin.sum_univ_castSucc] at htr
      exact htr
    have htrl : ∑ i : Fin n, G i.castSucc i.castSucc ≤ tr := by linarith [hdiag (Fin.last n)]
    have hcn : roundingEffect u n ≤ c := (roundingEffect_mono h (Nat.le_succ n)).trans hc
    obtain ⟨L, hL⟩ := flCholesky_succeeds h hs hc1 hσ hε (fun i j : Fin n => A i.castSucc j.castSucc)
      (fun i j => G i.castSucc j.castSucc) hcn (fun i j => hsym _ _) hlead htrl fun i j => hA _ _
    have hfac := factorsNearly_of_factor h hcn hs (fun i j => hsym _ _) (fun i j => hA _ _) hL
    obtain ⟨hlow, hpos, _⟩ := flCholesky_factor h _ L hL
    obtain ⟨l, hl⟩ : ∃ l, l = flForwardSubst fl L fun j : Fin n => A (Fin.last n) j.castSucc := ⟨_, rfl⟩
    have hsol : SolvesNearly c (fun i j => L i j / s) (fun j => G (Fin.last n) j.castSucc) fun j => l j / s := by
      rw [hl]
      refine solvesNearly_of_factor h hcn hs hs hlow hpos fun j => ?_
      obtain ⟨t, ht, hte⟩ := hA (Fin.last n) j.castSucc
      exact ⟨t, ht, by rw [hte, sq]⟩
    have hε0 : 0 ≤ factorError c tr := mul_nonneg (div_nonneg hc0 (by linarith)) htr0
    have hτ : 0 < σ - factorError c tr := by linarith
    have hpiv := hfac.pivot hlead hc0 hc1 htrl hτ hsol (g := G (Fin.last n) (Fin.last n)) (by
      intro w
      have h1 := hG (Fin.snoc (α := fun _ => ℝ) (-w) 1)
      rw [quad_snoc G hsym, euclid_snoc] at h1
      have h4 := neg_quad (fun i j => G (Fin.castSucc i) (Fin.castSucc j) : Matrix (Fin n) (Fin n) ℝ) w
      have h2 : euclid (-w) = euclid w := by unfold euclid; simp only [Pi.neg_apply, neg_sq]
      have h3 : ∑ i, G (Fin.last n) (Fin.castSucc i) * (-w) i = -((fun j : Fin n => G (Fin.last n) j.castSucc) ⬝ᵥ w) := by
        simp only [dotProduct, Pi.neg_apply, mul_neg, Finset.sum_neg_distrib]
      rw [h2, h3, h4] at h1
      linarith)
    obtain ⟨S, hS⟩ : ∃ S, S = flSubProducts fl (A (Fin.last n) (Fin.last n)) (List.ofFn fun j : Fin n => (l j, l j)) := ⟨_, rfl⟩
    obtain ⟨T0, T, hT0, hT, hb⟩ := flSubProducts_factor h (A (Fin.last n) (Fin.last n)) l l
    rw [← hS] at hb
    have hSpos : 0 < S := by
      by_contra hneg
      have hS0 : S * T0 ≤ 0 := mul_nonpos_of_nonpos_of_nonneg (not_lt.mp hneg) (hT0.pos hw).le
      obtain ⟨t, ht, hte⟩ := hA (Fin.last n) (Fin.last n)
      have ht0 := ht.pos hw
      have hs2 : 0 < s ^ 2 := by positivity
      have h1 : G (Fin.last n) (Fin.last n) ≤ (1 + c) * euclid (fun j => l j / s) ^ 2 := by
        have h2 : s ^ 2 * G (Fin.last n) (Fin.last n) * t ≤ ∑ j, l j * l j * T j := by rw [← hte]; linarith
        have h3 : G (Fin.last n) (Fin.last n) = s ^ 2 * G (Fin.last n) (Fin.last n) * t / (s ^ 2 * t) := by
          field_simp
        rw [h3, euclid_sq, Finset.mul_sum]
        refine (div_le_div_of_nonneg_right h2 (by positivity)).trans ?_
        rw [Finset.sum_div]
        refine Finset.sum_le_sum fun j _ => ?_
        have h4 : l j * l j * T j / (s ^ 2 * t) = T j * t⁻¹ * (l j / s) ^ 2 := by field_simp
        rw [h4]
        refine mul_le_mul_of_nonneg_right ?_ (sq_nonneg _)
        have h5 := ((hT j).mul hw (ht.inv hw)).2
        have h6 : ((1 - u)⁻¹) ^ (n + 4) ≤ ((1 - u)⁻¹) ^ (n + 1 + 5) := pow_le_pow_right₀ hw (by omega)
        rw [roundingEffect] at hc
        linarith
      obtain ⟨m, hm⟩ : ∃ m, m = euclid (fun j => l j / s) ^ 2 := ⟨_, rfl⟩
      have hm0 : 0 ≤ m := by rw [hm]; positivity
      have hgtr : G (Fin.last n) (Fin.last n) ≤ tr := by
        have : 0 ≤ ∑ i : Fin n, G i.castSucc i.castSucc := Finset.sum_nonneg fun i _ => hdiag _
        linarith
      have hctr : c * tr = factorError c tr * (1 - c) := by
        unfold factorError
        have : 1 - c ≠ 0 := by linarith
        field_simp
      rw [← hm] at h1 hpiv
      obtain ⟨ε, hεe⟩ : ∃ ε, ε = factorError c tr := ⟨_, rfl⟩
      rw [← hεe] at hε hε0 hτ hpiv hctr
      obtain ⟨τ, hτe⟩ : ∃ τ, τ = σ - ε := ⟨_, rfl⟩
      rw [← hτe] at hτ hpiv
      -- multiply by τ
      have h2 : σ * τ + m * (τ - c * ε) ≤ G (Fin.last n) (Fin.last n) * τ := by
        have e : (σ + m * (1 - c * ε / τ)) * τ = σ * τ + m * (τ - c * ε) := by field_simp
        rw [← e]
        exact mul_le_mul_of_nonneg_right hpiv hτ.le
      have h3 : σ * τ ≤ m * (c * σ) := by
        have h4 := mul_le_mul_of_nonneg_right h1 hτ.le
        have h5 : σ = τ + ε := by rw [hτe]; ring
        have h6 : (1 + c) * m * τ - m * (τ - c * ε) = m * (c * σ) := by rw [h5]; ring
        linarith
      have h4 : τ ≤ m * c := by
        have : σ * τ ≤ σ * (m * c) := by linarith
        exact le_of_mul_le_mul_left this hσ
      have h5 : ε < τ := by linarith
      have h6 : 0 < τ - c * ε := by nlinarith
      have h7 : m * (τ - c * ε) < tr * τ := by
        have := mul_le_mul_of_nonneg_right hgtr hτ.le
        have := mul_pos hσ hτ
        linarith
      have h8 : τ * (τ - c * ε) ≤ c * (m * (τ - c * ε)) := by
        have := mul_le_mul_of_nonneg_right h4 h6.le
        linarith
      have h9 : c * (m * (τ - c * ε)) ≤ c * (tr * τ) := mul_le_mul_of_nonneg_left h7.le hc0
      have h10 : c * (tr * τ) = ε * (1 - c) * τ := by rw [← hctr]; ring
      have h11 : τ * (τ - c * ε) ≤ τ * (ε * (1 - c)) := by linarith
      have h12 := le_of_mul_le_mul_left h11 hτ
      linarith
    refine ⟨borderLower L l (fl (Real.sqrt S)), ?_⟩
    · simp only [flCholesky, Bind.bind, Except.bind, Pure.pure, Except.pure]
      rw [hL]
      dsimp only
      rw [← hl, ← hS, if_pos hSpos]

/-- The sum of the products of two computed solutions is close to the exact quadratic form. -/
theorem FactorsNearly.rounded_quadratic {n : ℕ} {G L : Matrix (Fin n) (Fin n) ℝ} {c σ tr w : ℝ} {m : ℕ}
    (hG : ∀ x : Fin n → ℝ, σ * euclid x ^ 2 ≤ x ⬝ᵥ (G *ᵥ x))
    (h : FactorsNearly c G L) (hσ : 0 < σ) (hc0 : 0 ≤ c) (hc1 : c < 1) (htr : ∑ i, G i i ≤ tr)
    (hτ : 0 < σ - factorError c tr) (hq : solveCondition c σ tr < 1) {k y a α z T : Fin n → ℝ}
    (ha : SolvesNearly c L k a) (hα : SolvesNearly c L y α) (hz : G *ᵥ z = y) (hw : 1 ≤ w)
    (hT : ∀ j, Factor w m (T j)) (hm : w ^ m - 1 ≤ c) :
    |∑ j, a j * α j * T j - k ⬝ᵥ z| ≤ euclid k * euclid y * predictionError c σ tr := by
  have h1 := h.quadratic hG hσ hc0 hc1 htr hτ hq ha hα hz
  obtain ⟨hρ0, -, ha2⟩ := SolvesNearly.bounds hG h hc0 hc1 htr hτ hq ha
  obtain ⟨-, -, hα2⟩ := SolvesNearly.bounds hG h hc0 hc1 htr hτ hq hα
  have h2 : |∑ j, a j * α j * T j - a ⬝ᵥ α| ≤ c * (euclid a * euclid α) := by
    refine (sum_factor_sub hw hT hm).trans (mul_le_mul_of_nonneg_left ?_ hc0)
    simp only [abs_mul]
    exact sum_abs_le_euclid a α
  have h3 : euclid a * euclid α ≤ euclid k * euclid y * (1 + solveError c σ tr) ^ 2 / (σ - factorError c tr) := by
    rw [le_div_iff₀ hτ]
    have e : euclid a * euclid α * (σ - factorError c tr) =
        (Real.sqrt (σ - factorError c tr) * euclid a) * (Real.sqrt (σ - factorError c tr) * euclid α) := by
      nth_rw 1 [← Real.mul_self_sqrt hτ.le]
      ring
    rw [e]
    refine (mul_le_mul ha2 hα2 (mul_nonneg (Real.sqrt_nonneg _) (euclid_nonneg _))
      (mul_nonneg (by linarith) (euclid_nonneg _))).trans (le_of_eq ?_)
    ring
  have h4 := mul_le_mul_of_nonneg_left h3 hc0
  have h5 : ∑ j, a j * α j * T j - k ⬝ᵥ z = (∑ j, a j * α j * T j - a ⬝ᵥ α) + (a ⬝ᵥ α - k ⬝ᵥ z) := by ring
  rw [h5]
  refine (abs_add_le _ _).trans ((add_le_add (h2.trans h4) h1).trans (le_of_eq ?_))
  unfold predictionError
  ring

theorem noisyGram_lower (hk : IsKernel gp.kern) (X : List (List ℝ)) (x : Fin X.length → ℝ) :
    gp.noise * euclid x ^ 2 ≤ x ⬝ᵥ (noisyGram gp.kern gp.noise X.get *ᵥ x) := by
  rw [noisyGram_quad, euclid_sq]
  have := hk.nonneg _ X.get x
  linarith

theorem flInit_inv {X Y : List (List ℝ)} {s : GPState o} (h : gp.flInit fl X Y = .ok s) :
    ∃ L, flCholesky fl (gp.flScaledKernel fl X) = .ok L ∧
      s.feed = ⟨X, Y, ⟨X.length, L, flTriangularSolve fl L (gp.flTarget fl X Y)⟩⟩ := by
  unfold GPModel.flInit GPModel.flComputeCache at h
  split_ifs at h with hl
  · cases hL : flCholesky fl (gp.flScaledKernel fl X) with
    | error e => rw [hL] at h; simp [Bind.bind, Except.bind] at h
    | ok L =>
      rw [hL] at h
      simp only [Bind.bind, Except.bind, Pure.pure, Except.pure, Except.ok.injEq] at h
      subst h
      exact ⟨L, rfl, rfl⟩
  · simp [Bind.bind, Except.bind] at h

/-- Computed means and variances. -/
theorem flPredict_bounds (h : RoundsWithin fl u) (hk : IsKernel gp.kern) (hn : 0 < gp.noise) (hs : gp.scale ≠ 0)
    (X Y pts : List (List ℝ)) (hl : Y.length = X.length) (s : GPState o) (hinit : gp.flInit fl X Y = .ok s)
    (c tr : ℝ) (hc : c = roundingEffect u X.length)
    (htr : tr = ∑ i : Fin X.length, (gp.kern (X.get i) (X.get i) + gp.noise))
    (hc1 : c < 1) (hε : factorError c tr < gp.noise) (hq : solveCondition c gp.noise tr < 1) :
    ∃ p, gp.flBuildPredict fl s.feed pts = .ok p ∧ ∀ i l,
      |p.mean i l - posteriorMean gp.kern (fun x => gp.mean x l) gp.noise X.get (fun n => entryOf Y n l) (pts.get i)| ≤
        euclid (fun n => gp.kern (X.get n) (pts.get i)) *
          euclid (fun n : Fin X.length => entryOf Y n l - gp.mean (X.get n) l) * predictionError c gp.noise tr +
        c * |gp.mean (pts.get i) l| ∧
      |p.var i l - posteriorCov gp.kern gp.noise X.get (pts.get i) (pts.get i)| ≤
        euclid (fun n => gp.kern (X.get n) (pts.get i)) ^ 2 * predictionError c gp.noise tr +
        c * gp.kern (pts.get i) (pts.get i) := by
  have hw := one_le_factor h
  obtain ⟨L, hL, hfeed⟩ := flInit_inv hinit
  obtain ⟨hlow, hpos, _⟩ := flCholesky_factor h _ L hL
  have hfac := factorsNearly_of_factor h hc.ge hs (noisyGram_pd hk hn X.get).symm (flScaledKernel_factor h hk hn X) hL
  have hG := noisyGram_lower hk X
  have hdet := (noisyGram_pd hk hn X.get).det_ne
  have htr' : ∑ i, noisyGram gp.kern gp.noise X.get i i ≤ tr := by
    rw [htr]; simp [noisyGram]
  have hc0 : 0 ≤ c := by
    rw [hc, roundingEffect]
    linarith [one_le_pow₀ hw (n := X.length + 5)]
  have hτ : 0 < gp.noise - factorError c tr := by linarith
  rw [hfeed]
  refine ⟨_, by unfold GPModel.flBuildPredict; rw [if_pos rfl], fun i l => ?_⟩
  have hcross : SolvesNearly c (fun i j => L i j / gp.scale) (fun n => gp.kern (X.get n) (pts.get i))
      fun j => flForwardSubst fl L (fun k => gp.flCross fl X.length X pts k i) j / gp.scale := by
    refine solvesNearly_of_factor h hc.ge hs hs hlow hpos fun j => ?_
    obtain ⟨t, ht, hte⟩ := flCross_factor (gp := gp) h X.length X pts j i
    refine ⟨t, ht.mono hw (by omega), ?_⟩
    rw [hte, sq]
    simp
  have htarget : SolvesNearly c (fun i j => L i j / gp.scale)
      (fun n : Fin X.length => entryOf Y n l - gp.mean (X.get n) l)
      fun j => flForwardSubst fl L (fun k => gp.flTarget fl X Y k l) j / 1 := by
    refine solvesNearly_of_factor h hc.ge hs one_ne_zero hlow hpos fun j => ?_
    obtain ⟨t, ht, hte⟩ := flTarget_factor (gp := gp) h X Y j l
    refine ⟨t, ht.mono hw (by omega), ?_⟩
    have : (if Y.length = 1 then 0 else (j : ℕ)) = j := by
      split_ifs with h1
      · have := j.2; omega
      · rfl
    rw [hte, this, mul_one]
    simp
  obtain ⟨x, hx⟩ : ∃ x, x = pts.get i := ⟨_, rfl⟩
  have hx' : pts.getD i [] = x := by rw [hx]; simp
  obtain ⟨a, ha⟩ : ∃ a, a = flForwardSubst fl L (fun k => gp.flCross fl X.length X pts k i) := ⟨_, rfl⟩
  obtain ⟨α, hα⟩ : ∃ α, α = flForwardSubst fl L (fun k => gp.flTarget fl X Y k l) := ⟨_, rfl⟩
  obtain ⟨b, hb⟩ : ∃ b : Fin X.length → ℝ, b = fun n => gp.kern (X.get n) x := ⟨_, rfl⟩
  obtain ⟨y, hy⟩ : ∃ y, y = fun n : Fin X.length => entryOf Y n l - gp.mean (X.get n) l := ⟨_, rfl⟩
  rw [← hx, ← ha, ← hb] at hcross
  rw [← hα, ← hy] at htarget
  have hsolve : ∀ v, noisyGram gp.kern gp.noise X.get *ᵥ ((noisyGram gp.kern gp.noise X.get)⁻¹ *ᵥ v) = v := fun v => by
    rw [Matrix.mulVec_mulVec, Matrix.mul_nonsing_inv _ hdet.isUnit, Matrix.one_mulVec]
  rw [← hx, ← hb, ← hy]
  obtain ⟨r0, hr0, hre0⟩ := flScaleSq_factor (gp := gp) h
  have hle : ∀ m, m ≤ X.length + 5 → ((1 - u)⁻¹) ^ m - 1 ≤ c := fun m hm => by
    rw [hc, roundingEffect]
    exact sub_le_sub_right (pow_le_pow_right₀ hw hm) 1
  constructor
  · obtain ⟨T, hT, hTe⟩ := flSumProducts_factor h a α
    obtain ⟨t1, ht1, hte1⟩ := h.rounding (gp.scale * gp.mean x l)
    obtain ⟨t2, ht2, hte2⟩ := h.rounding (∑ j, a j * α j * T j + gp.scale * gp.mean x l * t1)
    obtain ⟨t3, ht3, hte3⟩ := h.rounding ((∑ j, a j * α j * T j + gp.scale * gp.mean x l * t1) * t2 / gp.scale)
    have hmain := hfac.rounded_quadratic hG hn hc0 hc1 htr' hτ hq hcross htarget (hsolve y) hw
      (T := fun j => T j * t2 * t3) (fun j => ((hT j).mul hw ht2).mul hw ht3) (hle _ (by omega))
    have hval : fl (fl (flSumProducts fl (List.ofFn fun k => (a k, α k)) + fl (gp.scale * gp.mean x l)) / gp.scale) =
        ∑ j, a j / gp.scale * (α j / 1) * (T j * t2 * t3) + gp.mean x l * (t1 * t2 * t3) := by
      rw [hTe, hte1, hte2, hte3]
      have e : ∀ j, a j / gp.scale * (α j / 1) * (T j * t2 * t3) = a j * α j * T j * (t2 * t3 / gp.scale) := fun j => by
        rw [div_one]; field_simp
      rw [Finset.sum_congr rfl fun j _ => e j, ← Finset.sum_mul]
      field_simp
    have hm : |gp.mean x l * (t1 * t2 * t3) - gp.mean x l| ≤ c * |gp.mean x l| := by
      have e : gp.mean x l * (t1 * t2 * t3) - gp.mean x l = (t1 * t2 * t3 - 1) * gp.mean x l := by ring
      rw [e, abs_mul]
      exact mul_le_mul_of_nonneg_right ((((ht1.mul hw ht2).mul hw ht3).abs_sub_one hw).trans (hle _ (by omega)))
        (abs_nonneg _)
    have hgoal : ∀ M : ℝ, M = fl (fl (flSumProducts fl (List.ofFn fun k => (a k, α k)) + fl (gp.scale * gp.mean x l)) / gp.scale) →
        |M - posteriorMean gp.kern (fun x => gp.mean x l) gp.noise X.get (fun n => entryOf Y n l) x| ≤
        euclid b * euclid y * predictionError c gp.noise tr + c * |gp.mean x l| := by
      intro M hM
      rw [hM, hval, posteriorMean, ← hb, ← hy]
      have e : ∀ p q r t : ℝ, p + q - (r + t) = (p - t) + (q - r) := fun p q r t => by ring
      rw [e]
      exact (abs_add_le _ _).trans (add_le_add hmain hm)
    refine hgoal _ ?_
    rw [ha, hα, ← hx']
    rfl
  · obtain ⟨T, hT, hTe⟩ := flSumProducts_factor h a a
    obtain ⟨t1, ht1, hte1⟩ := h.rounding (gp.scale ^ 2 * r0 * gp.kern x x)
    obtain ⟨t2, ht2, hte2⟩ := h.rounding (gp.scale ^ 2 * r0 * gp.kern x x * t1 - ∑ j, a j * a j * T j)
    obtain ⟨t3, ht3, hte3⟩ := h.rounding ((gp.scale ^ 2 * r0 * gp.kern x x * t1 - ∑ j, a j * a j * T j) * t2 /
      (gp.scale ^ 2 * r0))
    have hr00 := (hr0.pos hw).ne'
    have hmain := hfac.rounded_quadratic hG hn hc0 hc1 htr' hτ hq hcross hcross (hsolve b) hw
      (T := fun j => T j * t2 * t3 * r0⁻¹) (fun j => (((hT j).mul hw ht2).mul hw ht3).mul hw (hr0.inv hw)) (hle _ (by omega))
    have hval : fl (fl (fl (gp.flScaleSq fl * gp.kern x x) - flSumProducts fl (List.ofFn fun k => (a k, a k))) / gp.flScaleSq fl) =
        gp.kern x x * (t1 * t2 * t3) - ∑ j, a j / gp.scale * (a j / gp.scale) * (T j * t2 * t3 * r0⁻¹) := by
      rw [hTe, hre0, hte1, hte2, hte3]
      have e : ∀ j, a j / gp.scale * (a j / gp.scale) * (T j * t2 * t3 * r0⁻¹) =
          a j * a j * T j * (t2 * t3 / (gp.scale ^ 2 * r0)) := fun j => by
        field_simp
      rw [Finset.sum_congr rfl fun j _ => e j, ← Finset.sum_mul]
      field_simp
    have hkk := kernel_diag_nonneg hk x
    have hm : |gp.kern x x * (t1 * t2 * t3) - gp.kern x x| ≤ c * gp.kern x x := by
      have e : gp.kern x x * (t1 * t2 * t3) - gp.kern x x = (t1 * t2 * t3 - 1) * gp.kern x x := by ring
      rw [e, abs_mul, abs_of_nonneg hkk]
      exact mul_le_mul_of_nonneg_right ((((ht1.mul hw ht2).mul hw ht3).abs_sub_one hw).trans (hle _ (by omega))) hkk
    have hgoal : ∀ M : ℝ, M = fl (fl (fl (gp.flScaleSq fl * gp.kern x x) -
        flSumProducts fl (List.ofFn fun k => (a k, a k))) / gp.flScaleSq fl) →
        |M - posteriorCov gp.kern gp.noise X.get x x| ≤
        euclid b ^ 2 * predictionError c gp.noise tr + c * gp.kern x x := by
      intro M hM
      rw [hM, hval, posteriorCov, ← hb]
      have e : ∀ p q r t : ℝ, p - q - (r - t) = (p - r) - (q - t) := fun p q r t => by ring
      rw [e, sq]
      exact (abs_sub _ _).trans ((add_le_add hm hmain).trans (le_of_eq (add_comm _ _)))
    refine hgoal _ ?_
    rw [ha, ← hx']
    rfl

theorem trace_eq (X : List (List ℝ)) : (X.map fun x => gp.kern x x + gp.noise).sum =
    ∑ i : Fin X.length, (gp.kern (X.get i) (X.get i) + gp.noise) := by
  rw [← Fin.sum_univ_fun_getElem]
  rfl

/-- The construction succeeds. -/
theorem flInit_ok (h : RoundsWithin fl u) (hk : IsKernel gp.kern) (hn : 0 < gp.noise) (hs : gp.scale ≠ 0) {c tr : ℝ}
    (hc1 : c < 1) (hε : 2 * factorError c tr < gp.noise) {X Y : List (List ℝ)} (hl : Y.length = X.length)
    (hc : roundingEffect u X.length ≤ c) (htr : (X.map fun x => gp.kern x x + gp.noise).sum ≤ tr) :
    ∃ s, gp.flInit fl X Y = .ok s := by
  obtain ⟨L, hL⟩ := flCholesky_succeeds h hs hc1 hn hε (gp.flScaledKernel fl X) (noisyGram gp.kern gp.noise X.get) hc
    (noisyGram_pd hk hn X.get).symm (noisyGram_lower hk X) (by rw [trace_eq] at htr; simpa [noisyGram] using htr)
    (flScaledKernel_factor h hk hn X)
  refine ⟨⟨⟨X, Y, ⟨X.length, L, flTriangularSolve fl L (gp.flTarget fl X Y)⟩⟩,
    ⟨X, Y, ⟨X.length, L, flTriangularSolve fl L (gp.flTarget fl X Y)⟩⟩⟩, ?_⟩
  unfold GPModel.flInit GPModel.flComputeCache
  rw [if_pos (Or.inl hl), hL]
  rfl

theorem flHistory_ok (h : RoundsWithin fl u) (hk : IsKernel gp.kern) (hn : 0 < gp.noise) (hs : gp.scale ≠ 0) {c tr : ℝ}
    (hc1 : c < 1) (hε : 2 * factorError c tr < gp.noise) (calls : List (Arr ℝ × Arr ℝ))
    (hcalls : ∀ c ∈ calls, c.2.rows.length = c.1.rows.length ∧ (∀ r ∈ c.1.rows, r.length = gp.xdim) ∧
      ∀ r ∈ c.2.rows, r.length = o) : ∀ X Y : List (List ℝ), Y.length = X.length →
    roundingEffect u (X ++ calls.flatMap fun c => c.1.rows).length ≤ c →
    ((X ++ calls.flatMap fun c => c.1.rows).map fun x => gp.kern x x + gp.noise).sum ≤ tr →
    ∃ s t, gp.flInit fl X Y = .ok s ∧ flAddHistory fl gp s calls = .ok t ∧
      gp.flInit fl (X ++ calls.flatMap fun c => c.1.rows) (Y ++ calls.flatMap fun c => c.2.rows) = .ok t := by
  induction calls with
  | nil =>
    intro X Y hl hc htr
    simp only [List.flatMap_nil, List.append_nil] at hc htr
    obtain ⟨s, hs'⟩ := flInit_ok h hk hn hs hc1 hε hl hc htr
    exact ⟨s, s, hs', rfl, by simpa using hs'⟩
  | cons a rest ih =>
    intro X Y hl hc htr
    obtain ⟨x, y⟩ := a
    obtain ⟨h1, h2, h3⟩ := hcalls _ List.mem_cons_self
    have hl' : (Y ++ y.rows).length = (X ++ x.rows).length := by
      simp only [List.length_append]; dsimp only at h1; omega
    obtain ⟨s, h4⟩ := flInit_ok h hk hn hs hc1 hε hl
      ((roundingEffect_mono h (by simp only [List.length_append]; omega)).trans hc) (le_trans (by
        rw [List.map_append, List.sum_append]
        have : 0 ≤ ((((x, y) :: rest).flatMap fun c => c.1.rows).map fun x => gp.kern x x + gp.noise).sum :=
          List.sum_nonneg fun v hv => by
            obtain ⟨z, _, rfl⟩ := List.mem_map.mp hv
            linarith [kernel_diag_nonneg hk z]
        linarith) htr)
    obtain ⟨s', t, h5, h6, h7⟩ := ih (fun c hc' => hcalls c (List.mem_cons_of_mem _ hc')) (X ++ x.rows) (Y ++ y.rows) hl'
      (by simpa [List.append_assoc] using hc) (by simpa [List.append_assoc] using htr)
    refine ⟨s, t, h4, ?_, ?_⟩
    · unfold flAddHistory
      rw [flAdd_of_init h4 h2 h3 h5]
      exact h6
    · simpa [List.append_assoc] using h7

theorem solveCondition_lt {c σ tr : ℝ} (hc0 : 0 ≤ c) (hc1 : c < 1) (htr0 : 0 ≤ tr)
    (hε : 2 * factorError c tr < σ) : solveCondition c σ tr < 1 := by
  have h1 : 0 < 1 - c := by linarith
  have hε0 : 0 ≤ factorError c tr := mul_nonneg (div_nonneg hc0 h1.le) htr0
  have hτ : 0 < σ - factorError c tr := by linarith
  have h2 : solveCondition c σ tr ^ 2 < 1 := by
    rw [solveCondition, mul_pow, Real.sq_sqrt (div_nonneg htr0 (mul_pos h1 hτ).le)]
    have e : c ^ 2 * (tr / ((1 - c) * (σ - factorError c tr))) = c * factorError c tr / (σ - factorError c tr) := by
      unfold factorError
      field_simp
    rw [e, div_lt_one hτ]
    nlinarith
  exact lt_of_pow_lt_pow_left₀ 2 zero_le_one (by simpa using h2)

end

/-- **C150 (explicit bounds).** Let every operation be rounded with relative errors of at most `u`, let `c` be the effect of `n + 5` roundings, where `n` is the number of data points after all `add_data_point`
calls, and let `tr` be the trace of their kernel matrix with noise. If `c < 1` and `2 c tr / (1 - c)` is less than the noise variance, then the construction, all the calls and the evaluation return.
The error of the mean is at most the product of the norms of the kernel values and of the data, times `predictionError`, plus `c` times the prior mean. The variance `V` in the bound for the
error bars is of the same kind; if the exact posterior variance is larger than `V`, the error bar is a number. -/
theorem C150_bounds (fl : ℝ → ℝ) (u : ℝ) (h : RoundsWithin fl u) (gp : GPModel o) (hk : IsKernel gp.kern) (hn : 0 < gp.noise)
    (hs : gp.scale ≠ 0) (beta : ℝ) (X Y pts : List (List ℝ)) (hl : Y.length = X.length) (calls : List (Arr ℝ × Arr ℝ))
    (hcalls : ∀ c ∈ calls, c.2.rows.length = c.1.rows.length ∧ (∀ r ∈ c.1.rows, r.length = gp.xdim) ∧
      ∀ r ∈ c.2.rows, r.length = o)
    (Xs Ys : List (List ℝ)) (hXs : Xs = X ++ calls.flatMap fun c => c.1.rows) (hYs : Ys = Y ++ calls.flatMap fun c => c.2.rows)
    (c tr : ℝ) (hc : c = roundingEffect u Xs.length) (htr : tr = (Xs.map fun x => gp.kern x x + gp.noise).sum)
    (hc1 : c < 1) (hε : 2 * factorError c tr < gp.noise) :
    ∃ s t mean error, gp.flInit fl X Y = .ok s ∧ flAddHistory fl gp s calls = .ok t ∧
      gp.flEvaluate fl beta t pts = .ok (mean, error) ∧ ∀ i l,
      |mean i l - posteriorMean gp.kern (fun x => gp.mean x l) gp.noise Xs.get (fun n => entryOf Ys n l) (pts.get i)| ≤
        euclid (fun n => gp.kern (Xs.get n) (pts.get i)) *
          euclid (fun n : Fin Xs.length => entryOf Ys n l - gp.mean (Xs.get n) l) * predictionError c gp.noise tr +
        c * |gp.mean (pts.get i) l| ∧
      ∀ V, V = euclid (fun n => gp.kern (Xs.get n) (pts.get i)) ^ 2 * predictionError c gp.noise tr +
          c * gp.kern (pts.get i) (pts.get i) →
        (∀ e, error i l = some e →
          |e - beta * Real.sqrt (posteriorCov gp.kern gp.noise Xs.get (pts.get i) (pts.get i))| ≤
            |beta| * ((1 + c) * Real.sqrt V + c * Real.sqrt (posteriorCov gp.kern gp.noise Xs.get (pts.get i) (pts.get i)))) ∧
        (V < posteriorCov gp.kern gp.noise Xs.get (pts.get i) (pts.get i) → ∃ e, error i l = some e) := by
  have hw := one_le_factor h
  have hc0 : 0 ≤ c := hc ▸ roundingEffect_nonneg h _
  have htr0 : 0 ≤ tr := by
    rw [htr]
    exact List.sum_nonneg fun v hv => by
      obtain ⟨z, _, rfl⟩ := List.mem_map.mp hv
      linarith [kernel_diag_nonneg hk z]
  have hl' : Ys.length = Xs.length := by
    rw [hXs, hYs, List.length_append, List.length_append, hl, List.length_flatMap, List.length_flatMap]
    congr 2
    exact List.map_congr_left fun c hcc => (hcalls c hcc).1
  obtain ⟨s, t, h1, h2, h3⟩ := flHistory_ok h hk hn hs hc1 hε calls hcalls X Y hl (by rw [← hXs, ← hc]) (by rw [← hXs, ← htr])
  rw [← hXs, ← hYs] at h3
  have hε0 : 0 ≤ factorError c tr := mul_nonneg (div_nonneg hc0 (by linarith)) htr0
  obtain ⟨p, hp, hpe⟩ := flPredict_bounds h hk hn hs Xs Ys pts hl' t h3 c tr hc (by rw [htr, trace_eq]) hc1 (by linarith)
    (solveCondition_lt hc0 hc1 htr0 hε)
  refine ⟨s, t, p.mean, fun i l => (GPModel.flSqrt fl (p.var i l)).map fun r => fl (beta * r), h1, h2, ?_,
    fun i l => ⟨(hpe i l).1, fun V hV => ⟨fun e he => ?_, fun hlt => ?_⟩⟩⟩
  · unfold GPModel.flEvaluate
    rw [hp]
    rfl
  · have hvar := (hpe i l).2
    rw [← hV] at hvar
    dsimp only at he
    unfold GPModel.flSqrt at he
    split_ifs at he with hneg
    · simp at he
    · simp only [Option.map_some, Option.some.injEq] at he
      obtain ⟨t1, ht1, hte1⟩ := h.rounding (Real.sqrt (p.var i l))
      obtain ⟨t2, ht2, hte2⟩ := h.rounding (beta * (Real.sqrt (p.var i l) * t1))
      rw [hte1, hte2] at he
      obtain ⟨C, hC⟩ : ∃ C, C = posteriorCov gp.kern gp.noise Xs.get (pts.get i) (pts.get i) := ⟨_, rfl⟩
      rw [← hC] at hvar ⊢
      have hC0 : 0 ≤ C := hC ▸ posteriorCov_nonneg hk hn.le Xs.get (noisyGram_pd hk hn Xs.get) _
      obtain ⟨v, hv⟩ : ∃ v, v = p.var i l := ⟨_, rfl⟩
      rw [← hv] at he hvar hneg
      have hroot : |Real.sqrt v - Real.sqrt C| ≤ Real.sqrt V := by
        have hV0 : 0 ≤ V := (abs_nonneg _).trans hvar
        have hv0 : 0 ≤ v := not_lt.mp hneg
        rw [abs_le] at hvar ⊢
        have hs1 := Real.sq_sqrt hC0
        have hs2 := Real.sq_sqrt hV0
        have hs3 := Real.sq_sqrt hv0
        have hn1 := Real.sqrt_nonneg C
        have hn2 := Real.sqrt_nonneg V
        have hn3 := Real.sqrt_nonneg v
        constructor
        · have : Real.sqrt C ≤ Real.sqrt v + Real.sqrt V := abs_le_of_sq_le_sq' (by nlinarith) (by linarith) |>.2
          linarith
        · have : Real.sqrt v ≤ Real.sqrt C + Real.sqrt V := abs_le_of_sq_le_sq' (by nlinarith) (by linarith) |>.2
          linarith
      have hfac : |t1 * t2 - 1| ≤ c := by
        refine ((ht1.mul hw ht2).abs_sub_one hw).trans ?_
        rw [hc, roundingEffect]
        exact sub_le_sub_right (pow_le_pow_right₀ hw (by omega)) 1
      have hsplit : e - beta * Real.sqrt C =
          beta * ((Real.sqrt v - Real.sqrt C) + (t1 * t2 - 1) * Real.sqrt v) := by rw [← he]; ring
      rw [hsplit, abs_mul]
      refine mul_le_mul_of_nonneg_left ?_ (abs_nonneg _)
      have hvle : Real.sqrt v ≤ Real.sqrt C + Real.sqrt V := by linarith [(abs_le.mp hroot).2]
      calc _ ≤ |Real.sqrt v - Real.sqrt C| + |(t1 * t2 - 1) * Real.sqrt v| := abs_add_le _ _
        _ ≤ Real.sqrt V + c * (Real.sqrt C + Real.sqrt V) := by
          rw [abs_mul, abs_of_nonneg (Real.sqrt_nonneg v)]
          exact add_le_add hroot (mul_le_mul hfac hvle (Real.sqrt_nonneg _) hc0)
        _ = _ := by ring
  · have hvar := (hpe i l).2
    rw [← hV] at hvar
    refine ⟨fl (beta * fl (Real.sqrt (p.var i l))), ?_⟩
    dsimp only
    unfold GPModel.flSqrt
    rw [if_neg (by linarith [(abs_le.mp hvar).1])]
    rfl

/-! ## Double precision -/

/-- Double precision rounds with a relative error of at most `2 ^ (-53)`. -/
theorem roundBinaryReal_within : RoundsWithin (roundBinaryReal 53) (1 / 2 ^ 53) := by
  refine ⟨by norm_num, by norm_num, ?_⟩
  intro x
  by_cases hx : x = 0
  · rw [hx, roundBinaryReal_zero]
    simp
  · have hpos : 0 < |x| := abs_pos.mpr hx
    unfold roundBinaryReal
    rw [if_neg hx]
    dsimp only
    obtain ⟨e, he⟩ : ∃ e, e = Int.log 2 |x| + 1 - ((53 : ℕ) : ℤ) := ⟨_, rfl⟩
    rw [← he]
    have h2 : (0 : ℝ) < (2 : ℝ) ^ e := by positivity
    have h1 := rint_abs_le (x / (2 : ℝ) ^ e)
    have h3 : x = x / (2 : ℝ) ^ e * (2 : ℝ) ^ e := by field_simp
    have h4 : |(rint (x / (2 : ℝ) ^ e) : ℝ) * (2 : ℝ) ^ e - x| ≤ 1 / 2 * (2 : ℝ) ^ e := by
      nth_rw 2 [h3]
      rw [← sub_mul, abs_mul, abs_of_pos h2, abs_sub_comm]
      exact mul_le_mul_of_nonneg_right h1 h2.le
    have h5 : (2 : ℝ) ^ (e + 52) ≤ |x| := by
      have := Int.zpow_log_le_self (b := 2) (by norm_num) hpos
      have he' : e + 52 = Int.log 2 |x| := by rw [he]; push_cast; ring
      rw [he']
      exact_mod_cast this
    rw [zpow_add₀ (by norm_num)] at h5
    norm_num at h5 ⊢
    linarith

/-- A Gaussian process with five data points in double precision: the construction, the calls and the evaluation return. -/
example : ∃ s t mean error, exampleGP.flInit (roundBinaryReal 53) [[1], [2]] [[5], [7]] = .ok s ∧
    flAddHistory (roundBinaryReal 53) exampleGP s
      [(.vector [3], .vector [6]), (.matrix [[0], [1]], .matrix [[1], [4]])] = .ok t ∧
    exampleGP.flEvaluate (roundBinaryReal 53) 2 t [[0], [4], [1]] = .ok (mean, error) := by
  obtain ⟨s, t, m, e, h1, h2, h3, _⟩ := C150_bounds (roundBinaryReal 53) (1 / 2 ^ 53) roundBinaryReal_within exampleGP
    linearKernel_isKernel (by norm_num [exampleGP]) (by norm_num [exampleGP]) 2 [[1], [2]] [[5], [7]] [[0], [4], [1]] rfl
    [(.vector [3], .vector [6]), (.matrix [[0], [1]], .matrix [[1], [4]])] (by simp [Arr.rows, exampleGP])
    [[1], [2], [3], [0], [1]] [[5], [7], [6], [1], [4]] (by simp [Arr.rows]) (by simp [Arr.rows]) _ _ rfl rfl
    (by norm_num [roundingEffect]) (by norm_num [roundingEffect, factorError, exampleGP, linearKernel])
  exact ⟨s, t, m, e, h1, h2, h3⟩

end SafeLearning
