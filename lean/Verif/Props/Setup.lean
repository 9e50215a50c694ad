import Verif.Model.Setup
import Verif.Spec.Setup
import Verif.Props.Grid
import Mathlib.Tactic.FieldSimp
import Mathlib.Tactic.Positivity
import Mathlib.Algebra.BigOperators.Field
set_option autoImplicit false

/-!
# C100, C101: the constants of the example notebooks
-/

namespace SafeLearning

variable {K : Type} [Field K] [LinearOrder K] [IsStrictOrderedRing K]

/-! ## C100 -/

/-- **C100** A constant is a discretization constant of a grid exactly if it is at least `np.sum(unit_maxes) / 2`: with this formula every
state of the limits is within `tau` of a grid point, and no smaller constant has this property. -/
theorem C100_half_sum [FloorRing K] {d : ℕ} (g : GridWorld K d) (h2 : ∀ i, 2 ≤ g.num i) (hlt : ∀ i, g.lo i < g.hi i)
    (tau : K) : Spec.Covers g.lo g.hi g.num tau ↔ tauHalfSum g ≤ tau := by
  have hn : ∀ i, (0 : K) < (g.num i : K) - 1 := fun i => by
    have : (2 : K) ≤ (g.num i : K) := by exact_mod_cast h2 i
    linarith
  have hu : ∀ i, 0 < g.unit i := fun i => div_pos (sub_pos.mpr (hlt i)) (hn i)
  have hum : ∀ i, g.unit i * ((g.num i : K) - 1) = g.hi i - g.lo i := fun i => div_mul_cancel₀ _ (hn i).ne'
  constructor
  · intro h
    obtain ⟨k, p, ⟨ijk, -, -, hp⟩, hd⟩ := h (fun i => g.lo i + g.unit i / 2) (fun i => by
      have := hu i
      have h3 : g.unit i ≤ g.hi i - g.lo i := by
        rw [← hum i]
        have : (2 : K) ≤ (g.num i : K) := by exact_mod_cast h2 i
        nlinarith [hu i]
      constructor <;> linarith)
    refine le_trans ?_ hd
    rw [tauHalfSum, Finset.sum_div]
    refine Finset.sum_le_sum fun i _ => ?_
    rw [hp i, Spec.axisPoint]
    change _ ≤ |g.lo i + g.unit i / 2 - (g.lo i + (ijk i : K) * g.unit i)|
    have hu := hu i
    rcases Nat.eq_zero_or_pos (ijk i) with h0 | h0
    · rw [h0]; refine le_trans (by simp) (le_abs_self _)
    · have h1 : (1 : K) ≤ (ijk i : K) := by exact_mod_cast h0
      refine le_trans ?_ (neg_le_abs _)
      nlinarith
  · intro h x hx
    obtain ⟨k, p, -, -, -, h4, -, h7⟩ := GridWorld.C02_state_to_index_nearest g h2 hlt x
    refine ⟨k, p, h4, le_trans ?_ h⟩
    rw [tauHalfSum, Finset.sum_div]
    exact Finset.sum_le_sum fun i _ => h7 i (hx i).1 (hx i).2

/-- **C100** `np.max(unit_maxes)` is a discretization constant of grids with at most two dimensions. -/
theorem C100_max_partial [FloorRing K] {d : ℕ} (hd : d + 1 ≤ 2) (g : GridWorld K (d + 1)) (h2 : ∀ i, 2 ≤ g.num i)
    (hlt : ∀ i, g.lo i < g.hi i) : Spec.Covers g.lo g.hi g.num (tauMax g) := by
  rw [C100_half_sum g h2 hlt, tauHalfSum]
  have hle : ∀ i, g.unit i ≤ tauMax g := fun i => Finset.le_sup' g.unit (Finset.mem_univ i)
  have h0 : 0 ≤ tauMax g := by
    refine le_trans (div_nonneg (sub_nonneg.mpr (hlt 0).le) ?_) (hle 0)
    have : (2 : K) ≤ (g.num 0 : K) := by exact_mod_cast h2 0
    linarith
  have hs : ∑ i, g.unit i ≤ ∑ _i : Fin (d + 1), tauMax g := Finset.sum_le_sum fun i _ => hle i
  rw [Finset.sum_const, Finset.card_univ, Fintype.card_fin, nsmul_eq_mul] at hs
  have hd' : ((d + 1 : ℕ) : K) ≤ 2 := by exact_mod_cast hd
  have := mul_le_mul_of_nonneg_right hd' h0
  linarith

/-- A grid of three dimensions, eight points. -/
def cubeGrid : GridWorld ℚ 3 where
  lo := fun _ => 0
  hi := fun _ => 1
  num := fun _ => 2

/-- **C100, refuted** `np.max(unit_maxes)` is not a discretization constant of a grid with three dimensions. -/
theorem C100_max_refuted : ¬ Spec.Covers cubeGrid.lo cubeGrid.hi cubeGrid.num (tauMax cubeGrid) := by
  rw [C100_half_sum cubeGrid (by simp [cubeGrid]) (by simp [cubeGrid])]
  decide +kernel

/-- **C100** `np.min(unit_maxes)` is a discretization constant of a grid with two dimensions exactly if the spacing is the same in both. -/
theorem C100_min_partial [FloorRing K] (g : GridWorld K 2) (h2 : ∀ i, 2 ≤ g.num i) (hlt : ∀ i, g.lo i < g.hi i) :
    Spec.Covers g.lo g.hi g.num (tauMin g) ↔
      (g.hi 0 - g.lo 0) / ((g.num 0 : K) - 1) = (g.hi 1 - g.lo 1) / ((g.num 1 : K) - 1) := by
  rw [C100_half_sum g h2 hlt, tauHalfSum, Fin.sum_univ_two]
  change _ ↔ g.unit 0 = g.unit 1
  have h0 : tauMin g ≤ g.unit 0 := Finset.inf'_le g.unit (Finset.mem_univ 0)
  have h1 : tauMin g ≤ g.unit 1 := Finset.inf'_le g.unit (Finset.mem_univ 1)
  constructor
  · intro h
    refine le_antisymm ?_ ?_ <;> linarith
  · intro h
    refine Finset.le_inf' _ _ fun i _ => ?_
    fin_cases i <;> simp <;> linarith

/-- **C100, refuted** `np.min(unit_maxes)` is not a discretization constant of every grid: `5 × 3` points in `[0, 3] × [-1, 1]` have the spacings
`3/4` and `1`. -/
theorem C100_min_refuted : ∃ g : GridWorld ℚ 2, (∀ i, 2 ≤ g.num i) ∧ (∀ i, g.lo i < g.hi i) ∧
    ¬ Spec.Covers g.lo g.hi g.num (tauMin g) := by
  refine ⟨⟨![0, -1], ![3, 1], ![5, 3]⟩, by decide, by decide +kernel, ?_⟩
  rw [C100_min_partial _ (by decide) (by decide +kernel)]
  simp; norm_num

/-- **C100, refuted** `1 / nindex` is never a discretization constant of `GridWorld([-1, 1], n)`, in particular not with the `1001` points of the
notebook: two neighbours are `2 / (n - 1)` apart. -/
theorem C100_reciprocal_refuted [FloorRing K] (n : ℕ) (hn : 2 ≤ n) :
    let g := unitLineGrid K n
    ¬ Spec.Covers g.lo g.hi g.num (tauReciprocal g) := by
  intro g
  rw [C100_half_sum g (fun _ => hn) (fun _ => by simp [g, unitLineGrid])]
  have h2 : (2 : K) ≤ (n : K) := by exact_mod_cast hn
  have e1 : tauHalfSum g = 1 / ((n : K) - 1) := by
    simp only [tauHalfSum, GridWorld.unit, g, unitLineGrid, Fin.sum_univ_one]
    have : (n : K) - 1 ≠ 0 := by linarith
    field_simp; norm_num
  have e2 : tauReciprocal g = 1 / (n : K) := by
    simp [tauReciprocal, GridWorld.nindex, g, unitLineGrid, shapeProd]
  rw [e1, e2, not_le]
  exact one_div_lt_one_div_of_lt (by linarith) (by linarith)

/-- The formulas of the notebooks on the grid of the pendulum notebook: `2001 × 1501` points with spacing `0.002`
(examples/inverted_pendulum.ipynb:110-113). -/
example : let g : GridWorld ℚ 2 := ⟨![-2, -3/2], ![2, 3/2], ![2001, 1501]⟩
    tauHalfSum g = 1/500 ∧ tauMin g = 1/500 ∧ Spec.Covers g.lo g.hi g.num (tauMin g) := by
  refine ⟨by decide +kernel, by decide +kernel, ?_⟩
  rw [C100_min_partial _ (by decide) (by decide +kernel)]
  simp; norm_num

/-- The line of the notebook with 1001 points: `tau = 1/1001` is below half of the spacing, `1/1000`. -/
example : tauReciprocal (unitLineGrid ℚ 1001) = 1/1001 ∧ tauHalfSum (unitLineGrid ℚ 1001) = 1/1000 := by
  decide +kernel

/-! ## C101 -/

theorem norm1_nonneg {m n : ℕ} (A : Matrix (Fin m) (Fin (n + 1)) K) : 0 ≤ norm1 A :=
  le_trans (Finset.sum_nonneg fun i _ => abs_nonneg (A i 0))
    (Finset.le_sup' (fun j => ∑ i, |A i j|) (Finset.mem_univ 0))

/-- The product with `A` is Lipschitz in the 1-norm with the largest column sum. -/
theorem norm1_mul {m n : ℕ} (A : Matrix (Fin m) (Fin (n + 1)) K) (v : Fin (n + 1) → K) :
    ∑ i, |∑ j, v j * A i j| ≤ norm1 A * ∑ j, |v j| := by
  calc ∑ i, |∑ j, v j * A i j| ≤ ∑ i, ∑ j, |v j| * |A i j| := by
        refine Finset.sum_le_sum fun i _ => le_trans (Finset.abs_sum_le_sum_abs _ _) ?_
        simp [abs_mul]
    _ = ∑ j, |v j| * ∑ i, |A i j| := by rw [Finset.sum_comm]; simp [Finset.mul_sum]
    _ ≤ ∑ j, |v j| * norm1 A := Finset.sum_le_sum fun j _ =>
        mul_le_mul_of_nonneg_left (Finset.le_sup' (fun j => ∑ i, |A i j|) (Finset.mem_univ j)) (abs_nonneg _)
    _ = _ := by rw [Finset.mul_sum]; simp [mul_comm]

theorem clip_lipschitz_setup (u v lo hi : K) : |clip u lo hi - clip v lo hi| ≤ |u - v| := by
  unfold clip
  refine le_trans (abs_min_sub_min_le_max _ _ _ _) ?_
  rw [sub_self, abs_zero]
  refine max_le (le_trans (abs_max_sub_max_le_max _ _ _ _) ?_) (abs_nonneg _)
  rw [sub_self, abs_zero]
  exact max_le le_rfl (abs_nonneg _)

/-- The policy of the notebooks, saturated or not, is Lipschitz in the 1-norm with `np.linalg.norm(-K, 1)`. -/
theorem C101_policy {m n : ℕ} (saturate : Bool) (gain : Matrix (Fin m) (Fin (n + 1)) K) :
    Spec.Lipschitz1 (linearPolicy saturate gain) (norm1 (-gain)) := by
  intro x y
  refine le_trans (Finset.sum_le_sum fun i _ => ?_) (norm1_mul (-gain) (x - y))
  have e : ∑ j, (x - y) j * (-gain) i j = ∑ j, x j * (-gain i j) - ∑ j, y j * (-gain i j) := by
    rw [← Finset.sum_sub_distrib]
    exact Finset.sum_congr rfl fun j _ => by rw [Pi.sub_apply, Matrix.neg_apply, sub_mul]
  rw [e]
  unfold linearPolicy
  cases saturate
  · exact le_rfl
  · exact clip_lipschitz_setup _ _ _ _

/-- **C101** `np.linalg.norm(A, 1) + np.linalg.norm(B, 1) * np.linalg.norm(-K, 1)` is a Lipschitz constant, in the 1-norm, of the closed loop of the
linear dynamics `(A, B)` with the linear policy `-K`, saturated or not. -/
theorem C101_closed_loop {m n : ℕ} (saturate : Bool) (A : Matrix (Fin (n + 1)) (Fin (n + 1)) K)
    (B : Matrix (Fin (n + 1)) (Fin (m + 1)) K) (gain : Matrix (Fin (m + 1)) (Fin (n + 1)) K) :
    Spec.Lipschitz1 (linearClosedLoop A B (linearPolicy saturate gain)) (dynamicsLipschitz A B gain) := by
  intro x y
  have hA := norm1_mul A (x - y)
  have hB := norm1_mul B (linearPolicy saturate gain x - linearPolicy saturate gain y)
  have hP := mul_le_mul_of_nonneg_left (C101_policy saturate gain x y) (norm1_nonneg B)
  calc Spec.dist1 _ _
      ≤ ∑ i, (|∑ j, (x - y) j * A i j| +
          |∑ j, (linearPolicy saturate gain x - linearPolicy saturate gain y) j * B i j|) := by
        refine Finset.sum_le_sum fun i _ => le_trans (le_of_eq ?_) (abs_add_le _ _)
        simp only [linearClosedLoop, Pi.sub_apply, sub_mul, Finset.sum_sub_distrib]
        congr 1; ring
    _ ≤ norm1 A * ∑ j, |(x - y) j| +
          norm1 B * ∑ j, |(linearPolicy saturate gain x - linearPolicy saturate gain y) j| := by
        rw [Finset.sum_add_distrib]; exact add_le_add hA hB
    _ ≤ norm1 A * Spec.dist1 x y + norm1 B * (norm1 (-gain) * Spec.dist1 x y) := add_le_add le_rfl hP
    _ = _ := by rw [dynamicsLipschitz]; ring

/-- **C101** With one state and one action `np.max(np.abs(a)) + np.max(np.abs(b)) * L_pol` is a Lipschitz constant of the closed loop with any
policy with Lipschitz constant `L_pol`. -/
theorem C101_max_partial (A B : Matrix (Fin 1) (Fin 1) K) (policy : (Fin 1 → K) → Fin 1 → K) (lp : K)
    (hp : Spec.Lipschitz1 policy lp) :
    Spec.Lipschitz1 (linearClosedLoop A B policy) (dynamicsLipschitzMax A B lp) := by
  intro x y
  have h := mul_le_mul_of_nonneg_left (hp x y) (abs_nonneg (B 0 0))
  simp only [Spec.dist1, linearClosedLoop, dynamicsLipschitzMax, maxAbsEntry, Fin.sum_univ_one] at h ⊢
  have e : ∀ f : Fin 1 → K, Finset.univ.sup' ⟨0, Finset.mem_univ _⟩ f = f 0 := fun f => by simp
  rw [e, e, e, e]
  calc |x 0 * A 0 0 + policy x 0 * B 0 0 - (y 0 * A 0 0 + policy y 0 * B 0 0)|
      = |(x 0 - y 0) * A 0 0 + (policy x 0 - policy y 0) * B 0 0| := by congr 1; ring
    _ ≤ |x 0 - y 0| * |A 0 0| + |policy x 0 - policy y 0| * |B 0 0| := by
        rw [← abs_mul, ← abs_mul]; exact abs_add_le _ _
    _ ≤ _ := by nlinarith

/-- **C101, refuted** With two states `np.max(np.abs(a)) + np.max(np.abs(b)) * L_pol` is not a Lipschitz constant in the 1-norm, the norm of the
discretization constant: each entry of `a` is at most `1`, a column adds up to `2`. The policy is zero. -/
theorem C101_max_refuted : ∃ (A : Matrix (Fin 2) (Fin 2) ℚ) (B : Matrix (Fin 2) (Fin 1) ℚ)
    (policy : (Fin 2 → ℚ) → Fin 1 → ℚ), Spec.Lipschitz1 policy 0 ∧
      ¬ Spec.Lipschitz1 (linearClosedLoop A B policy) (dynamicsLipschitzMax A B 0) := by
  refine ⟨!![1, 1; 1, 1], !![0; 1], fun _ _ => 0, fun x y => by simp [Spec.dist1], fun h => ?_⟩
  have := h ![1, 0] ![0, 0]
  revert this
  decide +kernel

theorem quadratic_expand {n : ℕ} (P : Matrix (Fin n) (Fin n) K) (hP : P.transpose = P) (x y : Fin n → K) :
    quadraticEvaluate P y - quadraticEvaluate P x =
      ∑ i, (∑ j, x j * (2 * P i j)) * (y i - x i) + quadraticEvaluate P (y - x) := by
  have hs : ∀ i j, P i j = P j i := fun i j => by conv_lhs => rw [← hP, Matrix.transpose_apply]
  have h1 : ∑ j, ∑ i, x i * P i j * (y j - x j) = ∑ i, ∑ j, x j * P i j * (y i - x i) :=
    Finset.sum_congr rfl fun j _ => Finset.sum_congr rfl fun i _ => by rw [hs i j]
  have h2 : ∑ j, ∑ i, (y i - x i) * P i j * x j = ∑ i, ∑ j, x j * P i j * (y i - x i) := by
    rw [Finset.sum_comm]
    exact Finset.sum_congr rfl fun i _ => Finset.sum_congr rfl fun j _ => by ring
  have h3 : ∑ i, (∑ j, x j * (2 * P i j)) * (y i - x i) =
      ∑ i, ∑ j, x j * P i j * (y i - x i) + ∑ i, ∑ j, x j * P i j * (y i - x i) := by
    rw [← Finset.sum_add_distrib]
    refine Finset.sum_congr rfl fun i _ => ?_
    rw [← Finset.sum_add_distrib, Finset.sum_mul]
    exact Finset.sum_congr rfl fun j _ => by ring
  rw [h3, ← h1.trans rfl]
  conv_rhs => rw [h1]
  conv_rhs => enter [1, 1]; rw [← h1]
  rw [← h2]
  simp only [quadraticEvaluate, Finset.sum_mul, Pi.sub_apply, ← Finset.sum_sub_distrib, ← Finset.sum_add_distrib]
  exact Finset.sum_congr rfl fun j _ => Finset.sum_congr rfl fun i _ => by ring

/-- **C101** The absolute values of the gradient bound the change of `V(x) = xᵀ P x` up to a quadratic remainder, for symmetric `P`. Missing: the
remainder is not accounted for in the constants, so that they are no local Lipschitz constants. -/
theorem C101_value_partial {n : ℕ} (P : Matrix (Fin n) (Fin n) K) (hP : P.transpose = P) (x y : Fin n → K) :
    |quadraticEvaluate P y - quadraticEvaluate P x| ≤
      ∑ i, valueLipschitzScaled P x i * |y i - x i| + |quadraticEvaluate P (y - x)| := by
  rw [quadratic_expand P hP]
  refine le_trans (abs_add_le _ _) (add_le_add (le_trans (Finset.abs_sum_le_sum_abs _ _) (le_of_eq ?_)) le_rfl)
  simp only [abs_mul, valueLipschitzScaled]

/-- **C101** The same with the 1-norm of the gradient and the 1-norm of the step. -/
theorem C101_value_norm_partial {n : ℕ} (P : Matrix (Fin n) (Fin n) K) (hP : P.transpose = P) (x y : Fin n → K) :
    |quadraticEvaluate P y - quadraticEvaluate P x| ≤
      valueLipschitzNorm P x * Spec.dist1 y x + |quadraticEvaluate P (y - x)| := by
  refine le_trans (C101_value_partial P hP x y) (add_le_add ?_ le_rfl)
  rw [valueLipschitzNorm, Finset.sum_mul]
  refine Finset.sum_le_sum fun i _ => mul_le_mul_of_nonneg_left ?_ (abs_nonneg _)
  exact Finset.single_le_sum (f := fun i => |y i - x i|) (fun j _ => abs_nonneg _) (Finset.mem_univ i)

/-- **C101, refuted** The absolute value of the gradient of `V(x) = p x²` is nowhere a local Lipschitz constant: away from the origin `V` grows
faster, however small the cell is. -/
theorem C101_value_refuted (p : K) (hp : 0 < p) (x tau : K) (htau : 0 < tau) :
    let P : Matrix (Fin 1) (Fin 1) K := fun _ _ => p
    ¬ Spec.LocalLipschitz (quadraticEvaluate P) (fun _ => x) (valueLipschitzScaled P fun _ => x) tau := by
  intro P h
  have key : ∀ y : K, |y - x| ≤ tau → |y * p * y - x * p * x| ≤ |x * (2 * p)| * |y - x| := by
    intro y hy
    have := h (fun _ => y) (by simpa [Spec.dist1] using hy)
    simpa [quadraticEvaluate, valueLipschitzScaled, P] using this
  rcases le_total 0 x with hx | hx
  · have := key (x + tau) (by simp [abs_of_pos htau])
    have h2 : x * p * x ≤ (x + tau) * p * (x + tau) := by nlinarith [mul_nonneg hp.le hx, mul_pos hp htau]
    rw [abs_of_nonneg (sub_nonneg.mpr h2), abs_of_nonneg (by positivity), add_sub_cancel_left, abs_of_pos htau] at this
    nlinarith [mul_pos hp (mul_pos htau htau)]
  · have := key (x - tau) (by simp [abs_of_pos htau])
    have hx' : 0 ≤ -x := by linarith
    have h2 : x * p * x ≤ (x - tau) * p * (x - tau) := by nlinarith [mul_nonneg hp.le hx', mul_pos hp htau]
    rw [abs_of_nonneg (sub_nonneg.mpr h2), abs_of_nonpos (by nlinarith), sub_sub_cancel_left, abs_neg, abs_of_pos htau] at this
    nlinarith [mul_pos hp (mul_pos htau htau)]

/-- A saturated closed loop with two states: constant `5/2`, and a step that needs `3/2` of it. -/
example : let A : Matrix (Fin 2) (Fin 2) ℚ := !![1, 1/2; 0, 1]
    let B : Matrix (Fin 2) (Fin 1) ℚ := !![0; 1]
    let k : Matrix (Fin 1) (Fin 2) ℚ := !![1/2, 1]
    dynamicsLipschitz A B k = 5/2 ∧
    Spec.dist1 (linearClosedLoop A B (linearPolicy true k) ![1, 0]) (linearClosedLoop A B (linearPolicy true k) ![0, 0]) = 3/2 := by
  decide +kernel

/-- A quadratic function with two states, a symmetric matrix, a state with gradient `(6, 4)`. -/
example : let P : Matrix (Fin 2) (Fin 2) ℚ := !![2, 1; 1, 1]
    P.transpose = P ∧ valueLipschitzScaled P ![1, 1] 0 = 6 ∧ valueLipschitzNorm P ![1, 1] = 10 := by
  decide +kernel

end SafeLearning
