import Verif.Props.FloatParametric
import Verif.Props.FloatRegion
import Verif.Props.Setup
set_option autoImplicit false

/-!
# C155: linear systems, saturated linear policies and quadratic Lyapunov functions in floating point arithmetic
-/

namespace SafeLearning

open Matrix Spec Flt FltLyap

variable {K : Type} [Field K] [LinearOrder K] [IsStrictOrderedRing K] {d m h : ℕ} {fl : K → K} {u : K}

/-- The linear system with the matrix `M = [A, B]` and the policy `gain`, saturated between `lower` and `upper`. -/
def _root_.Spec.saturatedLoop (M : Matrix (Fin d) (Fin (d + m)) K) (gain : Matrix (Fin m) (Fin d) K) (lower upper : Fin m → K) (x : Fin d → K) : Fin d → K :=
  M *ᵥ Fin.append x fun l => min (max ((gain *ᵥ x) l) (lower l)) (upper l)

/-- A bound for the effect of rounding on one entry of the next state, where `a` is the computed action. -/
def _root_.Spec.loopError (u : K) (h : ℕ) (M : Matrix (Fin d) (Fin (d + m)) K) (gain : Matrix (Fin m) (Fin d) K) (x : Fin d → K) (a : Fin m → K) (i : Fin d) : K :=
  ((1 + u) ^ (h + 1) - 1) * (∑ j, |M i j| * |Fin.append x a j| + ∑ l, |M i (Fin.natAdd d l)| * ∑ j, |gain l j| * |x j|)

/-- **C155 (next states).** The computed next state is as close to the true one as the rounding errors of the two products of matrices allow for. -/
theorem C155_next_state (hr : RoundsWithin fl u) (orderM : Fin d → SumOrder (d + m)) (orderK : Fin m → SumOrder d) (hoM : ∀ i, AddsAll (orderM i) h) (hoK : ∀ i, AddsAll (orderK i) h)
    (M : Matrix (Fin d) (Fin (d + m)) K) (gain : Matrix (Fin m) (Fin d) K) (lower upper : Fin m → K) (x : Fin d → K) (i : Fin d) :
    |saturatedLoop M gain lower upper x i - flSaturatedLoop fl orderM orderK M gain lower upper x i| ≤
      loopError u h M gain x (fun l => min (max (flLinear fl orderK gain x l) (lower l)) (upper l)) i := by
  obtain ⟨a, ha⟩ : ∃ a : Fin m → K, a = fun l => min (max (flLinear fl orderK gain x l) (lower l)) (upper l) := ⟨_, rfl⟩
  obtain ⟨b, hb⟩ : ∃ b : Fin m → K, b = fun l => min (max ((gain *ᵥ x) l) (lower l)) (upper l) := ⟨_, rfl⟩
  have h1 := C154_linear hr orderM hoM M (Fin.append x a) i
  have h2 : ∀ l, |a l - b l| ≤ ((1 + u) ^ (h + 1) - 1) * ∑ j, |gain l j| * |x j| := by
    intro l
    rw [ha, hb]
    exact (clip_lipschitz_setup _ _ (lower l) (upper l)).trans (C154_linear hr orderK hoK gain x l)
  have h3 : |(M *ᵥ Fin.append x a) i - (M *ᵥ Fin.append x b) i| ≤ ((1 + u) ^ (h + 1) - 1) * ∑ l, |M i (Fin.natAdd d l)| * ∑ j, |gain l j| * |x j| := by
    have e : (M *ᵥ Fin.append x a) i - (M *ᵥ Fin.append x b) i = ∑ l, M i (Fin.natAdd d l) * (a l - b l) := by
      simp only [mulVec, dotProduct, Fin.sum_univ_add, Fin.append_left, Fin.append_right, mul_sub, Finset.sum_sub_distrib]
      ring
    rw [e, Finset.mul_sum]
    refine (Finset.abs_sum_le_sum_abs _ _).trans (Finset.sum_le_sum fun l _ => ?_)
    rw [abs_mul]
    have := mul_le_mul_of_nonneg_left (h2 l) (abs_nonneg (M i (Fin.natAdd d l)))
    linarith
  have e1 : flSaturatedLoop fl orderM orderK M gain lower upper x i = flLinear fl orderM M (Fin.append x a) i := by rw [ha]; rfl
  have e2 : saturatedLoop M gain lower upper x i = (M *ᵥ Fin.append x b) i := by rw [hb]; rfl
  rw [e1, e2, ← ha, abs_sub_comm]
  have h4 := abs_add_le (flLinear fl orderM M (Fin.append x a) i - (M *ᵥ Fin.append x a) i) ((M *ᵥ Fin.append x a) i - (M *ᵥ Fin.append x b) i)
  rw [sub_add_sub_cancel] at h4
  unfold loopError
  rw [mul_add]
  linarith

/-- A quadratic function is Lipschitz on a box. -/
theorem quadratic_lipschitz_box (P : Matrix (Fin d) (Fin d) K) (R Lv : K) (hLv : ∀ i, R * ∑ j, (|P i j| + |P j i|) ≤ Lv) (y z : Fin d → K) (hy : ∀ i, |y i| ≤ R) (hz : ∀ i, |z i| ≤ R) :
    |y ⬝ᵥ (P *ᵥ y) - z ⬝ᵥ (P *ᵥ z)| ≤ Lv * ∑ i, |y i - z i| := by
  have e : y ⬝ᵥ (P *ᵥ y) - z ⬝ᵥ (P *ᵥ z) = ∑ i, (∑ j, (P i j * y j + P j i * z j)) * (y i - z i) := by
    have e1 : ∀ a b : Fin d → K, a ⬝ᵥ (P *ᵥ b) = ∑ i, ∑ j, a i * P i j * b j := by
      intro a b
      simp only [dotProduct, mulVec, Finset.mul_sum, mul_assoc]
    have e2 : y ⬝ᵥ (P *ᵥ y) - z ⬝ᵥ (P *ᵥ z) = (∑ i, ∑ j, (y i - z i) * P i j * y j) + ∑ i, ∑ j, z i * P i j * (y j - z j) := by
      rw [e1, e1, ← Finset.sum_sub_distrib, ← Finset.sum_add_distrib]
      refine Finset.sum_congr rfl fun i _ => ?_
      rw [← Finset.sum_sub_distrib, ← Finset.sum_add_distrib]
      exact Finset.sum_congr rfl fun j _ => by ring
    rw [e2, Finset.sum_comm (f := fun i j => z i * P i j * (y j - z j)), ← Finset.sum_add_distrib]
    refine Finset.sum_congr rfl fun i _ => ?_
    rw [← Finset.sum_add_distrib, Finset.sum_mul]
    exact Finset.sum_congr rfl fun j _ => by ring
  rw [e, Finset.mul_sum]
  refine (Finset.abs_sum_le_sum_abs _ _).trans (Finset.sum_le_sum fun i _ => ?_)
  rw [abs_mul]
  refine mul_le_mul_of_nonneg_right (((Finset.abs_sum_le_sum_abs _ _).trans ?_).trans (hLv i)) (abs_nonneg _)
  rw [Finset.mul_sum]
  refine Finset.sum_le_sum fun j _ => ?_
  refine (abs_add_le _ _).trans ?_
  rw [abs_mul, abs_mul]
  have h1 := mul_le_mul_of_nonneg_left (hy j) (abs_nonneg (P i j))
  have h2 := mul_le_mul_of_nonneg_left (hz j) (abs_nonneg (P j i))
  linarith

variable [FloorRing K] {Prog Θ : Type} {A : Arith K} {ω : K} (sys : System K Prog Θ d) (g : GridWorld K d)
    (argsort : (Fin g.nindex → K) → List (Fin g.nindex)) (tauDiv : K → ℕ → K)

/-- **C155 (region of attraction).** A linear system with a saturated linear policy and a quadratic Lyapunov function, where the next states, the values and the comparisons of `update_safe_set` are computed with rounding, in any
order of the additions. If the constants are right on a box that contains the grid and the next states, and the discretisation constant is larger than the radius `r` of the grid by enough to cover the rounding
errors, which are given in terms of the matrices, then every trajectory of the true system that starts with `xᵀ P x` below `c - Lv r - η` stays below this level, with a value that decreases by a fixed amount in each step, until it is
within `r` of an initially safe grid state. -/
theorem C155_region (hA : RoundsFinite A u ω) (hr : RoundsWithin fl u) (prog : Prog) (θ : Θ) (tau : K) (initial : Option (Fin g.nindex → Bool)) (θ₀ : Θ)
    (history : List (Lyap.Op K Prog Θ)) (hh : ∀ op ∈ history, op.IsMethod) (batch : ℕ) (args : Lyap.UpdateArgs (Flt K)) (hcs : args.canShrink = true)
    (order : Fin d → SumOrder d) (total : SumOrder d) (orderM : Fin d → SumOrder (d + m)) (orderK : Fin m → SumOrder d)
    (ho : ∀ j, AddsAll (order j) h) (ht : AddsAll total h) (hoM : ∀ i, AddsAll (orderM i) h) (hoK : ∀ i, AddsAll (orderK i) h)
    (P : Matrix (Fin d) (Fin d) K) (M : Matrix (Fin d) (Fin (d + m)) K) (gain : Matrix (Fin m) (Fin d) K) (lower upper : Fin m → K)
    (hVc : ∀ x, sys.V θ x = flQuadratic fl order total P x)
    (hloop : ∀ x, sys.closedLoop prog θ x = .exact (flSaturatedLoop fl orderM orderK M gain lower upper x))
    (Lv Lf r R κ η c : K) (h2 : ∀ i, 2 ≤ g.num i) (hlt : ∀ i, g.lo i < g.hi i)
    (hlv : sys.lv θ = .const Lv) (hlf : sys.lf θ = .const Lf) (hLv0 : 0 ≤ Lv) (hLf0 : 0 ≤ Lf)
    (hR : ∀ x, (∀ i, g.lo i ≤ x i ∧ x i ≤ g.hi i) → ∀ i, |x i| ≤ R ∧ |saturatedLoop M gain lower upper x i| ≤ R)
    (hRc : ∀ (j : Fin g.nindex) i, |flSaturatedLoop fl orderM orderK M gain lower upper (gridState g j) i| ≤ R)
    (hLv : ∀ i, R * ∑ j, (|P i j| + |P j i|) ≤ Lv)
    (hLf : ∀ y z, (∀ i, g.lo i ≤ y i ∧ y i ≤ g.hi i) → (∀ i, g.lo i ≤ z i ∧ z i ≤ g.hi i) →
      ∑ i, |saturatedLoop M gain lower upper y i - saturatedLoop M gain lower upper z i| ≤ Lf * ∑ i, |y i - z i|)
    (hrad : ∑ i, (g.hi i - g.lo i) / ((g.num i : K) - 1) / 2 ≤ r)
    (hκ : ∀ j : Fin g.nindex, ∑ i, loopError u h M gain (gridState g j) (fun l => min (max (flLinear fl orderK gain (gridState g j) l) (lower l)) (upper l)) i ≤ κ)
    (hη : ((1 + u) ^ (2 * h + 2) - 1) * (R ^ 2 * ∑ i, ∑ j, |P i j|) ≤ η)
    (hmargin : ∀ j : Fin g.nindex, sys.V θ (gridState g j) < c →
      finiteMargin u ω (sys.V θ) (.const Lv) (.const Lf) (gridState g j) (sys.closedLoop prog θ (gridState g j)) tau + 2 * η + Lv * κ ≤ Lv * (1 + Lf) * (tau - r)) :
    let W := finiteWorld sys g argsort tauDiv
    let s := run A W (new W prog (fin tau) initial false θ₀) (history.map finiteOp)
    let out := updateSafeSet A W batch args s θ
    let f := saturatedLoop M gain lower upper
    let V := fun x : Fin d → K => x ⬝ᵥ (P *ᵥ x)
    (∀ j : Fin g.nindex, sys.V θ (gridState g j) < c → (∃ D, decreaseAt A W prog θ j = fin D) ∧ ∃ T, thresholdOf A W θ j (fin tau) = fin T) →
    out.2 = .ok () → (∀ j : Fin g.nindex, sys.V θ (gridState g j) < c → out.1.safeSet j = true) →
    (∀ x, V x < c - Lv * r - η → ∀ i, g.lo i ≤ x i ∧ x i ≤ g.hi i) →
    ∃ ε, 0 < ε ∧ ∀ x₀, V x₀ < c - Lv * r - η →
      ∃ T, (∀ t < T, V (f^[t + 1] x₀) ≤ V (f^[t] x₀) - ε) ∧ (∀ t ≤ T, V (f^[t] x₀) < c - Lv * r - η) ∧
        ∃ j, InInitial initial j ∧ ∑ i, |f^[T] x₀ i - gridState g j i| ≤ r := by
  have hquad : ∀ x : Fin d → K, (∀ i, |x i| ≤ R) → |sys.V θ x - x ⬝ᵥ (P *ᵥ x)| ≤ η := by
    intro x hx
    rw [hVc]
    refine (C154_quadratic hr order total ho ht P x).trans (le_trans (mul_le_mul_of_nonneg_left (terms_le P x (R ^ 2) fun i j => ?_) (NearBy.gamma_nonneg hr.nonneg _)) hη)
    rw [pow_two]
    exact mul_le_mul (hx i) (hx j) (abs_nonneg _) ((abs_nonneg _).trans (hx i))
  have hgrid := gridState_within g h2 hlt
  refine C144_local sys g argsort tauDiv hA prog θ tau initial θ₀ history hh batch args hcs (saturatedLoop M gain lower upper) (fun x => x ⬝ᵥ (P *ᵥ x)) Lv Lf r η κ c h2 hlt hlv hlf hLv0 hLf0
    (fun x => ∀ i, |x i| ≤ R) (fun x hx => ⟨fun i => (hR x hx i).1, fun i => (hR x hx i).2⟩) (fun j => ?_) (fun y z hy hz => quadratic_lipschitz_box P R Lv hLv y z hy hz) hLf hrad
    (fun j => ⟨flSaturatedLoop fl orderM orderK M gain lower upper (gridState g j), ?_, hRc j, ?_⟩) (fun j => ⟨hquad _ fun i => (hR _ (hgrid j) i).1, ?_⟩) hmargin
  · rw [hloop]; exact hRc j
  · rw [hloop]; rfl
  · exact (Finset.sum_le_sum fun i _ => C155_next_state hr orderM orderK hoM hoK M gain lower upper (gridState g j) i).trans (hκ j)
  · rw [hloop]; exact hquad _ (hRc j)

/-! ## A concrete case -/

/-- The double precision number that is closest to `-7 / 5`. -/
def saturatedLineGain : Matrix (Fin 1) (Fin 1) ℚ := !![-6305039478318694 / 2 ^ 52]

/-- The unstable system `3 / 2 x + a`. -/
def saturatedLineMatrix : Matrix (Fin 1) (Fin 2) ℚ := !![3 / 2, 1]

/-- This system with a policy that saturates at `-2` and `2`, and the square as a Lyapunov function, all computed in double precision. -/
def saturatedLineSystem : System ℚ Unit Unit 1 where
  V := fun _ => flQuadratic (roundBinary 53) (fun _ => .entry 0) (.entry 0) !![1]
  lv := fun _ => .const 4
  lf := fun _ => .const (3 / 2)
  closedLoop := fun _ _ x => .exact (flSaturatedLoop (d := 1) (m := 1) (roundBinary 53) (fun _ => leftToRight2) (fun _ => .entry 0) saturatedLineMatrix saturatedLineGain (fun _ => -2) (fun _ => 2) x)

/-- 33 states between `-2` and `2`. -/
def saturatedLine : GridWorld ℚ 1 where
  lo := ![-2]
  hi := ![2]
  num := ![33]

theorem saturated_line_loop (x : Fin 1 → ℚ) : saturatedLoop (d := 1) (m := 1) saturatedLineMatrix saturatedLineGain (fun _ => -2) (fun _ => 2) x 0 = 3 / 2 * x 0 + min (max (-6305039478318694 / 2 ^ 52 * x 0) (-2)) 2 := by
  simp [saturatedLoop, saturatedLineMatrix, saturatedLineGain, mulVec, dotProduct, Fin.sum_univ_add, Fin.append_left, Fin.append_right]
  rfl

/-- The slope of the closed loop is between 0 and `3 / 2`. -/
theorem saturated_line_slope (a b : ℚ) (h : a ≤ b) :
    3 / 2 * a + min (max (-6305039478318694 / 2 ^ 52 * a) (-2)) 2 ≤ 3 / 2 * b + min (max (-6305039478318694 / 2 ^ 52 * b) (-2)) 2 ∧
      3 / 2 * b + min (max (-6305039478318694 / 2 ^ 52 * b) (-2)) 2 ≤ 3 / 2 * a + min (max (-6305039478318694 / 2 ^ 52 * a) (-2)) 2 + 3 / 2 * (b - a) := by
  have h1 : (-6305039478318694 / 2 ^ 52 : ℚ) * b ≤ -6305039478318694 / 2 ^ 52 * a := by linarith
  have h2 : min (max ((-6305039478318694 / 2 ^ 52 : ℚ) * b) (-2)) 2 ≤ min (max (-6305039478318694 / 2 ^ 52 * a) (-2)) 2 := min_le_min_right _ (max_le_max_right _ h1)
  have h3 := (abs_le.mp (clip_lipschitz_setup ((-6305039478318694 / 2 ^ 52 : ℚ) * b) (-6305039478318694 / 2 ^ 52 * a) (-2) 2)).1
  have h4 : |(-6305039478318694 / 2 ^ 52 : ℚ) * b - -6305039478318694 / 2 ^ 52 * a| ≤ 3 / 2 * (b - a) := by
    rw [abs_le]
    constructor <;> linarith
  unfold clip at h3
  constructor <;> linarith

/-- All hypotheses of `C155_region` are met in IEEE 754 double precision: every trajectory of the unstable system with the saturated policy that starts with `x² < 15 / 4 - 10^-14` comes within `1 / 16` of the
initially safe states in `|x| ≤ 3 / 4`. -/
example := C155_region (h := 2) (m := 1) saturatedLineSystem saturatedLine (fun v => (List.finRange _).insertionSort fun i j => v i ≤ v j) (fun t k => t / k) ieeeDouble_rounds
  (roundBinary_within 53 (by norm_num)) () () (65 / 1024) (some fun k => decide (10 ≤ k.val ∧ k.val ≤ 22)) () [.update 3 ⟨true, 1, 1⟩ (), .updateValues ()] (by simp [Lyap.Op.IsMethod]) 10 ⟨true, 1, .fin 1⟩ rfl
  (fun _ => .entry 0) (.entry 0) (fun _ => leftToRight2) (fun _ => .entry 0) (fun _ => ⟨by decide, by decide⟩) ⟨by decide, by decide⟩ (fun _ => leftToRight2_adds) (fun _ => ⟨by decide, by decide⟩)
  !![1] saturatedLineMatrix saturatedLineGain (fun _ => -2) (fun _ => 2) (fun _ => rfl) (fun _ => rfl)
  4 (3 / 2) (1 / 16) 2 (1 / 10 ^ 14) (1 / 10 ^ 14) 4 (by decide) (by decide) rfl rfl (by norm_num) (by norm_num)
  (by
    intro x hx i
    have hi : i = 0 := Subsingleton.elim _ _
    subst hi
    have h1 := hx 0
    simp only [saturatedLine, Matrix.cons_val_zero] at h1
    rw [saturated_line_loop]
    refine ⟨abs_le.mpr h1, ?_⟩
    have h2 := (saturated_line_slope _ _ h1.1).1
    have h3 := (saturated_line_slope _ _ h1.2).1
    norm_num at h2 h3
    rw [abs_le]
    norm_num
    constructor <;> linarith)
  (by decide +kernel) (by decide +kernel)
  (by
    intro y z _ _
    rw [Fin.sum_univ_one, Fin.sum_univ_one, saturated_line_loop, saturated_line_loop]
    rcases le_total (y 0) (z 0) with h | h
    · have := saturated_line_slope _ _ h
      rw [abs_sub_comm, abs_sub_comm (y 0), abs_of_nonneg (by linarith), abs_of_nonneg (by linarith)]
      linarith
    · have := saturated_line_slope _ _ h
      rw [abs_of_nonneg (by linarith), abs_of_nonneg (by linarith)]
      linarith)
  (by decide +kernel) (by decide +kernel) (by decide +kernel) (by decide +kernel)
  (by
    intro j _
    refine ⟨Flt.exists_fin ?_, Flt.exists_fin ?_⟩ <;> revert j <;> decide +kernel)
  (by decide +kernel) (by decide +kernel)
  (by
    intro x hx i
    have hi : i = 0 := Subsingleton.elim _ _
    subst hi
    have h1 : x ⬝ᵥ ((!![1] : Matrix (Fin 1) (Fin 1) ℚ) *ᵥ x) < 4 - 4 * (1 / 16) - 1 / 10 ^ 14 := hx
    simp [dotProduct, mulVec] at h1
    simp only [saturatedLine, Matrix.cons_val_zero]
    constructor <;> nlinarith)

end SafeLearning
