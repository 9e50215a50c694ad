import Verif.Model.FloatGrid
import Verif.Props.Grid
import Mathlib.Tactic.Linarith
import Mathlib.Tactic.FieldSimp
import Mathlib.Tactic.Positivity
set_option autoImplicit false

/-!
# C93, C94: the grid in floating point and machine integer arithmetic
-/

set_option linter.unusedSectionVars false

namespace SafeLearning

variable {K : Type} [Field K] [LinearOrder K] [IsStrictOrderedRing K]

/-- The standard model of floating point arithmetic: rounding changes a number by a factor in `[1 - u, 1 + u]`. -/
structure _root_.Spec.RoundsWithin (fl : K → K) (u : K) : Prop where
  nonneg : 0 ≤ u
  small : u ≤ 1 / 16
  err : ∀ x, |fl x - x| ≤ u * |x|

/-- The grid is coarse compared to the rounding unit: along every axis, the limits and the width of the grid are smaller than
`1 / u` cells, up to a constant. -/
def _root_.Spec.CoarseGrid {d : ℕ} (lo hi : Fin d → K) (num : Fin d → ℕ) (u : K) : Prop :=
  ∀ i, 2 * u * ((num i : K) - 1) * (|lo i| + 13 * (hi i - lo i)) < hi i - lo i

open Spec

variable {fl : K → K} {u : K}

theorem _root_.Spec.RoundsWithin.factor (h : RoundsWithin fl u) (x : K) : ∃ δ, |δ| ≤ u ∧ fl x = x * (1 + δ) := by
  have := h.err x
  rcases eq_or_ne x 0 with rfl | hx
  · refine ⟨0, by simpa using h.nonneg, ?_⟩
    simp only [abs_zero, mul_zero, sub_zero] at this
    rw [zero_mul]
    exact abs_nonpos_iff.mp this
  · refine ⟨(fl x - x) / x, ?_, by field_simp; ring⟩
    rw [abs_div, div_le_iff₀ (abs_pos.mpr hx)]
    exact this

/-- Rounding to `p ≥ 4` bits obeys the standard model with `u = 2 ^ (-p)`. -/
theorem roundBinary_within (p : ℕ) (hp : 4 ≤ p) : RoundsWithin (roundBinary p) ((2 : ℚ) ^ (-(p : ℤ))) where
  nonneg := (zpow_pos (by norm_num) _).le
  small := by
    have : (2 : ℚ) ^ (-(p : ℤ)) ≤ 2 ^ (-4 : ℤ) := zpow_le_zpow_right₀ (by norm_num) (by omega)
    calc _ ≤ (2 : ℚ) ^ (-4 : ℤ) := this
      _ = _ := by norm_num
  err := by
    intro x
    unfold roundBinary
    split_ifs with hx
    · simp [hx]
    simp only
    set e : ℤ := Int.log 2 |x| + 1 - p with he
    have hpos : (0 : ℚ) < 2 ^ e := zpow_pos (by norm_num) _
    have h1 := rint_abs_le (x / (2 : ℚ) ^ e)
    have h2 : |(rint (x / (2 : ℚ) ^ e) : ℚ) * 2 ^ e - x| = |x / 2 ^ e - rint (x / (2 : ℚ) ^ e)| * 2 ^ e := by
      rw [← abs_of_pos hpos, ← abs_mul, abs_of_pos hpos, ← abs_neg]
      congr 1
      field_simp
      ring
    rw [h2]
    have h3 : (2 : ℚ) ^ Int.log 2 |x| ≤ |x| := by
      have := Int.zpow_log_le_self (b := 2) (r := |x|) (by norm_num) (abs_pos.mpr hx)
      exact_mod_cast this
    have h4 : (1 / 2 : ℚ) * 2 ^ e = 2 ^ (-(p : ℤ)) * 2 ^ Int.log 2 |x| := by
      rw [he, ← zpow_add₀ (by norm_num : (2 : ℚ) ≠ 0),
        show (1 / 2 : ℚ) = 2 ^ (-1 : ℤ) by norm_num, ← zpow_add₀ (by norm_num : (2 : ℚ) ≠ 0)]
      congr 1
      ring
    calc _ ≤ 1 / 2 * (2 : ℚ) ^ e := mul_le_mul_of_nonneg_right h1 hpos.le
      _ = 2 ^ (-(p : ℤ)) * 2 ^ Int.log 2 |x| := h4
      _ ≤ _ := mul_le_mul_of_nonneg_left h3 (zpow_pos (by norm_num) _).le

/-! ### Bounds of products of rounding factors -/

theorem factor_bounds {a : K} (ha : |a| ≤ u) : 1 - u ≤ 1 + a ∧ 1 + a ≤ 1 + u := by
  rw [abs_le] at ha
  constructor <;> linarith [ha.1, ha.2]

theorem mul_bounds {l x h l' x' h' : K} (h0 : 0 ≤ l) (h1 : l ≤ x ∧ x ≤ h) (h0' : 0 ≤ l')
    (h1' : l' ≤ x' ∧ x' ≤ h') : l * l' ≤ x * x' ∧ x * x' ≤ h * h' :=
  ⟨mul_le_mul h1.1 h1'.1 h0' (h0.trans h1.1),
    mul_le_mul h1.2 h1'.2 (h0'.trans h1'.1) ((h0.trans h1.1).trans h1.2)⟩

theorem poly_upper (h0 : 0 ≤ u) (h1 : u ≤ 1 / 16) :
    (1 + u) * (1 + u) * (1 + u) ≤ (8 * u + 1) * ((1 - u) * (1 - u)) := by
  have e : (8 * u + 1) * ((1 - u) * (1 - u)) - (1 + u) * (1 + u) * (1 + u) = u * (3 - 18 * u) + 7 * (u * u * u) := by
    ring
  have := mul_nonneg h0 (show (0 : K) ≤ 3 - 18 * u by linarith)
  have := mul_nonneg (mul_nonneg h0 h0) h0
  linarith

theorem poly_lower (h0 : 0 ≤ u) :
    (1 - 8 * u) * ((1 + u) * (1 + u)) ≤ (1 - u) * (1 - u) * (1 - u) := by
  have e : (1 - u) * (1 - u) * (1 - u) - (1 - 8 * u) * ((1 + u) * (1 + u)) = 3 * u + 18 * (u * u) + 7 * (u * u * u) := by
    ring
  have := mul_nonneg h0 h0
  have := mul_nonneg (mul_nonneg h0 h0) h0
  linarith

theorem poly_upper4 (h0 : 0 ≤ u) (h1 : u ≤ 1 / 16) : (1 + u) * (1 + u) * (1 + u) * (1 + u) ≤ 1 + 5 * u := by
  have e : 1 + 5 * u - (1 + u) * (1 + u) * (1 + u) * (1 + u) =
      u * (1 - 6 * u - 4 * (u * u) - u * u * u) := by ring
  have h2 : u * u ≤ 1 / 16 * (1 / 16) := mul_le_mul h1 h1 h0 (by norm_num)
  have h3 : u * u * u ≤ 1 / 16 * (1 / 16) * (1 / 16) := mul_le_mul h2 h1 h0 (by norm_num)
  have := mul_nonneg h0 (show (0 : K) ≤ 1 - 6 * u - 4 * (u * u) - u * u * u by
    norm_num at h2 h3
    linarith)
  linarith

theorem poly_lower4 (h0 : 0 ≤ u) (h1 : u ≤ 1 / 16) : 1 - 5 * u ≤ (1 - u) * (1 - u) * (1 - u) * (1 - u) := by
  have e : (1 - u) * (1 - u) * (1 - u) * (1 - u) - (1 - 5 * u) =
      u + u * u * (6 - 4 * u) + u * u * (u * u) := by ring
  have h2 := mul_nonneg h0 h0
  have := mul_nonneg h2 (show (0 : K) ≤ 6 - 4 * u by linarith)
  have := mul_nonneg h2 h2
  linarith

namespace GridWorld

variable {d : ℕ} {g : GridWorld K d}

/-- Scaled coordinates are computed up to a relative error of `8 u`. -/
theorem flScaled_err (h : g.WF) (hr : RoundsWithin fl u) (x : Fin d → K) (i : Fin d) :
    |g.flScaled fl x i - (clip (x i) (g.lo i) (g.hi i) - g.lo i) / g.unit i| ≤
      8 * u * ((clip (x i) (g.lo i) (g.hi i) - g.lo i) / g.unit i) := by
  have hu := h.unit_pos i
  have hn := h.num_sub_pos i
  unfold flScaled flUnit
  set y := clip (x i) (g.lo i) (g.hi i) - g.lo i with hy
  have hy0 : 0 ≤ y := sub_nonneg.mpr (le_clip (h.lt i).le)
  obtain ⟨a, ha, ea⟩ := hr.factor (g.hi i - g.lo i)
  rw [ea]
  obtain ⟨b, hb, eb⟩ := hr.factor ((g.hi i - g.lo i) * (1 + a) / ((g.num i : K) - 1))
  rw [eb]
  obtain ⟨c, hc, ec⟩ := hr.factor (1 / ((g.hi i - g.lo i) * (1 + a) / ((g.num i : K) - 1) * (1 + b)))
  rw [ec]
  obtain ⟨e, he, ee⟩ := hr.factor y
  rw [ee]
  obtain ⟨f, hf, ef⟩ := hr.factor (y * (1 + e) * (1 / ((g.hi i - g.lo i) * (1 + a) / ((g.num i : K) - 1) * (1 + b)) * (1 + c)))
  rw [ef]
  have hu0 := hr.nonneg
  have hu1 := hr.small
  have fa := factor_bounds ha
  have fb := factor_bounds hb
  have fc := factor_bounds hc
  have fe := factor_bounds he
  have ff := factor_bounds hf
  have hl : 0 ≤ 1 - u := by linarith
  have ha' : 0 < 1 + a := by linarith [fa.1]
  have hb' : 0 < 1 + b := by linarith [fb.1]
  have hR : 0 < g.hi i - g.lo i := sub_pos.mpr (h.lt i)
  set ρ := (1 + e) * (1 + c) * (1 + f) / ((1 + a) * (1 + b)) with hρ
  have hz : y * (1 + e) * (1 / ((g.hi i - g.lo i) * (1 + a) / ((g.num i : K) - 1) * (1 + b)) * (1 + c)) * (1 + f) =
      y / g.unit i * ρ := by
    unfold unit
    rw [hρ]
    field_simp
  rw [hz, show y / g.unit i * ρ - y / g.unit i = y / g.unit i * (ρ - 1) by ring, abs_mul,
    abs_of_nonneg (div_nonneg hy0 hu.le), mul_comm]
  refine mul_le_mul_of_nonneg_right ?_ (div_nonneg hy0 hu.le)
  obtain ⟨hnum2, hnum1⟩ := mul_bounds (mul_nonneg hl hl) (mul_bounds hl fe hl fc) hl ff
  obtain ⟨hden2, hden1⟩ := mul_bounds hl fa hl fb
  have hden : 0 < (1 + a) * (1 + b) := mul_pos ha' hb'
  rw [abs_le]
  constructor
  · rw [neg_le_sub_iff_le_add, hρ, ← sub_le_iff_le_add, le_div_iff₀ hden]
    by_cases h8 : 0 ≤ 1 - 8 * u
    · calc (1 - 8 * u) * ((1 + a) * (1 + b)) ≤ (1 - 8 * u) * ((1 + u) * (1 + u)) :=
          mul_le_mul_of_nonneg_left hden1 h8
        _ ≤ (1 - u) * (1 - u) * (1 - u) := poly_lower hu0
        _ ≤ _ := hnum2
    · exfalso; linarith
  · rw [sub_le_iff_le_add, hρ, div_le_iff₀ hden]
    calc _ ≤ (1 + u) * (1 + u) * (1 + u) := hnum1
      _ ≤ (8 * u + 1) * ((1 - u) * (1 - u)) := poly_upper hu0 hu1
      _ ≤ _ := mul_le_mul_of_nonneg_left hden2 (by linarith)

/-- Grid points are computed up to the rounding of the limits and five roundings of the offset. -/
theorem flPoint_err (h : g.WF) (hr : RoundsWithin fl u) (i : Fin d) (k : ℕ) :
    |fl (fl ((k : K) * g.flUnit fl i) + g.lo i) - ((k : K) * g.unit i + g.lo i)| ≤
      u * |g.lo i| + 5 * u * (k * g.unit i) := by
  have hu := h.unit_pos i
  have hn := h.num_sub_pos i
  have hu0 := hr.nonneg
  have hu1 := hr.small
  unfold flUnit
  obtain ⟨a, ha, ea⟩ := hr.factor (g.hi i - g.lo i)
  rw [ea]
  obtain ⟨b, hb, eb⟩ := hr.factor ((g.hi i - g.lo i) * (1 + a) / ((g.num i : K) - 1))
  rw [eb]
  obtain ⟨c, hc, ec⟩ := hr.factor ((k : K) * ((g.hi i - g.lo i) * (1 + a) / ((g.num i : K) - 1) * (1 + b)))
  rw [ec]
  obtain ⟨e, he, ee⟩ := hr.factor ((k : K) * ((g.hi i - g.lo i) * (1 + a) / ((g.num i : K) - 1) * (1 + b)) * (1 + c) + g.lo i)
  rw [ee]
  set y := (k : K) * g.unit i with hy
  have hy0 : 0 ≤ y := mul_nonneg (Nat.cast_nonneg _) hu.le
  set ρ := (1 + a) * (1 + b) * (1 + c) * (1 + e) with hρ
  have hz : ((k : K) * ((g.hi i - g.lo i) * (1 + a) / ((g.num i : K) - 1) * (1 + b)) * (1 + c) + g.lo i) * (1 + e) -
      (y + g.lo i) = g.lo i * e + y * (ρ - 1) := by
    rw [hρ, hy]
    unfold unit
    field_simp
    ring
  rw [hz]
  refine (abs_add_le _ _).trans (add_le_add ?_ ?_)
  · rw [abs_mul, mul_comm]
    exact mul_le_mul_of_nonneg_right he (abs_nonneg _)
  · rw [abs_mul, abs_of_nonneg hy0, mul_comm]
    refine mul_le_mul_of_nonneg_right ?_ hy0
    have hl : 0 ≤ 1 - u := by linarith
    obtain ⟨h2, h1⟩ := mul_bounds (mul_nonneg (mul_nonneg hl hl) hl)
      (mul_bounds (mul_nonneg hl hl) (mul_bounds hl (factor_bounds ha) hl (factor_bounds hb)) hl (factor_bounds hc))
      hl (factor_bounds he)
    have h3 := poly_upper4 hu0 hu1
    have h4 := poly_lower4 hu0 hu1
    rw [abs_le]
    constructor <;> linarith

/-- The scaled coordinate is between zero and the number of cells. -/
theorem scaled_bounds (h : g.WF) (x : Fin d → K) (i : Fin d) :
    0 ≤ (clip (x i) (g.lo i) (g.hi i) - g.lo i) / g.unit i ∧
      (clip (x i) (g.lo i) (g.hi i) - g.lo i) / g.unit i ≤ (g.num i : K) - 1 := by
  have hu := h.unit_pos i
  have h1 := le_clip (x := x i) (h.lt i).le
  have h2 := clip_le (x := x i) (lo := g.lo i) (hi := g.hi i)
  refine ⟨div_nonneg (by linarith) hu.le, ?_⟩
  rw [div_le_iff₀ hu, h.unit_mul i]
  linarith

theorem coarse_cells (h : g.WF) (hr : RoundsWithin fl u) (hc : CoarseGrid g.lo g.hi g.num u) (i : Fin d) :
    u * |g.lo i| + 13 * u * (g.hi i - g.lo i) < g.unit i / 2 ∧ 26 * u * ((g.num i : K) - 1) < 1 := by
  have hn := h.num_sub_pos i
  have hR : 0 < g.hi i - g.lo i := sub_pos.mpr (h.lt i)
  have hci := hc i
  have hu0 := hr.nonneg
  constructor
  · unfold unit
    rw [div_div, lt_div_iff₀ (by linarith)]
    linarith
  · have h1 : 0 ≤ 2 * u * ((g.num i : K) - 1) * |g.lo i| :=
      mul_nonneg (mul_nonneg (by linarith) hn.le) (abs_nonneg _)
    have h2 : 26 * u * ((g.num i : K) - 1) * (g.hi i - g.lo i) < 1 * (g.hi i - g.lo i) := by linarith
    exact lt_of_mul_lt_mul_right h2 hR.le

/-- The rounded multi-index is in bounds. -/
theorem flIndex_mem [FloorRing K] (h : g.WF) (hr : RoundsWithin fl u) (hc : CoarseGrid g.lo g.hi g.num u)
    (x : Fin d → K) (i : Fin d) :
    0 ≤ rint (g.flScaled fl x i) ∧ rint (g.flScaled fl x i) < g.num i := by
  obtain ⟨h1, h2⟩ := scaled_bounds h x i
  obtain ⟨-, h3⟩ := coarse_cells h hr hc i
  have h4 := abs_le.mp (flScaled_err h hr x i)
  have h5 := abs_le.mp (rint_abs_le (g.flScaled fl x i))
  have hu0 := hr.nonneg
  have hu1 := hr.small
  set y := (clip (x i) (g.lo i) (g.hi i) - g.lo i) / g.unit i
  set z := g.flScaled fl x i
  have h6 : 8 * u * y ≤ 8 * u * ((g.num i : K) - 1) := mul_le_mul_of_nonneg_left h2 (by linarith)
  have h7 : u * y ≤ 1 / 16 * y := mul_le_mul_of_nonneg_right hu1 h1
  constructor
  · have : (-1 : K) < (rint z : K) := by linarith [h4.1, h5.2]
    have : (-1 : ℤ) < rint z := by exact_mod_cast this
    omega
  · have : (rint z : K) < (g.num i : K) := by linarith [h4.2, h5.1]
    exact_mod_cast this

theorem flStateToIndex_ofFn [FloorRing K] (int32 : ℤ → ℤ) (x : Fin d → K) :
    g.flStateToIndex fl int32 (List.ofFn x) =
      ravelMultiIndex g.num fun i => int32 (rint (g.flScaled fl x i)) := by
  unfold flStateToIndex
  rw [checkDimensions_ofFn]
  rfl

theorem clip_nonexpansive {x y lo hi : K} (h1 : lo ≤ y) (h2 : y ≤ hi) : |clip x lo hi - y| ≤ |x - y| := by
  rcases le_total x lo with h | h
  · rw [clip_of_le_lo (h1.trans h2) h, abs_sub_comm, abs_sub_comm x, abs_of_nonneg (by linarith),
      abs_of_nonneg (by linarith)]
    linarith
  · rcases le_total x hi with h' | h'
    · rw [clip_of_mem h h']
    · rw [clip_of_hi_le h', abs_of_nonneg (by linarith), abs_of_nonneg (by linarith)]
      linarith

/-- The conversion to 32 bit integers keeps the numbers that 32 bits can represent. -/
def _root_.Spec.ConvertsInt32 (int32 : ℤ → ℤ) : Prop := ∀ z : ℤ, -2 ^ 31 ≤ z → z < 2 ^ 31 → int32 z = z

/-- **C93 (round trip).** In floating point arithmetic, `state_to_index(index_to_state(k)) = k` for every index of a
grid whose cells are coarse compared to the rounding unit. Missing: finer grids, see `C93_roundtrip_refuted`. -/
theorem C93_roundtrip_partial [FloorRing K] (h2 : ∀ i, 2 ≤ g.num i) (hlt : ∀ i, g.lo i < g.hi i)
    (hr : RoundsWithin fl u) (hc : CoarseGrid g.lo g.hi g.num u)
    {int32 : ℤ → ℤ} (hint : ConvertsInt32 int32) (hn : ∀ i, g.num i ≤ 2 ^ 31)
    (k : ℕ) (hk : k < ∏ i, g.num i) :
    ∃ x, g.flIndexToState fl k = .ok x ∧ g.flStateToIndex fl int32 (List.ofFn x) = .ok k := by
  have h : g.WF := ⟨h2, hlt⟩
  have hlt' := unravel_lt g.num k hk
  refine ⟨g.flIjkToState fl (unravel g.num k), ?_, ?_⟩
  · unfold flIndexToState
    rw [unravelIndex_ok _ _ hk]
    rfl
  rw [flStateToIndex_ofFn]
  have key : (fun i => int32 (rint (g.flScaled fl (g.flIjkToState fl (unravel g.num k)) i))) =
      fun i => ((unravel g.num k i : ℕ) : ℤ) := by
    funext i
    set m := unravel g.num k i with hm
    have hmlt : m < g.num i := hlt' i
    have hu := h.unit_pos i
    set x := g.flIjkToState fl (unravel g.num k) with hx
    have hu0 := hr.nonneg
    have hmK : (m : K) ≤ (g.num i : K) - 1 := by
      have : ((m + 1 : ℕ) : K) ≤ (g.num i : K) := by exact_mod_cast hmlt
      push_cast at this
      linarith
    have hm0 : (0 : K) ≤ m := Nat.cast_nonneg _
    have hR : ((g.num i : K) - 1) * g.unit i = g.hi i - g.lo i := h.unit_mul i
    have hmu : (m : K) * g.unit i ≤ g.hi i - g.lo i := by
      rw [← hR]; exact mul_le_mul_of_nonneg_right hmK hu.le
    have hmu0 : 0 ≤ (m : K) * g.unit i := mul_nonneg hm0 hu.le
    have e1 : |x i - ((m : K) * g.unit i + g.lo i)| ≤ u * |g.lo i| + 5 * u * (m * g.unit i) :=
      flPoint_err h hr i m
    have e2 : |clip (x i) (g.lo i) (g.hi i) - ((m : K) * g.unit i + g.lo i)| ≤
        u * |g.lo i| + 5 * u * (m * g.unit i) :=
      (clip_nonexpansive (by linarith) (by linarith)).trans e1
    obtain ⟨b1, b2⟩ := scaled_bounds h x i
    obtain ⟨c1, -⟩ := coarse_cells h hr hc i
    have e3 := flScaled_err h hr x i
    set y := (clip (x i) (g.lo i) (g.hi i) - g.lo i) / g.unit i with hy
    have hyu : y * g.unit i = clip (x i) (g.lo i) (g.hi i) - g.lo i := div_mul_cancel₀ _ hu.ne'
    have e4 : |y - m| * g.unit i ≤ u * |g.lo i| + 5 * u * (g.hi i - g.lo i) := by
      rw [show |y - m| * g.unit i = |(y - m) * g.unit i| by rw [abs_mul, abs_of_pos hu], sub_mul, hyu]
      have : 5 * u * (m * g.unit i) ≤ 5 * u * (g.hi i - g.lo i) :=
        mul_le_mul_of_nonneg_left hmu (by linarith)
      calc _ = |clip (x i) (g.lo i) (g.hi i) - ((m : K) * g.unit i + g.lo i)| := by congr 1; ring
        _ ≤ _ := by linarith
    have e5 : |g.flScaled fl x i - y| * g.unit i ≤ 8 * u * (g.hi i - g.lo i) := by
      calc _ ≤ 8 * u * y * g.unit i := mul_le_mul_of_nonneg_right e3 hu.le
        _ ≤ 8 * u * ((g.num i : K) - 1) * g.unit i :=
          mul_le_mul_of_nonneg_right (mul_le_mul_of_nonneg_left b2 (by linarith)) hu.le
        _ = _ := by rw [mul_assoc, hR]
    have e6 : |g.flScaled fl x i - ((m : ℤ) : K)| < 1 / 2 := by
      have e7 := abs_sub_le (g.flScaled fl x i) y m
      have : |g.flScaled fl x i - m| * g.unit i < 1 / 2 * g.unit i := by
        calc _ ≤ (|g.flScaled fl x i - y| + |y - m|) * g.unit i := mul_le_mul_of_nonneg_right e7 hu.le
          _ < _ := by rw [add_mul]; linarith
      push_cast
      exact lt_of_mul_lt_mul_right this hu.le
    rw [rint_eq_of_abs_lt e6]
    have hni := hn i
    exact hint _ (by omega) (by omega)
  rw [key, ravelMultiIndex_ok _ _ hlt', ravel_unravel _ _ hk]

/-- **C93 (nearest point).** In floating point arithmetic, `state_to_index` succeeds for every state, and the grid point with
that index is nearest up to a rounding error: it is at most half a cell, plus `8 u` times the width of the domain, away from the
state (clipped to the limits). -/
theorem C93_nearest_partial [FloorRing K] (h2 : ∀ i, 2 ≤ g.num i) (hlt : ∀ i, g.lo i < g.hi i)
    (hr : RoundsWithin fl u) (hc : CoarseGrid g.lo g.hi g.num u)
    {int32 : ℤ → ℤ} (hint : ConvertsInt32 int32) (hn : ∀ i, g.num i ≤ 2 ^ 31) (x : Fin d → K) :
    ∃ k p, g.flStateToIndex fl int32 (List.ofFn x) = .ok k ∧ k < ∏ i, g.num i ∧
      Spec.IsGridPoint g.lo g.hi g.num k p ∧
      ∀ i, |Spec.clipBox g.lo g.hi x i - p i| ≤
        (g.hi i - g.lo i) / ((g.num i : K) - 1) / 2 + 8 * u * (g.hi i - g.lo i) := by
  have h : g.WF := ⟨h2, hlt⟩
  set ijk : Fin d → ℕ := fun i => (rint (g.flScaled fl x i)).toNat with hijk
  have hmem := fun i => flIndex_mem h hr hc x i
  have hlt' : ∀ i, ijk i < g.num i := fun i => by
    have := hmem i; simp only [hijk]; omega
  have hcast : ∀ i, rint (g.flScaled fl x i) = (ijk i : ℤ) := fun i => by
    have := hmem i; simp only [hijk]; omega
  have hk : ravel g.num ijk < ∏ i, g.num i := ravel_lt _ _ hlt'
  refine ⟨ravel g.num ijk, g.ijkToState ijk, ?_, hk, ⟨ijk, hlt', ?_, fun i => ?_⟩, fun i => ?_⟩
  · rw [flStateToIndex_ofFn]
    have : (fun i => int32 (rint (g.flScaled fl x i))) = fun i => (ijk i : ℤ) := by
      funext i
      have h3 := hmem i
      have hni := hn i
      rw [hint _ (by omega) (by omega), hcast]
    rw [this, ravelMultiIndex_ok _ _ hlt']
  · rw [Spec.rowMajor, ← ravel_eq_sum]
  · exact g.ijkToState_eq_axisPoint _ i
  · rw [g.clipBox_eq_clip hlt]
    have hu := h.unit_pos i
    have hu0 := hr.nonneg
    obtain ⟨b1, b2⟩ := scaled_bounds h x i
    have e3 := flScaled_err h hr x i
    have e4 := rint_abs_le (g.flScaled fl x i)
    rw [hcast i] at e4
    have hR : ((g.num i : K) - 1) * g.unit i = g.hi i - g.lo i := h.unit_mul i
    set y := (clip (x i) (g.lo i) (g.hi i) - g.lo i) / g.unit i with hy
    have hyu : y * g.unit i = clip (x i) (g.lo i) (g.hi i) - g.lo i := div_mul_cancel₀ _ hu.ne'
    have e5 : |g.flScaled fl x i - y| ≤ 8 * u * ((g.num i : K) - 1) :=
      e3.trans (mul_le_mul_of_nonneg_left b2 (by linarith))
    have e6 : |y - (ijk i : K)| ≤ 1 / 2 + 8 * u * ((g.num i : K) - 1) := by
      have := abs_sub_le y (g.flScaled fl x i) (ijk i)
      rw [abs_sub_comm y (g.flScaled fl x i)] at this
      rw [Int.cast_natCast] at e4
      linarith
    have e7 : clip (x i) (g.lo i) (g.hi i) - g.ijkToState ijk i = (y - ijk i) * g.unit i := by
      rw [sub_mul, hyu]
      unfold ijkToState
      ring
    rw [e7, abs_mul, abs_of_pos hu]
    calc _ ≤ (1 / 2 + 8 * u * ((g.num i : K) - 1)) * g.unit i := mul_le_mul_of_nonneg_right e6 hu.le
      _ = g.unit i / 2 + 8 * u * (((g.num i : K) - 1) * g.unit i) := by ring
      _ = _ := by rw [hR]; rfl

/-- **C93 (agreement).** In floating point arithmetic, `state_to_index` returns the exact index if the state is not
within rounding errors (`8 u (n - 1)` cells) of the middle between two grid points. -/
theorem C93_agrees [FloorRing K] (h2 : ∀ i, 2 ≤ g.num i) (hlt : ∀ i, g.lo i < g.hi i)
    (hr : RoundsWithin fl u) {int32 : ℤ → ℤ} (hint : ConvertsInt32 int32) (hn : ∀ i, g.num i ≤ 2 ^ 31)
    (x : Fin d → K)
    (hx : ∀ i (j : ℤ), 8 * u * ((g.num i : K) - 1) <
      |(Spec.clipBox g.lo g.hi x i - g.lo i) / ((g.hi i - g.lo i) / ((g.num i : K) - 1)) - (j + 1 / 2)|) :
    g.flStateToIndex fl int32 (List.ofFn x) = g.stateToIndex (List.ofFn x) := by
  have h : g.WF := ⟨h2, hlt⟩
  rw [flStateToIndex_ofFn, stateToIndex_ofFn]
  congr 1
  funext i
  have hu := h.unit_pos i
  have hu0 := hr.nonneg
  have hmem := h.stateToIjk_mem x i
  have hni := hn i
  have hyi : g.stateToIjk x i = rint ((clip (x i) (g.lo i) (g.hi i) - g.lo i) / g.unit i) := by
    unfold stateToIjk
    rw [mul_one_div]
  have hxi := hx i
  rw [g.clipBox_eq_clip hlt] at hxi
  obtain ⟨b1, b2⟩ := scaled_bounds h x i
  have e3 := flScaled_err h hr x i
  rw [show (g.hi i - g.lo i) / ((g.num i : K) - 1) = g.unit i from rfl] at hxi
  rw [hyi] at hmem ⊢
  set y := (clip (x i) (g.lo i) (g.hi i) - g.lo i) / g.unit i with hy
  have e5 : |g.flScaled fl x i - y| ≤ 8 * u * ((g.num i : K) - 1) :=
    e3.trans (mul_le_mul_of_nonneg_left b2 (by linarith))
  have e6 := abs_le.mp (rint_abs_le y)
  have f1 := hxi (rint y)
  have f2 := hxi (rint y - 1)
  push_cast at f2
  rw [abs_of_nonpos (by linarith [e6.2])] at f1
  rw [abs_of_nonneg (by linarith [e6.1])] at f2
  have : rint (g.flScaled fl x i) = rint y := by
    apply rint_eq_of_abs_lt
    have e5' := abs_le.mp e5
    rw [abs_lt]
    constructor <;> linarith [e5'.1, e5'.2]
  rw [this, hint _ (by omega) (by omega)]

/-- Round trip for a grid of a million points between `-10` and `10` in double precision. -/
example (k : ℕ) (hk : k < 1000000) :
    ∃ x, (⟨![-10], ![10], ![1000000]⟩ : GridWorld ℚ 1).flIndexToState (roundBinary 53) k = .ok x ∧
      (⟨![-10], ![10], ![1000000]⟩ : GridWorld ℚ 1).flStateToIndex (roundBinary 53) id (List.ofFn x) = .ok k :=
  C93_roundtrip_partial (by simp) (by simp) (roundBinary_within 53 (by norm_num))
    (by intro i; fin_cases i; simp; norm_num [abs_of_neg]) (fun _ _ _ => rfl) (by simp) k (by simpa using hk)

/-- A grid of nine points, one apart, above `2 ^ 53`. -/
def fineGrid : GridWorld ℚ 1 := ⟨![2 ^ 53], ![2 ^ 53 + 8], ![9]⟩

/-- **C93 (refuted).** Next to `2 ^ 53` double precision numbers have distance two: the grid points `2 ^ 53` and
`2 ^ 53 + 1` are the same number, and the round trip of index `1` gives `0`. -/
theorem C93_roundtrip_refuted :
    (∀ i, roundBinary 53 (fineGrid.lo i) = fineGrid.lo i ∧ roundBinary 53 (fineGrid.hi i) = fineGrid.hi i) ∧
    1 < ∏ i, fineGrid.num i ∧
    ∃ x, fineGrid.flIndexToState (roundBinary 53) 1 = .ok x ∧
      fineGrid.flStateToIndex (roundBinary 53) id (List.ofFn x) = .ok 0 := by
  refine ⟨by decide +kernel, by decide +kernel, fineGrid.flIjkToState (roundBinary 53) (unravel fineGrid.num 1), ?_, ?_⟩
  · unfold flIndexToState
    rw [show (1 : ℤ) = ((1 : ℕ) : ℤ) from rfl, unravelIndex_ok _ _ (by decide +kernel)]
    rfl
  · rw [flStateToIndex_ofFn]
    have : (fun i => id (rint (fineGrid.flScaled (roundBinary 53)
        (fineGrid.flIjkToState (roundBinary 53) (unravel fineGrid.num 1)) i))) = fun _ => ((0 : ℕ) : ℤ) := by
      funext i
      revert i
      decide +kernel
    rw [this, ravelMultiIndex_ok fineGrid.num (fun _ => 0) (by decide +kernel)]
    rfl

/-! ## All points -/

/-- **C93 (all points).** In floating point arithmetic, row `k` of `all_points` is `index_to_state(k)`, except for coordinates
at the upper limit: `all_points` has the limit there, `index_to_state` is at most `u (|lo| + 5 (hi - lo))` away. -/
theorem C93_all_points_partial (h2 : ∀ i, 2 ≤ g.num i) (hlt : ∀ i, g.lo i < g.hi i)
    (hr : RoundsWithin fl u) (k : ℕ) (hk : k < ∏ i, g.num i) :
    (g.flAllPoints fl).length = ∏ i, g.num i ∧
    ∃ p x, (g.flAllPoints fl)[k]? = some p ∧ g.flIndexToState fl k = .ok x ∧
      ∀ i, p i = x i ∨
        p i = g.hi i ∧ |x i - p i| ≤ u * (|g.lo i| + 5 * (g.hi i - g.lo i)) := by
  have h : g.WF := ⟨h2, hlt⟩
  have hall : g.flAllPoints fl = (List.range (shapeProd g.num)).map fun k j =>
      if unravel g.num k j + 1 = g.num j then g.hi j
      else fl (fl (((unravel g.num k j : ℕ) : K) * g.flUnit fl j) + g.lo j) := by
    unfold flAllPoints flDiscretePoints
    exact meshIJ_eq g.num fun j m => if m + 1 = g.num j then g.hi j
      else fl (fl ((m : K) * g.flUnit fl j) + g.lo j)
  have hk' : k < shapeProd g.num := hk
  refine ⟨by rw [hall, List.length_map, List.length_range]; rfl, _, g.flIjkToState fl (unravel g.num k),
    by rw [hall, List.getElem?_map, List.getElem?_range hk']; rfl, ?_, fun i => ?_⟩
  · unfold flIndexToState
    rw [unravelIndex_ok _ _ hk]
    rfl
  · simp only
    split_ifs with hlast
    · right
      refine ⟨rfl, ?_⟩
      have e := flPoint_err h hr i (unravel g.num k i)
      have hm : ((unravel g.num k i : ℕ) : K) = (g.num i : K) - 1 := by
        have : ((unravel g.num k i + 1 : ℕ) : K) = (g.num i : K) := by exact_mod_cast hlast
        push_cast at this
        linarith
      rw [hm, h.unit_mul i] at e
      unfold flIjkToState
      rw [hm]
      calc _ = |fl (fl (((g.num i : K) - 1) * g.flUnit fl i) + g.lo i) - (g.hi i - g.lo i + g.lo i)| := by
            rw [sub_add_cancel]
        _ ≤ _ := e
        _ = _ := by ring
    · left
      rfl

/-- Fifty points between `0` and `1`. -/
def fiftyGrid : GridWorld ℚ 1 := ⟨![0], ![1], ![50]⟩

/-- **C93 (refuted).** The rows of `all_points` are not exactly the states of the indices: in double precision
`49 * (1 / 49)` is less than one. -/
theorem C93_all_points_refuted :
    ∃ p x, (fiftyGrid.flAllPoints (roundBinary 53))[49]? = some p ∧
      fiftyGrid.flIndexToState (roundBinary 53) 49 = .ok x ∧ p 0 = 1 ∧ x 0 < 1 := by
  obtain ⟨-, p, x, h1, h2, h3⟩ := C93_all_points_partial (g := fiftyGrid) (by decide +kernel) (by decide +kernel)
    (roundBinary_within 53 (by norm_num)) 49 (by decide +kernel)
  refine ⟨p, x, h1, h2, ?_, ?_⟩
  · have : (fiftyGrid.flAllPoints (roundBinary 53))[49]?.map (fun p => p 0) = some 1 := by decide +kernel
    rw [h1] at this
    exact Option.some.inj this
  · have : (fiftyGrid.flIndexToState (roundBinary 53) 49).toOption.map (fun p => p 0) =
        some (9007199254740991 / 9007199254740992) := by decide +kernel
    rw [show ((49 : ℕ) : ℤ) = 49 from rfl] at h2
    rw [h2] at this
    have hx0 : x 0 = 9007199254740991 / 9007199254740992 := Option.some.inj this
    rw [hx0]
    norm_num

/-! ## Rectangles -/

/-- Entry `k` of `discrete_points[i]`. -/
def flPoint (g : GridWorld K d) (fl : K → K) (i : Fin d) (k : ℕ) : K :=
  if k + 1 = g.num i then g.hi i else fl (fl ((k : K) * g.flUnit fl i) + g.lo i)

theorem flPoint_close (h : g.WF) (hr : RoundsWithin fl u) (hc : CoarseGrid g.lo g.hi g.num u) (i : Fin d) (k : ℕ)
    (hk : k < g.num i) : |flPoint g fl i k - ((k : K) * g.unit i + g.lo i)| < g.unit i / 2 := by
  have hu := h.unit_pos i
  have hu0 := hr.nonneg
  obtain ⟨c1, -⟩ := coarse_cells h hr hc i
  have hR := h.unit_mul i
  have hR0 : 0 < g.hi i - g.lo i := sub_pos.mpr (h.lt i)
  unfold flPoint
  split_ifs with hlast
  · have hm : (k : K) = (g.num i : K) - 1 := by
      have : ((k + 1 : ℕ) : K) = (g.num i : K) := by exact_mod_cast hlast
      push_cast at this
      linarith
    rw [hm, hR, sub_add_cancel, sub_self, abs_zero]
    linarith
  · have hkK : (k : K) ≤ (g.num i : K) - 1 := by
      have : ((k + 1 : ℕ) : K) ≤ (g.num i : K) := by exact_mod_cast hk
      push_cast at this
      linarith
    have h1 : (k : K) * g.unit i ≤ g.hi i - g.lo i := by
      rw [← hR]; exact mul_le_mul_of_nonneg_right hkK hu.le
    have h2 : 5 * u * (k * g.unit i) ≤ 5 * u * (g.hi i - g.lo i) := mul_le_mul_of_nonneg_left h1 (by linarith)
    have h3 : 0 ≤ u * (g.hi i - g.lo i) := mul_nonneg hu0 hR0.le
    linarith [flPoint_err h hr i k]

/-- The points of an axis are increasing. -/
theorem flPoint_strictMono (h : g.WF) (hr : RoundsWithin fl u) (hc : CoarseGrid g.lo g.hi g.num u) (i : Fin d)
    {j k : ℕ} (hjk : j < k) (hk : k < g.num i) : flPoint g fl i j < flPoint g fl i k := by
  have hu := h.unit_pos i
  have h1 := abs_lt.mp (flPoint_close h hr hc i j (by omega))
  have h2 := abs_lt.mp (flPoint_close h hr hc i k hk)
  have h3 : ((j : K) + 1) * g.unit i ≤ k * g.unit i := by
    refine mul_le_mul_of_nonneg_right ?_ hu.le
    exact_mod_cast hjk
  linarith [h1.2, h2.1]

theorem lt_digitize_fl (h : g.WF) (hr : RoundsWithin fl u) (hc : CoarseGrid g.lo g.hi g.num u) (i : Fin d) (x : K)
    (j : ℕ) (hj : j < g.num i) :
    j < digitize x (g.flDiscretePoints fl i) ↔ flPoint g fl i j ≤ x := by
  unfold digitize flDiscretePoints
  rw [List.countP_map]
  -- the predicate restricted to the axis is downward closed
  have hcongr : (List.range (g.num i)).countP ((fun b => decide (b ≤ x)) ∘ fun k : ℕ =>
      if k + 1 = g.num i then g.hi i else fl (fl ((k : K) * g.flUnit fl i) + g.lo i)) =
      (List.range (g.num i)).countP fun k => decide (k < g.num i) && decide (flPoint g fl i k ≤ x) := by
    refine List.countP_congr fun k hk => ?_
    have := List.mem_range.mp hk
    simp only [flPoint, this, decide_true, Bool.true_and, Function.comp]
    exact decide_eq_true_iff.trans decide_eq_true_iff.symm
  rw [hcongr, lt_countP_range _ (fun a b hab => by
    simp only [Bool.and_eq_true, decide_eq_true_eq]
    rintro ⟨hb1, hb2⟩
    refine ⟨by omega, ?_⟩
    rcases Nat.eq_or_lt_of_le hab with rfl | hlt
    · exact hb2
    · exact (flPoint_strictMono h hr hc i hlt hb1).le.trans hb2) _ _ hj]
  simp [hj]

/-- The index of the cell of a state along one axis. -/
theorem fl_cell (h : g.WF) (hr : RoundsWithin fl u) (hc : CoarseGrid g.lo g.hi g.num u) (hlo : ∀ i, fl (g.lo i) = g.lo i)
    (x : Fin d → K) (hx : ∀ i, g.lo i ≤ x i ∧ x i ≤ g.hi i) (i : Fin d) : ∃ j : ℕ, j + 1 < g.num i ∧
      clip ((digitize (x i) (g.flDiscretePoints fl i) : ℤ) - 1) 0 ((g.num i : ℤ) - 2) = (j : ℤ) ∧
      flPoint g fl i j ≤ x i ∧ (x i < flPoint g fl i (j + 1) ∨
        x i = g.hi i ∧ flPoint g fl i (j + 1) = g.hi i) := by
  have h2 := h.two_le
  have h2i := h2 i
  have hd := lt_digitize_fl h hr hc i (x i)
  set c := digitize (x i) (g.flDiscretePoints fl i) with hcd
  have hcle : c ≤ g.num i := by
    rw [hcd]
    unfold digitize
    refine List.countP_le_length.trans ?_
    simp [flDiscretePoints]
  have h0 : flPoint g fl i 0 ≤ x i := by
    have h00 : fl 0 = 0 := by
      obtain ⟨δ, -, e⟩ := hr.factor 0
      rw [e, zero_mul]
    have : flPoint g fl i 0 = g.lo i := by
      unfold flPoint
      rw [if_neg (by omega), Nat.cast_zero, zero_mul, h00, zero_add, hlo]
    rw [this]
    exact (hx i).1
  have hc1 : 0 < c := (hd 0 (by omega)).mpr h0
  rcases Nat.lt_or_ge c (g.num i) with hcn | hcn
  · refine ⟨c - 1, by omega, ?_, (hd (c - 1) (by omega)).mp (by omega), Or.inl ?_⟩
    · rw [clip_of_mem (by omega) (by omega)]
      omega
    · rw [Nat.sub_add_cancel hc1]
      exact lt_of_not_ge fun hge => absurd ((hd c hcn).mpr hge) (lt_irrefl _)
  · have hlast : flPoint g fl i (g.num i - 1) = g.hi i := by
      unfold flPoint
      rw [if_pos (by omega)]
    have hxhi : x i = g.hi i :=
      le_antisymm (hx i).2 (hlast ▸ (hd (g.num i - 1) (by omega)).mp (by omega))
    refine ⟨g.num i - 2, by omega, ?_, (hd (g.num i - 2) (by omega)).mp (by omega), Or.inr ⟨hxhi, ?_⟩⟩
    · rw [clip_of_hi_le (by omega)]
      omega
    · rw [show g.num i - 2 + 1 = g.num i - 1 by omega, hlast]

/-- **C93 (rectangles).** In floating point arithmetic, for every state in the domain, `state_to_rectangle` returns a
rectangle whose lower left corner `rectangle_to_state` is not above the state, and the next point of each axis is above the
state (or the state is at the upper limit). There is no rounding error in this statement. The limits are floating point numbers.
Missing: grids that are not coarse compared to the rounding unit. -/
theorem C93_rectangle_partial (h2 : ∀ i, 2 ≤ g.num i) (hlt : ∀ i, g.lo i < g.hi i)
    (hr : RoundsWithin fl u) (hc : CoarseGrid g.lo g.hi g.num u) (hlo : ∀ i, fl (g.lo i) = g.lo i)
    (x : Fin d → K) (hx : ∀ i, g.lo i ≤ x i ∧ x i ≤ g.hi i) :
    ∃ r c, g.flStateToRectangle fl x = .ok r ∧ r < ∏ i, (g.num i - 1) ∧
      g.flRectangleToState fl r = .ok c ∧
      ∀ i, c i ≤ x i ∧ ∃ (j : ℕ) (q : K), (g.flDiscretePoints fl i)[j]? = some (c i) ∧
        (g.flDiscretePoints fl i)[j + 1]? = some q ∧ (x i < q ∨ x i = g.hi i ∧ q = g.hi i) := by
  have h : g.WF := ⟨h2, hlt⟩
  have hget : ∀ i k, k < g.num i → (g.flDiscretePoints fl i)[k]? = some (flPoint g fl i k) := by
    intro i k hk
    unfold flDiscretePoints
    rw [List.getElem?_map, List.getElem?_range hk]
    rfl
  choose J hJ1 hJ2 hJ3 hJ4 using fl_cell h hr hc hlo x hx
  have hJlt : ∀ i, J i < g.numRect i := fun i => by have := hJ1 i; unfold numRect; omega
  have hrlt : ravel g.numRect J < shapeProd g.numRect := ravel_lt _ _ hJlt
  refine ⟨ravel g.numRect J, g.flIjkToState fl J, ?_, hrlt, ?_, fun i => ?_⟩
  · unfold flStateToRectangle
    rw [show (fun i => clip ((digitize (x i) (g.flDiscretePoints fl i) : ℤ) - 1) 0 ((g.num i : ℤ) - 2)) =
      fun i => ((J i : ℕ) : ℤ) from funext hJ2, ravelMultiIndex_ok _ _ hJlt]
  · unfold flRectangleToState
    rw [unravelIndex_ok _ _ hrlt]
    simp only [bind, Except.bind, pure, Except.pure]
    rw [unravel_ravel _ _ hJlt]
  · have hp : flPoint g fl i (J i) = g.flIjkToState fl J i := by
      unfold flPoint flIjkToState
      rw [if_neg (by have := hJ1 i; omega)]
    rw [← hp]
    exact ⟨hJ3 i, J i, _, hget i _ (by have := hJ1 i; omega), hget i _ (hJ1 i), hJ4 i⟩

/-- The rectangle of a state of a grid between `-10` and `10` in double precision. -/
example : ∃ r c, (⟨![-10], ![10], ![1000000]⟩ : GridWorld ℚ 1).flStateToRectangle (roundBinary 53) ![1 / 3] = .ok r ∧
    (⟨![-10], ![10], ![1000000]⟩ : GridWorld ℚ 1).flRectangleToState (roundBinary 53) r = .ok c ∧ c 0 ≤ 1 / 3 := by
  obtain ⟨r, c, h1, -, h2, h3⟩ := C93_rectangle_partial (g := (⟨![-10], ![10], ![1000000]⟩ : GridWorld ℚ 1))
    (fl := roundBinary 53) (u := 2 ^ (-((53 : ℕ) : ℤ))) (by simp) (by simp) (roundBinary_within 53 (by norm_num))
    (by intro i; fin_cases i; simp; norm_num [abs_of_neg]) (by decide +kernel) ![1 / 3] (by decide +kernel)
  exact ⟨r, c, h1, h2, (h3 0).1⟩

/-! ## C94: machine integers -/

theorem int64Prod_eq_aux (ns : List ℤ) (hpos : ∀ n ∈ ns, 1 ≤ n) : ∀ acc : ℤ, 1 ≤ acc → acc * ns.prod < 2 ^ 63 →
    ns.foldl (fun acc n => Int.bmod (acc * n) (2 ^ 64)) acc = acc * ns.prod := by
  induction ns with
  | nil => intro acc _ _; simp
  | cons n ns ih =>
    intro acc hacc hlt
    have hn : 1 ≤ n := hpos n (by simp)
    have hns : 1 ≤ ns.prod := by
      have : ∀ l : List ℤ, (∀ n ∈ l, 1 ≤ n) → 1 ≤ l.prod := by
        intro l
        induction l with
        | nil => simp
        | cons a l ihl =>
          intro hl
          rw [List.prod_cons]
          have h1 := hl a (by simp)
          have h2 := ihl fun n hn => hl n (by simp [hn])
          nlinarith
      exact this ns fun n hn => hpos n (by simp [hn])
    have h1 : 1 ≤ acc * n := by nlinarith
    rw [List.prod_cons, ← mul_assoc] at hlt ⊢
    have h2 : acc * n < 2 ^ 63 := by nlinarith
    rw [List.foldl_cons, Int.bmod_eq_of_le (by norm_num; omega) (by norm_num; omega)]
    exact ih (fun n hn => hpos n (by simp [hn])) (acc * n) h1 hlt

/-- **C94.** `len(grid)` and `nrectangles` are the number of grid points and of rectangles, if the number of points is below
`2 ^ 63`. Missing: larger grids, see `C94_refuted`. -/
theorem C94_len_partial (h2 : ∀ i, 2 ≤ g.num i) (hlt : ∏ i, g.num i < 2 ^ 63) :
    g.machineNindex = ((∏ i, g.num i : ℕ) : ℤ) ∧
      g.machineNrectangles = ((∏ i, (g.num i - 1) : ℕ) : ℤ) := by
  have hlt' : ((∏ i, g.num i : ℕ) : ℤ) < 2 ^ 63 := by exact_mod_cast hlt
  have hle : ∏ i, (g.num i - 1) ≤ ∏ i, g.num i := Finset.prod_le_prod' fun i _ => Nat.sub_le _ _
  constructor
  · unfold machineNindex int64Prod
    rw [int64Prod_eq_aux]
    · rw [one_mul, List.prod_ofFn]; push_cast; rfl
    · intro n hn
      obtain ⟨i, rfl⟩ := List.mem_ofFn.mp hn
      have := h2 i
      omega
    · norm_num
    · rw [one_mul, List.prod_ofFn]; push_cast at hlt'; exact hlt'
  · have hcast : (List.ofFn fun i => (g.num i : ℤ) - 1).prod = ((∏ i, (g.num i - 1) : ℕ) : ℤ) := by
      rw [List.prod_ofFn]
      push_cast
      refine Finset.prod_congr rfl fun i _ => ?_
      have := h2 i
      omega
    unfold machineNrectangles int64Prod
    rw [int64Prod_eq_aux]
    · rw [one_mul, hcast]
    · intro n hn
      obtain ⟨i, rfl⟩ := List.mem_ofFn.mp hn
      have := h2 i
      omega
    · norm_num
    · rw [one_mul, hcast]
      have : ((∏ i, (g.num i - 1) : ℕ) : ℤ) ≤ ((∏ i, g.num i : ℕ) : ℤ) := by exact_mod_cast hle
      omega

/-- A grid with four axes of `2 ^ 16` points. -/
def hugeGrid : GridWorld ℚ 4 := ⟨fun _ => 0, fun _ => 1, fun _ => 2 ^ 16⟩

/-- **C94 (refuted).** A grid with four axes of `2 ^ 16` points has length zero. -/
theorem C94_refuted : hugeGrid.machineNindex = 0 ∧ 0 < ∏ i, hugeGrid.num i := by
  constructor <;> decide +kernel

/-- The length of a grid with `200 ^ 4` points. -/
example : (⟨fun _ => 0, fun _ => 1, fun _ => 200⟩ : GridWorld ℚ 4).machineNindex = 1600000000 := by
  rw [(C94_len_partial (by simp) (by simp)).1]
  simp

end GridWorld

end SafeLearning
