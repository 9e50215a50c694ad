import Verif.Props.Decrease
import Verif.Lemmas.Region
import Mathlib.Tactic.FieldSimp
import Mathlib.Algebra.BigOperators.Field
set_option autoImplicit false

/-!
# C28: the points of the refined cell
-/

namespace SafeLearning

set_option linter.unusedSectionVars false

open Spec

variable {K : Type} [Field K] [LinearOrder K] [IsStrictOrderedRing K] [FloorRing K] {d : ℕ}

/-- One coordinate of the refined points. -/
theorem refined_coordinate (n k : ℕ) (hk : k < n) (w : K) :
    1 / 2 * (1 - 1 / (n : K)) * w * ((k : K) * ((1 - -1) / ((n : K) - 1)) + -1) = (2 * k + 1 - n) / (2 * n) * w := by
  have hn : (n : K) ≠ 0 := by
    have : 0 < n := by omega
    exact_mod_cast this.ne'
  by_cases h1 : n = 1
  · subst h1
    have : k = 0 := by omega
    subst this
    norm_num
  · have : (n : K) - 1 ≠ 0 := by
      intro h
      apply h1
      have : (n : K) = ((1 : ℕ) : K) := by push_cast; linarith
      exact_mod_cast this
    field_simp
    ring

theorem mem_refinedPoints (g : GridWorld K d) (c : Fin d → K) (n : ℕ) (p : Fin d → K) :
    p ∈ refinedPoints g c n ↔ ∃ k : Fin d → ℕ, (∀ i, k i < n) ∧
      ∀ i, p i = c i + (2 * (k i : K) + 1 - n) / (2 * n) * g.unit i := by
  unfold refinedPoints
  simp only [List.mem_map, mem_meshIJ, linspace_eq, List.mem_range]
  constructor
  · rintro ⟨q, hq, rfl⟩
    choose t ht1 ht2 using hq
    choose k hk1 hk2 using ht1
    refine ⟨k, hk1, fun i => ?_⟩
    show q i + c i = _
    rw [← ht2 i, ← hk2 i, refined_coordinate n (k i) (hk1 i)]
    ring
  · rintro ⟨k, hk, hp⟩
    refine ⟨fun i => p i - c i, fun i => ⟨_, ⟨k i, hk i, rfl⟩, ?_⟩, by funext i; ring⟩
    show _ = p i - c i
    rw [refined_coordinate n (k i) (hk i), hp i]
    ring

/-- **C28 (refined points).** The points of the refined cell, which the code computes and does not use, lie in the cell around the grid state (of
side lengths `unit_maxes`), and every state of the cell is within `unit_maxes / (2 N)` of one of them in every coordinate. -/
theorem C28_refined_points_cover (g : GridWorld K d) (h2 : ∀ i, 2 ≤ g.num i) (hlt : ∀ i, g.lo i < g.hi i)
    (c : Fin d → K) (n : ℕ) (hn : 1 ≤ n) :
    (∀ p ∈ refinedPoints g c n, ∀ i, |p i - c i| ≤ (g.hi i - g.lo i) / ((g.num i : K) - 1) / 2) ∧
    ∀ y : Fin d → K, (∀ i, |y i - c i| ≤ (g.hi i - g.lo i) / ((g.num i : K) - 1) / 2) →
      ∃ p ∈ refinedPoints g c n, ∀ i, |y i - p i| ≤ (g.hi i - g.lo i) / ((g.num i : K) - 1) / (2 * n) := by
  have hg : g.WF := ⟨h2, hlt⟩
  have hn0 : (0 : K) < n := by exact_mod_cast hn
  constructor
  · intro p hp i
    obtain ⟨k, hk, hp⟩ := (mem_refinedPoints g c n p).mp hp
    have hu := hg.unit_pos i
    have hki : ((k i : K)) + 1 ≤ n := by exact_mod_cast hk i
    have hk0 : (0 : K) ≤ k i := Nat.cast_nonneg _
    rw [hp i, add_sub_cancel_left, abs_mul, abs_of_pos hu]
    have : |(2 * (k i : K) + 1 - n) / (2 * n)| ≤ 1 / 2 := by
      rw [abs_div, abs_of_pos (show (0 : K) < 2 * n by linarith), div_le_iff₀ (by linarith), abs_le]
      constructor <;> linarith
    calc _ ≤ 1 / 2 * g.unit i := mul_le_mul_of_nonneg_right this hu.le
      _ = g.unit i / 2 := by ring
  · intro y hy
    have key : ∀ i, ∃ k : ℕ, k < n ∧
        |y i - (c i + (2 * (k : K) + 1 - n) / (2 * n) * g.unit i)| ≤ g.unit i / (2 * n) := by
      intro i
      have hu := hg.unit_pos i
      have hyi := abs_le.mp (hy i)
      rw [show (g.hi i - g.lo i) / ((g.num i : K) - 1) = g.unit i from rfl] at hyi
      -- the position within the cell, in refined cells
      set s : K := ((y i - c i) / g.unit i + 1 / 2) * n with hs
      have hys : y i = c i + (s / n - 1 / 2) * g.unit i := by
        rw [hs]
        field_simp
        ring
      have hr1 : -(1 / 2) ≤ (y i - c i) / g.unit i := by
        rw [le_div_iff₀ hu]; linarith [hyi.1]
      have hr2 : (y i - c i) / g.unit i ≤ 1 / 2 := by
        rw [div_le_iff₀ hu]; linarith [hyi.2]
      have hs0 : 0 ≤ s := mul_nonneg (by linarith) hn0.le
      have hs1 : s ≤ n := by
        rw [hs]
        exact mul_le_of_le_one_left hn0.le (by linarith)
      obtain ⟨k, hk, hk1, hk2⟩ : ∃ k : ℕ, k < n ∧ (k : K) ≤ s ∧ s ≤ k + 1 := by
        rcases eq_or_lt_of_le hs1 with h | h
        · refine ⟨n - 1, by omega, ?_, ?_⟩ <;> rw [h, Nat.cast_sub hn] <;> push_cast <;> linarith
        · refine ⟨⌊s⌋₊, ?_, Nat.floor_le hs0, (Nat.lt_floor_add_one s).le⟩
          rw [Nat.floor_lt hs0]
          exact h
      refine ⟨k, hk, ?_⟩
      have e : y i - (c i + (2 * (k : K) + 1 - n) / (2 * n) * g.unit i) =
          (s - (k + 1 / 2)) * (g.unit i / n) := by
        rw [hys]
        field_simp
        ring
      have habs : |s - (k + 1 / 2)| ≤ 1 / 2 := by
        rw [abs_le]
        constructor <;> linarith
      rw [e, abs_mul, abs_of_pos (div_pos hu hn0)]
      calc _ ≤ 1 / 2 * (g.unit i / n) := mul_le_mul_of_nonneg_right habs (div_pos hu hn0).le
        _ = _ := by field_simp
    choose k hk1 hk2 using key
    exact ⟨fun i => c i + (2 * (k i : K) + 1 - n) / (2 * n) * g.unit i,
      (mem_refinedPoints g c n _).mpr ⟨k, hk1, fun i => rfl⟩, hk2⟩

/-- **C28 (what the check at the refined points would give).** If the decrease condition with the discretization constant `tau / N` holds at all points of the
refined cell, and `tau` is at least half of the sum of the side lengths of the cells, then the Lyapunov function decreases along the true closed loop at every state of
the cell. The code checks the grid state only, see `C28_refined_points_refuted`. -/
theorem C28_refined_check (g : GridWorld K d) (h2 : ∀ i, 2 ≤ g.num i) (hlt : ∀ i, g.lo i < g.hi i)
    (V : (Fin d → K) → K) (Lv Lf tau : K) (f : (Fin d → K) → Fin d → K) (hLv : 0 ≤ Lv) (hLf : 0 ≤ Lf)
    (hV : ∀ y z, |V y - V z| ≤ Lv * ∑ i, |y i - z i|)
    (hf : ∀ y z, ∑ i, |f y i - f z i| ≤ Lf * ∑ i, |y i - z i|)
    (htau : (∑ i, (g.hi i - g.lo i) / ((g.num i : K) - 1)) / 2 ≤ tau)
    (c : Fin d → K) (n : ℕ) (hn : 1 ≤ n) (pred : (Fin d → K) → Prediction K d)
    (hp : ∀ p ∈ refinedPoints g c n, (pred p).Contains (f p))
    (hdec : ∀ p ∈ refinedPoints g c n,
      vDecreaseBound V (.const Lv) p (pred p) < thresholdAt (.const Lv) (.const Lf) p (tau / n))
    (z : Fin d → K) (hz : ∀ i, |z i - c i| ≤ (g.hi i - g.lo i) / ((g.num i : K) - 1) / 2) :
    V (f z) < V z := by
  have hn0 : (0 : K) < n := by exact_mod_cast hn
  obtain ⟨p, hpm, hzp⟩ := (C28_refined_points_cover g h2 hlt c n hn).2 z hz
  refine (C25_decrease_in_cell V Lv Lf (tau / n) f (fun y z => ∑ i, |y i - z i|) hLv hLf hV hV hf p (pred p)
    (hp p hpm) (hdec p hpm) z ?_).2
  calc ∑ i, |z i - p i| ≤ ∑ i, (g.hi i - g.lo i) / ((g.num i : K) - 1) / (2 * n) := Finset.sum_le_sum fun i _ => hzp i
    _ = (∑ i, (g.hi i - g.lo i) / ((g.num i : K) - 1)) / 2 / n := by
        rw [div_div, ← Finset.sum_div]
    _ ≤ tau / n := div_le_div_of_nonneg_right htau hn0.le

/-- Three refined points around `1` on a grid with distance `1`: `2/3`, `1` and `4/3`. -/
example : refinedPoints (⟨![0], ![2], ![3]⟩ : GridWorld ℚ 1) ![1] 3 = [![2 / 3], ![1], ![4 / 3]] := by decide +kernel

/-- The hypotheses are met by `V(x) = |x|` and `f(x) = x / 4` in the cell around `1`, with two refined points; the state `3/5` is in the cell. -/
example : |(3 / 5 / 4 : ℚ)| < |3 / 5| := by
  have := C28_refined_check (⟨![0], ![2], ![3]⟩ : GridWorld ℚ 1) (by decide +kernel) (by decide +kernel)
    (fun x => |x 0|) 1 (1 / 4) (1 / 2) (fun x => ![x 0 / 4]) (by norm_num) (by norm_num)
    (fun y z => by simp only [Fin.sum_univ_one, one_mul]; exact abs_abs_sub_abs_le _ _)
    (fun y z => by
      simp only [Fin.sum_univ_one, Matrix.cons_val_zero]
      rw [← sub_div, abs_div]
      have : |(4 : ℚ)| = 4 := by norm_num
      rw [this]; linarith)
    (by decide +kernel) ![1] 2 (by norm_num) (fun p => .exact ![p 0 / 4])
    (fun p _ => rfl) (by decide +kernel) ![3 / 5] (by decide +kernel)
  simpa using this

end SafeLearning
