import Verif.Lemmas.FloatTriangulation
set_option autoImplicit false

/-!
# Rounding errors of sums and of barycentric weights
-/

namespace SafeLearning

set_option linter.unusedSectionVars false

open Spec

variable {K : Type} [Field K] [LinearOrder K] [IsStrictOrderedRing K] {d : ℕ} {fl : K → K} {u : K}

theorem growth_nonneg (hu : 0 ≤ u) (n : ℕ) : 0 ≤ (1 + u) ^ n - 1 := by
  have : (1 : K) ≤ (1 + u) ^ n := one_le_pow₀ (by linarith)
  linarith

theorem fl_abs_le (hr : RoundsWithin fl u) (x : K) : |fl x| ≤ (1 + u) * |x| := by
  have h1 := hr.err x
  have h2 := abs_add_le (fl x - x) x
  rw [sub_add_cancel] at h2
  linarith

/-- The error of a number that is close to another one, after rounding. -/
theorem fl_err_of (hr : RoundsWithin fl u) {x y e : K} (h : |x - y| ≤ e) : |fl x - y| ≤ (1 + u) * e + u * |y| := by
  have h1 := hr.err x
  have h2 := abs_add_le (fl x - x) (x - y)
  rw [sub_add_sub_cancel] at h2
  have h3 := abs_add_le (x - y) y
  rw [sub_add_cancel] at h3
  have h4 := mul_le_mul_of_nonneg_left (show |x| ≤ e + |y| by linarith) hr.nonneg
  linarith

theorem flSum_from (hr : RoundsWithin fl u) (xs : List K) : ∀ a : K,
    |xs.foldl (fun acc x => fl (acc + x)) a - (a + xs.sum)| ≤ ((1 + u) ^ xs.length - 1) * (|a| + (xs.map abs).sum) := by
  have hu := hr.nonneg
  induction xs with
  | nil => intro a; simp
  | cons x xs ih =>
    intro a
    rw [List.foldl_cons, List.sum_cons, List.map_cons, List.sum_cons, List.length_cons]
    set T := (xs.map abs).sum with hT
    have hT0 : 0 ≤ T := List.sum_nonneg fun y hy => by
      obtain ⟨z, -, rfl⟩ := List.mem_map.mp hy
      exact abs_nonneg z
    have h1 := ih (fl (a + x))
    have h2 := hr.err (a + x)
    have h3 := fl_abs_le hr (a + x)
    have h4 := abs_add_le a x
    have h5 := abs_add_le (xs.foldl (fun acc x => fl (acc + x)) (fl (a + x)) - (fl (a + x) + xs.sum)) (fl (a + x) - (a + x))
    have e : xs.foldl (fun acc x => fl (acc + x)) (fl (a + x)) - (fl (a + x) + xs.sum) + (fl (a + x) - (a + x)) =
        xs.foldl (fun acc x => fl (acc + x)) (fl (a + x)) - (a + (x + xs.sum)) := by ring
    rw [e] at h5
    have hg := growth_nonneg hu xs.length
    have h6 : |fl (a + x)| + T ≤ (1 + u) * (|a| + |x| + T) := by
      have := mul_le_mul_of_nonneg_left h4 (show 0 ≤ 1 + u by linarith)
      have := mul_nonneg hu hT0
      linarith
    have h7 := mul_le_mul_of_nonneg_left h6 hg
    have h8 := mul_le_mul_of_nonneg_left h4 hu
    have h9 := mul_nonneg hu hT0
    have e2 : ((1 + u) ^ (xs.length + 1) - 1) * (|a| + (|x| + T)) =
        ((1 + u) ^ xs.length - 1) * ((1 + u) * (|a| + |x| + T)) + u * (|a| + |x| + T) := by
      rw [pow_succ]; ring
    rw [e2]
    linarith

/-- The error of a sum of `n` numbers computed from left to right. -/
theorem flSum_err (hr : RoundsWithin fl u) {n : ℕ} (f : Fin n → K) :
    |flSum fl (List.ofFn f) - ∑ i, f i| ≤ ((1 + u) ^ n - 1) * ∑ i, |f i| := by
  have h := flSum_from hr (List.ofFn f) 0
  rw [zero_add, abs_zero, zero_add, List.length_ofFn, List.map_ofFn, List.sum_ofFn, List.sum_ofFn] at h
  exact h

/-- The error of a sum of numbers that are themselves inexact. -/
theorem flSum_err_of (hr : RoundsWithin fl u) {n : ℕ} {f y e : Fin n → K} (h : ∀ i, |f i - y i| ≤ e i) :
    |flSum fl (List.ofFn f) - ∑ i, y i| ≤ ((1 + u) ^ n - 1) * ∑ i, |y i| + (1 + u) ^ n * ∑ i, e i := by
  have hg := growth_nonneg hr.nonneg n
  have h1 := flSum_err hr f
  have h2 : |∑ i, f i - ∑ i, y i| ≤ ∑ i, e i := by
    rw [← Finset.sum_sub_distrib]
    exact (Finset.abs_sum_le_sum_abs _ _).trans (Finset.sum_le_sum fun i _ => h i)
  have h3 : ∑ i, |f i| ≤ ∑ i, |y i| + ∑ i, e i := by
    rw [← Finset.sum_add_distrib]
    refine Finset.sum_le_sum fun i _ => ?_
    have := abs_add_le (f i - y i) (y i)
    rw [sub_add_cancel] at this
    linarith [h i]
  have h4 := mul_le_mul_of_nonneg_left h3 hg
  have h5 := abs_add_le (flSum fl (List.ofFn f) - ∑ i, f i) (∑ i, f i - ∑ i, y i)
  rw [sub_add_sub_cancel] at h5
  have e2 : ((1 + u) ^ n - 1) * ∑ i, |y i| + (1 + u) ^ n * ∑ i, e i =
      ((1 + u) ^ n - 1) * (∑ i, |y i| + ∑ i, e i) + ∑ i, e i := by ring
  rw [e2]
  linarith

/-- The error of a weight: the sum of `(p - o) * H`, with an inexact origin `o'`. -/
theorem flWeight_err (hr : RoundsWithin fl u) (p o o' H : Fin d → K) (A O : Fin d → K)
    (hA : ∀ i, |p i - o i| ≤ A i) (hO : ∀ i, |o' i - o i| ≤ O i) :
    |flSum fl (List.ofFn fun i => fl (fl (p i - o' i) * H i)) - ∑ i, (p i - o i) * H i| ≤
      ∑ i, |H i| * (((1 + u) ^ (d + 2) - 1) * A i + (1 + u) ^ (d + 2) * O i) := by
  have hu := hr.nonneg
  have hg := growth_nonneg hu d
  have h1 : ∀ i, |fl (fl (p i - o' i) * H i) - (p i - o i) * H i| ≤
      |H i| * (((1 + u) ^ 2 - 1) * A i + (1 + u) ^ 2 * O i) := by
    intro i
    have hHi := abs_nonneg (H i)
    have e1 : |fl (p i - o' i) - (p i - o i)| ≤ (1 + u) * O i + u * |p i - o i| := by
      refine fl_err_of hr ?_
      rw [show p i - o' i - (p i - o i) = -(o' i - o i) by ring, abs_neg]
      exact hO i
    have e2 : |fl (p i - o' i) * H i - (p i - o i) * H i| ≤ |H i| * ((1 + u) * O i + u * A i) := by
      rw [← sub_mul, abs_mul, mul_comm]
      refine mul_le_mul_of_nonneg_left (e1.trans ?_) hHi
      have := mul_le_mul_of_nonneg_left (hA i) hu
      linarith
    refine (fl_err_of hr e2).trans ?_
    rw [abs_mul]
    have e3 := mul_le_mul_of_nonneg_left (mul_le_mul_of_nonneg_right (hA i) hHi) hu
    calc _ ≤ (1 + u) * (|H i| * ((1 + u) * O i + u * A i)) + u * (A i * |H i|) := by linarith
      _ = _ := by ring
  refine (flSum_err_of hr h1).trans ?_
  have h2 : ∑ i, |(p i - o i) * H i| ≤ ∑ i, |H i| * A i := Finset.sum_le_sum fun i _ => by
    rw [abs_mul, mul_comm]
    exact mul_le_mul_of_nonneg_left (hA i) (abs_nonneg _)
  have h3 := mul_le_mul_of_nonneg_left h2 hg
  have e : ((1 + u) ^ d - 1) * ∑ i, |H i| * A i + (1 + u) ^ d * ∑ i, |H i| * (((1 + u) ^ 2 - 1) * A i + (1 + u) ^ 2 * O i) =
      ∑ i, |H i| * (((1 + u) ^ (d + 2) - 1) * A i + (1 + u) ^ (d + 2) * O i) := by
    rw [Finset.mul_sum, Finset.mul_sum, ← Finset.sum_add_distrib]
    refine Finset.sum_congr rfl fun i _ => ?_
    rw [pow_add]
    ring
  linarith

/-- The error of an interpolated value: `w` are the exact weights of the corners, `w1` the computed ones, except that the first one is
computed from the others. -/
theorem flInterpolate_err (hr : RoundsWithin fl u) (w : Fin (d + 1) → K) (hw : ∑ j, w j = 1) (w1 : Fin d → K) {W c M : K}
    (hW : ∀ j : Fin d, |w1 j - w j.succ| ≤ W) (hc : ∑ j, |w j| ≤ c) (val : Fin (d + 1) → K) (hM : ∀ j, |val j| ≤ M) :
    |flSum fl (List.ofFn fun j =>
        fl ((Fin.cons (fl (1 - flSum fl (List.ofFn w1))) w1 : Fin (d + 1) → K) j * val j)) - ∑ j, w j * val j| ≤
      M * (((1 + u) ^ (d + 2) - 1) * c +
        (1 + u) ^ (d + 2) * (((1 + u) ^ (d + 2) - 1) * c + ((1 + u) ^ (d + 2) + 1) * (d * W))) := by
  have hu := hr.nonneg
  set q := (1 + u) ^ (d + 2) with hq
  have hM0 : 0 ≤ M := (abs_nonneg _).trans (hM 0)
  have hsucc : ∑ j : Fin d, |w j.succ| ≤ c - |w 0| := by
    rw [Fin.sum_univ_succ] at hc
    linarith
  have hdW : ∑ _j : Fin d, W = d * W := by simp
  have hdW0 : 0 ≤ (d : K) * W := by
    rw [← hdW]
    exact Finset.sum_nonneg fun j _ => (abs_nonneg _).trans (hW j)
  have hc0 : 0 ≤ c := (Finset.sum_nonneg fun j _ => abs_nonneg (w j)).trans hc
  -- the first weight
  have h1 := flSum_err_of hr hW
  rw [hdW] at h1
  have hw0 : w 0 = 1 - ∑ j : Fin d, w j.succ := by
    rw [Fin.sum_univ_succ] at hw
    linarith
  have h2 : |1 - flSum fl (List.ofFn w1) - w 0| ≤ ((1 + u) ^ d - 1) * (c - |w 0|) + (1 + u) ^ d * (d * W) := by
    rw [hw0, show 1 - flSum fl (List.ofFn w1) - (1 - ∑ j : Fin d, w j.succ) =
      -(flSum fl (List.ofFn w1) - ∑ j : Fin d, w j.succ) by ring, abs_neg, ← hw0]
    have := mul_le_mul_of_nonneg_left hsucc (growth_nonneg hu d)
    linarith
  have h3 := fl_err_of hr h2
  have h4 : |fl (1 - flSum fl (List.ofFn w1)) - w 0| ≤ (q - 1) * c + q * (d * W) := by
    refine h3.trans ?_
    have b0 := abs_nonneg (w 0)
    have b1 : |w 0| ≤ c := by
      have := Finset.sum_nonneg fun (j : Fin d) (_ : j ∈ Finset.univ) => abs_nonneg (w j.succ)
      linarith
    have b2 : (1 + u) ^ (d + 1) ≤ q := pow_le_pow_right₀ (by linarith) (by omega)
    have b3 : 0 ≤ (1 + u) ^ d - 1 := growth_nonneg hu d
    have e : (1 + u) * (((1 + u) ^ d - 1) * (c - |w 0|) + (1 + u) ^ d * (d * W)) + u * |w 0| =
        ((1 + u) ^ (d + 1) - 1) * c + (1 + u) ^ (d + 1) * (d * W) - ((1 + u) * ((1 + u) ^ d - 1) * |w 0| + u * (c - |w 0|)) := by
      rw [pow_succ]; ring
    rw [e]
    have b4 : 0 ≤ (1 + u) * ((1 + u) ^ d - 1) * |w 0| := mul_nonneg (mul_nonneg (by linarith) b3) b0
    have b5 : 0 ≤ u * (c - |w 0|) := mul_nonneg hu (by linarith)
    have b6 := mul_le_mul_of_nonneg_right b2 hc0
    have b7 := mul_le_mul_of_nonneg_right b2 hdW0
    linarith
  -- all weights
  set w' : Fin (d + 1) → K := Fin.cons (fl (1 - flSum fl (List.ofFn w1))) w1 with hw'
  set e : Fin (d + 1) → K := Fin.cons ((q - 1) * c + q * (d * W)) fun _ => W with he
  have hdiff : ∀ j, |w' j - w j| ≤ e j := by
    intro j
    refine Fin.cases ?_ (fun j => ?_) j
    · simpa [hw', he] using h4
    · simpa [hw', he] using hW j
  have hesum : ∑ j, e j = (q - 1) * c + (q + 1) * (d * W) := by
    rw [Fin.sum_univ_succ]
    simp only [he, Fin.cons_zero, Fin.cons_succ, hdW]
    ring
  have he0 : ∀ j, 0 ≤ e j := fun j => (abs_nonneg _).trans (hdiff j)
  -- the values
  have h5 : ∀ j, |fl (w' j * val j) - w j * val j| ≤ M * ((1 + u) * e j + u * |w j|) := by
    intro j
    have f1 : |w' j * val j - w j * val j| ≤ M * e j := by
      rw [← sub_mul, abs_mul, mul_comm]
      exact mul_le_mul (hM j) (hdiff j) (abs_nonneg _) hM0
    refine (fl_err_of hr f1).trans ?_
    rw [abs_mul]
    have := mul_le_mul_of_nonneg_left (mul_le_mul_of_nonneg_left (hM j) (abs_nonneg (w j))) hu
    calc _ ≤ (1 + u) * (M * e j) + u * (|w j| * M) := by linarith
      _ = _ := by ring
  refine (flSum_err_of hr h5).trans ?_
  have h6 : ∑ j, |w j * val j| ≤ M * c := by
    calc _ ≤ ∑ j, M * |w j| := Finset.sum_le_sum fun j _ => by
          rw [abs_mul, mul_comm]
          exact mul_le_mul_of_nonneg_right (hM j) (abs_nonneg _)
      _ = M * ∑ j, |w j| := by rw [Finset.mul_sum]
      _ ≤ _ := mul_le_mul_of_nonneg_left hc hM0
  have h7 := mul_le_mul_of_nonneg_left h6 (growth_nonneg hu (d + 1))
  have h8 : ∑ j, M * ((1 + u) * e j + u * |w j|) ≤ M * ((1 + u) * ((q - 1) * c + (q + 1) * (d * W)) + u * c) := by
    rw [← Finset.mul_sum, Finset.sum_add_distrib, ← Finset.mul_sum, ← Finset.mul_sum, hesum]
    have := mul_le_mul_of_nonneg_left hc hu
    exact mul_le_mul_of_nonneg_left (by linarith) hM0
  have h9 := mul_le_mul_of_nonneg_left h8 (show 0 ≤ (1 + u) ^ (d + 1) from pow_nonneg (by linarith) _)
  have e1 : ((1 + u) ^ (d + 1) - 1) * (M * c) + (1 + u) ^ (d + 1) * (M * ((1 + u) * ((q - 1) * c + (q + 1) * (d * W)) + u * c)) =
      M * ((q - 1) * c + q * ((q - 1) * c + (q + 1) * (d * W))) := by
    rw [hq, pow_succ (1 + u) (d + 1)]
    ring
  linarith

end SafeLearning
