import Verif.Model.Utilities
import Verif.Spec.Utilities
import Verif.Lemmas.Grid
import Verif.Lemmas.Region
import Mathlib.Algebra.BigOperators.Fin
import Mathlib.Algebra.Order.BigOperators.Group.Finset
import Mathlib.Logic.Equiv.Basic
set_option autoImplicit false

/-!
# C39: combinations of arrays
-/

namespace SafeLearning

set_option linter.unusedSectionVars false

variable {K : Type} [Field K] [LinearOrder K] [IsStrictOrderedRing K]

theorem meshIJ_length {α : Type*} : ∀ {d : ℕ} (axes : Fin d → List α),
    (meshIJ axes).length = ∏ i, (axes i).length
  | 0, _ => by simp [meshIJ]
  | d + 1, axes => by
    rw [meshIJ, Fin.prod_univ_succ, List.length_flatMap]
    simp [meshIJ_length, Fin.tail]

theorem meshIJ_count {α : Type*} [DecidableEq α] : ∀ {d : ℕ} (axes : Fin d → List α)
    (r : Fin d → α), (meshIJ axes).count r = ∏ i, (axes i).count (r i)
  | 0, _, r => by
    rw [meshIJ, Subsingleton.elim r Fin.elim0]
    simp
  | d + 1, axes, r => by
    rw [meshIJ, Fin.prod_univ_succ, List.count_flatMap]
    have h : ∀ x : α, List.count r ((meshIJ (Fin.tail axes)).map fun r' => Fin.cons x r') =
        if x = r 0 then ∏ i : Fin d, (axes i.succ).count (r i.succ) else 0 := by
      intro x
      split_ifs with hx
      · subst hx
        have inj : Function.Injective
            (fun r' : Fin d → α => (Fin.cons (r 0) r' : Fin (d + 1) → α)) :=
          fun a b hab => (Fin.cons_inj.mp hab).2
        have := List.count_map_of_injective (meshIJ (Fin.tail axes)) _ inj (Fin.tail r)
        rw [Fin.cons_self_tail] at this
        rw [this, meshIJ_count]
        rfl
      · rw [List.count_eq_zero]
        intro hmem
        obtain ⟨r', _, rfl⟩ := List.mem_map.mp hmem
        exact hx (by simp)
    have h2 : (List.count r ∘ fun x => (meshIJ (Fin.tail axes)).map fun r' => (Fin.cons x r' : Fin (d+1) → α)) =
        fun x => if x = r 0 then ∏ i : Fin d, (axes i.succ).count (r i.succ) else 0 := funext h
    rw [h2]
    generalize (∏ i : Fin d, (axes i.succ).count (r i.succ)) = c
    induction axes 0 with
    | nil => simp
    | cons a l ih =>
      simp only [List.map_cons, List.sum_cons, ih, List.count_cons, beq_iff_eq]
      split_ifs <;> ring

/-- The two index maps are inverse to each other. -/
def axisEquiv (k : ℕ) : Fin (k + 2) ≃ Fin (k + 2) where
  toFun := axisOrder
  invFun := axisPos
  left_inv i := by
    have := i.2
    unfold axisOrder axisPos
    ext
    split_ifs <;> simp only at * <;> simp_all <;> omega
  right_inv i := by
    have := i.2
    unfold axisOrder axisPos
    ext
    split_ifs <;> simp only at * <;> simp_all <;> omega

/-- **C39.** For one array or more, `combinations` returns exactly as many rows as the product of the lengths,
and every tuple that picks one entry of each array occurs exactly as often as there are ways to pick
it, so exactly once for arrays without repetition; there are no other rows. -/
theorem C39_combinations {α : Type} [DecidableEq α] {d : ℕ} (hd : 0 < d) (arrays : Fin d → List α) :
    ∃ rows, combinations arrays = .ok rows ∧
      rows.length = ∏ i, (arrays i).length ∧
      (∀ r, rows.count r = ∏ i, (arrays i).count (r i)) ∧
      (∀ r, r ∈ rows ↔ ∀ i, r i ∈ arrays i) ∧
      ((∀ i, (arrays i).Nodup) → rows.Nodup) := by
  have key : ∃ rows, combinations arrays = .ok rows ∧
      rows.length = ∏ i, (arrays i).length ∧
      (∀ r, rows.count r = ∏ i, (arrays i).count (r i)) := by
    match d, hd, arrays with
    | 1, _, arrays => exact ⟨_, rfl, meshIJ_length _, meshIJ_count _⟩
    | k + 2, _, arrays =>
      refine ⟨_, rfl, ?_, fun r => ?_⟩
      · rw [List.length_map, meshIJ_length]
        exact (axisEquiv k).prod_comp fun i => (arrays i).length
      · have inj : Function.Injective (fun (q : Fin (k + 2) → α) (j : Fin (k + 2)) => q (axisPos j)) := by
          intro a b hab
          funext i
          have := congrFun hab (axisOrder i)
          have hi : axisPos (axisOrder i) = i := (axisEquiv k).left_inv i
          simpa [hi] using this
        have hr : r = (fun (q : Fin (k + 2) → α) (j : Fin (k + 2)) => q (axisPos j))
            (fun i => r (axisOrder i)) := by
          funext j
          have : axisOrder (axisPos j) = j := (axisEquiv k).right_inv j
          simp [this]
        conv_lhs => rw [hr]
        have h1 := List.count_map_of_injective (meshIJ fun i => arrays (axisOrder i)) _ inj
          (fun i => r (axisOrder i))
        rw [h1, meshIJ_count]
        exact (axisEquiv k).prod_comp fun i => (arrays i).count (r i)
  obtain ⟨rows, h, hl, hc⟩ := key
  refine ⟨rows, h, hl, hc, fun r => ?_, fun hn => ?_⟩
  · rw [← List.count_pos_iff, hc, Nat.pos_iff_ne_zero, Finset.prod_ne_zero_iff]
    simp only [Finset.mem_univ, true_implies, ← Nat.pos_iff_ne_zero, List.count_pos_iff]
  · rw [List.nodup_iff_count_le_one]
    intro r
    rw [hc]
    exact Finset.prod_le_one' fun i _ => List.nodup_iff_count_le_one.mp (hn i) _

/-- **C39.** Every row of `linearly_spaced_combinations` lies within the bounds, the number of rows is the
product of the numbers of samples, and with at least two samples per dimension every corner of
the box is a row. -/
theorem C39_linearly_spaced {d : ℕ} (hd : 0 < d) (bounds : Fin d → K × K)
    (hb : ∀ i, (bounds i).1 ≤ (bounds i).2) (num : Fin d → ℕ) (np : NumPoints)
    (hnp : np.broadcast d = .ok fun i => (num i : ℤ)) :
    ∃ rows, linearlySpacedCombinations bounds np = .ok rows ∧
      rows.length = ∏ i, num i ∧
      (∀ r ∈ rows, ∀ i, (bounds i).1 ≤ r i ∧ r i ≤ (bounds i).2) ∧
      ((∀ i, 2 ≤ num i) → ∀ x, Spec.IsCorner bounds x → x ∈ rows) := by
  obtain ⟨rows, h, hl, _, hm, _⟩ :=
    C39_combinations hd (fun i => linspace (bounds i).1 (bounds i).2 (num i))
  refine ⟨rows, ?_, by simpa [linspace_length] using hl, ?_, ?_⟩
  · unfold linearlySpacedCombinations
    rw [hnp]
    have : ¬ ∃ i, ((num i : ℕ) : ℤ) < 0 := by
      rintro ⟨i, hi⟩
      omega
    simp only [bind, Except.bind, this, if_false, Int.toNat_natCast]
    exact h
  · intro r hr i
    have := (hm r).mp hr i
    rw [linspace_eq] at this
    obtain ⟨k, hk, hk'⟩ := List.mem_map.mp this
    have hkn : k < num i := List.mem_range.mp hk
    have hle := hb i
    rw [← hk']
    rcases Nat.lt_or_ge 1 (num i) with h1 | h1
    · have h1' : (0 : K) < (num i : K) - 1 := by
        have : (1 : K) < num i := by exact_mod_cast h1
        linarith
      have hk1 : (k : K) ≤ (num i : K) - 1 := by
        have : (k : K) + 1 ≤ num i := by exact_mod_cast hkn
        linarith
      have hnn : 0 ≤ ((bounds i).2 - (bounds i).1) / ((num i : K) - 1) :=
        div_nonneg (by linarith) h1'.le
      constructor
      · have := mul_nonneg (Nat.cast_nonneg (α := K) k) hnn
        linarith
      · have := mul_le_mul_of_nonneg_right hk1 hnn
        rw [mul_div_cancel₀ _ h1'.ne'] at this
        linarith
    · have : k = 0 := by omega
      subst this
      simpa using hle
  · intro h2 x hx
    rw [hm]
    intro i
    have hi := h2 i
    have h1' : ((num i : K) - 1) ≠ 0 := by
      have : (1 : K) < num i := by exact_mod_cast hi
      exact ne_of_gt (by linarith)
    rw [linspace_eq, List.mem_map]
    rcases hx i with hxi | hxi
    · exact ⟨0, List.mem_range.mpr (by omega), by simp [hxi]⟩
    · refine ⟨num i - 1, List.mem_range.mpr (by omega), ?_⟩
      rw [Nat.cast_sub (by omega), Nat.cast_one, mul_div_cancel₀ _ h1', hxi]
      ring

/-- The order for three arrays: the third is the slowest, then the first, then the second. -/
example : (match combinations ![[1, 2], [3, 4], [5, 6]] with
    | .ok rows => decide (rows = [![1, 3, 5], ![1, 4, 5], ![2, 3, 5], ![2, 4, 5], ![1, 3, 6],
        ![1, 4, 6], ![2, 3, 6], ![2, 4, 6]])
    | .error _ => false) = true := by decide +kernel

/-- A concrete call. -/
example : (match linearlySpacedCombinations (K := ℚ) ![(0, 1), (2, 4)] (.seq [2, 3]) with
    | .ok rows => decide (rows = [![0, 2], ![0, 3], ![0, 4], ![1, 2], ![1, 3], ![1, 4]])
    | .error _ => false) = true := by decide +kernel

end SafeLearning
