import Verif.Props.NonFinite
import Verif.Props.Grid
set_option autoImplicit false

set_option linter.unusedSectionVars false

/-!
# C112: states with NaN or infinite entries on grids and triangulations
-/

namespace SafeLearning.FltGrid

open Flt Spec

variable {K : Type} [Field K] [LinearOrder K] [IsStrictOrderedRing K] {d : ℕ} (A : Arith K)
  (g : GridWorld K d)

theorem add_nan_left (b : Flt K) : add A nan b = nan := by cases b <;> rfl
theorem add_nan_right (a : Flt K) : add A a nan = nan := by cases a <;> rfl
theorem mul_nan_left (b : Flt K) : mul A nan b = nan := by cases b <;> rfl
theorem mul_nan_right (a : Flt K) : mul A a nan = nan := by cases a <;> rfl

theorem foldl_nan (l : List (Flt K)) : l.foldl (add A) nan = nan := by
  induction l with
  | nil => rfl
  | cons a l ih => rw [List.foldl_cons, add_nan_left]; exact ih

theorem sum_nan {l : List (Flt K)} (h : nan ∈ l) : sum A l = nan := by
  unfold sum
  generalize (fin 0 : Flt K) = z
  induction l generalizing z with
  | nil => cases h
  | cons a l ih =>
    rw [List.foldl_cons]
    rcases List.mem_cons.mp h with h | h
    · rw [← h, add_nan_right]; exact foldl_nan A l
    · exact ih h _

/-- **C112**: the index of a state with a NaN entry is never computed: `state_to_index` raises
`ValueError`, and so does `is_safe`, whatever the safe set. -/
theorem C112_nan_raises [FloorRing K] (x : Fin d → Flt K) (i : Fin d) (hi : x i = nan)
    (safeSet : ℕ → Bool) :
    stateToIndex A g x = .error .valueError ∧ isSafe A g safeSet x = .error .valueError := by
  have h : stateToIndex A g x = .error .valueError := by
    unfold stateToIndex ravelMultiIndex
    rw [if_neg]
    intro hall
    have := (hall i).1
    unfold stateToIjk at this
    rw [hi] at this
    have e : mul A (sub A (clip (nan : Flt K) (g.lo i) (g.hi i)) (fin (g.lo i)))
        (fin (1 / g.unit i)) = nan := by
      unfold sub clip; rw [add_nan_left, mul_nan_left]
    rw [e] at this
    simp [toInt32] at this
  refine ⟨h, ?_⟩
  unfold isSafe
  rw [h]
  rfl

/-- The entry of the grid's border that an infinite entry is moved to; numbers stay. -/
def _root_.Spec.toBorder (lo hi : K) : Flt K → K
  | .nan => lo
  | .ninf => lo
  | .fin x => x
  | .pinf => hi

/-- **C112**: without rounding, infinite entries are looked up at the border of the grid: the index is
that of the state with these entries replaced by the limits. -/
theorem C112_infinite_is_border [FloorRing K] (hA : ∀ x, A.rnd x = fin x)
    (hlo : ∀ i, g.lo i ≤ g.hi i) (x : Fin d → Flt K) (hx : ∀ i, x i ≠ nan) :
    stateToIndex A g x =
      g.stateToIndex (List.ofFn fun i => Spec.toBorder (g.lo i) (g.hi i) (x i)) := by
  have hc : GridWorld.checkDimensions (d := d)
      (List.ofFn fun i => Spec.toBorder (g.lo i) (g.hi i) (x i)) =
      .ok fun i => Spec.toBorder (g.lo i) (g.hi i) (x i) := by
    unfold GridWorld.checkDimensions
    rw [dif_pos (by simp)]
    simp
  unfold GridWorld.stateToIndex
  rw [hc]
  simp only [bind, Except.bind]
  unfold stateToIndex
  congr 1
  funext i
  unfold stateToIjk GridWorld.stateToIjk
  have hfin : ∀ y : K, toInt32 (mul A (sub A (fin y) (fin (g.lo i))) (fin (1 / g.unit i))) =
      rint ((y - g.lo i) * (1 / g.unit i)) := by
    intro y
    simp only [sub, neg, add, mul, hA, toInt32]
    rw [sub_eq_add_neg]
  cases hxi : x i with
  | nan => exact absurd hxi (hx i)
  | ninf =>
    simp only [clip, hxi, Spec.toBorder, hfin]
    rw [SafeLearning.clip, max_self]
  | fin y => simp only [clip, hxi, Spec.toBorder, hfin]
  | pinf =>
    simp only [clip, hxi, Spec.toBorder, hfin]
    rw [SafeLearning.clip, max_eq_left (hlo i), min_self]

/-- **C112**: the value of a triangulation at a point with a NaN entry is NaN, in whichever simplex the
point is looked up, with or without projection. -/
theorem C112_triangulation_nan (project : Bool) (origin : Fin d → Flt K)
    (hyper : Fin d → Fin d → Flt K) (params : List (Flt K)) (hp : params.length = d + 1)
    (x : Fin d → Flt K) (i : Fin d) (hi : x i = nan) :
    evaluate A g project origin hyper params x = nan := by
  have hw : (weights A g project origin hyper x).length = d + 1 := by
    unfold weights; simp
  have hall : ∀ w ∈ weights A g project origin hyper x, w = nan := by
    have hx : ∀ k, sum A (List.ofFn fun j =>
        mul A (sub A ((if project then fun i => clip (x i) (g.lo i) (g.hi i) else x) j) (origin j))
          (hyper j k)) = nan := by
      intro k
      apply sum_nan
      rw [List.mem_ofFn]
      refine ⟨i, ?_⟩
      have : (if project then fun i => clip (x i) (g.lo i) (g.hi i) else x) i = nan := by
        split_ifs
        · simp only [hi, clip]
        · exact hi
      rw [this]
      unfold sub
      rw [add_nan_left, mul_nan_left]
    intro w hw
    unfold weights at hw
    simp only [List.mem_cons] at hw
    rcases hw with rfl | hw
    · rw [sum_nan]
      · unfold sub neg; exact add_nan_right A _
      · rw [List.mem_ofFn]; exact ⟨i, hx i⟩
    · obtain ⟨k, rfl⟩ := List.mem_ofFn.mp hw
      exact hx k
  unfold evaluate
  apply sum_nan
  cases hwl : weights A g project origin hyper x with
  | nil => rw [hwl] at hw; simp at hw
  | cons w l =>
    cases params with
    | nil => simp at hp
    | cons v vs =>
      have := hall w (by rw [hwl]; simp)
      rw [this]
      simp [mul_nan_left]

/-- **C112**, rectangles: an infinite entry is looked up at the border of the grid and NaN at the upper one; for finite states the
rectangle is that of exact numbers. -/
theorem C112_rectangle (h : g.WF) (x : Fin d → Flt K) :
    stateToRectangle g x =
      g.stateToRectangle (fun i => if x i = nan then g.hi i else Spec.toBorder (g.lo i) (g.hi i) (x i)) := by
  unfold stateToRectangle GridWorld.stateToRectangle
  congr 1
  funext i
  unfold GridWorld.stateToRectIjk
  have h2 := h.two_le i
  have hup : SafeLearning.digitize (g.hi i) (g.discretePoints i) = g.num i := by
    refine le_antisymm (GridWorld.digitize_le _ _) ?_
    have := (h.lt_digitize (g.hi i) i (g.num i - 1) (by omega)).mpr (by
      have h3 : ((g.num i : K) - 1) ≠ 0 := by
        have : (2 : K) ≤ g.num i := by exact_mod_cast h2
        intro hc
        linarith
      rw [Nat.cast_sub (by omega), GridWorld.unit, Nat.cast_one, mul_div_cancel₀ _ h3]
      linarith)
    omega
  have hlen : (g.discretePoints i).length = g.num i := linspace_length _ _ _
  have hlow : SafeLearning.clip ((0 : ℤ) - 1) 0 ((g.num i : ℤ) - 2) =
      SafeLearning.clip ((SafeLearning.digitize (g.lo i) (g.discretePoints i) : ℤ) - 1) 0 ((g.num i : ℤ) - 2) := by
    have h1 := (h.lt_digitize (g.lo i) i 0 (by omega)).mpr (by simp)
    have h3 := mt (h.lt_digitize (g.lo i) i 1 (by omega)).mp (by
      have := h.unit_pos i
      push_cast
      linarith)
    have : SafeLearning.digitize (g.lo i) (g.discretePoints i) = 1 := by omega
    rw [this]
    unfold SafeLearning.clip
    omega
  cases hxi : x i with
  | nan => simp only [hxi, digitize, if_true, hlen, hup]
  | ninf => simpa [hxi, digitize, Spec.toBorder] using hlow
  | fin y => simp [hxi, digitize, Spec.toBorder]
  | pinf => simp [hxi, digitize, Spec.toBorder, hlen, hup]

/-- `-inf`, a number and `inf` on a grid with four cells. -/
example : (stateToRectangle (K := ℚ) ⟨fun _ => 0, fun _ => 4, fun _ => 5⟩ (fun _ : Fin 1 => ninf) = .ok 0) ∧
    (stateToRectangle (K := ℚ) ⟨fun _ => 0, fun _ => 4, fun _ => 5⟩ (fun _ : Fin 1 => fin (3 / 2)) = .ok 1) ∧
    stateToRectangle (K := ℚ) ⟨fun _ => 0, fun _ => 4, fun _ => 5⟩ (fun _ : Fin 1 => pinf) = .ok 3 := by
  decide +kernel

/-- **C112**, what is missing: `state_to_rectangle` does not notice NaN. It returns a rectangle, the
last one in that dimension. -/
theorem C112_rectangle_refuted : ¬ ∀ (g : GridWorld ℚ 1) (x : Fin 1 → Flt ℚ), x 0 = nan →
    ∃ e, stateToRectangle g x = .error e := by
  intro h
  obtain ⟨e, he⟩ := h ⟨fun _ => 0, fun _ => 4, fun _ => 5⟩ (fun _ => nan) rfl
  have : stateToRectangle (K := ℚ) ⟨fun _ => 0, fun _ => 4, fun _ => 5⟩ (fun _ : Fin 1 => nan) =
      .ok 3 := by decide +kernel
  rw [this] at he
  cases he

/-! ## Concrete cases -/

/-- The grid `0, 1, 2, 3, 4`. -/
def fiveGrid : GridWorld ℚ 1 := ⟨fun _ => 0, fun _ => 4, fun _ => 5⟩

/-- Arithmetic without rounding. -/
def exactArith : Arith ℚ := ⟨fin, fun _ => pinf, fun _ => 0⟩

example : stateToIndex exactArith fiveGrid (fun _ => pinf) = .ok 4 ∧
    stateToIndex exactArith fiveGrid (fun _ => ninf) = .ok 0 ∧
    stateToIndex exactArith fiveGrid (fun _ => fin (7 / 3)) = .ok 2 ∧
    stateToIndex exactArith fiveGrid (fun _ => nan) = .error .valueError := by decide +kernel

example : stateToIndex exactArith fiveGrid (fun _ => pinf) =
    fiveGrid.stateToIndex (List.ofFn fun _ : Fin 1 => 4) :=
  C112_infinite_is_border exactArith fiveGrid (fun _ => rfl) (fun _ => by norm_num [fiveGrid])
    (fun _ => pinf) (by simp)

example : evaluate exactArith fiveGrid true (fun _ => fin 2) (fun _ _ => fin 1) [fin 5, fin 7]
    (fun _ => fin (5 / 2)) = fin 6 ∧
    evaluate exactArith fiveGrid true (fun _ => fin 2) (fun _ _ => fin 1) [fin 0, fin 0]
    (fun _ => nan) = nan := by decide +kernel

end SafeLearning.FltGrid
