import Verif.Model.ScipyDelaunay
import Verif.Props.Grid
import Verif.Props.Combinations
set_option autoImplicit false

/-!
# Property C132: the points of `ScipyDelaunay`
-/

namespace SafeLearning

set_option linter.unusedSectionVars false

variable {K : Type} [Field K] [LinearOrder K] [IsStrictOrderedRing K]

/-- A tuple with its first two entries swapped. -/
def _root_.Spec.swapFirst {α : Type} {k : ℕ} (x : Fin (k + 2) → α) : Fin (k + 2) → α :=
  fun i => if i.1 = 0 then x 1 else if i.1 = 1 then x 0 else x i

open Spec

theorem swap_val {k : ℕ} {α : Type} (x : Fin (k + 2) → α) (i : Fin (k + 2)) : x (Equiv.swap 0 1 i) = swapFirst x i := by
  unfold swapFirst
  by_cases h0 : i = 0
  · subst h0; simp
  by_cases h1 : i = 1
  · subst h1; simp
  have h0' : i.1 ≠ 0 := fun h => h0 (Fin.ext h)
  have h1' : i.1 ≠ 1 := fun h => h1 (Fin.ext h)
  rw [Equiv.swap_apply_of_ne_of_ne h0 h1, if_neg h0', if_neg h1']

theorem swapFirst_swapFirst {α : Type} {k : ℕ} (x : Fin (k + 2) → α) : swapFirst (swapFirst x) = x := by
  funext i
  rw [← swap_val, ← swap_val, Equiv.swap_apply_self]

/-- The grid with the first two axes swapped. -/
def swapGrid {k : ℕ} (g : GridWorld K (k + 2)) : GridWorld K (k + 2) := ⟨swapFirst g.lo, swapFirst g.hi, swapFirst g.num⟩

theorem scipyPoints_eq {k : ℕ} (g : GridWorld K (k + 2)) :
    scipyPoints (List.ofFn fun i => (g.lo i, g.hi i)) (.seq (List.ofFn fun i => (g.num i : ℤ))) =
      .ok ((swapGrid g).allPoints.map fun r => List.ofFn (swapFirst r)) := by
  have hz : (List.ofFn fun i => (g.lo i, g.hi i)).zip (List.ofFn fun i => (g.num i : ℤ)) =
      List.ofFn fun i => ((g.lo i, g.hi i), (g.num i : ℤ)) := by
    rw [List.ofFn_eq_map, List.ofFn_eq_map, List.ofFn_eq_map, List.zip_map', List.map_congr_left]
    exact fun _ _ => rfl
  unfold scipyPoints
  simp only [hz]
  rw [if_neg]
  · rw [List.length_ofFn]
    simp only
    congr 1
    unfold meshXY
    rw [List.map_map]
    have : (meshIJ fun i : Fin (k + 2) => scipyAxis
        (List.ofFn fun i => ((g.lo i, g.hi i), (g.num i : ℤ)))[(Equiv.swap (0 : Fin (k + 2)) 1 i).1]?) = (swapGrid g).allPoints := by
      unfold GridWorld.allPoints
      congr 1
      funext i
      rw [List.getElem?_ofFn, dif_pos (Equiv.swap (0 : Fin (k + 2)) 1 i).2]
      simp only [scipyAxis, Int.toNat_natCast, Fin.eta]
      unfold GridWorld.discretePoints swapGrid
      simp only [swap_val]
    rw [this]
    apply List.map_congr_left
    intro r _
    simp only [Function.comp_apply]
    congr 1
    funext j
    exact swap_val r j
  · rintro ⟨p, hp, hn⟩
    obtain ⟨i, rfl⟩ := List.mem_ofFn.mp hp
    simp at hn
    omega

/-- **C132.** `ScipyDelaunay` of the limits and numbers of points of a grid (at least two dimensions) has exactly the grid points as points, each of them once. Point number `n` is the grid
point whose number in the grid with the first two axes swapped is `n`. -/
theorem C132_points {k : ℕ} (g : GridWorld K (k + 2)) (h2 : ∀ i, 2 ≤ g.num i) (hlt : ∀ i, g.lo i < g.hi i) :
    ∃ points, scipyPoints (List.ofFn fun i => (g.lo i, g.hi i)) (.seq (List.ofFn fun i => (g.num i : ℤ))) = .ok points ∧
      points.Perm (g.allPoints.map List.ofFn) ∧ points.Nodup ∧ points.length = ∏ i, g.num i ∧
      ∀ n (x : Fin (k + 2) → K), points[n]? = some (List.ofFn x) ↔
        IsGridPoint (swapFirst g.lo) (swapFirst g.hi) (swapFirst g.num) n (swapFirst x) := by
  refine ⟨_, scipyPoints_eq g, ?_⟩
  have hs2 : ∀ i, 2 ≤ (swapGrid g).num i := fun i => by
    change 2 ≤ swapFirst g.num i
    rw [← swap_val]; exact h2 _
  have hslt : ∀ i, (swapGrid g).lo i < (swapGrid g).hi i := fun i => by
    change swapFirst g.lo i < swapFirst g.hi i
    rw [← swap_val, ← swap_val]; exact hlt _
  have hinj : Function.Injective fun r : Fin (k + 2) → K => List.ofFn (swapFirst r) := by
    intro a b hab
    have := List.ofFn_injective hab
    rw [← swapFirst_swapFirst a, this, swapFirst_swapFirst]
  have hnd : ((swapGrid g).allPoints.map fun r => List.ofFn (swapFirst r)).Nodup :=
    (GridWorld.C03_all_points_nodup _ hs2 hslt).map hinj
  have hmem : ∀ x : Fin (k + 2) → K, x ∈ (swapGrid g).allPoints ↔ swapFirst x ∈ g.allPoints := by
    intro x
    unfold GridWorld.allPoints
    rw [mem_meshIJ, mem_meshIJ]
    constructor
    · intro h i
      have := h (Equiv.swap 0 1 i)
      unfold GridWorld.discretePoints swapGrid at this
      simp only [← swap_val, Equiv.swap_apply_self] at this
      rw [← swap_val]
      exact this
    · intro h i
      have := h (Equiv.swap 0 1 i)
      rw [← swap_val, Equiv.swap_apply_self] at this
      unfold GridWorld.discretePoints swapGrid
      simp only [← swap_val]
      exact this
  have hlen : (swapGrid g).allPoints.length = ∏ i, g.num i := by
    rw [(GridWorld.C03_all_points_enumerates (swapGrid g)).1]
    change ∏ i, swapFirst g.num i = _
    rw [← Equiv.prod_comp (Equiv.swap (0 : Fin (k + 2)) 1)]
    exact Finset.prod_congr rfl fun i _ => by rw [← swap_val, Equiv.swap_apply_self]
  refine ⟨?_, hnd, by rw [List.length_map, hlen], ?_⟩
  · rw [List.perm_ext_iff_of_nodup hnd ((GridWorld.C03_all_points_nodup g h2 hlt).map List.ofFn_injective)]
    intro r
    simp only [List.mem_map]
    constructor
    · rintro ⟨x, hx, rfl⟩
      exact ⟨swapFirst x, (hmem x).mp hx, rfl⟩
    · rintro ⟨x, hx, rfl⟩
      exact ⟨swapFirst x, (hmem _).mpr (by rw [swapFirst_swapFirst]; exact hx), by rw [swapFirst_swapFirst]⟩
  · intro n x
    have henum := (GridWorld.C03_all_points_enumerates (swapGrid g)).2
    rw [List.getElem?_map]
    constructor
    · intro h
      obtain ⟨r, hr, hrx⟩ := Option.map_eq_some_iff.mp h
      obtain ⟨hn, hr'⟩ := List.getElem?_eq_some_iff.mp hr
      have : swapFirst r = x := List.ofFn_injective hrx
      rw [← this, swapFirst_swapFirst, ← hr']
      exact (henum n hn).2
    · intro h
      obtain ⟨ijk, h1, h3, h4⟩ := h
      have hn : n < (swapGrid g).allPoints.length := by
        rw [(GridWorld.C03_all_points_enumerates (swapGrid g)).1, h3]
        have := ravel_lt _ _ h1
        rw [ravel_eq_sum] at this
        exact this
      obtain ⟨ijk', h1', h3', h4'⟩ := (henum n hn).2
      have hij : ijk = ijk' := by
        have h5 := h3.symm.trans h3'
        unfold rowMajor at h5
        have h6 : ravel (swapGrid g).num ijk = ravel (swapGrid g).num ijk' := by
          rw [ravel_eq_sum, ravel_eq_sum]; exact h5
        rw [← unravel_ravel (swapGrid g).num ijk h1, h6, unravel_ravel _ _ h1']
      rw [List.getElem?_eq_getElem hn, Option.map_some]
      congr 2
      rw [← swapFirst_swapFirst x]
      congr 1
      funext i
      rw [h4 i, hij]
      exact h4' i

/-- **C132 (the warning of the docstring).** The numbers of the points
are different from those of the grid: here point number 1 of the triangulation is the grid point number 3. -/
theorem C132_numbers_differ :
    ∃ (g : GridWorld ℚ 2) (points : List (List ℚ)),
      scipyPoints (List.ofFn fun i => (g.lo i, g.hi i)) (.seq (List.ofFn fun i => (g.num i : ℤ))) = .ok points ∧
      points[1]? = (g.allPoints.map List.ofFn)[3]? ∧ points[1]? ≠ (g.allPoints.map List.ofFn)[1]? := by
  refine ⟨⟨![0, 0], ![1, 2], ![2, 3]⟩, _, scipyPoints_eq _, ?_⟩
  decide +kernel

/-- **C132 (arguments).** A single number of points and points in one dimension are rejected, unlike for `GridWorld`. -/
theorem C132_rejected (limits : List (K × K)) (n : ℤ) (lo hi : K) :
    scipyPoints limits (.scalar n) = .error .typeError ∧
    scipyPoints [(lo, hi)] (.seq [n]) = .error .valueError := by
  refine ⟨rfl, ?_⟩
  unfold scipyPoints
  simp only
  split_ifs <;> rfl

/-- **C132 (missing numbers), refuted.** If there are more limits than numbers of points, `GridWorld` raises `ValueError` (for at least two numbers) but `ScipyDelaunay` silently ignores the additional
limits: its points have fewer dimensions. -/
theorem C132_missing_numbers_refuted {k : ℕ} (g : GridWorld K (k + 2)) (extra : List (K × K)) (he : extra ≠ []) :
    (∀ lo hi : Fin (k + 2 + extra.length) → K,
      GridWorld.new lo hi (.seq (List.ofFn fun i => (g.num i : ℤ))) = .error .valueError) ∧
    ∃ points, scipyPoints ((List.ofFn fun i => (g.lo i, g.hi i)) ++ extra) (.seq (List.ofFn fun i => (g.num i : ℤ))) = .ok points ∧
      ∀ p ∈ points, p.length = k + 2 := by
  constructor
  · intro lo hi
    have hl : extra.length ≠ 0 := by simpa using he
    unfold GridWorld.new NumPoints.broadcast
    split
    · rename_i h; cases h
    · rename_i h
      have := congrArg (fun x => match x with | NumPoints.seq l => l.length | .scalar _ => 0) h
      simp at this
    · rename_i ns _ h
      have := congrArg (fun x => match x with | NumPoints.seq l => l.length | .scalar _ => 0) h
      simp only [List.length_ofFn] at this
      rw [dif_neg (by omega)]
      rfl
  · have : scipyPoints ((List.ofFn fun i => (g.lo i, g.hi i)) ++ extra) (.seq (List.ofFn fun i => (g.num i : ℤ))) =
        scipyPoints (List.ofFn fun i => (g.lo i, g.hi i)) (.seq (List.ofFn fun i => (g.num i : ℤ))) := by
      have hz : ((List.ofFn fun i => (g.lo i, g.hi i)) ++ extra).zip (List.ofFn fun i => (g.num i : ℤ)) =
          (List.ofFn fun i => (g.lo i, g.hi i)).zip (List.ofFn fun i => (g.num i : ℤ)) := by
        have := List.zip_append (l₁ := List.ofFn fun i => (g.lo i, g.hi i)) (r₁ := extra)
          (l₂ := List.ofFn fun i => (g.num i : ℤ)) (r₂ := []) (by simp)
        simpa using this
      unfold scipyPoints
      simp only [hz]
    rw [this, scipyPoints_eq]
    refine ⟨_, rfl, fun p hp => ?_⟩
    obtain ⟨r, -, rfl⟩ := List.mem_map.mp hp
    simp

/-- A concrete triangulation. -/
example : ∃ points, scipyPoints [((0 : ℚ), 1), (0, 2)] (.seq [2, 3]) = .ok points ∧
    points = [[0, 0], [1, 0], [0, 1], [1, 1], [0, 2], [1, 2]] :=
  ⟨_, scipyPoints_eq ⟨![0, 0], ![1, 2], ![2, 3]⟩, by decide +kernel⟩

end SafeLearning
