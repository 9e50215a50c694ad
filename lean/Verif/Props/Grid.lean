import Verif.Lemmas.Grid
import Verif.Spec.Grid
import Mathlib.Tactic.FinCases
set_option autoImplicit false

/-!
# Properties C01 - C07: the regular grid

`GridWorld.WF` is spelled out in the statements: at least two points in each dimension
(enforced by the constructor, C06) and lower limit below upper limit.
-/

set_option linter.unusedSectionVars false

namespace SafeLearning

variable {K : Type} [Field K] [LinearOrder K] [IsStrictOrderedRing K]

namespace GridWorld

variable {d : ℕ} (g : GridWorld K d)

/-- A 2-dimensional grid with different limits and numbers of points, used in the examples. -/
def exampleGrid : GridWorld ℚ 2 where
  lo := ![-1, 2]
  hi := ![1, 5]
  num := ![3, 4]

theorem exampleGrid_two_le : ∀ i, 2 ≤ exampleGrid.num i := by
  intro i; fin_cases i <;> simp [exampleGrid]

theorem exampleGrid_lt : ∀ i, exampleGrid.lo i < exampleGrid.hi i := by
  intro i; fin_cases i <;> simp [exampleGrid]; norm_num

theorem ijkToState_eq_axisPoint (ijk : Fin d → ℕ) (i : Fin d) :
    g.ijkToState ijk i = Spec.axisPoint (g.lo i) (g.hi i) (g.num i) (ijk i) := by
  unfold ijkToState unit Spec.axisPoint; ring

theorem isGridPoint_of_lt (k : ℕ) (hk : k < ∏ i, g.num i) :
    Spec.IsGridPoint g.lo g.hi g.num k (g.ijkToState (unravel g.num k)) :=
  ⟨unravel g.num k, unravel_lt _ _ hk,
    by rw [Spec.rowMajor, ← ravel_eq_sum, ravel_unravel _ _ hk],
    fun i => g.ijkToState_eq_axisPoint _ i⟩

theorem clipBox_eq_clip (hlt : ∀ i, g.lo i < g.hi i) (x : Fin d → K) (i : Fin d) :
    Spec.clipBox g.lo g.hi x i = clip (x i) (g.lo i) (g.hi i) := by
  unfold Spec.clipBox
  split_ifs with h1 h2
  · exact (clip_of_le_lo (hlt i).le h1.le).symm
  · exact (clip_of_hi_le h2.le).symm
  · exact (clip_of_mem (not_lt.mp h1) (not_lt.mp h2)).symm

/-! ## C01 -/

/-- **C01** `state_to_index(index_to_state(k)) = k` for every valid index. -/
theorem C01_index_roundtrip [FloorRing K] (h2 : ∀ i, 2 ≤ g.num i) (hlt : ∀ i, g.lo i < g.hi i)
    (k : ℕ) (hk : k < ∏ i, g.num i) :
    ∃ x, g.indexToState k = .ok x ∧ Spec.IsGridPoint g.lo g.hi g.num k x ∧
      g.stateToIndex (List.ofFn x) = .ok k := by
  have h : g.WF := ⟨h2, hlt⟩
  refine ⟨_, g.indexToState_ok k hk, g.isGridPoint_of_lt k hk, ?_⟩
  rw [stateToIndex_ofFn]
  have : g.stateToIjk (g.ijkToState (unravel g.num k)) = fun i => (unravel g.num k i : ℤ) :=
    funext fun i => h.stateToIjk_ijkToState _ (unravel_lt _ _ hk) i
  rw [this, ravelMultiIndex_ok _ _ (unravel_lt _ _ hk), ravel_unravel _ _ hk]

/-- **C01**, robust form: every state closer than half a cell, in each coordinate, to grid point
`k` is mapped to `k` (so a rounding error below half a cell does not change the index). -/
theorem C01_index_roundtrip_robust [FloorRing K] (h2 : ∀ i, 2 ≤ g.num i)
    (hlt : ∀ i, g.lo i < g.hi i) (k : ℕ) (p x : Fin d → K)
    (hp : Spec.IsGridPoint g.lo g.hi g.num k p)
    (hx : ∀ i, |x i - p i| < (g.hi i - g.lo i) / ((g.num i : K) - 1) / 2) :
    g.stateToIndex (List.ofFn x) = .ok k := by
  have h : g.WF := ⟨h2, hlt⟩
  obtain ⟨ijk, hijk, rfl, hpe⟩ := hp
  rw [stateToIndex_ofFn]
  have : g.stateToIjk x = fun i => (ijk i : ℤ) := by
    funext i
    have hu := h.unit_pos i
    have hx := hx i
    have hpe := hpe i
    rw [← g.ijkToState_eq_axisPoint] at hpe
    -- clipping moves towards the grid point
    have hpmem : g.lo i ≤ p i ∧ p i ≤ g.hi i := by
      rw [hpe]; unfold ijkToState
      have h0 : (0 : K) ≤ ijk i := by positivity
      have h1 : (ijk i : K) ≤ (g.num i : K) - 1 := by
        have : (ijk i : K) + 1 ≤ g.num i := by exact_mod_cast hijk i
        linarith
      have h3 := h.unit_mul i
      constructor
      · nlinarith
      · nlinarith
    have hcl : |clip (x i) (g.lo i) (g.hi i) - p i| ≤ |x i - p i| := by
      rcases lt_or_ge (x i) (g.lo i) with hc | hc
      · rw [clip_of_le_lo (hlt i).le hc.le, abs_of_nonpos (by linarith), abs_of_neg (by linarith)]
        linarith
      · rcases lt_or_ge (g.hi i) (x i) with hc' | hc'
        · rw [clip_of_hi_le hc'.le, abs_of_nonneg (by linarith), abs_of_pos (by linarith)]
          linarith
        · rw [clip_of_mem hc hc']
    unfold stateToIjk
    apply rint_eq_of_abs_lt
    have : (clip (x i) (g.lo i) (g.hi i) - g.lo i) * (1 / g.unit i) - ((ijk i : ℤ) : K)
        = (clip (x i) (g.lo i) (g.hi i) - p i) / g.unit i := by
      rw [hpe]; unfold ijkToState; push_cast; field_simp; ring
    rw [this, abs_div, abs_of_pos hu, div_lt_iff₀ hu]
    have hx' : |x i - p i| < g.unit i / 2 := hx
    linarith
  rw [this, ravelMultiIndex_ok _ _ hijk, Spec.rowMajor, ← ravel_eq_sum]

example : ∃ x, exampleGrid.indexToState 7 = .ok x ∧
    Spec.IsGridPoint exampleGrid.lo exampleGrid.hi exampleGrid.num 7 x ∧
    exampleGrid.stateToIndex (List.ofFn x) = .ok 7 :=
  C01_index_roundtrip exampleGrid exampleGrid_two_le exampleGrid_lt 7 (by
    simp [exampleGrid, Fin.prod_univ_two])

example : exampleGrid.stateToIndex [1/10, 49/10] = .ok 7 := by
  have := C01_index_roundtrip_robust exampleGrid exampleGrid_two_le exampleGrid_lt 7
    ![0, 5] ![1/10, 49/10]
    ⟨![1, 3], by intro i; fin_cases i <;> simp [exampleGrid],
      by simp [Spec.rowMajor, exampleGrid, Fin.sum_univ_two]; decide,
      by intro i; fin_cases i <;> simp [exampleGrid, Spec.axisPoint] <;> norm_num⟩
    (by intro i; fin_cases i <;> simp [exampleGrid] <;> norm_num [abs_lt])
  simpa [List.ofFn_succ] using this

/-! ## C02 -/

/-- **C02** `state_to_index` of any state (inside or outside the limits) is a valid index and the
grid point with this index is, coordinate by coordinate, at least as close to the state as every
grid point; inside the limits it is within half a cell. -/
theorem C02_state_to_index_nearest [FloorRing K] (h2 : ∀ i, 2 ≤ g.num i)
    (hlt : ∀ i, g.lo i < g.hi i) (x : Fin d → K) :
    ∃ k p, g.stateToIndex (List.ofFn x) = .ok k ∧ k < ∏ i, g.num i ∧
      g.indexToState k = .ok p ∧ Spec.IsGridPoint g.lo g.hi g.num k p ∧
      (∀ i j, j < g.num i → |x i - p i| ≤ |x i - Spec.axisPoint (g.lo i) (g.hi i) (g.num i) j|) ∧
      ∀ i, g.lo i ≤ x i → x i ≤ g.hi i →
        |x i - p i| ≤ (g.hi i - g.lo i) / ((g.num i : K) - 1) / 2 := by
  have h : g.WF := ⟨h2, hlt⟩
  set ijk : Fin d → ℕ := fun i => (g.stateToIjk x i).toNat with hijk
  have hmem := fun i => h.stateToIjk_mem x i
  have hlt' : ∀ i, ijk i < g.num i := fun i => by
    have := hmem i; simp only [hijk]; omega
  have hcast : g.stateToIjk x = fun i => (ijk i : ℤ) := by
    funext i; have := hmem i; simp only [hijk]; omega
  have hk : ravel g.num ijk < ∏ i, g.num i := ravel_lt _ _ hlt'
  refine ⟨ravel g.num ijk, g.ijkToState ijk, ?_, hk, ?_, ?_, ?_, ?_⟩
  · rw [stateToIndex_ofFn, hcast, ravelMultiIndex_ok _ _ hlt']
  · rw [g.indexToState_ok _ hk, unravel_ravel _ _ hlt']
  · have := g.isGridPoint_of_lt _ hk
    rwa [unravel_ravel _ _ hlt'] at this
  · intro i j hj
    have hu := h.unit_pos i
    have hum := h.unit_mul i
    have hsc := h.scaled_mem (x i) i
    have hr := rint_abs_le ((clip (x i) (g.lo i) (g.hi i) - g.lo i) * (1 / g.unit i))
    have hri : (rint ((clip (x i) (g.lo i) (g.hi i) - g.lo i) * (1 / g.unit i)) : K) = ijk i := by
      have := congrFun hcast i
      unfold stateToIjk at this
      rw [this]; simp
    rw [hri] at hr
    set y := clip (x i) (g.lo i) (g.hi i) with hy
    set s := (y - g.lo i) * (1 / g.unit i) with hs
    have hys : y = s * g.unit i + g.lo i := by rw [hs]; field_simp; ring
    have hax : Spec.axisPoint (g.lo i) (g.hi i) (g.num i) j = (j : K) * g.unit i + g.lo i := by
      unfold Spec.axisPoint unit; ring
    rw [hax]
    have hj0 : (0 : K) ≤ j := by positivity
    have hj1 : (j : K) ≤ (g.num i : K) - 1 := by
      have : (j : K) + 1 ≤ g.num i := by exact_mod_cast hj
      linarith
    unfold ijkToState
    -- closeness to the clipped point
    have hclose : |s - ijk i| ≤ |s - j| := by
      rcases eq_or_ne j (ijk i) with e | e
      · rw [e]
      · have : (1 : K) ≤ |(j : K) - ijk i| := by
          have : (1 : ℤ) ≤ |(j : ℤ) - ijk i| := Int.one_le_abs (by omega)
          exact_mod_cast this
        have h3 : |(j : K) - ijk i| ≤ |s - ijk i| + |s - j| := by
          have e2 : (j : K) - ijk i = (s - ijk i) - (s - j) := by ring
          rw [e2]; exact abs_sub _ _
        linarith
    rcases lt_or_ge (x i) (g.lo i) with hc | hc
    · have hyl : y = g.lo i := clip_of_le_lo (hlt i).le hc.le
      have hs0 : s = 0 := by rw [hs, hyl]; simp
      rw [hs0] at hr
      have hi0 : ijk i = 0 := by
        by_contra hne
        have : (1 : K) ≤ ijk i := by exact_mod_cast Nat.one_le_iff_ne_zero.mpr hne
        rw [zero_sub, abs_neg, abs_of_nonneg (by linarith)] at hr
        linarith
      rw [hi0]
      have := mul_nonneg hj0 hu.le
      rw [abs_of_nonpos, abs_of_nonpos] <;> simp <;> linarith
    · rcases lt_or_ge (g.hi i) (x i) with hc' | hc'
      · have hyl : y = g.hi i := clip_of_hi_le hc'.le
        have hs0 : s = (g.num i : K) - 1 := by
          rw [hs, hyl, ← hum]; field_simp
        have hi0 : (ijk i : K) = (g.num i : K) - 1 := by
          have h5 : ijk i + 1 = g.num i := by
            by_contra hne
            have : ijk i + 2 ≤ g.num i := by have := hlt' i; omega
            have : (ijk i : K) + 2 ≤ g.num i := by exact_mod_cast this
            rw [hs0, abs_of_nonneg (by linarith)] at hr
            linarith
          have : (ijk i : K) + 1 = g.num i := by exact_mod_cast h5
          linarith
        rw [hi0, hum]
        have := mul_le_mul_of_nonneg_right hj1 hu.le
        rw [hum] at this
        rw [abs_of_nonneg, abs_of_nonneg] <;> linarith
      · have hyl : y = x i := clip_of_mem hc hc'
        rw [← hyl, hys]
        have e1 : s * g.unit i + g.lo i - ((ijk i : K) * g.unit i + g.lo i) = (s - ijk i) * g.unit i := by
          ring
        have e2 : s * g.unit i + g.lo i - ((j : K) * g.unit i + g.lo i) = (s - j) * g.unit i := by
          ring
        rw [e1, e2, abs_mul, abs_mul]
        exact mul_le_mul_of_nonneg_right hclose (abs_nonneg _)
  · intro i hlo hhi
    have hu := h.unit_pos i
    have hr := rint_abs_le ((clip (x i) (g.lo i) (g.hi i) - g.lo i) * (1 / g.unit i))
    have hri : (rint ((clip (x i) (g.lo i) (g.hi i) - g.lo i) * (1 / g.unit i)) : K) = ijk i := by
      have := congrFun hcast i
      unfold stateToIjk at this
      rw [this]; simp
    rw [hri, clip_of_mem hlo hhi] at hr
    have e1 : x i - g.ijkToState ijk i = ((x i - g.lo i) * (1 / g.unit i) - ijk i) * g.unit i := by
      unfold ijkToState; field_simp; ring
    rw [e1, abs_mul, abs_of_pos hu]
    have := mul_le_mul_of_nonneg_right hr hu.le
    change _ ≤ g.unit i / 2
    linarith

example : ∃ k p, exampleGrid.stateToIndex [7, 13/5] = .ok k ∧ k < 12 ∧
    exampleGrid.indexToState k = .ok p := by
  obtain ⟨k, p, h1, h2, h3, -⟩ := C02_state_to_index_nearest exampleGrid exampleGrid_two_le
    exampleGrid_lt ![7, 13/5]
  refine ⟨k, p, by simpa [List.ofFn_succ] using h1, ?_, h3⟩
  simpa [exampleGrid, Fin.prod_univ_two] using h2

/-! ## C03 -/

/-- **C03** `all_points` has `nindex` rows, row `k` is `index_to_state(k)`, which is the grid point
with row-major number `k`. -/
theorem C03_all_points_enumerates :
    g.allPoints.length = ∏ i, g.num i ∧
    ∀ k (hk : k < g.allPoints.length), g.indexToState k = .ok (g.allPoints[k]) ∧
      Spec.IsGridPoint g.lo g.hi g.num k (g.allPoints[k]) := by
  have e : g.allPoints = (List.range (shapeProd g.num)).map fun k => g.ijkToState (unravel g.num k) := by
    unfold allPoints discretePoints
    simp only [linspace_eq]
    rw [meshIJ_eq g.num fun i (k : ℕ) => (k : K) * ((g.hi i - g.lo i) / ((g.num i : K) - 1)) + g.lo i]
    rfl
  refine ⟨by rw [e]; simp [shapeProd], ?_⟩
  intro k hk
  have hk' : k < shapeProd g.num := by rw [e] at hk; simpa using hk
  have e2 : g.allPoints[k] = g.ijkToState (unravel g.num k) := by simp [e]
  rw [e2]
  exact ⟨g.indexToState_ok k hk', g.isGridPoint_of_lt k hk'⟩

/-- **C03** no two rows of `all_points` are equal (lower limits below upper limits). -/
theorem C03_all_points_nodup (h2 : ∀ i, 2 ≤ g.num i) (hlt : ∀ i, g.lo i < g.hi i) :
    g.allPoints.Nodup := by
  have h : g.WF := ⟨h2, hlt⟩
  rw [List.nodup_iff_injective_get]
  intro a b hab
  obtain ⟨hlen, hall⟩ := C03_all_points_enumerates g
  obtain ⟨i1, hi1, hk1, hx1⟩ := (hall a a.2).2
  obtain ⟨i2, hi2, hk2, hx2⟩ := (hall b b.2).2
  have : i1 = i2 := by
    funext i
    have h1 := hx1 i
    have h3 := hx2 i
    simp only [List.get_eq_getElem] at hab
    rw [hab, h3] at h1
    unfold Spec.axisPoint at h1
    have hu : (0 : K) < (g.hi i - g.lo i) / ((g.num i : K) - 1) := h.unit_pos i
    have h4 := mul_right_cancel₀ hu.ne' (add_left_cancel h1)
    exact_mod_cast h4.symm
  apply Fin.ext
  rw [hk1, hk2, this]

example : exampleGrid.allPoints.length = 12 ∧ exampleGrid.allPoints.Nodup :=
  ⟨by rw [(C03_all_points_enumerates exampleGrid).1]; simp [exampleGrid, Fin.prod_univ_two],
   C03_all_points_nodup exampleGrid exampleGrid_two_le exampleGrid_lt⟩

/-! ## C04, C05 -/

theorem nindex_rect_lt (h : g.WF) (ijk : Fin d → ℕ) (hr : ∀ i, ijk i < g.numRect i) (i : Fin d) :
    ijk i < g.num i := by
  have := hr i; have := h.two_le i; unfold numRect at *; omega

/-- **C04** `state_to_rectangle` of any state is a valid rectangle and the state, clipped to the
limits, lies in the closed cell whose bottom-left corner is `rectangle_to_state` of it; the cell is
half-open towards the next cell, except at the upper limit. -/
theorem C04_state_to_rectangle_contains (h2 : ∀ i, 2 ≤ g.num i) (hlt : ∀ i, g.lo i < g.hi i)
    (x : Fin d → K) :
    ∃ r p, g.stateToRectangle x = .ok r ∧ r < ∏ i, (g.num i - 1) ∧ g.rectangleToState r = .ok p ∧
      ∀ i, p i ≤ Spec.clipBox g.lo g.hi x i ∧
        Spec.clipBox g.lo g.hi x i ≤ p i + (g.hi i - g.lo i) / ((g.num i : K) - 1) ∧
        (Spec.clipBox g.lo g.hi x i < p i + (g.hi i - g.lo i) / ((g.num i : K) - 1) ∨
          Spec.clipBox g.lo g.hi x i = g.hi i) := by
  have h : g.WF := ⟨h2, hlt⟩
  set ijk : Fin d → ℕ := fun i => (g.stateToRectIjk x i).toNat with hijk
  have hmem := fun i => h.stateToRectIjk_mem x i
  have hlt' : ∀ i, ijk i < g.numRect i := fun i => by
    have := hmem i; simp only [hijk]; omega
  have hcast : g.stateToRectIjk x = fun i => (ijk i : ℤ) := by
    funext i; have := hmem i; simp only [hijk]; omega
  have hk : ravel g.numRect ijk < shapeProd g.numRect := ravel_lt _ _ hlt'
  refine ⟨ravel g.numRect ijk, g.ijkToState ijk, ?_, hk, ?_, ?_⟩
  · rw [stateToRectangle, hcast, ravelMultiIndex_ok _ _ hlt']
  · rw [rectangleToState, unravelIndex_ok _ _ hk, unravel_ravel _ _ hlt']; rfl
  · intro i
    have := h.stateToRectIjk_spec x i
    simp only at this
    rw [congrFun hcast i] at this
    rw [g.clipBox_eq_clip hlt]
    simpa [ijkToState, unit] using this

/-- **C04** for states inside the limits no clipping is involved. -/
theorem C04_state_to_rectangle_inside (h2 : ∀ i, 2 ≤ g.num i) (hlt : ∀ i, g.lo i < g.hi i)
    (x : Fin d → K) (hx : ∀ i, g.lo i ≤ x i ∧ x i ≤ g.hi i) :
    ∃ r p, g.stateToRectangle x = .ok r ∧ r < ∏ i, (g.num i - 1) ∧ g.rectangleToState r = .ok p ∧
      ∀ i, p i ≤ x i ∧ x i ≤ p i + (g.hi i - g.lo i) / ((g.num i : K) - 1) := by
  obtain ⟨r, p, h3, h4, h5, h6⟩ := C04_state_to_rectangle_contains g h2 hlt x
  refine ⟨r, p, h3, h4, h5, fun i => ?_⟩
  have e : Spec.clipBox g.lo g.hi x i = x i := by
    unfold Spec.clipBox
    rw [if_neg (not_lt.mpr (hx i).1), if_neg (not_lt.mpr (hx i).2)]
  have := h6 i
  rw [e] at this
  exact ⟨this.1, this.2.1⟩

example : ∃ r p, exampleGrid.stateToRectangle ![1/2, 4] = .ok r ∧ r < 6 ∧
    exampleGrid.rectangleToState r = .ok p ∧ p 0 ≤ 1/2 ∧ p 1 ≤ 4 := by
  obtain ⟨r, p, h1, h2, h3, h4⟩ := C04_state_to_rectangle_inside exampleGrid exampleGrid_two_le
    exampleGrid_lt ![1/2, 4]
    (by intro i; fin_cases i <;> simp [exampleGrid] <;> norm_num)
  exact ⟨r, p, h1, by simpa [exampleGrid, Fin.prod_univ_two] using h2, h3, (h4 0).1, (h4 1).1⟩

/-- **C05** for every rectangle: its corner is located in the rectangle itself, and its corner index
is the index of its corner state. -/
theorem C05_rectangle_consistent [FloorRing K] (h2 : ∀ i, 2 ≤ g.num i)
    (hlt : ∀ i, g.lo i < g.hi i) (r : ℕ) (hr : r < ∏ i, (g.num i - 1)) :
    ∃ x k, g.rectangleToState r = .ok x ∧ g.stateToRectangle x = .ok r ∧
      g.rectangleCornerIndex r = .ok k ∧ g.stateToIndex (List.ofFn x) = .ok k ∧
      g.indexToState k = .ok x := by
  have h : g.WF := ⟨h2, hlt⟩
  have hr' : r < shapeProd g.numRect := hr
  have hl := unravel_lt _ _ hr'
  have hl' := g.nindex_rect_lt h _ hl
  refine ⟨g.ijkToState (unravel g.numRect r), ravel g.num (unravel g.numRect r), ?_, ?_, ?_, ?_, ?_⟩
  · rw [rectangleToState, unravelIndex_ok _ _ hr']; rfl
  · have : g.stateToRectIjk (g.ijkToState (unravel g.numRect r)) =
        fun i => (unravel g.numRect r i : ℤ) := by
      funext i
      have hu := h.unit_pos i
      refine h.stateToRectIjk_eq _ i _ (hl i) (le_refl _) ?_
      unfold ijkToState; linarith
    rw [stateToRectangle, this, ravelMultiIndex_ok _ _ hl, ravel_unravel _ _ hr']
  · rw [rectangleCornerIndex, unravelIndex_ok _ _ hr']
    exact ravelMultiIndex_ok _ _ hl'
  · have : g.stateToIjk (g.ijkToState (unravel g.numRect r)) =
        fun i => (unravel g.numRect r i : ℤ) :=
      funext fun i => h.stateToIjk_ijkToState _ hl' i
    rw [stateToIndex_ofFn, this, ravelMultiIndex_ok _ _ hl']
  · rw [g.indexToState_ok _ (ravel_lt _ _ hl'), unravel_ravel _ _ hl']

example : ∃ x k, exampleGrid.rectangleToState 5 = .ok x ∧ exampleGrid.stateToRectangle x = .ok 5 ∧
    exampleGrid.rectangleCornerIndex 5 = .ok k ∧ exampleGrid.stateToIndex (List.ofFn x) = .ok k ∧
    exampleGrid.indexToState k = .ok x :=
  C05_rectangle_consistent exampleGrid exampleGrid_two_le exampleGrid_lt 5
    (by simp [exampleGrid, Fin.prod_univ_two])

/-! ## C06 -/

/-- **C06** the constructor with one number of points per dimension raises `DimensionError`
exactly if some dimension has fewer than two points; otherwise it succeeds with these points. -/
theorem C06_constructor (lo hi : Fin d → K) (ns : Fin d → ℤ) :
    ((∃ i, ns i < 2) ∧ GridWorld.new lo hi (.seq (List.ofFn ns)) = .error .dimensionError) ∨
    ((∀ i, 2 ≤ ns i) ∧ ∃ g, GridWorld.new lo hi (.seq (List.ofFn ns)) = .ok g ∧
      g.lo = lo ∧ g.hi = hi ∧ (∀ i, (g.num i : ℤ) = ns i)) := by
  have hb : NumPoints.broadcast d (.seq (List.ofFn ns)) = .ok ns := by
    rcases d with _ | _ | d
    · simp only [List.ofFn_zero, NumPoints.broadcast]
      rw [dif_pos (by simp)]
      congr 1; funext i; exact i.elim0
    · simp only [List.ofFn_succ, List.ofFn_zero, NumPoints.broadcast]
      congr 1; funext i; congr 1; exact (Fin.fin_one_eq_zero i).symm
    · have key : ∀ l : List ℤ, l.length = d + 2 → NumPoints.broadcast (d + 2) (.seq l) =
          if h : l.length = d + 2 then .ok fun i : Fin (d + 2) => l[(i : ℕ)]'(by omega)
          else .error .valueError := by
        intro l hl
        match l, hl with
        | [], hl => simp at hl
        | [_], hl => simp at hl
        | a :: b :: l, hl => rfl
      rw [key _ (by simp), dif_pos (by simp)]
      congr 1; funext i; rw [List.getElem_ofFn]
  by_cases hlt : ∃ i, ns i < 2
  · left
    refine ⟨hlt, ?_⟩
    unfold GridWorld.new
    rw [hb]
    simp only [bind, Except.bind]
    rw [if_pos hlt]
  · right
    push Not at hlt
    refine ⟨hlt, ⟨lo, hi, fun i => (ns i).toNat⟩, ?_, rfl, rfl, fun i => ?_⟩
    · unfold GridWorld.new
      rw [hb]
      simp only [bind, Except.bind]
      rw [if_neg (by push Not; exact hlt)]
    · have := hlt i; simp only []; omega

/-- **C06** an integer `num_points` is used for every dimension. -/
theorem C06_constructor_scalar (lo hi : Fin (d + 1) → K) (n : ℤ) :
    (n < 2 → GridWorld.new lo hi (.scalar n) = .error .dimensionError) ∧
    (2 ≤ n → ∃ g, GridWorld.new lo hi (.scalar n) = .ok g ∧ g.lo = lo ∧ g.hi = hi ∧
      ∀ i, (g.num i : ℤ) = n) := by
  constructor
  · intro h
    unfold GridWorld.new NumPoints.broadcast
    simp only [bind, Except.bind]
    rw [if_pos ⟨0, h⟩]
  · intro h
    refine ⟨⟨lo, hi, fun _ => n.toNat⟩, ?_, rfl, rfl, fun i => by simp only []; omega⟩
    unfold GridWorld.new NumPoints.broadcast
    simp only [bind, Except.bind]
    rw [if_neg (by push Not; exact fun _ => h)]

/-- **C06** `state_to_index` raises `DimensionError` exactly for rows of the wrong length, and no
other exception. -/
theorem C06_state_to_index_rejects [FloorRing K] (h2 : ∀ i, 2 ≤ g.num i)
    (hlt : ∀ i, g.lo i < g.hi i) (x : List K) :
    (x.length ≠ d → g.stateToIndex x = .error .dimensionError) ∧
    (x.length = d → ∃ k, g.stateToIndex x = .ok k) := by
  constructor
  · intro h
    unfold stateToIndex checkDimensions
    rw [dif_neg h]; rfl
  · intro h
    subst h
    obtain ⟨k, p, hk, -⟩ := C02_state_to_index_nearest g h2 hlt x.get
    exact ⟨k, by rwa [List.ofFn_get] at hk⟩

/-- **C06** `index_to_state` raises exactly when the index is outside `[0, nindex)`. -/
theorem C06_index_to_state_rejects (k : ℤ) :
    (∃ x, g.indexToState k = .ok x) ↔ 0 ≤ k ∧ k < ∏ i, (g.num i : ℤ) := by
  have e : (∏ i, (g.num i : ℤ)) = (shapeProd g.num : ℤ) := by simp [shapeProd]
  rw [e]
  unfold indexToState unravelIndex
  constructor
  · rintro ⟨x, hx⟩
    by_contra h
    rw [if_neg h] at hx
    cases hx
  · intro h
    rw [if_pos h]
    exact ⟨_, rfl⟩

example : GridWorld.new (K := ℚ) ![0, 0] ![1, 1] (.seq [3, 1]) = .error .dimensionError := by
  rcases C06_constructor (K := ℚ) ![0, 0] ![1, 1] ![3, 1] with h | h
  · simpa [List.ofFn_succ] using h.2
  · exact absurd (h.1 1) (by simp)

example : ¬ ∃ x, exampleGrid.indexToState 12 = .ok x := by
  rw [C06_index_to_state_rejects]
  simp [exampleGrid, Fin.prod_univ_two]

example : exampleGrid.stateToIndex [0] = .error .dimensionError :=
  (C06_state_to_index_rejects exampleGrid exampleGrid_two_le exampleGrid_lt [0]).1 (by simp)

/-! ## C07 -/

/-- **C07** for every draw in `[0, 1)` the continuous sample is inside the limits. -/
theorem C07_sample_continuous (hlt : ∀ i, g.lo i < g.hi i) (r : Fin d → K)
    (hr : ∀ i, 0 ≤ r i ∧ r i < 1) (i : Fin d) :
    g.lo i ≤ g.sampleContinuous r i ∧ g.sampleContinuous r i < g.hi i := by
  unfold sampleContinuous
  have := hr i; have := hlt i
  constructor <;> nlinarith

/-- **C07** every point of the box (except the upper faces) is the sample of some draw, so the
sampler does not lose a part of the domain. -/
theorem C07_sample_continuous_surjective (hlt : ∀ i, g.lo i < g.hi i) (x : Fin d → K)
    (hx : ∀ i, g.lo i ≤ x i ∧ x i < g.hi i) :
    ∃ r : Fin d → K, (∀ i, 0 ≤ r i ∧ r i < 1) ∧ g.sampleContinuous r = x := by
  refine ⟨fun i => (x i - g.lo i) / (g.hi i - g.lo i), fun i => ?_, funext fun i => ?_⟩
  · have h1 := hx i; have h2 := hlt i
    have h3 : 0 < g.hi i - g.lo i := by linarith
    exact ⟨div_nonneg (by linarith) h3.le, by rw [div_lt_one h3]; linarith⟩
  · have h2 := hlt i
    have h3 : g.hi i - g.lo i ≠ 0 := by linarith
    unfold sampleContinuous
    rw [div_mul_cancel₀ _ h3]; ring

/-- **C07** for every draw in `range(nindex)` the discrete sample is a grid point (a row of
`all_points`). -/
theorem C07_sample_discrete (k : ℕ) (hk : k < ∏ i, g.num i) :
    ∃ x, g.sampleDiscrete k = .ok x ∧ Spec.IsGridPoint g.lo g.hi g.num k x ∧ x ∈ g.allPoints := by
  obtain ⟨hlen, hall⟩ := C03_all_points_enumerates g
  have := hall k (by rw [hlen]; exact hk)
  exact ⟨_, this.1, this.2, List.getElem_mem _⟩

example : exampleGrid.lo 1 ≤ exampleGrid.sampleContinuous ![1/3, 9/10] 1 ∧
    exampleGrid.sampleContinuous ![1/3, 9/10] 1 < exampleGrid.hi 1 :=
  C07_sample_continuous exampleGrid exampleGrid_lt ![1/3, 9/10]
    (by intro i; fin_cases i <;> norm_num) 1

example : ∃ x, exampleGrid.sampleDiscrete 4 = .ok x ∧
    Spec.IsGridPoint exampleGrid.lo exampleGrid.hi exampleGrid.num 4 x ∧
    x ∈ exampleGrid.allPoints :=
  C07_sample_discrete exampleGrid 4 (by simp [exampleGrid, Fin.prod_univ_two])

end GridWorld

end SafeLearning
