import Verif.Props.ContinuityBoundary
set_option autoImplicit false

/-!
# C91, continued: where exactly the gradient of projected and saturated triangulations is wrong
-/

open Topology Filter Spec

namespace SafeLearning

variable {d o : ℕ} {g : GridWorld ℝ d} {D : Delaunay ℝ d} {eps : ℝ} {project : Bool} {t : Tri ℝ d}

/-- A function has at most one gradient at a point. -/
theorem isGradientAt_unique {f : (Fin d → ℝ) → ℝ} {G H x : Fin d → ℝ} (h : Spec.IsGradientAt f G x) (k : Spec.IsGradientAt f H x) : G = H := by
  have e := HasFDerivAt.unique h k
  funext i
  have := congrArg (fun L : (Fin d → ℝ) →L[ℝ] ℝ => L (Pi.single i 1)) e
  simpa [Pi.single_apply] using this

theorem isGradientAt_zero {f : (Fin d → ℝ) → ℝ} {x : Fin d → ℝ} (h : ∀ᶠ y in 𝓝 x, f y = f x) : Spec.IsGradientAt f 0 x := by
  refine isGradientAt_of_slope ?_
  filter_upwards [h] with y hy
  simp [hy]

/-- The gradient of a clipped function. -/
theorem isGradientAt_clip {v : (Fin d → ℝ) → ℝ} {G x : Fin d → ℝ} (h : Spec.IsGradientAt v G x) (a b : ℝ) :
    (a < v x → v x < b → Spec.IsGradientAt (fun y => min (max (v y) a) b) G x) ∧
    (v x < a ∨ b < v x → Spec.IsGradientAt (fun y => min (max (v y) a) b) 0 x) := by
  have hc : ContinuousAt v x := HasFDerivAt.continuousAt h
  refine ⟨fun h1 h2 => ?_, ?_⟩
  · refine HasFDerivAt.congr_of_eventuallyEq h ?_
    filter_upwards [hc.eventually (lt_mem_nhds h1), hc.eventually (gt_mem_nhds h2)] with y h4 h5
    rw [max_eq_left (le_of_lt h4), min_eq_left (le_of_lt h5)]
  · rintro (h1 | h1)
    · refine isGradientAt_zero ?_
      filter_upwards [hc.eventually (gt_mem_nhds h1)] with y h4
      rw [max_eq_right (le_of_lt h4), max_eq_right h1.le]
    · refine isGradientAt_zero ?_
      filter_upwards [hc.eventually (lt_mem_nhds h1)] with y h4
      rw [min_eq_right ((le_of_lt h4).trans (le_max_left _ _)), min_eq_right (h1.le.trans (le_max_left _ _))]

/-- **C91 (saturations in several dimensions, partial).** For a proper triangulation in any dimension, at every point with positive weights that is more than `2 * _EPS` inside the limits,
`gradient` of the saturated triangulation is the derivative where the wrapped value is strictly between the bounds. Where the wrapped value is strictly beyond a bound the derivative is zero,
hence `gradient` is right there exactly for those outputs for which the slope of the simplex is zero. -/
theorem C91_saturation_interior_partial (S : TriSetup g D eps) (ht : Tri.new g D project = .ok t)
    (hT : IsProperTiling (fun i => (g.hi i - g.lo i) / ((g.num i : ℝ) - 1)) (cornerPoints g) D.simplices)
    (params : List (Fin o → ℝ)) (hlen : params.length = ∏ i, g.num i) (x : Fin d → ℝ)
    (hx : ∀ i, g.lo i + 2 * eps < x i ∧ x i < g.hi i - 2 * eps) (w : Fin (d + 1) → ℝ) (idx : Fin (d + 1) → ℕ)
    (hw : t.getWeights eps x = .ok (w, idx)) (hpos : ∀ j, 0 < w j) (lower upper : Fin o → ℝ) (v f : (Fin d → ℝ) → Fin o → ℝ)
    (hv : ∀ y, t.tfEvaluate eps params y = .ok (v y)) (hf : ∀ y, t.saturatedEvaluate eps params lower upper y = .ok (f y)) :
    ∃ G, t.saturatedGradient eps params lower upper x = .ok G ∧ ∀ l,
      (lower l < v x l → v x l < upper l → Spec.IsGradientAt (fun y => f y l) (G l) x) ∧
      (v x l < lower l ∨ upper l < v x l →
        Spec.IsGradientAt (fun y => f y l) 0 x ∧ (Spec.IsGradientAt (fun y => f y l) (G l) x ↔ G l = 0)) := by
  obtain ⟨G, hG, h⟩ := C91_interior_partial S ht hT params hlen x hx w idx hw hpos v hv
  refine ⟨G, hG, fun l => ?_⟩
  have hfv : (fun y => f y l) = fun y => min (max (v y l) (lower l)) (upper l) := by
    funext y
    have := hf y
    unfold Tri.saturatedEvaluate at this
    rw [hv y] at this
    exact (congrFun (Except.ok.inj this) l).symm
  obtain ⟨h1, h2⟩ := isGradientAt_clip (h l) (lower l) (upper l)
  rw [hfv]
  refine ⟨h1, fun hb => ⟨h2 hb, fun hg => isGradientAt_unique hg (h2 hb), fun hg => ?_⟩⟩
  rw [hg]
  exact h2 hb

/-- **C91 (projection, partial).** With `project`, at a point where all points close to it are located in the same simplex and no coordinate is at a limit, the derivative is `gradient(x)`
with zeros for the coordinates outside the limits. So `gradient` is right exactly if its entries for these coordinates are zero. -/
theorem C91_project_partial (S : TriSetup g D eps) (ht : Tri.new g D true = .ok t)
    (params : List (Fin o → ℝ)) (hlen : params.length = ∏ i, g.num i) (x : Fin d → ℝ)
    (hx : ∀ᶠ y in 𝓝 x, t.findSimplex eps y = t.findSimplex eps x)
    (hne : ∀ i, x i ≠ g.lo i ∧ x i ≠ g.hi i) (f : (Fin d → ℝ) → Fin o → ℝ)
    (hf : ∀ y, t.tfEvaluate eps params y = .ok (f y)) :
    ∃ G, t.tfGradient eps params x = .ok G ∧ ∀ l,
      Spec.IsGradientAt (fun y => f y l) (fun i => if g.lo i < x i ∧ x i < g.hi i then G l i else 0) x ∧
      (Spec.IsGradientAt (fun y => f y l) (G l) x ↔ ∀ i, x i < g.lo i ∨ g.hi i < x i → G l i = 0) := by
  obtain ⟨_, _, G, -, -, hG, -⟩ := C17_tf_gradient_is_slope S ht params hlen x x rfl
  have hlt := S.lt
  have hbox : ∀ᶠ y in 𝓝 x, ∀ i, clipBox g.lo g.hi y i - clipBox g.lo g.hi x i = if g.lo i < x i ∧ x i < g.hi i then y i - x i else 0 := by
    refine eventually_all.mpr fun i => ?_
    have hc : ContinuousAt (fun y : Fin d → ℝ => y i) x := (continuous_apply i).continuousAt
    rcases lt_or_gt_of_ne (hne i).1 with h1 | h1
    · filter_upwards [hc.eventually (gt_mem_nhds h1)] with y hy
      rw [if_neg (fun h => absurd h.1 h1.le.not_gt)]
      unfold clipBox
      rw [if_pos hy, if_pos h1, sub_self]
    · rcases lt_or_gt_of_ne (hne i).2 with h2 | h2
      · filter_upwards [hc.eventually (lt_mem_nhds h1), hc.eventually (gt_mem_nhds h2)] with y hy hy'
        rw [if_pos ⟨h1, h2⟩]
        unfold clipBox
        rw [if_neg h1.le.not_gt, if_neg h2.le.not_gt, if_neg (le_of_lt hy).not_gt, if_neg (le_of_lt hy').not_gt]
      · filter_upwards [hc.eventually (lt_mem_nhds h1), hc.eventually (lt_mem_nhds h2)] with y hy hy'
        rw [if_neg (fun h => absurd h.2 h2.le.not_gt)]
        unfold clipBox
        rw [if_neg h1.le.not_gt, if_pos h2, if_neg (le_of_lt hy).not_gt, if_pos hy', sub_self]
  refine ⟨G, hG, fun l => ?_⟩
  have key : Spec.IsGradientAt (fun y => f y l) (fun i => if g.lo i < x i ∧ x i < g.hi i then G l i else 0) x := by
    refine isGradientAt_of_slope ?_
    filter_upwards [hx, hbox] with y hy hb
    obtain ⟨v, v', G', h1, h2, h3, h4⟩ := C17_tf_gradient_is_slope S ht params hlen x y hy.symm
    obtain rfl := Except.ok.inj (hG.symm.trans h3)
    obtain rfl := Except.ok.inj ((hf x).symm.trans h1)
    obtain rfl := Except.ok.inj ((hf y).symm.trans h2)
    have h5 := h4 l
    simp only [if_true] at h5
    rw [← neg_sub, h5, ← Finset.sum_neg_distrib]
    refine Finset.sum_congr rfl fun i _ => ?_
    have := hb i
    split_ifs at this ⊢
    · rw [← this]; ring
    · have h6 : clipBox g.lo g.hi y i = clipBox g.lo g.hi x i := by linarith
      rw [h6]; ring
  refine ⟨key, fun h i hi => ?_, fun h => ?_⟩
  · have := congrFun (isGradientAt_unique h key) i
    rwa [if_neg] at this
    rcases hi with hi | hi
    · exact fun h => absurd h.1 hi.le.not_gt
    · exact fun h => absurd h.2 hi.le.not_gt
  · have e : G l = fun i => if g.lo i < x i ∧ x i < g.hi i then G l i else 0 := by
      funext i
      split_ifs with hi
      · rfl
      · refine h i ?_
        by_contra hc
        push Not at hc
        exact hi ⟨lt_of_le_of_ne hc.1 (hne i).1.symm, lt_of_le_of_ne hc.2 (hne i).2⟩
    rw [e]
    exact key

/-- The hypotheses of the first theorem hold at `(1/4, 1/4)`. -/
example (project : Bool) (t : Tri ℝ 2) (ht : Tri.new twoSquares (delaunay2D twoSquares.unit) project = .ok t)
    (v f : (Fin 2 → ℝ) → Fin 1 → ℝ) (hv : ∀ y, t.tfEvaluate (1 / 1000) cornerParams y = .ok (v y))
    (hf : ∀ y, t.saturatedEvaluate (1 / 1000) cornerParams ![-1] ![1] y = .ok (f y)) :
    ∃ G, t.saturatedGradient (1 / 1000) cornerParams ![-1] ![1] ![1/4, 1/4] = .ok G ∧ ∀ l,
      (![-1] l < v ![1/4, 1/4] l → v ![1/4, 1/4] l < ![1] l → Spec.IsGradientAt (fun y => f y l) (G l) ![1/4, 1/4]) ∧
      (v ![1/4, 1/4] l < ![-1] l ∨ ![1] l < v ![1/4, 1/4] l →
        Spec.IsGradientAt (fun y => f y l) 0 ![1/4, 1/4] ∧ (Spec.IsGradientAt (fun y => f y l) (G l) ![1/4, 1/4] ↔ G l = 0)) := by
  obtain ⟨w, idx, h1, h2⟩ := quarter_weights ht
  refine C91_saturation_interior_partial twoSquaresSetup ht
    (C18_tiling_2d _ twoSquaresSetup.two_le twoSquaresSetup.lt _ (delaunay2D_isProper _ twoSquaresSetup.wf)) _
    (by simp [cornerParams, twoSquares]) _ (fun i => ?_) w idx h1 h2 _ _ v f hv hf
  fin_cases i <;> simp [twoSquares] <;> norm_num

/-- The hypotheses of the second theorem hold at `2`, outside the limits. -/
example : ∃ (t : Tri ℝ 1) (f : (Fin 1 → ℝ) → Fin 1 → ℝ), Tri.new stepGrid (delaunay1D 0 (stepGrid.unit 0)) true = .ok t ∧ (∀ y, t.tfEvaluate (1 / 1000) stepParams y = .ok (f y)) ∧
    ∃ G, t.tfGradient (1 / 1000) stepParams ![2] = .ok G ∧ ∀ l,
      Spec.IsGradientAt (fun y => f y l) (fun i => if stepGrid.lo i < (![2] : Fin 1 → ℝ) i ∧ (![2] : Fin 1 → ℝ) i < stepGrid.hi i then G l i else 0) ![2] := by
  obtain ⟨t, ht, h⟩ := step_values true
  refine ⟨t, _, ht, fun y => (h y).1, ?_⟩
  have h2 : ∀ i, 2 ≤ stepGrid.num i := by intro i; simp [stepGrid]
  have hlt : ∀ i, stepGrid.lo i < stepGrid.hi i := by intro i; simp [stepGrid]
  have he : ∀ i, 4 * (1 / 1000 : ℝ) ≤ (stepGrid.hi i - stepGrid.lo i) / ((stepGrid.num i : ℝ) - 1) := by intro i; simp [stepGrid]; norm_num
  obtain ⟨G, hG, hk⟩ := C91_project_partial (triSetup_one h2 hlt (by norm_num) he) ht stepParams (by simp [stepParams, stepGrid]) ![2]
    (C91_same_simplex_1d h2 hlt (by norm_num) he ht _ fun j hj => by
      have : j < 2 := by simpa [stepGrid] using hj
      interval_cases j <;> simp [stepGrid, Spec.axisPoint] <;> norm_num)
    (fun i => by fin_cases i; simp [stepGrid]) _ (fun y => (h y).1)
  exact ⟨G, hG, fun l => (hk l).1⟩

end SafeLearning
