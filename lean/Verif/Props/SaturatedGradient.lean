import Verif.Props.TriangulationMore
import Verif.Lemmas.Delaunay
import Verif.Props.TriangulationExamples
import Mathlib.Analysis.Calculus.FDeriv.Add
import Mathlib.Analysis.Calculus.FDeriv.Prod
set_option autoImplicit false

/-!
# C91: the gradient of triangulations and saturations is their derivative
-/

open Topology Filter Spec

namespace SafeLearning

variable {d o : ℕ} {g : GridWorld ℝ d} {D : Delaunay ℝ d} {eps : ℝ} {project : Bool} {t : Tri ℝ d}

/-- `G` is the vector of partial derivatives of `f` at `x`, and `f` is differentiable there. -/
def _root_.Spec.IsGradientAt (f : (Fin d → ℝ) → ℝ) (G x : Fin d → ℝ) : Prop :=
  HasFDerivAt f (∑ i, G i • ContinuousLinearMap.proj (R := ℝ) (φ := fun _ : Fin d => ℝ) i) x

theorem isGradientAt_of_slope {f : (Fin d → ℝ) → ℝ} {G x : Fin d → ℝ}
    (h : ∀ᶠ y in 𝓝 x, f y - f x = ∑ i, G i * (y i - x i)) : Spec.IsGradientAt f G x := by
  have h1 : HasFDerivAt (fun y : Fin d → ℝ => f x + (∑ i, G i • ContinuousLinearMap.proj (R := ℝ)
      (φ := fun _ : Fin d => ℝ) i) (y - x))
      (∑ i, G i • ContinuousLinearMap.proj (R := ℝ) (φ := fun _ : Fin d => ℝ) i) x := by
    set L := ∑ i, G i • ContinuousLinearMap.proj (R := ℝ) (φ := fun _ : Fin d => ℝ) i with hL
    have h2 : HasFDerivAt (fun y : Fin d → ℝ => (f x - L x) + L y) L x := L.hasFDerivAt.const_add _
    refine h2.congr_of_eventuallyEq (Eventually.of_forall fun y => ?_)
    simp only [map_sub]
    ring
  refine h1.congr_of_eventuallyEq ?_
  filter_upwards [h] with y hy
  have : f y = f x + ∑ i, G i * (y i - x i) := by linarith
  rw [this]
  simp

theorem clipBox_of_mem (x : Fin d → ℝ) (h : ∀ i, g.lo i < x i ∧ x i < g.hi i) : clipBox g.lo g.hi x = x := by
  funext i
  unfold clipBox
  rw [if_neg (h i).1.le.not_gt, if_neg (h i).2.le.not_gt]

/-- **C91 (triangulations, partial).** `gradient(x)` is the derivative of the function that the triangulation evaluates, at every point inside the limits (or anywhere without
`project`) such that all points close to it are located in the same simplex. Missing: points outside the limits with `project` (`C91_refuted_project`). -/
theorem C91_triangulation_partial (S : TriSetup g D eps) (ht : Tri.new g D project = .ok t)
    (params : List (Fin o → ℝ)) (hlen : params.length = ∏ i, g.num i) (x : Fin d → ℝ)
    (hx : ∀ᶠ y in 𝓝 x, t.findSimplex eps y = t.findSimplex eps x)
    (hin : project = true → ∀ i, g.lo i < x i ∧ x i < g.hi i) (f : (Fin d → ℝ) → Fin o → ℝ)
    (hf : ∀ y, t.tfEvaluate eps params y = .ok (f y)) :
    ∃ G, t.tfGradient eps params x = .ok G ∧ ∀ l, Spec.IsGradientAt (fun y => f y l) (G l) x := by
  obtain ⟨_, _, G, -, -, hG, -⟩ := C17_tf_gradient_is_slope S ht params hlen x x rfl
  refine ⟨G, hG, fun l => isGradientAt_of_slope ?_⟩
  have hbox : ∀ᶠ y in 𝓝 x, project = true → ∀ i, g.lo i < y i ∧ y i < g.hi i := by
    by_cases hp : project = true
    · have h1 : ∀ i, ∀ᶠ y : Fin d → ℝ in 𝓝 x, g.lo i < y i ∧ y i < g.hi i := fun i =>
        ((continuous_apply i).continuousAt.eventually (lt_mem_nhds (hin hp i).1)).and
          ((continuous_apply i).continuousAt.eventually (gt_mem_nhds (hin hp i).2))
      filter_upwards [eventually_all.mpr h1] with y hy
      exact fun _ => hy
    · exact Eventually.of_forall fun y h => absurd h hp
  filter_upwards [hx, hbox] with y hy hb
  obtain ⟨v, v', G', h1, h2, h3, h4⟩ := C17_tf_gradient_is_slope S ht params hlen x y hy.symm
  obtain rfl := Except.ok.inj (hG.symm.trans h3)
  obtain rfl := Except.ok.inj ((hf x).symm.trans h1)
  obtain rfl := Except.ok.inj ((hf y).symm.trans h2)
  have h5 := h4 l
  have e : ∀ z : Fin d → ℝ, (project = true → ∀ i, g.lo i < z i ∧ z i < g.hi i) →
      (if project then clipBox g.lo g.hi z else z) = z := by
    intro z hz
    cases project
    · rfl
    · exact clipBox_of_mem z (hz rfl)
  rw [e x hin, e y hb] at h5
  rw [← neg_sub, h5, ← Finset.sum_neg_distrib]
  exact Finset.sum_congr rfl fun i _ => by ring

/-- **C91 (saturations, partial).** `gradient(x)` of a saturated triangulation is the derivative of the function that the saturation evaluates, at every such point with a value strictly between the
bounds. Missing: points with a value outside the bounds (`C91_refuted_saturated`). -/
theorem C91_saturation_partial (S : TriSetup g D eps) (ht : Tri.new g D project = .ok t)
    (params : List (Fin o → ℝ)) (hlen : params.length = ∏ i, g.num i) (x : Fin d → ℝ)
    (hx : ∀ᶠ y in 𝓝 x, t.findSimplex eps y = t.findSimplex eps x)
    (hin : project = true → ∀ i, g.lo i < x i ∧ x i < g.hi i) (lower upper : Fin o → ℝ)
    (f : (Fin d → ℝ) → Fin o → ℝ)
    (hf : ∀ y, t.saturatedEvaluate eps params lower upper y = .ok (f y)) :
    ∃ G, t.saturatedGradient eps params lower upper x = .ok G ∧
      ∀ l, lower l < f x l → f x l < upper l → Spec.IsGradientAt (fun y => f y l) (G l) x := by
  have hv : ∀ y, ∃ v, t.tfEvaluate eps params y = .ok v := fun y => by
    obtain ⟨v, _, _, h, _⟩ := C17_tf_gradient_is_slope S ht params hlen y y rfl
    exact ⟨v, h⟩
  choose v hv using hv
  have hfv : ∀ y l, f y l = min (max (v y l) (lower l)) (upper l) := by
    intro y l
    have := hf y
    unfold Tri.saturatedEvaluate at this
    rw [hv y] at this
    exact (congrFun (Except.ok.inj this) l).symm
  obtain ⟨G, hG, h⟩ := C91_triangulation_partial S ht params hlen x hx hin v hv
  refine ⟨G, hG, fun l h1 h2 => ?_⟩
  have hl := h l
  refine HasFDerivAt.congr_of_eventuallyEq hl ?_
  have h3 : lower l < v x l ∧ v x l < upper l := by
    rw [hfv] at h1 h2
    rcases min_lt_iff.mp h2 with h4 | h4
    · refine ⟨?_, (le_max_left _ _).trans_lt h4⟩
      rcases lt_max_iff.mp (h1.trans_le (min_le_left _ _)) with h5 | h5
      · exact h5
      · exact absurd h5 (lt_irrefl _)
    · exact absurd h4 (lt_irrefl _)
  have hc := hl.continuousAt
  filter_upwards [hc.eventually (lt_mem_nhds h3.1), hc.eventually (gt_mem_nhds h3.2)] with y h4 h5
  rw [hfv, max_eq_left (le_of_lt h4), min_eq_left (le_of_lt h5)]

/-- **C91 (one dimension).** In one dimension all points between two neighbouring grid points are located in the same simplex, so that the theorems above apply to all points that are not grid points. -/
theorem C91_same_simplex_1d {g : GridWorld ℝ 1} {t : Tri ℝ 1} (h2 : ∀ i, 2 ≤ g.num i)
    (hlt : ∀ i, g.lo i < g.hi i) (he : 0 < eps)
    (hle : ∀ i, 4 * eps ≤ (g.hi i - g.lo i) / ((g.num i : ℝ) - 1))
    (ht : Tri.new g (delaunay1D 0 (g.unit 0)) project = .ok t) (x : Fin 1 → ℝ)
    (hx : ∀ j < g.num 0, x 0 ≠ Spec.axisPoint (g.lo 0) (g.hi 0) (g.num 0) j) :
    ∀ᶠ y in 𝓝 x, t.findSimplex eps y = t.findSimplex eps x := by
  have S := triSetup_one h2 hlt he hle
  have hG := S.good ht
  have key : ∀ y : Fin 1 → ℝ, rectOf g y = rectOf g x → t.findSimplex eps y = t.findSimplex eps x := by
    intro y hy
    obtain ⟨k, s, _, hk, hf, _⟩ := S.find hG x
    obtain ⟨k', s', _, hk', hf', _⟩ := S.find hG y
    have e : ∀ {k : ℕ} {s}, (delaunay1D 0 (g.unit 0)).simplices[k]? = some s → k = 0 := by
      intro k s h
      have := (List.getElem?_eq_some_iff.mp h).1
      simpa [delaunay1D] using this
    rw [hf, hf', hy, e hk, e hk']
  have hg := S.wf
  have hR := fun y : Fin 1 → ℝ => rectOf_lt hg y
  have hax : ∀ R : Fin 1 → ℕ, g.ijkToState R 0 = Spec.axisPoint (g.lo 0) (g.hi 0) (g.num 0) (R 0) := fun R =>
    g.ijkToState_eq_axisPoint R 0
  have same : ∀ y : Fin 1 → ℝ, clip (y 0) (g.lo 0) (g.hi 0) = clip (x 0) (g.lo 0) (g.hi 0) →
      rectOf g y = rectOf g x := by
    intro y hy
    funext i
    fin_cases i
    obtain ⟨a1, a2, a3⟩ := rectOf_spec hg x 0
    obtain ⟨b1, b2, b3⟩ := rectOf_spec hg y 0
    rw [hy] at b1 b2 b3
    exact rect_unique hg (hR y) (hR x) 0 _ b1 b2 b3 a1 a2 a3
  have hc0 : ContinuousAt (fun y : Fin 1 → ℝ => y 0) x := (continuous_apply 0).continuousAt
  have hlo : x 0 ≠ g.lo 0 := by
    have := hx 0 (by have := h2 0; omega)
    simpa [Spec.axisPoint] using this
  have hhi : x 0 ≠ g.hi 0 := by
    have := hx (g.num 0 - 1) (by have := h2 0; omega)
    intro e
    apply this
    have h3 : ((g.num 0 - 1 : ℕ) : ℝ) = (g.num 0 : ℝ) - 1 := by
      rw [Nat.cast_sub (by have := h2 0; omega)]; simp
    have h4 : (g.num 0 : ℝ) - 1 ≠ 0 := by
      have : (2 : ℝ) ≤ g.num 0 := by exact_mod_cast h2 0
      linarith
    unfold Spec.axisPoint
    rw [e, h3]
    field_simp
    ring
  rcases lt_or_gt_of_ne hlo with h | h
  · filter_upwards [hc0.eventually (gt_mem_nhds h)] with y hy
    apply key
    apply same
    have hy : y 0 < g.lo 0 := hy
    unfold clip
    rw [max_eq_right hy.le, max_eq_right h.le]
  · rcases lt_or_gt_of_ne hhi with h' | h'
    · obtain ⟨a1, a2, a3⟩ := rectOf_spec hg x 0
      have hcx : clip (x 0) (g.lo 0) (g.hi 0) = x 0 := clip_of_mem h.le h'.le
      rw [hcx] at a1 a2 a3
      have b1 : g.ijkToState (rectOf g x) 0 < x 0 := by
        refine lt_of_le_of_ne a1 fun e => ?_
        rw [hax] at e
        exact hx _ (by have := hR x 0; unfold GridWorld.numRect at this; omega) e.symm
      have b2 : x 0 < g.ijkToState (rectOf g x) 0 + g.unit 0 := a3.resolve_right h'.ne
      filter_upwards [hc0.eventually (lt_mem_nhds b1), hc0.eventually (gt_mem_nhds b2),
        hc0.eventually (lt_mem_nhds h), hc0.eventually (gt_mem_nhds h')] with y c1 c2 c3 c4
      apply key
      have c1 : g.ijkToState (rectOf g x) 0 < y 0 := c1
      have c2 : y 0 < g.ijkToState (rectOf g x) 0 + g.unit 0 := c2
      have c3 : g.lo 0 < y 0 := c3
      have c4 : y 0 < g.hi 0 := c4
      have hcy : clip (y 0) (g.lo 0) (g.hi 0) = y 0 := clip_of_mem c3.le c4.le
      obtain ⟨e1, e2, e3⟩ := rectOf_spec hg y 0
      rw [hcy] at e1 e2 e3
      funext i
      fin_cases i
      exact rect_unique hg (hR y) (hR x) 0 _ e1 e2 e3 c1.le c2.le (Or.inl c2)
    · filter_upwards [hc0.eventually (lt_mem_nhds h')] with y hy
      apply key
      apply same
      have hy : g.hi 0 < y 0 := hy
      unfold clip
      rw [max_eq_left ((hlt 0).le.trans hy.le), max_eq_left ((hlt 0).le.trans h'.le), min_eq_right hy.le, min_eq_right h'.le]

/-! ## The refutations -/

/-- The grid `{0, 1}`. -/
noncomputable def stepGrid : GridWorld ℝ 1 := { lo := ![0], hi := ![1], num := ![2] }

theorem stepSetup : TriSetup stepGrid (delaunay1D 0 (stepGrid.unit 0)) (1 / 1000) :=
  triSetup_one (by intro i; fin_cases i; simp [stepGrid]) (by intro i; fin_cases i; simp [stepGrid])
    (by norm_num) (by intro i; fin_cases i; simp [stepGrid]; norm_num)

/-- The values 0 and 10 at the grid points. -/
noncomputable def stepParams : List (Fin 1 → ℝ) := [![0], ![10]]

theorem stepParams_spec (k : ℕ) (p : Fin 1 → ℝ) (h : IsGridPoint stepGrid.lo stepGrid.hi stepGrid.num k p) :
    stepParams[k]? = some fun l : Fin 1 => ∑ i, (![![10]] : Fin 1 → Fin 1 → ℝ) l i * p i + (![0] : Fin 1 → ℝ) l := by
  obtain ⟨m, hm, rfl, hp⟩ := h
  have h0 := hp 0
  have hm0 : m 0 < 2 := hm 0
  have hk : rowMajor stepGrid.num m = m 0 := by
    rw [Spec.rowMajor, ← ravel_eq_sum]
    simp [ravel, shapeProd]
  rw [hk]
  simp only [stepGrid, Spec.axisPoint] at h0
  interval_cases h : m 0
  · simp at h0
    simp only [stepParams, List.getElem?_cons_zero, Option.some.injEq]
    funext l
    fin_cases l
    simp [h0]
  · norm_num at h0
    simp only [stepParams, List.getElem?_cons_succ, List.getElem?_cons_zero, Option.some.injEq]
    funext l
    fin_cases l
    simp [h0]

theorem step_values (project : Bool) : ∃ t, Tri.new stepGrid (delaunay1D 0 (stepGrid.unit 0)) project = .ok t ∧
    ∀ x, t.tfEvaluate (1 / 1000) stepParams x =
      .ok (fun _ => 10 * if project then min (max (x 0) 0) 1 else x 0) ∧
      t.tfGradient (1 / 1000) stepParams x = .ok ![![10]] := by
  obtain ⟨t, ht⟩ := C09_construction stepSetup project
  refine ⟨t, ht, fun x => ⟨?_, ?_⟩⟩
  · rw [C17_tf_agrees, C10_affine_exact stepSetup ht _ _ stepParams (by simp [stepParams, stepGrid]) stepParams_spec]
    congr 1
    funext l
    fin_cases l
    cases project
    · simp
    · have h1 := stepGrid.clipBox_eq_clip stepSetup.lt x 0
      simp only [clip] at h1
      simp [stepGrid] at h1 ⊢
      exact h1
  · exact C17_tf_gradient_affine stepSetup ht _ _ stepParams (by simp [stepParams, stepGrid]) stepParams_spec x

theorem not_isGradientAt_of_const {f : (Fin 1 → ℝ) → ℝ} {x : Fin 1 → ℝ} {c : ℝ} (h : ∀ᶠ y in 𝓝 x, f y = c) :
    ¬ Spec.IsGradientAt f ![10] x := by
  intro hd
  have h1 : HasFDerivAt f (0 : (Fin 1 → ℝ) →L[ℝ] ℝ) x := (hasFDerivAt_const c x).congr_of_eventuallyEq h
  have := congrArg (fun L : (Fin 1 → ℝ) →L[ℝ] ℝ => L (fun _ => 1)) (h1.unique hd)
  simp at this

/-- **C91 refuted (projection).** With `project=True` the function is constant outside the limits, but the gradient is the slope inside. -/
theorem C91_refuted_project : ∃ (t : Tri ℝ 1) (f : (Fin 1 → ℝ) → Fin 1 → ℝ) (G : Fin 1 → Fin 1 → ℝ),
    Tri.new stepGrid (delaunay1D 0 (stepGrid.unit 0)) true = .ok t ∧
    (∀ y, t.tfEvaluate (1 / 1000) stepParams y = .ok (f y)) ∧
    t.tfGradient (1 / 1000) stepParams ![2] = .ok G ∧
    Spec.IsGradientAt (fun y => f y 0) ![0] ![2] ∧ ¬ Spec.IsGradientAt (fun y => f y 0) (G 0) ![2] := by
  obtain ⟨t, ht, h⟩ := step_values true
  refine ⟨t, _, _, ht, fun y => (h y).1, (h _).2, ?_⟩
  have hc : ∀ᶠ y : Fin 1 → ℝ in 𝓝 ![2], (10 * if (true : Bool) then min (max (y 0) 0) 1 else y 0) = (10 : ℝ) := by
    have hc0 : ContinuousAt (fun y : Fin 1 → ℝ => y 0) ![2] := (continuous_apply 0).continuousAt
    filter_upwards [hc0.eventually (lt_mem_nhds (show (1 : ℝ) < (![2] : Fin 1 → ℝ) 0 by norm_num))] with y hy
    have hy : 1 < y 0 := hy
    rw [if_pos rfl, max_eq_left (by linarith), min_eq_right hy.le]
    norm_num
  constructor
  · unfold Spec.IsGradientAt
    refine HasFDerivAt.congr_of_eventuallyEq (f := fun _ => (10 : ℝ)) ?_ hc
    simpa using hasFDerivAt_const (10 : ℝ) (![2] : Fin 1 → ℝ)
  · exact not_isGradientAt_of_const hc

/-- **C91 refuted (saturation).** Where the bounds are exceeded the saturation is constant, but its gradient is the one of the wrapped function. -/
theorem C91_refuted_saturated : ∃ (t : Tri ℝ 1) (f : (Fin 1 → ℝ) → Fin 1 → ℝ) (G : Fin 1 → Fin 1 → ℝ),
    Tri.new stepGrid (delaunay1D 0 (stepGrid.unit 0)) false = .ok t ∧
    (∀ y, t.saturatedEvaluate (1 / 1000) stepParams ![-1] ![1] y = .ok (f y)) ∧
    t.saturatedGradient (1 / 1000) stepParams ![-1] ![1] ![1/2] = .ok G ∧
    Spec.IsGradientAt (fun y => f y 0) ![0] ![1/2] ∧ ¬ Spec.IsGradientAt (fun y => f y 0) (G 0) ![1/2] := by
  obtain ⟨t, ht, h⟩ := step_values false
  refine ⟨t, fun y _ => min (max (10 * y 0) (-1)) 1, _, ht, fun y => ?_, (h _).2, ?_⟩
  · unfold Tri.saturatedEvaluate
    rw [(h y).1]
    show Except.ok _ = _
    congr 1
    funext l
    fin_cases l
    simp
  have hc : ∀ᶠ y : Fin 1 → ℝ in 𝓝 ![1/2], min (max (10 * y 0) (-1)) 1 = (1 : ℝ) := by
    have hc0 : ContinuousAt (fun y : Fin 1 → ℝ => y 0) ![1/2] := (continuous_apply 0).continuousAt
    filter_upwards [hc0.eventually (lt_mem_nhds (show (1/4 : ℝ) < (![1/2] : Fin 1 → ℝ) 0 by norm_num))] with y hy
    have hy : 1/4 < y 0 := hy
    rw [max_eq_left (by linarith), min_eq_right (by linarith)]
  constructor
  · unfold Spec.IsGradientAt
    refine HasFDerivAt.congr_of_eventuallyEq (f := fun _ => (1 : ℝ)) ?_ hc
    simpa using hasFDerivAt_const (1 : ℝ) (![1/2] : Fin 1 → ℝ)
  · exact not_isGradientAt_of_const hc

/-- C91: the hypotheses hold at the point 1/4 of a triangulation with a kink, for both values of `project`; the value there is 1/2, which is within the bounds. -/
example (project : Bool) (t : Tri ℝ 1) (ht : Tri.new realGrid (delaunay1D 0 (realGrid.unit 0)) project = .ok t)
    (f : (Fin 1 → ℝ) → Fin 1 → ℝ)
    (hf : ∀ y, t.tfEvaluate (1 / 1000) [![0], ![1], ![-5]] y = .ok (f y)) :
    ∃ G, t.tfGradient (1 / 1000) [![0], ![1], ![-5]] ![1/4] = .ok G ∧
      ∀ l, Spec.IsGradientAt (fun y => f y l) (G l) ![1/4] := by
  have h2 : ∀ i, 2 ≤ realGrid.num i := by intro i; fin_cases i; simp [realGrid]
  have hlt : ∀ i, realGrid.lo i < realGrid.hi i := by intro i; fin_cases i; simp [realGrid]
  have hle : ∀ i, 4 * (1 / 1000) ≤ (realGrid.hi i - realGrid.lo i) / ((realGrid.num i : ℝ) - 1) := by
    intro i; fin_cases i; simp [realGrid]; norm_num
  refine C91_triangulation_partial (triSetup_one h2 hlt (by norm_num) hle) ht _ (by simp [realGrid]) _
    (C91_same_simplex_1d h2 hlt (by norm_num) hle ht _ ?_) (fun _ i => ?_) f hf
  · intro j hj
    have hj : j < 3 := hj
    simp only [Spec.axisPoint, realGrid]
    interval_cases j <;> norm_num
  · fin_cases i
    simp [realGrid]
    norm_num

end SafeLearning
