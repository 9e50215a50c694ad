import Verif.Props.Continuity
import Verif.Props.SaturatedGradient
import Mathlib.Topology.Order.Basic
import Mathlib.Topology.Order.DenselyOrdered
set_option autoImplicit false

/-!
# C18: continuity up to the boundary of the domain; C91: gradients in the interior of simplices
-/

namespace SafeLearning

open Spec Topology Filter

variable {o : ℕ} {eps : ℝ} {project : Bool}

theorem continuous_clip (lo hi : ℝ) : Continuous fun x : ℝ => clip x lo hi := by
  unfold clip
  fun_prop

theorem verts_1d (g : GridWorld ℝ 1) (R : Fin 1 → ℕ) :
    verts g R ![0, 1] 0 0 = g.ijkToState R 0 ∧ verts g R ![0, 1] 1 0 = g.ijkToState R 0 + g.unit 0 := by
  constructor <;> · rw [verts_eq]; simp [vertices, cornerPoints]

/-- A point of a cell is a convex combination of its ends. -/
theorem convexComb_1d {g : GridWorld ℝ 1} (hg : g.WF) (R : Fin 1 → ℕ) (x : Fin 1 → ℝ)
    (h1 : g.ijkToState R 0 ≤ x 0) (h2 : x 0 ≤ g.ijkToState R 0 + g.unit 0) :
    ∃ w, IsConvexComb (verts g R ![0, 1]) w x := by
  have hu := hg.unit_pos 0
  obtain ⟨e0, e1⟩ := verts_1d g R
  refine ⟨![1 - (x 0 - g.ijkToState R 0) / g.unit 0, (x 0 - g.ijkToState R 0) / g.unit 0], ?_, ?_, ?_⟩
  · intro j
    fin_cases j
    · simp only [Fin.zero_eta, Matrix.cons_val_zero, sub_nonneg]
      rw [div_le_one hu]
      linarith
    · simp only [Fin.mk_one, Matrix.cons_val_one]
      exact div_nonneg (by linarith) hu.le
  · simp [Fin.sum_univ_two]
  · intro i
    fin_cases i
    refine (Fin.sum_univ_two _).trans ?_
    show (1 - (x 0 - g.ijkToState R 0) / g.unit 0) * verts g R ![0, 1] 0 0 +
      (x 0 - g.ijkToState R 0) / g.unit 0 * verts g R ![0, 1] 1 0 = x 0
    rw [e0, e1]
    field_simp
    ring

/-- **C18.** One-dimensional triangulations are continuous everywhere: up to the boundary of the domain and beyond it, with and without `project`. -/
theorem C18_continuous_1d_everywhere {g : GridWorld ℝ 1} {t : Tri ℝ 1} (h2 : ∀ i, 2 ≤ g.num i)
    (hlt : ∀ i, g.lo i < g.hi i) (he : 0 < eps)
    (hle : ∀ i, 4 * eps ≤ (g.hi i - g.lo i) / ((g.num i : ℝ) - 1))
    (ht : Tri.new g (delaunay1D 0 (g.unit 0)) project = .ok t) (params : List (Fin o → ℝ))
    (hlen : params.length = ∏ i, g.num i) (f : (Fin 1 → ℝ) → Fin o → ℝ)
    (hf : ∀ x, t.evaluate eps params x = .ok (f x)) : Continuous f := by
  have S := triSetup_one h2 hlt he hle
  have hG := S.good ht
  have hg := S.wf
  have hu := hg.unit_pos 0
  have hue : g.unit 0 = (g.hi 0 - g.lo 0) / ((g.num 0 : ℝ) - 1) := rfl
  have hle0 : 4 * eps ≤ g.unit 0 := hle 0
  let F : Fin (g.numRect 0) → (Fin 1 → ℝ) → Fin o → ℝ := fun n x l => ∑ j,
    codeWeights (edges (verts g (fun _ => n.1) ![0, 1]))⁻¹ (verts g (fun _ => n.1) ![0, 1] 0) (t.projected x) j *
      params.getD (ravel g.num fun i => n.1 + bits g ((![0, 1] : Fin 2 → ℕ) j) i) 0 l
  let C : Fin (g.numRect 0) → Set (Fin 1 → ℝ) := fun n =>
    {x | g.ijkToState (fun _ => n.1) 0 ≤ clip (x 0) (g.lo 0) (g.hi 0) ∧
      clip (x 0) (g.lo 0) (g.hi 0) ≤ g.ijkToState (fun _ => n.1) 0 + g.unit 0}
  have hcc : Continuous fun x : Fin 1 → ℝ => clip (x 0) (g.lo 0) (g.hi 0) :=
    (continuous_clip _ _).comp (continuous_apply 0)
  have hcl : ∀ n, IsClosed (C n) := fun n =>
    (isClosed_le continuous_const hcc).inter (isClosed_le hcc continuous_const)
  have hproj : Continuous t.projected := by
    unfold Tri.projected
    split_ifs
    · exact continuous_pi fun i => (continuous_clip _ _).comp (continuous_apply i)
    · exact continuous_id
  have hk0 : (delaunay1D 0 (g.unit 0)).simplices[0]? = some ![0, 1] := rfl
  have hone : ∀ {k : ℕ} {s}, (delaunay1D 0 (g.unit 0)).simplices[k]? = some s → k = 0 := by
    intro k s h
    have := (List.getElem?_eq_some_iff.mp h).1
    simpa [delaunay1D] using this
  have hval : ∀ x, ∀ n : Fin (g.numRect 0), rectOf g x 0 = n.1 → f x = F n x := by
    intro x n hn
    obtain ⟨k, s, w, hk, hf', hw⟩ := S.find hG x
    obtain rfl := hone hk
    obtain rfl := Option.some.inj (hk0.symm.trans hk)
    have hR : rectOf g x = fun _ => n.1 := by funext i; fin_cases i; exact hn
    have hlt' := rectOf_lt hg x
    rw [hR] at hf' hlt'
    have h3 := evaluate_ok hg hG hk0 hlt' hf' params hlen
    exact Except.ok.inj ((hf x).symm.trans h3)
  have hFc : ∀ n, Continuous (F n) := fun n => continuous_pi fun l =>
    continuous_finsetSum _ fun j _ => ((continuous_codeWeights _ _ j).comp hproj).mul continuous_const
  have heq : ∀ n, Set.EqOn f (F n) (C n) := by
    intro n x hx
    by_cases hn : rectOf g x 0 = n.1
    · exact hval x n hn
    -- the point is shared by two cells
    obtain ⟨a1, a2, a3⟩ := rectOf_spec hg x 0
    obtain ⟨c1, c2⟩ := hx
    have hRn := rectOf_lt hg x 0
    have hi1 := ijkToState_add_unit_le hg (R := fun _ => n.1) (by intro i; fin_cases i; exact n.2) 0
    have hi2 := ijkToState_add_unit_le hg (rectOf_lt hg x) 0
    have hl1 : g.lo 0 = (0 : ℝ) * g.unit 0 + g.lo 0 := by ring
    have e1 : g.ijkToState (fun _ => n.1) 0 = (n.1 : ℝ) * g.unit 0 + g.lo 0 := rfl
    have e2 : g.ijkToState (rectOf g x) 0 = (rectOf g x 0 : ℝ) * g.unit 0 + g.lo 0 := rfl
    rw [e1] at c1 c2 hi1
    rw [e2] at a1 a2 a3 hi2
    have hin : g.lo 0 + g.unit 0 ≤ clip (x 0) (g.lo 0) (g.hi 0) ∧
        clip (x 0) (g.lo 0) (g.hi 0) ≤ g.hi 0 - g.unit 0 := by
      rcases lt_or_gt_of_ne hn with h | h
      · have h4 : ((rectOf g x 0 : ℝ) + 1) ≤ n.1 := by exact_mod_cast h
        have h5 : (0 : ℝ) ≤ rectOf g x 0 := by positivity
        constructor <;> nlinarith
      · have h4 : ((n.1 : ℝ) + 1) ≤ rectOf g x 0 := by exact_mod_cast h
        have h5 : (0 : ℝ) ≤ n.1 := by positivity
        constructor <;> nlinarith
    have hxc : clip (x 0) (g.lo 0) (g.hi 0) = x 0 := by
      rcases le_total (x 0) (g.lo 0) with h | h
      · rw [clip_of_le_lo (hlt 0).le h] at hin; linarith [hin.1]
      · rcases le_total (g.hi 0) (x 0) with h' | h'
        · rw [clip_of_hi_le h'] at hin; linarith [hin.2]
        · exact clip_of_mem h h'
    rw [hxc] at hin c1 c2
    have hbox : ∀ i, g.lo i + 2 * eps ≤ x i ∧ x i ≤ g.hi i - 2 * eps := by
      intro i
      fin_cases i
      constructor
      · show g.lo 0 + 2 * eps ≤ x 0
        linarith [hin.1]
      · show x 0 ≤ g.hi 0 - 2 * eps
        linarith [hin.2]
    have hR : ∀ i, (fun _ : Fin 1 => n.1) i < g.numRect i := by intro i; fin_cases i; exact n.2
    obtain ⟨w, hw⟩ := convexComb_1d hg (fun _ => n.1) x c1 c2
    have hlt' : ∀ j, (ravel g.num fun i => n.1 + bits g ((![0, 1] : Fin 2 → ℕ) j) i) < params.length := fun j => by
      rw [hlen]; exact ravel_lt _ _ fun i => bits_add_lt hg hR _ i
    have h3 := C18_well_defined S ht (C18_tiling_1d g h2 hlt) params hlen x hbox
      (simplexNumber g (delaunay1D 0 (g.unit 0)) 0 fun _ => n.1)
      (by
        have := ravel_lt g.numRect _ hR
        unfold simplexNumber
        simpa [delaunay1D, Delaunay.nsimplex, GridWorld.numRect, shapeProd] using this)
      _ (hG.simplices_ok hg hk0 hR) _ (fun j => isGridPoint_verts hg hR ![0, 1] j) w hw
      (fun j => params[ravel g.num fun i => n.1 + bits g ((![0, 1] : Fin 2 → ℕ) j) i]'(hlt' j))
      (fun j => List.getElem?_eq_getElem (hlt' j))
    have hI := Tri.Good.verts_indep S.tri hk0 (fun _ : Fin 1 => n.1)
    have hp : t.projected x = x := by
      unfold Tri.projected
      split_ifs
      · rw [hG.disc]
        exact funext fun i => clip_of_mem (by linarith [(hbox i).1]) (by linarith [(hbox i).2])
      · rfl
    rw [Except.ok.inj ((hf x).symm.trans h3)]
    funext l
    simp only [F]
    rw [hp, bary_unique hI (codeWeights_bary hI x) hw.2]
    refine Finset.sum_congr rfl fun j _ => ?_
    rw [List.getD_eq_getElem?_getD, List.getElem?_eq_getElem (hlt' j)]
    rfl
  have := (locallyFinite_of_finite C).continuousOn_iUnion hcl fun n => (hFc n).continuousOn.congr (heq n)
  rw [← continuousOn_univ]
  refine this.mono fun x _ => ?_
  rw [Set.mem_iUnion]
  obtain ⟨a1, a2, -⟩ := rectOf_spec hg x 0
  exact ⟨⟨rectOf g x 0, rectOf_lt hg x 0⟩, a1, a2⟩

/-! ## The boundary strip in two dimensions -/

/-- Two unit squares on top of each other. -/
noncomputable def twoSquares : GridWorld ℝ 2 := { lo := ![0, 0], hi := ![1, 2], num := ![2, 3] }

theorem twoSquares_unit (i : Fin 2) : twoSquares.unit i = 1 := by
  fin_cases i <;> simp [twoSquares, GridWorld.unit] <;> norm_num

theorem twoSquaresSetup : TriSetup twoSquares (delaunay2D twoSquares.unit) (1 / 1000) where
  two_le := by intro i; fin_cases i <;> simp [twoSquares]
  lt := by intro i; fin_cases i <;> simp [twoSquares]
  tri := delaunay2D_isTriangulation twoSquares ⟨by intro i; fin_cases i <;> simp [twoSquares],
    by intro i; fin_cases i <;> simp [twoSquares]⟩
  eps_pos := by norm_num
  eps_le := by intro i; fin_cases i <;> simp [twoSquares] <;> norm_num

theorem twoSquares_corners : cornerPoints twoSquares = [![1, 0], ![1, 1], ![0, 0], ![0, 1]] := by
  rw [cornerPoints_two, twoSquares_unit, twoSquares_unit]

theorem twoSquares_verts (s : Fin 3 → ℕ) (j : Fin 3) (i : Fin 2) :
    verts twoSquares (fun _ => 0) s j i = vertices [![1, 0], ![1, 1], ![0, 0], ![0, 1]] s j i := by
  rw [verts_eq, twoSquares_corners]
  fin_cases i <;> simp [GridWorld.ijkToState, twoSquares]

/-- The value 1 in the point `(1, 1)` and 0 in the others. -/
noncomputable def cornerParams : List (Fin 1 → ℝ) := [![0], ![0], ![0], ![0], ![1], ![0]]

theorem corner_param (c : ℕ) (hc : c < 4) :
    cornerParams.getD (ravel twoSquares.num fun i => 0 + bits twoSquares c i) 0 0 = if c = 1 then 1 else 0 := by
  have hb : ∀ i, bits twoSquares c i = (![![1, 0], ![1, 1], ![0, 0], ![0, 1]] : Fin 4 → Fin 2 → ℕ) ⟨c, hc⟩ i := by
    intro i
    unfold bits
    rw [twoSquares_corners]
    interval_cases c <;> fin_cases i <;> simp
  have hr : (ravel twoSquares.num fun i => 0 + bits twoSquares c i) = bits twoSquares c 0 * 3 + bits twoSquares c 1 := by
    simp [ravel, shapeProd, twoSquares, Fin.tail]
  rw [hr, hb, hb]
  interval_cases c <;> simp [cornerParams]

/-- The values on the left edge: 0 where the shifted point is in the lower triangle, `y - 1` where it is in the upper one. -/
theorem edge_values {t : Tri ℝ 2} (ht : Tri.new twoSquares (delaunay2D twoSquares.unit) project = .ok t) (y : ℝ)
    (h0 : 2 / 1000 ≤ y) (h1 : y < 1) :
    (y < 998 / 1000 → t.evaluate (1 / 1000) cornerParams ![0, y] = .ok ![0]) ∧
    (998 / 1000 < y → t.evaluate (1 / 1000) cornerParams ![0, y] = .ok ![y - 1]) := by
  have S := twoSquaresSetup
  have hG := S.good ht
  have hg := S.wf
  obtain ⟨k, s, w, hk, hf, hw⟩ := S.find hG ![0, y]
  have hR : rectOf twoSquares ![0, y] = fun _ => 0 := by
    funext i
    have := rectOf_lt hg ![0, y] i
    fin_cases i
    · simpa [GridWorld.numRect, twoSquares] using this
    · obtain ⟨a1, -, -⟩ := rectOf_spec hg ![0, y] 1
      rw [clip_of_mem (by simp [twoSquares]; linarith) (by simp [twoSquares]; linarith)] at a1
      simp only [GridWorld.ijkToState, twoSquares_unit] at a1
      simp [twoSquares] at a1
      have : (rectOf twoSquares ![0, y] 1 : ℝ) < 1 := lt_of_le_of_lt a1 h1
      have : rectOf twoSquares ![0, y] 1 < 1 := by exact_mod_cast this
      simpa using this
  rw [hR] at hf hw
  have hRl : ∀ i, (fun _ : Fin 2 => 0) i < twoSquares.numRect i := by
    intro i; fin_cases i <;> simp [GridWorld.numRect, twoSquares]
  have hev := evaluate_ok hg hG hk hRl hf cornerParams (by simp [cornerParams, twoSquares])
  have hI := Tri.Good.verts_indep S.tri hk (fun _ : Fin 2 => 0)
  have hp : t.projected ![0, y] = ![0, y] := by
    unfold Tri.projected
    split_ifs
    · rw [hG.disc]
      funext i
      fin_cases i
      · exact clip_of_mem (by simp [twoSquares]) (by simp [twoSquares])
      · exact clip_of_mem (by simp [twoSquares]; linarith) (by simp [twoSquares]; linarith)
    · rfl
  rw [hp] at hev
  have hsh0 : shrink twoSquares (1 / 1000) ![0, y] 0 = 2 / 1000 := by
    unfold shrink
    simp [twoSquares, clip]
    norm_num
  have hsh1 : shrink twoSquares (1 / 1000) ![0, y] 1 = y := by
    unfold shrink
    exact clip_of_mem (by simp [twoSquares]; linarith) (by simp [twoSquares]; linarith)
  obtain ⟨w1, w2, w3⟩ := hw
  have c0 := w3 0
  have c1 := w3 1
  simp only [twoSquares_verts] at c0 c1
  rw [hsh0] at c0
  rw [hsh1] at c1
  have hb := codeWeights_bary hI ![0, y]
  obtain ⟨b2, b3⟩ := hb
  have d0 := b3 0
  have d1 := b3 1
  simp only [twoSquares_verts] at d0 d1
  have hs : s ∈ (delaunay2D twoSquares.unit).simplices := List.mem_of_getElem? hk
  simp only [delaunay2D, List.mem_cons, List.not_mem_nil, or_false] at hs
  rw [hev]
  set cw := codeWeights (edges (verts twoSquares (fun _ => 0) s))⁻¹ (verts twoSquares (fun _ => 0) s 0) ![0, y] with hcw
  rcases hs with rfl | rfl
  · simp [vertices, Fin.sum_univ_three] at c0 c1 d0 d1 w2 b2
    have := w1 0
    refine ⟨fun _ => ?_, fun h => by linarith⟩
    congr 1
    funext l
    fin_cases l
    refine (Fin.sum_univ_three _).trans ?_
    show cw 0 * cornerParams.getD (ravel twoSquares.num fun i => 0 + bits twoSquares 2 i) 0 0 +
      cw 1 * cornerParams.getD (ravel twoSquares.num fun i => 0 + bits twoSquares 0 i) 0 0 +
      cw 2 * cornerParams.getD (ravel twoSquares.num fun i => 0 + bits twoSquares 3 i) 0 0 = 0
    rw [corner_param 2 (by norm_num), corner_param 0 (by norm_num), corner_param 3 (by norm_num)]
    norm_num
  · simp [vertices, Fin.sum_univ_three] at c0 c1 d0 d1 w2 b2
    have := w1 0
    refine ⟨fun h => by linarith, fun _ => ?_⟩
    congr 1
    funext l
    fin_cases l
    refine (Fin.sum_univ_three _).trans ?_
    show cw 0 * cornerParams.getD (ravel twoSquares.num fun i => 0 + bits twoSquares 1 i) 0 0 +
      cw 1 * cornerParams.getD (ravel twoSquares.num fun i => 0 + bits twoSquares 3 i) 0 0 +
      cw 2 * cornerParams.getD (ravel twoSquares.num fun i => 0 + bits twoSquares 0 i) 0 0 = y - 1
    rw [corner_param 1 (by norm_num), corner_param 3 (by norm_num), corner_param 0 (by norm_num)]
    norm_num
    linarith

/-- **C18 refuted at the boundary.** In two dimensions the function is discontinuous in the strip of width `2 * _EPS` at the boundary, although the triangulation is proper: the simplex is chosen for a shifted
point. -/
theorem C18_boundary_2d_refuted : IsProper (cornerPoints twoSquares) (delaunay2D twoSquares.unit).simplices ∧
    ∀ project, ∃ (t : Tri ℝ 2) (f : (Fin 2 → ℝ) → Fin 1 → ℝ),
      Tri.new twoSquares (delaunay2D twoSquares.unit) project = .ok t ∧
      (∀ x, t.evaluate (1 / 1000) cornerParams x = .ok (f x)) ∧
      ¬ ContinuousOn f {x | ∀ i, twoSquares.lo i ≤ x i ∧ x i ≤ twoSquares.hi i} := by
  refine ⟨delaunay2D_isProper _ twoSquaresSetup.wf, fun project => ?_⟩
  obtain ⟨t, ht⟩ := C09_construction twoSquaresSetup project
  have hx : ∀ x, ∃ v, t.evaluate (1 / 1000) cornerParams x = .ok v := by
    intro x
    obtain ⟨v, _, _, h, _⟩ := C14_gradient_is_slope twoSquaresSetup ht cornerParams
      (by simp [cornerParams, twoSquares]) x x rfl
    exact ⟨v, h⟩
  choose f hf using hx
  refine ⟨t, f, ht, hf, fun hc => ?_⟩
  have hpath : ContinuousOn (fun y : ℝ => f ![0, y] 0) (Set.Icc 0 2) := by
    have h1 : ContinuousOn (fun x : Fin 2 → ℝ => f x 0) {x | ∀ i, twoSquares.lo i ≤ x i ∧ x i ≤ twoSquares.hi i} :=
      (continuous_apply (0 : Fin 1)).comp_continuousOn hc
    refine h1.comp (f := fun y : ℝ => ![0, y]) (Continuous.continuousOn ?_) ?_
    · refine continuous_pi fun i => ?_
      fin_cases i
      · exact continuous_const
      · exact continuous_id
    · intro y hy i
      fin_cases i
      · simp [twoSquares]
      · exact hy
  have hat : Tendsto (fun y : ℝ => f ![0, y] 0) (𝓝 (998 / 1000)) (𝓝 (f ![0, 998 / 1000] 0)) :=
    (hpath.continuousAt (Icc_mem_nhds (by norm_num) (by norm_num))).tendsto
  have hl : f ![0, 998 / 1000] 0 = 0 := by
    refine tendsto_nhds_unique (hat.mono_left (nhdsWithin_le_nhds (s := Set.Iio (998 / 1000)))) ?_
    refine tendsto_const_nhds.congr' ?_
    filter_upwards [Ioo_mem_nhdsLT (show (2 / 1000 : ℝ) < 998 / 1000 by norm_num)] with y hy
    have := (edge_values ht y hy.1.le (by linarith [hy.2])).1 hy.2
    rw [Except.ok.inj ((hf _).symm.trans this)]
    rfl
  have hr : f ![0, 998 / 1000] 0 = 998 / 1000 - 1 := by
    refine tendsto_nhds_unique (hat.mono_left (nhdsWithin_le_nhds (s := Set.Ioi (998 / 1000)))) ?_
    have hlin : Tendsto (fun y : ℝ => y - 1) (𝓝[>] (998 / 1000)) (𝓝 (998 / 1000 - 1)) :=
      ((continuous_id.sub continuous_const).tendsto _).mono_left nhdsWithin_le_nhds
    refine hlin.congr' ?_
    filter_upwards [Ioo_mem_nhdsGT (show (998 / 1000 : ℝ) < 1 by norm_num)] with y hy
    have := (edge_values ht y (by linarith [hy.1]) hy.2).2 hy.1
    rw [Except.ok.inj ((hf _).symm.trans this)]
    rfl
  rw [hl] at hr
  norm_num at hr

/-- C18: the absolute value is continuous up to the boundary and beyond it. -/
example (project : Bool) (t : Tri ℝ 1)
    (ht : Tri.new realGrid (delaunay1D 0 (realGrid.unit 0)) project = .ok t)
    (f : (Fin 1 → ℝ) → Fin 1 → ℝ)
    (hf : ∀ x, t.evaluate (1 / 1000) [![1], ![0], ![1]] x = .ok (f x)) : Continuous f :=
  C18_continuous_1d_everywhere (by intro i; fin_cases i; simp [realGrid])
    (by intro i; fin_cases i; simp [realGrid]) (by norm_num)
    (by intro i; fin_cases i; simp [realGrid]; norm_num) ht _ (by simp [realGrid]) f hf

/-! ## C91 in several dimensions -/

/-- **C91 (interior of simplices, partial).** For a proper triangulation in any dimension: `gradient(x)` is the derivative at every point with positive weights that is more than `2 * _EPS` inside the
limits, with and without `project`. Missing: points outside the limits (`C91_refuted_project`) and the boundary strip. -/
theorem C91_interior_partial {d : ℕ} {g : GridWorld ℝ d} {D : Delaunay ℝ d} {t : Tri ℝ d} (S : TriSetup g D eps)
    (ht : Tri.new g D project = .ok t)
    (hT : IsProperTiling (fun i => (g.hi i - g.lo i) / ((g.num i : ℝ) - 1)) (cornerPoints g) D.simplices)
    (params : List (Fin o → ℝ)) (hlen : params.length = ∏ i, g.num i) (x : Fin d → ℝ)
    (hx : ∀ i, g.lo i + 2 * eps < x i ∧ x i < g.hi i - 2 * eps) (w : Fin (d + 1) → ℝ) (idx : Fin (d + 1) → ℕ)
    (hw : t.getWeights eps x = .ok (w, idx)) (hpos : ∀ j, 0 < w j) (f : (Fin d → ℝ) → Fin o → ℝ)
    (hf : ∀ y, t.tfEvaluate eps params y = .ok (f y)) :
    ∃ G, t.tfGradient eps params x = .ok G ∧ ∀ l, Spec.IsGradientAt (fun y => f y l) (G l) x := by
  have hG := S.good ht
  have hg := S.wf
  have he := S.eps_pos
  obtain ⟨k, s, _, hk, hfs, _⟩ := S.find hG x
  have hR := rectOf_lt hg x
  have hI := Tri.Good.verts_indep S.tri hk (rectOf g x)
  have hproj : ∀ y : Fin d → ℝ, (∀ i, g.lo i + 2 * eps < y i ∧ y i < g.hi i - 2 * eps) → t.projected y = y := by
    intro y hy
    unfold Tri.projected
    split_ifs
    · rw [hG.disc]
      exact funext fun i => clip_of_mem (by linarith [(hy i).1]) (by linarith [(hy i).2])
    · rfl
  have hgw := hG.getWeights_ok hg hk hR hfs
  rw [hproj x hx] at hgw
  obtain ⟨rfl, rfl⟩ := Prod.mk.inj (Except.ok.inj (hgw.symm.trans hw))
  have hlt : ∀ j, (ravel g.num fun i => rectOf g x i + bits g (s j) i) < params.length := fun j => by
    rw [hlen]; exact ravel_lt _ _ fun i => bits_add_lt hg hR (s j) i
  -- all points close to `x` are in the simplex
  have hval : ∀ y : Fin d → ℝ, (∀ i, g.lo i + 2 * eps < y i ∧ y i < g.hi i - 2 * eps) →
      (∀ j, 0 < codeWeights (edges (verts g (rectOf g x) s))⁻¹ (verts g (rectOf g x) s 0) y j) →
      ∀ l, f y l = ∑ j, codeWeights (edges (verts g (rectOf g x) s))⁻¹ (verts g (rectOf g x) s 0) y j *
        params.getD (ravel g.num fun i => rectOf g x i + bits g (s j) i) 0 l := by
    intro y hy hp l
    have hn : simplexNumber g D k (rectOf g x) < D.simplices.length * ∏ i, (g.num i - 1) := by
      have h1 := lt_nsimplex hk
      have h2 : ravel g.numRect (rectOf g x) < ∏ i, (g.num i - 1) := ravel_lt _ _ hR
      unfold simplexNumber
      unfold Delaunay.nsimplex at *
      nlinarith
    have h3 := C18_well_defined S ht hT params hlen y (fun i => ⟨(hy i).1.le, (hy i).2.le⟩) _ hn _
      (hG.simplices_ok hg hk hR) _ (fun j => isGridPoint_verts hg hR s j) _
      ⟨fun j => (hp j).le, codeWeights_bary hI y⟩
      (fun j => params[ravel g.num fun i => rectOf g x i + bits g (s j) i]'(hlt j))
      (fun j => List.getElem?_eq_getElem (hlt j))
    have h4 := hf y
    rw [C17_tf_agrees] at h4
    rw [Except.ok.inj (h4.symm.trans h3)]
    refine Finset.sum_congr rfl fun j _ => ?_
    rw [List.getD_eq_getElem?_getD, List.getElem?_eq_getElem (hlt j)]
    rfl
  refine ⟨_, gradient_ok hg hG hk hR hfs params hlen, fun l => isGradientAt_of_slope ?_⟩
  have e1 : ∀ᶠ y in 𝓝 x, ∀ i, g.lo i + 2 * eps < y i ∧ y i < g.hi i - 2 * eps := eventually_all.mpr fun i =>
    ((continuous_apply i).continuousAt.eventually (lt_mem_nhds (hx i).1)).and
      ((continuous_apply i).continuousAt.eventually (gt_mem_nhds (hx i).2))
  have e2 : ∀ᶠ y in 𝓝 x, ∀ j,
      0 < codeWeights (edges (verts g (rectOf g x) s))⁻¹ (verts g (rectOf g x) s 0) y j := eventually_all.mpr fun j =>
    (continuous_codeWeights _ _ j).continuousAt.eventually (lt_mem_nhds (hpos j))
  filter_upwards [e1, e2] with y h1 h2
  rw [hval y h1 h2, hval x hx hpos, ← Finset.sum_sub_distrib]
  simp only [← sub_mul, codeWeights_sub]
  simp only [Finset.sum_mul]
  rw [Finset.sum_comm]
  refine Finset.sum_congr rfl fun i _ => Finset.sum_congr rfl fun j _ => by ring

/-- The weights of the point `(1/4, 1/4)` are positive. -/
theorem quarter_weights {t : Tri ℝ 2} (ht : Tri.new twoSquares (delaunay2D twoSquares.unit) project = .ok t) :
    ∃ w idx, t.getWeights (1 / 1000) ![1/4, 1/4] = .ok (w, idx) ∧ ∀ j, 0 < w j := by
  have S := twoSquaresSetup
  have hG := S.good ht
  have hg := S.wf
  obtain ⟨k, s, w, hk, hf, hw⟩ := S.find hG ![1/4, 1/4]
  have hRl := rectOf_lt hg ![1/4, 1/4]
  have hR : rectOf twoSquares ![1/4, 1/4] = fun _ => 0 := by
    funext i
    have := rectOf_lt hg ![1/4, 1/4] i
    fin_cases i
    · simpa [GridWorld.numRect, twoSquares] using this
    · obtain ⟨a1, -, -⟩ := rectOf_spec hg ![1/4, 1/4] 1
      rw [clip_of_mem (by simp [twoSquares]) (by simp [twoSquares]; norm_num)] at a1
      simp only [GridWorld.ijkToState, twoSquares_unit] at a1
      simp [twoSquares] at a1
      have : (rectOf twoSquares ![1/4, 1/4] 1 : ℝ) < 1 := by
        refine lt_of_le_of_lt ?_ (show (4 : ℝ)⁻¹ < 1 by norm_num)
        simpa [twoSquares] using a1
      have : rectOf twoSquares ![1/4, 1/4] 1 < 1 := by exact_mod_cast this
      simpa using this
  rw [hR] at hf hw hRl
  have hI := Tri.Good.verts_indep S.tri hk (fun _ : Fin 2 => 0)
  have hp : t.projected ![1/4, 1/4] = ![1/4, 1/4] := by
    unfold Tri.projected
    split_ifs
    · rw [hG.disc]
      funext i
      fin_cases i
      · exact clip_of_mem (by simp [twoSquares]) (by simp [twoSquares]; norm_num)
      · exact clip_of_mem (by simp [twoSquares]) (by simp [twoSquares]; norm_num)
    · rfl
  have hsh : shrink twoSquares (1 / 1000) ![1/4, 1/4] = ![1/4, 1/4] := by
    funext i
    fin_cases i
    · exact clip_of_mem (by simp [twoSquares]; norm_num) (by simp [twoSquares]; norm_num)
    · exact clip_of_mem (by simp [twoSquares]; norm_num) (by simp [twoSquares]; norm_num)
  rw [hsh] at hw
  refine ⟨_, _, hG.getWeights_ok hg hk hRl hf, ?_⟩
  rw [hp, bary_unique hI (codeWeights_bary hI _) hw.2]
  obtain ⟨w1, w2, w3⟩ := hw
  have c0 := w3 0
  have c1 := w3 1
  simp only [twoSquares_verts] at c0 c1
  have hs : s ∈ (delaunay2D twoSquares.unit).simplices := List.mem_of_getElem? hk
  simp only [delaunay2D, List.mem_cons, List.not_mem_nil, or_false] at hs
  have h0 := w1 0
  rcases hs with rfl | rfl
  · simp [vertices, Fin.sum_univ_three] at c0 c1 w2
    intro j
    fin_cases j
    · show 0 < w 0
      linarith
    · show 0 < w 1
      linarith
    · show 0 < w 2
      linarith
  · simp [vertices, Fin.sum_univ_three] at c0 c1 w2
    linarith

/-- C91: the hypotheses hold at `(1/4, 1/4)`. -/
example (project : Bool) (t : Tri ℝ 2) (ht : Tri.new twoSquares (delaunay2D twoSquares.unit) project = .ok t)
    (f : (Fin 2 → ℝ) → Fin 1 → ℝ) (hf : ∀ y, t.tfEvaluate (1 / 1000) cornerParams y = .ok (f y)) :
    ∃ G, t.tfGradient (1 / 1000) cornerParams ![1/4, 1/4] = .ok G ∧
      ∀ l, Spec.IsGradientAt (fun y => f y l) (G l) ![1/4, 1/4] := by
  obtain ⟨w, idx, h1, h2⟩ := quarter_weights ht
  refine C91_interior_partial twoSquaresSetup ht
    (C18_tiling_2d _ twoSquaresSetup.two_le twoSquaresSetup.lt _ (delaunay2D_isProper _ twoSquaresSetup.wf)) _
    (by simp [cornerParams, twoSquares]) _ (fun i => ?_) w idx h1 h2 f hf
  fin_cases i <;> simp [twoSquares] <;> norm_num

end SafeLearning
