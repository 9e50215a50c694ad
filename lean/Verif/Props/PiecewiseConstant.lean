import Verif.Lemmas.Sparse
import Verif.Props.Grid
set_option autoImplicit false

/-!
# C08: piecewise constant functions
-/

namespace SafeLearning

set_option linter.unusedSectionVars false

variable {K : Type} [Field K] [LinearOrder K] [IsStrictOrderedRing K] [FloorRing K] {d o : ℕ}

/-- Both functions in terms of the index of each point. -/
theorem pcEvaluate_eq (g : GridWorld K d) (h2 : ∀ i, 2 ≤ g.num i) (hlt : ∀ i, g.lo i < g.hi i)
    (params : List (Fin o → K)) (hp : params.length = ∏ i, g.num i) (points : List (Fin d → K)) :
    ∃ node : (Fin d → K) → ℕ, (∀ x, g.stateToIndex (List.ofFn x) = .ok (node x) ∧
        node x < ∏ i, g.num i) ∧
      pcEvaluate g params (points.map fun x => List.ofFn x) =
        .ok (points.map fun x => params.getD (node x) 0) ∧
      pcParameterDerivative g (points.map fun x => List.ofFn x) =
        .ok { nrows := points.length, ncols := ∏ i, g.num i,
              entries := (List.range points.length).zipWith (fun r c => (1, r, c))
                (points.map node) } := by
  choose node p h using fun x => g.C02_state_to_index_nearest h2 hlt x
  refine ⟨node, fun x => ⟨(h x).1, (h x).2.1⟩, ?_, ?_⟩
  · unfold pcEvaluate
    have h1 : (points.map fun x => List.ofFn x).mapM g.stateToIndex = .ok (points.map node) := by
      rw [mapM_ok (g := fun r => if hr : r.length = d then node (fun i => r[i]) else 0)]
      · rw [List.map_map]
        congr 1
        apply List.map_congr_left
        intro x _
        simp [Function.comp]
      · intro r hr
        obtain ⟨x, _, rfl⟩ := List.mem_map.mp hr
        simp [(h x).1]
    rw [h1]
    simp only [bind, Except.bind]
    rw [mapM_ok (g := fun k => params.getD k 0)]
    · rw [List.map_map]
      rfl
    · intro k hk
      obtain ⟨x, _, rfl⟩ := List.mem_map.mp hk
      apply rowAt_ok
      have : node x < params.length := by rw [hp]; exact (h x).2.1
      simp [List.getD_eq_getElem?_getD, this]
  · unfold pcParameterDerivative
    have h1 : (points.map fun x => List.ofFn x).mapM g.stateToIndex = .ok (points.map node) := by
      rw [mapM_ok (g := fun r => if hr : r.length = d then node (fun i => r[i]) else 0)]
      · rw [List.map_map]
        congr 1
        apply List.map_congr_left
        intro x _
        simp [Function.comp]
      · intro r hr
        obtain ⟨x, _, rfl⟩ := List.mem_map.mp hr
        simp [(h x).1]
    rw [h1]
    simp only [bind, Except.bind, pure, Except.pure, List.length_map]
    rfl

/-- **C08.** The value at any point is the parameter of a grid point that is at least as close to the point as every
other grid point, coordinate by coordinate. -/
theorem C08_nearest_value (g : GridWorld K d) (h2 : ∀ i, 2 ≤ g.num i)
    (hlt : ∀ i, g.lo i < g.hi i) (params : List (Fin o → K))
    (hp : params.length = ∏ i, g.num i) (points : List (Fin d → K)) :
    ∃ values, pcEvaluate g params (points.map fun x => List.ofFn x) = .ok values ∧
      values.length = points.length ∧
      ∀ (k : ℕ) (x : Fin d → K), points[k]? = some x → ∃ j p v, values[k]? = some v ∧
        params[j]? = some v ∧ Spec.IsGridPoint g.lo g.hi g.num j p ∧
        ∀ i j', j' < g.num i →
          |x i - p i| ≤ |x i - Spec.axisPoint (g.lo i) (g.hi i) (g.num i) j'| := by
  obtain ⟨node, hn, he, _⟩ := pcEvaluate_eq g h2 hlt params hp points
  refine ⟨_, he, by simp, fun k x hx => ?_⟩
  obtain ⟨j, p, h1, h3, h4, h5, h6, h7⟩ := g.C02_state_to_index_nearest h2 hlt x
  have hj : j = node x := by
    have := h1.symm.trans (hn x).1
    simpa using this
  subst hj
  refine ⟨node x, p, params.getD (node x) 0, by simp [hx], ?_, h5, h6⟩
  have : node x < params.length := by rw [hp]; exact h3
  simp [List.getD_eq_getElem?_getD, this]

/-- **C08.** At grid point `k` the value is parameter `k`. -/
theorem C08_grid_points (g : GridWorld K d) (h2 : ∀ i, 2 ≤ g.num i) (hlt : ∀ i, g.lo i < g.hi i)
    (params : List (Fin o → K)) (hp : params.length = ∏ i, g.num i) (k : ℕ)
    (hk : k < ∏ i, g.num i) (x : Fin d → K) (hx : Spec.IsGridPoint g.lo g.hi g.num k x) :
    pcEvaluate g params [List.ofFn x] = .ok [params[k]] := by
  obtain ⟨node, hn, he, _⟩ := pcEvaluate_eq g h2 hlt params hp [x]
  have h0 : (0 : K) < 1 / 2 := by norm_num
  have h1 := g.C01_index_roundtrip_robust h2 hlt k x x hx (fun i => by
    have : (0 : K) < (g.num i : K) - 1 := by
      have : (2 : K) ≤ g.num i := by exact_mod_cast h2 i
      linarith
    have := div_pos (sub_pos.mpr (hlt i)) this
    simp only [sub_self, abs_zero]
    linarith)
  have hj : node x = k := by
    have := (hn x).1.symm.trans h1
    simpa using this
  simp only [List.map_cons, List.map_nil, hj] at he
  have hkp : k < params.length := by rw [hp]; exact hk
  rw [he]
  simp [List.getD_eq_getElem?_getD, hkp]

/-- **C08.** The parameter derivative times the parameters is the evaluation, for every parameter vector. -/
theorem C08_parameter_derivative (g : GridWorld K d) (h2 : ∀ i, 2 ≤ g.num i)
    (hlt : ∀ i, g.lo i < g.hi i) (points : List (Fin d → K)) :
    ∃ B, pcParameterDerivative g (points.map fun x => List.ofFn x) = .ok B ∧
      ∀ (o : ℕ) (params : List (Fin o → K)), params.length = ∏ i, g.num i →
        B.dot params = pcEvaluate g params (points.map fun x => List.ofFn x) := by
  obtain ⟨node, hn, _, hB⟩ := pcEvaluate_eq (o := 0) g h2 hlt
    (List.replicate (∏ i, g.num i) 0) (by simp) points
  refine ⟨_, hB, fun o params hp => ?_⟩
  obtain ⟨node', hn', he, _⟩ := pcEvaluate_eq g h2 hlt params hp points
  have hnn : node' = node := by
    funext x
    have := (hn' x).1.symm.trans (hn x).1
    simpa using this
  subst hnn
  rw [he]
  unfold Coo.dot
  rw [if_pos (by simp [hp])]
  congr 1
  apply List.ext_getElem
  · simp
  · intro k hk1 hk2
    have hk : k < points.length := by simpa using hk1
    simp only [List.getElem_map, List.getElem_range]
    have hb := filter_blocks (K := K) (fun r (c : ℕ) => [((1 : K), r, c)]) id (by simp) k
      (points.map node')
    have hflat : ((List.range (points.map node').length).zipWith
        (fun r (c : ℕ) => [((1 : K), r, c)]) (points.map node')).flatten =
        (List.range points.length).zipWith (fun r c => (1, r, c)) (points.map node') := by
      rw [List.length_map]
      generalize List.range points.length = rs
      generalize points.map node' = cs
      induction rs generalizing cs with
      | nil => simp
      | cons r rs ih =>
        cases cs with
        | nil => simp
        | cons c cs => simp [ih]
    rw [hflat] at hb
    rw [hb]
    simp [hk]

/-- **C08.** The gradient is zero, one row per point. -/
theorem C08_gradient (points : List (List K)) :
    (pcGradient (K := K) d points).length = points.length ∧
      ∀ r ∈ pcGradient (K := K) d points, r = 0 := by
  unfold pcGradient
  refine ⟨by simp, fun r hr => ?_⟩
  obtain ⟨_, _, rfl⟩ := List.mem_map.mp hr
  rfl

/-- **C08** (too few values): at a grid point without a value `IndexError` is raised. -/
theorem C08_too_few_values (g : GridWorld K d) (h2 : ∀ i, 2 ≤ g.num i) (hlt : ∀ i, g.lo i < g.hi i)
    (params : List (Fin o → K)) (k : ℕ) (hk : params.length ≤ k) (x : Fin d → K)
    (hx : Spec.IsGridPoint g.lo g.hi g.num k x) :
    pcEvaluate g params [List.ofFn x] = .error .indexError := by
  have h1 := g.C01_index_roundtrip_robust h2 hlt k x x hx (fun i => by
    have : (0 : K) < (g.num i : K) - 1 := by
      have : (2 : K) ≤ g.num i := by exact_mod_cast h2 i
      linarith
    have := div_pos (sub_pos.mpr (hlt i)) this
    simp only [sub_self, abs_zero]
    linarith)
  simp only [pcEvaluate, List.mapM_cons, List.mapM_nil, h1, rowAt, List.getElem?_eq_none hk, bind, Except.bind, pure,
    Except.pure]

/-- A concrete evaluation at a grid point and two other points. -/
example : (match pcEvaluate (o := 1) GridWorld.exampleGrid
      ((List.range 12).map fun k _ => (k : ℚ)) [[-1, 2], [1 / 3, 9 / 2 + 1 / 5], [7, 7]] with
    | .ok vs => decide (vs.map (fun v => v 0) = [0, 7, 11])
    | .error _ => false) = true := by decide +kernel

end SafeLearning
