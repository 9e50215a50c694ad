import Verif.Props.TriangulationExamples
import Verif.Props.PiecewiseConstant
set_option autoImplicit false

/-!
# C08, C14, C17 (continued) and C76: parameter arrays, arguments of the gradient functions
-/

namespace SafeLearning

set_option linter.unusedSectionVars false

open Spec GridWorld

variable {K : Type} [Field K] [LinearOrder K] [IsStrictOrderedRing K] [FloorRing K] {d o : ℕ}

/-! ## Parameter arrays -/

/-- **C08 and C09 (parameters).** The parameter setter accepts exactly the arrays whose size is the number of grid points times the number of
outputs. Then row `k` holds the `o` consecutive numbers of the given array that start at `k * o`. -/
theorem C08_parameters_rows (n o : ℕ) (values : List K) :
    (values.length ≠ n * o → reshapeParameters n o values = .error .valueError) ∧
    (values.length = n * o → ∃ params, reshapeParameters n o values = .ok params ∧
      params.length = n ∧ params.flatMap (fun r => List.ofFn r) = values ∧
      ∀ (k : ℕ) (r : Fin o → K), params[k]? = some r → ∀ j : Fin o,
        values[k * o + j.1]? = some (r j)) := by
  refine ⟨fun h => by rw [reshapeParameters, if_neg h], fun h => ⟨_, by rw [reshapeParameters, if_pos h],
    by simp, ?_, ?_⟩⟩
  · have key : ∀ (m : ℕ) (vs : List K), vs.length = m * o →
        ((List.range m).map fun i => (fun j : Fin o => vs.getD (i * o + j.1) 0)).flatMap
          (fun r => List.ofFn r) = vs := by
      intro m
      induction m with
      | zero =>
        intro vs hv
        have : vs = [] := List.length_eq_zero_iff.mp (by simpa using hv)
        simp [this]
      | succ m ih =>
        intro vs hv
        rw [List.range_succ_eq_map, List.map_cons, List.flatMap_cons]
        have h1 : (List.ofFn fun j : Fin o => vs.getD (0 * o + j.1) 0) = vs.take o := by
          apply List.ext_getElem?
          intro k
          rw [List.getElem?_ofFn, List.getElem?_take]
          by_cases hk : k < o
          · have : k < vs.length := by rw [hv, Nat.succ_mul]; omega
            simp [hk, List.getD, this]
          · simp [hk]
        have h2 := ih (vs.drop o) (by rw [List.length_drop, hv, Nat.succ_mul]; omega)
        rw [h1]
        conv_rhs => rw [← List.take_append_drop o vs, ← h2]
        congr 1
        rw [List.map_map]
        apply congrArg (List.flatMap _)
        apply List.map_congr_left
        intro i _
        funext j
        simp only [Function.comp, List.getD, List.getElem?_drop]
        congr 2
        rw [Nat.succ_mul]
        omega
    exact key n values h
  · intro k r hk j
    rw [List.getElem?_map] at hk
    by_cases hn : k < n
    · rw [List.getElem?_range hn, Option.map_some, Option.some.injEq] at hk
      subst hk
      have : k * o + j.1 < values.length := by
        rw [h]
        calc k * o + j.1 < k * o + o := by have := j.2; omega
          _ = (k + 1) * o := by ring
          _ ≤ n * o := Nat.mul_le_mul_right _ hn
      simp [List.getD, this]
    · rw [List.getElem?_eq_none (by simpa using hn)] at hk
      simp at hk

example : (reshapeParameters 2 3 [(1 : ℚ), 2, 3, 4, 5, 6]).map (fun p => p.map fun r => List.ofFn r) =
    .ok [[1, 2, 3], [4, 5, 6]] := by
  decide +kernel

/-! ## Arguments of the gradient functions -/

/-- **C14 (arguments).** The gradient functions accept either points or simplex indices; with both or none of them they raise `TypeError`. -/
theorem C14_arguments (t : Tri K d) (eps : K) (points : Option (List (Fin d → K)))
    (indices : Option (List ℤ)) (h : points.isSome = indices.isSome) :
    t.gradientParameterDerivative eps points indices = .error .typeError := by
  unfold Tri.gradientParameterDerivative Tri.getWeightsGradient
  cases points <;> cases indices <;> simp at h <;> rfl

example : (some [![(0 : ℚ)]]).isSome = (some [(0 : ℤ)]).isSome := rfl

/-! ## C17, gradient -/

variable {g : GridWorld K d} {D : Delaunay K d} {eps : K} {project : Bool} {t : Tri K d}

/-- **C17 (gradient).** The gradient of the TensorFlow class is the slope of the function that it evaluates, for the current
parameters: for two points in the same simplex the difference of the values is the gradient times the difference of the points. -/
theorem C17_tf_gradient_is_slope (S : TriSetup g D eps) (ht : Tri.new g D project = .ok t)
    (params : List (Fin o → K)) (hlen : params.length = ∏ i, g.num i) (x x' : Fin d → K)
    (hx : t.findSimplex eps x = t.findSimplex eps x') :
    ∃ v v' G, t.tfEvaluate eps params x = .ok v ∧ t.tfEvaluate eps params x' = .ok v' ∧
      t.tfGradient eps params x = .ok G ∧
      ∀ l, v l - v' l = ∑ i, G l i * ((if project then clipBox g.lo g.hi x else x) i -
        (if project then clipBox g.lo g.hi x' else x') i) := by
  obtain ⟨v, v', G, h1, h2, h3, -, h5⟩ := C14_gradient_is_slope S ht params hlen x x' hx
  exact ⟨v, v', G, by rw [C17_tf_agrees, h1], by rw [C17_tf_agrees, h2], h3, h5⟩

/-- **C17 (gradient).** For the parameters of an affine function the TensorFlow gradient is the slope of that function everywhere. -/
theorem C17_tf_gradient_affine (S : TriSetup g D eps) (ht : Tri.new g D project = .ok t)
    (A : Fin o → Fin d → K) (b : Fin o → K) (params : List (Fin o → K))
    (hlen : params.length = ∏ i, g.num i)
    (hp : ∀ k p, IsGridPoint g.lo g.hi g.num k p →
      params[k]? = some fun l => ∑ i, A l i * p i + b l)
    (x : Fin d → K) : t.tfGradient eps params x = .ok A :=
  C14_gradient_affine S ht A b params hlen hp x

example (project : Bool) (t : Tri ℚ 2)
    (ht : Tri.new exampleGrid (delaunay2D exampleGrid.unit) project = .ok t) (x : Fin 2 → ℚ) :
    t.tfGradient (1 / 1000) affineParams x = .ok fun _ => ![2, -3] :=
  C17_tf_gradient_affine exampleSetup ht _ _ affineParams affineParams_length affineParams_spec x

/-! ## C76 -/

/-- The full property C76 for the call `gradient_parameter_derivative(indices=array)`: the array of the caller is not
changed. -/
def _root_.Spec.KeepsArgument {β : Type} (call : List ℤ → Except PyErr (β × List ℤ))
    (array : List ℤ) : Prop :=
  ∀ r, call array = .ok r → r.2 = array

/-- **C76, partial.** The array of the caller is unchanged if all its indices are those of simplices in the first
rectangle. Missing: all other indices, for which it is changed (`C76_argument_refuted`). -/
theorem C76_argument_unchanged_partial (t : Tri K d) (eps : K) (array : List ℤ)
    (h : ∀ k ∈ array, 0 ≤ k ∧ k < t.triangulation.nsimplex) :
    Spec.KeepsArgument (t.gradientParameterDerivativeOnArray eps) array := by
  intro r hr
  unfold Tri.gradientParameterDerivativeOnArray at hr
  simp only [bind, Except.bind] at hr
  split at hr
  · simp at hr
  · simp only [pure, Except.pure, Except.ok.injEq] at hr
    subst hr
    simp only
    conv_rhs => rw [← List.map_id array]
    apply List.map_congr_left
    intro k hk
    exact Int.emod_eq_of_lt (h k hk).1 (h k hk).2

theorem gradientColumns (t : Tri K d) (eps : K) (n : ℤ) {w : (Fin d → Fin (d + 1) → K) × (Fin (d + 1) → ℕ)}
    (h : t.weightsGradientAt n = .ok w) :
    ∃ B, t.gradientParameterDerivative eps none (some [n]) = .ok B ∧
      B.entries.map (fun e => e.2.2) =
        (List.finRange d).flatMap fun _ => (List.finRange (d + 1)).map w.2 := by
  refine ⟨{ nrows := d * 1, ncols := t.disc.nindex, entries := Tri.gradientEntries 0 w ++ [] }, ?_, ?_⟩
  · unfold Tri.gradientParameterDerivative Tri.getWeightsGradient
    simp only [bind, Except.bind, List.mapM_cons, List.mapM_nil, h]
    rfl
  · simp only [List.append_nil, Tri.gradientEntries, List.map_flatMap, List.map_map]
    rfl

/-- **C76, refuted.** For every triangulation and every index of a simplex that is not in the first rectangle the array of the caller is
changed to the index of a simplex of the first rectangle. A second call with the same array is then about that simplex, and its matrix has
its entries in other columns. -/
theorem C76_argument_refuted (S : TriSetup g D eps) (ht : Tri.new g D project = .ok t) (n : ℕ)
    (h1 : D.simplices.length ≤ n) (h2 : n < D.simplices.length * ∏ i, (g.num i - 1)) :
    ∃ (B B' : Coo K) (array' array'' : List ℤ),
      t.gradientParameterDerivativeOnArray eps [(n : ℤ)] = .ok (B, array') ∧
      t.gradientParameterDerivativeOnArray eps array' = .ok (B', array'') ∧
      array' ≠ [(n : ℤ)] ∧
      ¬ Spec.KeepsArgument (t.gradientParameterDerivativeOnArray eps) [(n : ℤ)] ∧
      B.entries.map (fun e => e.2.2) ≠ B'.entries.map (fun e => e.2.2) := by
  have hG := S.good ht
  have hpos : 0 < D.simplices.length := by
    rcases Nat.eq_zero_or_pos D.simplices.length with h | h
    · rw [h] at h2; omega
    · exact h
  have hns : t.triangulation.nsimplex = D.simplices.length := by
    rw [hG.tri]; rfl
  have hk : n % D.simplices.length < D.simplices.length := Nat.mod_lt _ hpos
  have hr : n / D.simplices.length < shapeProd g.numRect := Nat.div_lt_of_lt_mul h2
  have hr0 : 0 < shapeProd g.numRect := lt_of_le_of_lt (Nat.zero_le _) hr
  have hR := unravel_lt _ _ hr
  have hR0 := unravel_lt _ _ hr0
  have hs : D.simplices[n % D.simplices.length]? = some (D.simplices[n % D.simplices.length]) :=
    List.getElem?_eq_getElem hk
  have hnum : simplexNumber g D (n % D.simplices.length)
      (unravel g.numRect (n / D.simplices.length)) = n := by
    unfold simplexNumber Delaunay.nsimplex
    rw [ravel_unravel _ _ hr, Nat.mul_comm]
    exact Nat.mod_add_div n _
  have hnum0 : simplexNumber g D (n % D.simplices.length) (unravel g.numRect 0) =
      n % D.simplices.length := by
    unfold simplexNumber Delaunay.nsimplex
    rw [ravel_unravel _ _ hr0, Nat.zero_mul, Nat.add_zero]
  have w1 := hG.weightsGradientAt_ok S.wf hs hR
  have w0 := hG.weightsGradientAt_ok S.wf hs hR0
  rw [hnum] at w1
  rw [hnum0] at w0
  obtain ⟨B, hB, hBc⟩ := gradientColumns t eps _ w1
  obtain ⟨B', hB', hBc'⟩ := gradientColumns t eps _ w0
  have hmod : (n : ℤ) % (t.triangulation.nsimplex : ℤ) = ((n % D.simplices.length : ℕ) : ℤ) := by
    rw [hns]; push_cast; rfl
  have c1 : t.gradientParameterDerivativeOnArray eps [(n : ℤ)] =
      .ok (B, [((n % D.simplices.length : ℕ) : ℤ)]) := by
    unfold Tri.gradientParameterDerivativeOnArray
    rw [hB]
    simp only [bind, Except.bind, pure, Except.pure, List.map_cons, List.map_nil, hmod]
  have hne : [((n % D.simplices.length : ℕ) : ℤ)] ≠ [(n : ℤ)] := by
    intro h
    have h' : n % D.simplices.length = n := by exact_mod_cast (List.cons.inj h).1
    omega
  refine ⟨B, B', _, [((n % D.simplices.length : ℕ) : ℤ)].map fun k =>
    k % (t.triangulation.nsimplex : ℤ), c1, ?_, hne, fun h => hne (h _ c1), ?_⟩
  · unfold Tri.gradientParameterDerivativeOnArray
    rw [hB']
    rfl
  · rw [hBc, hBc']
    intro h
    have hRne : unravel g.numRect (n / D.simplices.length) ≠ unravel g.numRect 0 := by
      intro h
      have := congrArg (ravel g.numRect) h
      rw [ravel_unravel _ _ hr, ravel_unravel _ _ hr0] at this
      have := Nat.div_pos h1 hpos
      omega
    apply hRne
    cases d with
    | zero => funext i; exact i.elim0
    | succ d =>
      have h0 := congrArg (fun l : List ℕ => l[0]?) h
      simp only [List.finRange_succ, List.flatMap_cons, List.map_cons, List.cons_append,
        List.getElem?_cons_zero, Option.some.injEq] at h0
      have := congrArg (unravel g.num) h0
      rw [unravel_ravel _ _ fun i => bits_add_lt S.wf hR _ i,
        unravel_ravel _ _ fun i => bits_add_lt S.wf hR0 _ i] at this
      funext i
      have := congrFun this i
      omega

/-- The hypotheses of `C76_argument_refuted` hold for simplex 5 of `exampleGrid`, in its third rectangle. -/
example (project : Bool) (t : Tri ℚ 2)
    (ht : Tri.new exampleGrid (delaunay2D exampleGrid.unit) project = .ok t) :
    ¬ Spec.KeepsArgument (t.gradientParameterDerivativeOnArray (1 / 1000)) [5] := by
  obtain ⟨_, _, _, _, _, _, _, h, _⟩ := C76_argument_refuted exampleSetup ht 5 (by decide +kernel)
    (by decide +kernel)
  exact h

/-- The hypothesis of `C76_argument_unchanged_partial` holds for the simplices of the first rectangle of `exampleGrid`. -/
example (project : Bool) (t : Tri ℚ 2)
    (ht : Tri.new exampleGrid (delaunay2D exampleGrid.unit) project = .ok t) :
    ∀ k ∈ [(0 : ℤ), 1, 0], 0 ≤ k ∧ k < t.triangulation.nsimplex := by
  rw [(exampleSetup.good ht).tri]
  decide +kernel

end SafeLearning
