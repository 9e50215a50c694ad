import Verif.Lemmas.Tiling
import Mathlib.Topology.LocallyFinite
import Mathlib.Topology.MetricSpace.Pseudo.Defs
import Mathlib.Topology.Algebra.Ring.Real
import Mathlib.Topology.Algebra.Monoid
import Mathlib.Topology.Order.OrderClosed
set_option autoImplicit false

/-!
# C18: continuity of triangulated functions
-/

namespace SafeLearning

set_option linter.unusedSectionVars false

open Spec

section Field

variable {K : Type} [Field K] [LinearOrder K] [IsStrictOrderedRing K] [FloorRing K] {d o : ℕ}
  {g : GridWorld K d} {D : Delaunay K d} {eps : K} {project : Bool} {t : Tri K d}

/-- Simplices of any two rectangles agree on the weights of a common point. -/
theorem weightAt_verts
    (hT : IsProperTiling g.unit (cornerPoints g) D.simplices) {s s' : Fin (d + 1) → ℕ}
    (hs : s ∈ D.simplices) (hs' : s' ∈ D.simplices) (R R' : Fin d → ℕ) {x : Fin d → K}
    {w w' : Fin (d + 1) → K} (hw : IsConvexComb (verts g R s) w x)
    (hw' : IsConvexComb (verts g R' s') w' x) (p : Fin d → K) :
    weightAt (verts g R s) w p = weightAt (verts g R' s') w' p := by
  have h1 : verts g R s = fun j i => g.ijkToState R i + vertices (cornerPoints g) s j i :=
    funext fun j => funext fun i => verts_eq g R s j i
  have h2 : verts g R' s' = fun j i => g.ijkToState R i +
      ((((R' i : ℤ) - R i : ℤ) : K) * g.unit i + vertices (cornerPoints g) s' j i) := by
    funext j i
    rw [verts_eq]
    unfold GridWorld.ijkToState
    push_cast
    ring
  rw [h1, weightAt_shift, h2,
    weightAt_shift (v := fun j i => ((((R' i : ℤ) - R i : ℤ) : K) * g.unit i +
      vertices (cornerPoints g) s' j i))]
  refine hT (fun i => (R' i : ℤ) - R i) s hs s' hs' (fun i => x i - g.ijkToState R i) w w'
    ⟨hw.1, ?_⟩ ⟨hw'.1, ?_⟩ _
  · have := bary_shift (v := verts g R s) (fun i => -g.ijkToState R i)
      (v' := vertices (cornerPoints g) s) (fun j i => by rw [verts_eq]; ring) hw.2
    have e : (fun i => -g.ijkToState R i + x i) = fun i => x i - g.ijkToState R i := by
      funext i; ring
    rwa [e] at this
  · have := bary_shift (v := verts g R' s') (fun i => -g.ijkToState R i)
      (v' := fun j i => ((((R' i : ℤ) - R i : ℤ) : K) * g.unit i +
        vertices (cornerPoints g) s' j i)) (fun j i => by rw [h2]; ring) hw'.2
    have e : (fun i => -g.ijkToState R i + x i) = fun i => x i - g.ijkToState R i := by
      funext i; ring
    rwa [e] at this

/-- The parameter stored for a grid point, as a function of the grid point. -/
def paramAt (g : GridWorld K d) (params : List (Fin o → K)) (l : Fin o) (p : Fin d → K) : K :=
  match g.stateToIndex (List.ofFn p) with
  | .ok k => params.getD k 0 l
  | .error _ => 0

theorem paramAt_verts (hg : g.WF) (params : List (Fin o → K)) (l : Fin o) {R : Fin d → ℕ}
    (hR : ∀ i, R i < g.numRect i) (s : Fin (d + 1) → ℕ) (j : Fin (d + 1)) :
    paramAt g params l (verts g R s j) =
      params.getD (ravel g.num fun i => R i + bits g (s j) i) 0 l := by
  have hlt : ∀ i, R i + bits g (s j) i < g.num i := fun i => bits_add_lt hg hR (s j) i
  have : g.stateToIndex (List.ofFn (verts g R s j)) =
      .ok (ravel g.num fun i => R i + bits g (s j) i) := by
    rw [GridWorld.stateToIndex_ofFn]
    unfold verts
    have : g.stateToIjk (g.ijkToState fun i => R i + bits g (s j) i) =
        fun i => ((R i + bits g (s j) i : ℕ) : ℤ) :=
      funext fun i => hg.stateToIjk_ijkToState _ hlt i
    rw [this, ravelMultiIndex_ok _ _ hlt]
  unfold paramAt
  rw [this]

theorem exists_simplexNumber (n : ℕ) (hn : n < D.simplices.length * ∏ i, (g.num i - 1)) :
    ∃ k s R, D.simplices[k]? = some s ∧ (∀ i, R i < g.numRect i) ∧ simplexNumber g D k R = n := by
  have hpos : 0 < D.simplices.length := by
    rcases Nat.eq_zero_or_pos D.simplices.length with h | h
    · rw [h] at hn; omega
    · exact h
  have hr : n / D.simplices.length < shapeProd g.numRect := Nat.div_lt_of_lt_mul hn
  refine ⟨n % D.simplices.length, D.simplices[n % D.simplices.length]'(Nat.mod_lt _ hpos),
    unravel g.numRect (n / D.simplices.length), List.getElem?_eq_getElem _, unravel_lt _ _ hr, ?_⟩
  unfold simplexNumber Delaunay.nsimplex
  rw [ravel_unravel _ _ hr, Nat.mul_comm]
  exact Nat.mod_add_div n _

/-- **C18.** Whichever simplex containing a point is used, in the same or another rectangle, the interpolated value is the value
returned by the evaluation. -/
theorem C18_well_defined (S : TriSetup g D eps) (ht : Tri.new g D project = .ok t)
    (hT : IsProperTiling (fun i => (g.hi i - g.lo i) / ((g.num i : K) - 1)) (cornerPoints g)
      D.simplices)
    (params : List (Fin o → K)) (hlen : params.length = ∏ i, g.num i) (x : Fin d → K)
    (hx : ∀ i, g.lo i + 2 * eps ≤ x i ∧ x i ≤ g.hi i - 2 * eps)
    (n : ℕ) (hn : n < D.simplices.length * ∏ i, (g.num i - 1)) (idx : Fin (d + 1) → ℕ)
    (hidx : t.simplices n = .ok idx) (v : Fin (d + 1) → Fin d → K)
    (hv : ∀ j, IsGridPoint g.lo g.hi g.num (idx j) (v j)) (w : Fin (d + 1) → K)
    (hw : IsConvexComb v w x) (f : Fin (d + 1) → Fin o → K)
    (hf : ∀ j, params[idx j]? = some (f j)) :
    t.evaluate eps params x = .ok fun l => ∑ j, w j * f j l := by
  have hG := S.good ht
  have hg := S.wf
  obtain ⟨k, s, R, hk, hR, rfl⟩ := exists_simplexNumber n hn
  have h1 := (hG.simplices_ok hg hk hR).symm.trans hidx
  cases h1
  have hvv : v = verts g R s := funext fun j => IsGridPoint.unique (hv j) (isGridPoint_verts hg hR s j)
  subst hvv
  -- the simplex found by the code
  obtain ⟨k', s', w', hk', hf', hw'⟩ := S.find hG x
  have hR' := rectOf_lt hg x
  have hs : shrink g eps x = x := funext fun i => clip_of_mem (hx i).1 (hx i).2
  rw [hs] at hw'
  have hp : t.projected x = x := by
    have he := S.eps_pos
    unfold Tri.projected
    split_ifs
    · rw [hG.disc]
      exact funext fun i => clip_of_mem (by linarith [(hx i).1]) (by linarith [(hx i).2])
    · rfl
  have hI := Tri.Good.verts_indep S.tri hk' (rectOf g x)
  rw [evaluate_ok hg hG hk' hR' hf' params hlen, hp,
    bary_unique hI (codeWeights_bary hI x) hw'.2]
  congr 1
  funext l
  have key := sum_eq_of_weightAt (weightAt_verts hT (List.mem_of_getElem? hk')
    (List.mem_of_getElem? hk) (rectOf g x) R hw' hw) (paramAt g params l)
  simp only [paramAt_verts hg params l hR', paramAt_verts hg params l hR] at key
  rw [key]
  refine Finset.sum_congr rfl fun j _ => ?_
  rw [List.getD_eq_getElem?_getD, hf j]
  rfl

/-- **C18.** The assumption on neighbouring rectangles holds in one dimension for the code's own triangulation. -/
theorem C18_tiling_1d (g : GridWorld K 1) (h2 : ∀ i, 2 ≤ g.num i) (hlt : ∀ i, g.lo i < g.hi i) :
    IsProperTiling (fun i => (g.hi i - g.lo i) / ((g.num i : K) - 1)) (cornerPoints g)
      (delaunay1D 0 (g.unit 0)).simplices :=
  have hg : g.WF := ⟨h2, hlt⟩
  tiling_of_proper (by omega) hg.unit_pos (fun p hp i => cornerPoints_coord g p hp i)
    (delaunay1D_isProper g hg)

/-- **C18.** In two dimensions it follows from the triangulation of a single rectangle being proper. -/
theorem C18_tiling_2d (g : GridWorld K 2) (h2 : ∀ i, 2 ≤ g.num i) (hlt : ∀ i, g.lo i < g.hi i)
    (simplices : List (Fin 3 → ℕ)) (hP : IsProper (cornerPoints g) simplices) :
    IsProperTiling (fun i => (g.hi i - g.lo i) / ((g.num i : K) - 1)) (cornerPoints g) simplices :=
  have hg : g.WF := ⟨h2, hlt⟩
  tiling_of_proper le_rfl hg.unit_pos (fun p hp i => cornerPoints_coord g p hp i) hP

end Field

/-! ## Continuity -/

variable {d o : ℕ} {g : GridWorld ℝ d} {D : Delaunay ℝ d} {eps : ℝ} {project : Bool} {t : Tri ℝ d}

theorem continuous_codeWeights (H : Matrix (Fin d) (Fin d) ℝ) (origin : Fin d → ℝ)
    (j : Fin (d + 1)) : Continuous fun x => codeWeights H origin x j := by
  unfold codeWeights
  refine Fin.cases ?_ (fun j => ?_) j
  · simp only [Fin.cons_zero]
    fun_prop
  · simp only [Fin.cons_succ]
    fun_prop

/-- **C18.** The evaluated function is continuous on the domain (at least `2 * eps` from its boundary), for every triangulation
whose copies meet in common faces. -/
theorem C18_continuous (S : TriSetup g D eps) (ht : Tri.new g D project = .ok t)
    (hT : IsProperTiling (fun i => (g.hi i - g.lo i) / ((g.num i : ℝ) - 1)) (cornerPoints g)
      D.simplices)
    (params : List (Fin o → ℝ)) (hlen : params.length = ∏ i, g.num i)
    (f : (Fin d → ℝ) → Fin o → ℝ) (hf : ∀ x, t.evaluate eps params x = .ok (f x)) :
    ContinuousOn f {x | ∀ i, g.lo i + 2 * eps ≤ x i ∧ x i ≤ g.hi i - 2 * eps} := by
  have hG := S.good ht
  have hg := S.wf
  -- the closed cells
  choose ks ss Rs hks hRs hns using
    fun n : Fin (D.simplices.length * ∏ i, (g.num i - 1)) =>
      exists_simplexNumber (g := g) (D := D) n.1 n.2
  let V : Fin (D.simplices.length * ∏ i, (g.num i - 1)) → Fin (d + 1) → Fin d → ℝ := fun n =>
    verts g (Rs n) (ss n)
  let C : Fin (D.simplices.length * ∏ i, (g.num i - 1)) → Set (Fin d → ℝ) := fun n =>
    {x | (∀ i, g.lo i + 2 * eps ≤ x i ∧ x i ≤ g.hi i - 2 * eps) ∧
      ∀ j, 0 ≤ codeWeights (edges (V n))⁻¹ (V n 0) x j}
  have hVI : ∀ n, AffIndep (V n) := fun n => Tri.Good.verts_indep S.tri (hks n) _
  have hcl : ∀ n, IsClosed (C n) := by
    intro n
    have h1 : C n = (⋂ i, {x | g.lo i + 2 * eps ≤ x i} ∩ {x | x i ≤ g.hi i - 2 * eps}) ∩
        ⋂ j, {x | 0 ≤ codeWeights (edges (V n))⁻¹ (V n 0) x j} := by
      ext x
      simp [C]
    rw [h1]
    refine IsClosed.inter (isClosed_iInter fun i => IsClosed.inter ?_ ?_)
      (isClosed_iInter fun j => isClosed_le continuous_const (continuous_codeWeights _ _ j))
    · exact isClosed_le continuous_const (continuous_apply i)
    · exact isClosed_le (continuous_apply i) continuous_const
  -- on each cell the function is affine
  have hcont : ∀ n, ContinuousOn f (C n) := by
    intro n
    have hlt : ∀ j, (ravel g.num fun i => Rs n i + bits g (ss n j) i) < params.length := fun j => by
      rw [hlen]; exact ravel_lt _ _ fun i => bits_add_lt hg (hRs n) (ss n j) i
    have heq : Set.EqOn f (fun x l => ∑ j, codeWeights (edges (V n))⁻¹ (V n 0) x j *
        (params[ravel g.num fun i => Rs n i + bits g (ss n j) i]'(hlt j)) l) (C n) := by
      intro x hx
      have h2 := hG.simplices_ok hg (hks n) (hRs n)
      have h3 := C18_well_defined S ht hT params hlen x hx.1 _ (by rw [hns]; exact n.2) _ h2
        (V n) (fun j => isGridPoint_verts hg (hRs n) (ss n) j) _
        ⟨hx.2, codeWeights_bary (hVI n) x⟩
        (fun j => params[ravel g.num fun i => Rs n i + bits g (ss n j) i]'(hlt j))
        (fun j => List.getElem?_eq_getElem (hlt j))
      have h4 := (hf x).symm.trans h3
      exact Except.ok.inj h4
    refine ContinuousOn.congr ?_ heq
    apply Continuous.continuousOn
    refine continuous_pi fun l => continuous_finsetSum _ fun j _ => ?_
    exact (continuous_codeWeights _ _ j).mul continuous_const
  have := (locallyFinite_of_finite C).continuousOn_iUnion hcl hcont
  refine this.mono ?_
  intro x hx
  obtain ⟨k, s, w, hk, hf', hw⟩ := S.find hG x
  have hs : shrink g eps x = x := funext fun i => clip_of_mem (hx i).1 (hx i).2
  rw [hs] at hw
  have hR := rectOf_lt hg x
  have hn : simplexNumber g D k (rectOf g x) < D.simplices.length * ∏ i, (g.num i - 1) := by
    have h1 := lt_nsimplex hk
    have h2 : ravel g.numRect (rectOf g x) < ∏ i, (g.num i - 1) := ravel_lt _ _ hR
    unfold simplexNumber
    unfold Delaunay.nsimplex at *
    nlinarith
  rw [Set.mem_iUnion]
  refine ⟨⟨_, hn⟩, hx, ?_⟩
  -- the number determines the simplex
  have hk' := hks ⟨_, hn⟩
  have hR' := hRs ⟨_, hn⟩
  have hnum := hns ⟨_, hn⟩
  have hV : V ⟨_, hn⟩ = verts g (rectOf g x) s := by
    change verts g (Rs ⟨_, hn⟩) (ss ⟨_, hn⟩) = _
    generalize ks ⟨_, hn⟩ = k' at hk' hnum
    generalize ss ⟨_, hn⟩ = s' at hk' ⊢
    generalize Rs ⟨_, hn⟩ = R' at hR' hnum ⊢
    simp only at hnum
    have h1 := simplexNumber_mod (g := g) (lt_nsimplex hk') R'
    have h2 := simplexNumber_mod (g := g) (lt_nsimplex hk) (rectOf g x)
    have h3 := simplexNumber_div (g := g) (lt_nsimplex hk') R'
    have h4 := simplexNumber_div (g := g) (lt_nsimplex hk) (rectOf g x)
    rw [hnum] at h1 h3
    have hkk : k' = k := by exact_mod_cast h1.symm.trans h2
    have hrr : ravel g.numRect R' = ravel g.numRect (rectOf g x) := by
      exact_mod_cast h3.symm.trans h4
    have hRR : R' = rectOf g x := by
      rw [← unravel_ravel _ _ hR', hrr, unravel_ravel _ _ hR]
    rw [hkk] at hk'
    rw [hRR, Option.some.inj (hk'.symm.trans hk)]
  intro j
  have hI := Tri.Good.verts_indep S.tri hk (rectOf g x)
  rw [hV, bary_unique hI (codeWeights_bary hI x) hw.2]
  exact hw.1 j

/-- **C18.** One-dimensional triangulations are continuous, with no assumption on a library. -/
theorem C18_continuous_1d {g : GridWorld ℝ 1} {t : Tri ℝ 1} (h2 : ∀ i, 2 ≤ g.num i)
    (hlt : ∀ i, g.lo i < g.hi i) (he : 0 < eps)
    (hle : ∀ i, 4 * eps ≤ (g.hi i - g.lo i) / ((g.num i : ℝ) - 1))
    (ht : Tri.new g (delaunay1D 0 (g.unit 0)) project = .ok t) (params : List (Fin o → ℝ))
    (hlen : params.length = ∏ i, g.num i) (f : (Fin 1 → ℝ) → Fin o → ℝ)
    (hf : ∀ x, t.evaluate eps params x = .ok (f x)) :
    ContinuousOn f {x | ∀ i, g.lo i + 2 * eps ≤ x i ∧ x i ≤ g.hi i - 2 * eps} :=
  C18_continuous (triSetup_one h2 hlt he hle) ht (C18_tiling_1d g h2 hlt) params hlen f hf

/-- **C18.** Two-dimensional triangulations are continuous if the library triangulates the unit rectangle properly. -/
theorem C18_continuous_2d {g : GridWorld ℝ 2} {D : Delaunay ℝ 2} {t : Tri ℝ 2}
    (S : TriSetup g D eps) (hP : IsProper (cornerPoints g) D.simplices)
    (ht : Tri.new g D project = .ok t) (params : List (Fin o → ℝ))
    (hlen : params.length = ∏ i, g.num i) (f : (Fin 2 → ℝ) → Fin o → ℝ)
    (hf : ∀ x, t.evaluate eps params x = .ok (f x)) :
    ContinuousOn f {x | ∀ i, g.lo i + 2 * eps ≤ x i ∧ x i ≤ g.hi i - 2 * eps} :=
  C18_continuous S ht (C18_tiling_2d g S.two_le S.lt D.simplices hP) params hlen f hf

end SafeLearning
