import Verif.Props.Triangulation
set_option autoImplicit false

/-!
# C09: when the construction of a triangulation raises

`np.linalg.inv` raises `LinAlgError` for a simplex without volume (safe_learning/functions.py:1098-1101).
-/

namespace SafeLearning

set_option linter.unusedSectionVars false

open Spec

variable {K : Type} [Field K] [LinearOrder K] [IsStrictOrderedRing K] [FloorRing K] {d : ℕ}

theorem affIndep_of_edges_det {v : Fin (d + 1) → Fin d → K} (hv : (edges v).det ≠ 0) : AffIndep v := by
  intro c hc hs
  rw [Fin.sum_univ_succ] at hc
  have key : Matrix.vecMul (fun j : Fin d => c j.succ) (edges v) = 0 := by
    funext i
    have h := hs i
    rw [Fin.sum_univ_succ] at h
    simp only [Matrix.vecMul, dotProduct, edges, Pi.zero_apply, mul_sub,
      Finset.sum_sub_distrib, ← Finset.sum_mul]
    have h0 : c 0 = -∑ j : Fin d, c j.succ := by linarith
    rw [h0] at h
    linarith
  have h1 : (fun j : Fin d => c j.succ) = 0 := by
    by_contra hne
    exact hv (Matrix.exists_vecMul_eq_zero_iff.mp ⟨_, hne, key⟩)
  have h2 : ∀ j : Fin d, c j.succ = 0 := fun j => congrFun h1 j
  intro j
  refine Fin.cases ?_ h2 j
  simpa [h2] using hc

theorem hyperplane_corner {g : GridWorld K d} (hg : g.WF) (s : Fin (d + 1) → ℕ) :
    hyperplane g (fun j => ravel g.num (bits g (s j))) =
      if (edges (vertices (cornerPoints g) s)).det = 0 then .error .valueError
      else .ok (edges (vertices (cornerPoints g) s))⁻¹ := by
  unfold hyperplane
  have h1 : (traverseFin fun j : Fin (d + 1) =>
      g.indexToState ((ravel g.num (bits g (s j)) : ℕ) : ℤ)) =
      .ok (verts g (fun _ => 0) s) := by
    apply traverseFin_ok
    intro j
    rw [indexToState_ravel]
    · simp [verts]
    · intro i
      have := bits_le g (s j) i
      have := hg.two_le i
      omega
  rw [h1]
  simp only [bind, Except.bind, pure, Except.pure]
  have h2 : (fun j i => verts g (fun _ => 0) s (Fin.succ j) i - verts g (fun _ => 0) s 0 i :
      Matrix (Fin d) (Fin d) K) = edges (vertices (cornerPoints g) s) :=
    edges_verts g (fun _ => 0) s
  rw [h2]

theorem mapM_hyperplane_error {g : GridWorld K d} (hg : g.WF) (ss : List (Fin (d + 1) → ℕ))
    (h : ∃ s ∈ ss, ¬ AffIndep (vertices (cornerPoints g) s)) :
    (ss.map fun s j => ravel g.num (bits g (s j))).mapM (hyperplane g) = .error .valueError := by
  induction ss with
  | nil => simp at h
  | cons s ss ih =>
    simp only [List.map_cons, List.mapM_cons, hyperplane_corner hg]
    split_ifs with h0
    · rfl
    · obtain ⟨s', hs', hn⟩ := h
      rcases List.mem_cons.mp hs' with rfl | hs'
      · exact absurd (affIndep_of_edges_det h0) hn
      · rw [ih ⟨s', hs', hn⟩]
        rfl

/-- **C09.** For a grid with at least two points and a non-empty interval in every dimension, and simplices made of corners
of the unit rectangle, the construction succeeds exactly if no simplex is degenerate; otherwise it raises `LinAlgError`,
and no triangulation is built. -/
theorem C09_construction_iff {g : GridWorld K d} {D : Delaunay K d} (h2 : ∀ i, 2 ≤ g.num i)
    (hlt : ∀ i, g.lo i < g.hi i)
    (hmem : ∀ s ∈ D.simplices, ∀ j, s j < (cornerPoints g).length) (project : Bool) :
    ((∀ s ∈ D.simplices, AffIndep (vertices (cornerPoints g) s)) →
      ∃ t, Tri.new g D project = .ok t ∧ t.hyperplanes.length = D.simplices.length) ∧
    ((∃ s ∈ D.simplices, ¬ AffIndep (vertices (cornerPoints g) s)) →
      Tri.new g D project = .error .valueError) := by
  have hg : g.WF := ⟨h2, hlt⟩
  constructor
  · intro hind
    obtain ⟨t, ht, hG⟩ := Tri.new_good_of hg hmem hind project
    exact ⟨t, ht, by rw [hG.hyper, List.length_map]⟩
  · intro hdeg
    obtain ⟨m, hm, -, hget⟩ := indexMapping_ok hg
    have hu : (D.simplices.map fun s (j : Fin (d + 1)) => m.getD (s j) 0) =
        D.simplices.map fun s j => ravel g.num (bits g (s j)) := by
      apply List.map_congr_left
      intro s hs
      funext j
      exact hget _ (hmem s hs j)
    unfold Tri.new
    rw [hm]
    simp only [bind, Except.bind]
    rw [hu, mapM_hyperplane_error hg _ hdeg]

/-! ### The hypotheses are met -/

section Examples

/-- The unit interval with two points. -/
def pairGrid : GridWorld ℚ 1 := ⟨fun _ => 0, fun _ => 1, fun _ => 2⟩

theorem pairGrid_corners : (cornerPoints pairGrid).length = 2 := by simp [cornerPoints]

/-- One simplex that spans the interval: the construction succeeds. -/
example : ∃ t, Tri.new pairGrid ⟨[fun j => j.val], fun _ => 0⟩ true = .ok t := by
  obtain ⟨t, ht, -⟩ := (C09_construction_iff (g := pairGrid) (D := ⟨[fun j => j.val], fun _ => 0⟩)
    (by decide) (by intro i; norm_num [pairGrid]) (by
      intro s hs j
      rw [pairGrid_corners]
      simp only [List.mem_singleton] at hs
      subst hs
      exact j.isLt) true).1 (by
      intro s hs
      simp only [List.mem_singleton] at hs
      subst hs
      apply affIndep_of_edges_det
      simp [edges, vertices, cornerPoints, pairGrid, GridWorld.unit]
      norm_num)
  exact ⟨t, ht⟩

/-- A second simplex that is twice the same corner: `LinAlgError`. -/
example : Tri.new pairGrid ⟨[fun j => j.val, fun _ => 1], fun _ => 0⟩ true = .error .valueError := by
  refine (C09_construction_iff (g := pairGrid) (by decide) (by intro i; norm_num [pairGrid]) ?_ true).2
    ⟨fun _ => 1, by simp, ?_⟩
  · intro s hs j
    rw [pairGrid_corners]
    simp only [List.mem_cons, List.not_mem_nil, or_false] at hs
    rcases hs with rfl | rfl
    · exact j.isLt
    · norm_num
  · intro h
    exact edges_det_ne_zero h (by simp [edges, vertices])

end Examples

end SafeLearning
