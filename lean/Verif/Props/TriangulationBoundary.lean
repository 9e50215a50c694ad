import Verif.Props.Triangulation
import Mathlib.LinearAlgebra.Matrix.AbsoluteValue
import Mathlib.Data.Matrix.Basic
set_option autoImplicit false

/-!
# C12 up to the boundary of the domain

`find_simplex` moves points by at most `2 * _EPS` away from the boundary of the domain, and the weights belong to
the point that was not moved.  In one dimension the weights are non-negative nevertheless.  In more dimensions they
can be negative in a strip at the boundary, but only by a multiple of `_EPS` that is bounded explicitly.
-/

namespace SafeLearning

set_option linter.unusedSectionVars false

open Spec

variable {K : Type} [Field K] [LinearOrder K] [IsStrictOrderedRing K] [FloorRing K] {d o : ℕ}
variable {g : GridWorld K d} {D : Delaunay K d} {eps : K} {project : Bool} {t : Tri K d}

/-- The edges of a simplex in units of the cell lengths. -/
def edgeSigns (g : GridWorld K d) (s : Fin (d + 1) → ℕ) : Matrix (Fin d) (Fin d) ℤ :=
  Matrix.of fun j i => (bits g (s j.succ) i : ℤ) - bits g (s 0) i

theorem edges_eq (g : GridWorld K d) (R : Fin d → ℕ) (s : Fin (d + 1) → ℕ) :
    edges (verts g R s) = (edgeSigns g s).map (Int.cast : ℤ → K) * Matrix.diagonal g.unit := by
  ext j i
  rw [Matrix.mul_diagonal]
  simp only [edges, edgeSigns, verts, GridWorld.ijkToState, Matrix.map_apply, Matrix.of_apply]
  push_cast
  ring

theorem abs_edgeSigns_le (g : GridWorld K d) (s : Fin (d + 1) → ℕ) (j i : Fin d) :
    |edgeSigns g s j i| ≤ 1 := by
  have h1 := bits_le g (s j.succ) i
  have h2 := bits_le g (s 0) i
  simp only [edgeSigns, Matrix.of_apply]
  rw [abs_le]
  constructor <;> omega

theorem abs_adjugate_le {A : Matrix (Fin d) (Fin d) ℤ} (hA : ∀ i j, |A i j| ≤ 1) (i j : Fin d) :
    |A.adjugate i j| ≤ d.factorial := by
  rw [Matrix.adjugate_apply]
  have := Matrix.det_le (A := A.updateRow j (Pi.single i 1)) (abv := AbsoluteValue.abs) (x := (1 : ℤ))
    (fun a b => by
      rw [Matrix.updateRow_apply]
      split_ifs
      · by_cases h : b = i
        · subst h; simp
        · simp [h]
      · exact hA a b)
  simpa using this

/-- The entries of the hyperplane matrices are at most `d! / u_i`. -/
theorem abs_inv_edges_le (hg : g.WF) {R : Fin d → ℕ} {s : Fin (d + 1) → ℕ}
    (hI : AffIndep (verts g R s)) (i j : Fin d) :
    |(edges (verts g R s))⁻¹ i j| ≤ d.factorial / g.unit i := by
  have hdet := edges_det_ne_zero hI
  have hu := hg.unit_pos i
  have hA := abs_edgeSigns_le g s
  set A := edgeSigns g s with hAdef
  have hdA : A.det ≠ 0 := by
    intro h0
    apply hdet
    rw [edges_eq, Matrix.det_mul, ← hAdef]
    have : ((A.map (Int.cast : ℤ → K)).det) = ((A.det : ℤ) : K) :=
      ((Int.castRingHom K).map_det A).symm
    rw [this, h0]
    simp
  rw [edges_eq, Matrix.mul_inv_rev, Matrix.inv_diagonal, Matrix.diagonal_mul, ← hAdef]
  have hinv : (A.map (Int.cast : ℤ → K))⁻¹ i j = ((A.det : ℤ) : K)⁻¹ * ((A.adjugate i j : ℤ) : K) := by
    rw [Matrix.inv_def]
    have h1 : ((A.map (Int.cast : ℤ → K)).det) = ((A.det : ℤ) : K) :=
      ((Int.castRingHom K).map_det A).symm
    have h2 : (A.map (Int.cast : ℤ → K)).adjugate = A.adjugate.map (Int.cast : ℤ → K) :=
      ((Int.castRingHom K).map_adjugate A).symm
    rw [h1, h2, Ring.inverse_eq_inv']
    simp
  have hru : Ring.inverse g.unit i = (g.unit i)⁻¹ := by
    have hun : IsUnit g.unit := IsUnit.of_mul_eq_one (fun i => (g.unit i)⁻¹)
      (funext fun i => mul_inv_cancel₀ (hg.unit_pos i).ne')
    have h1 := Ring.inverse_mul_cancel g.unit hun
    have h2 := congrFun h1 i
    simp only [Pi.mul_apply, Pi.one_apply] at h2
    exact eq_inv_of_mul_eq_one_left h2
  rw [hinv, hru, abs_mul, abs_mul, abs_of_pos (inv_pos.mpr hu), abs_inv, div_eq_mul_inv, mul_comm]
  apply mul_le_mul_of_nonneg_right _ (inv_pos.mpr hu).le
  have h1 : (1 : K) ≤ |((A.det : ℤ) : K)| := by
    rw [← Int.cast_abs]
    exact_mod_cast Int.one_le_abs hdA
  have h2 : |((A.adjugate i j : ℤ) : K)| ≤ d.factorial := by
    rw [← Int.cast_abs]
    exact_mod_cast abs_adjugate_le hA i j
  calc |((A.det : ℤ) : K)|⁻¹ * |((A.adjugate i j : ℤ) : K)|
      ≤ 1 * |((A.adjugate i j : ℤ) : K)| :=
        mul_le_mul_of_nonneg_right (inv_le_one_of_one_le₀ h1) (abs_nonneg _)
    _ ≤ d.factorial := by rw [one_mul]; exact h2

theorem codeWeights_diff (H : Matrix (Fin d) (Fin d) K) (c p q : Fin d → K) {B : K}
    (hB : ∀ j, ∑ i, |p i - q i| * |H i j| ≤ B) :
    ∑ j, |codeWeights H c p j - codeWeights H c q j| ≤ 2 * d * B := by
  have h : ∀ j : Fin d, codeWeights H c p j.succ - codeWeights H c q j.succ =
      ∑ i, (p i - q i) * H i j := by
    intro j
    simp only [codeWeights, Fin.cons_succ, ← Finset.sum_sub_distrib]
    exact Finset.sum_congr rfl fun i _ => by ring
  have h0 : codeWeights H c p 0 - codeWeights H c q 0 = -∑ j, ∑ i, (p i - q i) * H i j := by
    simp only [codeWeights, Fin.cons_zero]
    rw [show ∀ a b : K, 1 - a - (1 - b) = -(a - b) from fun a b => by ring,
      ← Finset.sum_sub_distrib]
    congr 1
    refine Finset.sum_congr rfl fun j _ => ?_
    rw [← Finset.sum_sub_distrib]
    exact Finset.sum_congr rfl fun i _ => by ring
  have hj : ∀ j, |∑ i, (p i - q i) * H i j| ≤ B := fun j =>
    (Finset.abs_sum_le_sum_abs _ _).trans (by simpa only [abs_mul] using hB j)
  have hs : ∑ j, |∑ i, (p i - q i) * H i j| ≤ d * B := by
    calc _ ≤ ∑ _j : Fin d, B := Finset.sum_le_sum fun j _ => hj j
      _ = d * B := by simp
  rw [Fin.sum_univ_succ, h0, abs_neg]
  simp only [h]
  have := Finset.abs_sum_le_sum_abs (fun j => ∑ i, (p i - q i) * H i j) Finset.univ
  linarith

/-- By how much the weights at the boundary of the domain can miss being non-negative: the sum of their absolute
values exceeds one by at most this number, a multiple of `_EPS`. -/
def _root_.Spec.boundaryDefect (lo hi : Fin d → K) (num : Fin d → ℕ) (eps : K) : K :=
  2 * d * ∑ i, 2 * eps * (d.factorial / ((hi i - lo i) / ((num i : K) - 1)))

theorem boundaryDefect_nonneg (hg : g.WF) (he : 0 ≤ eps) :
    0 ≤ Spec.boundaryDefect g.lo g.hi g.num eps := by
  unfold Spec.boundaryDefect
  have : ∀ i, 0 < (g.hi i - g.lo i) / ((g.num i : K) - 1) := hg.unit_pos
  have h2 : 0 ≤ ∑ i, 2 * eps * ((d.factorial : K) / ((g.hi i - g.lo i) / ((g.num i : K) - 1))) :=
    Finset.sum_nonneg fun i _ => by
      have := this i
      positivity
  positivity

theorem projected_mem (S : TriSetup g D eps) (hG : Tri.Good g D project t) (x : Fin d → K)
    (hx : project = true ∨ ∀ i, g.lo i ≤ x i ∧ x i ≤ g.hi i) (i : Fin d) :
    t.projected x i = clip (x i) (g.lo i) (g.hi i) := by
  rw [projected_eq S hG]
  rcases hx with h | h
  · rw [h, if_pos rfl, g.clipBox_eq_clip S.lt]
  · cases project
    · rw [if_neg (by simp), clip_of_mem (h i).1 (h i).2]
    · rw [if_pos rfl, g.clipBox_eq_clip S.lt]

/-- **C12 (boundary).** For every point of the domain, and every point at all with `project`, the weights add up to one
and the sum of their absolute values is at most `1 + boundaryDefect`; `boundaryDefect` is a multiple of `_EPS`. -/
theorem C12_weights_boundary (S : TriSetup g D eps) (ht : Tri.new g D project = .ok t)
    (x : Fin d → K) (hx : project = true ∨ ∀ i, g.lo i ≤ x i ∧ x i ≤ g.hi i) :
    ∃ w idx v, t.getWeights eps x = .ok (w, idx) ∧
      (∀ j, IsGridPoint g.lo g.hi g.num (idx j) (v j)) ∧
      IsBarycentric v w (clipBox g.lo g.hi x) ∧
      ∑ j, |w j| ≤ 1 + Spec.boundaryDefect g.lo g.hi g.num eps := by
  have hG := S.good ht
  have hg := S.wf
  have he := S.eps_pos
  obtain ⟨k, s, w, hk, hf, hw, hb⟩ := S.find hG x
  have hI := Tri.Good.verts_indep S.tri hk (rectOf g x)
  have hp := projected_mem S hG x hx
  have hpb : t.projected x = clipBox g.lo g.hi x := by
    funext i; rw [hp i, g.clipBox_eq_clip S.lt]
  refine ⟨_, _, verts g (rectOf g x) s, hG.getWeights_ok hg hk (rectOf_lt hg x) hf,
    fun j => isGridPoint_verts hg (rectOf_lt hg x) s j, by
      rw [hpb]; exact codeWeights_bary hI _, ?_⟩
  set H := (edges (verts g (rectOf g x) s))⁻¹
  set c := verts g (rectOf g x) s 0
  have hq : w = codeWeights H c (shrink g eps x) := bary_unique hI hb (codeWeights_bary hI _)
  have hd := codeWeights_diff H c (t.projected x) (shrink g eps x)
    (B := ∑ i, 2 * eps * (d.factorial / ((g.hi i - g.lo i) / ((g.num i : K) - 1)))) fun j =>
      Finset.sum_le_sum fun i _ => by
        have h1 := abs_inv_edges_le hg hI i j
        have hui := hg.unit_pos i
        have hle : 4 * eps ≤ g.unit i := S.eps_le i
        have hspan : g.unit i ≤ g.hi i - g.lo i := by
          have := le_ijkToState hg (rectOf g x) i
          have := ijkToState_add_unit_le hg (rectOf_lt hg x) i
          linarith
        have h2 : |t.projected x i - shrink g eps x i| ≤ 2 * eps := by
          rw [hp i]
          unfold shrink clip
          have := S.lt i
          rw [abs_le]
          rcases le_total (x i) (g.lo i) with a | a <;> rcases le_total (x i) (g.hi i) with b | b <;>
            rcases le_total (x i) (g.lo i + 2 * eps) with a' | a' <;>
            rcases le_total (x i) (g.hi i - 2 * eps) with b' | b' <;>
            constructor <;>
            simp only [max_eq_left a, max_eq_right a, max_eq_left a', max_eq_right a'] <;>
            (simp only [min_def]; split_ifs <;> linarith)
        exact mul_le_mul h2 h1 (abs_nonneg _) (by linarith)
  rw [← hq] at hd
  unfold Spec.boundaryDefect
  have h3 : ∑ j, |codeWeights H c (t.projected x) j| ≤
      ∑ j, |codeWeights H c (t.projected x) j - w j| + ∑ j, w j := by
    rw [← Finset.sum_add_distrib]
    refine Finset.sum_le_sum fun j _ => ?_
    have := abs_add_le (codeWeights H c (t.projected x) j - w j) (w j)
    rw [sub_add_cancel, abs_of_nonneg (hw j)] at this
    exact this
  rw [hb.1] at h3
  linarith

/-- **C12 (one dimension).** In one dimension the weights are non-negative at every point of the domain, and with
`project` everywhere. -/
theorem C12_weights_nonneg_1d {g : GridWorld K 1} {D : Delaunay K 1} {t : Tri K 1}
    (S : TriSetup g D eps) (ht : Tri.new g D project = .ok t)
    (x : Fin 1 → K) (hx : project = true ∨ ∀ i, g.lo i ≤ x i ∧ x i ≤ g.hi i) :
    ∃ w idx v, t.getWeights eps x = .ok (w, idx) ∧
      (∀ j, IsGridPoint g.lo g.hi g.num (idx j) (v j)) ∧
      IsConvexComb v w (clipBox g.lo g.hi x) := by
  have hG := S.good ht
  have hg := S.wf
  obtain ⟨k, s, w, hk, hf, hw, hb⟩ := S.find hG x
  have hI := Tri.Good.verts_indep S.tri hk (rectOf g x)
  have hp := projected_mem S hG x hx
  have hpb : t.projected x = clipBox g.lo g.hi x := by
    funext i; rw [hp i, g.clipBox_eq_clip S.lt]
  have hbary := codeWeights_bary hI (t.projected x)
  refine ⟨_, _, verts g (rectOf g x) s, hG.getWeights_ok hg hk (rectOf_lt hg x) hf,
    fun j => isGridPoint_verts hg (rectOf_lt hg x) s j, ?_, hpb ▸ hbary⟩
  set w' := codeWeights (edges (verts g (rectOf g x) s))⁻¹ (verts g (rectOf g x) s 0) (t.projected x)
  obtain ⟨h1, h2⟩ := hbary
  have h2 := h2 0
  rw [hp 0] at h2
  rw [Fin.sum_univ_two] at h1 h2
  obtain ⟨hl, hr, -⟩ := rectOf_spec hg x 0
  have hu := hg.unit_pos 0
  have hv : ∀ j, verts g (rectOf g x) s j 0 = g.ijkToState (rectOf g x) 0 + bits g (s j) 0 * g.unit 0 := by
    intro j
    unfold verts GridWorld.ijkToState
    push_cast
    ring
  have hne : bits g (s 0) 0 ≠ bits g (s 1) 0 := by
    intro h
    have := hI ![1, -1] (by simp) (fun i => by
      have hi : i = 0 := Subsingleton.elim _ _
      subst hi
      rw [Fin.sum_univ_two, hv 0, hv 1, h]
      simp) 0
    simp at this
  have hb0 := bits_le g (s 0) 0
  have hb1 := bits_le g (s 1) 0
  rw [hv 0, hv 1] at h2
  set a := g.ijkToState (rectOf g x) 0
  set p := clip (x 0) (g.lo 0) (g.hi 0)
  have hw0 : ∀ y : K, 0 ≤ y * g.unit 0 → 0 ≤ y := fun y hy => nonneg_of_mul_nonneg_left hy hu
  have hcase : (bits g (s 0) 0 = 0 ∧ bits g (s 1) 0 = 1) ∨
      (bits g (s 0) 0 = 1 ∧ bits g (s 1) 0 = 0) := by omega
  intro j
  rcases hcase with ⟨e0, e1⟩ | ⟨e0, e1⟩
  · rw [e0, e1] at h2
    push_cast at h2
    have e : w' 1 * g.unit 0 = p - a := by linear_combination h2 - a * h1
    have e' : w' 0 * g.unit 0 = a + g.unit 0 - p := by
      linear_combination (g.unit 0) * h1 - e
    fin_cases j
    · exact hw0 _ (by simp only [Fin.zero_eta]; rw [e']; linarith)
    · exact hw0 _ (by simp only [Fin.mk_one]; rw [e]; linarith)
  · rw [e0, e1] at h2
    push_cast at h2
    have e : w' 0 * g.unit 0 = p - a := by linear_combination h2 - a * h1
    have e' : w' 1 * g.unit 0 = a + g.unit 0 - p := by
      linear_combination (g.unit 0) * h1 - e
    fin_cases j
    · exact hw0 _ (by simp only [Fin.zero_eta]; rw [e]; linarith)
    · exact hw0 _ (by simp only [Fin.mk_one]; rw [e']; linarith)

end SafeLearning
