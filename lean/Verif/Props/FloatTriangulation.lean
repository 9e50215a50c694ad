import Verif.Lemmas.FloatTriangulation
import Verif.Conformance.Triangulation
import Mathlib.Tactic.FinCases
set_option autoImplicit false

/-!
# C123: triangulations in floating point arithmetic
-/

namespace SafeLearning

set_option linter.unusedSectionVars false

open Spec

variable {K : Type} [Field K] [LinearOrder K] [IsStrictOrderedRing K] {d o : ℕ}
variable {g : GridWorld K d} {D : Delaunay K d} {eps u : K} {project : Bool} {t : Tri K d} {fl : K → K}

/-- A grid with valid limits that are floating point numbers and with cells that are coarse compared to the rounding unit, and a triangulation `D`
of the corners of the cell with the computed lengths `unit_maxes`. -/
structure FloatTriSetup (g : GridWorld K d) (D : Delaunay K d) (fl : K → K) (u eps : K) : Prop where
  two_le : ∀ i, 2 ≤ g.num i
  lt : ∀ i, g.lo i < g.hi i
  rounds : RoundsWithin fl u
  coarse : CoarseGrid g.lo g.hi g.num u
  lo_fl : ∀ i, fl (g.lo i) = g.lo i
  tri : IsTriangulation (g.flUnit fl) (flCornerPoints g fl) D.simplices D.find
  eps_nonneg : 0 ≤ eps

theorem FloatTriSetup.wf (S : FloatTriSetup g D fl u eps) : g.WF := ⟨S.two_le, S.lt⟩

theorem FloatTriSetup.construct [FloorRing K] (S : FloatTriSetup g D fl u eps) (project : Bool) :
    ∃ t, Tri.new g D project = .ok t ∧ Tri.Good g D project t :=
  Tri.new_good_of S.wf (fun s hs j => flCorner_length g fl ▸ S.tri.mem s hs j)
    (fun s hs => indep_of_fl S.wf s (S.tri.indep s hs)) project

theorem FloatTriSetup.good [FloorRing K] (S : FloatTriSetup g D fl u eps) (ht : Tri.new g D project = .ok t) :
    Tri.Good g D project t := by
  obtain ⟨t', h1, h2⟩ := S.construct project
  rw [h1] at ht
  cases ht
  exact h2

theorem FloatTriSetup.verts_indep (S : FloatTriSetup g D fl u eps) {k : ℕ} {s : Fin (d + 1) → ℕ}
    (hk : D.simplices[k]? = some s) (R : Fin d → ℕ) : AffIndep (verts g R s) :=
  affIndep_shift (g.ijkToState R) (fun j i => verts_eq g R s j i)
    (indep_of_fl S.wf s (S.tri.indep s (List.mem_of_getElem? hk)))

theorem flFindSimplex_ok [FloorRing K] (hG : Tri.Good g D project t) {x : Fin d → K} {R : Fin d → ℕ} {k : ℕ}
    (hR : ∀ i, R i < g.numRect i)
    (hcell : ∀ i, clip ((digitize (x i) (g.flDiscretePoints fl i) : ℤ) - 1) 0 ((g.num i : ℤ) - 2) = (R i : ℤ))
    (hk : D.find (t.flUnitCoordinates fl eps x) = k) :
    t.flFindSimplex fl eps x = .ok (simplexNumber g D k R : ℕ) := by
  unfold Tri.flFindSimplex
  rw [hG.disc, hG.tri, hk]
  have : g.flStateToRectangle fl x = .ok (ravel g.numRect R) := by
    unfold GridWorld.flStateToRectangle
    rw [funext hcell, ravelMultiIndex_ok _ _ hR]
  rw [this]
  simp only [bind, Except.bind, pure, Except.pure, simplexNumber]
  push_cast
  rfl

theorem flEvaluate_ok [FloorRing K] (hg : g.WF) (hG : Tri.Good g D project t) {x : Fin d → K} {k : ℕ}
    {s : Fin (d + 1) → ℕ} (hk : D.simplices[k]? = some s) {R : Fin d → ℕ} (hR : ∀ i, R i < g.numRect i)
    (hf : t.flFindSimplex fl eps x = .ok (simplexNumber g D k R : ℕ))
    (F : (Fin d → K) → Fin o → K) (params : List (Fin o → K))
    (hp : ∀ k p, IsGridPoint g.lo g.hi g.num k p → params[k]? = some (F p)) :
    t.flEvaluate fl id eps params x = .ok fun l =>
      ∑ j, codeWeights (edges (verts g R s))⁻¹ (verts g R s 0) (t.projected x) j * F (verts g R s j) l := by
  unfold Tri.flEvaluate
  rw [flGetWeights_ok hG hg hk hR hf]
  simp only [bind, Except.bind]
  rw [traverseFin_ok (g := fun j => F (verts g R s j)) fun j => rowAt_ok (hp _ _ (isGridPoint_verts hg hR s j))]
  simp only [flSum_id_ofFn, pure, Except.pure]
  rfl

theorem projected_inBox [FloorRing K] (hG : Tri.Good g D project t) {x : Fin d → K}
    (hx : InBox g.lo g.hi x) : t.projected x = x := by
  unfold Tri.projected
  rw [hG.disc]
  split_ifs
  · funext i
    exact clip_of_mem (hx i).1 (hx i).2
  · rfl

/-- **C123 (no rounding).** Without rounding the model is the exact model. -/
theorem C123_without_rounding [FloorRing K] (h2 : ∀ i, 2 ≤ t.disc.num i) (params : List (Fin o → K)) (x : Fin d → K) :
    t.flFindSimplex id eps x = t.findSimplex eps x ∧
      t.flEvaluate id id eps params x = t.evaluate eps params x := by
  have hp : ∀ i, t.disc.flDiscretePoints id i = t.disc.discretePoints i := by
    intro i
    unfold GridWorld.flDiscretePoints GridWorld.discretePoints linspace
    refine List.map_congr_left fun k _ => ?_
    have : 1 < t.disc.num i := h2 i
    simp only [this, and_true]
    rfl
  have hf : t.flFindSimplex id eps x = t.findSimplex eps x := by
    unfold Tri.flFindSimplex Tri.findSimplex
    have h1 : t.disc.flStateToRectangle id x = t.disc.stateToRectangle x := by
      unfold GridWorld.flStateToRectangle GridWorld.stateToRectangle
      simp only [hp]
      rfl
    have h3 : t.flUnitCoordinates id eps x = t.unitCoordinates eps x := rfl
    rw [h1, h3]
  refine ⟨hf, ?_⟩
  unfold Tri.flEvaluate Tri.evaluate
  rw [flGetWeights_id, hf]
  simp only [flSum_id_ofFn]
  rfl

/-- The error of the points of an axis. -/
theorem flPoint_within (hg : g.WF) (hr : RoundsWithin fl u) (i : Fin d) (j : ℕ) (hj : j < g.num i) :
    |GridWorld.flPoint g fl i j - ((j : K) * g.unit i + g.lo i)| ≤ u * (|g.lo i| + 5 * (g.hi i - g.lo i)) := by
  have hu := hg.unit_pos i
  have hu0 := hr.nonneg
  have hW := sub_pos.mpr (hg.lt i)
  have hjK : (j : K) * g.unit i ≤ g.hi i - g.lo i := by
    rw [← hg.unit_mul i]
    refine mul_le_mul_of_nonneg_right ?_ hu.le
    have : ((j + 1 : ℕ) : K) ≤ g.num i := by exact_mod_cast hj
    push_cast at this
    linarith
  unfold GridWorld.flPoint
  split_ifs with hl
  · have : (j : K) = (g.num i : K) - 1 := by
      have : ((j + 1 : ℕ) : K) = (g.num i : K) := by exact_mod_cast hl
      push_cast at this
      linarith
    rw [this, hg.unit_mul i, sub_add_cancel, sub_self, abs_zero]
    have := abs_nonneg (g.lo i)
    have : 0 ≤ |g.lo i| + 5 * (g.hi i - g.lo i) := by linarith
    exact mul_nonneg hu0 this
  · refine (GridWorld.flPoint_err hg hr i j).trans ?_
    have := mul_le_mul_of_nonneg_left hjK (show 0 ≤ 5 * u by linarith)
    linarith

/-- The simplex and the rectangle that are found for a point: the weights of its corners are at most `c` in total, and the
interpolation of an `L`-Lipschitz function differs from the function by at most `L * ρ`. -/
structure Located [FloorRing K] (g : GridWorld K d) (D : Delaunay K d) (t : Tri K d) (fl : K → K) (eps : K) (x : Fin d → K) (c ρ : K)
    (k : ℕ) (s : Fin (d + 1) → ℕ) (R : Fin d → ℕ) : Prop where
  simplex : D.simplices[k]? = some s
  lt : ∀ i, R i < g.numRect i
  found : t.flFindSimplex fl eps x = .ok (simplexNumber g D k R : ℕ)
  indep : AffIndep (verts g R s)
  dist : ∀ j i, |x i - verts g R s j i| ≤ 3 / 2 * g.unit i
  weights : ∑ j, |codeWeights (edges (verts g R s))⁻¹ (verts g R s 0) x j| ≤ c
  interp : ∀ (F : (Fin d → K) → K) (L : K), 0 ≤ L → LipschitzOn1 g.lo g.hi L F →
    |∑ j, codeWeights (edges (verts g R s))⁻¹ (verts g R s 0) x j * F (verts g R s j) - F x| ≤ L * ρ

theorem located_every [FloorRing K] (S : FloatTriSetup g D fl u eps) (ht : Tri.new g D project = .ok t)
    (x : Fin d → K) (hx : InBox g.lo g.hi x) :
    ∃ k s R, Located g D t fl eps x (1 + 3 * d * d * d.factorial)
      (3 * (1 + 3 * d * d * d.factorial) * coverRadius g.lo g.hi g.num) k s R ∧
      ∀ i, GridWorld.flPoint g fl i (R i) ≤ x i ∧ x i ≤ GridWorld.flPoint g fl i (R i + 1) := by
  have hg := S.wf
  have hG := S.good ht
  choose R hR1 hR2 hR3 hR4 using GridWorld.fl_cell hg S.rounds S.coarse S.lo_fl x hx
  have hR : ∀ i, R i < g.numRect i := fun i => by have := hR1 i; unfold GridWorld.numRect; omega
  obtain ⟨k, s, w', hf, hk, -⟩ := S.tri.find_spec (t.flUnitCoordinates fl eps x) fun i => by
    unfold Tri.flUnitCoordinates
    rw [hG.disc]
    exact pyMod_mem (flUnit_pos hg S.rounds i)
  have hI := S.verts_indep hk R
  set v := verts g R s with hv
  set w := codeWeights (edges v)⁻¹ (v 0) x with hw
  have hb : IsBarycentric v w x := codeWeights_bary hI x
  -- the distance of the point to the corners
  have hdist : ∀ j i, |x i - v j i| ≤ 3 / 2 * g.unit i := by
    intro j i
    have hu := hg.unit_pos i
    have h1 := abs_lt.mp (GridWorld.flPoint_close hg S.rounds S.coarse i (R i) (by have := hR1 i; omega))
    have h2 := abs_lt.mp (GridWorld.flPoint_close hg S.rounds S.coarse i (R i + 1) (hR1 i))
    have h3 := hR3 i
    have h4 : x i ≤ GridWorld.flPoint g fl i (R i + 1) := by
      rcases hR4 i with h | ⟨h, h'⟩
      · exact h.le
      · rw [h, h']
    push_cast at h2
    have hbit := bits_le g (s j) i
    have hvi : v j i = ((R i : K) + bits g (s j) i) * g.unit i + g.lo i := by
      rw [hv]
      unfold verts GridWorld.ijkToState
      push_cast
      ring
    rw [hvi, abs_le]
    rcases Nat.le_one_iff_eq_zero_or_eq_one.mp hbit with h | h <;> rw [h] <;> constructor <;>
      push_cast <;> linarith [h1.1, h1.2, h2.1, h2.2]
  have hsum : ∑ j, |w j| ≤ 1 + 3 * d * d * d.factorial := by
    have h0 : IsBarycentric v (codeWeights (edges v)⁻¹ (v 0) (v 0)) (v 0) := codeWeights_bary hI _
    have h0' : IsBarycentric v (fun j => if j = 0 then 1 else 0) (v 0) :=
      ⟨by simp, fun i => by simp⟩
    have he := bary_unique hI h0 h0'
    have hd := codeWeights_diff (edges v)⁻¹ (v 0) x (v 0) (B := ∑ _i : Fin d, 3 / 2 * (d.factorial : K)) fun j =>
      Finset.sum_le_sum fun i _ => by
        have h1 := abs_inv_edges_le hg hI i j
        have hu := hg.unit_pos i
        calc _ ≤ 3 / 2 * g.unit i * (d.factorial / g.unit i) :=
              mul_le_mul (hdist 0 i) h1 (abs_nonneg _) (by linarith)
          _ = _ := by field_simp
    rw [he] at hd
    have h3 : ∑ j, |w j| ≤ ∑ j, |w j - if j = 0 then 1 else 0| + ∑ j : Fin (d + 1), if j = 0 then (1 : K) else 0 := by
      rw [← Finset.sum_add_distrib]
      refine Finset.sum_le_sum fun j _ => ?_
      have := abs_add_le (w j - if j = 0 then 1 else 0) (if j = 0 then 1 else 0)
      rw [sub_add_cancel] at this
      refine this.trans (add_le_add le_rfl ?_)
      split_ifs <;> simp
    have h4 : ∑ j : Fin (d + 1), (if j = 0 then (1 : K) else 0) = 1 := by simp
    rw [h4] at h3
    simp only [Finset.sum_const, Finset.card_univ, Fintype.card_fin, nsmul_eq_mul] at hd
    calc _ ≤ _ := h3
      _ ≤ _ := by linarith
  have hbetween : ∀ i, GridWorld.flPoint g fl i (R i) ≤ x i ∧ x i ≤ GridWorld.flPoint g fl i (R i + 1) := fun i => by
    refine ⟨hR3 i, ?_⟩
    rcases hR4 i with h | ⟨h, h'⟩
    · exact h.le
    · rw [h, h']
  refine ⟨k, s, R, ⟨hk, hR, flFindSimplex_ok hG hR hR2 hf, hI, hdist, hsum, fun F L hL hF => ?_⟩, hbetween⟩
  have e1 : ∑ j, w j * F (v j) - F x = ∑ j, w j * (F (v j) - F x) := by
    simp only [mul_sub, Finset.sum_sub_distrib, ← Finset.sum_mul, hb.1, one_mul]
  have hv2 : ∀ j, |F (v j) - F x| ≤ 3 * (L * coverRadius g.lo g.hi g.num) := by
    intro j
    refine (hF _ _ (inBox_gridPoint hg (isGridPoint_verts hg hR s j)) hx).trans ?_
    have : dist1 (v j) x ≤ 3 * coverRadius g.lo g.hi g.num := by
      unfold dist1 coverRadius
      calc _ ≤ ∑ i, 3 / 2 * g.unit i := Finset.sum_le_sum fun i _ => by
            rw [abs_sub_comm]; exact hdist j i
        _ = _ := by
            rw [← Finset.mul_sum]
            unfold GridWorld.unit
            ring
    calc _ ≤ L * (3 * coverRadius g.lo g.hi g.num) := mul_le_mul_of_nonneg_left this hL
      _ = _ := by ring
  have hc0 : 0 ≤ 3 * (L * coverRadius g.lo g.hi g.num) := (abs_nonneg _).trans (hv2 0)
  rw [e1]
  calc _ ≤ ∑ j, |w j * (F (v j) - F x)| := Finset.abs_sum_le_sum_abs _ _
    _ ≤ ∑ j, |w j| * (3 * (L * coverRadius g.lo g.hi g.num)) := Finset.sum_le_sum fun j _ => by
        rw [abs_mul]; exact mul_le_mul_of_nonneg_left (hv2 j) (abs_nonneg _)
    _ = (∑ j, |w j|) * (3 * (L * coverRadius g.lo g.hi g.num)) := by rw [Finset.sum_mul]
    _ ≤ (1 + 3 * d * d * d.factorial) * (3 * (L * coverRadius g.lo g.hi g.num)) :=
        mul_le_mul_of_nonneg_right hsum hc0
    _ = _ := by ring

/-- **C123 (every point).** The location of points rounds, the weights are exact. If the parameters are the values at the grid
points of an `L`-Lipschitz function, the triangulation differs from the function by at most a constant, which depends on
the dimension only, times `L * sum(unit_maxes) / 2`, at every point of the domain: also where the wrong simplex is
found. -/
theorem C123_every_point [FloorRing K] (S : FloatTriSetup g D fl u eps) (ht : Tri.new g D project = .ok t)
    (F : (Fin d → K) → Fin o → K) (L : K) (hL : 0 ≤ L)
    (hF : ∀ l, LipschitzOn1 g.lo g.hi L fun x => F x l) (params : List (Fin o → K))
    (hp : ∀ k p, IsGridPoint g.lo g.hi g.num k p → params[k]? = some (F p))
    (x : Fin d → K) (hx : InBox g.lo g.hi x) :
    ∃ y, t.flEvaluate fl id eps params x = .ok y ∧
      ∀ l, |y l - F x l| ≤ 3 * (1 + 3 * d * d * d.factorial) * (L * coverRadius g.lo g.hi g.num) := by
  have hG := S.good ht
  obtain ⟨k, s, R, h, -⟩ := located_every S ht x hx
  refine ⟨_, flEvaluate_ok S.wf hG h.simplex h.lt h.found F params hp, fun l => ?_⟩
  rw [projected_inBox hG hx]
  exact (h.interp _ L hL (hF l)).trans (le_of_eq (by ring))

/-! ## Points away from the boundaries of the cells -/

/-- Rounding errors in the location of a point along one axis. -/
def _root_.Spec.locationMargin (lo hi u eps : K) : K := u * (|lo| + 5 * (hi - lo)) + 3 * eps

/-- The point is farther than `locationMargin` from every grid line. -/
def _root_.Spec.AwayFromGridLines (lo hi : Fin d → K) (num : Fin d → ℕ) (u eps : K) (x : Fin d → K) : Prop :=
  ∀ i, ∀ k < num i, Spec.locationMargin (lo i) (hi i) u eps < |x i - axisPoint (lo i) (hi i) (num i) k|

theorem away_cell (hg : g.WF) {x : Fin d → K} (hx : InBox g.lo g.hi x)
    (ha : AwayFromGridLines g.lo g.hi g.num u eps x) (i : Fin d) :
    (rectOf g x i : K) * g.unit i + g.lo i + locationMargin (g.lo i) (g.hi i) u eps < x i ∧
      x i < ((rectOf g x i : K) + 1) * g.unit i + g.lo i - locationMargin (g.lo i) (g.hi i) u eps := by
  obtain ⟨h1, h2, -⟩ := rectOf_spec hg x i
  rw [clip_of_mem (hx i).1 (hx i).2] at h1 h2
  have hR := rectOf_lt hg x i
  unfold GridWorld.numRect at hR
  have e1 := ha i (rectOf g x i) (by omega)
  have e2 := ha i (rectOf g x i + 1) (by omega)
  have a1 : axisPoint (g.lo i) (g.hi i) (g.num i) (rectOf g x i) = (rectOf g x i : K) * g.unit i + g.lo i := by
    unfold axisPoint GridWorld.unit
    ring
  have a2 : axisPoint (g.lo i) (g.hi i) (g.num i) (rectOf g x i + 1) = ((rectOf g x i : K) + 1) * g.unit i + g.lo i := by
    unfold axisPoint GridWorld.unit
    push_cast
    ring
  unfold GridWorld.ijkToState at h1 h2
  rw [a1, abs_of_nonneg (by linarith)] at e1
  rw [a2, abs_of_nonpos (by linarith)] at e2
  constructor <;> linarith

theorem away_digitize (S : FloatTriSetup g D fl u eps) {x : Fin d → K}
    (ha : AwayFromGridLines g.lo g.hi g.num u eps x) (i : Fin d) :
    digitize (x i) (g.flDiscretePoints fl i) = digitize (x i) (g.discretePoints i) := by
  have hg := S.wf
  have hu := hg.unit_pos i
  have hu0 := S.rounds.nonneg
  have hW := sub_pos.mpr (S.lt i)
  have hiff : ∀ j < g.num i, (j < digitize (x i) (g.flDiscretePoints fl i) ↔ j < digitize (x i) (g.discretePoints i)) := by
    intro j hj
    rw [GridWorld.lt_digitize_fl hg S.rounds S.coarse i (x i) j hj, hg.lt_digitize (x i) i j hj]
    have he := flPoint_within hg S.rounds i j hj
    have hm := ha i j hj
    have a1 : axisPoint (g.lo i) (g.hi i) (g.num i) j = (j : K) * g.unit i + g.lo i := by
      unfold axisPoint GridWorld.unit
      ring
    rw [a1] at hm
    unfold locationMargin at hm
    have := S.eps_nonneg
    have he := abs_le.mp he
    rcases lt_abs.mp hm with h | h
    · constructor <;> intro <;> linarith [he.1, he.2]
    · constructor <;> intro <;> linarith [he.1, he.2]
  have hle1 : digitize (x i) (g.flDiscretePoints fl i) ≤ g.num i := by
    unfold digitize
    refine List.countP_le_length.trans ?_
    simp [GridWorld.flDiscretePoints]
  have hle2 := g.digitize_le (x i) i
  by_contra hne
  rcases Nat.lt_or_gt_of_ne hne with h | h
  · exact absurd ((hiff _ (by omega)).mpr h) (lt_irrefl _)
  · exact absurd ((hiff _ (by omega)).mp h) (lt_irrefl _)

/-- The coordinates within the cell, up to rounding. -/
theorem away_coordinates [FloorRing K] (S : FloatTriSetup g D fl u eps) (hG : Tri.Good g D project t) {x : Fin d → K}
    (hx : InBox g.lo g.hi x) (ha : AwayFromGridLines g.lo g.hi g.num u eps x) (i : Fin d) :
    |t.flUnitCoordinates fl eps x i - (x i - g.ijkToState (rectOf g x) i)| ≤ 4 * u * (g.hi i - g.lo i) := by
  have hg := S.wf
  have hr := S.rounds
  have hu0 := hr.nonneg
  have hu1 := hr.small
  have he0 := S.eps_nonneg
  have hU := hg.unit_pos i
  obtain ⟨h1, h2⟩ := away_cell hg hx ha i
  have hUe := abs_le.mp (flUnit_err hg hr i)
  have hU' := flUnit_pos hg hr i
  have hR := ijkToState_add_unit_le hg (rectOf_lt hg x) i
  unfold GridWorld.ijkToState at hR
  unfold Tri.flUnitCoordinates GridWorld.ijkToState
  rw [hG.disc]
  set R : K := (rectOf g x i : K) with hRdef
  have hR0 : 0 ≤ R := Nat.cast_nonneg _
  set U := g.unit i
  set U' := g.flUnit fl i
  set W := g.hi i - g.lo i with hWdef
  have hW : 0 < W := sub_pos.mpr (S.lt i)
  set η := locationMargin (g.lo i) (g.hi i) u eps with hη
  have hη1 : 5 * (u * W) + 3 * eps ≤ η := by
    have := mul_nonneg hu0 (abs_nonneg (g.lo i))
    rw [hη]
    unfold locationMargin
    linarith
  have huW : 0 ≤ u * W := mul_nonneg hu0 hW.le
  have hRU0 : 0 ≤ R * U := mul_nonneg hR0 hU.le
  -- multiples of the cell length
  have k1 : |R * U' - R * U| ≤ 3 * (u * W) := by
    rw [← mul_sub, abs_mul, abs_of_nonneg hR0]
    calc R * |U' - U| ≤ R * (3 * u * U) := mul_le_mul_of_nonneg_left (flUnit_err hg hr i) hR0
      _ = 3 * u * (R * U) := by ring
      _ ≤ 3 * u * W := mul_le_mul_of_nonneg_left (by linarith) (by linarith)
      _ = _ := by ring
  have k2 : |(R + 1) * U' - (R + 1) * U| ≤ 3 * (u * W) := by
    rw [← mul_sub, abs_mul, abs_of_nonneg (by linarith : 0 ≤ R + 1)]
    calc (R + 1) * |U' - U| ≤ (R + 1) * (3 * u * U) := mul_le_mul_of_nonneg_left (flUnit_err hg hr i) (by linarith)
      _ = 3 * u * ((R + 1) * U) := by ring
      _ ≤ 3 * u * W := mul_le_mul_of_nonneg_left (by linarith) (by linarith)
      _ = _ := by ring
  have k1 := abs_le.mp k1
  have k2 := abs_le.mp k2
  -- the centred coordinate
  have c1 : |fl (x i - g.lo i) - (x i - g.lo i)| ≤ u * W := by
    refine (hr.err _).trans (mul_le_mul_of_nonneg_left ?_ hu0)
    rw [abs_of_nonneg (by linarith [(hx i).1])]
    linarith [(hx i).2]
  have c1 := abs_le.mp c1
  have c2 : fl (0 + 2 * eps) ≤ 3 * eps := by
    have := abs_le.mp (hr.err (0 + 2 * eps))
    rw [zero_add, abs_of_nonneg (by linarith)] at this
    rw [zero_add]
    have : u * (2 * eps) ≤ 1 / 16 * (2 * eps) := mul_le_mul_of_nonneg_right hu1 (by linarith)
    linarith
  have c3 : W - 3 * (u * W) - 3 * eps ≤ fl (fl W - 2 * eps) := by
    have e1 := abs_le.mp (hr.err W)
    rw [abs_of_pos hW] at e1
    have e2 := abs_le.mp (hr.err (fl W - 2 * eps))
    have e3 : |fl W - 2 * eps| ≤ (W + u * W) + 2 * eps := by
      rw [abs_le]
      constructor <;> linarith [e1.1, e1.2]
    have e4 : u * |fl W - 2 * eps| ≤ u * (W + u * W + 2 * eps) := mul_le_mul_of_nonneg_left e3 hu0
    have e5 : u * (u * W) ≤ 1 / 16 * (u * W) := mul_le_mul_of_nonneg_right hu1 huW
    have e6 : u * (2 * eps) ≤ 1 / 16 * (2 * eps) := mul_le_mul_of_nonneg_right hu1 (by linarith)
    linarith [e1.1, e2.1]
  have c4 : g.flCenterStates fl eps x i = fl (x i - g.lo i) := by
    unfold GridWorld.flCenterStates
    exact clip_of_mem (by linarith) (by linarith)
  rw [c4, pyMod_eq (r := rectOf g x i) hU' (by linarith) (by linarith)]
  rw [abs_le]
  constructor <;> linarith

/-- **C123 (location).** Farther than rounding errors from the grid lines, `find_simplex` finds the rectangle of the point, and
a simplex that contains a point, in the coordinates within the cell, that differs from the given one by rounding errors
only. Missing: points on grid lines, among them the grid points, see `C123_grid_point_refuted`. -/
theorem C123_location_partial [FloorRing K] (S : FloatTriSetup g D fl u eps) (ht : Tri.new g D project = .ok t)
    (x : Fin d → K) (hx : InBox g.lo g.hi x) (ha : AwayFromGridLines g.lo g.hi g.num u eps x) :
    ∃ (k r : ℕ) (s : Fin (d + 1) → ℕ) (c : Fin d → K) (w : Fin (d + 1) → K) (y : Fin d → K),
      t.flFindSimplex fl eps x = .ok ((k + r * D.nsimplex : ℕ) : ℤ) ∧ D.simplices[k]? = some s ∧
      g.stateToRectangle x = .ok r ∧ g.rectangleToState r = .ok c ∧
      IsConvexComb (vertices (flCornerPoints g fl) s) w y ∧
      ∀ i, |y i - (x i - c i)| ≤ 4 * u * (g.hi i - g.lo i) := by
  have hg := S.wf
  have hG := S.good ht
  obtain ⟨k, s, w, hf, hk, hw⟩ := S.tri.find_spec (t.flUnitCoordinates fl eps x) fun i => by
    unfold Tri.flUnitCoordinates
    rw [hG.disc]
    exact pyMod_mem (flUnit_pos hg S.rounds i)
  have hR := rectOf_lt hg x
  have hcell : ∀ i, clip ((digitize (x i) (g.flDiscretePoints fl i) : ℤ) - 1) 0 ((g.num i : ℤ) - 2) =
      (rectOf g x i : ℤ) := fun i => by
    rw [away_digitize S ha i, rectOf_cast hg]
    rfl
  refine ⟨k, ravel g.numRect (rectOf g x), s, g.ijkToState (rectOf g x), w, _,
    flFindSimplex_ok hG hR hcell hf, hk, ?_, ?_, hw, away_coordinates S hG hx ha⟩
  · unfold GridWorld.stateToRectangle
    have : g.stateToRectIjk x = fun i => (rectOf g x i : ℤ) := funext fun i => (rectOf_cast hg x i).symm
    rw [this, ravelMultiIndex_ok _ _ hR]
  · unfold GridWorld.rectangleToState
    rw [unravelIndex_ok _ _ (ravel_lt _ _ hR)]
    simp only [bind, Except.bind, pure, Except.pure]
    rw [unravel_ravel _ _ hR]

/-- By how much the weights can miss being non-negative due to rounding in the location of points. -/
def _root_.Spec.locationDefect (lo hi : Fin d → K) (num : Fin d → ℕ) (u : K) : K :=
  2 * d * ∑ i, 7 * u * (hi i - lo i) * (d.factorial / ((hi i - lo i) / ((num i : K) - 1)))

theorem located_away [FloorRing K] (S : FloatTriSetup g D fl u eps) (ht : Tri.new g D project = .ok t)
    (x : Fin d → K) (hx : InBox g.lo g.hi x) (ha : AwayFromGridLines g.lo g.hi g.num u eps x) :
    ∃ k s R, Located g D t fl eps x (1 + Spec.locationDefect g.lo g.hi g.num u)
      (coverRadius g.lo g.hi g.num * (1 + 2 * Spec.locationDefect g.lo g.hi g.num u)) k s R := by
  have hg := S.wf
  have hG := S.good ht
  have hR := rectOf_lt hg x
  obtain ⟨k, s, w', hf, hk, hw'⟩ := S.tri.find_spec (t.flUnitCoordinates fl eps x) fun i => by
    unfold Tri.flUnitCoordinates
    rw [hG.disc]
    exact pyMod_mem (flUnit_pos hg S.rounds i)
  have hcell : ∀ i, clip ((digitize (x i) (g.flDiscretePoints fl i) : ℤ) - 1) 0 ((g.num i : ℤ) - 2) =
      (rectOf g x i : ℤ) := fun i => by
    rw [away_digitize S ha i, rectOf_cast hg]
    rfl
  have hI := S.verts_indep hk (rectOf g x)
  set v := verts g (rectOf g x) s with hv
  set w := codeWeights (edges v)⁻¹ (v 0) x with hw
  have hb : IsBarycentric v w x := codeWeights_bary hI x
  -- the point found, with the exact cell lengths
  have hvi : ∀ j i, v j i = g.ijkToState (rectOf g x) i + bits g (s j) i * g.unit i := by
    intro j i
    rw [hv]
    unfold verts GridWorld.ijkToState
    push_cast
    ring
  set z : Fin d → K := fun i => g.ijkToState (rectOf g x) i + (∑ j, w' j * bits g (s j) i) * g.unit i with hz
  have hzb : IsBarycentric v w' z := by
    refine ⟨hw'.2.1, fun i => ?_⟩
    simp only [hvi, mul_add, Finset.sum_add_distrib, ← Finset.sum_mul, hw'.2.1, one_mul, hz, ← mul_assoc]
  have hzx : ∀ i, |x i - z i| ≤ 7 * u * (g.hi i - g.lo i) := by
    intro i
    have hu0 := S.rounds.nonneg
    have hU := hg.unit_pos i
    have e1 := away_coordinates S hG hx ha i
    have e2 := hw'.2.2 i
    simp only [vertices, flCorner_eq hg, ← mul_assoc, ← Finset.sum_mul] at e2
    set q : K := ∑ j, w' j * bits g (s j) i with hq
    have q0 : 0 ≤ q := Finset.sum_nonneg fun j _ => mul_nonneg (hw'.1 j) (Nat.cast_nonneg _)
    have q1 : q ≤ 1 := by
      rw [← hw'.2.1, hq]
      refine Finset.sum_le_sum fun j _ => ?_
      have : (bits g (s j) i : K) ≤ 1 := by exact_mod_cast bits_le g (s j) i
      exact mul_le_of_le_one_right (hw'.1 j) this
    have hspan : g.unit i ≤ g.hi i - g.lo i := by
      have := le_ijkToState hg (rectOf g x) i
      have := ijkToState_add_unit_le hg hR i
      linarith
    have e3 : |q * g.flUnit fl i - q * g.unit i| ≤ 3 * u * (g.hi i - g.lo i) := by
      rw [← mul_sub, abs_mul, abs_of_nonneg q0]
      calc _ ≤ 1 * (3 * u * g.unit i) := mul_le_mul q1 (flUnit_err hg S.rounds i) (abs_nonneg _) zero_le_one
        _ ≤ _ := by rw [one_mul]; exact mul_le_mul_of_nonneg_left hspan (by linarith)
    rw [← e2] at e1
    have e1 := abs_le.mp e1
    have e3 := abs_le.mp e3
    simp only [hz]
    rw [abs_le]
    constructor <;> linarith [e1.1, e1.2, e3.1, e3.2]
  have hwq : w' = codeWeights (edges v)⁻¹ (v 0) z := bary_unique hI hzb (codeWeights_bary hI z)
  have hd := codeWeights_diff (edges v)⁻¹ (v 0) x z
    (B := ∑ i, 7 * u * (g.hi i - g.lo i) * (d.factorial / ((g.hi i - g.lo i) / ((g.num i : K) - 1)))) fun j =>
      Finset.sum_le_sum fun i _ =>
        mul_le_mul (hzx i) (abs_inv_edges_le hg hI i j) (abs_nonneg _) ((abs_nonneg _).trans (hzx i))
  rw [← hwq] at hd
  have hsum : ∑ j, |w j| ≤ 1 + Spec.locationDefect g.lo g.hi g.num u := by
    unfold Spec.locationDefect
    have h3 : ∑ j, |w j| ≤ ∑ j, |w j - w' j| + ∑ j, w' j := by
      rw [← Finset.sum_add_distrib]
      refine Finset.sum_le_sum fun j _ => ?_
      have := abs_add_le (w j - w' j) (w' j)
      rw [sub_add_cancel, abs_of_nonneg (hw'.1 j)] at this
      exact this
    rw [hw'.2.1] at h3
    linarith
  have hdist : ∀ j i, |x i - v j i| ≤ 3 / 2 * g.unit i := by
    intro j i
    have hU := hg.unit_pos i
    obtain ⟨r1, r2, -⟩ := rectOf_spec hg x i
    rw [clip_of_mem (hx i).1 (hx i).2] at r1 r2
    rw [hvi, abs_le]
    rcases Nat.le_one_iff_eq_zero_or_eq_one.mp (bits_le g (s j) i) with h | h <;> rw [h] <;> constructor <;>
      push_cast <;> linarith
  refine ⟨k, s, rectOf g x, hk, hR, flFindSimplex_ok hG hR hcell hf, hI, hdist, hsum, fun F L hL hF => ?_⟩
  have e1 : ∑ j, w j * F (v j) - F x = ∑ j, w j * (F (v j) - F x) := by
    simp only [mul_sub, Finset.sum_sub_distrib, ← Finset.sum_mul, hb.1, one_mul]
  rw [e1]
  calc _ ≤ ∑ j, |w j * (F (v j) - F x)| := Finset.abs_sum_le_sum_abs _ _
    _ ≤ ∑ j, |w j| * (L * dist1 (v j) x) := Finset.sum_le_sum fun j _ => by
        rw [abs_mul]
        exact mul_le_mul_of_nonneg_left (hF _ _ (inBox_gridPoint hg (isGridPoint_verts hg hR s j)) hx)
          (abs_nonneg _)
    _ = L * ∑ i, ∑ j, |w j| * |v j i - x i| := by
        unfold dist1
        rw [Finset.sum_comm, Finset.mul_sum]
        refine Finset.sum_congr rfl fun j _ => ?_
        rw [Finset.mul_sum, Finset.mul_sum, Finset.mul_sum]
        exact Finset.sum_congr rfl fun i _ => by ring
    _ ≤ L * ∑ i, (g.hi i - g.lo i) / ((g.num i : K) - 1) / 2 * (1 + 2 * Spec.locationDefect g.lo g.hi g.num u) :=
        mul_le_mul_of_nonneg_left (Finset.sum_le_sum fun i _ => by
          obtain ⟨r1, r2, -⟩ := rectOf_spec hg x i
          rw [clip_of_mem (hx i).1 (hx i).2] at r1 r2
          refine weighted_coordinate (hg.unit_pos i) (fun j => ?_) hb.1 (hb.2 i) r1 r2 hsum
          rw [hvi]
          rcases Nat.le_one_iff_eq_zero_or_eq_one.mp (bits_le g (s j) i) with h | h <;> rw [h]
          · left; simp
          · right; simp [GridWorld.unit]) hL
    _ = _ := by
        rw [← Finset.sum_mul, ← Finset.sum_div, coverRadius]

/-- **C123 (accuracy).** The location of points rounds, the weights are exact. Farther than rounding errors from the grid
lines the bound of C120 holds up to a factor that is one plus a multiple of the rounding unit. Missing: points on
grid lines, where only `C123_every_point` holds. -/
theorem C123_accuracy_partial [FloorRing K] (S : FloatTriSetup g D fl u eps) (ht : Tri.new g D project = .ok t)
    (F : (Fin d → K) → Fin o → K) (L : K) (hL : 0 ≤ L)
    (hF : ∀ l, LipschitzOn1 g.lo g.hi L fun x => F x l) (params : List (Fin o → K))
    (hp : ∀ k p, IsGridPoint g.lo g.hi g.num k p → params[k]? = some (F p))
    (x : Fin d → K) (hx : InBox g.lo g.hi x) (ha : AwayFromGridLines g.lo g.hi g.num u eps x) :
    ∃ y, t.flEvaluate fl id eps params x = .ok y ∧
      ∀ l, |y l - F x l| ≤ L * coverRadius g.lo g.hi g.num * (1 + 2 * Spec.locationDefect g.lo g.hi g.num u) := by
  have hG := S.good ht
  obtain ⟨k, s, R, h⟩ := located_away S ht x hx ha
  refine ⟨_, flEvaluate_ok S.wf hG h.simplex h.lt h.found F params hp, fun l => ?_⟩
  rw [projected_inBox hG hx]
  exact (h.interp _ L hL (hF l)).trans (le_of_eq (by ring))

/-! ## Points on grid lines -/

/-- Subtracting `2 * _EPS` from a double precision number that is at least `8` does not change it. -/
theorem roundBinary_sub_eps (W : ℚ) (hW : 8 ≤ W) (hfl : roundBinary 53 W = W) :
    roundBinary 53 (W - 2 * (1 / 2 ^ 52)) = W := by
  have hW0 : 0 < W := by linarith
  have h2 : (0 : ℚ) < 2 := by norm_num
  have h2' : (2 : ℚ) ≠ 0 := by norm_num
  have h12 : (1 : ℚ) < 2 := by norm_num
  set δ : ℚ := 2 * (1 / 2 ^ 52) with hδ
  have hδe : δ = 2 ^ (-51 : ℤ) := by rw [hδ]; norm_num
  have hδ0 : 0 < δ := by rw [hδe]; exact zpow_pos h2 _
  have hδ1 : δ < 1 := by rw [hδ]; norm_num
  set n : ℤ := Int.log 2 W with hn
  have hn1 : (2 : ℚ) ^ n ≤ W := by
    have := Int.zpow_log_le_self (b := 2) (r := W) (by norm_num) hW0
    exact_mod_cast this
  have hn2 : W < (2 : ℚ) ^ (n + 1) := by
    have := Int.lt_zpow_succ_log_self (b := 2) (by norm_num) W
    exact_mod_cast this
  have hn3 : 3 ≤ n := by
    have : (2 : ℚ) ^ (3 : ℤ) < 2 ^ (n + 1) := lt_of_le_of_lt (by norm_num; linarith) hn2
    have := (zpow_lt_zpow_iff_right₀ h12).mp this
    omega
  -- the number as a multiple of its last place
  obtain ⟨m, hm⟩ : ∃ m : ℤ, W = (m : ℚ) * 2 ^ (n + 1 - 53) := by
    unfold roundBinary at hfl
    rw [if_neg hW0.ne', abs_of_pos hW0] at hfl
    exact ⟨_, hfl.symm⟩
  have hV0 : 0 < W - δ := by linarith
  unfold roundBinary
  rw [if_neg hV0.ne', abs_of_pos hV0]
  simp only
  by_cases hc : (2 : ℚ) ^ n ≤ W - δ
  · -- the same binade
    have hlog : Int.log 2 (W - δ) = n := by
      apply le_antisymm
      · have : W - δ < (2 : ℚ) ^ (n + 1) := by linarith
        have := (Int.lt_zpow_iff_log_lt (b := 2) (by norm_num) hV0).mp (by exact_mod_cast this)
        omega
      · exact (Int.zpow_le_iff_le_log (b := 2) (by norm_num) hV0).mp (by exact_mod_cast hc)
    rw [hlog, show ((53 : ℕ) : ℤ) = 53 from rfl]
    have hpos : (0 : ℚ) < 2 ^ (n + 1 - 53) := zpow_pos h2 _
    have hq : (W - δ) / 2 ^ (n + 1 - 53) = m - δ / 2 ^ (n + 1 - 53) := by
      rw [sub_div, hm, mul_div_assoc, div_self hpos.ne', mul_one]
    have hlt : δ / 2 ^ (n + 1 - 53) < 1 / 2 := by
      rw [hδe, ← zpow_sub₀ h2', show (1 / 2 : ℚ) = 2 ^ (-1 : ℤ) by norm_num]
      exact zpow_lt_zpow_right₀ h12 (by omega)
    have hge : 0 < δ / 2 ^ (n + 1 - 53) := div_pos hδ0 hpos
    have : rint ((W - δ) / 2 ^ (n + 1 - 53)) = m := by
      apply rint_eq_of_abs_lt
      rw [hq, abs_lt]
      constructor <;> linarith
    rw [this, ← hm]
  · -- a power of two
    push Not at hc
    have hpos : (0 : ℚ) < 2 ^ (n + 1 - 53) := zpow_pos h2 _
    have hWn : W = 2 ^ n := by
      have e1 : (2 : ℚ) ^ n = ((2 ^ 52 : ℤ) : ℚ) * 2 ^ (n + 1 - 53) := by
        push_cast
        rw [show (4503599627370496 : ℚ) = 2 ^ (52 : ℤ) by norm_num, ← zpow_add₀ h2']
        congr 1
        ring
      have e2 : δ < 2 ^ (n + 1 - 53) := by
        rw [hδe]
        exact zpow_lt_zpow_right₀ h12 (by omega)
      have hmle : ((2 ^ 52 : ℤ) : ℚ) ≤ m := by
        rw [e1, hm] at hn1
        exact le_of_mul_le_mul_right hn1 hpos
      have hmlt : (m : ℚ) < ((2 ^ 52 : ℤ) : ℚ) + 1 := by
        have : W < (((2 ^ 52 : ℤ) : ℚ) + 1) * 2 ^ (n + 1 - 53) := by
          rw [add_mul, one_mul, ← e1]
          linarith
        rw [hm] at this
        exact lt_of_mul_lt_mul_right this hpos.le
      have : m = 2 ^ 52 := by
        have h1 : (2 ^ 52 : ℤ) ≤ m := by exact_mod_cast hmle
        have h2 : m < (2 ^ 52 : ℤ) + 1 := by exact_mod_cast hmlt
        omega
      rw [hm, this, ← e1]
    have hlog : Int.log 2 (W - δ) = n - 1 := by
      apply le_antisymm
      · have := (Int.lt_zpow_iff_log_lt (b := 2) (by norm_num) hV0).mp (by exact_mod_cast hc)
        omega
      · refine (Int.zpow_le_iff_le_log (b := 2) (by norm_num) hV0).mp ?_
        have e : (2 : ℚ) ^ n = 2 * 2 ^ (n - 1) := by
          rw [← zpow_one_add₀ h2']
          congr 1
          ring
        have e3 : (1 : ℚ) ≤ 2 ^ (n - 1) := one_le_zpow₀ h12.le (by omega)
        have : (2 : ℚ) ^ (n - 1) ≤ W - δ := by
          rw [hWn, e]
          linarith
        exact_mod_cast this
    rw [hlog]
    have hq : (W - δ) / 2 ^ (n - 1 + 1 - ((53 : ℕ) : ℤ)) = ((2 ^ 53 : ℤ) : ℚ) - 2 ^ (-51 - (n - 53)) := by
      have e4 : n - 1 + 1 - ((53 : ℕ) : ℤ) = n - 53 := by push_cast; ring
      rw [e4, sub_div, hWn, hδe, ← zpow_sub₀ h2', ← zpow_sub₀ h2']
      congr 1
      rw [show n - (n - 53) = 53 by ring]
      norm_num
    have hback : ((2 ^ 53 : ℤ) : ℚ) * 2 ^ (n - 1 + 1 - ((53 : ℕ) : ℤ)) = W := by
      rw [hWn]
      push_cast
      rw [show (9007199254740992 : ℚ) = 2 ^ (53 : ℤ) by norm_num, ← zpow_add₀ h2']
      congr 1
      ring
    have hr : rint ((W - δ) / 2 ^ (n - 1 + 1 - ((53 : ℕ) : ℤ))) = 2 ^ 53 := by
      rw [hq]
      rcases eq_or_lt_of_le hn3 with h3 | h3
      · rw [← h3]
        decide +kernel
      · apply rint_eq_of_abs_lt
        have e5 : (2 : ℚ) ^ (-51 - (n - 53)) < 1 / 2 := by
          rw [show (1 / 2 : ℚ) = 2 ^ (-1 : ℤ) by norm_num]
          exact zpow_lt_zpow_right₀ h12 (by omega)
        have e6 : (0 : ℚ) < 2 ^ (-51 - (n - 53)) := zpow_pos h2 _
        rw [abs_lt]
        constructor <;> linarith
    rw [hr]
    exact hback

/-- `_EPS` for double precision (safe_learning/functions.py:28). -/
def doubleEps : ℚ := 1 / 2 ^ 52

/-- **C123 (upper limit).** In double precision, the clipping does not keep points at the upper limit inside of the domain if
the domain is at least eight wide: the coordinate within the cell is zero there (on every grid whose
width and cell length are floating point numbers), as if the point was at the lower end of the cell. -/
theorem C123_upper_limit {d : ℕ} (t : Tri ℚ d) (h2 : ∀ i, 2 ≤ t.disc.num i) (x : Fin d → ℚ) (i : Fin d)
    (hx : x i = t.disc.hi i) (hW : 8 ≤ t.disc.hi i - t.disc.lo i)
    (hfl : roundBinary 53 (t.disc.hi i - t.disc.lo i) = t.disc.hi i - t.disc.lo i)
    (hfu : roundBinary 53 (t.disc.unit i) = t.disc.unit i) :
    t.flUnitCoordinates (roundBinary 53) doubleEps x i = 0 := by
  have hn : (1 : ℚ) ≤ (t.disc.num i : ℚ) - 1 := by
    have : ((2 : ℕ) : ℚ) ≤ t.disc.num i := by exact_mod_cast h2 i
    push_cast at this
    linarith
  have hunit : t.disc.flUnit (roundBinary 53) i = t.disc.unit i := by
    unfold GridWorld.flUnit
    rw [hfl]
    exact hfu
  have hc : t.disc.flCenterStates (roundBinary 53) doubleEps x i = t.disc.hi i - t.disc.lo i := by
    unfold GridWorld.flCenterStates doubleEps
    rw [hx, hfl, roundBinary_sub_eps _ hW hfl]
    refine clip_of_mem ?_ le_rfl
    have : roundBinary 53 (0 + 2 * (1 / 2 ^ 52)) ≤ 1 := by decide +kernel
    linarith
  unfold Tri.flUnitCoordinates
  rw [hunit, hc]
  unfold pyMod
  have hU : t.disc.unit i ≠ 0 := by
    unfold GridWorld.unit
    have : 0 < (t.disc.hi i - t.disc.lo i) / ((t.disc.num i : ℚ) - 1) := div_pos (by linarith) (by linarith)
    exact this.ne'
  have e : t.disc.hi i - t.disc.lo i = ((t.disc.num i - 1 : ℤ) : ℚ) * t.disc.unit i := by
    unfold GridWorld.unit
    push_cast
    field_simp
  rw [e, mul_div_assoc, div_self hU, mul_one, Int.floor_intCast, sub_self]

theorem flCornerPoints_two (g : GridWorld K 2) (fl : K → K) :
    flCornerPoints g fl = cornerPoints (⟨0, g.flUnit fl, fun _ => 2⟩ : GridWorld K 2) := by
  have h : GridWorld.unit (⟨0, g.flUnit fl, fun _ => 2⟩ : GridWorld K 2) = g.flUnit fl := by
    funext i
    unfold GridWorld.unit
    simp only [Pi.zero_apply, sub_zero]
    rw [show (((2 : ℕ) : K) - 1) = 1 by norm_num, div_one]
  rw [cornerPoints_scaled, flCornerPoints_scaled, h]

/-- The two triangles of a cell in floating point arithmetic. -/
theorem floatSetup_two {g : GridWorld K 2} (h2 : ∀ i, 2 ≤ g.num i) (hlt : ∀ i, g.lo i < g.hi i)
    (hr : RoundsWithin fl u) (hc : CoarseGrid g.lo g.hi g.num u) (hlo : ∀ i, fl (g.lo i) = g.lo i) (he : 0 ≤ eps) :
    FloatTriSetup g (delaunay2D (g.flUnit fl)) fl u eps where
  two_le := h2
  lt := hlt
  rounds := hr
  coarse := hc
  lo_fl := hlo
  eps_nonneg := he
  tri := by
    have h : GridWorld.unit (⟨0, g.flUnit fl, fun _ => 2⟩ : GridWorld K 2) = g.flUnit fl := by
      funext i
      unfold GridWorld.unit
      simp only [Pi.zero_apply, sub_zero]
      rw [show (((2 : ℕ) : K) - 1) = 1 by norm_num, div_one]
    have := delaunay2D_isTriangulation (⟨0, g.flUnit fl, fun _ => 2⟩ : GridWorld K 2)
      ⟨fun _ => le_rfl, fun i => flUnit_pos ⟨h2, hlt⟩ hr i⟩
    rw [h] at this
    rw [flCornerPoints_two]
    exact this

/-- The intervals of a one-dimensional grid in floating point arithmetic. -/
theorem floatSetup_one {g : GridWorld K 1} (h2 : ∀ i, 2 ≤ g.num i) (hlt : ∀ i, g.lo i < g.hi i)
    (hr : RoundsWithin fl u) (hc : CoarseGrid g.lo g.hi g.num u) (hlo : ∀ i, fl (g.lo i) = g.lo i) (he : 0 ≤ eps) :
    FloatTriSetup g (delaunay1D 0 (g.flUnit fl 0)) fl u eps where
  two_le := h2
  lt := hlt
  rounds := hr
  coarse := hc
  lo_fl := hlo
  eps_nonneg := he
  tri := by
    have h : GridWorld.unit (⟨0, g.flUnit fl, fun _ => 2⟩ : GridWorld K 1) = g.flUnit fl := by
      funext i
      unfold GridWorld.unit
      simp only [Pi.zero_apply, sub_zero]
      rw [show (((2 : ℕ) : K) - 1) = 1 by norm_num, div_one]
    have := delaunay1D_isTriangulation (⟨0, g.flUnit fl, fun _ => 2⟩ : GridWorld K 1)
      ⟨fun _ => le_rfl, fun i => flUnit_pos ⟨h2, hlt⟩ hr i⟩
    rw [cornerPoints_one, h] at this
    unfold flCornerPoints
    rw [if_pos rfl]
    exact this

/-- Three by three points between `0` and `8`. -/
def wideGrid : GridWorld ℚ 2 := ⟨![0, 0], ![8, 8], ![3, 3]⟩

theorem wideGrid_setup : FloatTriSetup wideGrid (delaunay2D wideGrid.unit) (roundBinary 53) ((2 : ℚ) ^ (-((53 : ℕ) : ℤ)))
    doubleEps := by
  have h : wideGrid.flUnit (roundBinary 53) = wideGrid.unit := by decide +kernel
  rw [← h]
  exact floatSetup_two (by decide +kernel) (by decide +kernel) (roundBinary_within 53 (by norm_num))
    (by unfold CoarseGrid; decide +kernel) (by decide +kernel) (by decide +kernel)

theorem eq_of_returns {α : Type} [DecidableEq α] {r : Except PyErr α} {a : α} (h : Conformance.returns r a = true) :
    r = .ok a := by
  unfold Conformance.returns at h
  split at h
  · rw [of_decide_eq_true h]
  · cases h

/-- **C123 (refuted).** A triangulation does not have the values of its parameters at the grid points in double precision: on
three by three points between `0` and `8`, where no operation but the clipping rounds, the value at the upper corner `(8, 8)` is `0`
if the parameter there is `1` and the others are `0`. -/
theorem C123_grid_point_refuted :
    ∃ t, Tri.new wideGrid (delaunay2D wideGrid.unit) false = .ok t ∧
      IsGridPoint wideGrid.lo wideGrid.hi wideGrid.num 8 ![8, 8] ∧
      t.flEvaluate (roundBinary 53) (roundBinary 53) doubleEps (List.replicate 8 ![0] ++ [![1]]) ![8, 8] =
        .ok (![0] : Fin 1 → ℚ) ∧
      t.evaluate doubleEps (List.replicate 8 ![0] ++ [![1]]) ![8, 8] = .ok (![1] : Fin 1 → ℚ) := by
  refine ⟨Conformance.triTwo wideGrid false, Conformance.new_of_check (t := Conformance.triTwo wideGrid false) (by decide +kernel),
    ⟨![2, 2], by decide +kernel, by decide +kernel, by decide +kernel⟩, ?_, ?_⟩
  · have : Conformance.returns ((Conformance.triTwo wideGrid false).flEvaluate (roundBinary 53) (roundBinary 53)
        doubleEps (List.replicate 8 ![0] ++ [![1]]) ![8, 8]) (![0] : Fin 1 → ℚ) = true := by decide +kernel
    exact eq_of_returns this
  · have : Conformance.returns ((Conformance.triTwo wideGrid false).evaluate
        doubleEps (List.replicate 8 ![0] ++ [![1]]) ![8, 8]) (![1] : Fin 1 → ℚ) = true := by decide +kernel
    exact eq_of_returns this

/-- Eleven by eleven points between `0` and `1`. -/
def tenthGrid : GridWorld ℚ 2 := ⟨![0, 0], ![1, 1], ![11, 11]⟩

theorem tenthGrid_setup : FloatTriSetup tenthGrid (delaunay2D (tenthGrid.flUnit (roundBinary 53))) (roundBinary 53)
    ((2 : ℚ) ^ (-((53 : ℕ) : ℤ))) doubleEps :=
  floatSetup_two (by decide +kernel) (by decide +kernel) (roundBinary_within 53 (by norm_num))
    (by unfold CoarseGrid; decide +kernel) (by decide +kernel) (by decide +kernel)

/-- The triangulation on this grid; the inverse of the cell length `0.1` is `10` in double precision. -/
def tenthTri : Tri ℚ 2 where
  disc := tenthGrid
  triangulation := delaunay2D (tenthGrid.flUnit (roundBinary 53))
  unitSimplices := [![0, 11, 1], ![12, 1, 11]]
  hyperplanes := [!![10, 0; 0, 10], !![-10, 0; 0, -10]]
  project := false

/-- The construction gives this triangulation. -/
theorem tenthTri_new : Tri.new tenthGrid (delaunay2D (tenthGrid.flUnit (roundBinary 53))) false = .ok tenthTri :=
  Conformance.new_of_check (t := tenthTri) (by decide +kernel)

/-- **C123 (refuted, inside).** The same inside of the domain, on eleven by eleven points between `0` and `1`: `0.5` is slightly
less than five times `0.1` in double precision, and the remainder `0.5 % 0.1` is close to `0.1`. At the grid point `(0.5,
0.5)` the value is close to `-1` if the parameter of its neighbour `(0.6, 0.6)` is `1` and the others are `0`. -/
theorem C123_inside_refuted :
    Tri.new tenthGrid (delaunay2D (tenthGrid.flUnit (roundBinary 53))) false = .ok tenthTri ∧
    IsGridPoint tenthGrid.lo tenthGrid.hi tenthGrid.num 60 ![1 / 2, 1 / 2] ∧
    ∃ y : Fin 1 → ℚ,
      tenthTri.flEvaluate (roundBinary 53) (roundBinary 53) doubleEps
        (List.replicate 72 ![0] ++ [![1]] ++ List.replicate 48 ![0]) ![1 / 2, 1 / 2] = .ok y ∧
      |y 0 - (-1)| ≤ 1 / 10 ^ 14 ∧
      tenthTri.evaluate doubleEps (List.replicate 72 ![0] ++ [![1]] ++ List.replicate 48 ![0]) ![1 / 2, 1 / 2] =
        .ok (![0] : Fin 1 → ℚ) := by
  refine ⟨tenthTri_new, ⟨![5, 5], by decide +kernel, by decide +kernel, by decide +kernel⟩,
    ![-562949953421313 / 562949953421312], eq_of_returns (by decide +kernel), by decide +kernel,
    eq_of_returns (by decide +kernel)⟩

/-! ## Examples -/

/-- The distance to the centre, sampled on the grid between `0` and `8`, at a grid point where the wrong simplex is found. -/
example (t : Tri ℚ 2) (ht : Tri.new wideGrid (delaunay2D wideGrid.unit) false = .ok t) :
    ∃ y : Fin 1 → ℚ, t.flEvaluate (roundBinary 53) id doubleEps (wideGrid.allPoints.map fun p _ => dist1 p ![4, 4]) ![8, 8] = .ok y ∧
      |y 0 - 8| ≤ 3 * (1 + 3 * 2 * 2 * 2) * (1 * 4) := by
  obtain ⟨y, h1, h2⟩ := C123_every_point (o := 1) wideGrid_setup ht (fun p _ => dist1 p ![4, 4]) 1 zero_le_one
    (fun l x y _ _ => by
      unfold dist1
      rw [one_mul, ← Finset.sum_sub_distrib]
      refine (Finset.abs_sum_le_sum_abs _ _).trans (Finset.sum_le_sum fun i _ => ?_)
      have := abs_abs_sub_abs_le_abs_sub (x i - (![4, 4] : Fin 2 → ℚ) i) (y i - (![4, 4] : Fin 2 → ℚ) i)
      rwa [sub_sub_sub_cancel_right] at this) (wideGrid.allPoints.map fun p _ => dist1 p ![4, 4])
    (fun k p hp => by
      have hk : k < ∏ i, wideGrid.num i := by
        obtain ⟨a, ha, rfl, _⟩ := hp
        rw [Spec.rowMajor, ← ravel_eq_sum]
        exact ravel_lt _ _ ha
      have hk' : k < wideGrid.allPoints.length := by rw [(GridWorld.C03_all_points_enumerates wideGrid).1]; exact hk
      have : wideGrid.allPoints[k] = p :=
        IsGridPoint.unique (((GridWorld.C03_all_points_enumerates wideGrid).2 k hk').2) hp
      rw [List.getElem?_map, List.getElem?_eq_getElem hk', this]
      rfl) ![8, 8] (by unfold InBox; decide +kernel)
  refine ⟨y, h1, ?_⟩
  have e1 : dist1 (![8, 8] : Fin 2 → ℚ) ![4, 4] = 8 := by decide +kernel
  have e2 : coverRadius wideGrid.lo wideGrid.hi wideGrid.num = 4 := by decide +kernel
  have := h2 0
  rw [e1, e2] at this
  exact this

/-- A point away from the grid lines. -/
example : ∃ (k r : ℕ) (s : Fin 3 → ℕ) (c : Fin 2 → ℚ) (w : Fin 3 → ℚ) (y : Fin 2 → ℚ),
    tenthTri.flFindSimplex (roundBinary 53) doubleEps ![53 / 100, 27 / 100] =
      .ok ((k + r * (delaunay2D (tenthGrid.flUnit (roundBinary 53))).nsimplex : ℕ) : ℤ) ∧
    (delaunay2D (tenthGrid.flUnit (roundBinary 53))).simplices[k]? = some s ∧
    tenthGrid.stateToRectangle ![53 / 100, 27 / 100] = .ok r ∧ tenthGrid.rectangleToState r = .ok c ∧
    IsConvexComb (vertices (flCornerPoints tenthGrid (roundBinary 53)) s) w y ∧
    ∀ i, |y i - ((![53 / 100, 27 / 100] : Fin 2 → ℚ) i - c i)| ≤
      4 * (2 : ℚ) ^ (-((53 : ℕ) : ℤ)) * (tenthGrid.hi i - tenthGrid.lo i) :=
  C123_location_partial tenthGrid_setup tenthTri_new ![53 / 100, 27 / 100] (by unfold InBox; decide +kernel)
    (by unfold AwayFromGridLines locationMargin axisPoint; decide +kernel)

/-- The upper limit of a domain of width `20`. -/
example : (Conformance.triTwo ⟨![-10, -10], ![10, 10], ![11, 41]⟩ false).flUnitCoordinates (roundBinary 53) doubleEps
    ![10, 3] 0 = 0 :=
  C123_upper_limit _ (by decide +kernel) ![10, 3] 0 rfl (by decide +kernel) (by decide +kernel) (by decide +kernel)

end SafeLearning
