import Verif.Props.FloatTriangulation
import Verif.Lemmas.FloatWeights
set_option autoImplicit false

/-!
# C127: values of triangulations in floating point arithmetic
-/

namespace SafeLearning

set_option linter.unusedSectionVars false

open Spec

variable {K : Type} [Field K] [LinearOrder K] [IsStrictOrderedRing K] {d o : ℕ}
variable {g : GridWorld K d} {D : Delaunay K d} {eps u δ : K} {project : Bool} {t : Tri K d} {fl : K → K}

/-! ## Specification -/

/-- The computed inverses of the matrices of the edges (`hyperplanes`), with an error of at most `δ` in the coordinates of the unit
cell. -/
def _root_.Spec.InverseWithin (unit : Fin d → K) (δ : K) (exact computed : List (Matrix (Fin d) (Fin d) K)) : Prop :=
  ∀ (k : ℕ) (H : Matrix (Fin d) (Fin d) K), exact[k]? = some H →
    ∃ H' : Matrix (Fin d) (Fin d) K, computed[k]? = some H' ∧ ∀ i j, |H' i j - H i j| ≤ δ / unit i

/-- Bound of the error of a computed weight, other than the first one: `u` is the rounding unit, `δ` the error of the inverses. -/
def _root_.Spec.weightError (lo hi : Fin d → K) (num : Fin d → ℕ) (u δ : K) : K :=
  ∑ i, ((d.factorial + δ) * (((1 + u) ^ (d + 2) - 1) * (3 / 2) +
    (1 + u) ^ (d + 2) * (u * (|lo i| + 5 * (hi i - lo i)) / ((hi i - lo i) / ((num i : K) - 1)))) + 3 / 2 * δ)

/-- Bound of the error of a computed value, for parameters in `[-1, 1]` and weights with a total of at most `c`. It is zero
without rounding. -/
def _root_.Spec.evaluationError (lo hi : Fin d → K) (num : Fin d → ℕ) (u δ c : K) : K :=
  ((1 + u) ^ (d + 2) - 1) * c +
    (1 + u) ^ (d + 2) * (((1 + u) ^ (d + 2) - 1) * c + ((1 + u) ^ (d + 2) + 1) * (d * Spec.weightError lo hi num u δ))

/-- Without rounding, the bound is zero. -/
theorem evaluationError_zero (lo hi : Fin d → K) (num : Fin d → ℕ) (c : K) : Spec.evaluationError lo hi num 0 0 c = 0 := by
  simp [Spec.evaluationError, Spec.weightError]

/-! ## One point -/

/-- The triangulation with computed inverses. -/
def withInverses (t : Tri K d) (hs : List (Matrix (Fin d) (Fin d) K)) : Tri K d := { t with hyperplanes := hs }

theorem flEvaluate_located [FloorRing K] (hg : g.WF) (hr : RoundsWithin fl u) (hG : Tri.Good g D project t)
    {hs : List (Matrix (Fin d) (Fin d) K)} (hδ : 0 ≤ δ) (hH : InverseWithin g.unit δ t.hyperplanes hs) {x : Fin d → K} {c ρ : K}
    {k : ℕ} {s : Fin (d + 1) → ℕ} {R : Fin d → ℕ} (hx : t.projected x = x) (h : Located g D t fl eps x c ρ k s R)
    (params : List (Fin o → K)) {M : K} (val : Fin (d + 1) → Fin o → K)
    (hval : ∀ j, params[ravel g.num fun i => R i + bits g (s j) i]? = some (val j)) (hM : ∀ j l, |val j l| ≤ M) :
    ∃ y, (withInverses t hs).flEvaluate fl fl eps params x = .ok y ∧
      ∀ l, |y l - ∑ j, codeWeights (edges (verts g R s))⁻¹ (verts g R s 0) x j * val j l| ≤
        M * Spec.evaluationError g.lo g.hi g.num u δ c := by
  have hu := hr.nonneg
  obtain ⟨H', hH', hHe⟩ := hH k (edges (verts g R s))⁻¹ (by
    rw [hG.hyper, edges_verts]
    simp [h.simplex])
  set v := verts g R s with hv
  set H := (edges v)⁻¹ with hHdef
  set w := codeWeights H (v 0) x with hw
  have hb : IsBarycentric v w x := codeWeights_bary h.indep x
  set o' : Fin d → K := g.flIjkToState fl fun i => R i + bits g (s 0) i with ho'
  set w1 : Fin d → K := fun j => flSum fl (List.ofFn fun i => fl (fl (x i - o' i) * H' i j)) with hw1
  have hweights : (withInverses t hs).flGetWeights fl fl eps x =
      .ok (Fin.cons (fl (1 - flSum fl (List.ofFn w1))) w1, fun j => ravel g.num fun i => R i + bits g (s j) i) := by
    unfold Tri.flGetWeights
    have e1 : (withInverses t hs).flFindSimplex fl eps x = t.flFindSimplex fl eps x := rfl
    have e2 : ∀ n, (withInverses t hs).simplices n = t.simplices n := fun _ => rfl
    have e3 : (withInverses t hs).projected x = t.projected x := rfl
    have e4 : (withInverses t hs).hyperplanes = hs := rfl
    have e5 : (withInverses t hs).disc = t.disc := rfl
    have e6 : (withInverses t hs).triangulation = t.triangulation := rfl
    rw [e1, h.found]
    simp only [bind, Except.bind, e2, e3, e4, e5, e6]
    rw [hG.simplices_ok hg h.simplex h.lt]
    simp only
    have e7 : t.disc.flIndexToState fl ((ravel g.num fun i => R i + bits g (s 0) i : ℕ) : ℤ) = .ok o' := by
      rw [hG.disc]
      unfold GridWorld.flIndexToState
      rw [unravelIndex_ok _ _ (ravel_lt _ _ fun i => bits_add_lt hg h.lt (s 0) i), unravel_ravel _ _ fun i => bits_add_lt hg h.lt (s 0) i]
      rfl
    rw [e7]
    simp only
    rw [hG.tri, simplexNumber_mod (lt_nsimplex h.simplex), Int.toNat_natCast, rowAt_ok hH', hx]
    rfl
  refine ⟨fun l => flSum fl (List.ofFn fun j =>
    fl ((Fin.cons (fl (1 - flSum fl (List.ofFn w1))) w1 : Fin (d + 1) → K) j * val j l)), ?_, fun l => ?_⟩
  · unfold Tri.flEvaluate
    rw [hweights]
    simp only [bind, Except.bind]
    rw [traverseFin_ok (g := val) fun j => rowAt_ok (hval j)]
    rfl
  · refine flInterpolate_err hr w hb.1 w1 (fun j => ?_) h.weights (fun j => val j l) fun j => hM j l
    -- one weight
    set q := (1 + u) ^ (d + 2) with hq
    have hq1 : 0 ≤ q - 1 := growth_nonneg hu _
    set O : Fin d → K := fun i => u * (|g.lo i| + 5 * (g.hi i - g.lo i)) with hO
    have hO0 : ∀ i, 0 ≤ O i := fun i => by
      have := hg.2 i
      have := abs_nonneg (g.lo i)
      exact mul_nonneg hu (by linarith)
    have h1 := flWeight_err hr x (v 0) o' (fun i => H' i j) (fun i => 3 / 2 * g.unit i) O (h.dist 0) (fun i => by
      have hlt := bits_add_lt hg h.lt (s 0) i
      refine (GridWorld.flPoint_err hg hr i (R i + bits g (s 0) i)).trans ?_
      have hU := hg.unit_pos i
      have : ((R i + bits g (s 0) i : ℕ) : K) * g.unit i ≤ g.hi i - g.lo i := by
        rw [← hg.unit_mul i]
        refine mul_le_mul_of_nonneg_right ?_ hU.le
        have : ((R i + bits g (s 0) i + 1 : ℕ) : K) ≤ g.num i := by exact_mod_cast hlt
        push_cast at this ⊢
        linarith
      have := mul_le_mul_of_nonneg_left this (show 0 ≤ 5 * u by linarith)
      simp only [hO]
      linarith)
    have h2 : |∑ i, (x i - v 0 i) * H' i j - w j.succ| ≤ ∑ i, 3 / 2 * g.unit i * (δ / g.unit i) := by
      rw [show w j.succ = ∑ i, (x i - v 0 i) * H i j from rfl, ← Finset.sum_sub_distrib]
      refine (Finset.abs_sum_le_sum_abs _ _).trans (Finset.sum_le_sum fun i _ => ?_)
      rw [← mul_sub, abs_mul]
      exact mul_le_mul (h.dist 0 i) (hHe i j) (abs_nonneg _) (by have := hg.unit_pos i; linarith)
    have h3 := abs_add_le (w1 j - ∑ i, (x i - v 0 i) * H' i j) (∑ i, (x i - v 0 i) * H' i j - w j.succ)
    rw [sub_add_sub_cancel] at h3
    refine h3.trans ((add_le_add h1 h2).trans ?_)
    unfold Spec.weightError
    rw [← Finset.sum_add_distrib]
    refine Finset.sum_le_sum fun i _ => ?_
    have hU := hg.unit_pos i
    have h4 : |H' i j| ≤ (d.factorial + δ) / g.unit i := by
      have a1 := abs_inv_edges_le hg h.indep i j
      have a2 := hHe i j
      have a3 := abs_add_le (H' i j - H i j) (H i j)
      rw [sub_add_cancel] at a3
      rw [add_div]
      linarith
    have h5 : 0 ≤ (q - 1) * (3 / 2 * g.unit i) + q * O i :=
      add_nonneg (mul_nonneg hq1 (by linarith)) (mul_nonneg (by linarith) (hO0 i))
    have h6 := mul_le_mul_of_nonneg_right h4 h5
    have e : (d.factorial + δ) / g.unit i * ((q - 1) * (3 / 2 * g.unit i) + q * O i) + 3 / 2 * g.unit i * (δ / g.unit i) =
        (d.factorial + δ) * ((q - 1) * (3 / 2) + q * (O i / g.unit i)) + 3 / 2 * δ := by
      field_simp
    calc _ ≤ (d.factorial + δ) / g.unit i * ((q - 1) * (3 / 2 * g.unit i) + q * O i) + 3 / 2 * g.unit i * (δ / g.unit i) :=
          add_le_add h6 le_rfl
      _ = _ := e

/-! ## C127 -/

theorem evaluate_of_located [FloorRing K] (S : FloatTriSetup g D fl u eps) (ht : Tri.new g D project = .ok t)
    {hs : List (Matrix (Fin d) (Fin d) K)} (hδ : 0 ≤ δ) (hH : InverseWithin g.unit δ t.hyperplanes hs)
    (F : (Fin d → K) → Fin o → K) (L : K) (hL : 0 ≤ L) (hF : ∀ l, LipschitzOn1 g.lo g.hi L fun x => F x l)
    (params : List (Fin o → K)) (B M : K)
    (hp : ∀ k p, IsGridPoint g.lo g.hi g.num k p → ∃ v : Fin o → K, params[k]? = some v ∧ ∀ l, |v l - F p l| ≤ B ∧ |v l| ≤ M)
    (x : Fin d → K) (hx : InBox g.lo g.hi x) {c ρ : K} {k : ℕ} {s : Fin (d + 1) → ℕ} {R : Fin d → ℕ}
    (h : Located g D t fl eps x c ρ k s R) :
    ∃ y, (withInverses t hs).flEvaluate fl fl eps params x = .ok y ∧
      ∀ l, |y l - F x l| ≤ L * ρ + c * B + M * Spec.evaluationError g.lo g.hi g.num u δ c := by
  have hg := S.wf
  have hG := S.good ht
  choose val hval hv using fun j => hp _ _ (isGridPoint_verts hg h.lt s j)
  obtain ⟨y, e1, e2⟩ := flEvaluate_located hg S.rounds hG hδ hH (projected_inBox hG hx) h params val hval fun j l => (hv j l).2
  refine ⟨y, e1, fun l => ?_⟩
  have h1 := h.interp _ L hL (hF l)
  set w := codeWeights (edges (verts g R s))⁻¹ (verts g R s 0) x with hw
  have hB : 0 ≤ B := (abs_nonneg _).trans (hv 0 l).1
  have h2 : |∑ j, w j * val j l - ∑ j, w j * F (verts g R s j) l| ≤ c * B := by
    rw [← Finset.sum_sub_distrib]
    refine (Finset.abs_sum_le_sum_abs _ _).trans ?_
    calc _ ≤ ∑ j, |w j| * B := Finset.sum_le_sum fun j _ => by
          rw [← mul_sub, abs_mul]
          exact mul_le_mul_of_nonneg_left (hv j l).1 (abs_nonneg _)
      _ = (∑ j, |w j|) * B := by rw [Finset.sum_mul]
      _ ≤ _ := mul_le_mul_of_nonneg_right h.weights hB
  have h3 := e2 l
  have a1 := abs_add_le (y l - ∑ j, w j * val j l) (∑ j, w j * val j l - ∑ j, w j * F (verts g R s j) l)
  rw [sub_add_sub_cancel] at a1
  have a2 := abs_add_le (y l - ∑ j, w j * F (verts g R s j) l) (∑ j, w j * F (verts g R s j) l - F x l)
  rw [sub_add_sub_cancel] at a2
  linarith

/-- **C127 (every point).** Every operation rounds, the inverses of the edge matrices have an error of at most `δ`. If the parameters
are within `B` of the values at the grid points of an `L`-Lipschitz function and at most `M`, the computed value differs from the function by
at most `C * (3 * L * sum(unit_maxes) / 2 + B)` with a constant `C` that depends on the dimension only, plus `M` times
`evaluationError`, which is zero without rounding: at every point of the domain, also where the wrong simplex is found. -/
theorem C127_every_point [FloorRing K] (S : FloatTriSetup g D fl u eps) (ht : Tri.new g D project = .ok t)
    (hs : List (Matrix (Fin d) (Fin d) K)) (hδ : 0 ≤ δ) (hH : InverseWithin g.unit δ t.hyperplanes hs)
    (F : (Fin d → K) → Fin o → K) (L : K) (hL : 0 ≤ L) (hF : ∀ l, LipschitzOn1 g.lo g.hi L fun x => F x l)
    (params : List (Fin o → K)) (B M : K)
    (hp : ∀ k p, IsGridPoint g.lo g.hi g.num k p → ∃ v : Fin o → K, params[k]? = some v ∧ ∀ l, |v l - F p l| ≤ B ∧ |v l| ≤ M)
    (x : Fin d → K) (hx : InBox g.lo g.hi x) :
    ∃ y, (withInverses t hs).flEvaluate fl fl eps params x = .ok y ∧
      ∀ l, |y l - F x l| ≤ (1 + 3 * d * d * d.factorial) * (3 * L * coverRadius g.lo g.hi g.num + B) +
        M * Spec.evaluationError g.lo g.hi g.num u δ (1 + 3 * d * d * d.factorial) := by
  obtain ⟨k, s, R, h, -⟩ := located_every S ht x hx
  obtain ⟨y, e1, e2⟩ := evaluate_of_located S ht hδ hH F L hL hF params B M hp x hx h
  exact ⟨y, e1, fun l => (e2 l).trans (le_of_eq (by ring))⟩

/-- **C127 (accuracy).** Farther than rounding errors from the grid lines the computed value differs from the function by at
most `L * sum(unit_maxes) / 2 + B`, up to factors that are one plus a multiple of the rounding unit, plus `M` times
`evaluationError`. Missing: points on grid lines, where only `C127_every_point` holds, see `C123_grid_point_refuted`. -/
theorem C127_accuracy_partial [FloorRing K] (S : FloatTriSetup g D fl u eps) (ht : Tri.new g D project = .ok t)
    (hs : List (Matrix (Fin d) (Fin d) K)) (hδ : 0 ≤ δ) (hH : InverseWithin g.unit δ t.hyperplanes hs)
    (F : (Fin d → K) → Fin o → K) (L : K) (hL : 0 ≤ L) (hF : ∀ l, LipschitzOn1 g.lo g.hi L fun x => F x l)
    (params : List (Fin o → K)) (B M : K)
    (hp : ∀ k p, IsGridPoint g.lo g.hi g.num k p → ∃ v : Fin o → K, params[k]? = some v ∧ ∀ l, |v l - F p l| ≤ B ∧ |v l| ≤ M)
    (x : Fin d → K) (hx : InBox g.lo g.hi x) (ha : AwayFromGridLines g.lo g.hi g.num u eps x) :
    ∃ y, (withInverses t hs).flEvaluate fl fl eps params x = .ok y ∧
      ∀ l, |y l - F x l| ≤
        L * coverRadius g.lo g.hi g.num * (1 + 2 * Spec.locationDefect g.lo g.hi g.num u) +
        (1 + Spec.locationDefect g.lo g.hi g.num u) * B +
        M * Spec.evaluationError g.lo g.hi g.num u δ (1 + Spec.locationDefect g.lo g.hi g.num u) := by
  obtain ⟨k, s, R, h⟩ := located_away S ht x hx ha
  obtain ⟨y, e1, e2⟩ := evaluate_of_located S ht hδ hH F L hL hF params B M hp x hx h
  exact ⟨y, e1, fun l => (e2 l).trans (le_of_eq (by ring))⟩

/-! ## One dimension -/

/-- By how much the weights can miss being non-negative in one dimension. -/
def _root_.Spec.lineDefect (lo hi : Fin 1 → K) (num : Fin 1 → ℕ) (u : K) : K :=
  2 * (u * (|lo 0| + 5 * (hi 0 - lo 0)) / ((hi 0 - lo 0) / ((num 0 : K) - 1)))

theorem line_sum {a b s η : K} (h : a = s ∧ b = 1 - s ∨ a = 1 - s ∧ b = s) (h1 : -η ≤ s) (h2 : s ≤ 1 + η) (hη : 0 ≤ η) :
    |a| + |b| ≤ 1 + 2 * η := by
  have : |s| + |1 - s| ≤ 1 + 2 * η := by
    rcases abs_cases s with ⟨e1, _⟩ | ⟨e1, _⟩ <;> rcases abs_cases (1 - s) with ⟨e2, _⟩ | ⟨e2, _⟩ <;> rw [e1, e2] <;> linarith
  rcases h with ⟨rfl, rfl⟩ | ⟨rfl, rfl⟩
  · exact this
  · linarith

theorem located_line [FloorRing K] {g : GridWorld K 1} {D : Delaunay K 1} {t : Tri K 1} (S : FloatTriSetup g D fl u eps)
    (ht : Tri.new g D project = .ok t) (x : Fin 1 → K) (hx : InBox g.lo g.hi x) :
    ∃ k s R, Located g D t fl eps x (1 + Spec.lineDefect g.lo g.hi g.num u)
      (coverRadius g.lo g.hi g.num * (1 + 2 * Spec.lineDefect g.lo g.hi g.num u)) k s R := by
  have hg := S.wf
  have hu0 := S.rounds.nonneg
  obtain ⟨k, s, R, h, hbetween⟩ := located_every S ht x hx
  have hU := hg.unit_pos 0
  have hRlt : R 0 + 1 < g.num 0 := by have := h.lt 0; unfold GridWorld.numRect at this; omega
  have hc1 := abs_le.mp (flPoint_within hg S.rounds 0 (R 0) (by omega))
  have hc2 := abs_le.mp (flPoint_within hg S.rounds 0 (R 0 + 1) hRlt)
  have hc3 := abs_lt.mp (GridWorld.flPoint_close hg S.rounds S.coarse 0 (R 0) (by omega))
  have hc4 := abs_lt.mp (GridWorld.flPoint_close hg S.rounds S.coarse 0 (R 0 + 1) hRlt)
  obtain ⟨hx1, hx2⟩ := hbetween 0
  set O := u * (|g.lo 0| + 5 * (g.hi 0 - g.lo 0)) with hO
  have hO0 : 0 ≤ O := mul_nonneg hu0 (by have := abs_nonneg (g.lo 0); have := S.lt 0; linarith)
  set U := g.unit 0 with hUdef
  set v := verts g R s with hv
  set w := codeWeights (edges v)⁻¹ (v 0) x with hw
  have hb : IsBarycentric v w x := codeWeights_bary h.indep x
  set p : K := (R 0 : K) * U + g.lo 0 with hp
  set η : K := O / U with hη
  have hηU : η * U = O := by rw [hη]; field_simp
  have hη0 : 0 ≤ η := div_nonneg hO0 hU.le
  have hdef : Spec.lineDefect g.lo g.hi g.num u = 2 * η := rfl
  have hvi : ∀ j, v j 0 = p + bits g (s j) 0 * U := by
    intro j
    rw [hv]
    unfold verts GridWorld.ijkToState
    push_cast
    ring
  -- the position in the cell
  set q : K := (x 0 - p) / U with hq
  have hqU : q * U = x 0 - p := by rw [hq]; field_simp
  push_cast at hc2 hc4
  have hq1 : -η ≤ q := by
    refine le_of_mul_le_mul_right ?_ hU
    rw [neg_mul, hηU, hqU]
    linarith [hc1.1]
  have hq2 : q ≤ 1 + η := by
    refine le_of_mul_le_mul_right ?_ hU
    rw [add_mul, one_mul, hηU, hqU]
    linarith [hc2.2]
  have hq3 : -(1 / 2) ≤ q := by
    refine le_of_mul_le_mul_right ?_ hU
    rw [hqU]
    linarith [hc3.1]
  have hq4 : q ≤ 3 / 2 := by
    refine le_of_mul_le_mul_right ?_ hU
    rw [hqU]
    linarith [hc4.2]
  -- the weights
  have hb1 := hb.1
  have hb2 := hb.2 0
  rw [Fin.sum_univ_two] at hb1 hb2
  have hcases : bits g (s 0) 0 = 0 ∧ bits g (s 1) 0 = 1 ∨ bits g (s 0) 0 = 1 ∧ bits g (s 1) 0 = 0 := by
    have hne : bits g (s 0) 0 ≠ bits g (s 1) 0 := by
      intro he
      have := h.indep ![1, -1] (by simp) (fun i => by
        rw [Fin.sum_univ_two, Subsingleton.elim i 0, ← hv, hvi, hvi, he]
        simp) 0
      simp at this
    rcases Nat.le_one_iff_eq_zero_or_eq_one.mp (bits_le g (s 0) 0) with h0 | h0 <;>
      rcases Nat.le_one_iff_eq_zero_or_eq_one.mp (bits_le g (s 1) 0) with h1 | h1 <;> rw [h0, h1] at hne ⊢ <;> simp at hne ⊢
  have hwq : w 0 = q ∧ w 1 = 1 - q ∧ v 0 0 = p + U ∧ v 1 0 = p ∨ w 0 = 1 - q ∧ w 1 = q ∧ v 0 0 = p ∧ v 1 0 = p + U := by
    have hbU : (w 0 * bits g (s 0) 0 + w 1 * bits g (s 1) 0) * U = q * U := by
      rw [hvi, hvi] at hb2
      rw [hqU, ← hb2]
      linear_combination (-p) * hb1
    have hbU := mul_right_cancel₀ hU.ne' hbU
    rcases hcases with ⟨h0, h1⟩ | ⟨h0, h1⟩ <;> rw [h0, h1] at hbU <;> simp only [Nat.cast_zero, Nat.cast_one, mul_zero, mul_one, zero_add, add_zero] at hbU
    · right
      refine ⟨by linarith, hbU, ?_, ?_⟩ <;> rw [hvi]
      · rw [h0]; simp
      · rw [h1]; simp
    · left
      refine ⟨hbU, by linarith, ?_, ?_⟩ <;> rw [hvi]
      · rw [h0]; simp
      · rw [h1]; simp
  refine ⟨k, s, R, h.simplex, h.lt, h.found, h.indep, h.dist, ?_, fun F L hL hF => ?_⟩
  · rw [Fin.sum_univ_two, hdef]
    refine line_sum ?_ hq1 hq2 hη0
    rcases hwq with ⟨a, b, -⟩ | ⟨a, b, -⟩
    · exact Or.inl ⟨a, b⟩
    · exact Or.inr ⟨a, b⟩
  · have e1 : ∑ j, w j * F (v j) - F x = ∑ j, w j * (F (v j) - F x) := by
      simp only [mul_sub, Finset.sum_sub_distrib, ← Finset.sum_mul, hb.1, one_mul]
    have e2 : ∀ j, |F (v j) - F x| ≤ L * |v j 0 - x 0| := by
      intro j
      have := hF _ _ (inBox_gridPoint hg (isGridPoint_verts hg h.lt s j)) hx
      unfold dist1 at this
      rwa [Fin.sum_univ_one] at this
    have e3 : |q| * |1 - q| ≤ 1 / 4 * (1 + 2 * (2 * η)) := by
      rcases abs_cases q with ⟨c1, _⟩ | ⟨c1, _⟩ <;> rcases abs_cases (1 - q) with ⟨c2, _⟩ | ⟨c2, _⟩ <;> rw [c1, c2]
      · have := sq_nonneg (q - 1 / 2)
        linarith
      · have : q * (q - 1) ≤ 3 / 2 * η := mul_le_mul hq4 (by linarith) (by linarith) (by norm_num)
        have hη1 : η ≤ 1 / 2 ∨ 1 / 2 < η := le_or_gt _ _
        rcases hη1 with hη1 | hη1
        · linarith
        · have : q * (q - 1) ≤ 3 / 2 * (1 / 2) := mul_le_mul hq4 (by linarith) (by linarith) (by norm_num)
          linarith
      · have : -q * (1 - q) ≤ η * (3 / 2) := mul_le_mul (by linarith) (by linarith) (by linarith) hη0
        have hη1 : η ≤ 1 / 2 ∨ 1 / 2 < η := le_or_gt _ _
        rcases hη1 with hη1 | hη1
        · linarith
        · have : -q * (1 - q) ≤ 1 / 2 * (3 / 2) := mul_le_mul (by linarith) (by linarith) (by linarith) (by norm_num)
          linarith
      · linarith
    have hrad : coverRadius g.lo g.hi g.num = U / 2 := by
      unfold coverRadius
      rw [Fin.sum_univ_one]
      rfl
    rw [e1, Fin.sum_univ_two, hrad, hdef]
    have e4 : |w 0 * (F (v 0) - F x) + w 1 * (F (v 1) - F x)| ≤ L * (|w 0| * |v 0 0 - x 0| + |w 1| * |v 1 0 - x 0|) := by
      refine (abs_add_le _ _).trans ?_
      rw [abs_mul, abs_mul]
      have a1 := mul_le_mul_of_nonneg_left (e2 0) (abs_nonneg (w 0))
      have a2 := mul_le_mul_of_nonneg_left (e2 1) (abs_nonneg (w 1))
      linarith
    refine e4.trans (mul_le_mul_of_nonneg_left ?_ hL)
    have hxp : x 0 = p + q * U := by rw [hqU]; ring
    have f1 : |p + U - x 0| = |1 - q| * U := by
      rw [hxp, show p + U - (p + q * U) = (1 - q) * U by ring, abs_mul, abs_of_pos hU]
    have f2 : |p - x 0| = |q| * U := by
      rw [hxp, show p - (p + q * U) = -(q * U) by ring, abs_neg, abs_mul, abs_of_pos hU]
    have f3 := mul_le_mul_of_nonneg_right e3 hU.le
    rcases hwq with ⟨a, b, c, e⟩ | ⟨a, b, c, e⟩ <;> rw [a, b, c, e, f1, f2] <;> linarith

/-- **C127 (one dimension).** In one dimension there is only one simplex in each cell, and the bound with factors that are one plus a
multiple of the rounding unit holds at every point of the domain, also at the grid points. -/
theorem C127_line [FloorRing K] {g : GridWorld K 1} {D : Delaunay K 1} {t : Tri K 1} (S : FloatTriSetup g D fl u eps)
    (ht : Tri.new g D project = .ok t)
    (hs : List (Matrix (Fin 1) (Fin 1) K)) (hδ : 0 ≤ δ) (hH : InverseWithin g.unit δ t.hyperplanes hs)
    (F : (Fin 1 → K) → Fin o → K) (L : K) (hL : 0 ≤ L) (hF : ∀ l, LipschitzOn1 g.lo g.hi L fun x => F x l)
    (params : List (Fin o → K)) (B M : K)
    (hp : ∀ k p, IsGridPoint g.lo g.hi g.num k p → ∃ v : Fin o → K, params[k]? = some v ∧ ∀ l, |v l - F p l| ≤ B ∧ |v l| ≤ M)
    (x : Fin 1 → K) (hx : InBox g.lo g.hi x) :
    ∃ y, (withInverses t hs).flEvaluate fl fl eps params x = .ok y ∧
      ∀ l, |y l - F x l| ≤
        L * coverRadius g.lo g.hi g.num * (1 + 2 * Spec.lineDefect g.lo g.hi g.num u) +
        (1 + Spec.lineDefect g.lo g.hi g.num u) * B +
        M * Spec.evaluationError g.lo g.hi g.num u δ (1 + Spec.lineDefect g.lo g.hi g.num u) := by
  obtain ⟨k, s, R, h⟩ := located_line S ht x hx
  obtain ⟨y, e1, e2⟩ := evaluate_of_located S ht hδ hH F L hL hF params B M hp x hx h
  exact ⟨y, e1, fun l => (e2 l).trans (le_of_eq (by ring))⟩

/-! ## Examples -/

/-- The parameters that are the values of a function at the grid points. -/
theorem samples_allPoints [FloorRing K] (g : GridWorld K d) (F : (Fin d → K) → Fin o → K) (k : ℕ) (p : Fin d → K)
    (hp : IsGridPoint g.lo g.hi g.num k p) : (g.allPoints.map F)[k]? = some (F p) := by
  have hk : k < ∏ i, g.num i := by
    obtain ⟨a, ha, rfl, _⟩ := hp
    rw [Spec.rowMajor, ← ravel_eq_sum]
    exact ravel_lt _ _ ha
  have hk' : k < g.allPoints.length := by rw [(GridWorld.C03_all_points_enumerates g).1]; exact hk
  have : g.allPoints[k] = p := IsGridPoint.unique (((GridWorld.C03_all_points_enumerates g).2 k hk').2) hp
  rw [List.getElem?_map, List.getElem?_eq_getElem hk', this]
  rfl

theorem lipschitz_dist1 (lo hi p : Fin d → K) : LipschitzOn1 lo hi 1 fun x => dist1 x p := by
  intro x y _ _
  unfold dist1
  rw [one_mul, ← Finset.sum_sub_distrib]
  refine (Finset.abs_sum_le_sum_abs _ _).trans (Finset.sum_le_sum fun i _ => ?_)
  have := abs_abs_sub_abs_le_abs_sub (x i - p i) (y i - p i)
  rwa [sub_sub_sub_cancel_right] at this

/-- In double precision, on the eleven by eleven points between `0` and `1`, the value at `(0.53, 0.27)` of the triangulation of
the distance to the centre, with an error of `2 ^ -50` in the inverses: the discretisation dominates the error. -/
example (hs : List (Matrix (Fin 2) (Fin 2) ℚ)) (hH : InverseWithin tenthGrid.unit (1 / 2 ^ 50) tenthTri.hyperplanes hs) :
    ∃ y : Fin 1 → ℚ, (withInverses tenthTri hs).flEvaluate (roundBinary 53) (roundBinary 53) doubleEps
      (tenthGrid.allPoints.map fun p _ => dist1 p ![1 / 2, 1 / 2]) ![53 / 100, 27 / 100] = .ok y ∧
      |y 0 - 26 / 100| ≤ 1 / 10 + 1 / 10 ^ 11 := by
  have hbox : ∀ p : Fin 2 → ℚ, InBox tenthGrid.lo tenthGrid.hi p → |dist1 p ![1 / 2, 1 / 2]| ≤ 1 := by
    intro p hp
    have h0 := hp 0
    have h1 := hp 1
    simp only [tenthGrid, Matrix.cons_val_zero, Matrix.cons_val_one] at h0 h1
    have a0 : |p 0 - 1 / 2| ≤ 1 / 2 := by rw [abs_le]; constructor <;> linarith [h0.1, h0.2]
    have a1 : |p 1 - 1 / 2| ≤ 1 / 2 := by rw [abs_le]; constructor <;> linarith [h1.1, h1.2]
    have e : dist1 p ![1 / 2, 1 / 2] = |p 0 - 1 / 2| + |p 1 - 1 / 2| := by
      unfold dist1
      rw [Fin.sum_univ_two]
      rfl
    rw [e, abs_of_nonneg (add_nonneg (abs_nonneg _) (abs_nonneg _))]
    linarith
  obtain ⟨y, h1, h2⟩ := C127_accuracy_partial (o := 1) tenthGrid_setup tenthTri_new hs (by norm_num) hH
    (fun p _ => dist1 p ![1 / 2, 1 / 2]) 1 zero_le_one (fun l => lipschitz_dist1 _ _ _)
    (tenthGrid.allPoints.map fun p _ => dist1 p ![1 / 2, 1 / 2]) 0 1
    (fun k p hp => ⟨_, samples_allPoints tenthGrid _ k p hp, fun l => ⟨by simp, hbox p (inBox_gridPoint tenthGrid_setup.wf hp)⟩⟩)
    ![53 / 100, 27 / 100] (by unfold InBox; decide +kernel)
    (by unfold AwayFromGridLines locationMargin axisPoint; decide +kernel)
  refine ⟨y, h1, ?_⟩
  have e1 : dist1 (![53 / 100, 27 / 100] : Fin 2 → ℚ) ![1 / 2, 1 / 2] = 26 / 100 := by decide +kernel
  have := h2 0
  rw [e1] at this
  refine this.trans ?_
  unfold Spec.evaluationError Spec.weightError Spec.locationDefect coverRadius
  decide +kernel

/-- The exact inverses meet the hypothesis. -/
example : InverseWithin tenthGrid.unit 0 tenthTri.hyperplanes tenthTri.hyperplanes :=
  fun _ H h => ⟨H, h, fun i j => by simp⟩

/-- At the grid point `(8, 8)`, where the wrong simplex is found. -/
example (t : Tri ℚ 2) (ht : Tri.new wideGrid (delaunay2D wideGrid.unit) false = .ok t) :
    ∃ y : Fin 1 → ℚ, (withInverses t t.hyperplanes).flEvaluate (roundBinary 53) (roundBinary 53) doubleEps
      (wideGrid.allPoints.map fun p _ => dist1 p ![0, 0]) ![8, 8] = .ok y ∧
      |y 0 - 16| ≤ 25 * (3 * 1 * 4 + 0) + 1 / 10 ^ 10 := by
  obtain ⟨y, h1, h2⟩ := C127_every_point (o := 1) (δ := 0) wideGrid_setup ht t.hyperplanes le_rfl
    (fun _ H h => ⟨H, h, fun i j => by simp⟩)
    (fun p _ => dist1 p ![0, 0]) 1 zero_le_one (fun l => lipschitz_dist1 _ _ _)
    (wideGrid.allPoints.map fun p _ => dist1 p ![0, 0]) 0 16
    (fun k p hp => ⟨_, samples_allPoints wideGrid _ k p hp, fun l => ⟨by simp, by
      have hb := inBox_gridPoint wideGrid_setup.wf hp
      have h0 := hb 0
      have h1 := hb 1
      simp only [wideGrid, Matrix.cons_val_zero, Matrix.cons_val_one] at h0 h1
      have e : dist1 p ![0, 0] = |p 0 - 0| + |p 1 - 0| := by
        unfold dist1
        rw [Fin.sum_univ_two]
        rfl
      rw [e, sub_zero, sub_zero, abs_of_nonneg h0.1, abs_of_nonneg h1.1, abs_of_nonneg (add_nonneg h0.1 h1.1)]
      linarith [h0.2, h1.2]⟩⟩)
    ![8, 8] (by unfold InBox; decide +kernel)
  refine ⟨y, h1, ?_⟩
  have e1 : dist1 (![8, 8] : Fin 2 → ℚ) ![0, 0] = 16 := by decide +kernel
  have e2 : coverRadius wideGrid.lo wideGrid.hi wideGrid.num = 4 := by decide +kernel
  have := h2 0
  rw [e1, e2] at this
  refine this.trans ?_
  unfold Spec.evaluationError Spec.weightError
  decide +kernel

/-- Eleven points between `0` and `1`. -/
def tenthLine : GridWorld ℚ 1 := ⟨![0], ![1], ![11]⟩

theorem tenthLine_setup : FloatTriSetup tenthLine (delaunay1D 0 (tenthLine.flUnit (roundBinary 53) 0)) (roundBinary 53)
    ((2 : ℚ) ^ (-((53 : ℕ) : ℤ))) doubleEps :=
  floatSetup_one (by decide +kernel) (by decide +kernel) (roundBinary_within 53 (by norm_num))
    (by unfold CoarseGrid; decide +kernel) (by decide +kernel) (by decide +kernel)

/-- The triangulation on this grid. -/
def tenthLineTri : Tri ℚ 1 where
  disc := tenthLine
  triangulation := delaunay1D 0 (tenthLine.flUnit (roundBinary 53) 0)
  unitSimplices := [![0, 1]]
  hyperplanes := [!![10]]
  project := true

theorem tenthLineTri_new : Tri.new tenthLine (delaunay1D 0 (tenthLine.flUnit (roundBinary 53) 0)) true = .ok tenthLineTri :=
  Conformance.new_of_check (t := tenthLineTri) (by decide +kernel)

/-- In one dimension, at the grid point `0.5`, whose remainder is close to the length of a cell. -/
example (hs : List (Matrix (Fin 1) (Fin 1) ℚ)) (hH : InverseWithin tenthLine.unit (1 / 2 ^ 50) tenthLineTri.hyperplanes hs) :
    ∃ y : Fin 1 → ℚ, (withInverses tenthLineTri hs).flEvaluate (roundBinary 53) (roundBinary 53) doubleEps
      (tenthLine.allPoints.map fun p _ => dist1 p ![1]) ![1 / 2] = .ok y ∧
      |y 0 - 1 / 2| ≤ 1 / 20 + 1 / 10 ^ 11 := by
  have hbox : ∀ p : Fin 1 → ℚ, InBox tenthLine.lo tenthLine.hi p → |dist1 p ![1]| ≤ 1 := by
    intro p hp
    have h0 := hp 0
    simp only [tenthLine, Matrix.cons_val_fin_one] at h0
    have e : dist1 p ![1] = |p 0 - 1| := by
      unfold dist1
      rw [Fin.sum_univ_one]
      rfl
    rw [e, abs_abs, abs_le]
    constructor <;> linarith [h0.1, h0.2]
  obtain ⟨y, h1, h2⟩ := C127_line (o := 1) tenthLine_setup tenthLineTri_new hs (by norm_num) hH
    (fun p _ => dist1 p ![1]) 1 zero_le_one (fun l => lipschitz_dist1 _ _ _)
    (tenthLine.allPoints.map fun p _ => dist1 p ![1]) 0 1
    (fun k p hp => ⟨_, samples_allPoints tenthLine _ k p hp, fun l => ⟨by simp, hbox p (inBox_gridPoint tenthLine_setup.wf hp)⟩⟩)
    ![1 / 2] (by unfold InBox; decide +kernel)
  refine ⟨y, h1, ?_⟩
  have e1 : dist1 (![1 / 2] : Fin 1 → ℚ) ![1] = 1 / 2 := by decide +kernel
  have := h2 0
  rw [e1] at this
  refine this.trans ?_
  unfold Spec.evaluationError Spec.weightError Spec.lineDefect coverRadius
  decide +kernel

/-- **C127 (refuted).** In two dimensions the bound of `C127_accuracy_partial` is violated on grid lines: with double precision and exact inverses on three by three points between `0` and `8`, the value of the 1-Lipschitz
function `|x - y|` at the grid point `(8, 8)` comes out as `8` instead of `0`, twice the bound. The parameters are the values of the function. -/
theorem C127_grid_lines_refuted : ∃ (t : Tri ℚ 2) (F : (Fin 2 → ℚ) → Fin 1 → ℚ) (params : List (Fin 1 → ℚ)) (y : Fin 1 → ℚ),
    Tri.new wideGrid (delaunay2D wideGrid.unit) false = .ok t ∧ (∀ l, LipschitzOn1 wideGrid.lo wideGrid.hi 1 fun x => F x l) ∧
    (∀ k p, IsGridPoint wideGrid.lo wideGrid.hi wideGrid.num k p → params[k]? = some (F p) ∧ ∀ l, |F p l| ≤ 8) ∧
    InBox wideGrid.lo wideGrid.hi ![8, 8] ∧ t.flEvaluate (roundBinary 53) (roundBinary 53) doubleEps params ![8, 8] = .ok y ∧
    1 * coverRadius wideGrid.lo wideGrid.hi wideGrid.num * (1 + 2 * Spec.locationDefect wideGrid.lo wideGrid.hi wideGrid.num ((2 : ℚ) ^ (-((53 : ℕ) : ℤ)))) +
      8 * Spec.evaluationError wideGrid.lo wideGrid.hi wideGrid.num ((2 : ℚ) ^ (-((53 : ℕ) : ℤ))) 0
        (1 + Spec.locationDefect wideGrid.lo wideGrid.hi wideGrid.num ((2 : ℚ) ^ (-((53 : ℕ) : ℤ)))) < |y 0 - F ![8, 8] 0| := by
  refine ⟨Conformance.triTwo wideGrid false, fun x _ => |x 0 - x 1|, wideGrid.allPoints.map fun x _ => |x 0 - x 1|, ![8],
    Conformance.new_of_check (t := Conformance.triTwo wideGrid false) (by decide +kernel), ?_, ?_, by unfold InBox; decide +kernel, ?_, ?_⟩
  · intro l x y _ _
    unfold dist1
    rw [Fin.sum_univ_two, one_mul]
    have h1 := abs_abs_sub_abs_le (x 0 - x 1) (y 0 - y 1)
    have h2 := abs_sub (x 0 - y 0) (x 1 - y 1)
    rw [show x 0 - x 1 - (y 0 - y 1) = x 0 - y 0 - (x 1 - y 1) by ring] at h1
    exact h1.trans h2
  · intro k p hp
    refine ⟨samples_allPoints wideGrid _ k p hp, fun l => ?_⟩
    have hb := inBox_gridPoint wideGrid_setup.wf hp
    have h0 := hb 0
    have h1 := hb 1
    simp only [wideGrid, Matrix.cons_val_zero, Matrix.cons_val_one] at h0 h1
    rw [abs_abs, abs_le]
    constructor <;> linarith [h0.1, h0.2, h1.1, h1.2]
  · have : Conformance.returns ((Conformance.triTwo wideGrid false).flEvaluate (roundBinary 53) (roundBinary 53)
        doubleEps (wideGrid.allPoints.map fun x _ => |x 0 - x 1|) ![8, 8]) (![8] : Fin 1 → ℚ) = true := by decide +kernel
    exact eq_of_returns this
  · unfold Spec.evaluationError Spec.weightError Spec.locationDefect coverRadius
    decide +kernel

end SafeLearning
