import Verif.Spec.Accuracy
import Verif.Lemmas.ValueFunction
import Verif.Props.PiecewiseConstant
import Verif.Props.TriangulationExamples
import Mathlib.Algebra.BigOperators.Field
set_option autoImplicit false

/-!
# C120: how well functions on grids approximate Lipschitz continuous functions
-/

namespace SafeLearning

set_option linter.unusedSectionVars false

open Spec

variable {K : Type} [Field K] [LinearOrder K] [IsStrictOrderedRing K] [FloorRing K] {d o : ℕ}
variable {g : GridWorld K d} {D : Delaunay K d} {eps : K} {project : Bool} {t : Tri K d}

/-- The weighted distance of the corners of a cell to one of its points, one coordinate. -/
theorem weighted_coordinate {n : ℕ} {w : Fin n → K} {v : Fin n → K} {a u y c : K} (hu : 0 < u)
    (hv : ∀ j, v j = a ∨ v j = a + u) (h1 : ∑ j, w j = 1) (hy : ∑ j, w j * v j = y)
    (hl : a ≤ y) (hr : y ≤ a + u) (hc : ∑ j, |w j| ≤ 1 + c) :
    ∑ j, |w j| * |v j - y| ≤ u / 2 * (1 + 2 * c) := by
  have key : ∀ j, u * |v j - y| = (v j - a) * (a + u - y) + (a + u - v j) * (y - a) := by
    intro j
    rcases hv j with h | h <;> rw [h]
    · rw [abs_of_nonpos (by linarith)]; ring
    · rw [abs_of_nonneg (by linarith)]; ring
  have hle : ∀ j, |v j - y| ≤ u := by
    intro j
    rw [abs_le]
    rcases hv j with h | h <;> rw [h] <;> constructor <;> linarith
  have e1 : ∑ j, w j * (u * |v j - y|) = 2 * ((y - a) * (a + u - y)) := by
    have : ∀ j, w j * (u * |v j - y|) =
        (w j * v j) * (a + u - y) - w j * (a * (a + u - y)) +
          (w j * ((a + u) * (y - a)) - (w j * v j) * (y - a)) := fun j => by
      rw [key j]; ring
    simp only [this, Finset.sum_add_distrib, Finset.sum_sub_distrib, ← Finset.sum_mul, h1, hy]
    ring
  have e2 : ∑ j, (|w j| - w j) * (u * |v j - y|) ≤ c * (u * u) := by
    calc _ ≤ ∑ j, (|w j| - w j) * (u * u) := Finset.sum_le_sum fun j _ =>
          mul_le_mul_of_nonneg_left (mul_le_mul_of_nonneg_left (hle j) hu.le)
            (sub_nonneg.mpr (le_abs_self _))
      _ = (∑ j, |w j| - 1) * (u * u) := by rw [← Finset.sum_mul, Finset.sum_sub_distrib, h1]
      _ ≤ c * (u * u) := mul_le_mul_of_nonneg_right (by linarith) (mul_pos hu hu).le
  have e3 : u * ∑ j, |w j| * |v j - y| =
      ∑ j, w j * (u * |v j - y|) + ∑ j, (|w j| - w j) * (u * |v j - y|) := by
    rw [← Finset.sum_add_distrib, Finset.mul_sum]
    exact Finset.sum_congr rfl fun j _ => by ring
  have e4 : 2 * ((y - a) * (a + u - y)) ≤ u * (u / 2) := by
    nlinarith [sq_nonneg (2 * (y - a) - u)]
  refine le_of_mul_le_mul_left ?_ hu
  rw [e3, e1]
  linarith

/-- The weights of a point, with the cell in which it lies. -/
theorem weights_cell (S : TriSetup g D eps) (ht : Tri.new g D project = .ok t) (x : Fin d → K)
    (hx : project = true ∨ InBox g.lo g.hi x) :
    ∃ (w : Fin (d + 1) → K) (idx : Fin (d + 1) → ℕ) (v : Fin (d + 1) → Fin d → K) (a : Fin d → K),
      t.getWeights eps x = .ok (w, idx) ∧
      (∀ j, IsGridPoint g.lo g.hi g.num (idx j) (v j)) ∧
      IsBarycentric v w (clipBox g.lo g.hi x) ∧
      ∑ j, |w j| ≤ 1 + Spec.boundaryDefect g.lo g.hi g.num eps ∧
      (ConvexRegion g eps project x → ∑ j, |w j| ≤ 1 + 0) ∧
      (∀ j i, v j i = a i ∨ v j i = a i + (g.hi i - g.lo i) / ((g.num i : K) - 1)) ∧
      (∀ i, a i ≤ clipBox g.lo g.hi x i ∧
        clipBox g.lo g.hi x i ≤ a i + (g.hi i - g.lo i) / ((g.num i : K) - 1)) ∧
      a = g.ijkToState (rectOf g x) := by
  have hG := S.good ht
  have hg := S.wf
  obtain ⟨w, idx, v, h1, h2, h3, h4⟩ := C12_weights_boundary S ht x hx
  obtain ⟨k, s, w', hk, hf, -, -⟩ := S.find hG x
  have e := hG.getWeights_ok hg hk (rectOf_lt hg x) hf
  rw [h1] at e
  simp only [Except.ok.injEq, Prod.mk.injEq] at e
  have hv : ∀ j, v j = verts g (rectOf g x) s j := fun j => by
    refine IsGridPoint.unique (h2 j) ?_
    rw [e.2]
    exact isGridPoint_verts hg (rectOf_lt hg x) s j
  refine ⟨w, idx, v, g.ijkToState (rectOf g x), h1, h2, h3, h4, fun hc => ?_, fun j i => ?_, fun i => ?_,
    rfl⟩
  · have hw : ∀ l, 0 ≤ w l := by
      rcases hc with hc | ⟨hd, hc⟩
      · obtain ⟨w', idx', v', e1, _, e3⟩ := C12_weights_nonneg S ht x hc
        rw [h1] at e1
        simp only [Except.ok.injEq, Prod.mk.injEq] at e1
        rw [e1.1]
        exact e3.1
      · subst hd
        obtain ⟨w', idx', v', e1, _, e3⟩ := C12_weights_nonneg_1d S ht x hc
        rw [h1] at e1
        simp only [Except.ok.injEq, Prod.mk.injEq] at e1
        rw [e1.1]
        exact e3.1
    rw [add_zero, ← h3.1]
    exact le_of_eq (Finset.sum_congr rfl fun j _ => abs_of_nonneg (hw j))
  · have hb := bits_le g (s j) i
    have hvi : v j i = g.ijkToState (rectOf g x) i + bits g (s j) i * g.unit i := by
      rw [hv j]
      unfold verts GridWorld.ijkToState
      push_cast
      ring
    rw [hvi]
    rcases Nat.le_one_iff_eq_zero_or_eq_one.mp hb with h | h <;> rw [h]
    · left; simp
    · right; simp [GridWorld.unit]
  · obtain ⟨hl, hr, -⟩ := rectOf_spec hg x i
    rw [g.clipBox_eq_clip S.lt]
    exact ⟨hl, hr⟩

theorem inBox_clipBox (hlt : ∀ i, g.lo i < g.hi i) (x : Fin d → K) :
    InBox g.lo g.hi (clipBox g.lo g.hi x) := by
  intro i
  have := hlt i
  unfold clipBox
  split_ifs <;> constructor <;> linarith

theorem clipBox_of_inBox {lo hi x : Fin d → K} (hx : InBox lo hi x) : clipBox lo hi x = x := by
  funext i
  unfold clipBox
  rw [if_neg (not_lt.mpr (hx i).1), if_neg (not_lt.mpr (hx i).2)]

theorem inBox_gridPoint (hg : g.WF) {k : ℕ} {p : Fin d → K} (hp : IsGridPoint g.lo g.hi g.num k p) :
    InBox g.lo g.hi p := by
  obtain ⟨m, hm, -, hp⟩ := hp
  intro i
  have hu : 0 < (g.hi i - g.lo i) / ((g.num i : K) - 1) := hg.unit_pos i
  have h3 : ((g.num i : K) - 1) * ((g.hi i - g.lo i) / ((g.num i : K) - 1)) = g.hi i - g.lo i := by
    have := hg.unit_mul i
    rw [mul_comm]
    simpa [GridWorld.unit, mul_comm] using this
  have h4 : (m i : K) ≤ (g.num i : K) - 1 := by
    have : m i + 1 ≤ g.num i := hm i
    have : ((m i + 1 : ℕ) : K) ≤ g.num i := by exact_mod_cast this
    push_cast at this; linarith
  have h5 : (0 : K) ≤ m i := Nat.cast_nonneg _
  rw [hp i, axisPoint]
  constructor
  · nlinarith
  · nlinarith

/-- The bound for both cases. -/
theorem interpolation_error (S : TriSetup g D eps) (ht : Tri.new g D project = .ok t)
    (F : (Fin d → K) → Fin o → K) (L : K) (hL : 0 ≤ L)
    (hF : ∀ l, LipschitzOn1 g.lo g.hi L fun x => F x l) (params : List (Fin o → K))
    (hp : ∀ k p, IsGridPoint g.lo g.hi g.num k p → params[k]? = some (F p))
    (x : Fin d → K) (hx : project = true ∨ InBox g.lo g.hi x) :
    ∃ y, t.evaluate eps params x = .ok y ∧ ∀ l,
      |y l - F (clipBox g.lo g.hi x) l| ≤
        L * coverRadius g.lo g.hi g.num * (1 + 2 * Spec.boundaryDefect g.lo g.hi g.num eps) ∧
      (ConvexRegion g eps project x →
        |y l - F (clipBox g.lo g.hi x) l| ≤ L * coverRadius g.lo g.hi g.num) := by
  have hg := S.wf
  obtain ⟨w, idx, v, a, h1, h2, h3, h4, h5, h6, h7, -⟩ := weights_cell S ht x hx
  set z := clipBox g.lo g.hi x with hz
  have hzin : InBox g.lo g.hi z := inBox_clipBox S.lt x
  refine ⟨fun l => ∑ j, w j * F (v j) l, ?_, fun l => ?_⟩
  · unfold Tri.evaluate
    rw [h1]
    simp only [bind, Except.bind]
    rw [traverseFin_ok (g := fun j => F (v j))]
    · rfl
    · intro j
      exact rowAt_ok (hp _ _ (h2 j))
  · have hb : ∀ c, ∑ j, |w j| ≤ 1 + c →
        |∑ j, w j * F (v j) l - F z l| ≤ L * coverRadius g.lo g.hi g.num * (1 + 2 * c) := by
      intro c hc
      have e1 : ∑ j, w j * F (v j) l - F z l = ∑ j, w j * (F (v j) l - F z l) := by
        simp only [mul_sub, Finset.sum_sub_distrib, ← Finset.sum_mul, h3.1, one_mul]
      rw [e1]
      calc _ ≤ ∑ j, |w j * (F (v j) l - F z l)| := Finset.abs_sum_le_sum_abs _ _
        _ ≤ ∑ j, |w j| * (L * dist1 (v j) z) := Finset.sum_le_sum fun j _ => by
            rw [abs_mul]
            exact mul_le_mul_of_nonneg_left (hF l _ _ (inBox_gridPoint hg (h2 j)) hzin)
              (abs_nonneg _)
        _ = L * ∑ i, ∑ j, |w j| * |v j i - z i| := by
            unfold dist1
            rw [Finset.sum_comm, Finset.mul_sum]
            refine Finset.sum_congr rfl fun j _ => ?_
            rw [Finset.mul_sum, Finset.mul_sum, Finset.mul_sum]
            exact Finset.sum_congr rfl fun i _ => by ring
        _ ≤ L * ∑ i, (g.hi i - g.lo i) / ((g.num i : K) - 1) / 2 * (1 + 2 * c) :=
            mul_le_mul_of_nonneg_left (Finset.sum_le_sum fun i _ =>
              weighted_coordinate (hg.unit_pos i) (fun j => h6 j i) h3.1 (h3.2 i) (h7 i).1 (h7 i).2 hc)
              hL
        _ = _ := by
            rw [← Finset.sum_mul, ← Finset.sum_div, coverRadius, mul_assoc]
    refine ⟨hb _ h4, fun hc => ?_⟩
    have := hb 0 (h5 hc)
    simpa using this

/-- **C120 (triangulations).** Let the parameters be the values at the grid points of a function that is `L`-Lipschitz on
the domain. The triangulation differs from the function by at most `L * sum(unit_maxes) / 2`, times `1 + 2 *
boundaryDefect` (a multiple of `_EPS`), at every point of the domain; with `project`, at every point, compared with the
function at the clipped point. -/
theorem C120_triangulation (S : TriSetup g D eps) (ht : Tri.new g D project = .ok t)
    (F : (Fin d → K) → Fin o → K) (L : K) (hL : 0 ≤ L)
    (hF : ∀ l, LipschitzOn1 g.lo g.hi L fun x => F x l) (params : List (Fin o → K))
    (hp : ∀ k p, IsGridPoint g.lo g.hi g.num k p → params[k]? = some (F p))
    (x : Fin d → K) (hx : project = true ∨ InBox g.lo g.hi x) :
    ∃ y, t.evaluate eps params x = .ok y ∧ ∀ l, |y l - F (clipBox g.lo g.hi x) l| ≤
      L * coverRadius g.lo g.hi g.num * (1 + 2 * Spec.boundaryDefect g.lo g.hi g.num eps) := by
  obtain ⟨y, h1, h2⟩ := interpolation_error S ht F L hL hF params hp x hx
  exact ⟨y, h1, fun l => (h2 l).1⟩

/-- **C120 (triangulations, away from the boundary).** Without the factor `1 + 2 * boundaryDefect` for points at least
`2 * _EPS` inside of the domain, and for all points of the domain in one dimension. -/
theorem C120_triangulation_inside (S : TriSetup g D eps) (ht : Tri.new g D project = .ok t)
    (F : (Fin d → K) → Fin o → K) (L : K) (hL : 0 ≤ L)
    (hF : ∀ l, LipschitzOn1 g.lo g.hi L fun x => F x l) (params : List (Fin o → K))
    (hp : ∀ k p, IsGridPoint g.lo g.hi g.num k p → params[k]? = some (F p))
    (x : Fin d → K) (hx : InsideBy (2 * eps) g.lo g.hi x ∨ (d = 1 ∧ InBox g.lo g.hi x)) :
    ∃ y, t.evaluate eps params x = .ok y ∧ ∀ l, |y l - F x l| ≤ L * coverRadius g.lo g.hi g.num := by
  have hin : InBox g.lo g.hi x := by
    rcases hx with h | ⟨-, h⟩
    · intro i
      have := h i
      have := S.eps_pos
      constructor <;> linarith
    · exact h
  obtain ⟨y, h1, h2⟩ := interpolation_error S ht F L hL hF params hp x (Or.inr hin)
  refine ⟨y, h1, fun l => ?_⟩
  have := (h2 l).2 (hx.imp id fun h => ⟨h.1, Or.inr h.2⟩)
  rwa [clipBox_of_inBox hin] at this

/-- **C120 (sharp).** The bound is attained on every grid: for every `L` there is an `L`-Lipschitz function whose
triangulation misses it by exactly `L * sum(unit_maxes) / 2` at a point inside of the domain. -/
theorem C120_sharp (S : TriSetup g D eps) (ht : Tri.new g D project = .ok t) (L : K) (hL : 0 ≤ L) :
    ∃ (F : (Fin d → K) → Fin 1 → K) (params : List (Fin 1 → K)) (x : Fin d → K) (y : Fin 1 → K),
      (∀ l, LipschitzOn1 g.lo g.hi L fun x => F x l) ∧
      (∀ k p, IsGridPoint g.lo g.hi g.num k p → params[k]? = some (F p)) ∧
      InsideBy (2 * eps) g.lo g.hi x ∧ t.evaluate eps params x = .ok y ∧
      |y 0 - F x 0| = L * coverRadius g.lo g.hi g.num := by
  have hg := S.wf
  -- the centre of the first cell
  set u : Fin d → K := fun i => (g.hi i - g.lo i) / ((g.num i : K) - 1) with hu
  have hupos : ∀ i, 0 < u i := hg.unit_pos
  set c : Fin d → K := fun i => g.lo i + u i / 2 with hc
  have hspan : ∀ i, u i ≤ g.hi i - g.lo i := by
    intro i
    have h2 : (1 : K) ≤ (g.num i : K) - 1 := by
      have : (2 : K) ≤ g.num i := by exact_mod_cast S.two_le i
      linarith
    exact div_le_self (sub_nonneg.mpr (S.lt i).le) h2
  have hcin : InsideBy (2 * eps) g.lo g.hi c := by
    intro i
    have h1 : 4 * eps ≤ u i := S.eps_le i
    have := hspan i
    simp only [hc]
    constructor <;> linarith
  have hcbox : InBox g.lo g.hi c := by
    intro i
    have := hcin i
    have := S.eps_pos
    constructor <;> linarith
  have hclip : clipBox g.lo g.hi c = c := clipBox_of_inBox hcbox
  let F : (Fin d → K) → Fin 1 → K := fun x _ => L * dist1 x c
  obtain ⟨w, idx, v, a, h1, h2, h3, h4, h5, h6, h7, h8⟩ := weights_cell S ht c (Or.inr hcbox)
  have ha : ∀ i, a i = g.lo i := by
    intro i
    have h9 := (h7 i)
    rw [hclip] at h9
    have hai : a i = (rectOf g c i : K) * u i + g.lo i := by rw [h8]; rfl
    have h10 : (rectOf g c i : K) < 1 := by
      by_contra hn
      push Not at hn
      have h11 := h9.1
      rw [hai] at h11
      simp only [hc] at h11
      nlinarith [hupos i]
    have : rectOf g c i = 0 := by
      have : rectOf g c i < 1 := by exact_mod_cast h10
      omega
    rw [hai, this]
    simp
  have hdist : ∀ j, dist1 (v j) c = coverRadius g.lo g.hi g.num := by
    intro j
    unfold dist1 coverRadius
    rw [Finset.sum_div]
    refine Finset.sum_congr rfl fun i _ => ?_
    have := hupos i
    rcases h6 j i with h | h <;> rw [h, ha i] <;> simp only [hc]
    · rw [abs_of_nonpos (by linarith)]; ring
    · rw [show g.lo i + (g.hi i - g.lo i) / ((g.num i : K) - 1) - (g.lo i + u i / 2) = u i / 2 by
        simp only [hu]; ring, abs_of_nonneg (by linarith)]
  have hparams : ∀ k p, IsGridPoint g.lo g.hi g.num k p → (g.allPoints.map F)[k]? = some (F p) := by
    intro k p hp
    have hk : k < ∏ i, g.num i := by
      obtain ⟨a, ha, rfl, _⟩ := hp
      rw [Spec.rowMajor, ← ravel_eq_sum]
      exact ravel_lt _ _ ha
    have hk' : k < g.allPoints.length := by rw [(GridWorld.C03_all_points_enumerates g).1]; exact hk
    have : g.allPoints[k] = p :=
      IsGridPoint.unique (((GridWorld.C03_all_points_enumerates g).2 k hk').2) hp
    rw [List.getElem?_map, List.getElem?_eq_getElem hk', this]
    rfl
  refine ⟨F, g.allPoints.map F, c, fun _ => L * coverRadius g.lo g.hi g.num, fun l x y _ _ => ?_,
    hparams, hcin, ?_, ?_⟩
  · simp only [F, ← mul_sub]
    rw [abs_mul, abs_of_nonneg hL]
    refine mul_le_mul_of_nonneg_left ?_ hL
    unfold dist1
    rw [← Finset.sum_sub_distrib]
    refine (Finset.abs_sum_le_sum_abs _ _).trans (Finset.sum_le_sum fun i _ => ?_)
    have := abs_abs_sub_abs_le_abs_sub (x i - c i) (y i - c i)
    rwa [sub_sub_sub_cancel_right] at this
  · unfold Tri.evaluate
    rw [h1]
    simp only [bind, Except.bind]
    rw [traverseFin_ok (g := fun j => F (v j)) (fun j => rowAt_ok (hparams _ _ (h2 j)))]
    simp only [F, hdist, ← Finset.sum_mul, h3.1, one_mul]
    rfl
  · have h0 : F c 0 = 0 := by simp [F, dist1]
    have hr : 0 ≤ coverRadius g.lo g.hi g.num := by
      unfold coverRadius
      exact div_nonneg (Finset.sum_nonneg fun i _ => (hupos i).le) (by norm_num)
    rw [h0, sub_zero, abs_of_nonneg (mul_nonneg hL hr)]

/-- **C120 (piecewise constant functions).** The same bound for `PiecewiseConstant`, on the whole domain. -/
theorem C120_piecewise_constant (h2 : ∀ i, 2 ≤ g.num i) (hlt : ∀ i, g.lo i < g.hi i)
    (F : (Fin d → K) → Fin o → K) (L : K) (hL : 0 ≤ L)
    (hF : ∀ l, LipschitzOn1 g.lo g.hi L fun x => F x l) (params : List (Fin o → K))
    (hlen : params.length = ∏ i, g.num i)
    (hp : ∀ k p, IsGridPoint g.lo g.hi g.num k p → params[k]? = some (F p))
    (x : Fin d → K) (hx : InBox g.lo g.hi x) :
    ∃ y, pcEvaluate g params [List.ofFn x] = .ok [y] ∧
      ∀ l, |y l - F x l| ≤ L * coverRadius g.lo g.hi g.num := by
  have hg : g.WF := ⟨h2, hlt⟩
  obtain ⟨values, hv, hl, hnear⟩ := C08_nearest_value g h2 hlt params hlen [x]
  obtain ⟨j, p, y, e1, e2, e3, e4⟩ := hnear 0 x rfl
  have hvals : values = [y] := by
    match values, hl, e1 with
    | [z], _, e1 => simpa using e1
  refine ⟨y, by simpa [hvals] using hv, fun l => ?_⟩
  rw [hp j p e3] at e2
  cases e2
  refine (hF l _ _ (inBox_gridPoint hg e3) hx).trans (mul_le_mul_of_nonneg_left ?_ hL)
  -- the nearest grid point is at most half a cell away in every coordinate
  obtain ⟨k', p', -, -, -, hgp, hmin, hhalf⟩ := g.C02_state_to_index_nearest h2 hlt x
  unfold dist1 coverRadius
  rw [Finset.sum_div]
  refine Finset.sum_le_sum fun i _ => ?_
  obtain ⟨mi, hmi, -, hpi⟩ := hgp
  have h3 := e4 i (mi i) (hmi i)
  rw [← hpi i] at h3
  have h4 := hhalf i (hx i).1 (hx i).2
  rw [abs_sub_comm]
  exact h3.trans h4

/-! ## Cases that meet the hypotheses -/

open GridWorld

/-- The absolute value of the first coordinate and twice the second one, on a grid of three times four points. -/
def foldFunction (x : Fin 2 → ℚ) : Fin 2 → ℚ := ![|x 0|, 2 * |x 1 - 7 / 2|]

theorem foldFunction_lipschitz (l : Fin 2) :
    LipschitzOn1 exampleGrid.lo exampleGrid.hi 2 fun x => foldFunction x l := by
  intro x y _ _
  have h0 := abs_abs_sub_abs_le_abs_sub (x 0) (y 0)
  have h1 := abs_abs_sub_abs_le_abs_sub (x 1 - 7 / 2) (y 1 - 7 / 2)
  rw [sub_sub_sub_cancel_right] at h1
  have h2 := abs_nonneg (x 0 - y 0)
  have h3 := abs_nonneg (x 1 - y 1)
  unfold dist1
  rw [Fin.sum_univ_two]
  have hl : l = 0 ∨ l = 1 := by omega
  rcases hl with rfl | rfl
  · simp only [foldFunction, Matrix.cons_val_zero]
    linarith
  · simp only [foldFunction, Matrix.cons_val_one, Matrix.cons_val_zero]
    rw [← mul_sub, abs_mul, abs_of_pos (by norm_num : (0 : ℚ) < 2)]
    linarith

/-- C120 for `foldFunction`: both the triangulation and the piecewise constant function are within `2`. -/
example : ∃ t, Tri.new exampleGrid (delaunay2D exampleGrid.unit) false = .ok t ∧
    ∃ y z, t.evaluate (1 / 1000) (exampleGrid.allPoints.map foldFunction) ![1 / 3, 10 / 3] = .ok y ∧
      pcEvaluate exampleGrid (exampleGrid.allPoints.map foldFunction) [[1 / 3, 10 / 3]] = .ok [z] ∧
      ∀ l, |y l - foldFunction ![1 / 3, 10 / 3] l| ≤ 2 ∧ |z l - foldFunction ![1 / 3, 10 / 3] l| ≤ 2 := by
  obtain ⟨t, ht⟩ := C09_construction exampleSetup false
  have hlen : (exampleGrid.allPoints.map foldFunction).length = ∏ i, exampleGrid.num i := by decide +kernel
  have hp : ∀ k p, IsGridPoint exampleGrid.lo exampleGrid.hi exampleGrid.num k p →
      (exampleGrid.allPoints.map foldFunction)[k]? = some (foldFunction p) := by
    intro k p hp
    have hk : k < ∏ i, exampleGrid.num i := by
      obtain ⟨a, ha, rfl, _⟩ := hp
      rw [Spec.rowMajor, ← ravel_eq_sum]
      exact ravel_lt _ _ ha
    have hk' : k < exampleGrid.allPoints.length := by
      rw [(GridWorld.C03_all_points_enumerates exampleGrid).1]; exact hk
    have : exampleGrid.allPoints[k] = p :=
      IsGridPoint.unique (((GridWorld.C03_all_points_enumerates exampleGrid).2 k hk').2) hp
    rw [List.getElem?_map, List.getElem?_eq_getElem hk', this]
    rfl
  have hr : coverRadius exampleGrid.lo exampleGrid.hi exampleGrid.num = 1 := by decide +kernel
  obtain ⟨y, e1, e2⟩ := C120_triangulation_inside exampleSetup ht foldFunction 2 (by norm_num)
    foldFunction_lipschitz _ hp ![1 / 3, 10 / 3] (Or.inl (by unfold InsideBy; decide +kernel))
  obtain ⟨z, e3, e4⟩ := C120_piecewise_constant exampleSetup.two_le exampleSetup.lt foldFunction 2 (by norm_num)
    foldFunction_lipschitz _ hlen hp ![1 / 3, 10 / 3] (by unfold InBox; decide +kernel)
  rw [hr] at e2 e4
  exact ⟨t, ht, y, z, e1, e3, fun l => ⟨(e2 l).trans (by norm_num), (e4 l).trans (by norm_num)⟩⟩

end SafeLearning
