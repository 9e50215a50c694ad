import Verif.Props.Triangulation
import Mathlib.Tactic.FieldSimp
import Mathlib.Tactic.FinCases
set_option autoImplicit false

/-!
# Triangulations that satisfy the assumptions made of the library

`_Delaunay1D`, which is part of the code, and the two triangles of a rectangle.
-/

namespace SafeLearning

set_option linter.unusedSectionVars false

open Spec

variable {K : Type} [Field K] [LinearOrder K] [IsStrictOrderedRing K]

theorem cornerPoints_one (g : GridWorld K 1) : cornerPoints g = [fun _ => 0, g.unit] := by
  simp [cornerPoints]

/-- The one-dimensional class of the code satisfies what is assumed of the library. -/
theorem delaunay1D_isTriangulation (g : GridWorld K 1) (hg : g.WF) :
    IsTriangulation g.unit (cornerPoints g) (delaunay1D 0 (g.unit 0)).simplices
      (delaunay1D 0 (g.unit 0)).find := by
  have hu := hg.unit_pos 0
  refine ⟨?_, ?_, ?_⟩
  · intro s hs j
    simp only [delaunay1D, List.mem_singleton] at hs
    subst hs
    rw [cornerPoints_one]
    fin_cases j <;> simp
  · intro s hs c hc hz j
    simp only [delaunay1D, List.mem_singleton] at hs
    subst hs
    have h1 := hz 0
    simp [vertices, cornerPoints_one, Fin.sum_univ_succ, hu.ne'] at hc h1
    fin_cases j <;> simp [h1] at hc ⊢
    exact hc
  · intro y hy
    obtain ⟨h0, h1⟩ := hy 0
    refine ⟨0, ![0, 1], ![1 - y 0 / g.unit 0, y 0 / g.unit 0], ?_, rfl, ?_, ?_, ?_⟩
    · simp only [delaunay1D, max_eq_right hu.le, min_eq_left hu.le]
      rw [if_neg (by push Not; exact ⟨h1, h0⟩)]
      rfl
    · intro j
      have h2 : y 0 / g.unit 0 ≤ 1 := (div_le_one hu).mpr h1
      have h3 : 0 ≤ y 0 / g.unit 0 := div_nonneg h0 hu.le
      fin_cases j
      · simpa using h2
      · simpa using h3
    · simp [Fin.sum_univ_succ]
    · intro i
      have : i = 0 := Subsingleton.elim _ _
      subst this
      simp [Fin.sum_univ_succ, vertices, cornerPoints_one, hu.ne']

theorem delaunay1D_isProper (g : GridWorld K 1) (hg : g.WF) :
    IsProper (cornerPoints g) (delaunay1D 0 (g.unit 0)).simplices := by
  intro s hs s' hs' y w w' hw hw' p
  have hI := (delaunay1D_isTriangulation g hg).indep s hs
  simp only [delaunay1D, List.mem_singleton] at hs hs'
  subst hs
  subst hs'
  rw [bary_unique hI hw.2 hw'.2]

/-- The two triangles of the unit rectangle that share the diagonal from `(0, u₁)` to `(u₀, 0)`. -/
def delaunay2D (u : Fin 2 → K) : Delaunay K 2 where
  simplices := [![2, 0, 3], ![1, 3, 0]]
  find y := if y 0 * u 1 + y 1 * u 0 ≤ u 0 * u 1 then 0 else 1

theorem cornerPoints_two (g : GridWorld K 2) :
    cornerPoints g = [![g.unit 0, 0], ![g.unit 0, g.unit 1], ![0, 0], ![0, g.unit 1]] := by
  simp [cornerPoints, meshIJ, List.finRange_succ, Fin.tail]
  refine ⟨?_, ?_, ?_, ?_⟩ <;> · funext i; fin_cases i <;> rfl

theorem delaunay2D_isTriangulation (g : GridWorld K 2) (hg : g.WF) :
    IsTriangulation g.unit (cornerPoints g) (delaunay2D g.unit).simplices
      (delaunay2D g.unit).find := by
  have hu0 := hg.unit_pos 0
  have hu1 := hg.unit_pos 1
  refine ⟨?_, ?_, ?_⟩
  · intro s hs j
    rw [cornerPoints_two]
    simp only [delaunay2D, List.mem_cons, List.not_mem_nil, or_false] at hs
    rcases hs with rfl | rfl <;> fin_cases j <;> simp
  · intro s hs c hc hz
    have h1 := hz 0
    have h2 := hz 1
    simp only [delaunay2D, List.mem_cons, List.not_mem_nil, or_false] at hs
    rcases hs with rfl | rfl
    · simp [vertices, cornerPoints_two, Fin.sum_univ_three, hu0.ne', hu1.ne'] at hc h1 h2
      intro j
      fin_cases j <;> simp [h1, h2] at hc ⊢
      exact hc
    · simp [vertices, cornerPoints_two, Fin.sum_univ_three, hu0.ne', hu1.ne', ← add_mul] at hc h1 h2
      intro j
      fin_cases j <;> simp <;> linarith
  · intro y hy
    obtain ⟨h00, h01⟩ := hy 0
    obtain ⟨h10, h11⟩ := hy 1
    have ha : 0 ≤ y 0 / g.unit 0 := div_nonneg h00 hu0.le
    have hb : 0 ≤ y 1 / g.unit 1 := div_nonneg h10 hu1.le
    have ha1 : y 0 / g.unit 0 ≤ 1 := (div_le_one hu0).mpr h01
    have hb1 : y 1 / g.unit 1 ≤ 1 := (div_le_one hu1).mpr h11
    have hsum : y 0 * g.unit 1 + y 1 * g.unit 0 =
        (y 0 / g.unit 0 + y 1 / g.unit 1) * (g.unit 0 * g.unit 1) := by
      field_simp
    have hpos := mul_pos hu0 hu1
    by_cases h : y 0 * g.unit 1 + y 1 * g.unit 0 ≤ g.unit 0 * g.unit 1
    · have h' : y 0 / g.unit 0 + y 1 / g.unit 1 ≤ 1 := by
        rw [hsum] at h
        by_contra hc
        push Not at hc
        nlinarith
      refine ⟨0, _, ![1 - y 0 / g.unit 0 - y 1 / g.unit 1, y 0 / g.unit 0, y 1 / g.unit 1],
        ?_, rfl, ?_, ?_, ?_⟩
      · simp [delaunay2D, h]
      · intro j
        fin_cases j <;> simp [ha, hb]
        linarith
      · simp [Fin.sum_univ_three]
        ring
      · intro i
        fin_cases i <;> simp [vertices, cornerPoints_two, Fin.sum_univ_three, hu0.ne', hu1.ne']
    · have h' : 1 < y 0 / g.unit 0 + y 1 / g.unit 1 := by
        rw [hsum] at h
        push Not at h
        by_contra hc
        push Not at hc
        nlinarith
      refine ⟨1, _, ![y 0 / g.unit 0 + y 1 / g.unit 1 - 1, 1 - y 0 / g.unit 0, 1 - y 1 / g.unit 1],
        ?_, rfl, ?_, ?_, ?_⟩
      · simp [delaunay2D, h]
      · intro j
        fin_cases j <;> simp [ha1, hb1]
        linarith
      · simp [Fin.sum_univ_three]
      · intro i
        fin_cases i <;> simp [vertices, cornerPoints_two, Fin.sum_univ_three] <;>
          field_simp <;> ring

theorem delaunay2D_isProper (g : GridWorld K 2) (hg : g.WF) :
    IsProper (cornerPoints g) (delaunay2D g.unit).simplices := by
  have hu0 := hg.unit_pos 0
  have hu1 := hg.unit_pos 1
  -- a point of both triangles is on the diagonal
  have key : ∀ y w w', IsConvexComb (vertices (cornerPoints g) ![2, 0, 3]) w y →
      IsConvexComb (vertices (cornerPoints g) ![1, 3, 0]) w' y →
      w 0 = 0 ∧ w' 0 = 0 ∧ w 1 = w' 2 ∧ w 2 = w' 1 := by
    intro y w w' hw hw'
    obtain ⟨h0, h1, h2⟩ := hw
    obtain ⟨h0', h1', h2'⟩ := hw'
    have a0 := (h2 0).trans (h2' 0).symm
    have a1 := (h2 1).trans (h2' 1).symm
    simp [vertices, cornerPoints_two, Fin.sum_univ_three, ← add_mul, hu0.ne', hu1.ne'] at a0 a1
    rw [Fin.sum_univ_three] at h1 h1'
    have := h0 0
    have := h0' 0
    refine ⟨?_, ?_, ?_, ?_⟩ <;> linarith
  have hsym : ∀ y w w', IsConvexComb (vertices (cornerPoints g) ![2, 0, 3]) w y →
      IsConvexComb (vertices (cornerPoints g) ![1, 3, 0]) w' y → ∀ p,
      weightAt (vertices (cornerPoints g) ![2, 0, 3]) w p =
        weightAt (vertices (cornerPoints g) ![1, 3, 0]) w' p := by
    intro y w w' hw hw' p
    obtain ⟨b0, b1, b2, b3⟩ := key y w w' hw hw'
    simp only [weightAt, Fin.sum_univ_three, b0, b1, b2, b3, ite_self, zero_add]
    rw [add_comm]
    rfl
  intro s hs s' hs' y w w' hw hw' p
  have hI := (delaunay2D_isTriangulation g hg).indep s hs
  simp only [delaunay2D, List.mem_cons, List.not_mem_nil, or_false] at hs hs'
  rcases hs with rfl | rfl <;> rcases hs' with rfl | rfl
  · rw [bary_unique hI hw.2 hw'.2]
  · exact hsym y w w' hw hw' p
  · exact (hsym y w' w hw' hw p).symm
  · rw [bary_unique hI hw.2 hw'.2]

/-- In one dimension nothing is assumed of a library. -/
theorem triSetup_one {g : GridWorld K 1} {eps : K} [FloorRing K] (h2 : ∀ i, 2 ≤ g.num i)
    (hlt : ∀ i, g.lo i < g.hi i) (he : 0 < eps)
    (hle : ∀ i, 4 * eps ≤ (g.hi i - g.lo i) / ((g.num i : K) - 1)) :
    TriSetup g (delaunay1D 0 (g.unit 0)) eps :=
  ⟨h2, hlt, delaunay1D_isTriangulation g ⟨h2, hlt⟩, he, hle⟩

theorem triSetup_two {g : GridWorld K 2} {eps : K} [FloorRing K] (h2 : ∀ i, 2 ≤ g.num i)
    (hlt : ∀ i, g.lo i < g.hi i) (he : 0 < eps)
    (hle : ∀ i, 4 * eps ≤ (g.hi i - g.lo i) / ((g.num i : K) - 1)) :
    TriSetup g (delaunay2D g.unit) eps :=
  ⟨h2, hlt, delaunay2D_isTriangulation g ⟨h2, hlt⟩, he, hle⟩

end SafeLearning
