import Verif.Props.Continuity
set_option autoImplicit false

/-!
# C18 in three dimensions

A rectangle has a proper triangulation into five simplices, and all its corners are on one sphere, so that
this is one of its Delaunay triangulations. The diagonals of opposite faces do not match, and the function of the code,
which repeats the triangulation in every rectangle, jumps between neighbouring rectangles.
-/

namespace SafeLearning

set_option linter.unusedSectionVars false

open Spec

/-- The grid `{0, 1, 2} × {0, 1} × {0, 1}`. -/
def grid3 : GridWorld ℚ 3 := { lo := ![0, 0, 0], hi := ![2, 1, 1], num := ![3, 2, 2] }

/-- Four simplices at the corners `000`, `110`, `101` and `011` and one in the middle. -/
def five : Delaunay ℚ 3 where
  simplices := [![9, 0, 12, 11], ![3, 0, 12, 5], ![2, 0, 11, 5], ![14, 12, 11, 5], ![0, 12, 11, 5]]
  find y :=
    if y 0 + y 1 + y 2 ≤ 1 then 0
    else if 1 + y 2 ≤ y 0 + y 1 then 1
    else if 1 + y 1 ≤ y 0 + y 2 then 2
    else if 1 + y 0 ≤ y 1 + y 2 then 3
    else 4

theorem grid3_unit (i : Fin 3) : grid3.unit i = 1 := by
  fin_cases i <;> simp [GridWorld.unit, grid3] <;> norm_num

theorem grid3_wf : grid3.WF := by
  refine ⟨fun i => ?_, fun i => ?_⟩ <;> fin_cases i <;> simp [grid3]

theorem cornerPoints_grid3_length : (cornerPoints grid3).length = 27 := by decide +kernel

theorem corner3 : (cornerPoints grid3).getD 9 0 = ![0, 0, 0] ∧
    (cornerPoints grid3).getD 0 0 = ![1, 0, 0] ∧ (cornerPoints grid3).getD 12 0 = ![0, 1, 0] ∧
    (cornerPoints grid3).getD 11 0 = ![0, 0, 1] ∧ (cornerPoints grid3).getD 5 0 = ![1, 1, 1] ∧
    (cornerPoints grid3).getD 3 0 = ![1, 1, 0] ∧ (cornerPoints grid3).getD 2 0 = ![1, 0, 1] ∧
    (cornerPoints grid3).getD 14 0 = ![0, 1, 1] := by decide +kernel

/-- The sum over the vertices of one simplex. -/
theorem bary3 {a b c e : ℕ} {w : Fin 4 → ℚ} {y : Fin 3 → ℚ} :
    IsBarycentric (vertices (cornerPoints grid3) ![a, b, c, e]) w y ↔
      w 0 + w 1 + w 2 + w 3 = 1 ∧ ∀ i, w 0 * (cornerPoints grid3).getD a 0 i +
        w 1 * (cornerPoints grid3).getD b 0 i + w 2 * (cornerPoints grid3).getD c 0 i +
        w 3 * (cornerPoints grid3).getD e 0 i = y i := by
  unfold IsBarycentric vertices
  simp [Fin.sum_univ_four]

theorem bary3' {a b c e : ℕ} {pa pb pc pe : Fin 3 → ℚ}
    (ha : (cornerPoints grid3).getD a 0 = pa) (hb : (cornerPoints grid3).getD b 0 = pb)
    (hc : (cornerPoints grid3).getD c 0 = pc) (he : (cornerPoints grid3).getD e 0 = pe)
    {w : Fin 4 → ℚ} {y : Fin 3 → ℚ} :
    IsBarycentric (vertices (cornerPoints grid3) ![a, b, c, e]) w y ↔
      w 0 + w 1 + w 2 + w 3 = 1 ∧
      w 0 * pa 0 + w 1 * pb 0 + w 2 * pc 0 + w 3 * pe 0 = y 0 ∧
      w 0 * pa 1 + w 1 * pb 1 + w 2 * pc 1 + w 3 * pe 1 = y 1 ∧
      w 0 * pa 2 + w 1 * pb 2 + w 2 * pc 2 + w 3 * pe 2 = y 2 := by
  rw [bary3, ha, hb, hc, he, Fin.forall_fin_succ, Fin.forall_fin_succ, Fin.forall_fin_succ]
  simp

theorem five_mem {P : (Fin 4 → ℕ) → Prop} (h0 : P ![9, 0, 12, 11]) (h1 : P ![3, 0, 12, 5])
    (h2 : P ![2, 0, 11, 5]) (h3 : P ![14, 12, 11, 5]) (h4 : P ![0, 12, 11, 5]) :
    ∀ s ∈ five.simplices, P s := by
  intro s hs
  simp only [five, List.mem_cons, List.not_mem_nil, or_false] at hs
  rcases hs with rfl | rfl | rfl | rfl | rfl <;> assumption

theorem bary_T0 {w : Fin 4 → ℚ} {y : Fin 3 → ℚ} :
    IsBarycentric (vertices (cornerPoints grid3) ![9, 0, 12, 11]) w y ↔
      w 0 = 1 - y 0 - y 1 - y 2 ∧ w 1 = y 0 ∧ w 2 = y 1 ∧ w 3 = y 2 := by
  obtain ⟨c9, c0, c12, c11, c5, c3, c2, c14⟩ := corner3
  rw [bary3' c9 c0 c12 c11]
  constructor
  · rintro ⟨h1, h2, h3, h4⟩
    simp at h2 h3 h4
    refine ⟨?_, ?_, ?_, ?_⟩ <;> linarith
  · rintro ⟨h1, h2, h3, h4⟩
    refine ⟨by linarith, ?_⟩
    simp [h2, h3, h4]

theorem bary_T1 {w : Fin 4 → ℚ} {y : Fin 3 → ℚ} :
    IsBarycentric (vertices (cornerPoints grid3) ![3, 0, 12, 5]) w y ↔
      w 0 = y 0 + y 1 - 1 - y 2 ∧ w 1 = 1 - y 1 ∧ w 2 = 1 - y 0 ∧ w 3 = y 2 := by
  obtain ⟨c9, c0, c12, c11, c5, c3, c2, c14⟩ := corner3
  rw [bary3' c3 c0 c12 c5]
  simp
  constructor <;> rintro ⟨h1, h2, h3, h4⟩ <;> refine ⟨?_, ?_, ?_, ?_⟩ <;> linarith

theorem bary_T2 {w : Fin 4 → ℚ} {y : Fin 3 → ℚ} :
    IsBarycentric (vertices (cornerPoints grid3) ![2, 0, 11, 5]) w y ↔
      w 0 = y 0 + y 2 - 1 - y 1 ∧ w 1 = 1 - y 2 ∧ w 2 = 1 - y 0 ∧ w 3 = y 1 := by
  obtain ⟨c9, c0, c12, c11, c5, c3, c2, c14⟩ := corner3
  rw [bary3' c2 c0 c11 c5]
  simp
  constructor <;> rintro ⟨h1, h2, h3, h4⟩ <;> refine ⟨?_, ?_, ?_, ?_⟩ <;> linarith

theorem bary_T3 {w : Fin 4 → ℚ} {y : Fin 3 → ℚ} :
    IsBarycentric (vertices (cornerPoints grid3) ![14, 12, 11, 5]) w y ↔
      w 0 = y 1 + y 2 - 1 - y 0 ∧ w 1 = 1 - y 2 ∧ w 2 = 1 - y 1 ∧ w 3 = y 0 := by
  obtain ⟨c9, c0, c12, c11, c5, c3, c2, c14⟩ := corner3
  rw [bary3' c14 c12 c11 c5]
  simp
  constructor <;> rintro ⟨h1, h2, h3, h4⟩ <;> refine ⟨?_, ?_, ?_, ?_⟩ <;> linarith

theorem bary_T4 {w : Fin 4 → ℚ} {y : Fin 3 → ℚ} :
    IsBarycentric (vertices (cornerPoints grid3) ![0, 12, 11, 5]) w y ↔
      w 0 = (1 + y 0 - y 1 - y 2) / 2 ∧ w 1 = (1 + y 1 - y 0 - y 2) / 2 ∧
        w 2 = (1 + y 2 - y 0 - y 1) / 2 ∧ w 3 = (y 0 + y 1 + y 2 - 1) / 2 := by
  obtain ⟨c9, c0, c12, c11, c5, c3, c2, c14⟩ := corner3
  rw [bary3' c0 c12 c11 c5]
  simp
  constructor <;> rintro ⟨h1, h2, h3, h4⟩ <;> refine ⟨?_, ?_, ?_, ?_⟩ <;> linarith

theorem indep_of_iff {s : Fin 4 → ℕ} {F : (Fin 3 → ℚ) → Fin 4 → ℚ}
    (h : ∀ w y, IsBarycentric (vertices (cornerPoints grid3) s) w y ↔
      w 0 = F y 0 ∧ w 1 = F y 1 ∧ w 2 = F y 2 ∧ w 3 = F y 3) :
    AffIndep (vertices (cornerPoints grid3) s) := by
  intro c hc hz j
  have e : ∀ w y, IsBarycentric (vertices (cornerPoints grid3) s) w y → w = F y := by
    intro w y hw
    obtain ⟨a, b, c, e⟩ := (h w y).mp hw
    funext j
    fin_cases j <;> assumption
  have h0 : IsBarycentric (vertices (cornerPoints grid3) s) (F 0) 0 :=
    (h _ _).mpr ⟨rfl, rfl, rfl, rfl⟩
  have h1 : IsBarycentric (vertices (cornerPoints grid3) s) (fun j => F 0 j + c j) 0 := by
    refine ⟨by rw [Finset.sum_add_distrib, h0.1, hc, add_zero], fun i => ?_⟩
    simp only [add_mul, Finset.sum_add_distrib, h0.2 i, hz i, add_zero]
  have := congrFun (e _ _ h1) j
  simpa using this

theorem five_isTriangulation :
    IsTriangulation grid3.unit (cornerPoints grid3) five.simplices five.find := by
  refine ⟨?_, ?_, ?_⟩
  · rw [cornerPoints_grid3_length]
    intro s hs j
    revert s
    refine five_mem ?_ ?_ ?_ ?_ ?_ <;> fin_cases j <;> simp
  · refine five_mem ?_ ?_ ?_ ?_ ?_
    · exact indep_of_iff (F := fun y => ![1 - y 0 - y 1 - y 2, y 0, y 1, y 2]) fun w y => bary_T0
    · exact indep_of_iff (F := fun y => ![y 0 + y 1 - 1 - y 2, 1 - y 1, 1 - y 0, y 2])
        fun w y => bary_T1
    · exact indep_of_iff (F := fun y => ![y 0 + y 2 - 1 - y 1, 1 - y 2, 1 - y 0, y 1])
        fun w y => bary_T2
    · exact indep_of_iff (F := fun y => ![y 1 + y 2 - 1 - y 0, 1 - y 2, 1 - y 1, y 0])
        fun w y => bary_T3
    · exact indep_of_iff (F := fun y => ![(1 + y 0 - y 1 - y 2) / 2, (1 + y 1 - y 0 - y 2) / 2,
        (1 + y 2 - y 0 - y 1) / 2, (y 0 + y 1 + y 2 - 1) / 2]) fun w y => bary_T4
  · intro y hy
    have a0 := hy 0
    have a1 := hy 1
    have a2 := hy 2
    simp only [grid3_unit] at a0 a1 a2
    by_cases h0 : y 0 + y 1 + y 2 ≤ 1
    · refine ⟨0, _, ![1 - y 0 - y 1 - y 2, y 0, y 1, y 2], by simp [five, h0], rfl, ?_, bary_T0.mpr
        ⟨rfl, rfl, rfl, rfl⟩⟩
      intro j; fin_cases j <;> simp <;> linarith
    by_cases h1 : 1 + y 2 ≤ y 0 + y 1
    · refine ⟨1, _, ![y 0 + y 1 - 1 - y 2, 1 - y 1, 1 - y 0, y 2], by simp [five, h0, h1], rfl, ?_, bary_T1.mpr
        ⟨rfl, rfl, rfl, rfl⟩⟩
      intro j; fin_cases j <;> simp <;> linarith
    by_cases h2 : 1 + y 1 ≤ y 0 + y 2
    · refine ⟨2, _, ![y 0 + y 2 - 1 - y 1, 1 - y 2, 1 - y 0, y 1], by simp [five, h0, h1, h2], rfl, ?_, bary_T2.mpr
        ⟨rfl, rfl, rfl, rfl⟩⟩
      intro j; fin_cases j <;> simp <;> linarith
    by_cases h3 : 1 + y 0 ≤ y 1 + y 2
    · refine ⟨3, _, ![y 1 + y 2 - 1 - y 0, 1 - y 2, 1 - y 1, y 0], by simp [five, h0, h1, h2, h3], rfl, ?_, bary_T3.mpr
        ⟨rfl, rfl, rfl, rfl⟩⟩
      intro j; fin_cases j <;> simp <;> linarith
    · refine ⟨4, _, ![(1 + y 0 - y 1 - y 2) / 2, (1 + y 1 - y 0 - y 2) / 2,
        (1 + y 2 - y 0 - y 1) / 2, (y 0 + y 1 + y 2 - 1) / 2], by simp [five, h0, h1, h2, h3], rfl, ?_, bary_T4.mpr
        ⟨rfl, rfl, rfl, rfl⟩⟩
      intro j; fin_cases j <;> simp <;> linarith

/-- The weight of the point `y` on the point `p` in the triangulation into five simplices. -/
def hat5 (y p : Fin 3 → ℚ) : ℚ :=
  let h0 := max 0 (1 - y 0 - y 1 - y 2)
  let h1 := max 0 (y 0 + y 1 - 1 - y 2)
  let h2 := max 0 (y 0 + y 2 - 1 - y 1)
  let h3 := max 0 (y 1 + y 2 - 1 - y 0)
  (if ![0, 0, 0] = p then h0 else 0) + (if ![1, 1, 0] = p then h1 else 0) +
  (if ![1, 0, 1] = p then h2 else 0) + (if ![0, 1, 1] = p then h3 else 0) +
  (if ![1, 0, 0] = p then (1 + y 0 - y 1 - y 2) / 2 + (h3 - h0 - h1 - h2) / 2 else 0) +
  (if ![0, 1, 0] = p then (1 + y 1 - y 0 - y 2) / 2 + (h2 - h0 - h1 - h3) / 2 else 0) +
  (if ![0, 0, 1] = p then (1 + y 2 - y 0 - y 1) / 2 + (h1 - h0 - h2 - h3) / 2 else 0) +
  (if ![1, 1, 1] = p then (y 0 + y 1 + y 2 - 1) / 2 + (h0 - h1 - h2 - h3) / 2 else 0)

theorem weightAt3 {a b c e : ℕ} {pa pb pc pe : Fin 3 → ℚ}
    (ha : (cornerPoints grid3).getD a 0 = pa) (hb : (cornerPoints grid3).getD b 0 = pb)
    (hc : (cornerPoints grid3).getD c 0 = pc) (he : (cornerPoints grid3).getD e 0 = pe)
    (w : Fin 4 → ℚ) (p : Fin 3 → ℚ) :
    weightAt (vertices (cornerPoints grid3) ![a, b, c, e]) w p =
      (if pa = p then w 0 else 0) + (if pb = p then w 1 else 0) + (if pc = p then w 2 else 0) +
        (if pe = p then w 3 else 0) := by
  unfold weightAt
  rw [Fin.sum_univ_four, ← ha, ← hb, ← hc, ← he]
  rfl

theorem five_weightAt : ∀ s ∈ five.simplices, ∀ w y,
    IsConvexComb (vertices (cornerPoints grid3) s) w y → ∀ p,
      weightAt (vertices (cornerPoints grid3) s) w p = hat5 y p := by
  obtain ⟨c9, c0, c12, c11, c5, c3, c2, c14⟩ := corner3
  refine five_mem ?_ ?_ ?_ ?_ ?_ <;> rintro w y ⟨hw, hb⟩ p <;>
    have p0 := hw 0 <;> have p1 := hw 1 <;> have p2 := hw 2 <;> have p3 := hw 3
  · obtain ⟨e0, e1, e2, e3⟩ := bary_T0.mp hb
    rw [weightAt3 c9 c0 c12 c11, e0, e1, e2, e3]
    simp only [hat5]
    rw [max_eq_right (a := (0 : ℚ)) (b := 1 - y 0 - y 1 - y 2) (by linarith),
      max_eq_left (a := (0 : ℚ)) (b := y 0 + y 1 - 1 - y 2) (by linarith),
      max_eq_left (a := (0 : ℚ)) (b := y 0 + y 2 - 1 - y 1) (by linarith),
      max_eq_left (a := (0 : ℚ)) (b := y 1 + y 2 - 1 - y 0) (by linarith)]
    simp only [ite_self]
    ring_nf
    simp
  · obtain ⟨e0, e1, e2, e3⟩ := bary_T1.mp hb
    rw [weightAt3 c3 c0 c12 c5, e0, e1, e2, e3]
    simp only [hat5]
    rw [max_eq_left (a := (0 : ℚ)) (b := 1 - y 0 - y 1 - y 2) (by linarith),
      max_eq_right (a := (0 : ℚ)) (b := y 0 + y 1 - 1 - y 2) (by linarith),
      max_eq_left (a := (0 : ℚ)) (b := y 0 + y 2 - 1 - y 1) (by linarith),
      max_eq_left (a := (0 : ℚ)) (b := y 1 + y 2 - 1 - y 0) (by linarith)]
    simp only [ite_self]
    ring_nf
    simp
  · obtain ⟨e0, e1, e2, e3⟩ := bary_T2.mp hb
    rw [weightAt3 c2 c0 c11 c5, e0, e1, e2, e3]
    simp only [hat5]
    rw [max_eq_left (a := (0 : ℚ)) (b := 1 - y 0 - y 1 - y 2) (by linarith),
      max_eq_left (a := (0 : ℚ)) (b := y 0 + y 1 - 1 - y 2) (by linarith),
      max_eq_right (a := (0 : ℚ)) (b := y 0 + y 2 - 1 - y 1) (by linarith),
      max_eq_left (a := (0 : ℚ)) (b := y 1 + y 2 - 1 - y 0) (by linarith)]
    simp only [ite_self]
    ring_nf
    simp
  · obtain ⟨e0, e1, e2, e3⟩ := bary_T3.mp hb
    rw [weightAt3 c14 c12 c11 c5, e0, e1, e2, e3]
    simp only [hat5]
    rw [max_eq_left (a := (0 : ℚ)) (b := 1 - y 0 - y 1 - y 2) (by linarith),
      max_eq_left (a := (0 : ℚ)) (b := y 0 + y 1 - 1 - y 2) (by linarith),
      max_eq_left (a := (0 : ℚ)) (b := y 0 + y 2 - 1 - y 1) (by linarith),
      max_eq_right (a := (0 : ℚ)) (b := y 1 + y 2 - 1 - y 0) (by linarith)]
    simp only [ite_self]
    ring_nf
    simp
  · obtain ⟨e0, e1, e2, e3⟩ := bary_T4.mp hb
    rw [weightAt3 c0 c12 c11 c5, e0, e1, e2, e3]
    simp only [hat5]
    rw [max_eq_left (a := (0 : ℚ)) (b := 1 - y 0 - y 1 - y 2) (by linarith),
      max_eq_left (a := (0 : ℚ)) (b := y 0 + y 1 - 1 - y 2) (by linarith),
      max_eq_left (a := (0 : ℚ)) (b := y 0 + y 2 - 1 - y 1) (by linarith),
      max_eq_left (a := (0 : ℚ)) (b := y 1 + y 2 - 1 - y 0) (by linarith)]
    simp only [ite_self]
    ring_nf

theorem five_isProper : IsProper (cornerPoints grid3) five.simplices := by
  intro s hs s' hs' y w w' hw hw' p
  rw [five_weightAt s hs w y hw p, five_weightAt s' hs' w' y hw' p]

/-- Parameters that are one at the grid points `(1, 0, 0)` and `(1, 1, 1)`. -/
def params3 : List (Fin 1 → ℚ) := (List.range 12).map fun k _ => if k = 4 ∨ k = 7 then 1 else 0

theorem five_middle : ∀ s ∈ five.simplices, ∀ w y,
    IsConvexComb (vertices (cornerPoints grid3) s) w y → 1 < y 0 + y 1 + y 2 →
      y 0 + y 1 < 1 + y 2 → y 0 + y 2 < 1 + y 1 → y 1 + y 2 < 1 + y 0 → s = ![0, 12, 11, 5] := by
  refine five_mem ?_ ?_ ?_ ?_ ?_ <;> rintro w y ⟨hw, hb⟩ h0 h1 h2 h3 <;> have p0 := hw 0
  · have := (bary_T0.mp hb).1; linarith
  · have := (bary_T1.mp hb).1; linarith
  · have := (bary_T2.mp hb).1; linarith
  · have := (bary_T3.mp hb).1; linarith
  · rfl

theorem bits3 : bits grid3 0 = ![1, 0, 0] ∧ bits grid3 12 = ![0, 1, 0] ∧
    bits grid3 11 = ![0, 0, 1] ∧ bits grid3 5 = ![1, 1, 1] := by decide +kernel

/-- The value at a point of the middle simplex of rectangle `R`. -/
theorem evaluate_middle {eps : ℚ} {project : Bool} {t : Tri ℚ 3} (S : TriSetup grid3 five eps)
    (ht : Tri.new grid3 five project = .ok t) (x : Fin 3 → ℚ)
    (hx : ∀ i, grid3.lo i + 2 * eps ≤ x i ∧ x i ≤ grid3.hi i - 2 * eps) (R : Fin 3 → ℕ)
    (hR : rectOf grid3 x = R) (y : Fin 3 → ℚ) (hy : ∀ i, x i = R i + y i)
    (h0 : 1 < y 0 + y 1 + y 2) (h1 : y 0 + y 1 < 1 + y 2) (h2 : y 0 + y 2 < 1 + y 1)
    (h3 : y 1 + y 2 < 1 + y 0) :
    t.evaluate eps params3 x = .ok fun l =>
      (1 + y 0 - y 1 - y 2) / 2 * params3.getD (ravel ![3, 2, 2] ![R 0 + 1, R 1, R 2]) 0 l +
      (1 + y 1 - y 0 - y 2) / 2 * params3.getD (ravel ![3, 2, 2] ![R 0, R 1 + 1, R 2]) 0 l +
      (1 + y 2 - y 0 - y 1) / 2 * params3.getD (ravel ![3, 2, 2] ![R 0, R 1, R 2 + 1]) 0 l +
      (y 0 + y 1 + y 2 - 1) / 2 *
        params3.getD (ravel ![3, 2, 2] ![R 0 + 1, R 1 + 1, R 2 + 1]) 0 l := by
  have hG := S.good ht
  obtain ⟨k, s, w, hk, hf, hw⟩ := S.find hG x
  have hRlt := rectOf_lt S.wf x
  have hs : shrink grid3 eps x = x := funext fun i => clip_of_mem (hx i).1 (hx i).2
  rw [hs] at hw
  have hp : t.projected x = x := by
    have he := S.eps_pos
    unfold Tri.projected
    split_ifs
    · rw [hG.disc]
      exact funext fun i => clip_of_mem (by linarith [(hx i).1]) (by linarith [(hx i).2])
    · rfl
  have hI := Tri.Good.verts_indep S.tri hk (rectOf grid3 x)
  rw [evaluate_ok S.wf hG hk hRlt hf params3 (by decide +kernel), hp,
    bary_unique hI (codeWeights_bary hI x) hw.2]
  -- weights in the unit rectangle
  have hwy : IsConvexComb (vertices (cornerPoints grid3) s) w y := by
    refine ⟨hw.1, ?_⟩
    have h4 := bary_shift (v := verts grid3 (rectOf grid3 x) s)
      (fun i => -grid3.ijkToState (rectOf grid3 x) i) (v' := vertices (cornerPoints grid3) s)
      (fun j i => by rw [verts_eq]; ring) hw.2
    have e : (fun i => -grid3.ijkToState (rectOf grid3 x) i + x i) = y := by
      funext i
      rw [hR, hy i]
      unfold GridWorld.ijkToState
      have : grid3.lo i = 0 := by fin_cases i <;> rfl
      rw [grid3_unit, this]
      ring
    rwa [e] at h4
  -- only the middle simplex contains the point
  have hmid := five_middle s (List.mem_of_getElem? hk) w y hwy h0 h1 h2 h3
  subst hmid
  obtain ⟨e0, e1, e2, e3⟩ := bary_T4.mp hwy.2
  obtain ⟨b0, b1, b2, b3⟩ := bits3
  congr 1
  funext l
  have key : ∀ (k : ℕ) (p : Fin 3 → ℕ), bits grid3 k = p →
      ravel grid3.num (fun i => R i + bits grid3 k i) =
        ravel ![3, 2, 2] ![R 0 + p 0, R 1 + p 1, R 2 + p 2] := by
    rintro k p rfl
    congr 1
    funext i
    fin_cases i <;> rfl
  have k0 := key 0 _ b0
  have k1 := key 12 _ b1
  have k2 := key 11 _ b2
  have k3 := key 5 _ b3
  rw [Fin.sum_univ_four, e0, e1, e2, e3, hR]
  simp only [Matrix.cons_val_zero, Matrix.cons_val_one, Matrix.cons_val, Nat.add_zero] at k0 k1 k2 k3 ⊢
  rw [k0, k1, k2, k3]

theorem rectOf3 (x : Fin 3 → ℚ) (R : Fin 3 → ℕ) (hR : ∀ i, R i < grid3.numRect i)
    (h1 : ∀ i, (R i : ℚ) ≤ x i) (h2 : ∀ i, x i < R i + 1) : rectOf grid3 x = R := by
  funext i
  have hlo : grid3.lo i = 0 := by fin_cases i <;> rfl
  have := grid3_wf.stateToRectIjk_eq x i (R i) (hR i) (by rw [grid3_unit, hlo]; simpa using h1 i)
    (by rw [grid3_unit, hlo]; simpa using h2 i)
  unfold rectOf
  rw [this]
  rfl

theorem triSetup_three {eps : ℚ} (he : 0 < eps) (h4 : eps ≤ 1 / 4) : TriSetup grid3 five eps :=
  ⟨grid3_wf.two_le, grid3_wf.lt, five_isTriangulation, he, fun i => by
    have := grid3_unit i
    unfold GridWorld.unit at this
    rw [this]
    linarith⟩

/-- **C18 does not hold in three dimensions.** There are a grid and a proper triangulation of its unit rectangle for which the
evaluated function jumps from 1 to 0 across the face between two rectangles. -/
theorem C18_continuous_3d_refuted :
    (∀ eps : ℚ, 0 < eps → eps ≤ 1 / 4 → TriSetup grid3 five eps) ∧
    IsProper (cornerPoints grid3) five.simplices ∧
    params3.length = ∏ i, grid3.num i ∧
    ∀ (eps : ℚ) (project : Bool) (t : Tri ℚ 3), 0 < eps → eps ≤ 1 / 4 →
      Tri.new grid3 five project = .ok t → ∀ δ, 0 < δ → δ ≤ 1 / 4 →
      ∃ left right, t.evaluate eps params3 ![1 - δ, 1 / 2, 1 / 2] = .ok left ∧
        t.evaluate eps params3 ![1 + δ, 1 / 2, 1 / 2] = .ok right ∧
        left 0 = 1 - δ ∧ right 0 = 0 := by
  refine ⟨fun eps h1 h2 => triSetup_three h1 h2, five_isProper, by decide +kernel, ?_⟩
  intro eps project t he he4 ht δ h1 h2
  have S := triSetup_three he he4
  have hl := evaluate_middle S ht ![1 - δ, 1 / 2, 1 / 2]
    (by intro i; fin_cases i <;> simp [grid3] <;> constructor <;> linarith) ![0, 0, 0]
    (rectOf3 _ _ (by intro i; fin_cases i <;> simp [GridWorld.numRect, grid3])
      (by intro i; fin_cases i <;> simp <;> linarith)
      (by intro i; fin_cases i <;> simp <;> linarith))
    ![1 - δ, 1 / 2, 1 / 2] (by intro i; fin_cases i <;> simp)
    (by simp; linarith) (by simp; linarith) (by simp; linarith) (by simp; linarith)
  have hr := evaluate_middle S ht ![1 + δ, 1 / 2, 1 / 2]
    (by intro i; fin_cases i <;> simp [grid3] <;> constructor <;> linarith) ![1, 0, 0]
    (rectOf3 _ _ (by intro i; fin_cases i <;> simp [GridWorld.numRect, grid3])
      (by intro i; fin_cases i <;> simp <;> linarith)
      (by intro i; fin_cases i <;> simp <;> linarith))
    ![δ, 1 / 2, 1 / 2] (by intro i; fin_cases i <;> simp)
    (by simp; linarith) (by simp; linarith) (by simp; linarith) (by simp; linarith)
  refine ⟨_, _, hl, hr, ?_, ?_⟩
  · have v0 : params3.getD (ravel ![3, 2, 2] ![1, 0, 0]) 0 0 = 1 := by decide +kernel
    have v1 : params3.getD (ravel ![3, 2, 2] ![0, 1, 0]) 0 0 = 0 := by decide +kernel
    have v2 : params3.getD (ravel ![3, 2, 2] ![0, 0, 1]) 0 0 = 0 := by decide +kernel
    have v3 : params3.getD (ravel ![3, 2, 2] ![1, 1, 1]) 0 0 = 1 := by decide +kernel
    simp only [Matrix.cons_val_zero, Matrix.cons_val_one, Matrix.cons_val, Nat.zero_add, v0, v1, v2,
      v3]
    ring
  · have v0 : params3.getD (ravel ![3, 2, 2] ![2, 0, 0]) 0 0 = 0 := by decide +kernel
    have v1 : params3.getD (ravel ![3, 2, 2] ![1, 1, 0]) 0 0 = 0 := by decide +kernel
    have v2 : params3.getD (ravel ![3, 2, 2] ![1, 0, 1]) 0 0 = 0 := by decide +kernel
    have v3 : params3.getD (ravel ![3, 2, 2] ![2, 1, 1]) 0 0 = 0 := by decide +kernel
    simp only [Matrix.cons_val_zero, Matrix.cons_val_one, Matrix.cons_val, Nat.zero_add,
      Nat.reduceAdd, v0, v1, v2, v3]
    ring

end SafeLearning
