import Verif.Model.FloatTriangulation
import Verif.Props.FloatGrid
import Verif.Props.InterpolationError
set_option autoImplicit false

/-!
# Lemmas about triangulations in floating point arithmetic
-/

namespace SafeLearning

set_option linter.unusedSectionVars false

open Spec

variable {K : Type} [Field K] [LinearOrder K] [IsStrictOrderedRing K] {d o : ℕ}
variable {g : GridWorld K d} {D : Delaunay K d} {eps u : K} {project : Bool} {t : Tri K d} {fl : K → K}

/-! ## Without rounding -/

theorem flSum_id (xs : List K) : flSum id xs = xs.sum := by
  have : ∀ (xs : List K) (a : K), xs.foldl (fun acc x => id (acc + x)) a = a + xs.sum := by
    intro xs
    induction xs with
    | nil => intro a; simp
    | cons x xs ih =>
      intro a
      rw [List.foldl_cons, ih, List.sum_cons]
      simp only [id]
      ring
  unfold flSum
  rw [this, zero_add]

theorem flSum_id_ofFn {n : ℕ} (f : Fin n → K) : flSum id (List.ofFn f) = ∑ i, f i := by
  rw [flSum_id, List.sum_ofFn]

theorem flIndexToState_id (k : ℤ) : g.flIndexToState id k = g.indexToState k := rfl

/-- With exact arithmetic after the location of a point, the weights are those of the exact model for the simplex found. -/
theorem flGetWeights_id [FloorRing K] (x : Fin d → K) :
    t.flGetWeights fl id eps x = (do
      let simplexId ← t.flFindSimplex fl eps x
      let simplex ← t.simplices simplexId
      let origin ← t.disc.indexToState (simplex 0)
      let hyper ← rowAt t.hyperplanes (simplexId % (t.triangulation.nsimplex : ℤ)).toNat
      return (codeWeights hyper origin (t.projected x), simplex)) := by
  unfold Tri.flGetWeights
  simp only [flSum_id_ofFn, flIndexToState_id]
  rfl

theorem flGetWeights_ok [FloorRing K] (ht : Tri.Good g D project t) (hg : g.WF)
    {x : Fin d → K} {k : ℕ} {s : Fin (d + 1) → ℕ} (hk : D.simplices[k]? = some s)
    {R : Fin d → ℕ} (hR : ∀ i, R i < g.numRect i)
    (hf : t.flFindSimplex fl eps x = .ok (simplexNumber g D k R : ℕ)) :
    t.flGetWeights fl id eps x = .ok (codeWeights (edges (verts g R s))⁻¹ (verts g R s 0) (t.projected x),
      fun j => ravel g.num fun i => R i + bits g (s j) i) := by
  rw [flGetWeights_id, hf]
  simp only [bind, Except.bind]
  rw [ht.simplices_ok hg hk hR]
  simp only
  rw [ht.disc, indexToState_ravel fun i => bits_add_lt hg hR (s 0) i]
  simp only
  rw [ht.hyper_ok hk]
  rfl

/-! ## The corner points -/

theorem meshIJ_map {α β : Type*} : ∀ {d : ℕ} (axes : Fin d → List α) (f : Fin d → α → β),
    (meshIJ fun i => (axes i).map (f i)) = (meshIJ axes).map fun p i => f i (p i)
  | 0, _, _ => by
    simp only [meshIJ, List.map_cons, List.map_nil]
    congr 1
    exact Subsingleton.elim _ _
  | d + 1, axes, f => by
    simp only [meshIJ]
    rw [List.flatMap_map, List.map_flatMap]
    refine List.flatMap_congr fun x _ => ?_
    have : (Fin.tail fun i => (axes i).map (f i)) = fun i : Fin d => (Fin.tail axes i).map (f i.succ) := rfl
    rw [this, meshIJ_map, List.map_map, List.map_map]
    refine List.map_congr_left fun p _ => ?_
    funext i
    refine Fin.cases ?_ (fun j => ?_) i <;> simp

/-- The corners of the unit cube, in the order of the code. -/
def unitCorners (d : ℕ) : List (Fin d → K) :=
  if d = 1 then [fun _ => 0, fun _ => 1]
  else meshIJ fun i => (List.finRange d).map fun j => if i = j then 1 else 0

theorem scaled_corners (w : Fin d → K) :
    (if d = 1 then [fun _ => 0, w]
      else meshIJ fun i => (List.finRange d).map fun j => if i = j then w i else 0) =
    (unitCorners d).map fun p i => p i * w i := by
  unfold unitCorners
  split_ifs with h
  · simp
  · rw [← meshIJ_map _ fun i x => x * w i]
    congr 1
    funext i
    rw [List.map_map]
    refine List.map_congr_left fun j _ => ?_
    simp only [Function.comp]
    split_ifs <;> simp

theorem cornerPoints_scaled (g : GridWorld K d) : cornerPoints g = (unitCorners d).map fun p i => p i * g.unit i :=
  scaled_corners g.unit

theorem flCornerPoints_scaled (g : GridWorld K d) (fl : K → K) :
    flCornerPoints g fl = (unitCorners d).map fun p i => p i * g.flUnit fl i :=
  scaled_corners (g.flUnit fl)

theorem getD_scaled (w : Fin d → K) (k : ℕ) (i : Fin d) :
    ((unitCorners d).map fun p i => p i * w i).getD k 0 i = (unitCorners d).getD k 0 i * w i := by
  simp only [List.getD_eq_getElem?_getD, List.getElem?_map]
  cases (unitCorners (K := K) d)[k]? <;> simp

theorem unitCorners_getD (k : ℕ) (i : Fin d) :
    (unitCorners (K := K) d).getD k 0 i = 0 ∨ (unitCorners (K := K) d).getD k 0 i = 1 := by
  by_cases hk : k < (unitCorners (K := K) d).length
  · have hm : (unitCorners (K := K) d).getD k 0 ∈ unitCorners (K := K) d := by
      rw [List.getD_eq_getElem?_getD, List.getElem?_eq_getElem hk]
      exact List.getElem_mem hk
    generalize (unitCorners (K := K) d).getD k 0 = p at hm
    unfold unitCorners at hm
    split_ifs at hm with h
    · rcases List.mem_cons.mp hm with rfl | hm
      · exact Or.inl rfl
      · rw [List.mem_singleton] at hm
        subst hm
        exact Or.inr rfl
    · obtain ⟨j, _, hj⟩ := List.mem_map.mp ((mem_meshIJ _ p).mp hm i)
      rw [← hj]
      split_ifs
      · exact Or.inr rfl
      · exact Or.inl rfl
  · left
    simp [List.getD_eq_getElem?_getD, hk]

theorem bits_unitCorners (hg : g.WF) (k : ℕ) (i : Fin d) :
    (bits g k i : K) = (unitCorners d).getD k 0 i := by
  have hu := (hg.unit_pos i).ne'
  have := bits_mul g k i
  rw [cornerPoints_scaled, getD_scaled] at this
  exact mul_right_cancel₀ hu this

theorem flCorner_eq (hg : g.WF) (fl : K → K) (k : ℕ) (i : Fin d) :
    (flCornerPoints g fl).getD k 0 i = bits g k i * g.flUnit fl i := by
  rw [flCornerPoints_scaled, getD_scaled, bits_unitCorners hg]

theorem flCorner_length (g : GridWorld K d) (fl : K → K) : (flCornerPoints g fl).length = (cornerPoints g).length := by
  rw [flCornerPoints_scaled, cornerPoints_scaled, List.length_map, List.length_map]

/-- The simplices are non-degenerate for the exact cell lengths if they are for the rounded ones. -/
theorem indep_of_fl (hg : g.WF) (s : Fin (d + 1) → ℕ) (h : AffIndep (vertices (flCornerPoints g fl) s)) :
    AffIndep (vertices (cornerPoints g) s) := by
  intro c hc hs
  refine h c hc fun i => ?_
  have hu := (hg.unit_pos i).ne'
  have e := hs i
  simp only [vertices, ← bits_mul, ← mul_assoc, ← Finset.sum_mul] at e
  simp only [vertices, flCorner_eq hg, ← mul_assoc, ← Finset.sum_mul]
  rw [(mul_eq_zero.mp e).resolve_right hu, zero_mul]

/-! ## Cells -/

theorem pyMod_mem [FloorRing K] {x w : K} (hw : 0 < w) : 0 ≤ pyMod x w ∧ pyMod x w ≤ w := by
  unfold pyMod
  have h1 := Int.floor_le (x / w)
  have h2 := (Int.lt_floor_add_one (x / w)).le
  rw [le_div_iff₀ hw] at h1
  rw [div_le_iff₀ hw] at h2
  constructor
  · linarith
  · linarith

theorem flUnit_err (hg : g.WF) (hr : RoundsWithin fl u) (i : Fin d) :
    |g.flUnit fl i - g.unit i| ≤ 3 * u * g.unit i := by
  have hu := hg.unit_pos i
  have hu0 := hr.nonneg
  have hu1 := hr.small
  unfold GridWorld.flUnit
  obtain ⟨a, ha, ea⟩ := hr.factor (g.hi i - g.lo i)
  rw [ea]
  obtain ⟨b, hb, eb⟩ := hr.factor ((g.hi i - g.lo i) * (1 + a) / ((g.num i : K) - 1))
  rw [eb]
  have e : (g.hi i - g.lo i) * (1 + a) / ((g.num i : K) - 1) * (1 + b) - g.unit i =
      g.unit i * ((1 + a) * (1 + b) - 1) := by
    unfold GridWorld.unit
    ring
  rw [e, abs_mul, abs_of_pos hu, mul_comm]
  refine mul_le_mul_of_nonneg_right ?_ hu.le
  rw [show (1 + a) * (1 + b) - 1 = a + b + a * b by ring]
  have h1 : |a * b| ≤ u * (1 / 16) := by
    rw [abs_mul]
    exact mul_le_mul ha (hb.trans hu1) (abs_nonneg _) hu0
  calc _ ≤ |a| + |b| + |a * b| := (abs_add_le _ _).trans (add_le_add (abs_add_le _ _) le_rfl)
    _ ≤ 3 * u := by linarith

theorem flUnit_pos (hg : g.WF) (hr : RoundsWithin fl u) (i : Fin d) : 0 < g.flUnit fl i := by
  have hu := hg.unit_pos i
  have h1 := abs_le.mp (flUnit_err hg hr i)
  have : 3 * u * g.unit i ≤ 3 * (1 / 16) * g.unit i :=
    mul_le_mul_of_nonneg_right (by linarith [hr.small]) hu.le
  linarith [h1.1]

end SafeLearning
