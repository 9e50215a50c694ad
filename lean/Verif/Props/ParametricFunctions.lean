import Verif.Model.ParametricFunctions
import Verif.Props.Inputs
import Mathlib.Analysis.Calculus.FDeriv.Add
import Mathlib.Analysis.Calculus.FDeriv.Mul
import Mathlib.Analysis.Calculus.FDeriv.Pi
import Mathlib.Tactic.NormNum
set_option autoImplicit false

/-!
# C56 and C57: QuadraticFunction and LinearSystem
-/

namespace SafeLearning

open Matrix Spec

/-! ## C56 -/

/-- **C56 (value).** The value is `xᵀ P x`. -/
theorem C56_value {R : Type} [CommRing R] {n : ℕ} (P : Matrix (Fin n) (Fin n) R) (x : Fin n → R) :
    quadraticEvaluate P x = x ⬝ᵥ (P *ᵥ x) := by
  unfold quadraticEvaluate
  simp only [dotProduct, mulVec, Finset.sum_mul, Finset.mul_sum]
  rw [Finset.sum_comm]
  exact Finset.sum_congr rfl fun i _ => Finset.sum_congr rfl fun j _ => by ring

/-- **C56 (gradient).** `gradient(x)` is the derivative of the value at `x`, also for matrices that are not symmetric. -/
theorem C56_gradient {n : ℕ} (P : Matrix (Fin n) (Fin n) ℝ) (x : Fin n → ℝ) :
    ∃ f' : (Fin n → ℝ) →L[ℝ] ℝ, HasFDerivAt (quadraticEvaluate P) f' x ∧
      ∀ v, f' v = ∑ j, quadraticGradient P x j * v j := by
  have hcoord : ∀ i : Fin n, HasFDerivAt (fun y : Fin n → ℝ => y i)
      (ContinuousLinearMap.proj (R := ℝ) (φ := fun _ : Fin n => ℝ) i) x := fun i => hasFDerivAt_apply i x
  have hlin : ∀ j : Fin n, HasFDerivAt (fun y : Fin n → ℝ => ∑ i, y i * P i j)
      (∑ i, P i j • ContinuousLinearMap.proj (R := ℝ) (φ := fun _ : Fin n => ℝ) i) x := fun j =>
    HasFDerivAt.fun_sum fun i _ => (hcoord i).mul_const (P i j)
  have := HasFDerivAt.fun_sum (u := Finset.univ) fun j _ => (hlin j).mul (hcoord j)
  refine ⟨_, this, fun v => ?_⟩
  simp only [quadraticGradient, _root_.sum_apply, _root_.add_apply,
    _root_.smul_apply, ContinuousLinearMap.proj_apply, smul_eq_mul, Matrix.add_apply,
    Matrix.transpose_apply, mul_add, Finset.sum_add_distrib, add_mul]
  congr 1
  rw [Finset.sum_congr rfl fun j _ => Finset.mul_sum _ _ _, Finset.sum_comm]
  refine Finset.sum_congr rfl fun i _ => ?_
  rw [Finset.sum_mul]
  exact Finset.sum_congr rfl fun j _ => by ring

/-- A matrix that is not symmetric. -/
example : quadraticEvaluate !![1, 2; 0, 3] ![5, (7 : ℤ)] = 242 ∧
    quadraticGradient !![1, 2; 0, 3] ![5, (7 : ℤ)] 0 = 24 ∧ quadraticGradient !![1, 2; 0, 3] ![5, (7 : ℤ)] 1 = 52 := by
  decide +kernel

/-! ## C57 -/

/-- The product of a matrix, given by its rows, with a vector. -/
def _root_.Spec.matVec {R : Type} [CommRing R] (A : List (List R)) (x : List R) : List R :=
  A.map fun row => (List.zipWith (· * ·) row x).sum

/-- The entrywise sum of vectors of length `o`. -/
def _root_.Spec.vecSum {R : Type} [CommRing R] (o : ℕ) (vs : List (List R)) : List R :=
  (List.range o).map fun j => (vs.map fun v => v.getD j 0).sum

theorem getD_lt {α : Type} (l : List α) (d : α) {i : ℕ} (h : i < l.length) : l.getD i d = l[i] := by
  rw [List.getD_eq_getElem?_getD, List.getElem?_eq_getElem h, Option.getD_some]

theorem listDot_append {R : Type} [CommRing R] (a b c d : List R) (h : a.length = c.length) :
    listDot (a ++ b) (c ++ d) = listDot a c + listDot b d := by
  unfold listDot
  rw [List.zipWith_append h, List.sum_append]

theorem listDot_flatten {R : Type} [CommRing R] : ∀ (ps : List (List R × List R)),
    (∀ p ∈ ps, p.1.length = p.2.length) →
    listDot (ps.map Prod.fst).flatten (ps.map Prod.snd).flatten = (ps.map fun p => listDot p.1 p.2).sum
  | [], _ => rfl
  | p :: ps, h => by
    simp only [List.map_cons, List.flatten_cons, List.sum_cons]
    rw [listDot_append _ _ _ _ (h p List.mem_cons_self),
      listDot_flatten ps fun q hq => h q (List.mem_cons_of_mem _ hq)]

theorem listDot_comm {R : Type} [CommRing R] : ∀ (a b : List R), listDot a b = listDot b a
  | [], [] => rfl
  | [], _ :: _ => rfl
  | _ :: _, [] => rfl
  | a :: as, b :: bs => by
    have := listDot_comm as bs
    unfold listDot at this ⊢
    simp only [List.zipWith_cons_cons, List.sum_cons]
    rw [this, mul_comm]

/-- **C57.** For matrices `A1, .., An` with the same number of rows and batches of inputs `x1, .., xn`
with the same number of points and matching widths, point `i` of the result is `A1 x1[i] + .. + An xn[i]`. -/
theorem C57_linear_system {R : Type} [CommRing R] (isTf : Bool) (o N : ℕ) (parts : List (List (List R) × List (List R)))
    (hne : parts ≠ []) (hA : ∀ p ∈ parts, p.1.length = o) (hx : ∀ p ∈ parts, p.2.length = N)
    (hw : ∀ p ∈ parts, ∀ row ∈ p.1, ∀ pt ∈ p.2, row.length = pt.length) :
    linearSystem (parts.map fun p => .matrix p.1) isTf (parts.map fun p => .matrix p.2) =
      .ok ((List.range N).map fun i => vecSum o (parts.map fun p => matVec p.1 (p.2.getD i []))) := by
  have hM : linearSystemMatrix (parts.map fun p => Arr.matrix p.1) = .ok (joinColumns o (parts.map Prod.fst)) := by
    unfold linearSystemMatrix
    have : (parts.map fun p => Arr.matrix p.1).map Arr.rows = parts.map Prod.fst := by
      rw [List.map_map]; rfl
    rw [this]
    refine hstack_eq o _ (by simpa using hne) fun m hm => ?_
    obtain ⟨p, hp, rfl⟩ := List.mem_map.mp hm
    exact hA p hp
  have hX := C47_concatenates (linearSystemBuild (R := R)) isTf (joinColumns o (parts.map Prod.fst)) N
    (parts.map Prod.snd) (by simpa using hne) fun m hm => by
      obtain ⟨p, hp, rfl⟩ := List.mem_map.mp hm
      exact hx p hp
  unfold linearSystem
  rw [hM]
  simp only [bind, Except.bind]
  rw [show (parts.map fun p => Arr.matrix p.2) = (parts.map Prod.snd).map Arr.matrix by
    rw [List.map_map]; rfl, hX]
  unfold linearSystemBuild Arr.asMatrix
  simp only [bind, Except.bind]
  unfold matmulTransposed
  have hlen : ∀ i < N, ∀ j < o, ∀ p ∈ parts, (p.2.getD i []).length = (p.1.getD j []).length := by
    intro i hi j hj p hp
    have h1 : i < p.2.length := by rw [hx p hp]; exact hi
    have h2 : j < p.1.length := by rw [hA p hp]; exact hj
    rw [getD_lt _ _ h1, getD_lt _ _ h2]
    exact (hw p hp _ (List.getElem_mem h2) _ (List.getElem_mem h1)).symm
  rw [if_pos]
  · congr 1
    unfold joinColumns
    rw [List.map_map]
    refine List.map_congr_left fun i hi => ?_
    have hi' := List.mem_range.mp hi
    rw [Function.comp_apply, List.map_map]
    unfold vecSum
    refine List.map_congr_left fun j hj => ?_
    have hj' := List.mem_range.mp hj
    rw [Function.comp_apply]
    have := listDot_flatten (parts.map fun p => (p.2.getD i [], p.1.getD j [])) (by
      intro q hq
      obtain ⟨p, hp, rfl⟩ := List.mem_map.mp hq
      exact hlen i hi' j hj' p hp)
    simp only [List.map_map, Function.comp_def] at this ⊢
    rw [this]
    congr 1
    refine List.map_congr_left fun p hp => ?_
    have h2 : j < p.1.length := by rw [hA p hp]; exact hj'
    rw [listDot_comm, matVec, getD_lt p.1 _ h2, getD_lt (p.1.map _) _ (by simpa using h2), List.getElem_map]
    rfl
  · intro pt hpt row hrow
    unfold joinColumns at hpt hrow
    obtain ⟨i, hi, rfl⟩ := List.mem_map.mp hpt
    obtain ⟨j, hj, rfl⟩ := List.mem_map.mp hrow
    rw [List.length_flatten, List.length_flatten, List.map_map, List.map_map, List.map_map, List.map_map]
    congr 1
    refine List.map_congr_left fun p hp => ?_
    exact hlen i (List.mem_range.mp hi) j (List.mem_range.mp hj) p hp

/-- A system with a 2 by 2 and a 2 by 1 matrix at two points. -/
example : (match linearSystem (R := ℤ) [.matrix [[1, 2], [3, 4]], .matrix [[5], [6]]] false
      [.matrix [[1, 1], [0, 2]], .matrix [[10], [-1]]] with
    | .ok r => decide (r = [[53, 67], [-1, 2]])
    | .error _ => false) = true := by decide +kernel

/-- A wrong number of columns is rejected. -/
example : (match linearSystem (R := ℤ) [.matrix [[1, 2], [3, 4]]] false [.matrix [[1, 1, 1]]] with
    | .ok _ => false
    | .error e => decide (e = .valueError)) = true := by decide +kernel

end SafeLearning
