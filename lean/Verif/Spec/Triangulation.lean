import Mathlib.Algebra.BigOperators.Fin
import Mathlib.Algebra.Order.Field.Basic
set_option autoImplicit false

/-! # Specification of triangulations (independent of the model) -/

namespace Spec

variable {K : Type} [Field K] [LinearOrder K] {d n : ℕ}

/-- The weights `w` add up to one and the weighted sum of the points `v` is `y`. -/
def IsBarycentric (v : Fin n → Fin d → K) (w : Fin n → K) (y : Fin d → K) : Prop :=
  ∑ j, w j = 1 ∧ ∀ i, ∑ j, w j * v j i = y i

/-- The weights `w` express `y` as a convex combination of the points `v`. -/
def IsConvexComb (v : Fin n → Fin d → K) (w : Fin n → K) (y : Fin d → K) : Prop :=
  (∀ j, 0 ≤ w j) ∧ IsBarycentric v w y

/-- The points `v` are affinely independent. -/
def AffIndep (v : Fin n → Fin d → K) : Prop :=
  ∀ c : Fin n → K, ∑ j, c j = 0 → (∀ i, ∑ j, c j * v j i = 0) → ∀ j, c j = 0

/-- The vertices of a simplex given by the indices of its vertices in a list of points. -/
def vertices (points : List (Fin d → K)) (s : Fin n → ℕ) (j : Fin n) : Fin d → K :=
  points.getD (s j) 0

/-- What is assumed of the external library: `simplices` are non-degenerate simplices with vertices among `points`, and
`find` returns, for every point of the box `[0, u]`, the number of a simplex that contains it. -/
structure IsTriangulation (u : Fin d → K) (points : List (Fin d → K))
    (simplices : List (Fin (d + 1) → ℕ)) (find : (Fin d → K) → ℤ) : Prop where
  mem : ∀ s ∈ simplices, ∀ j, s j < points.length
  indep : ∀ s ∈ simplices, AffIndep (vertices points s)
  find_spec : ∀ y : Fin d → K, (∀ i, 0 ≤ y i ∧ y i ≤ u i) →
    ∃ (k : ℕ) (s : Fin (d + 1) → ℕ) (w : Fin (d + 1) → K), find y = k ∧ simplices[k]? = some s ∧
      IsConvexComb (vertices points s) w y

/-- The weight put on the point `p`. -/
def weightAt (v : Fin n → Fin d → K) (w : Fin n → K) (p : Fin d → K) : K :=
  ∑ j, if v j = p then w j else 0

/-- The simplices meet in common faces: a point of two simplices has the same weight on every vertex. -/
def IsProper (points : List (Fin d → K))
    (simplices : List (Fin (d + 1) → ℕ)) : Prop :=
  ∀ s ∈ simplices, ∀ s' ∈ simplices, ∀ y w w',
    IsConvexComb (vertices points s) w y → IsConvexComb (vertices points s') w' y →
    ∀ p, weightAt (vertices points s) w p = weightAt (vertices points s') w' p

/-- All copies of the simplices, shifted by multiples of the cell lengths `u`, meet in common faces. -/
def IsProperTiling (u : Fin d → K) (points : List (Fin d → K))
    (simplices : List (Fin (d + 1) → ℕ)) : Prop :=
  ∀ e : Fin d → ℤ, ∀ s ∈ simplices, ∀ s' ∈ simplices, ∀ y w w',
    IsConvexComb (vertices points s) w y →
    IsConvexComb (fun j i => (e i : K) * u i + vertices points s' j i) w' y →
    ∀ p, weightAt (vertices points s) w p =
      weightAt (fun j i => (e i : K) * u i + vertices points s' j i) w' p

end Spec
