import Verif.Spec.Grid
import Mathlib.Algebra.Order.Field.Basic
import Mathlib.Algebra.Order.BigOperators.Group.Finset
set_option autoImplicit false

/-! # Specification of the constants a safety verification needs (independent of the model) -/

namespace Spec

variable {K : Type} [Field K] [LinearOrder K]

/-- The distance of two states in the 1-norm. -/
def dist1 {d : ℕ} (x y : Fin d → K) : K := ∑ i, |x i - y i|

/-- `tau` is a discretization constant of the grid `(lo, hi, n)`: every state in the limits has a grid point within `tau`. -/
def Covers {d : ℕ} (lo hi : Fin d → K) (n : Fin d → ℕ) (tau : K) : Prop :=
  ∀ x : Fin d → K, (∀ i, lo i ≤ x i ∧ x i ≤ hi i) →
    ∃ k p, IsGridPoint lo hi n k p ∧ dist1 x p ≤ tau

/-- `L` is a Lipschitz constant of `f`, in the 1-norm. -/
def Lipschitz1 {m n : ℕ} (f : (Fin m → K) → Fin n → K) (L : K) : Prop :=
  ∀ x y, dist1 (f x) (f y) ≤ L * dist1 x y

/-- `L` bounds the change of `V` around `x` coordinate by coordinate: what a local Lipschitz constant has to do. -/
def LocalLipschitz {d : ℕ} (V : (Fin d → K) → K) (x : Fin d → K) (L : Fin d → K) (tau : K) : Prop :=
  ∀ y, dist1 y x ≤ tau → |V y - V x| ≤ ∑ i, L i * |y i - x i|

end Spec
