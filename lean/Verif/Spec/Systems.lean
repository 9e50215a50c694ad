import Mathlib.Analysis.Calculus.FDeriv.Prod
import Mathlib.Analysis.Calculus.FDeriv.Pi
import Mathlib.LinearAlgebra.Matrix.ToLin
set_option autoImplicit false

/-!
# Specification: linearisation of a controlled system
-/

namespace Spec

open Matrix

/-- `(A, B)` is the Jacobian of the vector field `f` at state `x` and action `u`: the derivative of `f` there is
`(dx, du) ↦ A dx + B du`. -/
def IsJacobian {n k : ℕ} (f : (Fin n → ℝ) → (Fin k → ℝ) → Fin n → ℝ) (A : Matrix (Fin n) (Fin n) ℝ)
    (B : Matrix (Fin n) (Fin k) ℝ) (x : Fin n → ℝ) (u : Fin k → ℝ) : Prop :=
  ∃ L : (Fin n → ℝ) × (Fin k → ℝ) →L[ℝ] (Fin n → ℝ),
    HasFDerivAt (fun z : (Fin n → ℝ) × (Fin k → ℝ) => f z.1 z.2) L (x, u) ∧
    ∀ dx du, L (dx, du) = A *ᵥ dx + B *ᵥ du

/-- The vector field `f` in units with `x = Tx x'` and `u = Tu u'` (entry by entry): the derivative of `x'`. -/
noncomputable def rescaled {n k : ℕ} (f : (Fin n → ℝ) → (Fin k → ℝ) → Fin n → ℝ) (Tx : Fin n → ℝ)
    (Tu : Fin k → ℝ) (x : Fin n → ℝ) (u : Fin k → ℝ) : Fin n → ℝ :=
  fun i => f (fun j => Tx j * x j) (fun j => Tu j * u j) i / Tx i

end Spec
