import Mathlib.Algebra.BigOperators.Group.List.Basic
import Mathlib.Analysis.Calculus.Deriv.Basic
set_option autoImplicit false

/-!
# Specification: class weights and gradients of features
-/

namespace Spec

/-- The sum of the weights of all samples with label `c`. -/
def classTotal {C K : Type} [DecidableEq C] [AddCommMonoid K] (labels : List C) (weights : List K) (c : C) : K :=
  (((labels.zip weights).filter fun p => decide (p.1 = c)).map Prod.snd).sum

/-- `g` collects the partial derivatives of `f` at `x`. -/
def IsPartialDerivs {n : ℕ} (f : (Fin n → ℝ) → ℝ) (g : Fin n → ℝ) (x : Fin n → ℝ) : Prop :=
  ∀ k, HasDerivAt (fun t => f (Function.update x k t)) (g k) (x k)

/-- The exponents `(a, b)` of all monomials `x ^ a * y ^ b` with `1 ≤ a + b ≤ deg`, by degree and then by decreasing
power of `x`. -/
def monomialExponents (deg : ℕ) : List (ℕ × ℕ) :=
  (List.range deg).flatMap fun n => (List.range (n + 2)).map fun b => (n + 1 - b, b)

end Spec
