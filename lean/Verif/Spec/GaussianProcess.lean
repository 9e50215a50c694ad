import Mathlib.LinearAlgebra.Matrix.NonsingularInverse
import Mathlib.Data.Real.Basic
set_option autoImplicit false

/-!
# Specification of Gaussian process regression
-/

namespace Spec

open Matrix

variable {P : Type}

/-- The kernel matrix of the data plus the noise variance on the diagonal. -/
def noisyGram (k : P → P → ℝ) (noise : ℝ) {n : ℕ} (X : Fin n → P) : Matrix (Fin n) (Fin n) ℝ :=
  (Matrix.of fun i j => k (X i) (X j)) + noise • (1 : Matrix (Fin n) (Fin n) ℝ)

/-- The exact posterior mean at `x`: `m(x) + k(x, X) (K + s² I)⁻¹ (y - m(X))`. -/
noncomputable def posteriorMean (k : P → P → ℝ) (m : P → ℝ) (noise : ℝ) {n : ℕ} (X : Fin n → P)
    (y : Fin n → ℝ) (x : P) : ℝ :=
  m x + (fun i => k (X i) x) ⬝ᵥ ((noisyGram k noise X)⁻¹ *ᵥ fun i => y i - m (X i))

/-- The exact posterior covariance of the function values at `x` and `x'`: `k(x, x') - k(x, X) (K + s² I)⁻¹ k(X, x')`. -/
noncomputable def posteriorCov (k : P → P → ℝ) (noise : ℝ) {n : ℕ} (X : Fin n → P) (x x' : P) : ℝ :=
  k x x' - (fun i => k (X i) x) ⬝ᵥ ((noisyGram k noise X)⁻¹ *ᵥ fun i => k (X i) x')

/-- A positive semidefinite kernel. -/
structure IsKernel (k : P → P → ℝ) : Prop where
  symm : ∀ x y, k x y = k y x
  nonneg : ∀ (n : ℕ) (X : Fin n → P) (c : Fin n → ℝ), 0 ≤ ∑ i, ∑ j, c i * c j * k (X i) (X j)

end Spec
