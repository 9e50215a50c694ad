import Mathlib.Algebra.Order.Field.Basic
import Mathlib.LinearAlgebra.Matrix.NonsingularInverse
import Mathlib.Algebra.BigOperators.Fin
set_option autoImplicit false

/-!
# Specification vocabulary for the utilities, independent of the model
-/

namespace Spec

open Matrix

/-- The value of the quadratic form `xᵀ M x`. -/
def quad {K : Type} [Field K] {n : ℕ} (M : Matrix (Fin n) (Fin n) K) (x : Fin n → K) : K :=
  x ⬝ᵥ (M *ᵥ x)

/-- `P` solves the discrete-time algebraic Riccati equation. -/
def SolvesDARE {K : Type} [Field K] {n m : ℕ} (P A Q : Matrix (Fin n) (Fin n) K)
    (B : Matrix (Fin n) (Fin m) K) (R : Matrix (Fin m) (Fin m) K) : Prop :=
  P = Aᵀ * P * A - Aᵀ * P * B * (R + Bᵀ * P * B)⁻¹ * (Bᵀ * P * A) + Q

/-- `P` solves the continuous-time algebraic Riccati equation. -/
def SolvesCARE {K : Type} [Field K] {n m : ℕ} (P A Q : Matrix (Fin n) (Fin n) K)
    (B : Matrix (Fin n) (Fin m) K) (R : Matrix (Fin m) (Fin m) K) : Prop :=
  Aᵀ * P + P * A - P * B * R⁻¹ * Bᵀ * P + Q = 0

/-- A corner of a box: every coordinate is one of the two bounds. -/
def IsCorner {K : Type} {d : ℕ} (bounds : Fin d → K × K) (x : Fin d → K) : Prop :=
  ∀ i, x i = (bounds i).1 ∨ x i = (bounds i).2

/-- The latest value that a history (oldest first) assigns to a key. -/
def latest {A V : Type} [DecidableEq A] (history : List (A × V)) (a : A) : Option V :=
  history.foldl (fun acc e => if e.1 = a then some e.2 else acc) none

end Spec
