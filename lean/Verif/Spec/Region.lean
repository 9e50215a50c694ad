import Mathlib.Logic.Relation
import Mathlib.Algebra.Order.Group.Unbundled.Int
import Mathlib.Data.Fintype.Pi
set_option autoImplicit false

/-! # Specification of neighbourhoods and regions of a grid (independent of the model) -/

namespace Spec

variable {d : ℕ}

/-- The nodes of a grid with `num i` points along axis `i`. -/
def IsNode (num x : Fin d → ℕ) : Prop := ∀ i, x i < num i

/-- `x` and `y` are different nodes whose indices differ by at most one along each axis. -/
def Adjacent (x y : Fin d → ℕ) : Prop := x ≠ y ∧ ∀ i, |(x i : ℤ) - (y i : ℤ)| ≤ 1

/-- A node that is not at the first or last position of any axis. -/
def IsInterior (num x : Fin d → ℕ) : Prop := ∀ i, 0 < x i ∧ x i + 1 < num i

/-- A node at the first or last position of some axis. -/
def IsBorder (num x : Fin d → ℕ) : Prop := IsNode num x ∧ ∃ i, x i = 0 ∨ x i + 1 = num i

/-- `y` can be reached from `x` by moving between adjacent nodes of `S`. -/
def ConnectedIn (S : Set (Fin d → ℕ)) (x y : Fin d → ℕ) : Prop :=
  Relation.ReflTransGen (fun a b => a ∈ S ∧ b ∈ S ∧ Adjacent a b) x y

end Spec
