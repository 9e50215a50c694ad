import Mathlib.Algebra.BigOperators.Group.Finset.Basic
import Mathlib.Algebra.Field.Defs
import Mathlib.Logic.Function.Iterate
set_option autoImplicit false

/-!
# Specification: discounted returns
-/

namespace Spec

/-- The discounted sum of the first `n` rewards along the trajectory of `f` from `x`. -/
def discountedReturn {S K : Type} [Field K] (γ : K) (f : S → S) (r : S → K) (n : ℕ) (x : S) : K :=
  ∑ t ∈ Finset.range n, γ ^ t * r (f^[t] x)

end Spec
