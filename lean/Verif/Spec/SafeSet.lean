import Mathlib.Order.Basic
import Mathlib.Data.Set.Basic
set_option autoImplicit false

/-! # Specification of certified level sets (independent of the model) -/

namespace Spec

variable {ι K : Type} [LinearOrder K]

/-- `P` is a largest level set of `values` all of whose states are `good`:
every state of `P` is good, `P` contains every state with a smaller value than one of its states,
and it cannot be extended: either it contains every state, or it is blocked by a state `b` that is
not good and has the smallest value outside `P` (and a value at least as large as all of `P`). -/
structure IsLargestLevelSet (values : ι → K) (good : ι → Prop) (P : Set ι) : Prop where
  good_of_mem : ∀ j ∈ P, good j
  lower : ∀ i j, j ∈ P → values i < values j → i ∈ P
  maximal : (∀ j, j ∈ P) ∨ ∃ b, b ∉ P ∧ ¬ good b ∧ (∀ j ∈ P, values j ≤ values b) ∧
    ∀ j, j ∉ P → values b ≤ values j

/-- `c` is the largest value of a state in `P`. -/
def IsTopValue (values : ι → K) (P : Set ι) (c : K) : Prop :=
  (∃ j ∈ P, values j = c) ∧ ∀ j ∈ P, values j ≤ c

end Spec
