import Mathlib.Algebra.Order.Field.Basic
import Mathlib.Order.WithBot
set_option autoImplicit false

/-! # Specification for policy iteration (independent of the model) -/

namespace Spec

variable {K : Type} [Field K] [LinearOrder K]

/-- The values `a` are at most the values `b`, entry by entry. -/
def Below (a b : List (Fin 1 → K)) : Prop :=
  ∀ (k : ℕ) v w, a[k]? = some v → b[k]? = some w → v 0 ≤ w 0

/-- The values `a` and `b` differ by at most `B` in every entry. -/
def Within (B : K) (a b : List (Fin 1 → K)) : Prop :=
  ∀ (k : ℕ) v w, a[k]? = some v → b[k]? = some w → |v 0 - w 0| ≤ B

/-- `x` is in the box `[lo, hi]`. -/
def InBox {d : ℕ} (lo hi x : Fin d → K) : Prop := ∀ i, lo i ≤ x i ∧ x i ≤ hi i

/-- `x` is in the box `[lo, hi]`, at least `e` away from its faces. -/
def InsideBy {d : ℕ} (e : K) (lo hi x : Fin d → K) : Prop := ∀ i, lo i + e ≤ x i ∧ x i ≤ hi i - e

end Spec
