import Verif.Spec.Features
import Mathlib.Topology.MetricSpace.Pseudo.Defs
import Mathlib.Order.Filter.AtTopBot.Basic
set_option autoImplicit false

/-!
# Specification of C96-C99
-/

namespace Spec

open Filter Topology

/-- The nine monomials of degree one to three. -/
def cubicMonomial (x y : ℝ) : Fin 9 → ℝ :=
  ![x, y, x ^ 2, x * y, y ^ 2, x ^ 3, x ^ 2 * y, x * y ^ 2, y ^ 3]

/-- The polynomial `m(x)ᵀ Q m(x)` in the monomials of degree one to three. -/
def cubicForm (Q : Fin 9 → Fin 9 → ℝ) (x : Fin 2 → ℝ) : ℝ :=
  ∑ i, ∑ j, cubicMonomial (x 0) (x 1) i * Q i j * cubicMonomial (x 0) (x 1) j

/-- `x` is a solution of `x' = f(x)`. -/
def IsSolution (f : (Fin 2 → ℝ) → Fin 2 → ℝ) (x : ℝ → Fin 2 → ℝ) : Prop :=
  ∀ t k, HasDerivAt (fun s => x s k) (f (x t) k) t

/-- The states from which the system `step` converges to `goal`. -/
def RegionOfAttraction {X : Type} [PseudoMetricSpace X] (step : X → X) (goal : X) : Set X :=
  {x | Tendsto (fun n => step^[n] x) atTop (𝓝 goal)}

end Spec
