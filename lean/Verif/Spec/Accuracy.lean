import Verif.Spec.Setup
import Verif.Spec.ReinforcementLearning
import Mathlib.Algebra.BigOperators.Intervals
set_option autoImplicit false

/-! # Specification of the accuracy of functions on grids (independent of the model) -/

namespace Spec

variable {K : Type} [Field K] [LinearOrder K] {d : ℕ}

/-- `F` changes by at most `L` times the 1-norm distance of two states of the box `[lo, hi]`. -/
def LipschitzOn1 (lo hi : Fin d → K) (L : K) (F : (Fin d → K) → K) : Prop :=
  ∀ x y, InBox lo hi x → InBox lo hi y → |F x - F y| ≤ L * dist1 x y

/-- Half of the sum of the distances between neighbouring grid points: `sum(unit_maxes) / 2`. -/
def coverRadius (lo hi : Fin d → K) (num : Fin d → ℕ) : K :=
  (∑ i, (hi i - lo i) / ((num i : K) - 1)) / 2

/-- The rewards of the first `n` steps of `next` from `x`, discounted, and the discounted value of the state reached. -/
def returnWithTerminal (γ : K) (reward : (Fin d → K) → K) (next : (Fin d → K) → Fin d → K)
    (terminal : (Fin d → K) → K) (n : ℕ) (x : Fin d → K) : K :=
  ∑ k ∈ Finset.range n, γ ^ k * reward (next^[k] x) + γ ^ n * terminal (next^[n] x)

end Spec
