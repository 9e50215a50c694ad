import Mathlib.Analysis.Normed.Algebra.MatrixExponential
import Mathlib.Data.Matrix.Block
set_option autoImplicit false

/-!
# Model of the discretisation that `linearize` uses

`signal.StateSpace(...).to_discrete(dt)` and `signal.cont2discrete(..., method='zoh')` of scipy, called in examples/utilities.py:238-240, 383-385 and 486. The matrix
exponential of scipy is taken to be exact.
-/

namespace SafeLearning

open Matrix

/-- The matrix `em` that scipy exponentiates: `A` and `B` next to each other, over rows of zeros (called in examples/utilities.py:239, 383, 486). -/
def augmented {n k : ℕ} (A : Matrix (Fin n) (Fin n) ℝ) (B : Matrix (Fin n) (Fin k) ℝ) : Matrix (Fin n ⊕ Fin k) (Fin n ⊕ Fin k) ℝ :=
  fromBlocks A B 0 0

/-- `cont2discrete` with `method='zoh'` (called in examples/utilities.py:239, 383, 486): the first rows of `expm(dt * em)`, split into columns for the states and for
the actions. -/
noncomputable def zeroOrderHold {n k : ℕ} (A : Matrix (Fin n) (Fin n) ℝ) (B : Matrix (Fin n) (Fin k) ℝ) (dt : ℝ) :
    Matrix (Fin n) (Fin n) ℝ × Matrix (Fin n) (Fin k) ℝ :=
  let ms := NormedSpace.exp (dt • augmented A B)
  (ms.toBlocks₁₁, ms.toBlocks₁₂)

end SafeLearning
