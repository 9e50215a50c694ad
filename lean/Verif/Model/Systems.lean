import Mathlib.Analysis.SpecialFunctions.Trigonometric.Basic
import Mathlib.LinearAlgebra.Matrix.ToLin
import Mathlib.LinearAlgebra.Matrix.Notation
import Mathlib.Data.Matrix.Diagonal
set_option autoImplicit false

/-!
# Model of the example systems (examples/utilities.py)

One state and one action; the code works on batches row by row. Real arithmetic. `signal.StateSpace(...).to_discrete` and
`signal.cont2discrete` are a parameter `zoh A B dt`.
-/

namespace SafeLearning

open Matrix

/-- The attribute `normalization` of `InvertedPendulum` and `CartPole`: `None` or a pair of arrays
(examples/utilities.py:170-174, 320-324). -/
abbrev Normalization (n k : ℕ) := Option ((Fin n → ℝ) × (Fin k → ℝ))

/-- The attribute `inv_norm`: `norm ** -1` for both arrays (examples/utilities.py:174, 324). -/
noncomputable def invNorm {n k : ℕ} (T : (Fin n → ℝ) × (Fin k → ℝ)) : (Fin n → ℝ) × (Fin k → ℝ) :=
  (fun i => (T.1 i)⁻¹, fun i => (T.2 i)⁻¹)

/-- `normalize` (examples/utilities.py:181-192, 326-337; the methods of both classes are the same). The action may be
`None`. -/
noncomputable def normalize {n k : ℕ} (norm : Normalization n k) (state : Fin n → ℝ)
    (action : Option (Fin k → ℝ)) : (Fin n → ℝ) × Option (Fin k → ℝ) :=
  match norm with
  | none => (state, action)
  | some T =>
    (state ᵥ* diagonal (invNorm T).1, action.map fun a => a ᵥ* diagonal (invNorm T).2)

/-- `denormalize` (examples/utilities.py:194-205, 339-350; the methods of both classes are the same). -/
noncomputable def denormalize {n k : ℕ} (norm : Normalization n k) (state : Fin n → ℝ)
    (action : Option (Fin k → ℝ)) : (Fin n → ℝ) × Option (Fin k → ℝ) :=
  match norm with
  | none => (state, action)
  | some T => (state ᵥ* diagonal T.1, action.map fun a => a ᵥ* diagonal T.2)

/-- The scaling of `A` and `B` in `linearize` (examples/utilities.py:231-236, 377-381). -/
noncomputable def scaleSystem {n k : ℕ} (norm : Normalization n k) (A : Matrix (Fin n) (Fin n) ℝ)
    (B : Matrix (Fin n) (Fin k) ℝ) : Matrix (Fin n) (Fin n) ℝ × Matrix (Fin n) (Fin k) ℝ :=
  match norm with
  | none => (A, B)
  | some T => (diagonal (invNorm T).1 * A * diagonal T.1, diagonal (invNorm T).1 * B * diagonal T.2)

/-- The loop of `build_evaluation`: `n_inner` explicit Euler steps with a constant action
(examples/utilities.py:249-253, 394-398, 494-498). -/
noncomputable def eulerSteps {n : ℕ} (dt : ℝ) (field : (Fin n → ℝ) → Fin n → ℝ) :
    ℕ → (Fin n → ℝ) → Fin n → ℝ
  | 0, state => state
  | i + 1, state => eulerSteps dt field i fun j => state j + dt * field state j

/-- `build_evaluation` of `InvertedPendulum` and `CartPole` for the vector field `ode`
(examples/utilities.py:242-255, 387-400). -/
noncomputable def evaluateSystem {n k : ℕ} (norm : Normalization n k)
    (ode : (Fin n → ℝ) → (Fin k → ℝ) → Fin n → ℝ) (dt : ℝ) (state : Fin n → ℝ)
    (action : Fin k → ℝ) : Fin n → ℝ :=
  let sa := denormalize norm state (some action)
  let act := sa.2.getD action
  let state' := eulerSteps (dt / 10) (fun s => ode s act) 10 sa.1
  (normalize norm state' (none : Option (Fin k → ℝ))).1

/-- `InvertedPendulum` (examples/utilities.py:144-174). -/
structure InvertedPendulum where
  mass : ℝ
  length : ℝ
  friction : ℝ
  dt : ℝ
  normalization : Normalization 2 1

namespace InvertedPendulum

variable (p : InvertedPendulum)

/-- The attribute `gravity` (examples/utilities.py:166). -/
noncomputable def gravity : ℝ := 9.81

/-- `inertia` (examples/utilities.py:176-179). -/
noncomputable def inertia : ℝ := p.mass * p.length ^ 2

/-- `ode` (examples/utilities.py:257-289). -/
noncomputable def ode (state : Fin 2 → ℝ) (action : Fin 1 → ℝ) : Fin 2 → ℝ :=
  let angle := state 0
  let velocity := state 1
  let acc := gravity / p.length * Real.sin angle + action 0 / p.inertia
  let acc := if 0 < p.friction then acc - p.friction / p.inertia * velocity else acc
  ![velocity, acc]

/-- The matrices of `linearize` before discretisation (examples/utilities.py:218-236). -/
noncomputable def matrices : Matrix (Fin 2) (Fin 2) ℝ × Matrix (Fin 2) (Fin 1) ℝ :=
  scaleSystem p.normalization
    !![0, 1; gravity / p.length, -p.friction / p.inertia] !![0; 1 / p.inertia]

/-- `linearize` (examples/utilities.py:207-240). -/
noncomputable def linearize
    (zoh : Matrix (Fin 2) (Fin 2) ℝ → Matrix (Fin 2) (Fin 1) ℝ → ℝ →
      Matrix (Fin 2) (Fin 2) ℝ × Matrix (Fin 2) (Fin 1) ℝ) :
    Matrix (Fin 2) (Fin 2) ℝ × Matrix (Fin 2) (Fin 1) ℝ :=
  zoh p.matrices.1 p.matrices.2 p.dt

/-- `build_evaluation` (examples/utilities.py:242-255). -/
noncomputable def evaluate (state : Fin 2 → ℝ) (action : Fin 1 → ℝ) : Fin 2 → ℝ :=
  evaluateSystem p.normalization p.ode p.dt state action

end InvertedPendulum

/-- `CartPole` (examples/utilities.py:292-324). -/
structure CartPole where
  pendulumMass : ℝ
  cartMass : ℝ
  length : ℝ
  rotFriction : ℝ
  dt : ℝ
  normalization : Normalization 4 1

namespace CartPole

variable (p : CartPole)

/-- The attribute `gravity` (examples/utilities.py:317). -/
noncomputable def gravity : ℝ := 9.81

/-- `ode` (examples/utilities.py:402-437). -/
noncomputable def ode (state : Fin 4 → ℝ) (action : Fin 1 → ℝ) : Fin 4 → ℝ :=
  let m := p.pendulumMass
  let M := p.cartMass
  let L := p.length
  let b := p.rotFriction
  let g := gravity
  let theta := state 1
  let v := state 2
  let omega := state 3
  let det := L * (M + m * Real.sin theta ^ 2)
  let vDot := (action 0 - m * L * omega ^ 2 * Real.sin theta - b * omega * Real.cos theta +
    0.5 * m * g * L * Real.sin (2 * theta)) * L / det
  let omegaDot := (action 0 * Real.cos theta - 0.5 * m * L * omega ^ 2 * Real.sin (2 * theta) -
    b * (m + M) * omega / (m * L) + (m + M) * g * Real.sin theta) / det
  ![v, omega, vDot, omegaDot]

/-- The matrices of `linearize` before discretisation (examples/utilities.py:363-381). -/
noncomputable def matrices : Matrix (Fin 4) (Fin 4) ℝ × Matrix (Fin 4) (Fin 1) ℝ :=
  let m := p.pendulumMass
  let M := p.cartMass
  let L := p.length
  let b := p.rotFriction
  let g := gravity
  scaleSystem p.normalization
    !![0, 0, 1, 0;
       0, 0, 0, 1;
       0, g * m / M, 0, -b / (M * L);
       0, g * (m + M) / (L * M), 0, -b * (m + M) / (m * M * L ^ 2)]
    !![0; 0; 1 / M; 1 / (M * L)]

/-- `linearize` (examples/utilities.py:352-385). -/
noncomputable def linearize
    (zoh : Matrix (Fin 4) (Fin 4) ℝ → Matrix (Fin 4) (Fin 1) ℝ → ℝ →
      Matrix (Fin 4) (Fin 4) ℝ × Matrix (Fin 4) (Fin 1) ℝ) :
    Matrix (Fin 4) (Fin 4) ℝ × Matrix (Fin 4) (Fin 1) ℝ :=
  zoh p.matrices.1 p.matrices.2 p.dt

/-- `build_evaluation` (examples/utilities.py:387-400). -/
noncomputable def evaluate (state : Fin 4 → ℝ) (action : Fin 1 → ℝ) : Fin 4 → ℝ :=
  evaluateSystem p.normalization p.ode p.dt state action

end CartPole

/-- `VanDerPol` (examples/utilities.py:440-453). -/
structure VanDerPol where
  damping : ℝ
  dt : ℝ
  normalization : Option (Fin 2 → ℝ)

namespace VanDerPol

variable (p : VanDerPol)

/-- `normalize` (examples/utilities.py:455-461). -/
noncomputable def normalize (state : Fin 2 → ℝ) : Fin 2 → ℝ :=
  match p.normalization with
  | none => state
  | some T => state ᵥ* diagonal fun i => (T i)⁻¹

/-- `denormalize` (examples/utilities.py:463-469). -/
noncomputable def denormalize (state : Fin 2 → ℝ) : Fin 2 → ℝ :=
  match p.normalization with
  | none => state
  | some T => state ᵥ* diagonal T

/-- `ode` (examples/utilities.py:501-519). -/
noncomputable def ode (state : Fin 2 → ℝ) : Fin 2 → ℝ :=
  let x := state 0
  let y := state 1
  ![-y, x + p.damping * (x ^ 2 - 1) * y]

/-- The matrix of `linearize` before discretisation (examples/utilities.py:480-484). -/
noncomputable def matrix : Matrix (Fin 2) (Fin 2) ℝ :=
  match p.normalization with
  | none => !![0, -1; 1, -1]
  | some T => diagonal (fun i => (T i)⁻¹) * !![0, -1; 1, -1] * diagonal T

/-- `linearize` (examples/utilities.py:471-487): the input matrix is zero. -/
noncomputable def linearize
    (zoh : Matrix (Fin 2) (Fin 2) ℝ → Matrix (Fin 2) (Fin 1) ℝ → ℝ →
      Matrix (Fin 2) (Fin 2) ℝ × Matrix (Fin 2) (Fin 1) ℝ) : Matrix (Fin 2) (Fin 2) ℝ :=
  (zoh p.matrix 0 p.dt).1

/-- `build_evaluation` (examples/utilities.py:489-499): the action is split off and ignored. -/
noncomputable def evaluate (state : Fin 2 → ℝ) (_action : Fin 1 → ℝ) : Fin 2 → ℝ :=
  p.normalize (eulerSteps (p.dt / 10) p.ode 10 (p.denormalize state))

end VanDerPol

end SafeLearning
