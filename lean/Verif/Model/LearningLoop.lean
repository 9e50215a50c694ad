import Verif.Model.GaussianProcess
set_option autoImplicit false

/-!
# Model of the learning loops of the examples
-/

namespace SafeLearning

variable {d : ℕ}

/-- The states of the Gaussian processes in the stack of the dynamics, and all measurements (examples/inverted_pendulum.ipynb:411-424). -/
structure Learner (d : ℕ) where
  states : Fin d → GPState 1
  outputs : List (Fin d → ℝ)

/-- One round of active learning, the function `update_gp` of the examples: choose a state and an action, measure the true dynamics there, and add the
measurement to the dynamics (examples/inverted_pendulum.ipynb:411-424, examples/1d_region_of_attraction_estimate.ipynb:217-236).
`choose` stands for all that happens between two measurements: the safe set is updated, the policy is optimised, and `get_safe_sample` selects the state
and the action. It may depend on all measurements so far, but not on the true dynamics in any other way. `measure t x` is measurement number `t`. -/
noncomputable def learnRound (gps : Fin d → GPModel 1) (choose : List (Fin d → ℝ) → List ℝ) (measure : ℕ → List ℝ → Fin d → ℝ) (l : Learner d) :
    Except PyErr (Learner d) :=
  let x := choose l.outputs
  let y := measure l.outputs.length x
  match stackAddDataPoint (List.ofFn fun i => (gps i, l.states i)) (.matrix [x]) [List.ofFn y] with
  | (_, .error e) => .error e
  | (states, .ok ()) => .ok { states := fun i => states.getD i (l.states i), outputs := l.outputs ++ [y] }

/-- The loop of the examples: `t` rounds of learning (examples/inverted_pendulum.ipynb:455-458, examples/1d_region_of_attraction_estimate.ipynb:247-249). -/
noncomputable def learnLoop (gps : Fin d → GPModel 1) (choose : List (Fin d → ℝ) → List ℝ) (measure : ℕ → List ℝ → Fin d → ℝ) (l : Learner d) :
    ℕ → Except PyErr (Learner d)
  | 0 => .ok l
  | t + 1 => do
    let l ← learnLoop gps choose measure l t
    learnRound gps choose measure l

end SafeLearning
