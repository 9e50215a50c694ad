import Verif.Model.Lyapunov
set_option autoImplicit false

/-!
# The quotient `self.tau / n_req` of the adaptive check (safe_learning/lyapunov.py:459-478)

`n_req` is an int32 tensor (line 462). The operators of TensorFlow 1.6 - 1.12 (requirements.txt) convert the other operand to
the type of the tensor before they divide, so that the result depends on the Python type of `tau`.
-/

namespace SafeLearning

variable {K : Type} [Field K] [LinearOrder K] [IsStrictOrderedRing K] [FloorRing K]

/-- The type of the argument `tau` (safe_learning/lyapunov.py:179, 195): a Python float, a Python integer, a numpy
floating point scalar such as `np.sum(grid.unit_maxes) / 2`, or a floating point tensor. -/
inductive TauKind where
  | pythonFloat
  | pythonInt
  | numpyFloat
  | tensor
  deriving DecidableEq, Repr

/-- `tau` as an operand of `tau / n_req` (safe_learning/lyapunov.py:475). A Python float cannot be converted to int32, an integer can, a
numpy scalar is truncated (`astype(np.int32)`), and a floating point tensor cannot be divided by an integer tensor.
Simplification: numbers fit into 32 bits. -/
def castTau (kind : TauKind) (tau : K) : Except PyErr K :=
  match kind with
  | .pythonFloat => .error .typeError
  | .pythonInt => .ok tau
  | .numpyFloat => .ok ((if 0 ≤ tau then ⌊tau⌋ else ⌈tau⌉ : ℤ) : K)
  | .tensor => .error .valueError

/-- The world in which the quotient is computed like this: both integers are converted to float64 and divided
(safe_learning/lyapunov.py:475). If the cast fails there is no graph, and the value does not matter. -/
def World.withTau {Prog Θ : Type} {n : ℕ} (W : World K Prog Θ n) (kind : TauKind) : World K Prog Θ n :=
  { W with tauDiv := fun tau nreq => match castTau kind tau with
      | .ok t => t / nreq
      | .error _ => 0 }

namespace Lyap

variable {Prog Θ : Type} {n : ℕ}

/-- `update_safe_set` for a `tau` of the given type (safe_learning/lyapunov.py:407-606). With `adaptive=True` the quotient is built
together with the graph in the first call (line 484 calls `refined_safety_check`), for every `max_refinement`; an exception leaves
the object unchanged because the graph is stored afterwards (line 489). Simplification: the type of `tau` does not change. -/
def updateSafeSetTyped (W : World K Prog Θ n) (kind : TauKind) (batch : ℕ) (args : UpdateArgs K)
    (s : Lyap K Prog n) (θ : Θ) : Lyap K Prog n × Except PyErr Unit :=
  match s.graph, s.adaptive, castTau kind s.tau with
  | none, true, .error e => (s, .error e)
  | _, _, _ => updateSafeSet (W.withTau kind) batch args s θ

/-- A history of `update_safe_set` (batch size, arguments, variables) and `update_values` (variables) calls
(safe_learning/lyapunov.py:305, 407). -/
def runTyped (W : World K Prog Θ n) (kind : TauKind) (s : Lyap K Prog n) :
    List ((ℕ × UpdateArgs K × Θ) ⊕ Θ) → Lyap K Prog n
  | [] => s
  | .inl (batch, args, θ) :: ops => runTyped W kind (updateSafeSetTyped W kind batch args s θ).1 ops
  | .inr θ :: ops => runTyped W kind (updateValues W s θ) ops

end Lyap

end SafeLearning
