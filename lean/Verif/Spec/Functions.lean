import Mathlib.Algebra.Field.Basic
set_option autoImplicit false

/-!
# Specification of function arithmetic
-/

namespace Spec

/-- Arithmetic expressions over named functions, explicit constant functions and numbers. -/
inductive Arith (ι K : Type) where
  | fn (i : ι)
  | const (c : K)
  | num (c : K)
  | add (a b : Arith ι K)
  | mul (a b : Arith ι K)
  | neg (a : Arith ι K)
  | sub (a b : Arith ι K)

namespace Arith

variable {ι K P : Type}

/-- The value of an expression at a point, in one component of the output. -/
def value [Field K] (f : ι → P → ℕ → K) : Arith ι K → P → ℕ → K
  | fn i, x, j => f i x j
  | const c, _, _ => c
  | num c, _, _ => c
  | add a b, x, j => a.value f x j + b.value f x j
  | mul a b, x, j => a.value f x j * b.value f x j
  | neg a, x, j => -a.value f x j
  | sub a b, x, j => a.value f x j - b.value f x j

/-- Only numbers occur in the expression. -/
def isNumber : Arith ι K → Prop
  | fn _ => False
  | const _ => False
  | num _ => True
  | add a b => a.isNumber ∧ b.isNumber
  | mul a b => a.isNumber ∧ b.isNumber
  | neg a => a.isNumber
  | sub a b => a.isNumber ∧ b.isNumber

/-- The expressions that Python accepts for these classes: no number on the left of a function, and no difference
with a function. -/
def supported : Arith ι K → Prop
  | fn _ => True
  | const _ => True
  | num _ => True
  | add a b => a.supported ∧ b.supported ∧ (a.isNumber → b.isNumber)
  | mul a b => a.supported ∧ b.supported ∧ (a.isNumber → b.isNumber)
  | neg a => a.supported
  | sub a b => a.supported ∧ b.supported ∧ a.isNumber ∧ b.isNumber

/-- The functions in the expression from left to right, with repetitions. -/
def functions : Arith ι K → List ι
  | fn i => [i]
  | const _ => []
  | num _ => []
  | add a b => a.functions ++ b.functions
  | mul a b => a.functions ++ b.functions
  | neg a => a.functions
  | sub a b => a.functions ++ b.functions

end Arith

/-- Component `j` of an output row; a row of one entry stands for all components. -/
def comp {K : Type} [Zero K] (r : List K) (j : ℕ) : K :=
  if r.length = 1 then r.getD 0 0 else r.getD j 0

end Spec
