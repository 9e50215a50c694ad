import Verif.Model.Utilities
set_option autoImplicit false

/-!
# Model of the function algebra (safe_learning/functions.py:31-251, 310-354)

Function objects are trees; TensorFlow variables live in a store. Evaluating a function is running the graph
that `build_evaluation` creates.
-/

namespace SafeLearning

variable {K : Type} [Field K] [LinearOrder K] [IsStrictOrderedRing K]

/-- The value of a TensorFlow variable (safe_learning/functions.py:57-61). -/
structure Tensor (K : Type) where
  shape : List ℕ
  data : List K

/-- The values of all TensorFlow variables of the session (safe_learning/functions.py:57-61, 100-110). -/
abbrev VarStore (K : Type) := ℕ → Tensor K

/-- What a function evaluates to: the tensor with one row per point, or the bare constant of a
`ConstantFunction`, which is `None` if that was built from `None` (safe_learning/functions.py:249-251). -/
inductive FnValue (K : Type) where
  | none
  | scalar (c : K)
  | rows (m : List (List K))
  deriving DecidableEq

/-- A function of a child class with its own `build_evaluation` (safe_learning/functions.py:84-98): the variables in
its scope in order, its evaluation for given values of these variables, and whether it has the attributes `input_dim` and
`output_dim`. -/
structure Leaf (K : Type) where
  vars : List ℕ
  eval : List (Tensor K) → List (List K) → Except PyErr (List (List K))
  hasDims : Bool

/-- Function objects: `leaf` stands for the child classes with their own evaluation,
`const` for `ConstantFunction`, then `AddedFunction`, `MultipliedFunction` and `Saturation` with its bounds as rows of one entry
(a float) or several (safe_learning/functions.py:125-199, 241-251, 310-354). -/
inductive Fn (K : Type) where
  | leaf (l : Leaf K)
  | const (c : Option K)
  | added (f g : Fn K)
  | multiplied (f g : Fn K)
  | saturation (f : Fn K) (lower upper : List K)

/-- Broadcasting along one axis: equal lengths, or one of them is one; otherwise `ValueError`
(the tensor operations in safe_learning/functions.py:160, 199, 354). -/
def bcast {α β γ : Type} (op : α → β → Except PyErr γ) (xs : List α) (ys : List β) :
    Except PyErr (List γ) :=
  if xs.length = ys.length then (xs.zip ys).mapM fun p => op p.1 p.2
  else match xs, ys with
    | [x], ys => ys.mapM (op x)
    | xs, [y] => xs.mapM fun x => op x y
    | _, _ => .error .valueError

/-- A binary operation on two rows, with broadcasting (safe_learning/functions.py:160, 199, 354). -/
def bcastRow (op : K → K → K) (a b : List K) : Except PyErr (List K) :=
  bcast (fun x y => .ok (op x y)) a b

/-- A binary operation on two evaluated functions (safe_learning/functions.py:160, 199). `None` with a tensor
is a `ValueError` of TensorFlow, with a number or `None` a `TypeError` of Python. -/
def FnValue.binary (op : K → K → K) : FnValue K → FnValue K → Except PyErr (FnValue K)
  | .none, .rows _ => .error .valueError
  | .rows _, .none => .error .valueError
  | .none, _ => .error .typeError
  | _, .none => .error .typeError
  | .scalar a, .scalar b => .ok (.scalar (op a b))
  | .scalar a, .rows m => .ok (.rows (m.map fun r => r.map fun x => op a x))
  | .rows m, .scalar b => .ok (.rows (m.map fun r => r.map fun x => op x b))
  | .rows m, .rows m' => do
    let r ← bcast (bcastRow op) m m'
    return .rows r

/-- `tf.minimum(tf.maximum(res, lower), upper)` on one row (safe_learning/functions.py:354). -/
def saturateRow (lower upper : List K) (r : List K) : Except PyErr (List K) := do
  let a ← bcastRow max r lower
  bcastRow min a upper

/-- Evaluate a function on the rows of the concatenated inputs (safe_learning/functions.py:63-82, 157-160, 196-199,
249-251, 349-354). Simplified: the variables of a saturated function are those of its constructor; for networks see
`Model/Scopes.lean`. -/
def Fn.evaluate (st : VarStore K) : Fn K → List (List K) → Except PyErr (FnValue K)
  | .leaf l, pts => do
    let r ← l.eval (l.vars.map st) pts
    return .rows r
  | .const none, _ => .ok .none
  | .const (some c), _ => .ok (.scalar c)
  | .added f g, pts => do
    let a ← f.evaluate st pts
    let b ← g.evaluate st pts
    a.binary (· + ·) b
  | .multiplied f g, pts => do
    let a ← f.evaluate st pts
    let b ← g.evaluate st pts
    a.binary (· * ·) b
  | .saturation f lower upper, pts => do
    match ← f.evaluate st pts with
    | .rows m =>
      let r ← m.mapM (saturateRow lower upper)
      return .rows r
    | _ => .error .valueError

/-- `parameters` (safe_learning/functions.py:57-61, 147-150, 185-188, 339-342): the variables in the scope of the function,
or of both operands, or of the wrapped function. -/
def Fn.parameters : Fn K → List ℕ
  | .leaf l => l.vars
  | .const _ => []
  | .added f g => f.parameters ++ g.parameters
  | .multiplied f g => f.parameters ++ g.parameters
  | .saturation f _ _ => f.parameters

/-- Whether the object has the attributes `input_dim` and `output_dim` (safe_learning/functions.py:330-331; sums, products and
constants have none, 135-147, 173-185, 244-247). -/
def Fn.hasDims : Fn K → Bool
  | .leaf l => l.hasDims
  | .saturation _ _ _ => true
  | _ => false

/-- `Saturation(fun, lower, upper)` (safe_learning/functions.py:323-337): `AttributeError` if `fun` (or `None`) has no
`input_dim`. The copying of the other attributes is not modelled. -/
def mkSaturation (f : Option (Fn K)) (lower upper : List K) : Except PyErr (Fn K) :=
  match f with
  | some f => if f.hasDims then .ok (.saturation f lower upper) else .error .attributeError
  | none => .error .attributeError

/-! ## Operators -/

/-- Python values in arithmetic expressions with functions: numbers and function objects
(safe_learning/functions.py:112-122). -/
inductive PyObj (K : Type) where
  | num (c : K)
  | fn (f : Fn K)

/-- `if not isinstance(fun, Function): fun = ConstantFunction(fun)`
(safe_learning/functions.py:139-142, 177-180). -/
def PyObj.toFn : PyObj K → Fn K
  | .num c => .const (some c)
  | .fn f => f

/-- `a + b`: numbers, or `Function.__add__`. There is no `__radd__`, so a number plus a function
is a `TypeError` (safe_learning/functions.py:112-114). -/
def PyObj.add : PyObj K → PyObj K → Except PyErr (PyObj K)
  | .num a, .num b => .ok (.num (a + b))
  | .num _, .fn _ => .error .typeError
  | .fn f, b => .ok (.fn (.added f b.toFn))

/-- `a * b`: numbers, or `Function.__mul__` (safe_learning/functions.py:116-118). -/
def PyObj.mul : PyObj K → PyObj K → Except PyErr (PyObj K)
  | .num a, .num b => .ok (.num (a * b))
  | .num _, .fn _ => .error .typeError
  | .fn f, b => .ok (.fn (.multiplied f b.toFn))

/-- `-a`: numbers, or `Function.__neg__` (safe_learning/functions.py:120-122). -/
def PyObj.neg : PyObj K → PyObj K
  | .num a => .num (-a)
  | .fn f => .fn (.multiplied f (.const (some (-1))))

/-- `a - b`: functions have no `__sub__` (safe_learning/functions.py:112-122). -/
def PyObj.sub : PyObj K → PyObj K → Except PyErr (PyObj K)
  | .num a, .num b => .ok (.num (a - b))
  | _, _ => .error .typeError

/-! ## copy_parameters -/

/-- The assignments of `Function.copy_parameters` in one session run; `ValueError` without any assignment if shapes differ
(safe_learning/functions.py:100-110). Variables are read before any of them is written; this matters only if the functions share
variables. -/
def assignParameters (targets sources : List ℕ) (st : VarStore K) : VarStore K × Except PyErr Unit :=
  if (targets.zip sources).all fun p => (st p.1).shape == (st p.2).shape then
    ((targets.zip sources).foldl (fun s p => Function.update s p.1 (st p.2)) st, .ok ())
  else (st, .error .valueError)

/-- The attribute `fun1` or `fun2` of an object (safe_learning/functions.py:154-155, 192-193). -/
def Fn.operands : Fn K → Except PyErr (Fn K × Fn K)
  | .added f g => .ok (f, g)
  | .multiplied f g => .ok (f, g)
  | _ => .error .attributeError

/-- The operand stored for what `copy_parameters` returned: `None` is wrapped in a `ConstantFunction`
(safe_learning/functions.py:139-142, 177-180). -/
def operandOf : Option (Fn K) → Fn K
  | some f => f
  | none => .const none

/-- `f.copy_parameters(g)`: the store afterwards and the returned object or exception
(safe_learning/functions.py:100-110, 152-155, 190-194, 344-347). -/
def Fn.copyParameters : Fn K → Fn K → VarStore K → VarStore K × Except PyErr (Option (Fn K))
  | .leaf l, g, st =>
    let (st', r) := assignParameters l.vars g.parameters st
    (st', r.map fun _ => none)
  | .const c, g, st =>
    let (st', r) := assignParameters (Fn.const c : Fn K).parameters g.parameters st
    (st', r.map fun _ => none)
  | .added f1 f2, g, st =>
    match g.operands with
    | .error e => (st, .error e)
    | .ok (g1, _) =>
      let (st1, r1) := f1.copyParameters g1 st
      match r1 with
      | .error e => (st1, .error e)
      | .ok c1 =>
        let (st2, r2) := f2.copyParameters g1 st1
        match r2 with
        | .error e => (st2, .error e)
        | .ok c2 => (st2, .ok (some (.added (operandOf c1) (operandOf c2))))
  | .multiplied f1 f2, g, st =>
    match g.operands with
    | .error e => (st, .error e)
    | .ok (g1, g2) =>
      let (st1, r1) := f1.copyParameters g1 st
      match r1 with
      | .error e => (st1, .error e)
      | .ok c1 =>
        let (st2, r2) := f2.copyParameters g2 st1
        match r2 with
        | .error e => (st2, .error e)
        | .ok c2 => (st2, .ok (some (.multiplied (operandOf c1) (operandOf c2))))
  | .saturation f lower upper, g, st =>
    match g with
    | .saturation g' _ _ =>
      let (st1, r1) := f.copyParameters g' st
      match r1 with
      | .error e => (st1, .error e)
      | .ok c => (st1, (mkSaturation c lower upper).map some)
    | _ => (st, .error .attributeError)

end SafeLearning
