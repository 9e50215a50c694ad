import Verif.Model.Scopes
set_option autoImplicit false

/-!
# Model of `with_scope` (safe_learning/utilities.py:94-111)
-/

namespace SafeLearning

/-- The part of a TensorFlow graph that name scopes change: the names in use, the operations with what they compute, in the order of construction, and the open name scope with its slash
(safe_learning/utilities.py:108). -/
structure ScopeState (V : Type) where
  names : List TFName
  ops : List (TFName × V)
  current : TFName

/-- `with tf.name_scope(name): return function(...)` (safe_learning/utilities.py:105-111). The scope is closed whether the function returns or raises. `unique` is TensorFlow's
`unique_name`. -/
def withScope {V α : Type} (unique : List TFName → TFName → TFName) (name : TFName) (function : ScopeState V → Except PyErr α × ScopeState V) (s : ScopeState V) :
    Except PyErr α × ScopeState V :=
  let u := unique s.names (s.current ++ name)
  let r := function { s with names := u :: s.names, current := u ++ ['/'] }
  (r.1, { r.2 with current := s.current })

/-- The body of a function, as far as the graph is concerned (safe_learning/utilities.py:109): it makes operations, raises, handles exceptions and calls decorated functions. -/
inductive Body (V : Type) where
  | op (name : TFName) (value : V)
  | raise (e : PyErr)
  | seq (p q : Body V)
  | handle (p : Body V) (q : PyErr → Body V)
  | call (scope : TFName) (body : Body V)

/-- Running a body, with the decorators or without them (safe_learning/utilities.py:105-111). -/
def Body.run {V : Type} (unique : List TFName → TFName → TFName) (decorated : Bool) : Body V → ScopeState V → Except PyErr Unit × ScopeState V
  | .op name value, s =>
    let u := unique s.names (s.current ++ name)
    (.ok (), { s with names := u :: s.names, ops := s.ops ++ [(u, value)] })
  | .raise e, s => (.error e, s)
  | .seq p q, s =>
    match p.run unique decorated s with
    | (.ok _, s) => q.run unique decorated s
    | (.error e, s) => (.error e, s)
  | .handle p q, s =>
    match p.run unique decorated s with
    | (.ok _, s) => (.ok (), s)
    | (.error e, s) => (q e).run unique decorated s
  | .call scope body, s => if decorated then withScope unique scope (body.run unique decorated) s else body.run unique decorated s

end SafeLearning
