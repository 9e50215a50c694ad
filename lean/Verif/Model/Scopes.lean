import Verif.Model.Functions
set_option autoImplicit false

/-!
# Model of the TensorFlow scopes of functions (safe_learning/functions.py:38-82, 310-354; safe_learning/utilities.py:114-120)

`Model/Functions.lean` identifies variables by numbers. Here variables have the names that TensorFlow gives them, to model how `parameters` finds them.
-/

namespace SafeLearning

/-- Names of scopes and variables (safe_learning/functions.py:44, 54-55). -/
abbrev TFName := List Char

/-- `re.match(scope, name)`, the test of `tf.get_collection(..., scope)` (safe_learning/functions.py:60-61). The characters allowed in TensorFlow names have no
special meaning in regular expressions except for the dot. -/
def matchScope : TFName → TFName → Bool
  | [], _ => true
  | _ :: _, [] => false
  | p :: ps, c :: cs => (p == '.' || p == c) && matchScope ps cs

/-- The scopes that are open when functions are constructed: `nameScope` is the name scope with its slash, `varScope` the variable scope, which is empty unless
`tf.variable_scope` is used by the caller (safe_learning/functions.py:44-51). -/
structure OpenScopes where
  nameScope : TFName
  varScope : TFName

/-- The TensorFlow graph: names in use, variable scopes in use and the trainable variables in the order of creation
(safe_learning/functions.py:44-61). -/
structure TFGraph where
  names : List TFName
  templates : List TFName
  vars : List TFName

/-- How a child class makes its variables: in its constructor below the scope of the function (`Triangulation`, safe_learning/functions.py:1402-1411; an empty list for
`LinearSystem` and `QuadraticFunction`) or in `build_evaluation` with `tf.get_variable` or `tf.layers.dense` in the current variable scope
(`NeuralNetwork`, safe_learning/functions.py:1711-1726). -/
inductive VarKind where
  | constructor (vars : List TFName)
  | evaluation (vars : List TFName)

/-- Function objects with the scope reserved by `Function.__init__` and the variable scope of the template
(safe_learning/functions.py:44-51, 125-199, 310-354). -/
inductive ScopedFn (K : Type) where
  | leaf (scope template : TFName) (kind : VarKind)
      (eval : List (Tensor K) → List (List K) → Except PyErr (List (List K)))
  | added (scope template : TFName) (f g : ScopedFn K)
  | saturation (scope template : TFName) (f : ScopedFn K) (lower upper : List K)

variable {K : Type}

/-- `self._scope.original_name_scope` (safe_learning/functions.py:44-45). -/
def ScopedFn.scope : ScopedFn K → TFName
  | .leaf s _ _ _ => s
  | .added s _ _ _ => s
  | .saturation s _ _ _ _ => s

/-- The variable scope of the template (safe_learning/functions.py:49-51). -/
def ScopedFn.template : ScopedFn K → TFName
  | .leaf _ t _ _ => t
  | .added _ t _ _ => t
  | .saturation _ t _ _ _ => t

/-- `scope_name` (safe_learning/functions.py:53-55, 339-342). -/
def ScopedFn.scopeName : ScopedFn K → TFName
  | .leaf s _ _ _ => s
  | .added s _ _ _ => s
  | .saturation _ _ f _ _ => f.scopeName

/-- `parameters` (safe_learning/functions.py:57-61, 147-150). -/
def ScopedFn.parameters (g : TFGraph) : ScopedFn K → List TFName
  | .added _ _ f h => f.parameters g ++ h.parameters g
  | f => g.vars.filter fun v => matchScope f.scopeName v

/-- The names of variables that `build_evaluation` makes in the variable scope `t` (safe_learning/functions.py:1711-1726). -/
def inTemplate (t : TFName) (vars : List TFName) : List TFName := vars.map fun v => t ++ '/' :: v

/-- New variables: those that exist are reused by the template (safe_learning/functions.py:33-36, 80-82). -/
def TFGraph.addVars (g : TFGraph) (vars : List TFName) : TFGraph :=
  { g with vars := g.vars ++ vars.filter fun v => v ∉ g.vars }

/-- `build_evaluation` in the variable scope `t`: a sum calls its operands with their own templates, a saturation calls `fun.build_evaluation` directly
(safe_learning/functions.py:158-160, 349-354). -/
def ScopedFn.build : ScopedFn K → TFName → TFGraph → TFGraph
  | .leaf _ _ (.constructor _) _, _, g => g
  | .leaf _ _ (.evaluation vs) _, t, g => g.addVars (inTemplate t vs)
  | .added _ _ f h, _, g => h.build h.template (f.build f.template g)
  | .saturation _ _ f _ _, t, g => f.build t g

/-- `__call__` (safe_learning/functions.py:63-82): the template evaluates in its own variable scope. -/
def ScopedFn.call (f : ScopedFn K) (g : TFGraph) : TFGraph := f.build f.template g

/-- The value of `build_evaluation` in the variable scope `t`, for given values of the variables. A `Triangulation` reads its own
`parameters` (safe_learning/functions.py:158-160, 349-354, 1494, 1711-1726). Simplified: sums of tensors. -/
def ScopedFn.evaluateIn [Field K] [LinearOrder K] (st : TFName → Tensor K) :
    ScopedFn K → TFName → List (List K) → Except PyErr (FnValue K)
  | .leaf s _ (.constructor vs) ev, _, pts => (ev (vs.map fun v => st (s ++ v)) pts).map .rows
  | .leaf _ _ (.evaluation vs) ev, t, pts => (ev ((inTemplate t vs).map st) pts).map .rows
  | .added _ _ f h, _, pts => do
    let a ← f.evaluateIn st f.template pts
    let b ← h.evaluateIn st h.template pts
    a.binary (· + ·) b
  | .saturation _ _ f lower upper, t, pts => do
    match ← f.evaluateIn st t pts with
    | .rows m =>
      let r ← m.mapM (saturateRow lower upper)
      return .rows r
    | _ => .error .valueError

/-- The value of a function for given values of the variables (safe_learning/functions.py:63-82). -/
def ScopedFn.evaluate [Field K] [LinearOrder K] (st : TFName → Tensor K) (f : ScopedFn K) (pts : List (List K)) :
    Except PyErr (FnValue K) := f.evaluateIn st f.template pts

/-- `Function.__init__` reserves a name scope and a variable scope for the template, whose name is the name scope below the open variable scope
(safe_learning/functions.py:44-51). `unique` is TensorFlow's `unique_name`. -/
def TFGraph.reserve (unique : List TFName → TFName → TFName) (o : OpenScopes) (g : TFGraph) (name : TFName) :
    TFGraph × TFName × TFName :=
  let u := unique g.names (o.nameScope ++ name)
  let scope := u ++ ['/']
  let t := unique g.templates (if o.varScope = [] then scope else o.varScope ++ '/' :: scope)
  ({ g with names := u :: g.names, templates := t :: g.templates }, scope, t)

/-- A program state: the graph and the function objects in the order of construction
(safe_learning/functions.py:38-51). -/
structure TFProgram (K : Type) where
  graph : TFGraph
  objs : List (ScopedFn K)

/-- Statements of a program: constructing a function, a sum or a saturation, calling a function, and making another variable
(safe_learning/functions.py:38-51, 64-82, 112-114, 323-337). -/
inductive TFStatement (K : Type) where
  | function (name : TFName) (kind : VarKind)
      (eval : List (Tensor K) → List (List K) → Except PyErr (List (List K)))
  | add (name : TFName) (i j : ℕ)
  | saturate (name : TFName) (i : ℕ) (lower upper : List K)
  | call (i : ℕ)
  | newVariable (name : TFName)

/-- Whether the object has the attribute `input_dim`, which `Saturation` needs (safe_learning/functions.py:330). Simplified: all child
classes with their own evaluation have it. -/
def ScopedFn.hasDims : ScopedFn K → Bool
  | .added _ _ _ _ => false
  | _ => true

/-- One statement; objects are given by their index and statements on missing objects do nothing
(safe_learning/functions.py:38-51, 64-82, 112-114, 323-337). -/
def TFProgram.step (unique : List TFName → TFName → TFName) (o : OpenScopes) (p : TFProgram K) :
    TFStatement K → TFProgram K
  | .function name kind ev =>
    let (g, scope, t) := p.graph.reserve unique o name
    let vs := match kind with
      | .constructor vs => vs.map fun v => scope ++ v
      | .evaluation _ => []
    { graph := { g with vars := g.vars ++ vs }, objs := p.objs ++ [.leaf scope t kind ev] }
  | .add name i j =>
    match p.objs[i]?, p.objs[j]? with
    | some f, some h =>
      let (g, scope, t) := p.graph.reserve unique o name
      { graph := g, objs := p.objs ++ [.added scope t f h] }
    | _, _ => p
  | .saturate name i lower upper =>
    match p.objs[i]? with
    | some f =>
      let (g, scope, t) := p.graph.reserve unique o name
      { graph := g, objs := if f.hasDims then p.objs ++ [.saturation scope t f lower upper] else p.objs }
    | none => p
  | .call i =>
    match p.objs[i]? with
    | some f => { p with graph := f.call p.graph }
    | none => p
  | .newVariable name =>
    let u := unique p.graph.names (o.nameScope ++ name)
    { p with graph := { p.graph with names := u :: p.graph.names, vars := p.graph.vars ++ [u] } }

/-- A program run from an empty graph (safe_learning/functions.py:38-51, 64-82). -/
def TFProgram.run (unique : List TFName → TFName → TFName) (o : OpenScopes) (stmts : List (TFStatement K)) :
    TFProgram K :=
  stmts.foldl (fun p s => p.step unique o s) ⟨⟨[], [], []⟩, []⟩

end SafeLearning
