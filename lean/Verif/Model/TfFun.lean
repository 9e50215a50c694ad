import Verif.Model.Scopes
set_option autoImplicit false

/-!
# Model of `make_tf_fun` (safe_learning/utilities.py:37-91)

TensorFlow (version 1.6 to 1.12, requirements.txt:7) is modelled as far as the function uses it: `Graph.unique_name` with its dictionary of
names, the global registry of gradients, the creation of `PyFunc` operations and the lookup of their gradients.
-/

namespace SafeLearning

/-- The dictionary `_names_in_use` of a graph; the first entry of a name counts (safe_learning/utilities.py:77). -/
abbrev NamesInUse := List (TFName × ℕ)

/-- `_names_in_use.get(name, 0)` (safe_learning/utilities.py:77). -/
def NamesInUse.count (u : NamesInUse) (n : TFName) : ℕ :=
  match u.find? fun p => decide (p.1 = n) with
  | some p => p.2
  | none => 0

/-- `"%d" % n` (safe_learning/utilities.py:77). -/
def digitChars (n : ℕ) : TFName :=
  if n < 10 then [Char.ofNat (48 + n)] else digitChars (n / 10) ++ [Char.ofNat (48 + n % 10)]
decreasing_by omega

/-- `"%s_%d" % (base, i)` (safe_learning/utilities.py:77). -/
def numbered (base : TFName) (i : ℕ) : TFName := base ++ '_' :: digitChars i

/-- `while name in _names_in_use: name = "%s_%d" % (base, i); i += 1` (safe_learning/utilities.py:77), with
a bound on the number of rounds. -/
def firstFree (u : NamesInUse) (base : TFName) : ℕ → ℕ → TFName
  | 0, i => numbered base i
  | fuel + 1, i =>
    if numbered base i ∈ u.map Prod.fst then firstFree u base fuel (i + 1) else numbered base i

/-- `graph.unique_name(name)`, where `name` includes the open name scope (safe_learning/utilities.py:77): the dictionary
afterwards and the name. -/
def uniqueName (u : NamesInUse) (name : TFName) : NamesInUse × TFName :=
  let i := u.count name
  let u := (name, i + 1) :: u
  if i = 0 then (u, name)
  else
    let r := firstFree u name (u.length + 1) i
    ((r, 1) :: u, r)

/-- A function that was decorated with `make_tf_fun(return_type, gradient, stateful)` (safe_learning/utilities.py:37-57). -/
structure PyFun (F : Type) where
  name : TFName
  gradient : Option F
  stateful : Bool
  deriving DecidableEq

/-- `function.__name__.lstrip('_')` (safe_learning/utilities.py:57). -/
def PyFun.opName {F : Type} (f : PyFun F) : TFName := f.name.dropWhile (· == '_')

/-- `'_gradient'` (safe_learning/utilities.py:69). -/
def gradientSuffix : TFName := ['_', 'g', 'r', 'a', 'd', 'i', 'e', 'n', 't']

/-- An operation made by `tf.py_func`. It has type `PyFunc` if it is stateful and `PyFuncStateless` otherwise. `override` is
the gradient name that `gradient_override_map` attached (safe_learning/utilities.py:64-65, 86-88). -/
structure PyFuncOp (F G : Type) where
  graph : G
  function : PyFun F
  override : Option TFName

/-- The global registry of gradients, the names of all graphs and the operations in the order of creation
(safe_learning/utilities.py:74-88). -/
structure TfWorld (F G : Type) where
  registry : List (TFName × F)
  names : G → NamesInUse
  ops : List (PyFuncOp F G)

variable {F G : Type} [DecidableEq G]

/-- `graph.unique_name` in a graph (safe_learning/utilities.py:77). -/
def TfWorld.unique (w : TfWorld F G) (g : G) (name : TFName) : TfWorld F G × TFName :=
  let r := uniqueName (w.names g) name
  ({ w with names := fun h => if h = g then r.1 else w.names h }, r.2)

/-- `tf.py_func(method, args, return_type, stateful, name)` in the graph `g` and the name scope `scope`; an override for `PyFunc` only
reaches operations of that type (safe_learning/utilities.py:64-65, 86-88). -/
def TfWorld.pyFunc (w : TfWorld F G) (g : G) (scope : TFName) (f : PyFun F) (override : Option TFName) : TfWorld F G :=
  let w := (w.unique g (scope ++ f.opName)).1
  { w with ops := w.ops ++ [⟨g, f, if f.stateful then override else none⟩] }

/-- A call of the wrapped function with the default graph `g` and the open name scope `scope` (safe_learning/utilities.py:60-91).
`tf.RegisterGradient` raises `KeyError` for a name that is registered. -/
def TfWorld.call (w : TfWorld F G) (g : G) (scope : TFName) (f : PyFun F) : TfWorld F G × Except PyErr Unit :=
  match f.gradient with
  | none => (w.pyFunc g scope f none, .ok ())
  | some d =>
    let (w, key) := w.unique g (scope ++ (f.opName ++ gradientSuffix))
    if key ∈ w.registry.map Prod.fst then (w, .error .keyError)
    else
      let w := { w with registry := (key, d) :: w.registry }
      (w.pyFunc g scope f (some key), .ok ())

/-- The gradient that `tf.gradients` uses for an operation: the registered one for the attached name; without a name `PyFunc` is not
differentiable (safe_learning/utilities.py:37-49, 80, 86). -/
def TfWorld.gradientOf (w : TfWorld F G) (op : PyFuncOp F G) : Option F :=
  match op.override with
  | none => none
  | some key => (w.registry.find? fun p => decide (p.1 = key)).map Prod.snd

/-- What a program does with graphs: it calls decorated functions and makes other operations (safe_learning/utilities.py:60-91). -/
inductive TfStmt (F G : Type) where
  | call (g : G) (scope : TFName) (f : PyFun F)
  | other (g : G) (name : TFName)

/-- One statement (safe_learning/utilities.py:60-91). -/
def TfWorld.exec (w : TfWorld F G) : TfStmt F G → TfWorld F G × Except PyErr Unit
  | .call g scope f => w.call g scope f
  | .other g name => ((w.unique g name).1, .ok ())

/-- A program, which ends with the first exception (safe_learning/utilities.py:60-91). -/
def TfWorld.execAll (w : TfWorld F G) : List (TfStmt F G) → TfWorld F G × Except PyErr Unit
  | [] => (w, .ok ())
  | s :: rest =>
    match w.exec s with
    | (w, .ok ()) => w.execAll rest
    | (w, .error e) => (w, .error e)

end SafeLearning
