import Verif.Model.Triangulation
set_option autoImplicit false

/-!
# A `Triangulation` object and its saturation over time
(safe_learning/functions.py:310-354, 1397-1510)
-/

namespace SafeLearning

variable {K : Type} [Field K] [LinearOrder K] [IsStrictOrderedRing K] {d o : ℕ}

/-- A tensor made by calling the triangulation or its saturation: `if self.project` is evaluated by Python when the graph is built
(safe_learning/functions.py:1479), the operations after it belong to the graph. -/
structure ProjectTensor where
  clipped : Bool
  saturated : Bool
  deriving DecidableEq

/-- A `Triangulation` `f` with the attribute `f.tri`, its `Saturation(f, lower, upper)` `s`, and the tensors made so far. `satProject` is the
attribute `project` of the saturation: `setattr(self, par, eval('self.fun.' + par))` copies the value of the property
(safe_learning/functions.py:334-337). -/
structure ProjectSession (K : Type) (d : ℕ) where
  tri : Tri K d
  satProject : Bool
  tensors : List ProjectTensor

/-- The constructors: `Triangulation(grid, values, project)` and `Saturation(f, lower, upper)`
(safe_learning/functions.py:323-337, 1397-1420). -/
noncomputable def ProjectSession.new [FloorRing K] (g : GridWorld K d) (D : Delaunay K d) (project : Bool) :
    Except PyErr (ProjectSession K d) := do
  let t ← Tri.new g D project
  return ⟨t, t.project, []⟩

/-- Statements of a program that uses the two objects (safe_learning/functions.py:331-354, 1430-1440). -/
inductive ProjectCommand where
  /-- `f.project = value` -/
  | set (value : Bool)
  /-- `s.project = value` -/
  | setSaturation (value : Bool)
  /-- `f(points)` -/
  | call
  /-- `s(points)` -/
  | callSaturation
  deriving DecidableEq

/-- One statement. The setter assigns to `self.tri.project` (safe_learning/functions.py:1427-1430); on the saturation the assignment
changes its own attribute; calling the saturation calls `self.fun.build_evaluation` (safe_learning/functions.py:351). -/
def ProjectSession.step (s : ProjectSession K d) : ProjectCommand → ProjectSession K d
  | .set value => { s with tri := { s.tri with project := value } }
  | .setSaturation value => { s with satProject := value }
  | .call => { s with tensors := s.tensors ++ [⟨s.tri.project, false⟩] }
  | .callSaturation => { s with tensors := s.tensors ++ [⟨s.tri.project, true⟩] }

/-- A program (safe_learning/functions.py:1422-1510). -/
def ProjectSession.run (s : ProjectSession K d) (cs : List ProjectCommand) : ProjectSession K d :=
  cs.foldl ProjectSession.step s

/-- `f.project` (safe_learning/functions.py:1422-1425). -/
def ProjectSession.project (s : ProjectSession K d) : Bool := s.tri.project

/-- The value of tensor `k` for values of the variable and a point: `_get_hyperplanes` runs on the current object
(safe_learning/functions.py:1442-1471), the clipping is the one of the graph (safe_learning/functions.py:1473-1499). -/
def ProjectSession.evalTensor [FloorRing K] (s : ProjectSession K d) (eps : K) (params : List (Fin o → K))
    (lower upper : Fin o → K) (k : ℕ) (x : Fin d → K) : Except PyErr (Fin o → K) :=
  match s.tensors[k]? with
  | none => .error .indexError
  | some q =>
    let t := { s.tri with project := q.clipped }
    if q.saturated then t.saturatedEvaluate eps params lower upper x else t.tfEvaluate eps params x

end SafeLearning
