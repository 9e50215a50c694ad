import Verif.Model.Grid
set_option autoImplicit false

/-!
# Model of `PiecewiseConstant` (safe_learning/functions.py:820-932) and of sparse matrices
-/

namespace SafeLearning

variable {K : Type} [Field K] [LinearOrder K] [IsStrictOrderedRing K] {d o : ℕ}

/-- Apply a function that may raise to all entries of a vector, first entry first
(the vectorised numpy calls, for example safe_learning/functions.py:1099, 1222). -/
def traverseFin {α : Type} : {n : ℕ} → (Fin n → Except PyErr α) → Except PyErr (Fin n → α)
  | 0, _ => .ok Fin.elim0
  | _ + 1, f => do
    let a ← f 0
    let r ← traverseFin (Fin.tail f)
    return Fin.cons a r

/-- `values.reshape(nindex, -1)` for the flat list of the values, with `o` the resulting number of columns;
`ValueError` if the size does not fit (safe_learning/functions.py:854-859, 1046-1052). -/
def reshapeParameters (nindex o : ℕ) (values : List K) : Except PyErr (List (Fin o → K)) :=
  if values.length = nindex * o then
    .ok ((List.range nindex).map fun i j => values.getD (i * o + j.1) 0)
  else .error .valueError

/-- `array[k]` for a non-negative index (safe_learning/functions.py:887, 1222, 1323): `IndexError` beyond the end. -/
def rowAt {α : Type} (l : List α) (k : ℕ) : Except PyErr α :=
  match l[k]? with
  | some a => .ok a
  | none => .error .indexError

/-- A `scipy.sparse.coo_matrix`: its shape and entries `(weight, row, column)`; repeated positions add up
(safe_learning/functions.py:912-913, 1257-1258, 1366-1368). -/
structure Coo (K : Type) where
  nrows : ℕ
  ncols : ℕ
  entries : List (K × ℕ × ℕ)

/-- `B.dot(parameters)`: `ValueError` if the sizes do not fit (used as documented in
safe_learning/functions.py:904, 1243, 1345). -/
def Coo.dot (B : Coo K) (params : List (Fin o → K)) : Except PyErr (List (Fin o → K)) :=
  if B.ncols = params.length then
    .ok ((List.range B.nrows).map fun i =>
      ((B.entries.filter fun e => e.2.1 = i).map fun e => e.1 • params.getD e.2.2 0).sum)
  else .error .valueError

/-- `PiecewiseConstant.build_evaluation` (safe_learning/functions.py:871-887). A point is a row of any
length. -/
def pcEvaluate [FloorRing K] (g : GridWorld K d) (params : List (Fin o → K)) (points : List (List K)) :
    Except PyErr (List (Fin o → K)) := do
  let nodes ← points.mapM g.stateToIndex
  nodes.mapM (rowAt params)

/-- `PiecewiseConstant.parameter_derivative` (safe_learning/functions.py:889-913). -/
def pcParameterDerivative [FloorRing K] (g : GridWorld K d) (points : List (List K)) :
    Except PyErr (Coo K) := do
  let cols ← points.mapM g.stateToIndex
  return { nrows := points.length, ncols := g.nindex,
           entries := (List.range points.length).zipWith (fun r c => (1, r, c)) cols }

/-- `PiecewiseConstant.gradient` (safe_learning/functions.py:915-932). -/
def pcGradient (d : ℕ) (points : List (List K)) : List (Fin d → K) := points.map fun _ _ => 0

end SafeLearning
