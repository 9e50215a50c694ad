import Verif.Model.Utilities
import Mathlib.Data.Matrix.Mul
import Mathlib.Analysis.Real.Sqrt
set_option autoImplicit false

/-!
# Model of `GPRCached`, `GaussianProcess` and `FunctionStack`
(safe_learning/functions.py:254-307, 357-546)
-/

namespace SafeLearning

open Matrix

variable {o : ℕ}

/-! ## Linear algebra of TensorFlow -/

/-- `L` is the Cholesky factor of `A` (contract of `tf.cholesky`, safe_learning/functions.py:408): lower triangular with positive
diagonal and `L Lᵀ = A`. -/
structure IsCholesky {n : ℕ} (A L : Matrix (Fin n) (Fin n) ℝ) : Prop where
  lower : ∀ i j, i < j → L i j = 0
  pos : ∀ i, 0 < L i i
  mul : L * Lᵀ = A

open Classical in
/-- `tf.cholesky` (safe_learning/functions.py:408): the Cholesky factor, an error (here `ValueError`) if there is none. The algorithm is not
modelled; the factor is unique. -/
noncomputable def cholesky {n : ℕ} (A : Matrix (Fin n) (Fin n) ℝ) :
    Except PyErr (Matrix (Fin n) (Fin n) ℝ) :=
  if h : ∃ L, IsCholesky A L then .ok h.choose else .error .valueError

/-- Forward substitution for one right-hand side, as done by `tf.matrix_triangular_solve(L, b, lower=True)`
(safe_learning/functions.py:409, 441). Only the lower triangle of `L` is used. -/
noncomputable def forwardSubst : {n : ℕ} → Matrix (Fin n) (Fin n) ℝ → (Fin n → ℝ) → Fin n → ℝ
  | 0, _, _ => Fin.elim0
  | n + 1, L, b =>
    let x : Fin n → ℝ :=
      forwardSubst (fun i j => L i.castSucc j.castSucc) fun i => b i.castSucc
    Fin.snoc (α := fun _ => ℝ) x
      ((b (Fin.last n) - ∑ j, L (Fin.last n) j.castSucc * x j) / L (Fin.last n) (Fin.last n))

/-- `tf.matrix_triangular_solve(L, B)` (safe_learning/functions.py:409, 441). -/
noncomputable def triangularSolve {n m : ℕ} (L : Matrix (Fin n) (Fin n) ℝ)
    (B : Matrix (Fin n) (Fin m) ℝ) : Matrix (Fin n) (Fin m) ℝ :=
  fun i j => forwardSubst L (fun k => B k j) i

/-! ## GPRCached -/

/-- The fixed parts of a `GPRCached` instance: kernel, mean function, noise variance and scale, and the width of the inputs
(safe_learning/functions.py:374-394). Points are rows; `o` is the number of outputs. The hyperparameters do not change. -/
structure GPModel (o : ℕ) where
  kern : List ℝ → List ℝ → ℝ
  mean : List ℝ → Fin o → ℝ
  noise : ℝ
  scale : ℝ
  xdim : ℕ

/-- The cached `cholesky` and `alpha` (safe_learning/functions.py:388-391). -/
structure GPCache (o : ℕ) where
  n : ℕ
  chol : Matrix (Fin n) (Fin n) ℝ
  alpha : Matrix (Fin n) (Fin o) ℝ

/-- The data holders of the model: `X`, `Y`, `cholesky` and `alpha` (safe_learning/functions.py:384-394). -/
structure GPData (o : ℕ) where
  X : List (List ℝ)
  Y : List (List ℝ)
  cache : GPCache o

/-- Entry `l` of row `i` of a list of rows (safe_learning/functions.py:405). -/
def entryOf (m : List (List ℝ)) (i l : ℕ) : ℝ := (m.getD i []).getD l 0

/-- The scaled kernel matrix with the noise on the diagonal (safe_learning/functions.py:399-402). -/
def GPModel.scaledKernel (gp : GPModel o) (X : List (List ℝ)) :
    Matrix (Fin X.length) (Fin X.length) ℝ := fun i j =>
  (gp.kern (X.getD i []) (X.getD j []) + (if i = j then 1 else 0) * gp.noise) * gp.scale ^ 2

/-- The scaled target `scale * (Y - mean_function(X))`; a single row of `Y` is broadcast
(safe_learning/functions.py:405). -/
def GPModel.target (gp : GPModel o) (X Y : List (List ℝ)) : Matrix (Fin X.length) (Fin o) ℝ :=
  fun i l => gp.scale * (entryOf Y (if Y.length = 1 then 0 else i) l - gp.mean (X.getD i []) l)

/-- `Kx`, the scaled kernel between the first `n` data points and the query points (safe_learning/functions.py:438). -/
def GPModel.cross (gp : GPModel o) (n : ℕ) (X Xnew : List (List ℝ)) :
    Matrix (Fin n) (Fin Xnew.length) ℝ := fun i j =>
  gp.scale ^ 2 * gp.kern (X.getD i []) (Xnew.getD j [])

/-- `_compute_cache` (safe_learning/functions.py:395-411). The difference `Y - mean_function(X)` broadcasts a single row of `Y`; otherwise the
numbers of rows have to agree. -/
noncomputable def GPModel.computeCache (gp : GPModel o) (X Y : List (List ℝ)) :
    Except PyErr (GPCache o) := do
  if Y.length = X.length ∨ Y.length = 1 then
    let L ← cholesky (gp.scaledKernel X)
    return { n := X.length, chol := L, alpha := triangularSolve L (gp.target X Y) }
  else .error .valueError

/-- The result of a prediction for `m` points: the mean and the variance of each output
(safe_learning/functions.py:417-458). -/
structure GPPrediction (m o : ℕ) where
  mean : Matrix (Fin m) (Fin o) ℝ
  var : Matrix (Fin m) (Fin o) ℝ

/-- `Kx` and `a` of `build_predict` (safe_learning/functions.py:438, 441). -/
noncomputable def GPModel.solved (gp : GPModel o) (D : GPData o) (Xnew : List (List ℝ)) :
    Matrix (Fin D.cache.n) (Fin Xnew.length) ℝ :=
  triangularSolve D.cache.chol (gp.cross D.cache.n D.X Xnew)

/-- `build_predict(Xnew, full_cov=False)` (safe_learning/functions.py:417-458), from the values in the feed
dictionary. -/
noncomputable def GPModel.buildPredict (gp : GPModel o) (D : GPData o) (Xnew : List (List ℝ)) :
    Except PyErr (GPPrediction Xnew.length o) :=
  if D.X.length = D.cache.n then
    let a := gp.solved D Xnew
    let fmean : Matrix (Fin Xnew.length) (Fin o) ℝ := fun i l =>
      (aᵀ * D.cache.alpha) i l + gp.scale * gp.mean (Xnew.getD i []) l
    let knew : Fin Xnew.length → ℝ := fun i =>
      gp.scale ^ 2 * gp.kern (Xnew.getD i []) (Xnew.getD i [])
    let fvar : Fin Xnew.length → ℝ := fun i => knew i - ∑ k, a k i ^ 2
    .ok { mean := fun i l => fmean i l / gp.scale
          var := fun i _ => fvar i / gp.scale ^ 2 }
  else .error .valueError

/-- `build_predict(Xnew, full_cov=True)`: the covariance matrix, which is repeated for every output
(safe_learning/functions.py:444-448, 456). -/
noncomputable def GPModel.buildPredictCov (gp : GPModel o) (D : GPData o) (Xnew : List (List ℝ)) :
    Except PyErr (Matrix (Fin Xnew.length) (Fin Xnew.length) ℝ) :=
  if D.X.length = D.cache.n then
    let a := gp.solved D Xnew
    .ok fun i j => (gp.scale ^ 2 * gp.kern (Xnew.getD i []) (Xnew.getD j []) - (aᵀ * a) i j) /
      gp.scale ^ 2
  else .error .valueError

/-! ## GaussianProcess -/

/-- A `GaussianProcess` object: the data holders of the wrapped model, and the values in the feed dictionary, which are used in evaluations
(safe_learning/functions.py:480-495, 517-523). -/
structure GPState (o : ℕ) where
  data : GPData o
  feed : GPData o

/-- `GPRCached(x, y, ...)` wrapped in `GaussianProcess` (safe_learning/functions.py:374-394, 480-495). -/
noncomputable def GPModel.init (gp : GPModel o) (X Y : List (List ℝ)) : Except PyErr (GPState o) := do
  let cache ← gp.computeCache X Y
  return { data := { X := X, Y := Y, cache := cache }, feed := { X := X, Y := Y, cache := cache } }

/-- `build_evaluation` evaluated with the feed dictionary: the mean and `beta` times the standard deviation
(safe_learning/functions.py:507-515). -/
noncomputable def GPModel.evaluate (gp : GPModel o) (beta : ℝ) (s : GPState o) (points : List (List ℝ)) :
    Except PyErr (Matrix (Fin points.length) (Fin o) ℝ × Matrix (Fin points.length) (Fin o) ℝ) := do
  let p ← gp.buildPredict s.feed points
  return (p.mean, fun i l => beta * Real.sqrt (p.var i l))

/-- `np.vstack((a, b))` where the rows of `a` have width `w`: `ValueError` if those of `b` do not
(safe_learning/functions.py:541-542). -/
def vstack (w : ℕ) (a b : List (List ℝ)) : Except PyErr (List (List ℝ)) :=
  if ∀ r ∈ b, r.length = w then .ok (a ++ b) else .error .valueError

/-- `add_data_point(x, y)`: the state afterwards, also when an exception is raised on the way
(safe_learning/functions.py:525-546). -/
noncomputable def GPModel.addDataPoint (gp : GPModel o) (s : GPState o) (x y : Arr ℝ) :
    GPState o × Except PyErr Unit :=
  match vstack gp.xdim s.data.X x.rows with
  | .error e => (s, .error e)
  | .ok X =>
    let s1 : GPState o := { s with data := { s.data with X := X } }
    match vstack o s.data.Y y.rows with
    | .error e => (s1, .error e)
    | .ok Y =>
      let s2 : GPState o := { s with data := { s.data with X := X, Y := Y } }
      match gp.computeCache X Y with
      | .error e => (s2, .error e)
      | .ok cache =>
        let data : GPData o := { X := X, Y := Y, cache := cache }
        ({ data := data, feed := data }, .ok ())

/-! ## Hyperparameters -/

/-- A `GaussianProcess` whose hyperparameters may be changed: those of the wrapped model (kernel, mean function and noise variance), those in
the feed dictionary, and the data (safe_learning/functions.py:480-495, 517-523). Simplified: `GPState` contains the data
holders, whose values are fed together with the hyperparameters. -/
structure GPSession (o : ℕ) where
  model : GPModel o
  fed : GPModel o
  state : GPState o

/-- `GaussianProcess(GPRCached(x, y, ...))` (safe_learning/functions.py:374-394, 480-495). -/
noncomputable def GPSession.new (gp : GPModel o) (X Y : List (List ℝ)) : Except PyErr (GPSession o) := do
  let s ← gp.init X Y
  return { model := gp, fed := gp, state := s }

/-- Assigning hyperparameters of the wrapped model, such as `gp.gaussian_process.kern.variance = 2`. Nothing is recomputed, since neither
the cache nor the feed dictionary is updated by an assignment (safe_learning/functions.py:413-415, 517-523). -/
def GPSession.setHyperparameters (s : GPSession o) (kern : List ℝ → List ℝ → ℝ) (mean : List ℝ → Fin o → ℝ)
    (noise : ℝ) : GPSession o :=
  { s with model := { s.model with kern := kern, mean := mean, noise := noise } }

/-- `update_feed_dict()` (safe_learning/functions.py:517-523). -/
def GPSession.updateFeedDict (s : GPSession o) : GPSession o :=
  { s with fed := s.model, state := { s.state with feed := s.state.data } }

/-- `add_data_point(x, y)` (safe_learning/functions.py:525-546): the cache is computed with the current hyperparameters, and
`update_feed_dict` is reached if nothing raises. -/
noncomputable def GPSession.addDataPoint (s : GPSession o) (x y : Arr ℝ) : GPSession o × Except PyErr Unit :=
  match s.model.addDataPoint s.state x y with
  | (t, .ok ()) => ({ s with fed := s.model, state := t }, .ok ())
  | (t, .error e) => ({ s with state := t }, .error e)

/-- `build_evaluation` evaluated with the feed dictionary (safe_learning/functions.py:507-515). -/
noncomputable def GPSession.evaluate (s : GPSession o) (beta : ℝ) (points : List (List ℝ)) :
    Except PyErr (Matrix (Fin points.length) (Fin o) ℝ × Matrix (Fin points.length) (Fin o) ℝ) :=
  s.fed.evaluate beta s.state points

/-- `to_mean_function()` (safe_learning/functions.py:209-230): only the first output of an evaluation. -/
def toMeanFunction {P : Type} {R E : P → Type} (evaluation : (points : P) → Except PyErr (R points × E points))
    (points : P) : Except PyErr (R points) := do
  let out ← evaluation points
  return out.1

/-! ## FunctionStack -/

/-- The evaluation of one component of a stack: rows of means and of errors
(safe_learning/functions.py:284). -/
abbrev UncertainEval := List (List ℝ) → Except PyErr (List (List ℝ) × List (List ℝ))

/-- `build_evaluation` of a Gaussian process as a component of a stack: the mean and the error as lists of rows
(safe_learning/functions.py:507-515). -/
noncomputable def GPModel.evaluateRows (gp : GPModel o) (beta : ℝ) (s : GPState o) : UncertainEval := fun points => do
  let (mean, error) ← gp.evaluate beta s points
  return (List.ofFn fun i => List.ofFn (mean i), List.ofFn fun i => List.ofFn (error i))

/-- `FunctionStack.build_evaluation` (safe_learning/functions.py:278-291); `tf.concat` along axis 1 is `hstack`. -/
def stackEvaluate (funs : List UncertainEval) (points : List (List ℝ)) :
    Except PyErr (List (List ℝ) × List (List ℝ)) := do
  let outs ← funs.mapM fun f => f points
  let mean ← hstack (outs.map Prod.fst)
  let error ← hstack (outs.map Prod.snd)
  return (mean, error)

/-- What Python's `sum` adds here: the start value 0 and lists (safe_learning/functions.py:276). -/
inductive PySum (α : Type) where
  | int (n : ℤ)
  | list (l : List α)

/-- `+` of Python on integers and lists (safe_learning/functions.py:276). -/
def PySum.add {α : Type} : PySum α → PySum α → Except PyErr (PySum α)
  | .int a, .int b => .ok (.int (a + b))
  | .list a, .list b => .ok (.list (a ++ b))
  | _, _ => .error .typeError

/-- `FunctionStack.parameters`: `sum(fun.parameters for fun in functions)` with the start value 0
(safe_learning/functions.py:273-276). -/
def stackParameters {α : Type} (params : List (List α)) : Except PyErr (PySum α) :=
  params.foldlM (fun acc p => acc.add (.list p)) (.int 0)

/-- The items of `y.squeeze()` for a two-dimensional `y`: `TypeError` for a single number, the numbers if there is only one row or one
column, otherwise the rows (safe_learning/functions.py:306). -/
def squeezeItems (y : List (List ℝ)) : Except PyErr (List (Arr ℝ)) :=
  match y with
  | [[_]] => .error .typeError
  | [r] => .ok (r.map .scalar)
  | rows => if ∀ r ∈ rows, r.length = 1 then .ok (rows.map fun r => .scalar (r.getD 0 0))
            else .ok (rows.map .vector)

/-- The loop of `FunctionStack.add_data_point` over the zipped functions and items; each function is a Gaussian process with one output
(safe_learning/functions.py:306-307). The states of all functions afterwards. -/
noncomputable def stackAddLoop (x : Arr ℝ) :
    List (GPModel 1 × GPState 1) → List (Arr ℝ) → List (GPState 1) × Except PyErr Unit
  | [], _ => ([], .ok ())
  | fs, [] => (fs.map Prod.snd, .ok ())
  | (gp, s) :: fs, yi :: ys =>
    match gp.addDataPoint s x yi with
    | (s', .error e) => (s' :: fs.map Prod.snd, .error e)
    | (s', .ok ()) =>
      let (rest, r) := stackAddLoop x fs ys
      (s' :: rest, r)

/-- `FunctionStack.add_data_point(x, y)` (safe_learning/functions.py:293-307). -/
noncomputable def stackAddDataPoint (fs : List (GPModel 1 × GPState 1)) (x : Arr ℝ)
    (y : List (List ℝ)) : List (GPState 1) × Except PyErr Unit :=
  match squeezeItems y with
  | .error e => (fs.map Prod.snd, .error e)
  | .ok items => stackAddLoop x fs items

end SafeLearning
