import Verif.Model.Lyapunov
import Verif.Model.GaussianProcess
set_option autoImplicit false

/-!
# Model of interrupted calls of `update_safe_set` and `add_data_point`
(safe_learning/lyapunov.py:407-606, safe_learning/functions.py:517-546)

A call is stopped by an exception in an evaluation or by `KeyboardInterrupt`. Python raises `KeyboardInterrupt` between two statements; single numpy assignments are not divided.
-/

namespace SafeLearning

/-- The object after the first `k` of the given assignments (safe_learning/lyapunov.py:489-606, safe_learning/functions.py:541-546). -/
def afterWrites {σ : Type} (writes : List (σ → σ)) (k : ℕ) (s : σ) : σ :=
  (writes.take k).foldl (fun t w => w t) s

namespace Lyap

variable {K : Type} [Field K] [LinearOrder K] [IsStrictOrderedRing K] {Prog Θ : Type} {n : ℕ}

/-- The assignments at the end of `update_safe_set`, in the order of the code (safe_learning/lyapunov.py:589-606): `c_max` in the feed dictionary, the safe set in two steps, the
refinement, and both for the initial safe set. -/
def finishWrites (W : World K Prog Θ n) (s : Lyap K Prog n) (rows : List (Row n))
    (last : Option (ℕ × ℕ × ℕ)) : List (Lyap K Prog n → Lyap K Prog n) :=
  match last with
  | none => []
  | some (i, bound, refineBound) =>
    match pyGet? (W.argsort s.values) ((i : ℤ) + bound + refineBound - 1) with
    | none => []
    | some top =>
      [fun t => { t with cMax := t.values top },
       fun t => { t with safeSet := fun _ => false },
       fun t => { t with safeSet := fun j => decide (j ∈ (rows.filter (·.safe)).map (·.idx)) || t.safeSet j },
       fun t => { t with refinement := fun j =>
          match rows.find? (fun r => decide (r.idx = j)) with
          | none => t.refinement j
          | some r => r.refine }] ++
      match s.initial with
      | none => []
      | some I =>
        [fun t => { t with safeSet := fun j => I j || t.safeSet j },
         fun t => { t with refinement := fun j => if I j then 1 else t.refinement j }]

/-- All assignments of a call of `update_safe_set` to the object, in order (safe_learning/lyapunov.py:407-606). The first one is `set_storage`, which stores the graph (in later calls the same graph).
The states and refinements in the feed dictionary are not included: they are assigned before each use. -/
def updateWrites [FloorRing K] (W : World K Prog Θ n) (batch : ℕ) (args : UpdateArgs K)
    (s : Lyap K Prog n) (θ : Θ) : List (Lyap K Prog n → Lyap K Prog n) :=
  let G := s.graphFor args.safetyFactor
  let s1 := { s with graph := some G }
  (fun t => { t with graph := some G }) ::
    if G.adaptive ≠ s1.adaptive then []
    else
      match batchLoop W G s1 θ args.maxRefinement [] none
          (batchify (s1.startRows W args.canShrink) batch) with
      | .error _ => []
      | .ok (rows, last) => s1.finishWrites W rows last

/-- A call of `update_safe_set` that is stopped after `k` assignments (safe_learning/lyapunov.py:407-606). -/
def interruptedUpdate [FloorRing K] (W : World K Prog Θ n) (batch : ℕ) (args : UpdateArgs K)
    (s : Lyap K Prog n) (θ : Θ) (k : ℕ) : Lyap K Prog n :=
  afterWrites (updateWrites W batch args s θ) k s

/-- Operations on the object, some of which are stopped on the way (safe_learning/lyapunov.py:305, 407). -/
inductive Event (K Prog Θ : Type) where
  | op (o : Op K Prog Θ)
  | stopped (batch : ℕ) (args : UpdateArgs K) (θ : Θ) (k : ℕ)

/-- One operation or stopped call (safe_learning/lyapunov.py:305, 407). -/
def event [FloorRing K] (W : World K Prog Θ n) (s : Lyap K Prog n) : Event K Prog Θ → Lyap K Prog n
  | .op o => step W s o
  | .stopped batch args θ k => interruptedUpdate W batch args s θ k

/-- A history with stopped calls (safe_learning/lyapunov.py:305, 407). -/
def runEvents [FloorRing K] (W : World K Prog Θ n) (s : Lyap K Prog n) (events : List (Event K Prog Θ)) :
    Lyap K Prog n := events.foldl (event W) s

end Lyap

/-! ## Gaussian processes -/

variable {o : ℕ}

/-- The data holders `X`, `Y`, `cholesky` and `alpha`, each on its own (safe_learning/functions.py:384-394). -/
structure GPHolders (o : ℕ) where
  X : List (List ℝ)
  Y : List (List ℝ)
  chol : Σ n : ℕ, Matrix (Fin n) (Fin n) ℝ
  alpha : Σ n : ℕ, Matrix (Fin n) (Fin o) ℝ

/-- The holders of complete data (safe_learning/functions.py:384-394). -/
def GPData.holders (D : GPData o) : GPHolders o := ⟨D.X, D.Y, ⟨_, D.cache.chol⟩, ⟨_, D.cache.alpha⟩⟩

/-- A `GaussianProcess`: the holders of the model and their values in the feed dictionary (safe_learning/functions.py:480-495, 517-523). -/
structure GPObject (o : ℕ) where
  data : GPHolders o
  feed : GPHolders o

/-- The object of a state without interrupted calls (safe_learning/functions.py:480-495). -/
def GPState.object (s : GPState o) : GPObject o := ⟨s.data.holders, s.feed.holders⟩

/-- `build_evaluation` evaluated with the feed dictionary (safe_learning/functions.py:441, 447, 507-515): the product of `a` and `alpha` needs the same number of rows; an error is TensorFlow's
`InvalidArgumentError`, here `ValueError`. -/
noncomputable def GPModel.evaluateObject (gp : GPModel o) (beta : ℝ) (s : GPObject o) (points : List (List ℝ)) :
    Except PyErr (Matrix (Fin points.length) (Fin o) ℝ × Matrix (Fin points.length) (Fin o) ℝ) :=
  if h : s.feed.alpha.1 = s.feed.chol.1 then do
    let p ← gp.buildPredict ⟨s.feed.X, s.feed.Y, ⟨s.feed.chol.1, s.feed.chol.2, h ▸ s.feed.alpha.2⟩⟩ points
    return (p.mean, fun i l => beta * Real.sqrt (p.var i l))
  else .error .valueError

/-- The names of the data holders, the keys of the feed dictionary (safe_learning/functions.py:384-394, 522). -/
inductive Holder where
  | X
  | Y
  | cholesky
  | alpha
  deriving DecidableEq

/-- `feed_dict[key] = value` for one data holder (safe_learning/functions.py:522). -/
def GPObject.feedHolder (s : GPObject o) : Holder → GPObject o
  | .X => { s with feed := { s.feed with X := s.data.X } }
  | .Y => { s with feed := { s.feed with Y := s.data.Y } }
  | .cholesky => { s with feed := { s.feed with chol := s.data.chol } }
  | .alpha => { s with feed := { s.feed with alpha := s.data.alpha } }

/-- All assignments of `add_data_point`, in order (safe_learning/functions.py:413-415, 517-523, 540-546). The order in which gpflow feeds the data holders is the argument `order`; the hyperparameters do not change. The second
component is the outcome of a call that is not interrupted. -/
noncomputable def GPModel.addDataWrites (gp : GPModel o) (s : GPObject o) (x y : Arr ℝ) (order : List Holder) :
    List (GPObject o → GPObject o) × Except PyErr Unit :=
  match vstack gp.xdim s.data.X x.rows with
  | .error e => ([], .error e)
  | .ok X =>
    let setX : GPObject o → GPObject o := fun t => { t with data := { t.data with X := X } }
    match vstack o s.data.Y y.rows with
    | .error e => ([setX], .error e)
    | .ok Y =>
      let setY : GPObject o → GPObject o := fun t => { t with data := { t.data with Y := Y } }
      match gp.computeCache X Y with
      | .error e => ([setX, setY], .error e)
      | .ok cache =>
        ([setX, setY,
          fun t => { t with data := { t.data with chol := ⟨cache.n, cache.chol⟩ } },
          fun t => { t with data := { t.data with alpha := ⟨cache.n, cache.alpha⟩ } }] ++
          order.map fun h t => t.feedHolder h, .ok ())

/-- A call of `add_data_point` that is stopped after `k` assignments (safe_learning/functions.py:525-546). -/
noncomputable def GPModel.interruptedAdd (gp : GPModel o) (s : GPObject o) (x y : Arr ℝ) (order : List Holder) (k : ℕ) : GPObject o :=
  afterWrites (gp.addDataWrites s x y order).1 k s

/-- A complete call of `add_data_point` (safe_learning/functions.py:525-546). -/
noncomputable def GPModel.addToObject (gp : GPModel o) (s : GPObject o) (x y : Arr ℝ) (order : List Holder) :
    GPObject o × Except PyErr Unit :=
  ((gp.addDataWrites s x y order).1.foldl (fun t w => w t) s, (gp.addDataWrites s x y order).2)

/-- A call of `add_data_point` with the number of assignments that are executed; a complete call if this number is large enough (safe_learning/functions.py:525-546). -/
structure StoppedAdd where
  x : Arr ℝ
  y : Arr ℝ
  order : List Holder
  steps : ℕ

/-- A history of complete and stopped calls of `add_data_point` (safe_learning/functions.py:525-546). -/
noncomputable def GPModel.runStopped (gp : GPModel o) (t : GPObject o) (calls : List StoppedAdd) : GPObject o :=
  calls.foldl (fun t c => gp.interruptedAdd t c.x c.y c.order c.steps) t

/-! ## Stacks of Gaussian processes -/

/-- A Gaussian process in a `FunctionStack`: the model, its confidence factor and the object (safe_learning/functions.py:264-269, 480-495). -/
structure StackItem where
  model : GPModel 1
  beta : ℝ
  object : GPObject 1

/-- The evaluation of one component of a stack (safe_learning/functions.py:284, 507-515). -/
noncomputable def StackItem.evaluateRows (f : StackItem) : UncertainEval := fun points => do
  let (mean, error) ← f.model.evaluateObject f.beta f.object points
  return (List.ofFn fun i => List.ofFn (mean i), List.ofFn fun i => List.ofFn (error i))

/-- An assignment to the first function of a stack (safe_learning/functions.py:306-307). -/
def onFirst (w : GPObject 1 → GPObject 1) : List StackItem → List StackItem
  | [] => []
  | f :: fs => { f with object := w f.object } :: fs

/-- An assignment to the remaining functions of a stack (safe_learning/functions.py:306-307). -/
def onRest (w : List StackItem → List StackItem) : List StackItem → List StackItem
  | [] => []
  | f :: fs => f :: w fs

/-- All assignments of the loop of `FunctionStack.add_data_point`, in order, and the outcome of a loop that is not interrupted (safe_learning/functions.py:306-307). The loop
ends at the first function that raises. -/
noncomputable def stackAddWritesLoop (x : Arr ℝ) (order : List Holder) :
    List StackItem → List (Arr ℝ) → List (List StackItem → List StackItem) × Except PyErr Unit
  | [], _ => ([], .ok ())
  | _ :: _, [] => ([], .ok ())
  | f :: fs, yi :: ys =>
    match f.model.addDataWrites f.object x yi order with
    | (ws, .error e) => (ws.map onFirst, .error e)
    | (ws, .ok ()) => (ws.map onFirst ++ (stackAddWritesLoop x order fs ys).1.map onRest, (stackAddWritesLoop x order fs ys).2)

/-- All assignments of `FunctionStack.add_data_point(x, y)`, and the outcome of a call that is not interrupted (safe_learning/functions.py:293-307). -/
noncomputable def stackAddWrites (fs : List StackItem) (x : Arr ℝ) (y : List (List ℝ)) (order : List Holder) :
    List (List StackItem → List StackItem) × Except PyErr Unit :=
  match squeezeItems y with
  | .error e => ([], .error e)
  | .ok items => stackAddWritesLoop x order fs items

/-- A call of `FunctionStack.add_data_point` that is stopped after `k` assignments (safe_learning/functions.py:293-307). -/
noncomputable def interruptedStackAdd (fs : List StackItem) (x : Arr ℝ) (y : List (List ℝ)) (order : List Holder) (k : ℕ) : List StackItem :=
  afterWrites (stackAddWrites fs x y order).1 k fs

/-- A complete call of `FunctionStack.add_data_point` (safe_learning/functions.py:293-307). -/
noncomputable def addToStack (fs : List StackItem) (x : Arr ℝ) (y : List (List ℝ)) (order : List Holder) : List StackItem × Except PyErr Unit :=
  ((stackAddWrites fs x y order).1.foldl (fun t w => w t) fs, (stackAddWrites fs x y order).2)

/-- A call of `FunctionStack.add_data_point` with one point and one measurement for each function, and the number of assignments that are executed (safe_learning/functions.py:293-307). -/
structure StoppedStackAdd where
  x : List ℝ
  y : List ℝ
  order : List Holder
  steps : ℕ

/-- A history of complete and stopped calls of `FunctionStack.add_data_point` (safe_learning/functions.py:293-307). -/
noncomputable def runStoppedStack (fs : List StackItem) (calls : List StoppedStackAdd) : List StackItem :=
  calls.foldl (fun fs c => interruptedStackAdd fs (.matrix [c.x]) [c.y] c.order c.steps) fs

end SafeLearning
