import Verif.Model.Numeric
import Verif.Model.Batchify
import Verif.Model.Grid
set_option autoImplicit false

/-!
# Model of `Lyapunov.update_safe_set` and the state of a `Lyapunov` object
(safe_learning/lyapunov.py:177-606)

Grid states are the indices `Fin n` (`n = nindex`). What the TensorFlow graph computes for a grid
state is a parameter: `World.decrease` and `World.threshold` are the denotations of
`v_decrease_bound(x, dynamics(x, policy(x)))` and `threshold(x, tau)`; they are modelled in
`Verif.Model.Decrease`.  The graph captures the Python objects (policy, tau, ...) which are
attributes at the time the graph is built; the values of TensorFlow variables and placeholders
(`Θ`: network weights, GP data) are read at each call.
-/

namespace SafeLearning

variable {K : Type} [Field K] [LinearOrder K] [IsStrictOrderedRing K]

/-- The functions the `Lyapunov` object is built from (safe_learning/lyapunov.py:177-225). `Prog` stands for the Python objects
`policy` and `dynamics` captured by the graph; `Θ` for the current values of
variables. Simplification: the Python objects `lyapunov_function` and the Lipschitz constants are
fixed for the lifetime of the object (the variables they read are not). -/
structure World (K Prog Θ : Type) (n : ℕ) where
  /-- `v_decrease_bound(x, dynamics(x, policy(x)))` at grid state `x`
  (safe_learning/lyapunov.py:436-439) -/
  decrease : Prog → Θ → Fin n → K
  /-- `threshold(x, tau)` (safe_learning/lyapunov.py:265-288, 440, 474-475) -/
  threshold : Θ → Fin n → K → K
  /-- `lyapunov_function(x)` (safe_learning/lyapunov.py:305-322) -/
  lyapunov : Θ → Fin n → K
  /-- the value of the tensor `self.tau / n_req` (safe_learning/lyapunov.py:475). With `n_req` an int32
  tensor TensorFlow 1 converts `tau` to int32: a `TypeError` for a Python float, truncation for a
  numpy scalar; the parameter leaves this open. -/
  tauDiv : K → ℕ → K
  /-- `np.argsort` (safe_learning/lyapunov.py:512), with unspecified order of ties -/
  argsort : (Fin n → K) → List (Fin n)

/-- Contract of `np.argsort` (safe_learning/lyapunov.py:512): a permutation of all indices, sorted by value. -/
structure World.SortContract {Prog Θ : Type} {n : ℕ} (W : World K Prog Θ n) : Prop where
  nodup : ∀ v, (W.argsort v).Nodup
  complete : ∀ v i, i ∈ W.argsort v
  sorted : ∀ v, (W.argsort v).Pairwise fun i j => v i ≤ v j

/-- What the graph stored by `set_storage` on line 489 has captured
(safe_learning/lyapunov.py:431-489). -/
structure Graph (K Prog : Type) where
  prog : Prog
  tau : K
  safetyFactor : K
  adaptive : Bool

/-- The attributes of a `Lyapunov` object (safe_learning/lyapunov.py:177-225). -/
structure Lyap (K Prog : Type) (n : ℕ) where
  prog : Prog
  tau : K
  adaptive : Bool
  /-- `initial_safe_set`, as a boolean array or `None` -/
  initial : Option (Fin n → Bool)
  safeSet : Fin n → Bool
  /-- `_refinement` -/
  refinement : Fin n → ℕ
  /-- `values` -/
  values : Fin n → K
  /-- the value fed for `c_max` -/
  cMax : K
  /-- the storage of `update_safe_set` -/
  graph : Option (Graph K Prog)

namespace Lyap

variable {Prog Θ : Type} {n : ℕ}

/-- `initial_safe_set` as a set; `None` is the empty set
(safe_learning/lyapunov.py:190-192, 504-506, 604-606). -/
def initialMem (s : Lyap K Prog n) (j : Fin n) : Bool :=
  match s.initial with
  | none => false
  | some I => I j

/-- `Lyapunov.__init__` (safe_learning/lyapunov.py:177-225). -/
def new (W : World K Prog Θ n) (prog : Prog) (tau : K) (initial : Option (Fin n → Bool))
    (adaptive : Bool) (θ : Θ) : Lyap K Prog n where
  prog := prog
  tau := tau
  adaptive := adaptive
  initial := initial
  safeSet := fun j => match initial with
    | none => false
    | some I => I j
  refinement := fun j => match initial with
    | none => 0
    | some I => if I j then 1 else 0
  values := W.lyapunov θ
  cMax := 0
  graph := none

/-- `update_values` (safe_learning/lyapunov.py:305-322). -/
def updateValues (W : World K Prog Θ n) (s : Lyap K Prog n) (θ : Θ) : Lyap K Prog n :=
  { s with values := W.lyapunov θ }

/-- One row of the three arrays `value_order`, `safe_set`, `refinement` in value order
(safe_learning/lyapunov.py:512-519). -/
structure Row (n : ℕ) where
  idx : Fin n
  safe : Bool
  refine : ℕ

/-- `np.argmin` of a boolean array: the first `False`, or `0` if there is none
(safe_learning/lyapunov.py:533-535). -/
def argminBool (l : List Bool) : ℕ :=
  match l.findIdx? (fun b => !b) with
  | none => 0
  | some i => i

/-- `tf_n_req` (safe_learning/lyapunov.py:446-454): `ceil(max(safety_factor*threshold/decrease, 0))`
where `nan` (`0/0`) becomes `0`. Simplification: for `decrease = 0` and `threshold ≠ 0` the
quotient is `-inf` (the threshold is negative), which is clipped to `0` as well. -/
def nReq [FloorRing K] (W : World K Prog Θ n) (G : Graph K Prog) (θ : Θ) (x : Fin n) : ℕ :=
  let decrease := W.decrease G.prog θ x
  if decrease = 0 then 0
  else ⌈max (G.safetyFactor * W.threshold θ x G.tau / decrease) 0⌉₊

/-- `tf_negative` (safe_learning/lyapunov.py:439-441). -/
def negative (W : World K Prog Θ n) (G : Graph K Prog) (θ : Θ) (x : Fin n) : Bool :=
  decide (W.decrease G.prog θ x < W.threshold θ x G.tau)

/-- `refined_safety_check` for one state (safe_learning/lyapunov.py:459-478). The points of the
refined cell are computed by the code but not used; `decrease` is the tensor of *all* states fed
(`fed`), and `threshold` is evaluated at the cell centre with `tau / n_req`. -/
def refinedNegative (W : World K Prog Θ n) (G : Graph K Prog) (θ : Θ) (fed : List (Fin n))
    (center : Fin n) (nreq : ℕ) : Bool :=
  fed.all fun y => decide (W.decrease G.prog θ y <
    W.threshold θ center (W.tauDiv G.tau nreq))

/-- Outcome of one iteration of the batch loop: the modified rows, `bound`, `refine_bound` and
whether `break` was executed (safe_learning/lyapunov.py:524-587). -/
structure BatchResult (n : ℕ) where
  rows : List (Row n)
  bound : ℕ
  refineBound : ℕ
  brk : Bool

/-- Set `safe_batch[b:] = False; refine_batch[b:] = 0`
(safe_learning/lyapunov.py:580-581, 585-586). -/
def clearFrom (b : ℕ) (rows : List (Row n)) : List (Row n) :=
  rows.mapIdx fun k r => if b ≤ k then { r with safe := false, refine := 0 } else r

/-- The adaptive part of an iteration (safe_learning/lyapunov.py:541-582). `self.initial_safe_set
[indices]` on line 548 raises `TypeError` if there is no initial set. -/
def adaptiveBatch [FloorRing K] (W : World K Prog Θ n) (G : Graph K Prog) (s : Lyap K Prog n)
    (θ : Θ) (maxRef : ℕ) (bound : ℕ) (rows : List (Row n)) : Except PyErr (BatchResult n) :=
  match s.initial with
  | none => .error .typeError
  | some I =>
    -- lines 542-549
    let rows := rows.mapIdx fun k r =>
      let r := if bound ≤ k then { r with refine := nReq W G θ r.idx } else r
      if negative W G θ r.idx || I r.idx then { r with refine := 1 } else r
    -- lines 551-560
    let check := (rows.drop bound).map fun r => decide (1 ≤ r.refine ∧ r.refine ≤ maxRef)
    let stop := if check.all id then check.length else argminBool check
    -- lines 562-575
    let fed := (rows.drop bound).take stop
    let refinedSafe := fed.map fun r =>
      refinedNegative W G θ (fed.map (·.idx)) r.idx r.refine
    let refineBound :=
      if 0 < stop then
        if refinedSafe.all id then refinedSafe.length else argminBool refinedSafe
      else 0
    let rows := rows.mapIdx fun k r =>
      if bound ≤ k ∧ k < bound + refineBound then { r with safe := true } else r
    -- lines 577-582
    if stop < check.length ∨ refineBound < stop then
      .ok ⟨clearFrom (bound + refineBound) rows, bound, refineBound, true⟩
    else .ok ⟨rows, bound, refineBound, false⟩

/-- One iteration of the loop over batches (safe_learning/lyapunov.py:524-587). -/
def batchStep [FloorRing K] (W : World K Prog Θ n) (G : Graph K Prog) (s : Lyap K Prog n) (θ : Θ)
    (maxRef : ℕ) (rows : List (Row n)) : Except PyErr (BatchResult n) :=
  -- lines 528-531: `safe_batch |= negative; refine_batch[negative] = 1`
  let rows := rows.map fun r =>
    if negative W G θ r.idx then { r with safe := true, refine := 1 } else r
  -- lines 533-536
  let bound := argminBool (rows.map (·.safe))
  -- line 539: `bound > 0 or not safe_batch[0]`
  if 0 < bound ∨ (rows.map (·.safe)).head? = some false then
    if s.adaptive ∧ 1 < maxRef then adaptiveBatch W G s θ maxRef bound rows
    else .ok ⟨clearFrom bound rows, bound, 0, true⟩
  else .ok ⟨rows, bound, 0, false⟩

/-- The loop over batches (safe_learning/lyapunov.py:524-587). `acc` are the rows of the batches
already processed, `last` the last values of `i`, `bound`, `refine_bound` (unbound before the first
iteration). After `break` the rows of later batches are left as they are. -/
def batchLoop [FloorRing K] (W : World K Prog Θ n) (G : Graph K Prog) (s : Lyap K Prog n) (θ : Θ)
    (maxRef : ℕ) (acc : List (Row n)) (last : Option (ℕ × ℕ × ℕ)) :
    List (ℕ × List (Row n)) → Except PyErr (List (Row n) × Option (ℕ × ℕ × ℕ))
  | [] => .ok (acc, last)
  | (i, rows) :: rest =>
    match batchStep W G s θ maxRef rows with
    | .error e => .error e
    | .ok res =>
      if res.brk then
        .ok (acc ++ res.rows ++ rest.flatMap (·.2), some (i, res.bound, res.refineBound))
      else batchLoop W G s θ maxRef (acc ++ res.rows) (some (i, res.bound, res.refineBound)) rest

/-- Indexing a list with a Python index, negative indices count from the end
(`value_order[max_index]`, safe_learning/lyapunov.py:595). -/
def pyGet? {α : Type*} (l : List α) (k : ℤ) : Option α :=
  if 0 ≤ k then l[k.toNat]? else if 0 ≤ l.length + k then l[(l.length + k).toNat]? else none

/-- The arguments of `update_safe_set` (safe_learning/lyapunov.py:407-409);
`parallel_iterations` has no effect on the result. -/
structure UpdateArgs (K : Type) where
  canShrink : Bool := true
  maxRefinement : ℕ := 1
  safetyFactor : K

/-- The starting safe set and refinement in value order (safe_learning/lyapunov.py:500-514). -/
def startRows (W : World K Prog Θ n) (s : Lyap K Prog n) (canShrink : Bool) : List (Row n) :=
  (W.argsort s.values).map fun j =>
    if canShrink then ⟨j, s.initialMem j, if s.initialMem j then 1 else 0⟩
    else ⟨j, s.safeSet j, s.refinement j⟩

/-- From the rows after the loop to the new attributes (safe_learning/lyapunov.py:589-606). -/
def finish (W : World K Prog Θ n) (s : Lyap K Prog n) (rows : List (Row n))
    (last : Option (ℕ × ℕ × ℕ)) : Except PyErr (Lyap K Prog n) :=
  match last with
  | none => .error .unboundLocal
  | some (i, bound, refineBound) =>
    let maxIndex : ℤ := (i : ℤ) + bound + refineBound - 1
    match pyGet? (W.argsort s.values) maxIndex with
    | none => .error .indexError
    | some top =>
      let safeNodes := (rows.filter (·.safe)).map (·.idx)
      .ok { s with
        cMax := s.values top
        safeSet := fun j => decide (j ∈ safeNodes) || s.initialMem j
        refinement := fun j =>
          if s.initialMem j then 1
          else match rows.find? (fun r => decide (r.idx = j)) with
            | none => s.refinement j
            | some r => r.refine }

/-- The graph used by a call: the stored one, or a new one that captures the current attributes and
the `safety_factor` argument (safe_learning/lyapunov.py:428-495). -/
def graphFor (s : Lyap K Prog n) (safetyFactor : K) : Graph K Prog :=
  match s.graph with
  | some G => G
  | none => ⟨s.prog, s.tau, max safetyFactor 1, s.adaptive⟩

/-- `update_safe_set` (safe_learning/lyapunov.py:407-606) with `config.gp_batch_size = batch`.
Returns the object after the call, also if an exception is raised: the graph is stored before the
verification starts, everything else is assigned at the end. -/
def updateSafeSet [FloorRing K] (W : World K Prog Θ n) (batch : ℕ) (args : UpdateArgs K)
    (s : Lyap K Prog n) (θ : Θ) : Lyap K Prog n × Except PyErr Unit :=
  let G := s.graphFor args.safetyFactor
  let s := { s with graph := some G }
  -- lines 490-495: unpacking the stored tuple fails if `adaptive` was changed
  if G.adaptive ≠ s.adaptive then (s, .error .valueError)
  else
    match batchLoop W G s θ args.maxRefinement [] none
        (batchify (s.startRows W args.canShrink) batch) with
    | .error e => (s, .error e)
    | .ok (rows, last) =>
      match s.finish W rows last with
      | .error e => (s, .error e)
      | .ok s' => (s', .ok ())

/-- `is_safe` for one state (safe_learning/lyapunov.py:290-303): `safe_set[state_to_index(state)]`,
with numpy's bounds check. -/
def isSafe [FloorRing K] {d : ℕ} (g : GridWorld K d) (s : Lyap K Prog n) (x : List K) :
    Except PyErr Bool := do
  let k ← g.stateToIndex x
  if h : k < n then .ok (s.safeSet ⟨k, h⟩) else .error .indexError

/-- The public operations on a `Lyapunov` object that change its state: the two methods and
assignments to the public attributes (safe_learning/lyapunov.py:183-218, 305, 407). -/
inductive Op (K Prog Θ : Type) where
  | update (batch : ℕ) (args : UpdateArgs K) (θ : Θ)
  | updateValues (θ : Θ)
  | setProg (p : Prog)
  | setTau (t : K)
  | setAdaptive (b : Bool)

/-- One operation; an exception leaves the object as `updateSafeSet` left it
(safe_learning/lyapunov.py:305, 407). -/
def step [FloorRing K] (W : World K Prog Θ n) (s : Lyap K Prog n) : Op K Prog Θ → Lyap K Prog n
  | .update batch args θ => (updateSafeSet W batch args s θ).1
  | .updateValues θ => updateValues W s θ
  | .setProg p => { s with prog := p }
  | .setTau t => { s with tau := t }
  | .setAdaptive b => { s with adaptive := b }

/-- A history of operations (safe_learning/lyapunov.py:305, 407). -/
def run [FloorRing K] (W : World K Prog Θ n) (s : Lyap K Prog n) (ops : List (Op K Prog Θ)) :
    Lyap K Prog n := ops.foldl (step W) s

end Lyap

end SafeLearning
