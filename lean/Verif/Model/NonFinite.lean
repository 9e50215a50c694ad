import Verif.Model.Decrease
import Verif.Model.SafeSample
set_option autoImplicit false

/-!
# Model of the safe set computation with floating point values that may be infinite or NaN
(safe_learning/lyapunov.py:227-376, 407-606)

The other models compute with exact numbers. Here a number is a floating point number: a finite
number, an infinity or NaN. Finite results are rounded by a function `rnd` that may overflow.
-/

namespace SafeLearning

/-- A floating point value, `config.dtype` (safe_learning/configuration.py:15-16;
safe_learning/lyapunov.py:433). Simplification: the sign of zero is not represented. -/
inductive Flt (K : Type) where
  | nan
  | ninf
  | fin (x : K)
  | pinf
deriving DecidableEq

namespace Flt

variable {K : Type} [Field K] [LinearOrder K]

/-- What the hardware decides (safe_learning/lyapunov.py:288, 346-351, 376, 446): rounding of finite
results, the quotient of a nonzero number by zero (which depends on the sign of that zero) and the
conversion of `n_req` to an integer. Simplification: negative integers are represented by `0`; both
fail the test on lines 551-553. -/
structure Arith (K : Type) where
  rnd : K → Flt K
  divZero : Flt K → Flt K
  toInt : Flt K → ℕ

variable (A : Arith K)

/-- `-a` (safe_learning/lyapunov.py:288, 350-351). -/
def neg : Flt K → Flt K
  | nan => nan
  | ninf => pinf
  | fin x => fin (-x)
  | pinf => ninf

/-- `a + b` (safe_learning/lyapunov.py:288, 376). -/
def add : Flt K → Flt K → Flt K
  | nan, _ => nan
  | _, nan => nan
  | fin x, fin y => A.rnd (x + y)
  | pinf, ninf => nan
  | ninf, pinf => nan
  | pinf, _ => pinf
  | _, pinf => pinf
  | ninf, _ => ninf
  | _, ninf => ninf

/-- `a - b` (safe_learning/lyapunov.py:350-351). -/
def sub (a b : Flt K) : Flt K := add A a (neg b)

/-- A finite number times `+inf` (safe_learning/lyapunov.py:288, 346). -/
def timesInf (x : K) : Flt K := if x = 0 then nan else if 0 < x then pinf else ninf

/-- `a * b` (safe_learning/lyapunov.py:288, 346). -/
def mul : Flt K → Flt K → Flt K
  | nan, _ => nan
  | _, nan => nan
  | fin x, fin y => A.rnd (x * y)
  | fin x, pinf => timesInf x
  | fin x, ninf => timesInf (-x)
  | pinf, fin x => timesInf x
  | ninf, fin x => timesInf (-x)
  | pinf, pinf => pinf
  | ninf, ninf => pinf
  | pinf, ninf => ninf
  | ninf, pinf => ninf

/-- `a / b` (safe_learning/lyapunov.py:446). -/
def div : Flt K → Flt K → Flt K
  | nan, _ => nan
  | _, nan => nan
  | fin x, fin y => if y = 0 then (if x = 0 then nan else A.divZero (fin x)) else A.rnd (x / y)
  | fin _, _ => fin 0
  | pinf, fin y => if y = 0 then A.divZero pinf else if 0 < y then pinf else ninf
  | ninf, fin y => if y = 0 then A.divZero ninf else if 0 < y then ninf else pinf
  | _, _ => nan

/-- `tf.abs` (safe_learning/lyapunov.py:286, inside `tf.norm`). -/
def abs : Flt K → Flt K
  | nan => nan
  | ninf => pinf
  | fin x => fin |x|
  | pinf => pinf

/-- `tf.less` (safe_learning/lyapunov.py:441, 476): false if an argument is NaN. -/
def lt : Flt K → Flt K → Bool
  | nan, _ => false
  | _, nan => false
  | fin x, fin y => decide (x < y)
  | ninf, ninf => false
  | ninf, _ => true
  | _, ninf => false
  | pinf, _ => false
  | _, pinf => true

/-- `tf.reduce_sum` of a row (safe_learning/lyapunov.py:286, 346). Simplification: from left to
right. -/
def sum (l : List (Flt K)) : Flt K := l.foldl (add A) (fin 0)

/-- `tf.ceil` (safe_learning/lyapunov.py:454). -/
def ceil [FloorRing K] : Flt K → Flt K
  | fin x => fin (⌈x⌉ : K)
  | a => a

end Flt

namespace FltLyap

open Flt

variable {K : Type} [Field K] [LinearOrder K] {Prog Θ : Type} {d n : ℕ} (A : Arith K)

/-- `lipschitz_dynamics(states)` for one state (safe_learning/lyapunov.py:227-243). -/
def lipDyn (l : LipDyn (Flt K) d) (x : Fin d → Flt K) : Flt K :=
  match l with
  | .const c => c
  | .scalar f => f x

/-- The entries of `lipschitz_lyapunov(states)` (safe_learning/lyapunov.py:245-263, 345). -/
def lipEntry (l : LipArg (Flt K) d) (x : Fin d → Flt K) (i : Fin d) : Flt K :=
  match l with
  | .const c => c
  | .scalar f => f x
  | .vector f => f x i

/-- The number `lv` of `threshold` (safe_learning/lyapunov.py:284-286). -/
def lipNorm (l : LipArg (Flt K) d) (x : Fin d → Flt K) : Flt K :=
  match l with
  | .const c => c
  | .scalar f => f x
  | .vector f =>
    if 1 < d then sum A (List.ofFn fun i => Flt.abs (f x i))
    else if h : 0 < d then f x ⟨0, h⟩ else fin 0

/-- `threshold(state, tau)` (safe_learning/lyapunov.py:265-288). -/
def threshold (lv : LipArg (Flt K) d) (lf : LipDyn (Flt K) d) (x : Fin d → Flt K)
    (tau : Flt K) : Flt K :=
  mul A (mul A (neg (lipNorm A lv x)) (add A (fin 1) (lipDyn lf x))) tau

/-- `v_decrease_bound` for one state (safe_learning/lyapunov.py:324-376). -/
def decrease (V : (Fin d → Flt K) → Flt K) (lv : LipArg (Flt K) d) (x : Fin d → Flt K) :
    Prediction (Flt K) d → Flt K
  | .exact next => add A (sub A (V next) (V x)) (fin 0)
  | .uncertain mean error =>
    add A (sub A (V mean) (V x)) (sum A (List.ofFn fun i => mul A (lipEntry lv mean i) (error i)))

/-- The objects the `Lyapunov` instance is built from, in floating point numbers
(safe_learning/lyapunov.py:177-225): the states of the grid, the functions of the constructor, the
tensor `self.tau / n_req` and `np.argsort`. -/
structure FWorld (K Prog Θ : Type) (d n : ℕ) where
  state : Fin n → Fin d → Flt K
  V : Θ → (Fin d → Flt K) → Flt K
  lv : Θ → LipArg (Flt K) d
  lf : Θ → LipDyn (Flt K) d
  closedLoop : Prog → Θ → (Fin d → Flt K) → Prediction (Flt K) d
  tauDiv : Flt K → ℕ → Flt K
  argsort : (Fin n → Flt K) → List (Fin n)

variable (W : FWorld K Prog Θ d n)

/-- The tensor `decrease` at a grid state (safe_learning/lyapunov.py:436-439). -/
def decreaseAt (p : Prog) (θ : Θ) (k : Fin n) : Flt K :=
  decrease A (W.V θ) (W.lv θ) (W.state k) (W.closedLoop p θ (W.state k))

/-- The tensor `threshold` at a grid state (safe_learning/lyapunov.py:440, 474-475). -/
def thresholdOf (θ : Θ) (k : Fin n) (tau : Flt K) : Flt K :=
  threshold A (W.lv θ) (W.lf θ) (W.state k) tau

/-- `tf_negative` (safe_learning/lyapunov.py:439-441). -/
def negative (G : Graph (Flt K) Prog) (θ : Θ) (k : Fin n) : Bool :=
  lt (decreaseAt A W G.prog θ k) (thresholdOf A W θ k G.tau)

/-- `tf_n_req`, stored in an integer array (safe_learning/lyapunov.py:446-454, 543). -/
def nReq [FloorRing K] (G : Graph (Flt K) Prog) (θ : Θ) (k : Fin n) : ℕ :=
  let ratio := div A (mul A G.safetyFactor (thresholdOf A W θ k G.tau)) (decreaseAt A W G.prog θ k)
  let r := match ratio with
    | nan => fin 0
    | r => r
  A.toInt (ceil (if lt r (fin 0) then fin 0 else r))

/-- `refined_safety_check` (safe_learning/lyapunov.py:459-478). -/
def refinedNegative (G : Graph (Flt K) Prog) (θ : Θ) (fed : List (Fin n)) (center : Fin n)
    (nreq : ℕ) : Bool :=
  fed.all fun y => lt (decreaseAt A W G.prog θ y) (thresholdOf A W θ center (W.tauDiv G.tau nreq))

/-- The three tensors that the loop evaluates (safe_learning/lyapunov.py:441-487). -/
structure Checks (n : ℕ) where
  negative : Fin n → Bool
  nReq : Fin n → ℕ
  refined : List (Fin n) → Fin n → ℕ → Bool

/-- The tensors of a call (safe_learning/lyapunov.py:441-487). -/
def checks [FloorRing K] (G : Graph (Flt K) Prog) (θ : Θ) : Checks n where
  negative := negative A W G θ
  nReq := nReq A W G θ
  refined := refinedNegative A W G θ

open Lyap in
/-- The adaptive part of an iteration (safe_learning/lyapunov.py:541-582). -/
def adaptiveStep (C : Checks n) (initial : Option (Fin n → Bool)) (maxRef : ℕ) (bound : ℕ)
    (rows : List (Row n)) : Except PyErr (BatchResult n) :=
  match initial with
  | none => .error .typeError
  | some I =>
    let rows := rows.mapIdx fun k r =>
      let r := if bound ≤ k then { r with refine := C.nReq r.idx } else r
      if C.negative r.idx || I r.idx then { r with refine := 1 } else r
    let check := (rows.drop bound).map fun r => decide (1 ≤ r.refine ∧ r.refine ≤ maxRef)
    let stop := if check.all id then check.length else argminBool check
    let fed := (rows.drop bound).take stop
    let refinedSafe := fed.map fun r => C.refined (fed.map (·.idx)) r.idx r.refine
    let refineBound :=
      if 0 < stop then
        if refinedSafe.all id then refinedSafe.length else argminBool refinedSafe
      else 0
    let rows := rows.mapIdx fun k r =>
      if bound ≤ k ∧ k < bound + refineBound then { r with safe := true } else r
    if stop < check.length ∨ refineBound < stop then
      .ok ⟨clearFrom (bound + refineBound) rows, bound, refineBound, true⟩
    else .ok ⟨rows, bound, refineBound, false⟩

open Lyap in
/-- One iteration of the loop over batches (safe_learning/lyapunov.py:524-587). -/
def loopStep (C : Checks n) (adaptive : Bool) (initial : Option (Fin n → Bool)) (maxRef : ℕ)
    (rows : List (Row n)) : Except PyErr (BatchResult n) :=
  let rows := rows.map fun r =>
    if C.negative r.idx then { r with safe := true, refine := 1 } else r
  let bound := argminBool (rows.map (·.safe))
  if 0 < bound ∨ (rows.map (·.safe)).head? = some false then
    if adaptive ∧ 1 < maxRef then adaptiveStep C initial maxRef bound rows
    else .ok ⟨clearFrom bound rows, bound, 0, true⟩
  else .ok ⟨rows, bound, 0, false⟩

open Lyap in
/-- The loop over batches (safe_learning/lyapunov.py:524-587). -/
def loop (C : Checks n) (adaptive : Bool) (initial : Option (Fin n → Bool)) (maxRef : ℕ)
    (acc : List (Row n)) (last : Option (ℕ × ℕ × ℕ)) :
    List (ℕ × List (Row n)) → Except PyErr (List (Row n) × Option (ℕ × ℕ × ℕ))
  | [] => .ok (acc, last)
  | (i, rows) :: rest =>
    match loopStep C adaptive initial maxRef rows with
    | .error e => .error e
    | .ok res =>
      if res.brk then
        .ok (acc ++ res.rows ++ rest.flatMap (·.2), some (i, res.bound, res.refineBound))
      else loop C adaptive initial maxRef (acc ++ res.rows)
        (some (i, res.bound, res.refineBound)) rest

/-- `initial_safe_set` as a set (safe_learning/lyapunov.py:190-192, 504-506, 604-606). -/
def initialMem (s : Lyap (Flt K) Prog n) (j : Fin n) : Bool :=
  match s.initial with
  | none => false
  | some I => I j

/-- `Lyapunov.__init__` (safe_learning/lyapunov.py:177-225). -/
def new (prog : Prog) (tau : Flt K) (initial : Option (Fin n → Bool)) (adaptive : Bool) (θ : Θ) :
    Lyap (Flt K) Prog n where
  prog := prog
  tau := tau
  adaptive := adaptive
  initial := initial
  safeSet := fun j => match initial with
    | none => false
    | some I => I j
  refinement := fun j => match initial with
    | none => 0
    | some I => if I j then 1 else 0
  values := fun k => W.V θ (W.state k)
  cMax := fin 0
  graph := none

/-- The graph used by a call (safe_learning/lyapunov.py:428-495); `np.maximum(safety_factor, 1.)`
propagates NaN. -/
def graphFor (s : Lyap (Flt K) Prog n) (safetyFactor : Flt K) : Graph (Flt K) Prog :=
  match s.graph with
  | some G => G
  | none => ⟨s.prog, s.tau, if lt safetyFactor (fin 1) then fin 1 else safetyFactor, s.adaptive⟩

/-- The starting arrays in value order (safe_learning/lyapunov.py:500-514). -/
def startRows (s : Lyap (Flt K) Prog n) (canShrink : Bool) : List (Lyap.Row n) :=
  (W.argsort s.values).map fun j =>
    if canShrink then ⟨j, initialMem s j, if initialMem s j then 1 else 0⟩
    else ⟨j, s.safeSet j, s.refinement j⟩

/-- The end of `update_safe_set` (safe_learning/lyapunov.py:589-606). -/
def finish (s : Lyap (Flt K) Prog n) (rows : List (Lyap.Row n)) (last : Option (ℕ × ℕ × ℕ)) :
    Except PyErr (Lyap (Flt K) Prog n) :=
  match last with
  | none => .error .unboundLocal
  | some (i, bound, refineBound) =>
    let maxIndex : ℤ := (i : ℤ) + bound + refineBound - 1
    match Lyap.pyGet? (W.argsort s.values) maxIndex with
    | none => .error .indexError
    | some top =>
      let safeNodes := (rows.filter (·.safe)).map (·.idx)
      .ok { s with
        cMax := s.values top
        safeSet := fun j => decide (j ∈ safeNodes) || initialMem s j
        refinement := fun j =>
          if initialMem s j then 1
          else match rows.find? (fun r => decide (r.idx = j)) with
            | none => s.refinement j
            | some r => r.refine }

/-- `update_safe_set` (safe_learning/lyapunov.py:407-606) with `config.gp_batch_size = batch`. -/
def updateSafeSet [FloorRing K] (batch : ℕ) (args : Lyap.UpdateArgs (Flt K))
    (s : Lyap (Flt K) Prog n) (θ : Θ) : Lyap (Flt K) Prog n × Except PyErr Unit :=
  let G := graphFor s args.safetyFactor
  let s := { s with graph := some G }
  if G.adaptive ≠ s.adaptive then (s, .error .valueError)
  else
    match loop (checks A W G θ) s.adaptive s.initial args.maxRefinement [] none
        (batchify (startRows W s args.canShrink) batch) with
    | .error e => (s, .error e)
    | .ok (rows, last) =>
      match finish W s rows last with
      | .error e => (s, .error e)
      | .ok s' => (s', .ok ())

/-- One operation on the object (safe_learning/lyapunov.py:305, 407). -/
def step [FloorRing K] (s : Lyap (Flt K) Prog n) : Lyap.Op (Flt K) Prog Θ → Lyap (Flt K) Prog n
  | .update batch args θ => (updateSafeSet A W batch args s θ).1
  | .updateValues θ => { s with values := fun k => W.V θ (W.state k) }
  | .setProg p => { s with prog := p }
  | .setTau t => { s with tau := t }
  | .setAdaptive b => { s with adaptive := b }

/-- A history of operations (safe_learning/lyapunov.py:305, 407). -/
def run [FloorRing K] (s : Lyap (Flt K) Prog n) (ops : List (Lyap.Op (Flt K) Prog Θ)) :
    Lyap (Flt K) Prog n := ops.foldl (step A W) s

/-! ## `get_safe_sample` -/

/-- What `get_safe_sample` evaluates for the candidate pairs (safe_learning/lyapunov.py:713-723,
770-776): mean and standard deviation of the next state, the Lyapunov function with its Lipschitz
constant, the level `c_max` and the lookup `safe_set[state_to_index(mean)]`, which may raise. -/
structure FSample (K : Type) (n m : ℕ) where
  dynamics : Pair (Flt K) n m → (Fin n → Flt K) × (Fin n → Flt K)
  lv : LipArg (Flt K) n
  V : (Fin n → Flt K) → Flt K
  cMax : Flt K
  inSafeSet : (Fin n → Flt K) → Except PyErr Bool

variable {m : ℕ} (S : FSample K n m)

/-- `tf_bound` (safe_learning/lyapunov.py:715). -/
def sampleBound (p : Pair (Flt K) n m) : Flt K := sum A (List.ofFn (S.dynamics p).2)

/-- `tf_maps_inside` (safe_learning/lyapunov.py:714-723). -/
def mapsInside (p : Pair (Flt K) n m) : Bool :=
  lt (add A (S.V (S.dynamics p).1)
    (sum A (List.ofFn fun i => mul A (lipEntry S.lv (S.dynamics p).1 i) ((S.dynamics p).2 i)))) S.cMax

/-- Lines 770-776 (safe_learning/lyapunov.py:770-776). -/
def accepted (positive : Bool) (p : Pair (Flt K) n m) : Except PyErr Bool := do
  if positive then return mapsInside A S p
  else
    let e ← S.inSafeSet (S.dynamics p).1
    return mapsInside A S p && e

/-- `np.argmax` (safe_learning/lyapunov.py:791, 795): the first NaN if there is one, otherwise the first
largest entry; `ValueError` if the array is empty. The accumulator is the next position, the best
position and its value. -/
def argmaxNaN : List (Flt K) → Except PyErr ℕ
  | [] => .error .valueError
  | a :: l => .ok ((l.foldl (fun (s : ℕ × ℕ × Flt K) b =>
      if s.2.2 ≠ nan ∧ (b = nan ∨ lt s.2.2 b = true) then (s.1 + 1, s.1, b)
      else (s.1 + 1, s.2.1, s.2.2)) (1, 0, a)).2.1)

/-- Select the row with the largest uncertainty (safe_learning/lyapunov.py:790-797). -/
def mostUncertain (backup : Bool) (l : List (Pair (Flt K) n m)) :
    Except PyErr (SampleSystem.Result (Flt K) n m) := do
  let k ← argmaxNaN (l.map (sampleBound A S))
  match l[k]? with
  | some p => return { backup := backup, pair := p, bound := sampleBound A S p }
  | none => .error .indexError

/-- The selection at the end of `get_safe_sample` (safe_learning/lyapunov.py:762-797) from the candidate
pairs; `backupPairs` are the pairs of the backup policy (lines 784-787). -/
def selectSample (positive : Bool) (pairs backupPairs : List (Pair (Flt K) n m)) :
    Except PyErr (SampleSystem.Result (Flt K) n m) := do
  let mask ← pairs.mapM fun p => accepted A S positive p
  let safe := ((pairs.zip mask).filter fun q => q.2).map fun q => q.1
  if safe.length = 0 then mostUncertain A S true backupPairs
  else mostUncertain A S false safe

end FltLyap

/-! ## Grids and triangulations -/

namespace FltGrid

open Flt

variable {K : Type} [Field K] [LinearOrder K] {d : ℕ} (A : Arith K) (g : GridWorld K d)

/-- `np.clip` (safe_learning/functions.py:749, 1191): NaN stays NaN. -/
def clip (x : Flt K) (lo hi : K) : Flt K :=
  match x with
  | nan => nan
  | ninf => fin (min lo hi)
  | fin x => fin (SafeLearning.clip x lo hi)
  | pinf => fin hi

/-- `np.rint(x).astype(np.int32)` (safe_learning/functions.py:751). NaN and infinities become the
smallest integer, as on x86. Simplification: finite numbers are in the range of the type. -/
def toInt32 [FloorRing K] : Flt K → ℤ
  | fin x => rint x
  | _ => -2 ^ 31

/-- Coordinate of the multi-index on lines 749-751 (safe_learning/functions.py:749-751). -/
def stateToIjk [FloorRing K] (x : Fin d → Flt K) (i : Fin d) : ℤ :=
  toInt32 (mul A (sub A (clip (x i) (g.lo i) (g.hi i)) (fin (g.lo i))) (fin (1 / g.unit i)))

/-- `state_to_index` for one state of the right dimension (safe_learning/functions.py:733-752). -/
def stateToIndex [FloorRing K] (x : Fin d → Flt K) : Except PyErr ℕ :=
  ravelMultiIndex g.num (stateToIjk A g x)

/-- `Lyapunov.is_safe` for one state (safe_learning/lyapunov.py:290-303). -/
def isSafe [FloorRing K] (safeSet : ℕ → Bool) (x : Fin d → Flt K) : Except PyErr Bool := do
  let k ← stateToIndex A g x
  return safeSet k

/-- `np.digitize` for increasing `bins` (safe_learning/functions.py:771): NaN sorts after all numbers. -/
def digitize (x : Flt K) (bins : List K) : ℕ :=
  match x with
  | nan => bins.length
  | ninf => 0
  | fin x => SafeLearning.digitize x bins
  | pinf => bins.length

/-- `state_to_rectangle` for one state (safe_learning/functions.py:754-776). -/
def stateToRectangle (x : Fin d → Flt K) : Except PyErr ℕ :=
  ravelMultiIndex g.numRect fun i =>
    SafeLearning.clip ((digitize (x i) (g.discretePoints i) : ℤ) - 1) 0 ((g.num i : ℤ) - 2)

/-- `_get_weights` for one point once its simplex is known (safe_learning/functions.py:1176-1202), with
the origin and the hyperplanes of the simplex. -/
def weights (project : Bool) (origin : Fin d → Flt K) (hyper : Fin d → Fin d → Flt K)
    (x : Fin d → Flt K) : List (Flt K) :=
  let x := if project then fun i => clip (x i) (g.lo i) (g.hi i) else x
  let w := List.ofFn fun k => sum A (List.ofFn fun i => mul A (sub A (x i) (origin i)) (hyper i k))
  sub A (fin 1) (sum A w) :: w

/-- `build_evaluation` for one point and one output once the simplex is known
(safe_learning/functions.py:1204-1227); `params` are the parameters at the corners. -/
def evaluate (project : Bool) (origin : Fin d → Flt K) (hyper : Fin d → Fin d → Flt K)
    (params : List (Flt K)) (x : Fin d → Flt K) : Flt K :=
  sum A (List.zipWith (mul A) (weights A g project origin hyper x) params)

end FltGrid

end SafeLearning
