import Verif.Model.Grid
import Mathlib.LinearAlgebra.Matrix.NonsingularInverse
import Mathlib.Analysis.SpecialFunctions.Trigonometric.Arctan
import Mathlib.Data.List.Basic
set_option autoImplicit false

/-!
# Model of `safe_learning/utilities.py` (except `batchify` and `unique_rows`)
-/

namespace SafeLearning

variable {K : Type} [Field K] [LinearOrder K] [IsStrictOrderedRing K]

/-! ## combinations -/

/-- The axes of `np.array(np.meshgrid(*arrays)).T` from the slowest to the fastest: `meshgrid` (with
the default `indexing='xy'`) swaps the first two axes and `.T` reverses all of them, so the order is
the last array, ..., the third, the first, the second (safe_learning/utilities.py:264). -/
def axisOrder {k : ℕ} (i : Fin (k + 2)) : Fin (k + 2) :=
  if h : i.1 < k then ⟨k + 1 - i.1, by omega⟩ else ⟨i.1 - k, by have := i.2; omega⟩

/-- The position of an array in the order of `axisOrder` (safe_learning/utilities.py:264). -/
def axisPos {k : ℕ} (j : Fin (k + 2)) : Fin (k + 2) :=
  if h : 2 ≤ j.1 then ⟨k + 1 - j.1, by omega⟩ else ⟨k + j.1, by omega⟩

/-- `combinations(arrays)` (safe_learning/utilities.py:252-264). With no arrays the `reshape` raises
`ValueError`. -/
def combinations {α : Type} : {d : ℕ} → (Fin d → List α) → Except PyErr (List (Fin d → α))
  | 0, _ => .error .valueError
  | 1, arrays => .ok (meshIJ arrays)
  | _ + 2, arrays => .ok ((meshIJ fun i => arrays (axisOrder i)).map fun r j => r (axisPos j))

/-- `linearly_spaced_combinations(bounds, num_samples)` (safe_learning/utilities.py:267-296). -/
def linearlySpacedCombinations {d : ℕ} (bounds : Fin d → K × K) (numSamples : NumPoints) :
    Except PyErr (List (Fin d → K)) := do
  let num ← numSamples.broadcast d
  if ∃ i, num i < 0 then .error .valueError
  else combinations fun i => linspace (bounds i).1 (bounds i).2 (num i).toNat

/-! ## storage -/

/-- The object stored under a method name: the `OrderedDict` of a call without index (`base`), and the
entries added under indices (safe_learning/utilities.py:465-472). A plain `{}` has no base. -/
structure StoreEntry (I V : Type) where
  base : Option V
  indexed : I → Option V

/-- The dictionary that is passed to `get_storage` and `set_storage`: for each method name its entry
(safe_learning/utilities.py:431-433, 461-463). -/
abbrev Store (I V : Type) := String → Option (StoreEntry I V)

/-- The result of `get_storage`: without index the whole entry, with index one stored value
(safe_learning/utilities.py:435-442). -/
inductive Stored (I V : Type) where
  | whole (e : StoreEntry I V)
  | item (v : V)

/-- `get_storage(dictionary, index)` called in the method `name` (safe_learning/utilities.py:411-442).
`none` is `None`. -/
def getStorage {I V : Type} (s : Store I V) (name : String) (index : Option I) :
    Option (Stored I V) :=
  match index with
  | none => (s name).map .whole
  | some i =>
    match s name with
    | none => none
    | some e => (e.indexed i).map .item

/-- `set_storage(dictionary, name_value, index)` called in the method `name`
(safe_learning/utilities.py:445-472). -/
def setStorage {I V : Type} [DecidableEq I] (s : Store I V) (name : String) (v : V)
    (index : Option I) : Store I V := fun m =>
  if m = name then
    match index with
    | none => some { base := some v, indexed := fun _ => none }
    | some i =>
      let e := (s name).getD { base := none, indexed := fun _ => none }
      some { e with indexed := fun j => if j = i then some v else e.indexed j }
  else s m

/-! ## feed dictionaries -/

/-- The attributes `feed_dict_sl` of the graphs (references to dictionaries), the number of
dictionaries created so far, and their contents (safe_learning/utilities.py:475-493). -/
structure FeedHeap (G P V : Type) where
  attr : G → Option ℕ
  count : ℕ
  content : ℕ → P → Option V

/-- `get_feed_dict(graph)`: a reference to a dictionary (safe_learning/utilities.py:475-493). -/
def getFeedDict {G P V : Type} [DecidableEq G] (h : FeedHeap G P V) (g : G) :
    ℕ × FeedHeap G P V :=
  match h.attr g with
  | some r => (r, h)
  | none =>
    (h.count,
      { attr := fun g' => if g' = g then some h.count else h.attr g'
        count := h.count + 1
        content := fun r => if r = h.count then fun _ => none else h.content r })

/-- `feed_dict[placeholder] = value` through a reference (for example
safe_learning/utilities.py:579). -/
def writeFeed {G P V : Type} [DecidableEq P] (h : FeedHeap G P V) (r : ℕ) (p : P) (v : V) :
    FeedHeap G P V :=
  { h with content := fun r' p' => if r' = r ∧ p' = p then some v else h.content r' p' }

/-! ## compute_trajectory -/

/-- The tensors kept for a pair of dynamics and policy (safe_learning/utilities.py:550-562): functions of
the TensorFlow variables and the state. -/
structure TrajGraph (Θ S U : Type) where
  action : Θ → S → U
  next : Θ → S → S

/-- The module dictionary `_STORAGE` for `compute_trajectory`, indexed by `(dynamics, policy)`
(safe_learning/utilities.py:34, 546-548). -/
abbrev TrajCache (D P Θ S U : Type) := D × P → Option (TrajGraph Θ S U)

/-- The loop on lines 578-581: `states` and `actions` after `k` rounds, latest first
(safe_learning/utilities.py:569, 578-581). -/
def simulate {Θ S U : Type} (gr : TrajGraph Θ S U) (θ : Θ) (x0 : S) : ℕ → List S × List U
  | 0 => ([x0], [])
  | k + 1 =>
    let (states, actions) := simulate gr θ x0 k
    match states with
    | [] => ([], actions)
    | x :: rest => (gr.next θ x :: x :: rest, gr.action θ x :: actions)

/-- The tensors used by a call of `compute_trajectory`: those in the storage, or new ones
(safe_learning/utilities.py:546-562). -/
def trajGraph {D P Θ S U : Type} (dynamicsOf : D → Θ → S → U → S) (policyOf : P → Θ → S → U)
    (cache : TrajCache D P Θ S U) (d : D) (p : P) : TrajGraph Θ S U :=
  match cache (d, p) with
  | some gr => gr
  | none => { action := policyOf p, next := fun θ x => dynamicsOf d θ x (policyOf p θ x) }

/-- `compute_trajectory(dynamics, policy, initial_state, num_steps)`
(safe_learning/utilities.py:519-583). `dynamicsOf d` and `policyOf p` are what the objects compute.
`ValueError` for `num_steps = 0` (negative dimension on line 567). -/
def computeTrajectory {D P Θ S U : Type} [DecidableEq D] [DecidableEq P]
    (dynamicsOf : D → Θ → S → U → S) (policyOf : P → Θ → S → U)
    (cache : TrajCache D P Θ S U) (d : D) (p : P) (θ : Θ) (x0 : S) (numSteps : ℕ) :
    Except PyErr (List S × List U) × TrajCache D P Θ S U :=
  let gr := trajGraph dynamicsOf policyOf cache d p
  let cache' : TrajCache D P Θ S U := fun k => if k = (d, p) then some gr else cache k
  match numSteps with
  | 0 => (.error .valueError, cache')
  | k + 1 =>
    let r := simulate gr θ x0 k
    (.ok (r.1.reverse, r.2.reverse), cache')

/-! ## LQR -/

open Matrix

/-- `np.linalg.solve(a, b)`: `LinAlgError` (here `valueError`) for a singular matrix, otherwise the solution
(safe_learning/utilities.py:322, 355). -/
noncomputable def linSolve {n m : ℕ} (a : Matrix (Fin n) (Fin n) K) (b : Matrix (Fin n) (Fin m) K) :
    Except PyErr (Matrix (Fin n) (Fin m) K) :=
  if a.det = 0 then .error .valueError else .ok (a⁻¹ * b)

/-- `lqr(a, b, q, r)` with the outcome `p` of `scipy.linalg.solve_continuous_are`
(safe_learning/utilities.py:299-324). -/
noncomputable def lqr {n m : ℕ} (p : Matrix (Fin n) (Fin n) K) (b : Matrix (Fin n) (Fin m) K)
    (r : Matrix (Fin m) (Fin m) K) :
    Except PyErr (Matrix (Fin m) (Fin n) K × Matrix (Fin n) (Fin n) K) := do
  let k ← linSolve r (bᵀ * p)
  return (k, p)

/-- `dlqr(a, b, q, r)` with the outcome `p` of `scipy.linalg.solve_discrete_are`
(safe_learning/utilities.py:327-357). -/
noncomputable def dlqr {n m : ℕ} (p a : Matrix (Fin n) (Fin n) K) (b : Matrix (Fin n) (Fin m) K)
    (r : Matrix (Fin m) (Fin m) K) :
    Except PyErr (Matrix (Fin m) (Fin n) K × Matrix (Fin n) (Fin n) K) := do
  let bp := bᵀ * p
  let tmp1 := bp * b + r
  let tmp2 := bp * a
  let k ← linSolve tmp1 tmp2
  return (k, p)

/-! ## ellipse_bounds -/

/-- `np.arctan(a / b)` (safe_learning/utilities.py:401); for `b = 0` the quotient is infinite (the sign of a zero
is not modelled: it is taken as positive, and `0 / 0` is not modelled). -/
noncomputable def arctanDiv (a b : ℝ) : ℝ :=
  if b = 0 then (if 0 < a then Real.pi / 2 else -(Real.pi / 2)) else Real.arctan (a / b)

/-- Row `k` of `pos` (safe_learning/utilities.py:392-404), with the outcome `(eigval, eigvec)` of
`np.linalg.eig(P)` and the even number `n` of points. -/
noncomputable def ellipsePos (eigval : Fin 2 → ℝ) (eigvec : Matrix (Fin 2) (Fin 2) ℝ) (level : ℝ)
    (n : ℕ) (k : ℕ) (i : Fin 2) : ℝ :=
  let scaled : Matrix (Fin 2) (Fin 2) ℝ := fun i j => eigvec i j * Real.sqrt (level / eigval j)
  let angle := (k : ℝ) * (2 * Real.pi / ((n : ℝ) - 1)) + arctanDiv (scaled 0 1) (scaled 0 0)
  Real.cos angle * scaled i 0 + Real.sin angle * scaled i 1

/-- A Python number (safe_learning/utilities.py:405-408). -/
inductive PyNum where
  | int (n : ℕ)
  | float (x : ℝ)

/-- `n /= 2` (safe_learning/utilities.py:405): the module imports `division` from `__future__`, so that this is a
true division with a float as result, also for even integers. With `intDiv` it is the integer division
of Python 2 without this import. -/
noncomputable def halve (intDiv : Bool) (n : ℕ) : PyNum :=
  if intDiv then .int (n / 2) else .float ((n : ℝ) / 2)

/-- A slice bound (safe_learning/utilities.py:408): `TypeError` for floats. -/
def PyNum.asIndex : PyNum → Except PyErr ℕ
  | .int n => .ok n
  | .float _ => .error .typeError

/-- `ellipse_bounds(P, level, n)` (safe_learning/utilities.py:360-408). The code has `intDiv = false`; the other value shows
what an integer division on line 405 would give. -/
noncomputable def ellipseBounds (intDiv : Bool) (eigval : Fin 2 → ℝ)
    (eigvec : Matrix (Fin 2) (Fin 2) ℝ) (level : ℝ) (n : ℕ) :
    Except PyErr (List ℝ × List ℝ × List ℝ) := do
  let n := n + n % 2
  let pos := ellipsePos eigval eigvec level n
  let h ← (halve intDiv n).asIndex
  return ((List.range h).map fun k => pos k 0, (List.range h).map fun k => pos k 1,
    (List.range (n - h)).map fun k => pos (n - 1 - k) 1)

/-! ## add_weight_constraint and gradient_clipping -/

/-- `tf.clip_by_value(x, lo, hi)` for an entry (safe_learning/utilities.py:183, 217): the minimum with the upper bound first, then the maximum with
the lower bound. -/
def clipByValue {α : Type} [LinearOrder α] (x lo hi : α) : α := max (min x hi) lo

/-- One run of the operations returned by `add_weight_constraint` (safe_learning/utilities.py:162-186)
for variables with entries in `ι`. `opt` is the optimisation step. The control dependency makes each
assignment run after `opt`; whether the read of the variable on line 183 sees the value before
or after `opt` is left open (`stale`), as TensorFlow may use an earlier snapshot. -/
def weightConstraintStep {Var ι : Type} [DecidableEq Var] (varList : List Var)
    (boundList : List (K × K)) (opt : (Var → ι → K) → Var → ι → K) (stale : Var → Bool)
    (θ : Var → ι → K) : Var → ι → K :=
  (varList.zip boundList).foldl (fun θ' vb => fun v =>
    if v = vb.1 then fun i => clipByValue ((if stale v then θ else opt θ) v i) vb.2.1 vb.2.2 else θ' v)
    (opt θ)

/-- One entry of the list comprehension on lines 217-218: the clipped gradient and the variable
(safe_learning/utilities.py:217-218). A gradient is `None` if the loss does not depend on the variable;
then `clip_by_value` raises `ValueError`. -/
def clipGradient {Var ι : Type} (gl : (Option (ι → K) × Var) × (K × K)) :
    Except PyErr ((ι → K) × Var) :=
  match gl.1.1 with
  | none => .error .valueError
  | some g => .ok (fun i => clipByValue (g i) gl.2.1 gl.2.2, gl.1.2)

/-- The list given to `apply_gradients` by `gradient_clipping` (safe_learning/utilities.py:189-221). -/
def clippedGradients {Var ι : Type} (gradients : List (Option (ι → K) × Var))
    (limits : List (K × K)) : Except PyErr (List ((ι → K) × Var)) :=
  (gradients.zip limits).mapM clipGradient

/-! ## concatenate_inputs -/

/-- A numpy array of up to two dimensions (safe_learning/utilities.py:146-152). A matrix is the list of
its rows. -/
inductive Arr (α : Type) where
  | scalar (a : α)
  | vector (v : List α)
  | matrix (m : List (List α))

/-- `np.atleast_2d` (safe_learning/utilities.py:147). -/
def Arr.rows {α : Type} : Arr α → List (List α)
  | .scalar a => [[a]]
  | .vector v => [v]
  | .matrix m => m

/-- `np.hstack` of a list of matrices; `ValueError` if there is none or the numbers of rows differ
(safe_learning/utilities.py:152). -/
def hstack {α : Type} : List (List (List α)) → Except PyErr (List (List α))
  | [] => .error .valueError
  | [m] => .ok m
  | m :: ms => do
    let r ← hstack ms
    if m.length = r.length then .ok (List.zipWith (· ++ ·) m r) else .error .valueError

/-- The matrix of a two-dimensional tensor, as needed by `tf.concat` along axis 1
(safe_learning/utilities.py:141). -/
def Arr.asMatrix {α : Type} : Arr α → Except PyErr (List (List α))
  | .matrix m => .ok m
  | _ => .error .valueError

/-- `tf.concat(args, axis=1)`: `ValueError` unless all arguments are matrices with the same number of
rows (safe_learning/utilities.py:141). -/
def tfConcat {α : Type} (args : List (Arr α)) : Except PyErr (List (List α)) := do
  let ms ← args.mapM Arr.asMatrix
  hstack ms

/-- The function wrapped by `concatenate_inputs(start=...)` (safe_learning/utilities.py:123-159). `pre`
are the arguments before `start` (for example `self`), `args` those after it, and `isTf` tells whether
any of them is a TensorFlow object. Simplified: the `map` object on line 147 is taken as the list it
stands for (recent numpy versions insist on a sequence). -/
def concatenated {α β γ : Type} (f : β → Arr α → Except PyErr γ) (isTf : Bool) (pre : β)
    (args : List (Arr α)) : Except PyErr γ :=
  if isTf then
    match args with
    | [a] => f pre a
    | args => do
      let m ← tfConcat args
      f pre (.matrix m)
  else
    match args with
    | [a] => f pre (.matrix a.rows)
    | args => do
      let m ← hstack (args.map Arr.rows)
      f pre (.matrix m)

end SafeLearning
