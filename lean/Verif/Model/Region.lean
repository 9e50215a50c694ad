import Verif.Model.Grid
set_option autoImplicit false

/-!
# Model of `get_lyapunov_region` (safe_learning/lyapunov.py:59-139)
-/

namespace SafeLearning

variable {K : Type} [Field K] [LinearOrder K] [IsStrictOrderedRing K] {d : ℕ}

/-- The bounds check and wrap-around of numpy indexing with a multi-index
(safe_learning/lyapunov.py:85, 96, 108, 121, 127, 129, 137): negative indices count from the end,
`IndexError` outside. -/
def wrapNode (num : Fin d → ℕ) (x : Fin d → ℤ) : Except PyErr (Fin d → ℕ) :=
  if ∀ i, -(num i : ℤ) ≤ x i ∧ x i < num i then
    .ok fun i => (if x i < 0 then x i + num i else x i).toNat
  else .error .indexError

/-- `neighbor_indeces`: all combinations of `(0, -1, 1)` without the first one
(safe_learning/lyapunov.py:91-92). -/
def neighborOffsets (d : ℕ) : List (Fin d → ℤ) := (meshIJ fun _ => [0, -1, 1]).tail

/-- An entry of the priority queue (safe_learning/lyapunov.py:101, 133). The first entry holds the
argument `init_node`, a tuple, all others numpy rows. -/
structure QueueEntry (K : Type) (d : ℕ) where
  value : K
  count : ℕ
  node : Fin d → ℤ
  isTuple : Bool

/-- Tuple comparison of queue entries; the counts are unique, so the nodes are never compared
(safe_learning/lyapunov.py:99, 101, 133). -/
def QueueEntry.before (a b : QueueEntry K d) : Bool :=
  decide (a.value < b.value) || (decide (a.value ≤ b.value) && decide (a.count < b.count))

/-- `heappop` (safe_learning/lyapunov.py:104): removes the smallest entry. The heap is modelled as
the list of its entries. -/
def popMin : List (QueueEntry K d) → Option (QueueEntry K d × List (QueueEntry K d))
  | [] => none
  | a :: l =>
    match popMin l with
    | none => some (a, [])
    | some (m, rest) => if a.before m then some (a, m :: rest) else some (m, a :: rest)

/-- The local variables of the search (safe_learning/lyapunov.py:94-101). -/
structure Search (K : Type) (d : ℕ) where
  visited : (Fin d → ℕ) → Bool
  last : K
  count : ℕ
  queue : List (QueueEntry K d)

/-- Assignment of one entry of a boolean array (safe_learning/lyapunov.py:96, 108, 127, 137). -/
def assign {α : Type} [DecidableEq α] (v : α → Bool) (x : α) (b : Bool) : α → Bool :=
  fun y => if y = x then b else v y

/-- `visited[tuple(node)] = b` (safe_learning/lyapunov.py:96, 108, 127, 137). -/
def setVisited (num : Fin d → ℕ) (visited : (Fin d → ℕ) → Bool) (x : Fin d → ℤ) (b : Bool) :
    Except PyErr ((Fin d → ℕ) → Bool) := do
  let idx ← wrapNode num x
  return assign visited idx b

/-- The pruning of nodes that are still in the queue (safe_learning/lyapunov.py:135-137). -/
def prune (num : Fin d → ℕ) (visited : (Fin d → ℕ) → Bool) (queue : List (QueueEntry K d)) :
    Except PyErr ((Fin d → ℕ) → Bool) :=
  queue.foldlM (fun v e => setVisited num v e.node false) visited

/-- One round of `for value, neighbor in zip(values, neighbors)`
(safe_learning/lyapunov.py:132-133). -/
def pushNode (val : (Fin d → ℕ) → K) (s : Search K d) (p : (Fin d → ℤ) × (Fin d → ℕ)) :
    Search K d :=
  { s with
    count := s.count + 1
    queue := { value := val p.2, count := s.count, node := p.1, isTuple := false } :: s.queue }

/-- The boundary test (safe_learning/lyapunov.py:107). For the tuple `init_node` the comparison
`0 == next_node` is `False`. -/
def onBoundary (num : Fin d → ℕ) (e : QueueEntry K d) : Prop :=
  (e.isTuple = false ∧ ∃ i, 0 = e.node i) ∨ ∃ i, e.node i = (num i : ℤ) - 1

instance (num : Fin d → ℕ) (e : QueueEntry K d) : Decidable (onBoundary num e) :=
  inferInstanceAs (Decidable ((e.isTuple = false ∧ ∃ i, 0 = e.node i) ∨ ∃ i, e.node i = (num i : ℤ) - 1))

/-- Lines 117-133: mark and push the neighbours of `x` that are not yet visited
(safe_learning/lyapunov.py:117-133). -/
def expand (num : Fin d → ℕ) (val : (Fin d → ℕ) → K) (s : Search K d) (x : Fin d → ℤ) :
    Except PyErr (Search K d) := do
  let neighbors := (neighborOffsets d).map fun δ => x + δ
  let indexed ← neighbors.mapM fun y => do
    let idx ← wrapNode num y
    return (y, idx)
  let new := indexed.filter fun p => !s.visited p.2
  let visited := new.foldl (fun v p => assign v p.2 true) s.visited
  return new.foldl (pushNode val) { s with visited := visited }

/-- The `while` loop and the pruning (safe_learning/lyapunov.py:103-139), with `fuel` rounds of the
loop; `none` if it has not stopped by then. -/
def searchLoop (num : Fin d → ℕ) (val : (Fin d → ℕ) → K) :
    ℕ → Search K d → Except PyErr (Option ((Fin d → ℕ) → Bool))
  | 0, _ => .ok none
  | fuel + 1, s =>
    match popMin s.queue with
    | none => .ok (some s.visited)
    | some (e, rest) => do
      if onBoundary num e then
        let visited ← setVisited num s.visited e.node false
        let visited ← prune num visited rest
        return some visited
      else if e.value < s.last then
        let visited ← prune num s.visited rest
        return some visited
      else
        let s' ← expand num val { s with last := e.value, queue := rest } e.node
        searchLoop num val fuel s'

/-- `lyapunov_values`: the values on `all_points`, reshaped (safe_learning/lyapunov.py:81-82). -/
def reshapedValues (f : (Fin d → K) → K) (g : GridWorld K d) (ijk : Fin d → ℕ) : K :=
  (g.allPoints.map f).getD (ravel g.num ijk) 0

/-- `get_lyapunov_region(lyapunov, discretization, init_node)` (safe_learning/lyapunov.py:59-139).
`py3`: in Python 3 the iterator `tiebreaker` has no method `next` (line 101). -/
def getLyapunovRegion (py3 : Bool) (f : (Fin d → K) → K) (g : GridWorld K d)
    (init : Fin d → ℤ) (fuel : ℕ) : Except PyErr (Option ((Fin d → ℕ) → Bool)) := do
  let val := reshapedValues f g
  let initIdx ← wrapNode g.num init
  let visited := assign (fun _ => false) initIdx true
  let start : Search K d :=
    { visited := visited, last := val initIdx, count := 1,
      queue := [{ value := val initIdx, count := 0, node := init, isTuple := true }] }
  if py3 then .error .attributeError
  else searchLoop g.num val fuel start

end SafeLearning
