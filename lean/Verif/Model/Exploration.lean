import Verif.Model.SafeSample
set_option autoImplicit false

/-!
# Model of the interplay of `update_safe_set` and `get_safe_sample` on one `Lyapunov` object
(safe_learning/lyapunov.py:177-225, 407-606, 654-797)
-/

namespace SafeLearning

variable {K : Type} [Field K] [LinearOrder K] [IsStrictOrderedRing K] {n m : ℕ} {Prog Θ : Type}

/-- The objects a `Lyapunov` instance is built from, with policy and uncertain dynamics as separate functions
(safe_learning/lyapunov.py:177-179). `Prog` stands for the Python objects `policy` and `dynamics`, `Θ` for the values of the
variables. Simplification: `lyapunov_function` and the Lipschitz constants are fixed Python objects. -/
structure ControlSystem (K Prog Θ : Type) (n m : ℕ) where
  V : Θ → (Fin n → K) → K
  lv : Θ → LipArg K n
  lf : Θ → LipDyn K n
  policy : Prog → Θ → (Fin n → K) → Fin m → K
  dynamics : Prog → Θ → Pair K n m → (Fin n → K) × (Fin n → K)

/-- What `update_safe_set` uses: `dynamics(x, policy(x))` (safe_learning/lyapunov.py:434-438). -/
def ControlSystem.system (C : ControlSystem K Prog Θ n m) : System K Prog Θ n where
  V := C.V
  lv := C.lv
  lf := C.lf
  closedLoop p θ x :=
    .uncertain (C.dynamics p θ (x, C.policy p θ x)).1 (C.dynamics p θ (x, C.policy p θ x)).2

/-- What `get_safe_sample` uses: a graph built for the objects `p`, and the current safe set and `c_max`
(safe_learning/lyapunov.py:705-746). -/
def ControlSystem.sampleSystem (C : ControlSystem K Prog Θ n m) (g : GridWorld K n)
    (s : Lyap K Prog g.nindex) (p : Prog) (θ : Θ) : SampleSystem K n m where
  grid := g
  policy := C.policy p θ
  dynamics := C.dynamics p θ
  lv := C.lv θ
  V := C.V θ
  cMax := s.cMax
  safeSet k := if h : k < g.nindex then s.safeSet ⟨k, h⟩ else false

/-- A `Lyapunov` object and the objects captured by the graph that `get_safe_sample` has stored for it
(safe_learning/lyapunov.py:654, 703, 726-735). -/
structure Explorer (K Prog : Type) (N : ℕ) where
  lyap : Lyap K Prog N
  stored : Option Prog

/-- The arguments of `get_safe_sample` (safe_learning/lyapunov.py:658-659); `idx` is the outcome of the random choice. -/
structure SampleArgs (K : Type) (m : ℕ) where
  perturbations : Option (List (Fin m → K))
  limits : Option (Fin m → K × K)
  positive : Bool
  idx : Option (List ℕ)
  actions : List (Fin m → K)

/-- `get_safe_sample(lyapunov, ...)`: the graph of the first call for this object is kept
(safe_learning/lyapunov.py:703-735). Simplification: all calls use actions of the same dimension. -/
def Explorer.getSafeSample [FloorRing K] {β : Type} [LinearOrder β] (C : ControlSystem K Prog Θ n m)
    (g : GridWorld K n) (key : Pair K n m → β) (e : Explorer K Prog g.nindex) (args : SampleArgs K m) (θ : Θ) :
    Explorer K Prog g.nindex × Except PyErr (SampleSystem.Result K n m) :=
  let p := e.stored.getD e.lyap.prog
  ({ e with stored := some p },
    (C.sampleSystem g e.lyap p θ).getSafeSample key args.perturbations args.limits args.positive args.idx args.actions)

/-- Operations on the object: those of `Lyap.Op`, and `get_safe_sample`
(safe_learning/lyapunov.py:183-218, 305, 407, 658). -/
inductive ExploreOp (K Prog Θ : Type) (m : ℕ) where
  | lyap (op : Lyap.Op K Prog Θ)
  | sample (args : SampleArgs K m) (θ : Θ)

/-- One operation (safe_learning/lyapunov.py:183-218, 305, 407, 658). -/
def Explorer.step [FloorRing K] {β : Type} [LinearOrder β] (C : ControlSystem K Prog Θ n m) (g : GridWorld K n)
    (W : World K Prog Θ g.nindex) (key : Pair K n m → β) (e : Explorer K Prog g.nindex) :
    ExploreOp K Prog Θ m → Explorer K Prog g.nindex
  | .lyap op => { e with lyap := Lyap.step W e.lyap op }
  | .sample args θ => (e.getSafeSample C g key args θ).1

/-- A history of operations (safe_learning/lyapunov.py:183-218, 305, 407, 658). -/
def Explorer.run [FloorRing K] {β : Type} [LinearOrder β] (C : ControlSystem K Prog Θ n m) (g : GridWorld K n)
    (W : World K Prog Θ g.nindex) (key : Pair K n m → β) (e : Explorer K Prog g.nindex)
    (ops : List (ExploreOp K Prog Θ m)) : Explorer K Prog g.nindex :=
  ops.foldl (fun e op => e.step C g W key op) e

end SafeLearning
