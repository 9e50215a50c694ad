import Verif.Model.Triangulation
import Verif.Model.Decrease
import Verif.Model.SafeSample
set_option autoImplicit false

/-!
# Model of `plot_lyapunov_1d` and of the surface of `plot_triangulation` (examples/plotting.py:18-166)

What is drawn, as data: colours, labels and the layout of the figure are left out.
-/

namespace SafeLearning

variable {K : Type} [Field K] [LinearOrder K] [IsStrictOrderedRing K]

/-! ## `plot_triangulation(three_dimensional=True)` -/

/-- `nsimplex` of the triangulation (safe_learning/functions.py:1025-1026). -/
def Tri.nsimplex {d : ℕ} (t : Tri K d) : ℕ := t.triangulation.nsimplex * t.disc.nrectangles

/-- The triangles that `plot_trisurf` draws, with the coordinates of their corners; `values` are the parameters with one column
(examples/plotting.py:152-166). -/
def trisurf (t : Tri K 2) (values : List (Fin 1 → K)) : Except PyErr (List (Fin 3 → K × K × K)) :=
  (List.range t.nsimplex).mapM fun (n : ℕ) => do
    let s ← t.simplices n
    traverseFin fun j => do
      let p ← rowAt t.disc.allPoints (s j)
      let v ← rowAt values (s j)
      return (p 0, p 1, v 0)

/-! ## `plot_lyapunov_1d` -/

/-- `np.ma.masked_where(mask, values)` (examples/plotting.py:107-108): masked entries are not drawn. -/
def maskedWhere {n : ℕ} (mask : Fin n → Bool) (values : Fin n → K) (k : Fin n) : Option K :=
  if mask k then none else some (values k)

/-- What `plot_lyapunov_1d` draws (examples/plotting.py:54-127): for each state the band of the predicted next state, the band of the
predicted change of `V`, the true change, the curves of the unsafe and of the safe states, and the two helper lines. -/
structure Plot1d (K : Type) (n : ℕ) where
  nextBand : Fin n → K × K
  changeBand : Fin n → K × K
  trueChange : Fin n → K
  unsafeCurve : Fin n → Option K
  safeCurve : Fin n → Option K
  helper : Option (K × K)

/-- The tensors in the storage of the plot: those of the policy and the dynamics at the first call, and the actions with them
(examples/plotting.py:34-51). -/
structure PlotGraph (Prog : Type) where
  prog : Prog

/-- The helper lines: `x_safe` is the safe state with the largest value, the second line is at `-x_safe` (examples/plotting.py:120-127). -/
def helperLines {n : ℕ} (states : Fin n → K) (values : Fin n → K) (safeSet : Fin n → Bool) : Except PyErr (Option (K × K)) :=
  let safe := (List.finRange n).filter fun k => safeSet k
  if safe = [] then .ok none
  else do
    let maxId ← argmaxFirst (safe.map values)
    let k ← rowAt safe maxId
    return some (states k, -states k)

/-- `mean, bound = next_states` (examples/plotting.py:76). Simplification: a prediction without error bounds is refused; the code would unpack the array of exactly two states. -/
def unpackPrediction : Prediction K 1 → Except PyErr ((Fin 1 → K) × (Fin 1 → K))
  | .exact _ => .error .valueError
  | .uncertain m e => .ok (m, e)

/-- `plot_lyapunov_1d(lyapunov, true_dynamics)` (examples/plotting.py:18-133). `model` and `truth` are the prediction and the true next state at a state for
a policy and dynamics `p` with the current values of the variables; `graph` is the entry of `_STORAGE` for the object. Line 76 needs a tuple as the
prediction; line 41 calls the true dynamics on the actions of the stored policy. -/
def plotLyapunov1d {Prog : Type} {n : ℕ} (states : Fin n → Fin 1 → K) (V : (Fin 1 → K) → K) (lv : LipArg K 1)
    (model : Prog → (Fin 1 → K) → Prediction K 1) (truth : Prog → (Fin 1 → K) → Fin 1 → K) (lyap : Lyap K Prog n)
    (graph : Option (PlotGraph Prog)) : Except PyErr (Plot1d K n) × PlotGraph Prog :=
  let G := graph.getD ⟨lyap.prog⟩
  let draw : Except PyErr (Plot1d K n) := do
    let next ← traverseFin fun k => unpackPrediction (model G.prog (states k))
    let helper ← helperLines (fun k => states k 0) lyap.values lyap.safeSet
    let change := fun k => vDecreaseConfidence V lv (states k) (model G.prog (states k))
    return {
      nextBand := fun k => ((next k).1 0 - (next k).2 0, (next k).1 0 + (next k).2 0)
      changeBand := fun k => ((change k).1 - (change k).2, (change k).1 + (change k).2)
      trueChange := fun k => (vDecreaseConfidence V lv (states k) (.exact (truth G.prog (states k)))).1
      unsafeCurve := maskedWhere lyap.safeSet lyap.values
      safeCurve := maskedWhere (fun k => !lyap.safeSet k) lyap.values
      helper := helper }
  (draw, G)

end SafeLearning
