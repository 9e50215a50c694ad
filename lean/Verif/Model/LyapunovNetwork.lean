import Mathlib.LinearAlgebra.Matrix.ConjTranspose
import Mathlib.Algebra.Order.Field.Basic
import Mathlib.Data.Matrix.Mul
import Verif.Model.Numeric
set_option autoImplicit false

/-!
# Model of `LyapunovNetwork` (examples/utilities.py)

One input row; the code works on batches row by row. Activations work entry by entry.
-/

namespace SafeLearning

open Matrix

variable {K : Type} [Field K]

/-- `LyapunovNetwork.__init__` (examples/utilities.py:51-83): `input_dim`, `layer_dims`, `activations` and `eps`. The
attribute `layer_partitions` (only printed) is left out. -/
structure LyapunovNetwork (K : Type) where
  inputDim : ℕ
  outputDims : List ℕ
  activations : List (K → K)
  eps : K

/-- `np.all(np.diff(layer_dims) >= 0)` (examples/utilities.py:64). -/
def nonDecreasing : List ℕ → Bool
  | a :: b :: rest => decide (a ≤ b) && nonDecreasing (b :: rest)
  | _ => true

/-- The checks of the constructor (examples/utilities.py:61-67): `layer_dims[0]` raises `IndexError` for an empty list. -/
def LyapunovNetwork.new (inputDim : ℕ) (layerDims : List ℕ) (activations : List (K → K)) (eps : K) :
    Except PyErr (LyapunovNetwork K) :=
  match layerDims with
  | [] => .error .indexError
  | d :: _ =>
    if d < inputDim then .error .valueError
    else if nonDecreasing layerDims then .ok ⟨inputDim, layerDims, activations, eps⟩
    else .error .valueError

/-- `np.ceil((layer_input_dim + 1) / 2)` (examples/utilities.py:75). -/
def hiddenDim (n : ℕ) : ℕ := (n + 1 + 1) / 2

/-- The variables `weights_posdef_i` and `weights_i` of the layers, for an input of dimension `n` and the given output
dimensions (examples/utilities.py:91-100). A layer that keeps the dimension has no `weights_i`, here a matrix without
rows. -/
def LayerParams (K : Type) (n : ℕ) : List ℕ → Type
  | [] => Unit
  | d :: ds => Matrix (Fin (hiddenDim n)) (Fin n) K × Matrix (Fin (d - n)) (Fin n) K × LayerParams K d ds

/-- The kernel of a layer: `W^T W + eps I`, with the rows of `weights_i` below
(examples/utilities.py:96-100). -/
def layerKernel {n : ℕ} (d : ℕ) (eps : K) (W : Matrix (Fin (hiddenDim n)) (Fin n) K)
    (V : Matrix (Fin (d - n)) (Fin n) K) : Matrix (Fin d) (Fin n) K := fun i =>
  if h : i.1 < n then (Wᵀ * W + eps • (1 : Matrix (Fin n) (Fin n) K)) ⟨i.1, h⟩
  else V ⟨i.1 - n, by have := i.2; omega⟩

/-- The loop over the layers and the final sum of squares (examples/utilities.py:90-104). `activations[i]` raises
`IndexError` if there are too few activations. -/
def evaluateLayers (eps : K) : (n : ℕ) → (dims : List ℕ) → LayerParams K n dims → List (K → K) →
    (Fin n → K) → Except PyErr K
  | _, [], _, _, net => .ok (∑ i, net i ^ 2)
  | _, _ :: _, _, [], _ => .error .indexError
  | _, d :: ds, (W, V, rest), act :: acts, net =>
    evaluateLayers eps d ds rest acts fun i => act ((layerKernel d eps W V *ᵥ net) i)

/-- `build_evaluation` (examples/utilities.py:85-104). -/
def LyapunovNetwork.evaluate (net : LyapunovNetwork K)
    (params : LayerParams K net.inputDim net.outputDims) (x : Fin net.inputDim → K) : Except PyErr K :=
  evaluateLayers net.eps net.inputDim net.outputDims params net.activations x

end SafeLearning
