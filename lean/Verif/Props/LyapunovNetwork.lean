import Verif.Model.LyapunovNetwork
import Mathlib.Algebra.Order.BigOperators.Ring.Finset
import Mathlib.Algebra.Order.BigOperators.Group.Finset
import Mathlib.Algebra.Order.Ring.Rat
import Mathlib.Algebra.BigOperators.Fin
import Mathlib.Data.List.Chain
import Mathlib.Tactic.Linarith
import Mathlib.Tactic.Positivity
import Mathlib.Tactic.NormNum
set_option autoImplicit false

/-!
# C66: the Lyapunov network is positive definite
-/

namespace SafeLearning

open Matrix

variable {K : Type} [Field K] [LinearOrder K] [IsStrictOrderedRing K]

/-- The dimensions the constructor requires: the first layer has at least the dimension of the input and no layer reduces the
dimension. -/
def _root_.Spec.GrowingDims : ℕ → List ℕ → Prop
  | _, [] => True
  | n, d :: ds => n ≤ d ∧ Spec.GrowingDims d ds

/-- An activation that is zero only at zero. -/
def _root_.Spec.TrivialNullspace (act : K → K) : Prop := ∀ z, act z = 0 ↔ z = 0

theorem nonDecreasing_iff : ∀ (d : ℕ) (ds : List ℕ),
    nonDecreasing (d :: ds) = true ↔ Spec.GrowingDims d ds
  | _, [] => by simp [nonDecreasing, Spec.GrowingDims]
  | d, e :: ds => by
    rw [nonDecreasing, Bool.and_eq_true, decide_eq_true_eq, nonDecreasing_iff e ds, Spec.GrowingDims]

/-- **C66 (constructor).** The constructor accepts exactly the non-empty lists of layer dimensions that never shrink, beginning
with the input dimension. Shrinking dimensions raise `ValueError`. -/
theorem C66_constructor (inputDim : ℕ) (dims : List ℕ) (activations : List (K → K)) (eps : K) :
    (Spec.GrowingDims inputDim dims ∧ dims ≠ [] →
      LyapunovNetwork.new inputDim dims activations eps = .ok ⟨inputDim, dims, activations, eps⟩) ∧
    (¬ Spec.GrowingDims inputDim dims →
      LyapunovNetwork.new inputDim dims activations eps = .error .valueError) ∧
    (dims = [] → LyapunovNetwork.new inputDim dims activations eps = .error .indexError) := by
  cases dims with
  | nil => exact ⟨fun h => absurd rfl h.2, fun h => absurd trivial h, fun _ => rfl⟩
  | cons d ds =>
    refine ⟨fun h => ?_, fun h => ?_, fun h => by cases h⟩
    · obtain ⟨h1, h2⟩ := h.1
      simp only [LyapunovNetwork.new]
      rw [if_neg (not_lt.mpr h1), if_pos ((nonDecreasing_iff d ds).mpr h2)]
    · simp only [LyapunovNetwork.new]
      by_cases h1 : d < inputDim
      · rw [if_pos h1]
      · rw [if_neg h1, if_neg]
        intro h2
        exact h ⟨not_lt.mp h1, (nonDecreasing_iff d ds).mp h2⟩

/-- `W^T W + eps I` is injective. -/
theorem posdef_injective {h n : ℕ} (W : Matrix (Fin h) (Fin n) K) {eps : K} (heps : 0 < eps)
    (x : Fin n → K) (hx : (Wᵀ * W + eps • (1 : Matrix (Fin n) (Fin n) K)) *ᵥ x = 0) : x = 0 := by
  have h1 : x ⬝ᵥ ((Wᵀ * W + eps • (1 : Matrix (Fin n) (Fin n) K)) *ᵥ x) = 0 := by
    rw [hx, dotProduct_zero]
  rw [add_mulVec, smul_mulVec, one_mulVec, dotProduct_add, dotProduct_smul, ← mulVec_mulVec,
    dotProduct_mulVec, vecMul_transpose] at h1
  have h2 : 0 ≤ (W *ᵥ x) ⬝ᵥ (W *ᵥ x) := Finset.sum_nonneg fun i _ => mul_self_nonneg _
  have h3 : 0 ≤ x ⬝ᵥ x := Finset.sum_nonneg fun i _ => mul_self_nonneg _
  have h4 : x ⬝ᵥ x = 0 := by
    simp only [smul_eq_mul] at h1
    have : eps * (x ⬝ᵥ x) ≤ 0 := by linarith
    by_contra hne
    have := mul_pos heps (lt_of_le_of_ne h3 (Ne.symm hne))
    linarith
  funext i
  have := (Finset.sum_eq_zero_iff_of_nonneg fun i _ => mul_self_nonneg (x i)).mp h4 i
    (Finset.mem_univ i)
  exact mul_self_eq_zero.mp this

theorem layerKernel_injective {n d : ℕ} (hnd : n ≤ d) {eps : K} (heps : 0 < eps)
    (W : Matrix (Fin (hiddenDim n)) (Fin n) K) (V : Matrix (Fin (d - n)) (Fin n) K) (x : Fin n → K)
    (hx : layerKernel d eps W V *ᵥ x = 0) : x = 0 := by
  refine posdef_injective W heps x ?_
  funext i
  have := congrFun hx ⟨i.1, lt_of_lt_of_le i.2 hnd⟩
  simpa [layerKernel, mulVec] using this

theorem evaluateLayers_posdef (eps : K) (heps : 0 < eps) : ∀ (n : ℕ) (dims : List ℕ)
    (params : LayerParams K n dims) (acts : List (K → K)), Spec.GrowingDims n dims →
    dims.length ≤ acts.length → (∀ a ∈ acts, Spec.TrivialNullspace a) → ∀ x : Fin n → K,
    ∃ v, evaluateLayers eps n dims params acts x = .ok v ∧ 0 ≤ v ∧ (v = 0 ↔ x = 0)
  | n, [], _, acts, _, _, _, x => by
    refine ⟨∑ i, x i ^ 2, by rw [evaluateLayers], Finset.sum_nonneg fun i _ => sq_nonneg _, ?_⟩
    rw [Finset.sum_eq_zero_iff_of_nonneg fun i _ => sq_nonneg _]
    exact ⟨fun h => funext fun i => by simpa using h i (Finset.mem_univ i), fun h => by simp [h]⟩
  | n, d :: ds, _, [], _, hl, _, _ => by simp at hl
  | n, d :: ds, (W, V, rest), act :: acts, hg, hl, ha, x => by
    obtain ⟨v, h1, h2, h3⟩ := evaluateLayers_posdef eps heps d ds rest acts hg.2 (by simpa using hl)
      (fun a h => ha a (List.mem_cons_of_mem _ h)) fun i => act ((layerKernel d eps W V *ᵥ x) i)
    refine ⟨v, by rw [evaluateLayers]; exact h1, h2, h3.trans ⟨fun h => ?_, fun h => ?_⟩⟩
    · refine layerKernel_injective hg.1 heps W V x ?_
      funext i
      exact (ha act List.mem_cons_self _).mp (congrFun h i)
    · subst h
      funext i
      simp only [mulVec_zero, Pi.zero_apply]
      exact (ha act List.mem_cons_self _).mpr rfl

/-- **C66 (positive definite).** A network that the constructor accepts, with a positive `eps` and one activation with
trivial null space per layer, has a value at every input, for all values of its variables. The value is non-negative, and zero
exactly at the origin. -/
theorem C66_positive_definite (inputDim : ℕ) (dims : List ℕ) (activations : List (K → K)) (eps : K)
    (heps : 0 < eps) (net : LyapunovNetwork K)
    (hnew : LyapunovNetwork.new inputDim dims activations eps = .ok net)
    (hlen : dims.length ≤ activations.length) (ha : ∀ a ∈ activations, Spec.TrivialNullspace a)
    (params : LayerParams K net.inputDim net.outputDims) (x : Fin net.inputDim → K) :
    ∃ v, net.evaluate params x = .ok v ∧ 0 ≤ v ∧ (v = 0 ↔ x = 0) := by
  have hg : Spec.GrowingDims inputDim dims := by
    by_contra hn
    rw [(C66_constructor inputDim dims activations eps).2.1 hn] at hnew
    cases hnew
  have hne : dims ≠ [] := by
    rintro rfl
    cases hnew
  rw [(C66_constructor inputDim dims activations eps).1 ⟨hg, hne⟩] at hnew
  cases hnew
  exact evaluateLayers_posdef eps heps inputDim dims params activations hg hlen ha x

/-- **C66 (hidden dimensions).** The factor `W` of the positive definite part has the smallest number of rows with which it has at
least as many entries as a symmetric matrix has free ones, `n (n + 1) / 2`. -/
theorem C66_hidden_dimension (n : ℕ) (hn : 0 < n) : IsLeast {h | n * (n + 1) ≤ 2 * (h * n)} (hiddenDim n) := by
  have key : ∀ h, n * (n + 1) ≤ 2 * (h * n) ↔ n + 1 ≤ 2 * h := by
    intro h
    rw [show 2 * (h * n) = n * (2 * h) by ring]
    exact Nat.mul_le_mul_left_iff hn
  refine ⟨(key _).mpr ?_, fun h hh => ?_⟩
  · unfold hiddenDim; omega
  · have := (key h).mp hh
    unfold hiddenDim; omega

/-- With too few activations the evaluation raises `IndexError`. -/
theorem C66_too_few_activations (eps : K) : ∀ (n : ℕ) (dims : List ℕ) (params : LayerParams K n dims)
    (acts : List (K → K)), acts.length < dims.length → ∀ x : Fin n → K,
    evaluateLayers eps n dims params acts x = .error .indexError
  | _, [], _, _, h, _ => by simp at h
  | _, _ :: _, _, [], _, _ => by rw [evaluateLayers]
  | _, d :: ds, (W, V, rest), act :: acts, h, x => by
    rw [evaluateLayers]
    exact C66_too_few_activations eps d ds rest acts (by simpa using h) _

/-- The assumption on the activations is needed: with the rectifier `max(z, 0)` a network with one layer is zero at `-1`. -/
theorem C66_relu_not_positive :
    ∃ net : LyapunovNetwork ℚ, LyapunovNetwork.new 1 [1] [fun z => max z 0] 1 = .ok net ∧
      ∀ params : LayerParams ℚ 1 [1],
        evaluateLayers 1 1 [1] params [fun z => max z 0] (fun _ => (-1 : ℚ)) = .ok 0 := by
  refine ⟨⟨1, [1], [fun z => max z 0], 1⟩, rfl, ?_⟩
  rintro ⟨W, V, u⟩
  rw [evaluateLayers, evaluateLayers]
  congr 1
  have h : ∀ i, (layerKernel 1 1 W V *ᵥ fun _ => (-1 : ℚ)) i ≤ 0 := by
    intro i
    have hi : i = 0 := Subsingleton.elim _ _
    subst hi
    have : 0 ≤ (Wᵀ * W) 0 0 := by
      rw [mul_apply]
      exact Finset.sum_nonneg fun j _ => mul_self_nonneg _
    simp [layerKernel, mulVec, dotProduct]
    linarith
  simp [max_eq_right (h _)]

/-- Identity and cube have trivial null space; the constructor accepts a network from one to three dimensions. -/
example : Spec.TrivialNullspace (fun z : ℚ => z) ∧ Spec.TrivialNullspace (fun z : ℚ => z ^ 3) ∧
    LyapunovNetwork.new 1 [2, 3] [fun z : ℚ => z, fun z => z ^ 3] (1 / 10) =
      .ok ⟨1, [2, 3], [fun z : ℚ => z, fun z => z ^ 3], 1 / 10⟩ := by
  refine ⟨fun z => Iff.rfl, fun z => by simp, ?_⟩
  exact (C66_constructor _ _ _ _).1 ⟨by simp [Spec.GrowingDims], by simp⟩

/-- The parameters of a network from one to two dimensions. -/
def exampleParams : LayerParams ℚ 1 [2] := (fun _ _ => 2, fun _ _ => 3, ())

/-- A value of this network. -/
example : (match evaluateLayers (1 / 10 : ℚ) 1 [2] exampleParams [fun z => z] (fun _ => 1) with
    | .ok v => decide (v = (41 / 10) ^ 2 + 9)
    | .error _ => false) = true := by decide +kernel

end SafeLearning
