import Verif.Model.ParametricFunctions
import Mathlib.Analysis.Real.Sqrt
import Mathlib.Tactic.NormNum
import Mathlib.Tactic.Positivity
import Mathlib.Tactic.Linarith
import Mathlib.Tactic.LinearCombination
set_option autoImplicit false

/-!
# C58: the Lipschitz constant of a neural network
-/

namespace SafeLearning

open Matrix

/-! ## Specification -/

/-- The Euclidean norm. -/
noncomputable def _root_.Spec.euclid {n : ℕ} (x : Fin n → ℝ) : ℝ := Real.sqrt (∑ i, x i ^ 2)

/-- A contractive nonlinearity. -/
def _root_.Spec.Contractive (act : ℝ → ℝ) : Prop := ∀ a b, |act a - act b| ≤ |a - b|

/-- `c` is a Lipschitz constant of `f` for the Euclidean norm. -/
def _root_.Spec.IsLipschitz {m n : ℕ} (f : (Fin m → ℝ) → Fin n → ℝ) (c : ℝ) : Prop :=
  ∀ x y, Spec.euclid (f x - f y) ≤ c * Spec.euclid (x - y)

/-- `U` and `V` are orthogonal and `Uᵀ A V` is diagonal with non-negative entries: what a singular value decomposition of `A` has to return. -/
structure _root_.Spec.IsSVD {m n : ℕ} (A : Matrix (Fin m) (Fin n) ℝ) (U : Matrix (Fin m) (Fin m) ℝ)
    (V : Matrix (Fin n) (Fin n) ℝ) : Prop where
  orthU : U * Uᵀ = 1
  orthV : V * Vᵀ = 1
  diag : ∀ i j, i.1 ≠ j.1 → (Uᵀ * (A * V)) i j = 0
  nonneg : ∀ i j, i.1 = j.1 → 0 ≤ (Uᵀ * (A * V)) i j

open Spec

/-- All activations of the network are contractive. -/
def Net.Contractive : {m n : ℕ} → Net m n → Prop
  | _, _, .output _ act => Spec.Contractive act
  | _, _, .hidden _ _ act rest => Spec.Contractive act ∧ rest.Contractive

/-- All layers have at least one unit (and there is at least one input). -/
def Net.NonEmpty : {m n : ℕ} → Net m n → Prop
  | m, n, .output _ _ => 0 < m ∧ 0 < n
  | m, _, .hidden (k := k) _ _ _ rest => 0 < m ∧ 0 < k ∧ rest.NonEmpty

/-- The number of hidden layers. -/
def Net.hiddenLayers : {m n : ℕ} → Net m n → ℕ
  | _, _, .output _ _ => 0
  | _, _, .hidden _ _ _ rest => rest.hiddenLayers + 1

/-! ## Lemmas -/

theorem euclid_nonneg {n : ℕ} (x : Fin n → ℝ) : 0 ≤ euclid x := Real.sqrt_nonneg _

theorem euclid_sq {n : ℕ} (x : Fin n → ℝ) : euclid x ^ 2 = ∑ i, x i ^ 2 :=
  Real.sq_sqrt (Finset.sum_nonneg fun _ _ => sq_nonneg _)

theorem euclid_mono {n : ℕ} {x y : Fin n → ℝ} (h : ∀ i, |x i| ≤ |y i|) : euclid x ≤ euclid y :=
  Real.sqrt_le_sqrt (Finset.sum_le_sum fun i _ => sq_le_sq.mpr (h i))

theorem euclid_smul {n : ℕ} (x : Fin n → ℝ) (c : ℝ) : euclid (fun i => x i * c) = |c| * euclid x := by
  unfold euclid
  rw [← Real.sqrt_sq_eq_abs, ← Real.sqrt_mul (sq_nonneg c), Finset.mul_sum]
  congr 1
  exact Finset.sum_congr rfl fun i _ => by ring

/-- Orthogonal matrices preserve the norm. -/
theorem euclid_orth {n : ℕ} {U : Matrix (Fin n) (Fin n) ℝ} (h : U * Uᵀ = 1) (x : Fin n → ℝ) :
    euclid (x ᵥ* U) = euclid x := by
  unfold euclid
  congr 1
  have h1 : ∀ z : Fin n → ℝ, ∑ i, z i ^ 2 = z ⬝ᵥ z := fun z => by simp [dotProduct, sq]
  rw [h1, h1]
  conv_lhs => rw [← Matrix.mulVec_transpose U x, Matrix.dotProduct_mulVec, Matrix.mulVec_transpose,
    Matrix.vecMul_vecMul, h, Matrix.vecMul_one]

theorem euclid_diag {m n : ℕ} {S : Matrix (Fin m) (Fin n) ℝ} {c : ℝ}
    (hd : ∀ i j, i.1 ≠ j.1 → S i j = 0) (hc : ∀ i j, i.1 = j.1 → |S i j| ≤ c) (hc0 : 0 ≤ c) (x : Fin m → ℝ) :
    euclid (x ᵥ* S) ≤ c * euclid x := by
  have key : ∑ j, (x ᵥ* S) j ^ 2 ≤ c ^ 2 * ∑ i, x i ^ 2 := by
    have h1 : ∀ j, (x ᵥ* S) j ^ 2 ≤ c ^ 2 * ∑ i, if i.1 = j.1 then x i ^ 2 else 0 := by
      intro j
      by_cases hj : ∃ i : Fin m, i.1 = j.1
      · obtain ⟨i, hi⟩ := hj
        have e1 : (x ᵥ* S) j = x i * S i j := by
          simp only [vecMul, dotProduct]
          refine Finset.sum_eq_single i (fun k _ hk => ?_) (by simp)
          rw [hd k j fun h => hk (Fin.ext (h.trans hi.symm)), mul_zero]
        have e2 : ∑ k : Fin m, (if k.1 = j.1 then x k ^ 2 else 0) = x i ^ 2 := by
          rw [Finset.sum_eq_single i (fun k _ hk => if_neg fun h => hk (Fin.ext (h.trans hi.symm))) (by simp),
            if_pos hi]
        rw [e1, e2, mul_pow, mul_comm]
        refine mul_le_mul_of_nonneg_right ?_ (sq_nonneg _)
        exact sq_le_sq.mpr ((hc i j hi).trans (le_abs_self c))
      · have e1 : (x ᵥ* S) j = 0 := by
          simp only [vecMul, dotProduct]
          exact Finset.sum_eq_zero fun k _ => by rw [hd k j fun h => hj ⟨k, h⟩, mul_zero]
        rw [e1]
        have : 0 ≤ ∑ i : Fin m, (if i.1 = j.1 then x i ^ 2 else 0) :=
          Finset.sum_nonneg fun i _ => by split_ifs <;> positivity
        have := mul_nonneg (sq_nonneg c) this
        simpa using this
    refine (Finset.sum_le_sum fun j _ => h1 j).trans ?_
    rw [← Finset.mul_sum]
    refine mul_le_mul_of_nonneg_left ?_ (sq_nonneg c)
    rw [Finset.sum_comm]
    refine Finset.sum_le_sum fun i _ => ?_
    by_cases hi : i.1 < n
    · rw [Finset.sum_eq_single ⟨i.1, hi⟩ (fun k _ hk => if_neg fun h => hk (Fin.ext h.symm)) (by simp),
        if_pos rfl]
    · rw [Finset.sum_eq_zero fun k _ => if_neg fun h : i.1 = k.1 => hi (h ▸ k.2)]
      positivity
  have := Real.sqrt_le_sqrt key
  rwa [Real.sqrt_mul (sq_nonneg c), Real.sqrt_sq hc0] at this

theorem reduceMax_spec : ∀ (l : List ℝ), l ≠ [] → ∃ m, reduceMax l = .ok m ∧ m ∈ l ∧ ∀ a ∈ l, a ≤ m
  | [], h => absurd rfl h
  | [a], _ => ⟨a, rfl, by simp, by simp⟩
  | a :: b :: l, _ => by
    obtain ⟨m, h1, h2, h3⟩ := reduceMax_spec (b :: l) (by simp)
    refine ⟨max a m, by simp [reduceMax, h1, bind, Except.bind], ?_, ?_⟩
    · rcases max_choice a m with h | h
      · rw [h]; simp
      · rw [h]; exact List.mem_cons_of_mem _ h2
    · intro c hc
      rcases List.mem_cons.mp hc with rfl | hc
      · exact le_max_left _ _
      · exact (h3 c hc).trans (le_max_right _ _)

/-- The factor of a kernel is a bound for its operator norm, and is not negative. -/
theorem lipschitzFactor_spec (svd : {m n : ℕ} → Matrix (Fin m) (Fin n) ℝ → SVDResult m n) {m n : ℕ}
    (W : Matrix (Fin m) (Fin n) ℝ) (hm : 0 < m) (hn : 0 < n) (h : IsSVD W (svd W).U (svd W).V) :
    ∃ c, lipschitzFactor svd (.kernel m n W) = .ok c ∧ 0 ≤ c ∧ ∀ x, euclid (x ᵥ* W) ≤ c * euclid x := by
  set S := (svd W).Uᵀ * (W * (svd W).V) with hS
  have hne : diagPart S ≠ [] := by
    have : (diagPart S).length = min m n := by simp [diagPart]
    intro h0
    rw [h0] at this
    simp at this
    omega
  obtain ⟨c, h1, h2, h3⟩ := reduceMax_spec _ hne
  have hmem : ∀ i j, i.1 = j.1 → S i j ∈ diagPart S := by
    intro i j hij
    unfold diagPart
    rw [List.mem_ofFn]
    exact ⟨⟨i.1, lt_min i.2 (hij ▸ j.2)⟩, by congr 1; exact Fin.ext hij⟩
  have hc0 : 0 ≤ c := by
    unfold diagPart at h2
    rw [List.mem_ofFn] at h2
    obtain ⟨k, rfl⟩ := h2
    exact h.nonneg _ _ rfl
  refine ⟨c, h1, hc0, fun x => ?_⟩
  have hU : (svd W).Uᵀ * (svd W).U = 1 := mul_eq_one_comm.mp h.orthU
  have hV : (svd W).Vᵀ * (svd W).V = 1 := mul_eq_one_comm.mp h.orthV
  have hW : W = (svd W).U * S * (svd W).Vᵀ := by
    rw [hS, ← Matrix.mul_assoc, ← Matrix.mul_assoc, h.orthU, Matrix.one_mul, Matrix.mul_assoc, h.orthV,
      Matrix.mul_one]
  have e : x ᵥ* W = ((x ᵥ* (svd W).U) ᵥ* S) ᵥ* (svd W).Vᵀ := by
    rw [Matrix.vecMul_vecMul, Matrix.vecMul_vecMul, ← Matrix.mul_assoc, ← hW]
  rw [e, euclid_orth (by rwa [Matrix.transpose_transpose])]
  refine (euclid_diag h.diag (fun i j hij => ?_) hc0 _).trans (by rw [euclid_orth h.orthU])
  rw [abs_of_nonneg (h.nonneg i j hij)]
  exact h3 _ (hmem i j hij)

theorem dense_lipschitz {m k : ℕ} (W : Matrix (Fin m) (Fin k) ℝ) (b : Fin k → ℝ) {act : ℝ → ℝ}
    (ha : Spec.Contractive act) {c : ℝ} (hc : ∀ x, euclid (x ᵥ* W) ≤ c * euclid x) :
    IsLipschitz (dense W b act) c := by
  intro x y
  refine le_trans (euclid_mono fun j => ?_) (hc (x - y))
  rw [Pi.sub_apply, dense, dense, Matrix.sub_vecMul, Pi.sub_apply]
  refine (ha _ _).trans (le_of_eq ?_)
  congr 1
  ring

/-- The kernels of a network in the order of the layers. -/
def Net.kernels : {m n : ℕ} → Net m n → List NNParam
  | m, n, .output W _ => [.kernel m n W]
  | m, _, .hidden (k := k) W _ _ rest => .kernel m k W :: rest.kernels

/-- `svd` returns a singular value decomposition of every kernel of the network. -/
def Net.SVDOk (svd : {m n : ℕ} → Matrix (Fin m) (Fin n) ℝ → SVDResult m n) : {m n : ℕ} → Net m n → Prop
  | _, _, .output W _ => IsSVD W (svd W).U (svd W).V
  | _, _, .hidden W _ _ rest => IsSVD W (svd W).U (svd W).V ∧ rest.SVDOk svd

theorem Net.product_lipschitz (svd : {m n : ℕ} → Matrix (Fin m) (Fin n) ℝ → SVDResult m n) (useBias : Bool) :
    {m n : ℕ} → (net : Net m n) → net.Contractive → net.NonEmpty → net.SVDOk svd →
      ∃ c, lipschitzProduct svd net.kernels = .ok c ∧ 0 ≤ c ∧ IsLipschitz (net.forward useBias) c
  | _, _, .output W act, ha, hne, hs => by
    obtain ⟨c, h1, h2, h3⟩ := lipschitzFactor_spec svd W hne.1 hne.2 hs
    refine ⟨c, by simp [Net.kernels, lipschitzProduct, h1, bind, Except.bind], h2, ?_⟩
    exact dense_lipschitz W 0 ha h3
  | _, _, .hidden W b act rest, ha, hne, hs => by
    obtain ⟨c, h1, h2, h3⟩ := lipschitzFactor_spec svd W hne.1 hne.2.1 hs.1
    obtain ⟨c', i1, i2, i3⟩ := rest.product_lipschitz svd useBias ha.2 hne.2.2 hs.2
    refine ⟨c * c', by simp [Net.kernels, lipschitzProduct, h1, i1, bind, Except.bind], mul_nonneg h2 i2, ?_⟩
    intro x y
    refine (i3 _ _).trans ?_
    have := dense_lipschitz W (if useBias then b else 0) ha.1 h3 x y
    calc _ ≤ c' * (c * euclid (x - y)) := mul_le_mul_of_nonneg_left this i2
      _ = _ := by ring

theorem Net.parameters_ne_nil (u : Bool) {m n : ℕ} (net : Net m n) : net.parameters u ≠ [] := by
  cases net <;> simp [Net.parameters]

/-- With biases the pairs of parameters and the last parameter are exactly the kernels. -/
theorem Net.iter_bias : {m n : ℕ} → (net : Net m n) → parameterIter (net.parameters true) = .ok net.kernels
  | _, _, .output W act => rfl
  | m, _, .hidden (k := k) W b act rest => by
    have ih := rest.iter_bias
    unfold parameterIter at ih ⊢
    have hl : (Net.parameters true (.hidden W b act rest)).getLast? = (rest.parameters true).getLast? := by
      have hne := rest.parameters_ne_nil true
      simp only [Net.parameters, if_true, List.singleton_append]
      rw [List.getLast?_cons_of_ne_nil (by simp), List.getLast?_cons_of_ne_nil hne]
    rw [hl]
    cases hlast : (rest.parameters true).getLast? with
    | none => simp [hlast] at ih
    | some last =>
      simp only [hlast, Except.ok.injEq] at ih ⊢
      simp only [Net.parameters, if_true, List.cons_append, List.nil_append, pairFirsts, Net.kernels, ih]

/-- Without biases this holds if there is at most one hidden layer. -/
theorem Net.iter_nobias {m n : ℕ} (net : Net m n) (h : net.hiddenLayers ≤ 1) :
    parameterIter (net.parameters false) = .ok net.kernels := by
  match net, h with
  | .output W act, _ => rfl
  | .hidden W b act (.output W' act'), _ => rfl
  | .hidden W b act (.hidden W' b' act' rest), h => simp [Net.hiddenLayers] at h

/-! ## C58 -/

/-- **C58, partial.** With contractive nonlinearities, an evaluated network and biases (or at most one hidden layer), `lipschitz` returns a number that,
multiplied with the absolute value of the output scale, is a Lipschitz constant of the network. Missing: the output scale is not part of
the returned value (`C58_scale_refuted`), and without biases some kernels are skipped (`C58_nobias_refuted`). -/
theorem C58_lipschitz_partial {m n : ℕ} (f : NeuralNet m n)
    (svd : {m n : ℕ} → Matrix (Fin m) (Fin n) ℝ → SVDResult m n) (ha : f.net.Contractive) (hne : f.net.NonEmpty)
    (hs : f.net.SVDOk svd) (he : f.evaluated = true) (hb : f.useBias = true ∨ f.net.hiddenLayers ≤ 1) :
    ∃ c, f.lipschitz svd = .ok c ∧ 0 ≤ c ∧ IsLipschitz f.evaluate (|f.outputScale| * c) ∧
      (|f.outputScale| ≤ 1 → IsLipschitz f.evaluate c) := by
  obtain ⟨c, h1, h2, h3⟩ := f.net.product_lipschitz svd f.useBias ha hne hs
  have hiter : parameterIter f.parameters = .ok f.net.kernels := by
    unfold NeuralNet.parameters
    rw [if_pos he]
    rcases hb with hb | hb
    · rw [hb]; exact f.net.iter_bias
    · cases f.useBias
      · exact f.net.iter_nobias hb
      · exact f.net.iter_bias
  have hlip : IsLipschitz f.evaluate (|f.outputScale| * c) := by
    intro x y
    have : f.evaluate x - f.evaluate y =
        fun j => (f.net.forward f.useBias x - f.net.forward f.useBias y) j * f.outputScale := by
      funext j
      simp only [NeuralNet.evaluate, Pi.sub_apply]
      ring
    rw [this, euclid_smul, mul_assoc]
    exact mul_le_mul_of_nonneg_left (h3 x y) (abs_nonneg _)
  refine ⟨c, by unfold NeuralNet.lipschitz; simp [hiter, h1, bind, Except.bind], h2, hlip, fun hsc x y => ?_⟩
  refine (hlip x y).trans ?_
  refine mul_le_mul_of_nonneg_right ?_ (euclid_nonneg _)
  calc |f.outputScale| * c ≤ 1 * c := mul_le_mul_of_nonneg_right hsc h2
    _ = c := one_mul c

/-- **C58 (values of the network).** Layer by layer: the units of a hidden layer are `act(sum_i x_i W_ik + b_k)` (without `use_bias` there is no `b_k`), the
outputs are `output_scale * act(sum_i x_i W_ij)`. -/
theorem C58_values {m k n : ℕ} (useBias evaluated : Bool) (scale : ℝ) (act : ℝ → ℝ) (x : Fin m → ℝ) :
    (∀ (W : Matrix (Fin m) (Fin n) ℝ) (j : Fin n),
      (NeuralNet.mk (.output W act) useBias scale evaluated).evaluate x j = scale * act (∑ i, x i * W i j)) ∧
    ∀ (W : Matrix (Fin m) (Fin k) ℝ) (b : Fin k → ℝ) (rest : Net k n),
      (NeuralNet.mk (.hidden W b act rest) useBias scale evaluated).evaluate x =
        (NeuralNet.mk rest useBias scale evaluated).evaluate fun j =>
          act (∑ i, x i * W i j + if useBias then b j else 0) := by
  constructor
  · intro W j
    simp [NeuralNet.evaluate, Net.forward, dense, Matrix.vecMul, dotProduct, mul_comm]
  · intro W b rest
    have h : dense W (if useBias then b else 0) act x =
        fun j => act (∑ i, x i * W i j + if useBias then b j else 0) := by
      funext l
      cases useBias <;> simp [dense, Matrix.vecMul, dotProduct]
    rw [← h]
    funext j
    simp only [NeuralNet.evaluate, Net.forward]

/-- **C58 (before the first evaluation).** The Lipschitz constant is not available: `IndexError`. -/
theorem C58_not_evaluated {m n : ℕ} (f : NeuralNet m n)
    (svd : {m n : ℕ} → Matrix (Fin m) (Fin n) ℝ → SVDResult m n) (he : f.evaluated = false) :
    f.lipschitz svd = .error .indexError := by
  unfold NeuralNet.lipschitz NeuralNet.parameters
  rw [he]
  rfl

/-- A singular value decomposition of the 1 by 1 matrices with non-negative entries (all matrices in the examples). -/
def trivialSVD : {m n : ℕ} → Matrix (Fin m) (Fin n) ℝ → SVDResult m n := fun _ => ⟨1, 1⟩

/-- The 1 by 1 matrix with one entry. -/
def one1 (a : ℝ) : Matrix (Fin 1) (Fin 1) ℝ := fun _ _ => a

theorem trivialSVD_ok {a : ℝ} (ha : 0 ≤ a) : IsSVD (one1 a) (trivialSVD (one1 a)).U (trivialSVD (one1 a)).V where
  orthU := by simp [trivialSVD]
  orthV := by simp [trivialSVD]
  diag i j h := absurd (by omega) h
  nonneg i j _ := by simpa [trivialSVD, one1] using ha

theorem trivialSVD_factor (a : ℝ) : lipschitzFactor trivialSVD (.kernel 1 1 (one1 a)) = .ok a := by
  simp [lipschitzFactor, singularValues, diagPart, trivialSVD, one1, reduceMax]

theorem not_lipschitz {f : (Fin 1 → ℝ) → Fin 1 → ℝ} {c k : ℝ} (hck : c < k) (hk : 0 ≤ k)
    (h1 : f 1 - f 0 = fun _ => k) : ¬ IsLipschitz f c := by
  intro h
  have := h 1 0
  rw [h1] at this
  simp [euclid, Real.sqrt_sq hk] at this
  linarith

/-- **C58 (output scale), refuted.** For every output scale greater than one there is a network, with an exact singular value decomposition and
contractive nonlinearities, for which the value of `lipschitz` is not a Lipschitz constant. -/
theorem C58_scale_refuted (scale : ℝ) (h : 1 < scale) :
    ∃ f : NeuralNet 1 1, f.outputScale = scale ∧ f.useBias = true ∧ f.evaluated = true ∧ f.net.Contractive ∧
      f.net.SVDOk trivialSVD ∧ ∃ c, f.lipschitz trivialSVD = .ok c ∧ ¬ IsLipschitz f.evaluate c := by
  refine ⟨⟨.output (one1 1) id, true, scale, true⟩, rfl, rfl, rfl, fun a b => le_refl _,
    trivialSVD_ok zero_le_one, 1, ?_, ?_⟩
  · simp [NeuralNet.lipschitz, NeuralNet.parameters, Net.parameters, parameterIter, pairFirsts,
      lipschitzProduct, trivialSVD_factor, bind, Except.bind]
  · refine not_lipschitz h (by linarith) ?_
    funext j
    simp [NeuralNet.evaluate, Net.forward, dense, one1, vecMul, dotProduct]

/-- **C58 (without biases), refuted.** With two hidden layers and `use_bias=False` the second kernel is skipped. -/
theorem C58_nobias_refuted :
    ∃ f : NeuralNet 1 1, f.outputScale = 1 ∧ f.useBias = false ∧ f.evaluated = true ∧ f.net.Contractive ∧
      f.net.hiddenLayers = 2 ∧
      f.net.SVDOk trivialSVD ∧ ∃ c, f.lipschitz trivialSVD = .ok c ∧ ¬ IsLipschitz f.evaluate c := by
  refine ⟨⟨.hidden (one1 1) 0 id (.hidden (one1 2) 0 id (.output (one1 1) id)), false, 1, true⟩, rfl, rfl, rfl,
    ⟨fun a b => le_refl _, fun a b => le_refl _, fun a b => le_refl _⟩, rfl,
    ⟨trivialSVD_ok zero_le_one, trivialSVD_ok zero_le_two, trivialSVD_ok zero_le_one⟩, 1, ?_, ?_⟩
  · simp [NeuralNet.lipschitz, NeuralNet.parameters, Net.parameters, parameterIter, pairFirsts,
      lipschitzProduct, trivialSVD_factor, bind, Except.bind]
  · refine not_lipschitz (k := 2) (by norm_num) (by norm_num) ?_
    funext j
    simp [NeuralNet.evaluate, Net.forward, dense, one1, vecMul, dotProduct]

/-- Rectangular diagonal matrices with non-negative entries have a singular value decomposition with `U = V = 1`. -/
theorem trivialSVD_diag {m n : ℕ} (W : Matrix (Fin m) (Fin n) ℝ) (hd : ∀ i j, i.1 ≠ j.1 → W i j = 0)
    (hn : ∀ i j, 0 ≤ W i j) : IsSVD W (trivialSVD W).U (trivialSVD W).V where
  orthU := by simp [trivialSVD]
  orthV := by simp [trivialSVD]
  diag i j h := by simpa [trivialSVD] using hd i j h
  nonneg i j _ := by simpa [trivialSVD] using hn i j

/-- A network with two inputs, hidden layers with three and two units, biases and rectified linear units. -/
noncomputable def exampleNet : NeuralNet 2 1 where
  net := .hidden (!![3, 0, 0; 0, 2, 0] : Matrix (Fin 2) (Fin 3) ℝ) ![1, -1, 4] (fun a => max a 0)
    (.hidden (!![1, 0; 0, 2; 0, 0] : Matrix (Fin 3) (Fin 2) ℝ) ![0, 1] (fun a => max a 0)
      (.output (!![5; 0] : Matrix (Fin 2) (Fin 1) ℝ) id))
  useBias := true
  outputScale := 1 / 2
  evaluated := true

theorem exampleNet_svd : exampleNet.net.SVDOk trivialSVD := by
  refine ⟨trivialSVD_diag _ ?_ ?_, trivialSVD_diag _ ?_ ?_, trivialSVD_diag _ ?_ ?_⟩
  all_goals
    intro i j
    fin_cases i <;> fin_cases j <;> simp

/-- The hypotheses of the positive theorem hold for this network. -/
example : ∃ c, exampleNet.lipschitz trivialSVD = .ok c ∧ 0 ≤ c ∧ IsLipschitz exampleNet.evaluate c := by
  have hr : Spec.Contractive fun a => max a 0 := fun a b => abs_max_sub_max_le_abs a b 0
  have hc : exampleNet.net.Contractive := ⟨hr, hr, fun a b => le_refl _⟩
  have hn : exampleNet.net.NonEmpty := by simp [exampleNet, Net.NonEmpty]
  obtain ⟨c, h1, h2, _, h4⟩ := C58_lipschitz_partial exampleNet trivialSVD hc hn exampleNet_svd rfl (Or.inl rfl)
  exact ⟨c, h1, h2, h4 (by norm_num [exampleNet])⟩

end SafeLearning
