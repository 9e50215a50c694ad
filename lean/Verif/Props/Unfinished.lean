import Verif.Model.Unfinished
import Verif.Lemmas.Grid
import Mathlib.Algebra.Order.BigOperators.Group.Finset
set_option autoImplicit false

/-!
# C113, C114, C115: functions that fail
-/

namespace SafeLearning

variable {K : Type}

/-! ## C113 -/

/-- **C113, refuted.** No call of `safety_constraint` returns, whatever the policy, the dynamics, the initial set and the flag are. If the dynamics
and the Lyapunov function can be evaluated, it raises `TypeError`. -/
theorem C113_constraint_refuted [LinearOrder K] {n : ℕ} (bound : Except PyErr (Fin n → K)) (initial : Option (Fin n → Bool)) (inc : Bool) :
    (∀ res, safetyConstraint bound initial inc ≠ .ok res) ∧
      ∀ v, bound = .ok v → safetyConstraint bound initial inc = .error .typeError := by
  cases bound with
  | error e => exact ⟨fun res h => by simp [safetyConstraint, bind, Except.bind] at h, fun v h => by cases h⟩
  | ok v => exact ⟨fun res h => by simp [safetyConstraint, constraintOf, tensorLess, bind, Except.bind] at h, fun _ _ => rfl⟩

/-- **C113, refuted also with the value of the threshold.** Comparing with a tensor of thresholds does not repair the function: with an initial set it
raises `TypeError`. -/
theorem C113_initial_refuted [LinearOrder K] {n : ℕ} (bound thresholds : Fin n → K) (initial : Fin n → Bool) :
    constraintOf bound (.tensor thresholds) (some initial) true = .error .typeError := rfl

/-- **C113, partial.** With thresholds in place of the method, and without an initial set or without the flag, the result marks exactly the states whose bound is
strictly below the threshold. Missing: the actual function, see `C113_constraint_refuted`, and initial sets, see `C113_initial_refuted`. -/
theorem C113_repaired_partial [LinearOrder K] {n : ℕ} (bound thresholds : Fin n → K) (initial : Option (Fin n → Bool)) (inc : Bool)
    (h : initial = none ∨ inc = false) :
    ∃ res, constraintOf bound (.tensor thresholds) initial inc = .ok res ∧ ∀ k, res k = true ↔ bound k < thresholds k := by
  refine ⟨fun k => decide (bound k < thresholds k), ?_, fun k => by simp⟩
  rcases h with rfl | rfl <;> simp [constraintOf, tensorLess, bind, Except.bind]

example : constraintOf ![(1 : ℚ), 2, 3] (.tensor ![2, 2, 2]) (some ![true, true, true]) false = .ok ![true, false, false] :=
  congrArg Except.ok (by decide +kernel)

/-! ## C114 -/

/-- What should be printed for the layers from number `i` on, with `n` inputs and the output dimensions `dims`: the variables of each layer. -/
def _root_.Spec.ownVariables : ℕ → ℕ → List ℕ → List PrintedLayer
  | _, _, [] => []
  | i, n, d :: dims => (.posdef i, if n < d then some (.extra i) else none) :: Spec.ownVariables (i + 1) d dims

/-- The variables in the order of creation: every layer has one, a layer with more outputs than inputs has a second one. -/
def _root_.Spec.createdVariables : ℕ → ℕ → List ℕ → List LayerVar
  | _, _, [] => []
  | i, n, d :: dims => .posdef i :: (if n < d then [.extra i] else []) ++ Spec.createdVariables (i + 1) d dims

/-- **C114, refuted.** `print_params` raises `AttributeError` for every network and prints no layer. -/
theorem C114_print_refuted (net : LyapunovNetwork K) : net.printParams = ([], some .attributeError) := rfl

/-- **C114, partial.** If the parameters were a tensor with their values in the order of creation, exactly networks with at most one layer would be printed
correctly. -/
theorem C114_loop_partial (net : LyapunovNetwork K) :
    net.printFrom (.tensor (Spec.createdVariables 0 net.inputDim net.outputDims)) =
      (Spec.ownVariables 0 net.inputDim net.outputDims, none) ↔ net.outputDims.length ≤ 1 := by
  unfold LyapunovNetwork.printFrom
  generalize net.inputDim = n
  generalize net.outputDims = dims
  match dims with
  | [] => exact iff_of_true rfl (by simp)
  | [d] =>
    refine iff_of_true ?_ (by simp)
    by_cases h : n < d
    · have : 0 < d - n := by omega
      simp [ParameterValue.eval, growing, printLoop, Spec.createdVariables, Spec.ownVariables, h]
    · have : ¬ 0 < d - n := by omega
      simp [ParameterValue.eval, growing, printLoop, Spec.createdVariables, Spec.ownVariables, h]
  | d :: d' :: rest =>
    refine iff_of_false (fun h => ?_) (by simp)
    have h1 := congrArg (fun r => (r.1[1]?).map Prod.fst) h
    simp only [ParameterValue.eval, growing, printLoop, Spec.createdVariables, Spec.ownVariables] at h1
    by_cases hd : n < d <;> by_cases hd' : d < d'
    · simp [hd, hd'] at h1
    · simp [hd, hd'] at h1
    · simp [hd, hd'] at h1
      split at h1 <;> simp at h1
    · cases rest <;> simp [hd, hd', Spec.createdVariables] at h1

/-- **C114, partial (what is shown).** The variables exist in the order of creation. If the parameters were a tensor, line `j` of the output would show the
parameter with number `j` plus the number of earlier layers that do not increase the dimension, and the next one for a layer that increases the dimension. -/
theorem C114_shown_partial (net : LyapunovNetwork K) :
    net.printParams = net.printFrom (.list (Spec.createdVariables 0 net.inputDim net.outputDims)) ∧
    ∀ params j line, (net.printFrom (.tensor params)).1[j]? = some line →
      ∃ n d, (net.inputDim :: net.outputDims)[j]? = some n ∧ net.outputDims[j]? = some d ∧
      let k := j + ((net.inputDim :: net.outputDims).zip net.outputDims |>.take j).countP fun p => decide (p.2 ≤ p.1)
      params[k]? = some line.1 ∧ if n < d then ∃ w, params[k + 1]? = some w ∧ line.2 = some w else line.2 = none := by
  constructor
  · have : ∀ (dims : List ℕ) (i n : ℕ), layerVars i (growing n dims) = Spec.createdVariables i n dims := by
      intro dims
      induction dims with
      | nil => intros; rfl
      | cons d ds ih =>
        intro i n
        simp only [growing, layerVars, Spec.createdVariables, ih, Nat.sub_pos_iff_lt, decide_eq_true_eq]
    unfold LyapunovNetwork.printParams
    rw [this]
  · intro params
    have key : ∀ (dims : List ℕ) (off i n j : ℕ) (line : PrintedLayer), (printLoop params off i (growing n dims)).1[j]? = some line →
        ∃ m d, (n :: dims)[j]? = some m ∧ dims[j]? = some d ∧
        let k := off + i + (j + (((n :: dims).zip dims).take j).countP fun p => decide (p.2 ≤ p.1))
        params[k]? = some line.1 ∧ if m < d then ∃ w, params[k + 1]? = some w ∧ line.2 = some w else line.2 = none := by
      intro dims
      induction dims with
      | nil => intro off i n j line h; simp [growing, printLoop] at h
      | cons d ds ih =>
        intro off i n j line h
        simp only [growing, printLoop] at h
        split at h
        · simp at h
        rename_i W0 hW0
        by_cases hd : n < d
        · have hpos : 0 < d - n := by omega
          rw [if_pos (by simpa using hpos)] at h
          split at h
          · simp at h
          rename_i W1 hW1
          cases j with
          | zero =>
            obtain rfl : (W0, some W1) = line := by simpa using h
            refine ⟨n, d, by simp, by simp, ?_⟩
            simp only [List.take_zero, List.countP_nil, add_zero, if_pos hd]
            exact ⟨hW0, W1, by rw [← hW1]; congr 1; omega, rfl⟩
          | succ j =>
            have := ih off (i + 1) d j line (by simpa using h)
            obtain ⟨m, e, h1, h2, h3⟩ := this
            refine ⟨m, e, by simpa using h1, by simpa using h2, ?_⟩
            have hk : off + (i + 1) + (j + (((d :: ds).zip ds).take j).countP fun p => decide (p.2 ≤ p.1)) =
                off + i + (j + 1 + (((n :: d :: ds).zip (d :: ds)).take (j + 1)).countP fun p => decide (p.2 ≤ p.1)) := by
              rw [List.zip_cons_cons, List.take_succ_cons, List.countP_cons_of_neg (by simpa using hd)]
              omega
            simpa only [hk] using h3
        · have hpos : ¬ 0 < d - n := by omega
          rw [if_neg (by simpa using hpos)] at h
          cases j with
          | zero =>
            obtain rfl : (W0, none) = line := by simpa using h
            refine ⟨n, d, by simp, by simp, ?_⟩
            simp only [List.take_zero, List.countP_nil, add_zero, if_neg hd]
            exact ⟨hW0, trivial⟩
          | succ j =>
            have := ih (off + 1) (i + 1) d j line (by simpa using h)
            obtain ⟨m, e, h1, h2, h3⟩ := this
            refine ⟨m, e, by simpa using h1, by simpa using h2, ?_⟩
            have hk : off + 1 + (i + 1) + (j + (((d :: ds).zip ds).take j).countP fun p => decide (p.2 ≤ p.1)) =
                off + i + (j + 1 + (((n :: d :: ds).zip (d :: ds)).take (j + 1)).countP fun p => decide (p.2 ≤ p.1)) := by
              rw [List.zip_cons_cons, List.take_succ_cons, List.countP_cons_of_pos (by simpa using hd)]
              omega
            simpa only [hk] using h3
    intro j line h
    obtain ⟨m, d, h1, h2, h3⟩ := key net.outputDims 0 0 net.inputDim j line h
    exact ⟨m, d, h1, h2, by simpa only [zero_add] using h3⟩

/-- A network with two layers, both of which increase the dimension: the second line shows the second variable of the first layer. -/
example (net : LyapunovNetwork ℚ) (hn : net.inputDim = 2) (hd : net.outputDims = [3, 4]) :
    net.printFrom (.tensor (Spec.createdVariables 0 2 [3, 4])) =
      ([(.posdef 0, some (.extra 0)), (.extra 0, some (.posdef 1))], none) := by
  unfold LyapunovNetwork.printFrom
  rw [hn, hd]
  decide

/-! ## C115 -/

/-- **C115, refuted.** The constructor of `RBFNetwork` never returns: for a valid grid it raises `AttributeError`. -/
theorem C115_construct_refuted {d : ℕ} (lo hi : Fin d → ℝ) (num : NumPoints) (variances : Option ℝ) :
    (∀ net, RBFNetwork.new none lo hi num variances ≠ .ok net) ∧
      ∀ g v, GridWorld.new lo hi num = .ok g → variances = some v →
        RBFNetwork.new none lo hi num variances = .error .attributeError := by
  refine ⟨fun net h => ?_, fun g v hg hv => ?_⟩
  · unfold RBFNetwork.new at h
    cases hg : GridWorld.new lo hi num with
    | error e => rw [hg] at h; cases h
    | ok g =>
      rw [hg] at h
      cases variances with
      | some v => cases h
      | none =>
        simp only [bind, Except.bind] at h
        cases hm : (npMin (List.ofFn g.unit)).map (· ^ 2) with
        | error e => rw [hm] at h; cases h
        | ok v => rw [hm] at h; cases h
  · unfold RBFNetwork.new
    rw [hg, hv]
    rfl

theorem flatMap_getElem? {α β : Type} (n : ℕ) (f : α → List β) : ∀ (l : List α), (∀ a ∈ l, (f a).length = n) →
    ∀ (i k : ℕ) (hi : i < l.length), k < n → (l.flatMap f)[i * n + k]? = (f l[i])[k]? := by
  intro l
  induction l with
  | nil => intro _ i k hi; simp at hi
  | cons a l ih =>
    intro hl i k hi hk
    rw [List.flatMap_cons]
    have ha := hl a List.mem_cons_self
    cases i with
    | zero => rw [zero_mul, zero_add, List.getElem?_append_left (by omega)]; rfl
    | succ i =>
      rw [List.getElem?_append_right (by rw [ha]; nlinarith), ha,
        show (i + 1) * n + k - n = i * n + k by rw [Nat.succ_mul]; omega,
        ih (fun b hb => hl b (List.mem_cons_of_mem _ hb)) i k (by simpa using hi) hk]
      rfl

theorem reshapeCentres_eq {d : ℕ} (centres : List (Fin d → ℝ)) :
    ∃ r, reshapeCentres centres centres.length = .ok r ∧ ∀ j (k : Fin centres.length), r j k = centres[k] j := by
  have hlen : ((List.finRange d).flatMap fun j => centres.map fun c => c j).length = d * centres.length := by
    simp [List.length_flatMap]
  refine ⟨_, if_pos hlen, fun j k => ?_⟩
  have := flatMap_getElem? centres.length (fun j : Fin d => centres.map fun c => c j) (List.finRange d) (by simp) j.1 k.1
    (by simp) k.2
  rw [List.getD_eq_getElem?_getD, this]
  simp

/-- The radial basis functions with the given centres, variance and weights. -/
noncomputable def _root_.Spec.radialBasis {d : ℕ} (centres : List (Fin d → ℝ)) (variance : ℝ) (weights : List ℝ) (x : Fin d → ℝ) : ℝ :=
  ((centres.zip weights).map fun p => p.2 * Real.exp (-(∑ j, (x j - p.1 j) ^ 2) / (2 * variance))).sum

theorem sum_zip {α β : Type} (f : α → β → ℝ) (b : β) : ∀ (l : List α) (w : List β), w.length = l.length →
    ((l.zip w).map fun p => f p.1 p.2).sum = ∑ k : Fin l.length, f l[k] (w.getD k.1 b) := by
  intro l
  induction l with
  | nil => intro w _; simp
  | cons a l ih =>
    intro w hw
    cases w with
    | nil => simp at hw
    | cons c w =>
      rw [List.zip_cons_cons, List.map_cons, List.sum_cons, ih w (by simpa using hw)]
      simp only [List.length_cons]
      rw [Fin.sum_univ_succ]
      simp

/-- **C115, partial.** A child class that sets `_hidden_units` to the number of grid points gets the radial basis functions centred at the grid points, with the
given variance, and its values are bounded by the sum of the absolute weights. -/
theorem C115_child_class_partial {d : ℕ} (lo hi : Fin d → ℝ) (num : NumPoints) (g : GridWorld ℝ d) (hg : GridWorld.new lo hi num = .ok g) (v : ℝ)
    (weights : List ℝ) (hw : weights.length = g.allPoints.length) (x : Fin d → ℝ) :
    ∃ net y, RBFNetwork.new (some g.allPoints.length) lo hi num (some v) = .ok net ∧ net.evaluate weights x = .ok y ∧
      y = Spec.radialBasis g.allPoints v weights x ∧ (0 ≤ v → |y| ≤ (weights.map fun w => |w|).sum) := by
  obtain ⟨r, hr, hc⟩ := reshapeCentres_eq g.allPoints
  refine ⟨⟨g, 1 / (2 * v), _, r⟩, _, ?_, if_pos hw, ?_, ?_⟩
  · unfold RBFNetwork.new
    rw [hg]
    simp only [bind, Except.bind, hr]
    rfl
  · unfold Spec.radialBasis
    rw [sum_zip (fun c w => w * Real.exp (-(∑ j, (x j - c j) ^ 2) / (2 * v))) 0 _ _ hw]
    refine Finset.sum_congr rfl fun k _ => ?_
    rw [mul_comm]
    congr 2
    simp only [hc]
    ring
  · intro hv
    refine (Finset.abs_sum_le_sum_abs _ _).trans ?_
    have h1 : (weights.map fun w => |w|).sum = ∑ k : Fin g.allPoints.length, |weights.getD k.1 0| := by
      have := sum_zip (fun (_ : Fin d → ℝ) w => |w|) 0 g.allPoints weights hw
      rw [← this]
      congr 1
      conv_lhs => rw [← List.map_snd_zip (l₁ := g.allPoints) (l₂ := weights) (by omega)]
      rw [List.map_map]
      rfl
    rw [h1]
    refine Finset.sum_le_sum fun k _ => ?_
    rw [abs_mul, abs_of_pos (Real.exp_pos _)]
    refine mul_le_of_le_one_left (abs_nonneg _) (Real.exp_le_one_iff.mpr ?_)
    have h2 : 0 ≤ ∑ j, (x j - r j k) ^ 2 := Finset.sum_nonneg fun j _ => sq_nonneg _
    have h3 : 0 ≤ 1 / (2 * v) := by positivity
    nlinarith

theorem npMin_spec (l : List ℝ) (m : ℝ) (h : npMin l = .ok m) : m ∈ l ∧ ∀ a ∈ l, m ≤ a := by
  cases l with
  | nil => cases h
  | cons a l =>
    simp only [npMin, Except.ok.injEq] at h
    subst h
    have key : ∀ (l : List ℝ) (a : ℝ), (l.foldl min a = a ∨ l.foldl min a ∈ l) ∧ l.foldl min a ≤ a ∧ ∀ b ∈ l, l.foldl min a ≤ b := by
      intro l
      induction l with
      | nil => intro a; simp
      | cons b l ih =>
        intro a
        obtain ⟨h1, h2, h3⟩ := ih (min a b)
        rw [List.foldl_cons]
        refine ⟨?_, h2.trans (min_le_left _ _), fun c hc => ?_⟩
        · rcases h1 with h1 | h1
          · rcases min_choice a b with h | h
            · exact Or.inl (h1.trans h)
            · right
              rw [h1, h]
              exact List.mem_cons_self
          · exact Or.inr (List.mem_cons_of_mem _ h1)
        · rcases List.mem_cons.mp hc with rfl | hc
          · exact h2.trans (min_le_right _ _)
          · exact h3 c hc
    obtain ⟨h1, h2, h3⟩ := key l a
    refine ⟨?_, fun b hb => ?_⟩
    · rcases h1 with h1 | h1
      · rw [h1]; exact List.mem_cons_self
      · exact List.mem_cons_of_mem _ h1
    · rcases List.mem_cons.mp hb with rfl | hb
      · exact h2
      · exact h3 b hb

/-- **C115, partial (default variance).** Without a variance, a child class gets the network with the square of the smallest distance of neighbouring grid points along an
axis as variance. In zero dimensions there is no such distance: `ValueError`. -/
theorem C115_default_variance_partial {d : ℕ} (h : ℕ) (lo hi : Fin d → ℝ) (num : NumPoints) (g : GridWorld ℝ d)
    (hg : GridWorld.new lo hi num = .ok g) :
    (d = 0 → RBFNetwork.new (some h) lo hi num none = .error .valueError) ∧
    (0 < d → ∃ i, (∀ j, (g.hi i - g.lo i) / ((g.num i : ℝ) - 1) ≤ (g.hi j - g.lo j) / ((g.num j : ℝ) - 1)) ∧
      RBFNetwork.new (some h) lo hi num none =
        RBFNetwork.new (some h) lo hi num (some (((g.hi i - g.lo i) / ((g.num i : ℝ) - 1)) ^ 2))) := by
  refine ⟨fun hd => ?_, fun hd => ?_⟩
  · subst hd
    unfold RBFNetwork.new
    rw [hg]
    simp [npMin, bind, Except.bind, Except.map]
  · have hne : List.ofFn g.unit ≠ [] := by
      intro h0
      have := congrArg List.length h0
      rw [List.length_ofFn] at this
      simp at this
      omega
    obtain ⟨m, hm⟩ : ∃ m, npMin (List.ofFn g.unit) = .ok m := by
      cases e : List.ofFn g.unit with
      | nil => exact absurd e hne
      | cons a l => exact ⟨_, rfl⟩
    obtain ⟨h1, h2⟩ := npMin_spec _ _ hm
    obtain ⟨i, rfl⟩ := List.mem_ofFn.mp h1
    refine ⟨i, fun j => h2 _ (List.mem_ofFn.mpr ⟨j, rfl⟩), ?_⟩
    unfold RBFNetwork.new
    rw [hg]
    simp only [bind, Except.bind, hm, Except.map]
    rfl

/-- The hypotheses hold for the grid of two points on `[0, 1]`. -/
example : ∃ g : GridWorld ℝ 1, GridWorld.new (fun _ => 0) (fun _ => 1) (.scalar 2) = .ok g ∧ g.allPoints.length = 2 :=
  ⟨⟨fun _ => 0, fun _ => 1, fun _ => 2⟩, by
    simp [GridWorld.new, NumPoints.broadcast, bind, Except.bind], by
    simp [GridWorld.allPoints, GridWorld.discretePoints, meshIJ, linspace, List.range_succ]⟩

end SafeLearning
