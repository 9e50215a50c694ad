import Verif.Model.RefinedTau
import Verif.Props.Adaptive
import Verif.Props.Decrease
set_option autoImplicit false

/-!
# Property C130: the discretization constant of the adaptive check
-/

set_option linter.unusedSectionVars false

namespace SafeLearning

variable {K : Type} [Field K] [LinearOrder K] [IsStrictOrderedRing K] [FloorRing K]

/-- What the adaptive check is for: a state is initially safe, or it satisfies the decrease condition with the discretization constant
`tau / N` for a refinement `N` that was allowed. -/
def _root_.Spec.RefinedCertificate {Prog Θ : Type} {n : ℕ} (W : World K Prog Θ n) (prog : Prog) (tau : K) (initial : Option (Fin n → Bool))
    (maxRefinement : ℕ) (θ : Θ) (j : Fin n) : Prop :=
  (∃ I, initial = some I ∧ I j = true) ∨
    ∃ N : ℕ, 1 ≤ N ∧ (N ≤ maxRefinement ∨ N = 1) ∧ W.decrease prog θ j < W.threshold θ j (tau / N)

namespace Lyap

variable {Prog Θ : Type} {n : ℕ}

/-! ## Python floats and tensors -/

/-- No call gets through: the object only changes by `update_values`. -/
theorem runTyped_error (W : World K Prog Θ n) (kind : TauKind) (e : PyErr) (he : ∀ t : K, castTau kind t = .error e)
    (ops : List ((ℕ × UpdateArgs K × Θ) ⊕ Θ)) : ∀ s : Lyap K Prog n, s.graph = none → s.adaptive = true →
      (runTyped W kind s ops).graph = none ∧ (runTyped W kind s ops).adaptive = true ∧
      (runTyped W kind s ops).safeSet = s.safeSet := by
  induction ops with
  | nil => intro s hg ha; exact ⟨hg, ha, rfl⟩
  | cons op ops ih =>
    intro s hg ha
    cases op with
    | inl a =>
      obtain ⟨batch, args, θ⟩ := a
      have : (updateSafeSetTyped W kind batch args s θ).1 = s := by
        unfold updateSafeSetTyped
        rw [hg, ha, he]
      rw [runTyped, this]
      exact ih s hg ha
    | inr θ =>
      rw [runTyped]
      exact ih (updateValues W s θ) hg ha

/-- **C130, refuted** for Python floats and for tensors. With `adaptive=True`, every call of `update_safe_set` on an object whose `tau` is a
Python float raises `TypeError` (`ValueError` if it is a tensor), after every history of calls and for all arguments, also without
refinement. The safe set is the initial one for ever. -/
theorem C130_python_float_refuted (W : World K Prog Θ n) (prog : Prog) (tau : K) (initial : Option (Fin n → Bool)) (θ₀ : Θ)
    (history : List ((ℕ × UpdateArgs K × Θ) ⊕ Θ)) (batch : ℕ) (args : UpdateArgs K) (θ : Θ) :
    let s (kind : TauKind) := runTyped W kind (new W prog tau initial true θ₀) history
    (updateSafeSetTyped W .pythonFloat batch args (s .pythonFloat) θ).2 = .error .typeError ∧
    (updateSafeSetTyped W .tensor batch args (s .tensor) θ).2 = .error .valueError ∧
    ∀ kind, kind = .pythonFloat ∨ kind = .tensor → ∀ j,
      (updateSafeSetTyped W kind batch args (s kind) θ).1.safeSet j = true ↔ ∃ I, initial = some I ∧ I j = true := by
  intro s
  have key : ∀ kind e, (∀ t : K, castTau kind t = .error e) →
      updateSafeSetTyped W kind batch args (s kind) θ = (s kind, .error e) ∧
        (s kind).safeSet = (new W prog tau initial true θ₀).safeSet := by
    intro kind e he
    obtain ⟨h1, h2, h3⟩ := runTyped_error W kind e he history (new W prog tau initial true θ₀) rfl rfl
    refine ⟨?_, h3⟩
    unfold updateSafeSetTyped
    rw [show (s kind).graph = none from h1, show (s kind).adaptive = true from h2, he]
  have k1 := key .pythonFloat .typeError fun t => rfl
  have k2 := key .tensor .valueError fun t => rfl
  refine ⟨by rw [k1.1], by rw [k2.1], ?_⟩
  have fin : ∀ j, (new W prog tau initial true θ₀).safeSet j = true ↔ ∃ I, initial = some I ∧ I j = true := by
    intro j
    unfold new
    cases initial with
    | none => simp
    | some I => simp
  rintro kind (rfl | rfl) j
  · rw [k1.1, k1.2]; exact fin j
  · rw [k2.1, k2.2]; exact fin j

/-- Without `adaptive` every type of `tau` works in the same way. -/
theorem C130_not_adaptive (W : World K Prog Θ n) (kind : TauKind) (s : Lyap K Prog n) (ha : s.adaptive = false) (batch : ℕ)
    (args : UpdateArgs K) (θ : Θ) :
    updateSafeSetTyped W kind batch args s θ = updateSafeSet (W.withTau kind) batch args s θ := by
  unfold updateSafeSetTyped
  rw [ha]
  split <;> simp_all

/-! ## Numpy numbers and integers -/

theorem castTau_ok {kind : TauKind} (hk : kind = .pythonInt ∨ kind = .numpyFloat) (t : K) : ∃ c, castTau kind t = .ok c := by
  rcases hk with rfl | rfl <;> exact ⟨_, rfl⟩

theorem updateSafeSetTyped_ok (W : World K Prog Θ n) {kind : TauKind} (hk : kind = .pythonInt ∨ kind = .numpyFloat)
    (batch : ℕ) (args : UpdateArgs K) (s : Lyap K Prog n) (θ : Θ) :
    updateSafeSetTyped W kind batch args s θ = updateSafeSet (W.withTau kind) batch args s θ := by
  obtain ⟨c, hc⟩ := castTau_ok hk s.tau
  unfold updateSafeSetTyped
  rw [hc]
  split
  · rename_i h
    cases h
  · rfl

/-- The captured safety factor is at least one. -/
def FactorGeOne (s : Lyap K Prog n) : Prop := ∀ G, s.graph = some G → 1 ≤ G.safetyFactor

theorem FactorGeOne.graphFor {s : Lyap K Prog n} (h : s.FactorGeOne) (sf : K) : 1 ≤ (s.graphFor sf).safetyFactor := by
  unfold Lyap.graphFor
  cases hs : s.graph with
  | none => exact le_max_right _ _
  | some G => exact h G hs

theorem runTyped_consistent (W : World K Prog Θ n) {kind : TauKind} (hk : kind = .pythonInt ∨ kind = .numpyFloat)
    {prog : Prog} {tau : K} {initial : Option (Fin n → Bool)} {adaptive : Bool}
    (ops : List ((ℕ × UpdateArgs K × Θ) ⊕ Θ)) : ∀ s : Lyap K Prog n, s.Consistent prog tau initial adaptive → s.FactorGeOne →
      (runTyped W kind s ops).Consistent prog tau initial adaptive ∧ (runTyped W kind s ops).FactorGeOne := by
  induction ops with
  | nil => intro s h1 h2; exact ⟨h1, h2⟩
  | cons op ops ih =>
    intro s h1 h2
    cases op with
    | inl a =>
      obtain ⟨batch, args, θ⟩ := a
      rw [runTyped, updateSafeSetTyped_ok W hk]
      refine ih _ (consistent_step (W.withTau kind) s (.update batch args θ) trivial h1) fun G hG => ?_
      rw [(update_fields (W.withTau kind) batch args s θ).2.2.2.2.2.1] at hG
      cases hG
      exact h2.graphFor _
    | inr θ =>
      rw [runTyped]
      exact ih (updateValues W s θ) ⟨h1.hprog, h1.htau, h1.hinitial, h1.hadaptive, h1.hgraph⟩ h2

/-- The required refinement is enough: with a negative threshold, `N` times the decrease is at most the threshold. -/
theorem nReq_enough (W : World K Prog Θ n) (G : Graph K Prog) (hG : 1 ≤ G.safetyFactor) (θ : Θ) (x : Fin n)
    (ht : W.threshold θ x G.tau ≤ 0) (h1 : 1 ≤ nReq W G θ x) :
    W.decrease G.prog θ x < 0 ∧ (nReq W G θ x : K) * W.decrease G.prog θ x ≤ W.threshold θ x G.tau := by
  unfold nReq at h1 ⊢
  simp only [] at h1 ⊢
  set D := W.decrease G.prog θ x
  set T := W.threshold θ x G.tau
  by_cases h0 : D = 0
  · rw [if_pos h0] at h1; omega
  rw [if_neg h0] at h1 ⊢
  have hpos : 0 < max (G.safetyFactor * T / D) 0 := by
    have : 0 < ⌈max (G.safetyFactor * T / D) 0⌉₊ := h1
    exact Nat.ceil_pos.mp this
  have hr : 0 < G.safetyFactor * T / D := by
    rcases lt_max_iff.mp hpos with h | h
    · exact h
    · exact absurd h (lt_irrefl _)
  have hsT : G.safetyFactor * T ≤ T := by nlinarith
  have hneg : D < 0 := by
    rcases lt_or_gt_of_ne h0 with h | h
    · exact h
    · exfalso
      have : G.safetyFactor * T / D ≤ 0 := div_nonpos_of_nonpos_of_nonneg (hsT.trans ht) h.le
      linarith
  refine ⟨hneg, ?_⟩
  have hc : G.safetyFactor * T / D ≤ (⌈max (G.safetyFactor * T / D) 0⌉₊ : K) := (le_max_left _ _).trans (Nat.le_ceil _)
  have := (div_le_iff_of_neg hneg).mp hc
  linarith

/-- **C130, numpy numbers** (partial: not strict). `tau` is a numpy number or an integer and thresholds are proportional to `tau` and not positive. After any history of calls, a state
that is safe after `update_safe_set` is initially safe, was safe before (`can_shrink=False`), or satisfies
`decrease <= threshold(tau / N)` for a refinement `N` between one and `max_refinement`. Missing: strict inequality, see
`C130_numpy_float_refuted`, and the other types of `tau`, see `C130_python_float_refuted`. -/
theorem C130_refined_partial (W : World K Prog Θ n) {kind : TauKind} (hk : kind = .pythonInt ∨ kind = .numpyFloat)
    (prog : Prog) (tau : K) (initial : Option (Fin n → Bool)) (adaptive : Bool) (θ₀ : Θ)
    (history : List ((ℕ × UpdateArgs K × Θ) ⊕ Θ)) (batch : ℕ) (args : UpdateArgs K) (θ : Θ)
    (hlin : ∀ j N, W.threshold θ j (tau / N) = W.threshold θ j tau / N) (hneg : ∀ j, W.threshold θ j tau ≤ 0) :
    let s := runTyped W kind (new W prog tau initial adaptive θ₀) history
    let r := updateSafeSetTyped W kind batch args s θ
    r.2 = .ok () → ∀ j, r.1.safeSet j = true →
      (∃ I, initial = some I ∧ I j = true) ∨ (args.canShrink = false ∧ s.safeSet j = true) ∨
      ∃ N : ℕ, 1 ≤ N ∧ (N ≤ args.maxRefinement ∨ N = 1) ∧ W.decrease prog θ j ≤ W.threshold θ j (tau / N) := by
  intro s r hok j hj
  obtain ⟨hcon, hfac⟩ := runTyped_consistent W hk history (new W prog tau initial adaptive θ₀)
    (consistent_new W prog tau initial adaptive θ₀) (fun G h => by cases h)
  have hr : r = updateSafeSet (W.withTau kind) batch args s θ := updateSafeSetTyped_ok W hk batch args s θ
  rw [hr] at hok hj
  have hG := hcon.graphFor args.safetyFactor
  have hsf := hfac.graphFor args.safetyFactor
  have hnegative : negative (W.withTau kind) (s.graphFor args.safetyFactor) θ j = true →
      ∃ N : ℕ, 1 ≤ N ∧ (N ≤ args.maxRefinement ∨ N = 1) ∧ W.decrease prog θ j ≤ W.threshold θ j (tau / N) := by
    intro h
    unfold negative at h
    rw [hG.1, hG.2.1, decide_eq_true_eq] at h
    refine ⟨1, le_refl _, Or.inr rfl, ?_⟩
    rw [Nat.cast_one, div_one]
    exact h.le
  rcases updateSafeSet_reason (W.withTau kind) s θ batch args hok j hj with h | h | h | ⟨N, h⟩
  · unfold startFlag at h
    cases hc : args.canShrink with
    | true =>
      rw [hc, if_pos rfl, initialMem_iff, hcon.hinitial] at h
      exact Or.inl h
    | false =>
      rw [hc] at h
      exact Or.inr (Or.inl ⟨rfl, by simpa using h⟩)
  · rw [initialMem_iff, hcon.hinitial] at h
    exact Or.inl h
  · exact Or.inr (Or.inr (hnegative h))
  · obtain ⟨-, -, h3, h4, -, h | h | h⟩ := h
    · exact Or.inr (Or.inr (hnegative h))
    · rw [initialMem_iff, hcon.hinitial] at h
      exact Or.inl h
    · right; right
      refine ⟨N, h3, Or.inl h4, ?_⟩
      have h5 := nReq_enough (W.withTau kind) (s.graphFor args.safetyFactor) hsf θ j
        (by rw [hG.2.1]; exact hneg j) (by rw [← h]; exact h3)
      rw [← h, hG.1, hG.2.1] at h5
      have hN : (0 : K) < N := by exact_mod_cast h3
      rw [hlin, le_div_iff₀ hN, mul_comm]
      exact h5.2

/-- **C130, integers.** If `tau` is a Python integer, the property holds as stated. -/
theorem C130_integer (W : World K Prog Θ n) (prog : Prog) (tau : K) (initial : Option (Fin n → Bool)) (adaptive : Bool) (θ₀ : Θ)
    (history : List ((ℕ × UpdateArgs K × Θ) ⊕ Θ)) (batch : ℕ) (args : UpdateArgs K) (hc : args.canShrink = true) (θ : Θ) :
    let s := runTyped W .pythonInt (new W prog tau initial adaptive θ₀) history
    let r := updateSafeSetTyped W .pythonInt batch args s θ
    r.2 = .ok () → ∀ j, r.1.safeSet j = true → Spec.RefinedCertificate W prog tau initial args.maxRefinement θ j := by
  intro s r hok j hj
  obtain ⟨hcon, -⟩ := runTyped_consistent W (Or.inl rfl) history (new W prog tau initial adaptive θ₀)
    (consistent_new W prog tau initial adaptive θ₀) (fun G h => by cases h)
  have hr : r = updateSafeSet (W.withTau .pythonInt) batch args s θ :=
    updateSafeSetTyped_ok W (Or.inl rfl) batch args s θ
  rw [hr] at hok hj
  have hG := hcon.graphFor args.safetyFactor
  have hinit : s.initialMem j = true → ∃ I, initial = some I ∧ I j = true := by
    intro h
    rw [initialMem_iff, hcon.hinitial] at h
    exact h
  rcases updateSafeSet_reason (W.withTau .pythonInt) s θ batch args hok j hj with h | h | h | ⟨N, h⟩
  · unfold startFlag at h
    rw [hc, if_pos rfl] at h
    exact Or.inl (hinit h)
  · exact Or.inl (hinit h)
  · unfold negative at h
    rw [hG.1, hG.2.1, decide_eq_true_eq] at h
    refine Or.inr ⟨1, le_refl _, Or.inr rfl, ?_⟩
    rw [Nat.cast_one, div_one]
    exact h
  · obtain ⟨-, -, h3, h4, h5, -⟩ := h
    rw [hG.1, hG.2.1] at h5
    exact Or.inr ⟨N, h3, Or.inl h4, h5⟩

/-- **C130, refuted** for numpy numbers, the type of `tau` in the notebook: the quotient is zero, so the state 0 is accepted with refinement two
although its decrease is `-1/4` and the decrease condition for `tau = 1/2` is `decrease < -1/(2 N)`. -/
theorem C130_numpy_float_refuted :
    ∃ (f V : ℚ → ℚ),
      let W := lineWorld f V
      let r := updateSafeSetTyped W .numpyFloat 10 ⟨true, 2, 1⟩ (new W () (1 / 2) (some fun _ => false) true ()) ()
      r.2 = .ok () ∧ ∃ j : Fin lineGrid.nindex, r.1.safeSet j = true ∧ r.1.refinement j = 2 ∧
        ¬ Spec.RefinedCertificate W () (1 / 2) (some fun _ => false) 2 () j := by
  refine ⟨fun x => if x = 0 then -1 / 4 else x, fun x => x, by decide +kernel, ⟨0, by decide +kernel⟩, by decide +kernel,
    by decide +kernel, ?_⟩
  rintro (⟨I, hI, h⟩ | ⟨N, h1, h2, h⟩)
  · cases hI
    exact Bool.noConfusion h
  · have : N = 1 ∨ N = 2 := by omega
    rcases this with rfl | rfl
    · exact absurd h (by decide +kernel)
    · exact absurd h (by decide +kernel)

/-- With an integer `tau = 1` the same check accepts a state with refinement two, so the conclusion of `C130_integer` is not void. -/
example : let W := lineWorld (fun x => if x = 0 then -3 / 4 else x) fun x => x
    let r := updateSafeSetTyped W .pythonInt 10 ⟨true, 2, 1⟩ (new W () 1 (some fun _ => false) true ()) ()
    r.2 = .ok () ∧ ∃ j, r.1.safeSet j = true ∧ r.1.refinement j = 2 := by
  refine ⟨by decide +kernel, ⟨0, by decide +kernel⟩, by decide +kernel, by decide +kernel⟩

end Lyap

variable {Prog Θ : Type} {d : ℕ}

/-- **C130, what the adaptive safe set means** (partial: the rest of the cell is not covered, see `C28_refined_points_refuted`). `tau` is a numpy number or an
integer, the Lipschitz constants are numbers, and the closed loop `f` is contained in the predictions. A state `x` of the grid that is safe after `update_safe_set(can_shrink=True)` is
initially safe, or the Lyapunov function does not increase along `f` at all states within `tau / N` of `x`, for a refinement `N` that was allowed. -/
theorem C130_decrease_nearby_partial (sys : System K Prog Θ d) (g : GridWorld K d)
    (argsort : (Fin g.nindex → K) → List (Fin g.nindex)) (tauDiv : K → ℕ → K) {kind : TauKind}
    (hk : kind = .pythonInt ∨ kind = .numpyFloat) (prog : Prog) (tau : K) (htau : 0 ≤ tau)
    (initial : Option (Fin g.nindex → Bool)) (adaptive : Bool) (θ₀ : Θ)
    (history : List ((ℕ × Lyap.UpdateArgs K × Θ) ⊕ Θ)) (batch : ℕ) (args : Lyap.UpdateArgs K) (hc : args.canShrink = true) (θ : Θ)
    (Lv Lf : K) (hLv : 0 ≤ Lv) (hLf : 0 ≤ Lf) (hlv : sys.lv θ = .const Lv) (hlf : sys.lf θ = .const Lf)
    (f : (Fin d → K) → Fin d → K)
    (hV : ∀ y z, |sys.V θ y - sys.V θ z| ≤ Lv * ∑ i, |y i - z i|)
    (hf : ∀ y z, ∑ i, |f y i - f z i| ≤ Lf * ∑ i, |y i - z i|)
    (hp : ∀ x, (sys.closedLoop prog θ x).Contains (f x)) :
    let W := sys.world g argsort tauDiv
    let s := Lyap.runTyped W kind (Lyap.new W prog tau initial adaptive θ₀) history
    let r := Lyap.updateSafeSetTyped W kind batch args s θ
    r.2 = .ok () → ∀ j, r.1.safeSet j = true →
      (∃ I, initial = some I ∧ I j = true) ∨
      ∃ N : ℕ, 1 ≤ N ∧ (N ≤ args.maxRefinement ∨ N = 1) ∧
        ∀ z : Fin d → K, ∑ i, |z i - gridState g j i| ≤ tau / N → sys.V θ (f z) ≤ sys.V θ z := by
  intro W s r hok j hj
  have hthr : ∀ (j : Fin g.nindex) (t : K), W.threshold θ j t = -Lv * (1 + Lf) * t := by
    intro j t
    change thresholdAt (sys.lv θ) (sys.lf θ) _ t = _
    rw [hlv, hlf]
    rfl
  rcases Lyap.C130_refined_partial W hk prog tau initial adaptive θ₀ history batch args θ
    (fun j N => by rw [hthr, hthr, mul_div_assoc])
    (fun j => by rw [hthr]; nlinarith [mul_nonneg (mul_nonneg hLv (by linarith : 0 ≤ 1 + Lf)) htau]) hok j hj with h | h | h
  · exact Or.inl h
  · rw [hc] at h
    exact absurd h.1 (by simp)
  · obtain ⟨N, h1, h2, h3⟩ := h
    refine Or.inr ⟨N, h1, h2, fun z hz => ?_⟩
    set x := gridState g j with hx
    have h3' : vDecreaseBound (sys.V θ) (.const Lv) x (sys.closedLoop prog θ x) ≤ -Lv * (1 + Lf) * (tau / N) := by
      rw [hthr] at h3
      rw [← hlv]
      exact h3
    have b1 := C26_v_decrease_bound_constant (sys.V θ) Lv hLv hV x (f x) _ (hp x)
    have b2 := (abs_le.mp (hV (f z) (f x))).2
    have b3 := (abs_le.mp (hV z x)).1
    have b4 : Lv * ∑ i, |f z i - f x i| ≤ Lv * (Lf * (tau / N)) :=
      mul_le_mul_of_nonneg_left ((hf z x).trans (mul_le_mul_of_nonneg_left hz hLf)) hLv
    have b5 : Lv * ∑ i, |z i - x i| ≤ Lv * (tau / N) := mul_le_mul_of_nonneg_left hz hLv
    linarith

/-- A call that meets the hypotheses: `V(x) = x`, the closed loop maps everything to `-1/4`, `tau = 1/2` is a numpy number. The state 0 is accepted with
refinement two. -/
example : let W := Lyap.lineWorld (fun _ => -1 / 4) fun x => x
    let r := Lyap.updateSafeSetTyped W .numpyFloat 10 ⟨true, 2, 1⟩ (Lyap.new W () (1 / 2) (some fun _ => false) true ()) ()
    (r.2 = .ok () ∧ r.1.safeSet ⟨0, by decide +kernel⟩ = true ∧ r.1.refinement ⟨0, by decide +kernel⟩ = 2) ∧
    ∃ N : ℕ, 1 ≤ N ∧ (N ≤ 2 ∨ N = 1) ∧
      ∀ z : Fin 1 → ℚ, ∑ i, |z i - gridState Lyap.lineGrid 0 i| ≤ 1 / 2 / N → -1 / 4 ≤ z 0 := by
  intro W r
  have h : r.2 = .ok () ∧ r.1.safeSet ⟨0, by decide +kernel⟩ = true ∧ r.1.refinement ⟨0, by decide +kernel⟩ = 2 := by
    decide +kernel
  refine ⟨h, ?_⟩
  rcases C130_decrease_nearby_partial (Lyap.lineSystem (fun _ => -1 / 4) fun x => x) Lyap.lineGrid
    (fun v => (List.finRange _).insertionSort fun i j => v i ≤ v j) (fun t k => t / k) (Or.inr rfl) () (1 / 2) (by norm_num)
    (some fun _ => false) true () [] 10 ⟨true, 2, 1⟩ rfl () 1 0 (by norm_num) (le_refl _) rfl rfl (fun _ _ => -1 / 4)
    (fun y z => by simp [Lyap.lineSystem]) (fun y z => by simp) (fun x => rfl) h.1 _ h.2.1 with ⟨I, hI, h'⟩ | h'
  · cases hI
    exact Bool.noConfusion h'
  · exact h'

end SafeLearning
