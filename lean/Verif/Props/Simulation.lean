import Verif.Model.Simulation
import Verif.Spec.Simulation
import Mathlib.Algebra.BigOperators.Fin
import Mathlib.Algebra.Order.BigOperators.Ring.Finset
import Mathlib.Algebra.Field.GeomSum
import Mathlib.Analysis.InnerProductSpace.PiL2
import Mathlib.Tactic.Linarith
import Mathlib.Tactic.FieldSimp
set_option autoImplicit false

/-!
# Simulation helpers of the examples: C73, C74, C75
-/

set_option linter.unusedSectionVars false

namespace SafeLearning

variable {K : Type} [Field K] [LinearOrder K] [IsStrictOrderedRing K] {d m : ℕ}

/-! ## C74 -/

theorem maxAbs_lt (l : List K) (h : l ≠ []) (tol : K) :
    ∃ s, maxAbs l = .ok s ∧ (s < tol ↔ ∀ v ∈ l, |v| < tol) := by
  obtain ⟨v, vs, rfl⟩ := List.exists_cons_of_ne_nil h
  refine ⟨_, rfl, ?_⟩
  have : ∀ (vs : List K) (a : K), vs.foldl (fun acc w => max acc |w|) a < tol ↔ a < tol ∧ ∀ w ∈ vs, |w| < tol := by
    intro vs
    induction vs with
    | nil => simp
    | cons w ws ih => intro a; simp [ih, and_assoc]
  rw [this]; simp

theorem rolloutLoop_spec (f : (Fin d → K) → Fin d → K) (r : (Fin d → K) → K) (γ tol : K)
    (ps : List (Fin d → K)) (hne : ps ≠ []) :
    ∀ fuel t, ∃ T conv, t ≤ T ∧ T ≤ t + fuel ∧
      rolloutLoop (List.map f) (List.map r) γ tol fuel t (ps.map (Spec.discountedReturn γ f r t))
        (ps.map (f^[t])) = .ok (ps.map (Spec.discountedReturn γ f r T), conv) ∧
      (conv = true → t < T ∧ ∀ x ∈ ps, |γ ^ (T - 1) * r (f^[T - 1] x)| < tol) ∧
      (conv = false → T = t + fuel) ∧
      ∀ s, t ≤ s → s < T → (s + 1 < T ∨ conv = false) → ∃ x ∈ ps, tol ≤ |γ ^ s * r (f^[s] x)| := by
  intro fuel
  induction fuel with
  | zero =>
    intro t
    exact ⟨t, false, le_rfl, le_rfl, rfl, by simp, by simp, fun s h1 h2 _ => by omega⟩
  | succ n ih =>
    intro t
    have e1 : ((ps.map (f^[t])).map r).map (fun r => γ ^ t * r) = ps.map fun x => γ ^ t * r (f^[t] x) := by
      simp [List.map_map, Function.comp_def]
    have e2 : (ps.map (Spec.discountedReturn γ f r t)).zipWith (· + ·) (ps.map fun x => γ ^ t * r (f^[t] x)) =
        ps.map (Spec.discountedReturn γ f r (t + 1)) := by
      rw [List.zipWith_map, List.zipWith_self]
      refine List.map_congr_left fun x _ => ?_
      rw [Spec.discountedReturn, Spec.discountedReturn, Finset.sum_range_succ]
    have e3 : (ps.map (f^[t])).map f = ps.map (f^[t + 1]) := by
      rw [List.map_map, Function.iterate_succ']
    obtain ⟨s, hs1, hs2⟩ := maxAbs_lt (ps.map fun x => γ ^ t * r (f^[t] x)) (by simpa using hne) tol
    rw [rolloutLoop]
    dsimp only
    rw [e1, e2, e3]
    simp only [List.length_map, ne_eq, not_true_eq_false, if_false, hs1]
    by_cases hlt : s < tol
    · refine ⟨t + 1, true, by omega, by omega, by simp [bind, Except.bind, hlt, pure, Except.pure], ?_, by simp, ?_⟩
      · intro _
        refine ⟨by omega, fun x hx => ?_⟩
        exact hs2.mp hlt _ (List.mem_map_of_mem (f := fun x => γ ^ t * r (f^[t] x)) hx)
      · intro s' h1 h2 h3
        rcases h3 with h3 | h3
        · omega
        · cases h3
    · obtain ⟨T, conv, h1, h2, h3, h4, h5, h6⟩ := ih (t + 1)
      refine ⟨T, conv, by omega, by omega, ?_, fun h => ⟨by have := (h4 h).1; omega, (h4 h).2⟩,
        fun h => by have := h5 h; omega, ?_⟩
      · simp only [bind, Except.bind, hlt, if_false]
        exact h3
      · intro s' h1' h2' h3'
        rcases Nat.lt_or_ge t s' with h | h
        · exact h6 s' h h2' h3'
        · obtain rfl : s' = t := by omega
          by_contra hcon
          refine hlt (hs2.mpr fun v hv => ?_)
          obtain ⟨x, hx, rfl⟩ := List.mem_map.mp hv
          by_contra hcon2
          exact hcon ⟨x, hx, not_lt.mp hcon2⟩

/-- **C74**: for row-wise dynamics and rewards and a list of states that is not empty, the result is the discounted return of
the first `T` steps for every state. `T` is the horizon, unless all contributions of step `T - 1` are below `tol`; before
step `T - 1` no step has this property. -/
theorem C74_rollout (f : (Fin d → K) → Fin d → K) (r : (Fin d → K) → K) (γ tol : K) (horizon : ℕ)
    (ps : List (Fin d → K)) (hne : ps ≠ []) :
    ∃ T conv, T ≤ horizon ∧
      rewardRollout ps (List.map f) (List.map r) γ horizon tol =
        .ok (ps.map (Spec.discountedReturn γ f r T), conv) ∧
      (conv = true → 0 < T ∧ ∀ x ∈ ps, |γ ^ (T - 1) * r (f^[T - 1] x)| < tol) ∧
      (conv = false → T = horizon) ∧
      ∀ s, s < T → (s + 1 < T ∨ conv = false) → ∃ x ∈ ps, tol ≤ |γ ^ s * r (f^[s] x)| := by
  obtain ⟨T, conv, h1, h2, h3, h4, h5, h6⟩ := rolloutLoop_spec f r γ tol ps hne horizon 0
  refine ⟨T, conv, by omega, ?_, h4, fun h => by have := h5 h; omega, fun s hs h => h6 s (by omega) hs h⟩
  rw [← h3, rewardRollout]
  congr 1
  simp

/-- The tail of a discounted return with rewards bounded by `R` from step `T` on. -/
theorem discountedReturn_tail (f : (Fin d → K) → Fin d → K) (r : (Fin d → K) → K) (γ R : K) (h0 : 0 ≤ γ) (h1 : γ < 1)
    (T N : ℕ) (x : Fin d → K) (hTN : T ≤ N) (hR : ∀ t, T ≤ t → |γ ^ t * r (f^[t] x)| ≤ γ ^ (t - T) * R) :
    |Spec.discountedReturn γ f r N x - Spec.discountedReturn γ f r T x| ≤ R / (1 - γ) := by
  obtain ⟨n, rfl⟩ := Nat.exists_eq_add_of_le hTN
  have hR0 : 0 ≤ R := by
    have := (abs_nonneg _).trans (hR T le_rfl)
    simpa using this
  have e : Spec.discountedReturn γ f r (T + n) x - Spec.discountedReturn γ f r T x =
      ∑ t ∈ Finset.range n, γ ^ (T + t) * r (f^[T + t] x) := by
    unfold Spec.discountedReturn
    rw [Finset.sum_range_add, add_sub_cancel_left]
  rw [e]
  calc |∑ t ∈ Finset.range n, γ ^ (T + t) * r (f^[T + t] x)|
      ≤ ∑ t ∈ Finset.range n, |γ ^ (T + t) * r (f^[T + t] x)| := Finset.abs_sum_le_sum_abs _ _
    _ ≤ ∑ t ∈ Finset.range n, γ ^ t * R := Finset.sum_le_sum fun t _ => by
        have := hR (T + t) (by omega)
        rwa [Nat.add_sub_cancel_left] at this
    _ = (∑ t ∈ Finset.range n, γ ^ t) * R := by rw [Finset.sum_mul]
    _ ≤ 1 / (1 - γ) * R := by
        refine mul_le_mul_of_nonneg_right ?_ hR0
        rw [geom_sum_eq h1.ne, ← neg_div_neg_eq, neg_sub, neg_sub]
        exact div_le_div_of_nonneg_right (by linarith [pow_nonneg h0 n]) (by linarith)
    _ = R / (1 - γ) := by ring

/-- **C74**, error of the truncation: if the rewards are bounded by `R` and no convergence is reported, the result differs
from the return of every longer horizon by at most `γ ^ horizon * R / (1 - γ)`. -/
theorem C74_truncation (f : (Fin d → K) → Fin d → K) (r : (Fin d → K) → K) (γ tol R : K) (horizon : ℕ)
    (ps : List (Fin d → K)) (hne : ps ≠ []) (h0 : 0 ≤ γ) (h1 : γ < 1) (hR : ∀ x, |r x| ≤ R) (out : List K)
    (hout : rewardRollout ps (List.map f) (List.map r) γ horizon tol = .ok (out, false)) :
    ∀ (i : ℕ) x v, ps[i]? = some x → out[i]? = some v → ∀ N, horizon ≤ N →
      |Spec.discountedReturn γ f r N x - v| ≤ γ ^ horizon * R / (1 - γ) := by
  obtain ⟨T, conv, _, h3, _, h5, _⟩ := C74_rollout f r γ tol horizon ps hne
  rw [h3] at hout
  obtain ⟨rfl, rfl⟩ : _ = out ∧ conv = false := by simpa using hout
  obtain rfl := h5 rfl
  intro i x v hx hv N hN
  rw [List.getElem?_map, hx] at hv
  obtain rfl : _ = v := by simpa using hv
  refine discountedReturn_tail f r γ _ h0 h1 T N x hN fun t ht => ?_
  rw [abs_mul, abs_of_nonneg (pow_nonneg h0 t), ← mul_assoc, ← pow_add, Nat.sub_add_cancel ht]
  exact mul_le_mul_of_nonneg_left (hR _) (pow_nonneg h0 t)

/-- **C74**, meaning of "converged" (partial: rewards whose size does not grow along trajectories): if convergence is
reported, the result differs from the return of every longer horizon by at most `γ * tol / (1 - γ)`. Missing: other rewards, see
`C74_convergence_refuted`. -/
theorem C74_convergence_partial (f : (Fin d → K) → Fin d → K) (r : (Fin d → K) → K) (γ tol : K) (horizon : ℕ)
    (ps : List (Fin d → K)) (hne : ps ≠ []) (h0 : 0 ≤ γ) (h1 : γ < 1) (hr : ∀ x, |r (f x)| ≤ |r x|) (out : List K)
    (hout : rewardRollout ps (List.map f) (List.map r) γ horizon tol = .ok (out, true)) :
    ∀ (i : ℕ) x v, ps[i]? = some x → out[i]? = some v → ∀ N, horizon ≤ N →
      |Spec.discountedReturn γ f r N x - v| ≤ γ * tol / (1 - γ) := by
  obtain ⟨T, conv, hT, h3, h4, _, _⟩ := C74_rollout f r γ tol horizon ps hne
  rw [h3] at hout
  obtain ⟨rfl, rfl⟩ : _ = out ∧ conv = true := by simpa using hout
  obtain ⟨hpos, hsmall⟩ := h4 rfl
  intro i x v hx hv N hN
  rw [List.getElem?_map, hx] at hv
  obtain rfl : _ = v := by simpa using hv
  have hsm := (hsmall x (List.mem_of_getElem? hx)).le
  obtain ⟨n, rfl⟩ : ∃ n, T = n + 1 := ⟨T - 1, by omega⟩
  simp only [Nat.add_sub_cancel] at hsm
  refine discountedReturn_tail f r γ _ h0 h1 (n + 1) N x (by omega) fun t ht => ?_
  obtain ⟨k, rfl⟩ := Nat.exists_eq_add_of_le ht
  have hdec : ∀ k, |r (f^[n + k] x)| ≤ |r (f^[n] x)| := by
    intro k
    induction k with
    | zero => exact le_rfl
    | succ k ih =>
      rw [← Nat.add_assoc, Function.iterate_succ_apply']
      exact (hr _).trans ih
  have := hdec (1 + k)
  rw [Nat.add_sub_cancel_left, abs_mul, abs_of_nonneg (pow_nonneg h0 _)]
  rw [abs_mul, abs_of_nonneg (pow_nonneg h0 _)] at hsm
  calc γ ^ (n + 1 + k) * |r (f^[n + 1 + k] x)| ≤ γ ^ (n + 1 + k) * |r (f^[n] x)| := by
        rw [Nat.add_assoc n 1 k]
        exact mul_le_mul_of_nonneg_left this (pow_nonneg h0 _)
    _ = γ ^ k * (γ * (γ ^ n * |r (f^[n] x)|)) := by ring
    _ ≤ γ ^ k * (γ * tol) :=
        mul_le_mul_of_nonneg_left (mul_le_mul_of_nonneg_left hsm h0) (pow_nonneg h0 _)

/-- **C74**: a reported convergence does not bound the remaining sum. For every discount `γ > 0` and every bound there are
dynamics and a reward so that convergence is reported after one step with result zero, while the return of two steps
exceeds the bound. -/
theorem C74_convergence_refuted (γ tol B : K) (hγ : 0 < γ) (htol : 0 < tol) :
    ∃ (f : (Fin 1 → K) → Fin 1 → K) (r : (Fin 1 → K) → K) (x : Fin 1 → K),
      (∀ horizon, 1 ≤ horizon → rewardRollout [x] (List.map f) (List.map r) γ horizon tol = .ok ([0], true)) ∧
      B < |Spec.discountedReturn γ f r 2 x| := by
  refine ⟨fun _ _ => (|B| + 1) / γ, fun x => x 0, fun _ => 0, fun horizon hh => ?_, ?_⟩
  · obtain ⟨n, rfl⟩ : ∃ n, horizon = n + 1 := ⟨horizon - 1, by omega⟩
    simp [rewardRollout, rolloutLoop, maxAbs, bind, Except.bind, htol, pure, Except.pure]
  · have : Spec.discountedReturn γ (fun (_ : Fin 1 → K) (_ : Fin 1) => (|B| + 1) / γ) (fun x => x 0) 2 (fun _ => 0) = |B| + 1 := by
      simp only [Spec.discountedReturn, Finset.sum_range_succ, Finset.sum_range_zero, Function.iterate_zero,
        Function.iterate_one, id_eq]
      field_simp
      ring
    rw [this, abs_of_nonneg (by positivity)]
    linarith [le_abs_self B]

/-- **C74**: without states `np.max` raises `ValueError`, unless the horizon is zero. -/
theorem C74_no_states (f : (Fin d → K) → Fin d → K) (r : (Fin d → K) → K) (γ tol : K) (horizon : ℕ) :
    rewardRollout [] (List.map f) (List.map r) γ horizon tol =
      if horizon = 0 then .ok ([], false) else .error .valueError := by
  cases horizon <;> simp [rewardRollout, rolloutLoop, maxAbs, bind, Except.bind]

example : rewardRollout [![1], ![(2 : ℚ)]] (List.map fun x i => x i / 2) (List.map fun x => x 0) (1 / 2) 10 (1 / 3) =
    .ok ([1 + 1 / 4 + 1 / 16, 2 + 1 / 2 + 1 / 8], true) := by decide +kernel
example : rewardRollout [![1], ![(2 : ℚ)]] (List.map fun x i => x i / 2) (List.map fun x => x 0) (1 / 2) 2 (1 / 3) =
    .ok ([1 + 1 / 4, 2 + 1 / 2], false) := by decide +kernel

/-! ## C73 -/

theorem endStates_eq (F : List (Fin d → ℝ) → List (Fin d → ℝ)) (t : ℕ) (ps : List (Fin d → ℝ)) :
    endStates F t ps = F^[t] ps := by
  induction t generalizing ps with
  | zero => rfl
  | succ n ih => rw [endStates, ih, Function.iterate_succ_apply]

theorem trajectoryLoop_eq (F : List (Fin d → ℝ) → List (Fin d → ℝ)) (hF : ∀ l, (F l).length = l.length) (n t : ℕ)
    (ps : List (Fin d → ℝ)) (hps : ps.length = n) :
    trajectoryLoop F n t ps = .ok ((List.range t).map fun s => F^[s + 1] ps) := by
  induction t generalizing ps with
  | zero => rfl
  | succ k ih =>
    rw [trajectoryLoop, List.range_succ_eq_map]
    simp only [hF, hps, ih (F ps) (by rw [hF, hps]), bind, Except.bind, pure, Except.pure, ne_eq, not_true_eq_false,
      if_false, List.map_cons, List.map_map]
    rfl

theorem getLastD_snoc {A : Type} (a b c : A) (l : List A) : (a :: (l ++ [b])).getLastD c = b := by
  rw [← List.cons_append]
  exact List.getLastD_concat ..

theorem iterate_map (f : (Fin d → ℝ) → Fin d → ℝ) (t : ℕ) (ps : List (Fin d → ℝ)) :
    (List.map f)^[t] ps = ps.map (f^[t]) := by
  induction t generalizing ps with
  | zero => simp
  | succ n ih => rw [Function.iterate_succ_apply, ih, List.map_map, Function.iterate_succ]

theorem nearEquilibrium_iff (e : Option (Fin d → ℝ)) (tol : ℝ) (x : Fin d → ℝ) :
    nearEquilibrium e tol x ↔ dist (WithLp.toLp 2 x) (WithLp.toLp 2 (e.getD 0)) ≤ tol := by
  rw [EuclideanSpace.dist_eq]
  simp [nearEquilibrium, Real.dist_eq, sq_abs]

/-- **C73**: with and without stored trajectories, for every horizon of at least one, every row-wise closed loop and every
list of states, a state is marked exactly if the state after `horizon - 1` steps is within `tol` of the equilibrium (the
origin by default). The stored trajectories contain every state along the way. -/
theorem C73_roa (f : (Fin d → ℝ) → Fin d → ℝ) (horizon : ℕ) (hh : 1 ≤ horizon) (tol : ℝ) (e : Option (Fin d → ℝ))
    (ps : List (Fin d → ℝ)) :
    ∃ marks trajectories, computeRoa ps (List.map f) horizon tol e true = .ok (marks, none) ∧
      computeRoa ps (List.map f) horizon tol e false = .ok (marks, some trajectories) ∧
      marks.length = ps.length ∧ trajectories.length = horizon ∧
      ∀ (i : ℕ) x, ps[i]? = some x →
        (marks[i]? = some true ↔
          dist (WithLp.toLp 2 (f^[horizon - 1] x)) (WithLp.toLp 2 (e.getD 0)) ≤ tol) ∧
        ∀ t, t < horizon → ∃ row, trajectories[t]? = some row ∧ row[i]? = some (f^[t] x) := by
  obtain ⟨n, rfl⟩ : ∃ n, horizon = n + 1 := ⟨horizon - 1, by omega⟩
  have hT : trajectoryLoop (List.map f) ps.length n ps = .ok ((List.range n).map fun s => ps.map (f^[s + 1])) := by
    rw [trajectoryLoop_eq _ (by simp) _ _ _ rfl]
    simp only [iterate_map]
  have hlast : (ps :: (List.range n).map fun s => ps.map (f^[s + 1])).getLastD [] = ps.map (f^[n]) := by
    cases n with
    | zero => simp
    | succ k => rw [List.range_succ, List.map_append]; exact getLastD_snoc _ _ _ _
  refine ⟨_, ps :: (List.range n).map fun s => ps.map (f^[s + 1]), by simp only [computeRoa, if_true]; rfl, ?_, ?_, ?_, ?_⟩
  · simp only [computeRoa, Bool.false_eq_true, if_false, Nat.add_eq_zero_iff, one_ne_zero, and_false,
      Nat.add_sub_cancel, hT, bind, Except.bind, pure, Except.pure, hlast, endStates_eq, iterate_map]
  · simp [endStates_eq, iterate_map]
  · simp
  · intro i x hx
    refine ⟨?_, fun t ht => ?_⟩
    · simp [endStates_eq, iterate_map, hx, nearEquilibrium_iff]
    · cases t with
      | zero => exact ⟨ps, by simp, by simpa using hx⟩
      | succ k => exact ⟨ps.map (f^[k + 1]), by simp [(by omega : k < n)], by simp [hx]⟩

/-- **C73**: the marks do not depend on storing the trajectories, for every closed loop on batches that keeps the number of
rows, row-wise or not. -/
theorem C73_modes_agree (F : List (Fin d → ℝ) → List (Fin d → ℝ)) (hF : ∀ l, (F l).length = l.length) (horizon : ℕ)
    (hh : 1 ≤ horizon) (tol : ℝ) (e : Option (Fin d → ℝ)) (ps : List (Fin d → ℝ)) :
    ∃ marks trajectories, computeRoa ps F horizon tol e true = .ok (marks, none) ∧
      computeRoa ps F horizon tol e false = .ok (marks, some trajectories) := by
  obtain ⟨n, rfl⟩ : ∃ n, horizon = n + 1 := ⟨horizon - 1, by omega⟩
  have hlast : (ps :: (List.range n).map fun s => F^[s + 1] ps).getLastD [] = F^[n] ps := by
    cases n with
    | zero => simp
    | succ k => rw [List.range_succ, List.map_append]; exact getLastD_snoc _ _ _ _
  refine ⟨_, ps :: (List.range n).map fun s => F^[s + 1] ps, by simp only [computeRoa, if_true]; rfl, ?_⟩
  · simp only [computeRoa, Bool.false_eq_true, if_false, Nat.add_eq_zero_iff, one_ne_zero, and_false,
      Nat.add_sub_cancel, trajectoryLoop_eq F hF _ _ _ rfl, bind, Except.bind, pure, Except.pure, hlast, endStates_eq]

/-- **C73**, horizon zero: with trajectories `IndexError` is raised, without the result is that of horizon one. -/
theorem C73_horizon_zero (F : List (Fin d → ℝ) → List (Fin d → ℝ)) (tol : ℝ) (e : Option (Fin d → ℝ))
    (ps : List (Fin d → ℝ)) :
    computeRoa ps F 0 tol e false = .error .indexError ∧
    computeRoa ps F 0 tol e true = computeRoa ps F 1 tol e true :=
  ⟨by simp [computeRoa], by simp [computeRoa]⟩

/-- A concrete case for C73: halving maps both 1 and 4 into distance 1/2 after three steps, but not 5. -/
example : computeRoa [fun _ : Fin 1 => (1 : ℝ), fun _ => 4, fun _ => 5] (List.map fun x i => x i / 2) 4 (1 / 2) none true =
    .ok ([true, true, false], none) := by
  simp [computeRoa, endStates, nearEquilibrium, Real.sqrt_sq_eq_abs]
  norm_num [abs_of_pos]

/-! ## C75 -/

/-- The states of a result as a list. -/
def Gathered.toRows : Gathered K d → List (Fin d → K)
  | .rows xs => xs
  | .single x => [x]

theorem gatherWhere_toRows (batch : List (Fin d → K)) (mask : (Fin d → K) → Bool) :
    (gatherWhere batch mask).toRows = batch.filter mask := by
  unfold gatherWhere
  split <;> simp_all [Gathered.toRows]

theorem gatherWhere_rows (batch : List (Fin d → K)) (mask : (Fin d → K) → Bool) (h : (batch.filter mask).length ≠ 1) :
    gatherWhere batch mask = .rows (batch.filter mask) := by
  unfold gatherWhere
  split
  · rename_i x hx; simp [hx] at h
  · rfl

theorem gatherWhere_single (batch : List (Fin d → K)) (mask : (Fin d → K) → Bool) (h : (batch.filter mask).length = 1) :
    ∃ x, batch.filter mask = [x] ∧ gatherWhere batch mask = .single x := by
  obtain ⟨x, hx⟩ := List.length_eq_one_iff.mp h
  exact ⟨x, hx, by simp [gatherWhere, hx]⟩

/-- **C75** (partial: without `action_limit`): the returned states are exactly the states of the batch whose next state lies in
`[-1, 1]`, in the same order, followed by `zero_pad` zeros. Missing: `action_limit`, see `C75_action_limit_refuted`, and the
case of exactly one admissible state, see `C75_single_refuted`. -/
theorem C75_maps_inside_partial (dynamics : (Fin d → K) → (Fin m → K) → Fin d → K) (policy : (Fin d → K) → Fin m → K)
    (batch : List (Fin d → K)) (zeroPad : ℕ)
    (h1 : (batch.filter fun x => decide (∀ i, |dynamics x (policy x) i| ≤ 1)).length ≠ 1) :
    ∃ xs, constrainedBatchSampler dynamics policy batch none zeroPad = .ok (.rows (xs ++ List.replicate zeroPad 0)) ∧
      xs.Sublist batch ∧ ∀ x, x ∈ xs ↔ x ∈ batch ∧ ∀ i, |dynamics x (policy x) i| ≤ 1 := by
  have e : (fun x => decide (∀ i, -1 ≤ dynamics x (policy x) i ∧ dynamics x (policy x) i ≤ 1)) =
      fun x => decide (∀ i, |dynamics x (policy x) i| ≤ 1) := by
    funext x; simp only [abs_le]
  refine ⟨batch.filter fun x => decide (∀ i, |dynamics x (policy x) i| ≤ 1), ?_, List.filter_sublist, by simp⟩
  simp only [constrainedBatchSampler, e, gatherWhere_rows _ _ h1, padZeros]
  split_ifs with hz
  · rfl
  · obtain rfl : zeroPad = 0 := by omega
    simp

/-- **C75** (partial: the action constraint of `action_limit`): with a limit, the returned states are exactly those of the batch
whose actions lie within the limit. -/
theorem C75_action_limit_partial (dynamics : (Fin d → K) → (Fin m → K) → Fin d → K) (policy : (Fin d → K) → Fin m → K)
    (batch : List (Fin d → K)) (zeroPad : ℕ) (limit : K)
    (h1 : (batch.filter fun x => decide (∀ i, |policy x i| ≤ |limit|)).length ≠ 1) :
    ∃ xs, constrainedBatchSampler dynamics policy batch (some limit) zeroPad =
        .ok (.rows (xs ++ List.replicate zeroPad 0)) ∧
      xs.Sublist batch ∧ ∀ x, x ∈ xs ↔ x ∈ batch ∧ ∀ i, |policy x i| ≤ |limit| := by
  have e : (fun x => decide (∀ i, -|limit| ≤ policy x i ∧ policy x i ≤ |limit|)) =
      fun x => decide (∀ i, |policy x i| ≤ |limit|) := by
    funext x; simp only [abs_le]
  refine ⟨batch.filter fun x => decide (∀ i, |policy x i| ≤ |limit|), ?_, List.filter_sublist, by simp⟩
  simp only [constrainedBatchSampler, e, gatherWhere_rows _ _ h1, padZeros]
  split_ifs with hz
  · rfl
  · obtain rfl : zeroPad = 0 := by omega
    simp

/-- **C75** (partial), without padding: also a single admissible state is returned, but without the batch axis. -/
theorem C75_unpadded_partial (dynamics : (Fin d → K) → (Fin m → K) → Fin d → K) (policy : (Fin d → K) → Fin m → K)
    (batch : List (Fin d → K)) :
    ∃ g, constrainedBatchSampler dynamics policy batch none 0 = .ok g ∧
      ∀ x, x ∈ g.toRows ↔ x ∈ batch ∧ ∀ i, |dynamics x (policy x) i| ≤ 1 := by
  refine ⟨_, rfl, fun x => ?_⟩
  rw [gatherWhere_toRows]
  simp [abs_le]

/-- **C75** fails with `action_limit`: the first constraint is dropped. For every limit there are dynamics that map every
state of every batch outside, while all of them are returned. -/
theorem C75_action_limit_refuted (limit : K) (batch : List (Fin 1 → K)) (h : batch.length ≠ 1) :
    let dynamics : (Fin 1 → K) → (Fin 1 → K) → Fin 1 → K := fun _ _ _ => 2
    let policy : (Fin 1 → K) → Fin 1 → K := fun _ _ => 0
    constrainedBatchSampler dynamics policy batch (some limit) 0 = .ok (.rows batch) ∧
    ∀ x ∈ batch, ¬ ∀ i, |dynamics x (policy x) i| ≤ 1 := by
  intro dynamics policy
  have hall : (batch.filter fun x => decide (∀ i, |policy x i| ≤ |limit|)) = batch := by
    simp [policy]
  obtain ⟨xs, h1, h2, h3⟩ := C75_action_limit_partial dynamics policy batch 0 limit (by rw [hall]; exact h)
  refine ⟨?_, fun x _ hx => ?_⟩
  · have e : (fun x => decide (∀ i : Fin 1, -|limit| ≤ policy x i ∧ policy x i ≤ |limit|)) =
        fun x => decide (∀ i, |policy x i| ≤ |limit|) := by
      funext x; simp only [abs_le]
    simp only [constrainedBatchSampler, e, gatherWhere_rows _ _ (by rw [hall]; exact h), padZeros, hall]
    simp
  · have := hx 0
    norm_num [dynamics] at this

/-- **C75** fails if exactly one state is admissible: the result is a single row without the batch axis, and padding
raises. -/
theorem C75_single_refuted (dynamics : (Fin d → K) → (Fin m → K) → Fin d → K) (policy : (Fin d → K) → Fin m → K)
    (batch : List (Fin d → K)) (zeroPad : ℕ)
    (h1 : (batch.filter fun x => decide (∀ i, |dynamics x (policy x) i| ≤ 1)).length = 1) :
    (∃ x, constrainedBatchSampler dynamics policy batch none 0 = .ok (.single x)) ∧
    (0 < zeroPad → constrainedBatchSampler dynamics policy batch none zeroPad = .error .valueError) := by
  have e : (fun x => decide (∀ i, -1 ≤ dynamics x (policy x) i ∧ dynamics x (policy x) i ≤ 1)) =
      fun x => decide (∀ i, |dynamics x (policy x) i| ≤ 1) := by
    funext x; simp only [abs_le]
  obtain ⟨x, _, hx⟩ := gatherWhere_single _ _ h1
  refine ⟨⟨x, ?_⟩, fun hz => ?_⟩
  · simp only [constrainedBatchSampler, e, hx, padZeros]
    simp
  · simp only [constrainedBatchSampler, e, hx, padZeros, if_pos hz]

/-- A batch with two admissible states and one that is not; and a batch with a single admissible state. -/
example : let dynamics : (Fin 1 → ℚ) → (Fin 1 → ℚ) → Fin 1 → ℚ := fun x u i => 2 * x i + u i
    let policy : (Fin 1 → ℚ) → Fin 1 → ℚ := fun _ _ => 1 / 2
    (([fun _ => 0, fun _ => -1 / 2, fun _ => 1].filter fun x => decide (∀ i, |dynamics x (policy x) i| ≤ 1)).length = 2) ∧
    (([fun _ => 0, fun _ => 1].filter fun x => decide (∀ i, |dynamics x (policy x) i| ≤ 1)).length = 1) := by
  decide +kernel

end SafeLearning
