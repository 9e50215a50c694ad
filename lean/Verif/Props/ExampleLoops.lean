import Verif.Model.ExampleLoops
import Verif.Props.Decrease
import Verif.Props.SafeSample
import Verif.Lemmas.Sparse
import Mathlib.Tactic.FinCases
set_option autoImplicit false

/-!
# C107-C109: the loops of the notebooks
-/

namespace SafeLearning

variable {K : Type} [Field K] [LinearOrder K] [IsStrictOrderedRing K]

/-! ## C107 -/

theorem maxChange_le {n : ℕ} (a b : Fin (n + 1) → K) (tol : K) : maxChange a b ≤ tol ↔ ∀ i, |a i - b i| ≤ tol := by
  refine (Finset.sup'_le_iff ⟨0, Finset.mem_univ _⟩ _).trans ?_
  simp

/-- The entries of two parameter vectors differ by at most `tol`. -/
def _root_.Spec.Close {n : ℕ} (tol : K) (a b : Fin n → K) : Prop := ∀ i, |a i - b i| ≤ tol

/-- The parameters before round `t`: zeros in the first round, then those of the round before. -/
def _root_.Spec.before {P : Type} {n : ℕ} (step : P → P) (read : P → Fin n → K) (p : P) : ℕ → Fin n → K
  | 0 => fun _ => 0
  | t + 1 => read (step^[t + 1] p)

theorem convergenceLoop_spec {P : Type} {n m : ℕ} (step : P → P) (values : P → Fin (n + 1) → K)
    (actions : P → Fin (m + 1) → K) (tol : K) (p : P) (left : ℕ) :
    ∀ i, (∀ t < i, ¬ (Spec.Close tol (Spec.before step values p t) (values (step^[t + 1] p)) ∧
        Spec.Close tol (Spec.before step actions p t) (actions (step^[t + 1] p)))) →
      let r := convergenceLoop step values actions tol left i (step^[i] p) (Spec.before step values p i)
        (Spec.before step actions p i)
      ∃ t, r.iterations = t + 1 ∧ t ≤ i + left ∧ (r.converged = false → t = i + left) ∧
        r.valueChange = maxChange (Spec.before step values p t) (values (step^[t + 1] p)) ∧
        r.actionsChange = maxChange (Spec.before step actions p t) (actions (step^[t + 1] p)) ∧
        (r.converged = true ↔ Spec.Close tol (Spec.before step values p t) (values (step^[t + 1] p)) ∧
          Spec.Close tol (Spec.before step actions p t) (actions (step^[t + 1] p))) ∧
        ∀ s < t, ¬ (Spec.Close tol (Spec.before step values p s) (values (step^[s + 1] p)) ∧
          Spec.Close tol (Spec.before step actions p s) (actions (step^[s + 1] p))) := by
  induction left with
  | zero =>
    intro i hi r
    have es : step (step^[i] p) = step^[i + 1] p := (Function.iterate_succ_apply' step i p).symm
    have hr : r = convergenceLoop step values actions tol 0 i (step^[i] p) (Spec.before step values p i)
        (Spec.before step actions p i) := rfl
    unfold convergenceLoop at hr
    simp only [es] at hr
    simp only [maxChange_le] at hr
    by_cases h : (∀ j, |Spec.before step values p i j - values (step^[i + 1] p) j| ≤ tol) ∧
        ∀ j, |Spec.before step actions p i j - actions (step^[i + 1] p) j| ≤ tol
    · rw [if_pos h] at hr
      rw [hr]
      exact ⟨i, rfl, by omega, by simp, rfl, rfl, iff_of_true rfl h, hi⟩
    · rw [if_neg h] at hr
      rw [hr]
      exact ⟨i, rfl, by omega, by simp, rfl, rfl, iff_of_false (by simp) h, hi⟩
  | succ left ih =>
    intro i hi r
    have es : step (step^[i] p) = step^[i + 1] p := (Function.iterate_succ_apply' step i p).symm
    have hr : r = convergenceLoop step values actions tol (left + 1) i (step^[i] p) (Spec.before step values p i)
        (Spec.before step actions p i) := rfl
    unfold convergenceLoop at hr
    simp only [es] at hr
    simp only [maxChange_le] at hr
    by_cases h : (∀ j, |Spec.before step values p i j - values (step^[i + 1] p) j| ≤ tol) ∧
        ∀ j, |Spec.before step actions p i j - actions (step^[i + 1] p) j| ≤ tol
    · rw [if_pos h] at hr
      rw [hr]
      exact ⟨i, rfl, by omega, by simp, rfl, rfl, iff_of_true rfl h, hi⟩
    · rw [if_neg h] at hr
      obtain ⟨t, e1, e2, e3, e4⟩ := ih (i + 1) (fun t ht => by
        rcases Nat.lt_succ_iff_lt_or_eq.mp ht with h' | rfl
        · exact hi t h'
        · exact h)
      rw [hr]
      exact ⟨t, e1, by omega, fun hc => by have := e3 hc; omega, e4⟩

/-- **C107** The report of the policy iteration for the mountain car with `rounds > 0`: `converged` says that in the last round, and in no round before, no value
and no action changed by more than `tol`; the reported changes are those of the last round, which is round `rounds` if the loop did not converge. -/
theorem C107_report {P : Type} {n m : ℕ} (step : P → P) (values : P → Fin (n + 1) → K)
    (actions : P → Fin (m + 1) → K) (tol : K) (rounds : ℕ) (hr : 0 < rounds) (p : P) :
    ∃ r t, trainCar step values actions tol rounds p = some r ∧ r.iterations = t + 1 ∧ t < rounds ∧
      (r.converged = true ↔ Spec.Close tol (Spec.before step values p t) (values (step^[t + 1] p)) ∧
        Spec.Close tol (Spec.before step actions p t) (actions (step^[t + 1] p))) ∧
      (r.converged = false → r.iterations = rounds) ∧
      (∀ s < t, ¬ (Spec.Close tol (Spec.before step values p s) (values (step^[s + 1] p)) ∧
        Spec.Close tol (Spec.before step actions p s) (actions (step^[s + 1] p)))) ∧
      (∀ c, r.valueChange ≤ c ↔ Spec.Close c (Spec.before step values p t) (values (step^[t + 1] p))) ∧
      ∀ c, r.actionsChange ≤ c ↔ Spec.Close c (Spec.before step actions p t) (actions (step^[t + 1] p)) := by
  obtain ⟨left, rfl⟩ : ∃ left, rounds = left + 1 := ⟨rounds - 1, by omega⟩
  obtain ⟨t, e1, e2, e3, e4, e5, e6, e7⟩ := convergenceLoop_spec step values actions tol p left 0 (by simp)
  refine ⟨_, t, rfl, e1, by omega, e6, fun h => ?_, e7, fun c => ?_, fun c => ?_⟩
  · exact e1.trans (by have := e3 h; omega)
  · exact (iff_of_eq (congrArg (· ≤ c) e4)).trans (maxChange_le _ _ _)
  · exact (iff_of_eq (congrArg (· ≤ c) e5)).trans (maxChange_le _ _ _)

/-- A step that halves the values: the changes are `1, 1/2, 1/4, ...`. -/
example : (trainCar (fun p : ℚ => p / 2) (fun p (_ : Fin 1) => p) (fun _ (_ : Fin 1) => 0) (1 / 10) 30 2).map
    (fun r => (r.converged, r.iterations, r.valueChange)) = some (true, 5, 1 / 16) := by decide +kernel

theorem carLoop_spec {X : Type} (next : X → X) (terminal : X → Bool) (x0 : X) (left : ℕ) :
    ∀ i (states : ℕ → X), (∀ t ≤ i, states t = next^[t] x0) → (∀ s, 1 ≤ s → s ≤ i → terminal (next^[s] x0) = false) →
      ∀ t ≤ i + left,
        ((∀ s, 1 ≤ s → s ≤ t → terminal (next^[s] x0) = false) →
          carLoop next terminal left i states t = next^[t] x0) ∧
        ∀ s, 1 ≤ s → s ≤ t → terminal (next^[s] x0) = true →
          (∀ r, 1 ≤ r → r < s → terminal (next^[r] x0) = false) →
          carLoop next terminal left i states t = next^[s] x0 := by
  induction left with
  | zero =>
    intro i states hs hn t ht
    refine ⟨fun _ => hs t ht, fun s h1 h2 h3 => ?_⟩
    rw [hn s h1 (h2.trans ht)] at h3
    cases h3
  | succ left ih =>
    intro i states hs hn t ht
    have e1 : next (states i) = next^[i + 1] x0 := by rw [hs i le_rfl, Function.iterate_succ_apply']
    have hs' : ∀ t ≤ i + 1, Function.update states (i + 1) (next (states i)) t = next^[t] x0 := by
      intro t ht
      by_cases h : t = i + 1
      · rw [h, Function.update_self, e1]
      · rw [Function.update_of_ne h, hs t (by omega)]
    unfold carLoop
    simp only [hs' (i + 1) le_rfl]
    by_cases hterm : terminal (next^[i + 1] x0) = true
    · rw [if_pos hterm]
      constructor
      · intro h
        by_cases hle : i + 1 ≤ t
        · rw [h (i + 1) (by omega) hle] at hterm; cases hterm
        · rw [if_neg hle, hs' t (by omega)]
      · intro s h1 h2 h3 h4
        have hsi : s = i + 1 := by
          by_contra hne
          rcases Nat.lt_or_gt_of_ne hne with h | h
          · rw [hn s h1 (by omega)] at h3; cases h3
          · rw [h4 (i + 1) (by omega) h] at hterm; cases hterm
        rw [if_pos (by omega), hsi]
    · rw [if_neg hterm]
      refine ih (i + 1) _ hs' (fun s h1 h2 => ?_) t (by omega)
      rcases Nat.lt_succ_iff_lt_or_eq.mp (Nat.lt_succ_of_le h2) with h | rfl
      · exact hn s h1 (by omega)
      · simpa using hterm

/-- **C107 (mountain car).** With actions in `[-1, 1]` the states at which the car can stay are the ones without velocity at which the slope is at most `2/5` of
the largest slope; where the slope is larger, every action makes the car slower (uphill), so that it has to gain speed elsewhere. The velocity
changes by at most `7/2000` in a step, and the position by the velocity. -/
theorem C107_car (x : Fin 2 → ℝ) :
    ((∃ u, |u| ≤ 1 ∧ carDynamics x u = x) ↔ x 1 = 0 ∧ |Real.cos (3 * x 0)| ≤ 2 / 5) ∧
    (∀ u, |u| ≤ 1 → 2 / 5 < Real.cos (3 * x 0) → carDynamics x u 1 < x 1) ∧
    (∀ u, |u| ≤ 1 → |carDynamics x u 1 - x 1| ≤ 7 / 2000) ∧
    ∀ u, carDynamics x u 0 - x 0 = x 1 := by
  have e0 : ∀ u, carDynamics x u 0 = x 0 + x 1 := fun u => rfl
  have e1 : ∀ u, carDynamics x u 1 = x 1 + (1 / 1000) * u - (25 / 10000) * Real.cos (3 * x 0) := fun u => rfl
  refine ⟨⟨?_, ?_⟩, ?_, ?_, ?_⟩
  · rintro ⟨u, hu, h⟩
    have h0 := congrFun h 0
    have h1 := congrFun h 1
    rw [e0] at h0
    rw [e1] at h1
    rw [abs_le] at hu
    refine ⟨by linarith, abs_le.mpr ⟨?_, ?_⟩⟩ <;> linarith [hu.1, hu.2]
  · rintro ⟨h0, h1⟩
    rw [abs_le] at h1
    refine ⟨5 / 2 * Real.cos (3 * x 0), abs_le.mpr ⟨by linarith [h1.1], by linarith [h1.2]⟩, ?_⟩
    funext i
    fin_cases i
    · show carDynamics x _ 0 = x 0
      rw [e0, h0, add_zero]
    · show carDynamics x _ 1 = x 1
      rw [e1]
      ring
  · intro u hu hc
    rw [e1]
    linarith [(abs_le.mp hu).2]
  · intro u hu
    rw [e1]
    have := Real.neg_one_le_cos (3 * x 0)
    have := Real.cos_le_one (3 * x 0)
    rw [abs_le] at hu ⊢
    constructor <;> linarith [hu.1, hu.2]
  · intro u
    rw [e0]
    ring

/-- At rest in a valley the car can stay. -/
example : ∃ u, |u| ≤ 1 ∧ carDynamics ![-(Real.pi / 6), 0] u = ![-(Real.pi / 6), 0] := by
  rw [(C107_car _).1]
  refine ⟨rfl, ?_⟩
  have : 3 * (![-(Real.pi / 6), 0] : Fin 2 → ℝ) 0 = -(Real.pi / 2) := by
    show 3 * -(Real.pi / 6) = _
    ring
  rw [this, Real.cos_neg, Real.cos_pi_div_two]
  norm_num

/-- **C107** The trajectory has `n` rows. As long as no state after the initial one is terminal, row `t` is the state after `t` steps; from the first terminal state on, all
rows are this state. -/
theorem C107_trajectory {X : Type} (next : X → X) (terminal : X → Bool) (zero x0 : X) (n : ℕ) :
    (carTrajectory next terminal zero x0 n).length = n ∧
    ∀ t < n,
      ((∀ s, 1 ≤ s → s ≤ t → terminal (next^[s] x0) = false) →
        (carTrajectory next terminal zero x0 n)[t]? = some (next^[t] x0)) ∧
      ∀ s, 1 ≤ s → s ≤ t → terminal (next^[s] x0) = true → (∀ r, 1 ≤ r → r < s → terminal (next^[r] x0) = false) →
        (carTrajectory next terminal zero x0 n)[t]? = some (next^[s] x0) := by
  refine ⟨by simp [carTrajectory], fun t ht => ?_⟩
  obtain ⟨h1, h2⟩ := carLoop_spec next terminal x0 (n - 1) 0 (Function.update (fun _ => zero) 0 x0)
    (fun t ht => by
      obtain rfl : t = 0 := by omega
      simp) (fun s h1 h2 => by omega) t (by omega)
  have e : (carTrajectory next terminal zero x0 n)[t]? =
      some (carLoop next terminal (n - 1) 0 (Function.update (fun _ => zero) 0 x0) t) := by
    simp [carTrajectory, ht]
  rw [e]
  exact ⟨fun h => congrArg some (h1 h), fun s a b c d => congrArg some (h2 s a b c d)⟩

example : carTrajectory (fun x : ℕ => x + 1) (fun x => decide (3 ≤ x)) 0 0 6 = [0, 1, 2, 3, 3, 3] := by decide

/-! ## C108 -/

/-- **C108** `update_gp` raises `ValueError` if the safe set is empty. Otherwise it measures at a safe grid state with the action of the policy, at which the
standard deviation is at least that of every safe state. -/
theorem C108_update_gp {X U : Type} (grid : List X) (safe : List Bool) (policy : X → U) (std : X → U → K)
    (measure : X → U → X) (hlen : safe.length = grid.length) :
    ((∀ k : ℕ, safe[k]? ≠ some true) → updateGp grid safe policy std measure = .error .valueError) ∧
    ((∃ k : ℕ, safe[k]? = some true) → ∃ x : X, ∃ k : ℕ, grid[k]? = some x ∧ safe[k]? = some true ∧
      updateGp grid safe policy std measure = .ok ((x, policy x), measure x (policy x)) ∧
      ∀ (j : ℕ) y, grid[j]? = some y → safe[j]? = some true → std y (policy y) ≤ std x (policy x)) := by
  have hmem : ∀ x, x ∈ ((grid.zip safe).filter fun p => p.2).map Prod.fst ↔
      ∃ k : ℕ, grid[k]? = some x ∧ safe[k]? = some true := by
    intro x
    constructor
    · intro h
      obtain ⟨⟨a, b⟩, h1, rfl⟩ := List.mem_map.mp h
      obtain ⟨h1, h2⟩ := List.mem_filter.mp h1
      obtain ⟨k, hk⟩ := List.mem_iff_getElem?.mp h1
      obtain ⟨h3, h4⟩ := List.getElem?_zip_eq_some.mp hk
      exact ⟨k, h3, by rw [h4]; exact congrArg some h2⟩
    · rintro ⟨k, h1, h2⟩
      exact List.mem_map.mpr ⟨(x, true), List.mem_filter.mpr
        ⟨List.mem_iff_getElem?.mpr ⟨k, List.getElem?_zip_eq_some.mpr ⟨h1, h2⟩⟩, rfl⟩, rfl⟩
  constructor
  · intro h
    have e : ((grid.zip safe).filter fun p => p.2).map Prod.fst = [] := by
      rw [List.eq_nil_iff_forall_not_mem]
      intro x hx
      obtain ⟨k, -, hk⟩ := (hmem x).mp hx
      exact h k hk
    simp only [updateGp]
    rw [e]; rfl
  · rintro ⟨k, hk⟩
    set L := ((grid.zip safe).filter fun p => p.2).map Prod.fst with hL
    have hkg : k < grid.length := by
      rw [← hlen]; exact (List.getElem?_eq_some_iff.mp hk).1
    have hne : L ≠ [] := by
      intro e
      have := (hmem grid[k]).mpr ⟨k, List.getElem?_eq_getElem hkg, hk⟩
      rw [e] at this
      simp at this
    obtain ⟨i, v, h1, h2, h3, -⟩ := argmaxFirst_spec (L.map fun x => std x (policy x)) (by simpa using hne)
    rw [List.getElem?_map, Option.map_eq_some_iff] at h2
    obtain ⟨x, hx, rfl⟩ := h2
    obtain ⟨k', e1, e2⟩ := (hmem x).mp (List.mem_of_getElem? hx)
    refine ⟨x, k', e1, e2, ?_, fun j y hy hj => ?_⟩
    · simp only [updateGp]
      rw [← hL, h1]
      simp only [bind, Except.bind, hx]
    · exact h3 _ (List.mem_map.mpr ⟨y, (hmem y).mpr ⟨j, hy, hj⟩, rfl⟩)

example : updateGp [10, 20, 30, (40 : ℕ)] [true, false, true, true] (fun x => x)
    (fun x _ => if x = 20 then (99 : ℚ) else if x = 40 then 0 else x) (fun x u => x + u) = .ok ((30, 30), 60) := by decide +kernel

/-! ## C109 -/

theorem splitRows_flatMap {α β γ : Type} (A : List β) (F : α → β → γ) :
    ∀ L : List α, splitRows A.length L.length (L.flatMap fun x => A.map (F x)) = L.map fun x => A.map (F x)
  | [] => rfl
  | x :: L => by
    have h1 : (A.map (F x)).length = A.length := List.length_map _
    rw [List.flatMap_cons, List.length_cons, splitRows, List.map_cons]
    rw [show A.length = (A.map (F x)).length from h1.symm, List.take_left, List.drop_left, h1, splitRows_flatMap]

theorem assignRows_filter (w : ℕ) : ∀ (safe : List Bool) (row : ℕ → List Bool),
    assignRows w safe (((List.range safe.length).filter fun k => safe.getD k false).map row) =
      (List.range safe.length).map fun k => if safe.getD k false then row k else List.replicate w false
  | [], _ => rfl
  | b :: safe, row => by
    have ih := assignRows_filter w safe fun k => row (k + 1)
    have e : (((List.range safe.length).map Nat.succ).filter fun k => (b :: safe).getD k false).map row =
        ((List.range safe.length).filter fun k => safe.getD k false).map fun k => row (k + 1) := by
      rw [List.filter_map, List.map_map]
      rfl
    have e' : (((List.range safe.length).map Nat.succ).map fun k =>
        if (b :: safe).getD k false then row k else List.replicate w false) =
        (List.range safe.length).map fun k => if safe.getD k false then row (k + 1) else List.replicate w false := by
      rw [List.map_map]
      rfl
    rw [List.length_cons, List.range_succ_eq_map, List.filter_cons, List.map_cons, e']
    cases b
    · rw [if_neg (by simp), e]
      simp only [assignRows, ih]
      rfl
    · rw [if_pos (by simp), List.map_cons, e]
      simp only [assignRows, ih]
      rfl

/-- The index of the grid state closest to a number (`state_to_index`). -/
theorem line_stateToIndex [FloorRing K] (g : GridWorld K 1) (h2 : 2 ≤ g.num 0) (hlt : g.lo 0 < g.hi 0) (y : K) :
    ∃ n, g.stateToIndex [y] = .ok n ∧ n < g.num 0 ∧
      ∀ j < g.num 0, |y - Spec.axisPoint (g.lo 0) (g.hi 0) (g.num 0) n| ≤
        |y - Spec.axisPoint (g.lo 0) (g.hi 0) (g.num 0) j| := by
  obtain ⟨k, q, h1, h3, -, h5, h6, -⟩ := GridWorld.C02_state_to_index_nearest g
    (fun i => by rw [Subsingleton.elim i 0]; exact h2) (fun i => by rw [Subsingleton.elim i 0]; exact hlt) fun _ => y
  obtain ⟨ijk, e1, e2, e3⟩ := h5
  have ek : ijk 0 = k := by
    rw [e2]; simp [Spec.rowMajor]
  refine ⟨k, by simpa using h1, by simpa using h3, fun j hj => ?_⟩
  have := h6 0 j hj
  rwa [e3 0, ek] at this

/-- The grid state with index `k` on a line. -/
theorem line_gridState (g : GridWorld K 1) (k : ℕ) (hk : k < g.num 0) :
    gridState g k 0 = Spec.axisPoint (g.lo 0) (g.hi 0) (g.num 0) k := by
  have hk' : k < ∏ i, g.num i := by simpa using hk
  obtain ⟨ijk, e1, e2, e3⟩ := g.isGridPoint_of_lt k hk'
  have ek : ijk 0 = k := by
    rw [e2]; simp [Spec.rowMajor]
  have := e3 0
  rw [ek] at this
  exact this

/-- **C109** `get_safe_sets` returns two boolean arrays with one row per grid state and one column per action. The first marks the pairs of safe states and actions
for which the largest value of the Lyapunov function over the predicted interval is less than `c_max` (and, unless `positive`, the grid state closest to the
predicted mean is safe), the second those for which the Lyapunov function decreases by more than `lv (1 + lf) tau` over the predicted interval. -/
theorem C109_masks [FloorRing K] (p : LineProblem K) (h2 : 2 ≤ p.g.num 0) (hlt : p.g.lo 0 < p.g.hi 0) (safe : List Bool)
    (hlen : safe.length = p.g.num 0) (positive : Bool) :
    ∃ inside decreases, getSafeSets p safe positive = .ok (inside, decreases) ∧
      inside.length = p.g.num 0 ∧ decreases.length = p.g.num 0 ∧
      ∀ k < p.g.num 0, ∃ ri rd, inside[k]? = some ri ∧ decreases[k]? = some rd ∧
        ri.length = p.actions.length ∧ rd.length = p.actions.length ∧
        ∀ (j : ℕ) u, p.actions[j]? = some u →
          let x := Spec.axisPoint (p.g.lo 0) (p.g.hi 0) (p.g.num 0) k
          (ri[j]? = some true ↔ safe[k]? = some true ∧ p.V (p.mean x u) + p.lv * p.bound x u < p.cMax ∧
            (positive = false → ∃ n : ℕ, p.g.stateToIndex [p.mean x u] = .ok n ∧ safe[n]? = some true)) ∧
          (rd[j]? = some true ↔ safe[k]? = some true ∧
            p.V (p.mean x u) - p.V x + p.lv * p.bound x u < -p.lv * (1 + p.lf) * p.tau) := by
  choose near hnear using fun y => line_stateToIndex p.g h2 hlt y
  set indices := (List.range safe.length).filter fun k => safe.getD k false with hI
  set I : K → K → Bool := fun x u => decide (p.V (p.mean x u) + p.lv * p.bound x u < p.cMax) &&
    (positive || safe.getD (near (p.mean x u)) false) with hIdef
  set D : K → K → Bool := fun x u => decide (p.V (p.mean x u) - p.V x + p.lv * p.bound x u < -p.lv * (1 + p.lf) * p.tau)
    with hDdef
  have key : getSafeSets p safe positive = .ok
      ((List.range safe.length).map fun k => if safe.getD k false then p.actions.map (I (gridState p.g k 0))
        else List.replicate p.actions.length false,
      (List.range safe.length).map fun k => if safe.getD k false then p.actions.map (D (gridState p.g k 0))
        else List.replicate p.actions.length false) := by
    have hflat : ∀ F : K → K → Bool, ((indices.map fun k => gridState p.g k 0).flatMap fun x => p.actions.map fun u => (x, u)).map
        (fun q => F q.1 q.2) = (indices.map fun k => gridState p.g k 0).flatMap fun x => p.actions.map (F x) := by
      intro F
      rw [List.map_flatMap]
      congr 1
      funext x
      rw [List.map_map]; rfl
    have hrows : ∀ F : K → K → Bool, assignRows p.actions.length safe (splitRows p.actions.length
        (indices.map fun k => gridState p.g k 0).length
        ((indices.map fun k => gridState p.g k 0).flatMap fun x => p.actions.map (F x))) =
        (List.range safe.length).map fun k => if safe.getD k false then p.actions.map (F (gridState p.g k 0))
          else List.replicate p.actions.length false := by
      intro F
      rw [splitRows_flatMap, List.map_map, hI]
      exact assignRows_filter _ _ fun k => p.actions.map (F (gridState p.g k 0))
    have hD : ∀ q : K × K, decide (vDecreaseBound (fun x : Fin 1 → K => p.V (x 0)) (.const p.lv) (fun _ => q.1)
        (.uncertain (fun _ => p.mean q.1 q.2) fun _ => p.bound q.1 q.2) <
        thresholdAt (.const p.lv) (.const p.lf) (fun _ : Fin 1 => q.1) p.tau) = D q.1 q.2 := by
      intro q
      simp [vDecreaseBound, vDecreaseConfidence, thresholdAt, LipArg.entry, LipArg.forThreshold, LipDyn.at, hDdef]
    unfold getSafeSets
    simp only [← hI, hD]
    cases positive
    · simp only [Bool.false_eq_true, if_false]
      rw [mapM_ok (g := fun q : K × K => near (p.mean q.1 q.2)) fun q _ => (hnear _).1]
      simp only [bind, Except.bind, pure, Except.pure]
      rw [List.zipWith_map, List.zipWith_self, hflat D, hrows D]
      have := hflat I
      simp only [hIdef, Bool.false_or] at this
      rw [this]
      have := hrows I
      simp only [hIdef, Bool.false_or] at this
      rw [this]
      simp only [hIdef, Bool.false_or]
    · simp only [if_true, bind, Except.bind, pure, Except.pure]
      rw [hflat D, hrows D]
      have e : I = fun x u => decide (p.V (p.mean x u) + p.lv * p.bound x u < p.cMax) := by
        simp [hIdef]
      rw [hflat (fun x u => decide (p.V (p.mean x u) + p.lv * p.bound x u < p.cMax))]
      have := hrows I
      rw [e] at this
      rw [this, e]
  refine ⟨_, _, key, by simp [hlen], by simp [hlen], fun k hk => ?_⟩
  have hk' : k < safe.length := hlen ▸ hk
  have hs : ∀ n, n < safe.length → (safe[n]? = some true ↔ safe.getD n false = true) := by
    intro n hn
    simp [List.getD_eq_getElem?_getD, hn]
  refine ⟨_, _, by rw [List.getElem?_map, List.getElem?_range hk']; rfl,
    by rw [List.getElem?_map, List.getElem?_range hk']; rfl, ?_, ?_, ?_⟩
  · dsimp only; split <;> simp
  · dsimp only; split <;> simp
  · intro j u hu x
    have hj : j < p.actions.length := (List.getElem?_eq_some_iff.mp hu).1
    have hx : gridState p.g k 0 = x := line_gridState p.g k hk
    dsimp only
    rw [hs k hk', hx]
    have hn := hnear (p.mean x u)
    cases hb : safe.getD k false
    · simp [hj]
    · simp only [if_true, List.getElem?_map, hu, Option.map_some, Option.some.injEq, true_and]
      refine ⟨?_, by simp [hDdef]⟩
      simp only [hIdef, Bool.and_eq_true, decide_eq_true_eq, Bool.or_eq_true, and_congr_right_iff]
      intro _
      have hnl : near (p.mean x u) < safe.length := hlen ▸ hn.2.1
      cases positive
      · simp only [Bool.false_eq_true, false_or, forall_const]
        constructor
        · intro h
          exact ⟨_, hn.1, (hs _ hnl).mpr h⟩
        · rintro ⟨n, h1, h3⟩
          rw [hn.1] at h1
          cases h1
          exact (hs _ hnl).mp h3
      · simp

/-- **C109** What the marks mean for the true dynamics `f`, which is inside the predicted intervals and Lipschitz continuous in the state: from a state marked in the first
array, the next state is in the level set `c_max`; if also `positive` is off, the grid state closest to the predicted mean is safe; if a pair is marked in the
second array, then the Lyapunov function decreases along `f` from all states within `tau` of the grid state. -/
theorem C109_sound [FloorRing K] (p : LineProblem K) (h2 : 2 ≤ p.g.num 0) (hlt : p.g.lo 0 < p.g.hi 0) (safe : List Bool)
    (hlen : safe.length = p.g.num 0) (positive : Bool) (f : K → K → K) (hlv : 0 ≤ p.lv) (hlf : 0 ≤ p.lf)
    (hV : ∀ y z, |p.V y - p.V z| ≤ p.lv * |y - z|) (hf : ∀ y z u, |f y u - f z u| ≤ p.lf * |y - z|)
    (hmodel : ∀ x u, |f x u - p.mean x u| ≤ p.bound x u) :
    ∃ inside decreases, getSafeSets p safe positive = .ok (inside, decreases) ∧
      ∀ k < p.g.num 0, ∃ ri rd, inside[k]? = some ri ∧ decreases[k]? = some rd ∧
        ∀ (j : ℕ) u, p.actions[j]? = some u →
          let x := Spec.axisPoint (p.g.lo 0) (p.g.hi 0) (p.g.num 0) k
          (ri[j]? = some true → safe[k]? = some true ∧ p.V (f x u) < p.cMax ∧
            (positive = false → ∃ n : ℕ, n < p.g.num 0 ∧ safe[n]? = some true ∧
              ∀ i < p.g.num 0, |p.mean x u - Spec.axisPoint (p.g.lo 0) (p.g.hi 0) (p.g.num 0) n| ≤
                |p.mean x u - Spec.axisPoint (p.g.lo 0) (p.g.hi 0) (p.g.num 0) i|)) ∧
          (rd[j]? = some true → safe[k]? = some true ∧ ∀ y, |y - x| ≤ p.tau → p.V (f y u) < p.V y) := by
  obtain ⟨I, D, e, -, -, h⟩ := C109_masks p h2 hlt safe hlen positive
  refine ⟨I, D, e, fun k hk => ?_⟩
  obtain ⟨ri, rd, e1, e2, -, -, h⟩ := h k hk
  refine ⟨ri, rd, e1, e2, fun j u hu => ?_⟩
  obtain ⟨h3, h4⟩ := h j u hu
  set x := Spec.axisPoint (p.g.lo 0) (p.g.hi 0) (p.g.num 0) k with hx
  have hVf : p.V (f x u) ≤ p.V (p.mean x u) + p.lv * p.bound x u := by
    have := (abs_le.mp (hV (f x u) (p.mean x u))).2
    have := mul_le_mul_of_nonneg_left (hmodel x u) hlv
    linarith
  refine ⟨fun h => ?_, fun h => ?_⟩
  · obtain ⟨a, b, c⟩ := h3.mp h
    refine ⟨a, lt_of_le_of_lt hVf b, fun hp => ?_⟩
    obtain ⟨n, h5, h6⟩ := c hp
    obtain ⟨m, h7, h8, h9⟩ := line_stateToIndex p.g h2 hlt (p.mean x u)
    rw [h5] at h7
    cases h7
    exact ⟨n, h8, h6, h9⟩
  · obtain ⟨a, b⟩ := h4.mp h
    refine ⟨a, fun y hy => ?_⟩
    have q1 := (abs_le.mp (hV (f y u) (f x u))).2
    have q2 := (abs_le.mp (hV y x)).1
    have q3 := mul_le_mul_of_nonneg_left (hf y x u) hlv
    have q4 : p.lv * (p.lf * |y - x|) ≤ p.lv * (p.lf * p.tau) :=
      mul_le_mul_of_nonneg_left (mul_le_mul_of_nonneg_left hy hlf) hlv
    have q5 := mul_le_mul_of_nonneg_left hy hlv
    nlinarith

/-- `V(x) = |x|` and `mean = x/2 + u` on `[-1, 1]` with 5 points, all but the first one safe. -/
def exampleLineProblem : LineProblem ℚ where
  g := ⟨fun _ => -1, fun _ => 1, fun _ => 5⟩
  actions := [-1/4, 0, 1/4]
  V x := |x|
  lv := 1
  lf := 1 / 2
  tau := 1 / 16
  cMax := 3 / 5
  mean x u := x / 2 + u
  bound _ _ := 1 / 32

example : getSafeSets exampleLineProblem [false, true, true, true, true] false =
    .ok ([[false, false, false], [true, true, true], [true, true, true], [true, true, true], [true, true, false]],
      [[false, false, false], [false, true, true], [false, false, false], [true, true, false], [true, true, true]]) := by
  decide +kernel

/-- The hypotheses of `C109_sound` hold for the example and the true dynamics `x/2 + u + 1/32`. -/
example := C109_sound exampleLineProblem (by decide) (by simp [exampleLineProblem]) [false, true, true, true, true] rfl false
  (fun x u => x / 2 + u + 1 / 32) (by norm_num [exampleLineProblem]) (by norm_num [exampleLineProblem])
  (fun y z => by simp only [exampleLineProblem, one_mul]; exact abs_abs_sub_abs_le y z)
  (fun y z u => by
    simp only [exampleLineProblem]
    rw [show y / 2 + u + 1 / 32 - (z / 2 + u + 1 / 32) = 1 / 2 * (y - z) by ring, abs_mul]
    norm_num)
  (fun x u => by simp only [exampleLineProblem]; rw [add_sub_cancel_left]; norm_num)

end SafeLearning
