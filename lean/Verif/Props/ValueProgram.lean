import Verif.Props.ValueIteration
set_option autoImplicit false

/-!
# C61, C62, C65: the linear program for the value function, the Bellman error, and the Lyapunov term
-/

namespace SafeLearning

set_option linter.unusedSectionVars false

open Spec PolicyIteration

variable {K : Type} [Field K] [LinearOrder K] [IsStrictOrderedRing K] [FloorRing K] {d m : ℕ}
variable {g : GridWorld K d} {D : Delaunay K d} {eps : K} {project : Bool}
variable {P : PolicyIteration K d m} {pp : List (Fin m → K)} {act : (Fin d → K) → Fin m → K}

/-! ## C61 -/

/-- The constraints of the linear program: `values <= rewards + gamma * matrix * values`, entry by entry. -/
def Program.Feasible (p : Program K) (values : List K) : Prop :=
  values.length = p.rewards.length ∧ ∃ mv, p.matrix.dot (values.map fun v (_ : Fin 1) => v) = .ok mv ∧
    ∀ (k : ℕ) v r w, values[k]? = some v → p.rewards[k]? = some r → mv[k]? = some w →
      v ≤ r + p.gamma * w 0

/-- `values` is an optimal solution of the linear program. -/
def Program.Optimal (p : Program K) (values : List K) : Prop :=
  Program.Feasible p values ∧ ∀ v, Program.Feasible p v → v.sum ≤ values.sum

/-- What is assumed of `cvxpy`: values with status `OPTIMAL` are an optimal solution. -/
def SolverContract (solve : Program K → Status × List K) : Prop :=
  ∀ p, (solve p).1 = .optimal → Program.Optimal p (solve p).2

/-- The linear program handed to `cvxpy`, and the meaning of its matrix and its constraints. -/
theorem program_dot (S : RLSetup P g D eps project pp act) :
    ∃ (W : Fin (nParams g) → Fin (nParams g) → K) (B : Coo K),
      (∀ i, ∑ j, W i j = 1) ∧
      (∀ i, ∑ j, |W i j| ≤ 1 + Spec.boundaryDefect g.lo g.hi g.num eps) ∧
      (∀ i, ConvexRegion g eps project (P.dynamics (pointAt g i) (act (pointAt g i))).nextMean →
        ∀ j, 0 ≤ W i j) ∧
      (∀ i θ, P.valueFunction.tfEvaluate eps (toParams θ)
        (P.dynamics (pointAt g i) (act (pointAt g i))).nextMean = .ok fun _ => ∑ j, W i j * θ j) ∧
      (∀ θ, P.valueIteration eps ⟨toParams θ, pp⟩ =
        .ok ⟨toParams fun i => P.reward (pointAt g i) (act (pointAt g i)) +
          P.gamma * ∑ j, W i j * θ j, pp⟩) ∧
      (∀ θ : Fin (nParams g) → K, B.dot (toParams θ) = .ok (List.ofFn fun i _ => ∑ j, W i j * θ j)) ∧
      (∀ θ : Fin (nParams g) → K, Program.Feasible
          ⟨List.ofFn fun i => P.reward (pointAt g i) (act (pointAt g i)), P.gamma, B⟩ (List.ofFn θ) ↔
        ∀ i, θ i ≤ P.reward (pointAt g i) (act (pointAt g i)) + P.gamma * ∑ j, W i j * θ j) ∧
      ∀ (solve : Program K → Status × List K) (vars : Vars K m), vars.policy = pp →
        P.optimizeValueFunction eps solve vars =
          (let r := solve ⟨List.ofFn fun i => P.reward (pointAt g i) (act (pointAt g i)), P.gamma, B⟩
          if r.1 ≠ .optimal then .error .optimizationError else assignValue vars r.2) := by
  obtain ⟨W, h1, h2, h3, h4, h5⟩ := valueIteration_eq S
  obtain ⟨B, hB, hdot⟩ := C13_parameter_derivative S.tri S.new
    (List.ofFn fun i => (P.dynamics (pointAt g i) (act (pointAt g i))).nextMean)
  have hd : ∀ θ : Fin (nParams g) → K,
      B.dot (toParams θ) = .ok (List.ofFn fun i _ => ∑ j, W i j * θ j) := fun θ => by
    rw [(hdot 1 (toParams θ) (toParams_length θ)).1]
    have hev : ∀ i, P.valueFunction.evaluate eps (toParams θ)
        (P.dynamics (pointAt g i) (act (pointAt g i))).nextMean = .ok fun _ => ∑ j, W i j * θ j :=
      fun i => by rw [← C17_tf_agrees]; exact h4 i θ
    have : (List.ofFn fun i => (P.dynamics (pointAt g i) (act (pointAt g i))).nextMean) =
        (List.finRange (nParams g)).map fun i => (P.dynamics (pointAt g i) (act (pointAt g i))).nextMean := by
      rw [List.ofFn_eq_map]
    rw [this, List.mapM_map]
    have h6 := mapM_ok (l := List.finRange (nParams g))
      (f := fun i => P.valueFunction.evaluate eps (toParams θ)
        (P.dynamics (pointAt g i) (act (pointAt g i))).nextMean)
      (g := fun i _ => ∑ j, W i j * θ j) fun i _ => hev i
    rw [List.ofFn_eq_map]
    exact h6
  refine ⟨W, B, h1, h2, h3, h4, h5, hd, fun θ => ?_, fun solve vars hp => ?_⟩
  · have hmap : (List.ofFn θ).map (fun v (_ : Fin 1) => v) = toParams θ := by
      rw [List.map_ofFn]; rfl
    unfold Program.Feasible
    rw [hmap, hd θ]
    constructor
    · rintro ⟨-, mv, e, h⟩ i
      cases e
      exact h i.1 (θ i) (P.reward (pointAt g i) (act (pointAt g i))) (fun _ => ∑ j, W i j * θ j)
        (by simp) (by simp) (by simp)
    · intro h
      refine ⟨by simp, _, rfl, fun k v r w hv hr hw => ?_⟩
      have hk : k < nParams g := by
        have := (List.getElem?_eq_some_iff.mp hv).1
        simpa using this
      simp only [List.getElem?_ofFn, hk, dite_true, Option.some.injEq] at hv hr hw
      subst hv hr hw
      exact h ⟨k, hk⟩
  · obtain ⟨value, policy⟩ := vars
    simp only at hp
    subst hp
    have ha : P.stateSpace.mapM (P.policy policy) = .ok (P.stateSpace.map act) := by
      apply mapM_ok
      intro x hx
      apply S.policy
      unfold PolicyIteration.stateSpace at hx
      rwa [(S.tri.good S.new).disc] at hx
    have hs : P.stateSpace = List.ofFn (pointAt g) := by
      unfold PolicyIteration.stateSpace
      rw [(S.tri.good S.new).disc, allPoints_eq_ofFn]
    have hz : ∀ {β : Type} (f : (Fin d → K) → (Fin m → K) → β),
        P.stateSpace.zipWith f (P.stateSpace.map act) = List.ofFn fun i => f (pointAt g i) (act (pointAt g i)) := by
      intro β f
      rw [hs, List.map_ofFn]
      apply List.ext_getElem (by simp)
      intro k e1 e2
      simp
    unfold PolicyIteration.optimizeValueFunction
    simp only [ha, bind, Except.bind]
    rw [hz, hz]
    unfold PolicyIteration.runCvxOptimization
    simp only [hB, bind, Except.bind]
    by_cases hr : (solve ⟨List.ofFn fun i => P.reward (pointAt g i) (act (pointAt g i)), P.gamma, B⟩).1 = .optimal
    · simp only [hr, ne_eq, not_true_eq_false, if_false]
      rfl
    · simp only [hr, ne_eq, not_false_eq_true, if_true]

/-- The linear program handed to `cvxpy`, and the meaning of its constraints. -/
theorem program_eq (S : RLSetup P g D eps project pp act) :
    ∃ (W : Fin (nParams g) → Fin (nParams g) → K) (B : Coo K),
      (∀ i, ∑ j, W i j = 1) ∧
      (∀ i, ∑ j, |W i j| ≤ 1 + Spec.boundaryDefect g.lo g.hi g.num eps) ∧
      (∀ i, ConvexRegion g eps project (P.dynamics (pointAt g i) (act (pointAt g i))).nextMean →
        ∀ j, 0 ≤ W i j) ∧
      (∀ i θ, P.valueFunction.tfEvaluate eps (toParams θ)
        (P.dynamics (pointAt g i) (act (pointAt g i))).nextMean = .ok fun _ => ∑ j, W i j * θ j) ∧
      (∀ θ, P.valueIteration eps ⟨toParams θ, pp⟩ =
        .ok ⟨toParams fun i => P.reward (pointAt g i) (act (pointAt g i)) +
          P.gamma * ∑ j, W i j * θ j, pp⟩) ∧
      (∀ θ : Fin (nParams g) → K, Program.Feasible
          ⟨List.ofFn fun i => P.reward (pointAt g i) (act (pointAt g i)), P.gamma, B⟩ (List.ofFn θ) ↔
        ∀ i, θ i ≤ P.reward (pointAt g i) (act (pointAt g i)) + P.gamma * ∑ j, W i j * θ j) ∧
      ∀ (solve : Program K → Status × List K) (vars : Vars K m), vars.policy = pp →
        P.optimizeValueFunction eps solve vars =
          (let r := solve ⟨List.ofFn fun i => P.reward (pointAt g i) (act (pointAt g i)), P.gamma, B⟩
          if r.1 ≠ .optimal then .error .optimizationError else assignValue vars r.2) := by
  obtain ⟨W, B, h1, h2, h3, h4, h5, -, h6, h7⟩ := program_dot S
  exact ⟨W, B, h1, h2, h3, h4, h5, h6, h7⟩

/-- Values that satisfy the constraints are at most the solution. -/
theorem le_fixed_of_feasible {n : ℕ} {W : Fin n → Fin n → K} {γ : K} (hγ : 0 ≤ γ) (hγ1 : γ < 1)
    (h0 : ∀ i j, 0 ≤ W i j) (h1 : ∀ i, ∑ j, W i j = 1) {r v θ : Fin n → K}
    (hv : ∀ i, v i = r i + γ * ∑ j, W i j * v j)
    (hθ : ∀ i, θ i ≤ r i + γ * ∑ j, W i j * θ j) (i : Fin n) : θ i ≤ v i := by
  obtain ⟨k, -, hk⟩ := Finset.exists_max_image Finset.univ (fun i => θ i - v i) ⟨i, Finset.mem_univ i⟩
  have h2 : ∑ j, W k j * (θ j - v j) ≤ θ k - v k := by
    calc _ ≤ ∑ j, W k j * (θ k - v k) :=
          Finset.sum_le_sum fun j _ => mul_le_mul_of_nonneg_left (hk j (Finset.mem_univ j)) (h0 k j)
      _ = θ k - v k := by rw [← Finset.sum_mul, h1, one_mul]
  have h3 : θ k - v k ≤ γ * (θ k - v k) := by
    have := mul_le_mul_of_nonneg_left h2 hγ
    simp only [mul_sub, Finset.sum_sub_distrib] at this
    have e1 := hθ k
    have e2 := hv k
    linarith
  have h4 := le_of_le_mul_self hγ1 h3
  have := hk i (Finset.mem_univ i)
  linarith

/-- **C61.** If `optimize_value_function` succeeds, the new values are the solution of the Bellman equation; the policy
parameters stay. Missing: next states in the boundary strip of domains with two or more dimensions, see
`C61_boundary_refuted`. -/
theorem C61_optimal_partial (S : RLSetup P g D eps project pp act) (hγ : P.gamma < 1)
    (hr : ∀ x ∈ g.allPoints, ConvexRegion g eps project (P.dynamics x (act x)).nextMean)
    (solve : Program K → Status × List K) (hs : SolverContract solve)
    (vars out : Vars K m) (hp : vars.policy = pp) (hlen : vars.value.length = ∏ i, g.num i)
    (ho : P.optimizeValueFunction eps solve vars = .ok out) :
    Bellman P g eps act out.value ∧ out.policy = pp := by
  obtain ⟨W, B, h1, -, h3, -, h5, h6, h7⟩ := program_eq S
  rw [h7 solve vars hp] at ho
  set p : Program K := ⟨List.ofFn fun i => P.reward (pointAt g i) (act (pointAt g i)), P.gamma, B⟩
  have hW : ∀ i j, 0 ≤ W i j := fun i => h3 i (hr _ (pointAt_mem g i))
  have hWa : ∀ i, ∑ j, |W i j| ≤ 1 := fun i => by
    rw [← h1 i]; exact le_of_eq (Finset.sum_congr rfl fun j _ => abs_of_nonneg (hW i j))
  have hst : (solve p).1 = .optimal := by
    by_contra hne
    simp only [ne_eq, hne, not_false_eq_true, if_true] at ho
    cases ho
  simp only [ne_eq, hst, not_true_eq_false, if_false] at ho
  obtain ⟨hf, hopt⟩ := hs p hst
  have hl : (solve p).2.length = nParams g := by simpa [p] using hf.1
  obtain ⟨θ, hθ⟩ : ∃ θ : Fin (nParams g) → K, (solve p).2 = List.ofFn θ :=
    ⟨fun i => (solve p).2[i.1]'(by have := i.2; omega), by
      apply List.ext_getElem (by simp [hl])
      intro k e1 e2
      simp⟩
  rw [hθ] at hf hopt ho
  obtain ⟨v, hv⟩ := exists_fixed S.gamma hWa (by simpa using hγ)
    (fun i => P.reward (pointAt g i) (act (pointAt g i)))
  have hle := le_fixed_of_feasible S.gamma hγ hW h1 hv ((h6 θ).mp hf)
  have hsum := hopt (List.ofFn v) ((h6 v).mpr fun i => (hv i).le)
  rw [List.sum_ofFn, List.sum_ofFn] at hsum
  have heq : θ = v := by
    funext i
    exact (Finset.sum_eq_sum_iff_of_le fun i _ => hle i).mp
      (le_antisymm (Finset.sum_le_sum fun i _ => hle i) hsum) i (Finset.mem_univ i)
  unfold PolicyIteration.assignValue at ho
  rw [if_pos (by rw [hlen]; simp)] at ho
  cases ho
  refine ⟨(bellman_iff S _).mpr ?_, hp⟩
  have hmap : (List.ofFn θ).map (fun v (_ : Fin 1) => v) = toParams θ := by
    rw [List.map_ofFn]; rfl
  simp only [hmap]
  refine ⟨toParams_length _, ?_⟩
  rw [h5]
  congr 3
  funext i
  rw [heq]
  exact (hv i).symm

/-- **C61 (solvable).** The linear program has an optimal solution. A solver that reports `OPTIMAL` makes
`optimize_value_function` succeed, every other status raises `OptimizationError`. -/
theorem C61_solvable_partial (S : RLSetup P g D eps project pp act) (hγ : P.gamma < 1)
    (hr : ∀ x ∈ g.allPoints, ConvexRegion g eps project (P.dynamics x (act x)).nextMean)
    (vars : Vars K m) (hp : vars.policy = pp) (hlen : vars.value.length = ∏ i, g.num i) :
    ∃ p, (∃ values, Program.Optimal p values) ∧
      ∀ solve : Program K → Status × List K,
        (SolverContract solve → (solve p).1 = .optimal →
          ∃ out, P.optimizeValueFunction eps solve vars = .ok out) ∧
        ((solve p).1 ≠ .optimal →
          P.optimizeValueFunction eps solve vars = .error .optimizationError) := by
  obtain ⟨W, B, h1, -, h3, -, h5, h6, h7⟩ := program_eq S
  have hW : ∀ i j, 0 ≤ W i j := fun i => h3 i (hr _ (pointAt_mem g i))
  have hWa : ∀ i, ∑ j, |W i j| ≤ 1 := fun i => by
    rw [← h1 i]; exact le_of_eq (Finset.sum_congr rfl fun j _ => abs_of_nonneg (hW i j))
  obtain ⟨v, hv⟩ := exists_fixed S.gamma hWa (by simpa using hγ)
    (fun i => P.reward (pointAt g i) (act (pointAt g i)))
  refine ⟨_, ⟨List.ofFn v, (h6 v).mpr fun i => (hv i).le, fun u hu => ?_⟩, fun solve => ⟨fun hs ho => ?_, fun ho => ?_⟩⟩
  · have hl : u.length = nParams g := by simpa using hu.1
    obtain ⟨θ, rfl⟩ : ∃ θ : Fin (nParams g) → K, u = List.ofFn θ :=
      ⟨fun i => u[i.1]'(by have := i.2; omega), by
        apply List.ext_getElem (by simp [hl])
        intro k e1 e2
        simp⟩
    rw [List.sum_ofFn, List.sum_ofFn]
    exact Finset.sum_le_sum fun i _ =>
      le_fixed_of_feasible S.gamma hγ hW h1 hv ((h6 θ).mp hu) i
  · rw [h7 solve vars hp]
    simp only [ne_eq, ho, not_true_eq_false, if_false]
    unfold PolicyIteration.assignValue
    rw [if_pos]
    · exact ⟨_, rfl⟩
    · rw [hlen]
      simpa using (hs _ ho).1.1
  · rw [h7 solve vars hp]
    simp only [ne_eq, ho, not_false_eq_true, if_true]

/-! ## C62 -/

theorem sum_zipWith_sq (a : List K) (b : List (Fin 1 → K)) :
    0 ≤ (a.zipWith (fun x y => (x - y 0) ^ 2) b).sum ∧
    (a.length = b.length → ((a.zipWith (fun x y => (x - y 0) ^ 2) b).sum = 0 ↔
      ∀ (k : ℕ) x y, a[k]? = some x → b[k]? = some y → x = y 0)) := by
  induction a generalizing b with
  | nil => simp
  | cons x a ih =>
    cases b with
    | nil => simp
    | cons y b =>
      obtain ⟨h1, h2⟩ := ih b
      simp only [List.zipWith_cons_cons, List.sum_cons, List.length_cons, Nat.add_right_cancel_iff]
      have hx := sq_nonneg (x - y 0)
      refine ⟨by linarith, fun hl => ?_⟩
      constructor
      · intro h k x' y' hx' hy'
        have e1 : (x - y 0) ^ 2 = 0 := by linarith
        have e2 : (a.zipWith (fun x y => (x - y 0) ^ 2) b).sum = 0 := by linarith
        cases k with
        | zero =>
          simp only [List.getElem?_cons_zero, Option.some.injEq] at hx' hy'
          subst hx' hy'
          have := pow_eq_zero_iff (two_ne_zero) |>.mp e1
          linarith
        | succ k =>
          simp only [List.getElem?_cons_succ] at hx' hy'
          exact (h2 hl).mp e2 k x' y' hx' hy'
      · intro h
        have e1 : x = y 0 := h 0 x y rfl rfl
        have e2 := (h2 hl).mpr fun k x' y' hx' hy' => h (k + 1) x' y' (by simpa using hx') (by simpa using hy')
        rw [e2, e1]
        simp

/-- **C62.** If `bellmann_error(states)` can be computed, it is non-negative, and it is zero exactly if at every one of
the states the value is the reward plus the discounted value of the next state. No assumption on the grid, the
triangulation or the states. -/
theorem C62_bellman_error (P : PolicyIteration K d m) (eps : K) (vars : Vars K m)
    (states : List (Fin d → K)) (e : K) (he : P.bellmannError eps vars states = .ok e) :
    0 ≤ e ∧ (e = 0 ↔ ∀ x ∈ states, ∃ a v w, P.policy vars.policy x = .ok a ∧
      P.valueFunction.evaluate eps vars.value x = .ok v ∧
      P.valueFunction.evaluate eps vars.value (P.dynamics x a).nextMean = .ok w ∧
      v 0 = P.reward x a + P.gamma * w 0) := by
  unfold PolicyIteration.bellmannError at he
  cases ht : P.futureValues eps vars states with
  | error er =>
    rw [ht] at he
    simp only [bind, Except.bind] at he
    cases he
  | ok target =>
  rw [ht] at he
  simp only [bind, Except.bind] at he
  cases hv : states.mapM (P.valueFunction.tfEvaluate eps vars.value) with
  | error er =>
    rw [hv] at he
    cases he
  | ok values =>
  rw [hv] at he
  simp only [pure, Except.pure, Except.ok.injEq] at he
  obtain ⟨hvl, hvk⟩ := mapM_ok_inv hv
  unfold PolicyIteration.futureValues at ht
  cases ha : states.mapM (P.policy vars.policy) with
  | error er =>
    simp only [Option.getD_none, ha, bind, Except.bind] at ht
    cases ht
  | ok actions =>
  simp only [Option.getD_none, ha, bind, Except.bind] at ht
  obtain ⟨hal, hak⟩ := mapM_ok_inv ha
  rw [if_neg (by simp [hal])] at ht
  obtain ⟨htl, htk⟩ := mapM_ok_inv ht
  have htl' : target.length = states.length := by rw [htl, List.length_zip, hal, min_self]
  obtain ⟨h0, h1⟩ := sum_zipWith_sq target values
  rw [he] at h0 h1
  have h1 := h1 (by rw [htl', hvl])
  refine ⟨h0, h1.trans ?_⟩
  -- one state
  have key : ∀ (k : ℕ) x, states[k]? = some x → ∃ a v w, P.policy vars.policy x = .ok a ∧
      P.valueFunction.evaluate eps vars.value x = .ok v ∧
      P.valueFunction.evaluate eps vars.value (P.dynamics x a).nextMean = .ok w ∧
      values[k]? = some v ∧ target[k]? = some (P.reward x a + P.gamma * w 0) := by
    intro k x hx
    obtain ⟨a, ea, ep⟩ := hak k x hx
    obtain ⟨v, ev, ew⟩ := hvk k x hx
    obtain ⟨t, et, ef⟩ := htk k (x, a) (by
      rw [List.getElem?_zip_eq_some]
      exact ⟨hx, ea⟩)
    cases hw : P.valueFunction.tfEvaluate eps vars.value (P.dynamics x a).nextMean with
    | error er =>
      unfold PolicyIteration.futureValue at ef
      simp only [hw, bind, Except.bind] at ef
      cases ef
    | ok w =>
      rw [futureValue_none x a hw] at ef
      cases ef
      exact ⟨a, v, w, ep, by rw [← C17_tf_agrees]; exact ew, by rw [← C17_tf_agrees]; exact hw, ev, et⟩
  constructor
  · intro h x hx
    obtain ⟨k, hk, rfl⟩ := List.mem_iff_getElem.mp hx
    obtain ⟨a, v, w, e1, e2, e3, e4, e5⟩ := key k _ (List.getElem?_eq_getElem hk)
    exact ⟨a, v, w, e1, e2, e3, (h k _ _ e5 e4).symm⟩
  · intro h k x y hx hy
    have hk : k < states.length := by
      have := (List.getElem?_eq_some_iff.mp hx).1
      omega
    obtain ⟨a, v, w, e1, e2, e3, e4, e5⟩ := key k _ (List.getElem?_eq_getElem hk)
    obtain ⟨a', v', w', e1', e2', e3', e6⟩ := h _ (List.getElem_mem hk)
    rw [e1] at e1'
    cases e1'
    rw [e2] at e2'
    cases e2'
    rw [e3] at e3'
    cases e3'
    rw [e5] at hx
    rw [e4] at hy
    cases hx
    cases hy
    exact e6.symm

/-- **C62 (defined).** `bellmann_error` can be computed for all states if the policy can be evaluated there and the value
function is a triangulation. -/
theorem C62_defined (S : TriSetup g D eps) (ht : Tri.new g D project = .ok P.valueFunction)
    (vars : Vars K m) (hlen : vars.value.length = ∏ i, g.num i) (states : List (Fin d → K))
    (hp : ∀ x ∈ states, ∃ a, P.policy vars.policy x = .ok a) :
    ∃ e, P.bellmannError eps vars states = .ok e := by
  have hval : ∀ x, ∃ v, P.valueFunction.tfEvaluate eps vars.value x = .ok v := by
    intro x
    obtain ⟨B, -, h⟩ := C13_parameter_derivative S ht [x]
    obtain ⟨-, values, h2⟩ := h 1 vars.value hlen
    obtain ⟨-, h3⟩ := mapM_ok_inv h2
    obtain ⟨v, -, h4⟩ := h3 0 x rfl
    exact ⟨v, by rw [C17_tf_agrees]; exact h4⟩
  choose val hval using hval
  choose! a ha using hp
  unfold PolicyIteration.bellmannError
  rw [futureValues_policy (act := a) ha (fun x _ => futureValue_none x (a x) (hval _) 1),
    mapM_ok fun x _ => hval x]
  exact ⟨_, rfl⟩

/-! ## C65 -/

/-- **C65 (uncertain dynamics).** With a Lyapunov object, `future_values` is the value without it minus the multiplier times
(decrease bound - threshold). -/
theorem C65_lyapunov_term_partial (P : PolicyIteration K d m) (eps : K) (vars : Vars K m)
    (l : LyapunovTerm K d) (multiplier : K) (x : Fin d → K) (a : Fin m → K) (mean error : Fin d → K)
    (hdyn : P.dynamics x a = .uncertain mean error) (base : K)
    (hb : P.futureValue eps vars none multiplier x a = .ok base) :
    P.futureValue eps vars (some l) multiplier x a =
      .ok (base - multiplier * (vDecreaseBound l.V l.lv x (P.dynamics x a) -
        thresholdAt l.lv l.lf x l.tau)) := by
  unfold PolicyIteration.futureValue at hb ⊢
  rw [hdyn] at hb ⊢
  cases hv : P.valueFunction.tfEvaluate eps vars.value (Prediction.nextMean (.uncertain mean error)) with
  | error e =>
    simp only [hv, bind, Except.bind] at hb
    cases hb
  | ok v =>
    simp only [hv, bind, Except.bind, pure, Except.pure, Except.ok.injEq] at hb ⊢
    rw [hb]

/-- **C65 (uncertain dynamics, written out)** for a Lyapunov object with constant Lipschitz constants `Lv` and `Lf`: the term is the
multiplier times the worst case of `V` at the next state, minus `V` at the state, plus `Lv * (1 + Lf) * tau`. -/
theorem C65_written_out_partial (P : PolicyIteration K d m) (eps : K) (vars : Vars K m)
    (V : (Fin d → K) → K) (Lv Lf tau : K) (multiplier : K) (x : Fin d → K) (a : Fin m → K)
    (mean error : Fin d → K) (hdyn : P.dynamics x a = .uncertain mean error) (base : K)
    (hb : P.futureValue eps vars none multiplier x a = .ok base) :
    P.futureValue eps vars (some ⟨V, .const Lv, .const Lf, tau⟩) multiplier x a =
      .ok (base - multiplier * (V mean + Lv * ∑ i, error i - V x + Lv * (1 + Lf) * tau)) := by
  rw [C65_lyapunov_term_partial P eps vars _ multiplier x a mean error hdyn base hb, hdyn]
  simp only [vDecreaseBound, vDecreaseConfidence, thresholdAt, LipArg.entry, LipArg.forThreshold, LipDyn.at, Finset.mul_sum]
  congr 3
  ring

/-- **C65 (sign).** With a non-negative multiplier the value of an action can only be lowered if the decrease condition
`decrease bound <= threshold` is violated, and it is lowered or unchanged whenever that is the case. -/
theorem C65_only_unsafe_lowered_partial (P : PolicyIteration K d m) (eps : K) (vars : Vars K m)
    (l : LyapunovTerm K d) (multiplier : K) (hm : 0 ≤ multiplier) (x : Fin d → K) (a : Fin m → K)
    (mean error : Fin d → K) (hdyn : P.dynamics x a = .uncertain mean error) (base : K)
    (hb : P.futureValue eps vars none multiplier x a = .ok base) (v : K)
    (hv : P.futureValue eps vars (some l) multiplier x a = .ok v) :
    (v < base → thresholdAt l.lv l.lf x l.tau < vDecreaseBound l.V l.lv x (P.dynamics x a)) ∧
    (thresholdAt l.lv l.lf x l.tau ≤ vDecreaseBound l.V l.lv x (P.dynamics x a) → v ≤ base) ∧
    (0 < multiplier → thresholdAt l.lv l.lf x l.tau < vDecreaseBound l.V l.lv x (P.dynamics x a) →
      v < base) := by
  rw [C65_lyapunov_term_partial P eps vars l multiplier x a mean error hdyn base hb] at hv
  cases hv
  refine ⟨fun h => ?_, fun h => ?_, fun h0 h => ?_⟩
  · by_contra hn
    push Not at hn
    have := mul_nonpos_of_nonneg_of_nonpos hm (sub_nonpos.mpr hn)
    linarith
  · have := mul_nonneg hm (sub_nonneg.mpr h)
    linarith
  · have := mul_pos h0 (sub_pos.mpr h)
    linarith

/-- What C65 claims for dynamics of any kind: the value with a Lyapunov object exists whenever the one without it does. -/
def _root_.Spec.LyapunovTermDefined (P : PolicyIteration K d m) : Prop :=
  ∀ (eps : K) (vars : Vars K m) (l : LyapunovTerm K d) (c : K) (x : Fin d → K) (a : Fin m → K) (base : K),
    P.futureValue eps vars none c x a = .ok base → ∃ v, P.futureValue eps vars (some l) c x a = .ok v

/-- **C65 refuted** for deterministic dynamics: whenever the dynamics return a state instead of a tuple, the call with a
Lyapunov object raises `UnboundLocalError`. -/
theorem C65_deterministic_refuted (P : PolicyIteration K d m) (eps : K) (vars : Vars K m)
    (l : LyapunovTerm K d) (c : K) (x : Fin d → K) (a : Fin m → K) (next : Fin d → K)
    (hdyn : P.dynamics x a = .exact next) (base : K)
    (hb : P.futureValue eps vars none c x a = .ok base) :
    P.futureValue eps vars (some l) c x a = .error .unboundLocal ∧ ¬ Spec.LyapunovTermDefined P := by
  have h : P.futureValue eps vars (some l) c x a = .error .unboundLocal := by
    unfold PolicyIteration.futureValue at hb ⊢
    rw [hdyn] at hb ⊢
    cases hv : P.valueFunction.tfEvaluate eps vars.value (Prediction.nextMean (.exact next)) with
    | error e =>
      simp only [hv, bind, Except.bind] at hb
      cases hb
    | ok v => simp only [hv, bind, Except.bind]
  refine ⟨h, fun hd => ?_⟩
  obtain ⟨v, hv⟩ := hd eps vars l c x a base hb
  rw [h] at hv
  cases hv

end SafeLearning
