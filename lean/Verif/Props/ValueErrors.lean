import Verif.Props.PolicyTermination
set_option autoImplicit false

/-!
# C146: inaccurate solvers of the linear program, the Bellman error as a bound, and policy iteration with inaccurate values
-/

namespace SafeLearning

set_option linter.unusedSectionVars false

open Spec PolicyIteration

variable {K : Type} [Field K] [LinearOrder K] [IsStrictOrderedRing K] [FloorRing K] {d m : ℕ}
variable {g : GridWorld K d} {D Dp : Delaunay K d} {eps : K} {project pproj : Bool} {tp : Tri K d}
variable {P : PolicyIteration K d m} {pp : List (Fin m → K)} {act : (Fin d → K) → Fin m → K}
variable {actionSpace : List (Fin m → K)}

/-! ## What a solver with tolerances returns -/

/-- `values` violate the constraints `values <= rewards + gamma * matrix * values` by at most `ε` in every entry. -/
def Program.NearlyFeasible (p : Program K) (ε : K) (values : List K) : Prop :=
  values.length = p.rewards.length ∧ ∃ mv, p.matrix.dot (values.map fun v (_ : Fin 1) => v) = .ok mv ∧
    ∀ (k : ℕ) v r w, values[k]? = some v → p.rewards[k]? = some r → mv[k]? = some w →
      v ≤ r + p.gamma * w 0 + ε

/-- `values` satisfy the constraints up to `ε`, and their sum is at most `η` below that of any values that satisfy the
constraints. -/
def Program.NearlyOptimal (p : Program K) (ε η : K) (values : List K) : Prop :=
  Program.NearlyFeasible p ε values ∧ ∀ v, Program.Feasible p v → v.sum ≤ values.sum + η

/-- What is assumed of a solver with tolerances: values with status `OPTIMAL` are optimal up to `ε` and `η`. -/
def InaccurateSolver (ε η : K) (solve : Program K → Status × List K) : Prop :=
  ∀ p, (solve p).1 = .optimal → Program.NearlyOptimal p ε η (solve p).2

/-- An accurate solver is one with tolerances zero. -/
theorem inaccurateSolver_zero (solve : Program K → Status × List K) :
    InaccurateSolver 0 0 solve ↔ SolverContract solve := by
  simp [InaccurateSolver, SolverContract, Program.NearlyOptimal, Program.Optimal, Program.NearlyFeasible,
    Program.Feasible]

/-! ## Vectors -/

/-- Values that satisfy the constraints up to `c` exceed the solution by at most `c / (1 - γ)`. -/
theorem le_fixed_add {n : ℕ} {W : Fin n → Fin n → K} {γ c : K} (hγ : 0 ≤ γ) (hγ1 : γ < 1)
    (h0 : ∀ i j, 0 ≤ W i j) (h1 : ∀ i, ∑ j, W i j = 1) {r v θ : Fin n → K}
    (hv : ∀ i, v i = r i + γ * ∑ j, W i j * v j)
    (hθ : ∀ i, θ i ≤ r i + γ * ∑ j, W i j * θ j + c) (i : Fin n) : θ i ≤ v i + c / (1 - γ) := by
  have hg : 0 < 1 - γ := by linarith
  have key := le_fixed_of_feasible (θ := fun i => θ i - c / (1 - γ)) hγ hγ1 h0 h1 hv (fun k => ?_) i
  · linarith
  · have e : ∑ j, W k j * (θ j - c / (1 - γ)) = ∑ j, W k j * θ j - c / (1 - γ) := by
      simp only [mul_sub, Finset.sum_sub_distrib, ← Finset.sum_mul, h1, one_mul]
    have e2 : c / (1 - γ) - γ * (c / (1 - γ)) = c := by
      field_simp
    have := hθ k
    simp only [e]
    rw [mul_sub]
    linarith

/-- The same from the other side. -/
theorem fixed_sub_le {n : ℕ} {W : Fin n → Fin n → K} {γ c : K} (hγ : 0 ≤ γ) (hγ1 : γ < 1)
    (h0 : ∀ i j, 0 ≤ W i j) (h1 : ∀ i, ∑ j, W i j = 1) {r v θ : Fin n → K}
    (hv : ∀ i, v i = r i + γ * ∑ j, W i j * v j)
    (hθ : ∀ i, r i + γ * ∑ j, W i j * θ j ≤ θ i + c) (i : Fin n) : v i ≤ θ i + c / (1 - γ) := by
  have := le_fixed_add (c := c) (r := fun i => -r i) (v := fun i => -v i) (θ := fun i => -θ i) hγ hγ1 h0 h1
    (fun k => by
      have := hv k
      simp only [mul_neg, Finset.sum_neg_distrib]
      linarith) (fun k => by
      have := hθ k
      simp only [mul_neg, Finset.sum_neg_distrib]
      linarith) i
  linarith

/-- Averages of two vectors that differ by at most `B`. -/
theorem average_le {n : ℕ} {w θ θ' : Fin n → K} (h0 : ∀ j, 0 ≤ w j) (h1 : ∑ j, w j = 1) {B : K}
    (h : ∀ j, θ j ≤ θ' j + B) : ∑ j, w j * θ j ≤ ∑ j, w j * θ' j + B := by
  calc ∑ j, w j * θ j ≤ ∑ j, (w j * θ' j + w j * B) := Finset.sum_le_sum fun j _ => by
        rw [← mul_add]
        exact mul_le_mul_of_nonneg_left (h j) (h0 j)
    _ = _ := by rw [Finset.sum_add_distrib, ← Finset.sum_mul, h1, one_mul]

/-! ## The linear program -/

/-- **C146 (inaccurate solver).** The solver may violate every constraint by `ε` and miss the optimum by `η`. The new values
exceed the solution of the Bellman equation by at most `ε / (1 - gamma)`, and are at most `η + n * ε / (1 - gamma)` away from it,
where `n` is the number of grid points. -/
theorem C146_inaccurate_solver (S : RLSetup P g D eps project pp act) (hγ : P.gamma < 1)
    (hr : ∀ x ∈ g.allPoints, ConvexRegion g eps project (P.dynamics x (act x)).nextMean)
    {ε η : K} (hε : 0 ≤ ε) (hη : 0 ≤ η)
    (solve : Program K → Status × List K) (hs : InaccurateSolver ε η solve)
    (vars out : Vars K m) (hp : vars.policy = pp) (hlen : vars.value.length = ∏ i, g.num i)
    (ho : P.optimizeValueFunction eps solve vars = .ok out)
    (θ : List (Fin 1 → K)) (hθ : Bellman P g eps act θ) :
    out.policy = pp ∧ out.value.length = ∏ i, g.num i ∧
      (∀ (k : ℕ) v w, out.value[k]? = some v → θ[k]? = some w → v 0 ≤ w 0 + ε / (1 - P.gamma)) ∧
      Within (η + (∏ i, g.num i : ℕ) * (ε / (1 - P.gamma))) out.value θ := by
  obtain ⟨W, B, h1, -, h3, h4, h5, hd, h6, h7⟩ := program_dot S
  rw [h7 solve vars hp] at ho
  obtain ⟨p, hpdef⟩ : ∃ p : Program K,
    p = ⟨List.ofFn fun i => P.reward (pointAt g i) (act (pointAt g i)), P.gamma, B⟩ := ⟨_, rfl⟩
  rw [← hpdef] at ho
  have hW : ∀ i j, 0 ≤ W i j := fun i => h3 i (hr _ (pointAt_mem g i))
  have hst : (solve p).1 = .optimal := by
    by_contra hne
    simp only [ne_eq, hne, not_false_eq_true, if_true] at ho
    cases ho
  simp only [ne_eq, hst, not_true_eq_false, if_false] at ho
  obtain ⟨hf, hopt⟩ := hs p hst
  have hl : (solve p).2.length = nParams g := by simpa [hpdef] using hf.1
  obtain ⟨x, hx⟩ : ∃ x : Fin (nParams g) → K, (solve p).2 = List.ofFn x :=
    ⟨fun i => (solve p).2[i.1]'(by have := i.2; omega), by
      apply List.ext_getElem (by simp [hl])
      intro k e1 e2
      simp⟩
  rw [hx] at hf hopt ho
  have hl' := hθ.1
  obtain ⟨v, rfl⟩ := toParams_surj θ hl'
  have hv : ∀ i, v i = P.reward (pointAt g i) (act (pointAt g i)) + P.gamma * ∑ j, W i j * v j := by
    intro i
    obtain ⟨e, e1, e2⟩ := bellman_at hθ i
    rw [← C17_tf_agrees, h4 i v] at e1
    cases e1
    exact e2
  have hmap : (List.ofFn x).map (fun v (_ : Fin 1) => v) = toParams x := by
    rw [List.map_ofFn]; rfl
  have hnf : ∀ i, x i ≤ P.reward (pointAt g i) (act (pointAt g i)) + P.gamma * ∑ j, W i j * x j + ε := by
    intro i
    obtain ⟨-, mv, e, h⟩ := hf
    rw [hmap, hpdef, hd x] at e
    cases e
    have := h i.1 (x i) (P.reward (pointAt g i) (act (pointAt g i))) (fun _ => ∑ j, W i j * x j)
      (by simp) (by simp [hpdef]) (by simp)
    simpa [hpdef] using this
  have hup := le_fixed_add S.gamma hγ hW h1 hv hnf
  have hsum := hopt (List.ofFn v) (by rw [hpdef]; exact (h6 v).mpr fun i => (hv i).le)
  rw [List.sum_ofFn, List.sum_ofFn] at hsum
  have hq : 0 ≤ ε / (1 - P.gamma) := div_nonneg hε (by linarith)
  have hlow : ∀ i, v i ≤ x i + (η + (nParams g : ℕ) * (ε / (1 - P.gamma))) := by
    intro i
    have h8 : v i + ∑ j ∈ Finset.univ.erase i, v j ≤ x i + ∑ j ∈ Finset.univ.erase i, x j + η := by
      rw [Finset.add_sum_erase _ _ (Finset.mem_univ i), Finset.add_sum_erase _ _ (Finset.mem_univ i)]
      exact hsum
    have h9 : ∑ j ∈ Finset.univ.erase i, x j ≤
        ∑ j ∈ Finset.univ.erase i, v j + (nParams g : ℕ) * (ε / (1 - P.gamma)) := by
      calc _ ≤ ∑ j ∈ Finset.univ.erase i, (v j + ε / (1 - P.gamma)) := Finset.sum_le_sum fun j _ => hup j
        _ = ∑ j ∈ Finset.univ.erase i, v j + ((Finset.univ.erase i).card : K) * (ε / (1 - P.gamma)) := by
            rw [Finset.sum_add_distrib, Finset.sum_const, nsmul_eq_mul]
        _ ≤ _ := by
            have : ((Finset.univ.erase i).card : K) ≤ (nParams g : ℕ) := by
              have := Finset.card_le_univ (Finset.univ.erase i)
              rw [Fintype.card_fin] at this
              exact_mod_cast this
            have := mul_le_mul_of_nonneg_right this hq
            linarith
    linarith
  unfold PolicyIteration.assignValue at ho
  rw [if_pos (by rw [hlen]; simp)] at ho
  cases ho
  simp only [hmap]
  refine ⟨hp, toParams_length _, fun k a b ha hb => ?_, within_toParams.mpr fun i => ?_⟩
  · have hk : k < nParams g := by
      have := (List.getElem?_eq_some_iff.mp ha).1
      rwa [toParams_length] at this
    rw [toParams_getElem? _ _ hk] at ha hb
    cases ha
    cases hb
    exact hup ⟨k, hk⟩
  · rw [abs_le]
    have hn1 : (1 : K) ≤ (nParams g : ℕ) := by
      have := i.2
      exact_mod_cast (by omega : 1 ≤ nParams g)
    have := hup i
    have := hlow i
    have := mul_le_mul_of_nonneg_right hn1 hq
    constructor <;> linarith

/-! ## The Bellman error -/

/-- One grid point contributes at most the whole Bellman error. -/
theorem bellmannError_allPoints (S : RLSetup P g D eps project pp act)
    (heps : ∑ i, 2 * eps / ((g.hi i - g.lo i) / ((g.num i : K) - 1)) < 1)
    {W : Fin (nParams g) → Fin (nParams g) → K}
    (hW : ∀ i θ, P.valueFunction.tfEvaluate eps (toParams θ)
        (P.dynamics (pointAt g i) (act (pointAt g i))).nextMean = .ok fun _ => ∑ j, W i j * θ j)
    (θ : Fin (nParams g) → K) :
    P.bellmannError eps ⟨toParams θ, pp⟩ g.allPoints = .ok (∑ i,
      (P.reward (pointAt g i) (act (pointAt g i)) + P.gamma * ∑ j, W i j * θ j - θ i) ^ 2) := by
  have h1 : P.futureValues eps ⟨toParams θ, pp⟩ (List.ofFn (pointAt g)) =
      .ok (List.ofFn fun i => P.reward (pointAt g i) (act (pointAt g i)) + P.gamma * ∑ j, W i j * θ j) := by
    have hnd := GridWorld.C03_all_points_nodup g S.tri.two_le S.tri.lt
    obtain ⟨f, hf⟩ : ∃ f : (Fin d → K) → K, ∀ i, f (pointAt g i) =
        P.reward (pointAt g i) (act (pointAt g i)) + P.gamma * ∑ j, W i j * θ j := by
      have hinj : Function.Injective (pointAt g) := by
        rw [allPoints_eq_ofFn] at hnd
        exact List.nodup_ofFn.mp hnd
      exact ⟨Function.extend (pointAt g) (fun i => P.reward (pointAt g i) (act (pointAt g i)) +
        P.gamma * ∑ j, W i j * θ j) 0, fun i => hinj.extend_apply _ _ i⟩
    rw [futureValues_policy (act := act) (f := f) (fun x hx => S.policy x (by
      rw [allPoints_eq_ofFn]; exact hx)) fun x hx => ?_, List.map_ofFn]
    · congr 2
      funext i
      exact hf i
    · obtain ⟨i, rfl⟩ := List.mem_ofFn.mp hx
      rw [futureValue_none _ _ (hW i θ), hf]
  have h2 : (List.ofFn (pointAt g)).mapM (P.valueFunction.tfEvaluate eps (toParams θ)) =
      .ok (toParams θ) := by
    have := mapM_ok (l := List.finRange (nParams g))
      (f := fun i => P.valueFunction.tfEvaluate eps (toParams θ) (pointAt g i))
      (g := fun i _ => θ i) fun i _ => by
        obtain ⟨v, e1, e2⟩ := C11_interpolates S.tri S.new heps (toParams θ) (toParams_length θ) i.1 _
          ((GridWorld.C03_all_points_enumerates g).2 i.1 (by
            rw [(GridWorld.C03_all_points_enumerates g).1]; exact i.2)).2
        rw [toParams_getElem? _ _ i.2] at e1
        cases e1
        rw [C17_tf_agrees]
        exact e2
    rw [List.ofFn_eq_map, List.mapM_map]
    refine Eq.trans this ?_
    congr 1
    exact List.ofFn_eq_map.symm
  unfold PolicyIteration.bellmannError
  rw [allPoints_eq_ofFn]
  simp only [h1, h2, bind, Except.bind, pure, Except.pure]
  congr 1
  rw [← List.sum_ofFn]
  congr 1
  apply List.ext_getElem (by simp [toParams])
  intro k e1 e2
  simp [toParams]

/-- **C146 (Bellman error).** `bellmann_error` at the grid points bounds the distance of the values from the solution of the
Bellman equation: the squared distance at every grid point is at most the error divided by `(1 - gamma) ** 2`. -/
theorem C146_bellman_error (S : RLSetup P g D eps project pp act) (hγ : P.gamma < 1)
    (hr : ∀ x ∈ g.allPoints, ConvexRegion g eps project (P.dynamics x (act x)).nextMean)
    (heps : ∑ i, 2 * eps / ((g.hi i - g.lo i) / ((g.num i : K) - 1)) < 1)
    (vars : Vars K m) (hp : vars.policy = pp) (hlen : vars.value.length = ∏ i, g.num i)
    (e : K) (he : P.bellmannError eps vars g.allPoints = .ok e)
    (θ : List (Fin 1 → K)) (hθ : Bellman P g eps act θ) :
    ∀ (k : ℕ) v w, vars.value[k]? = some v → θ[k]? = some w →
      ((1 - P.gamma) * (v 0 - w 0)) ^ 2 ≤ e := by
  obtain ⟨W, h1, -, h3, h4, -⟩ := valueIteration_eq S
  obtain ⟨value, policy⟩ := vars
  simp only at hp hlen ⊢
  subst hp
  obtain ⟨x, rfl⟩ := toParams_surj value hlen
  have hl' := hθ.1
  obtain ⟨v, rfl⟩ := toParams_surj θ hl'
  have hv : ∀ i, v i = P.reward (pointAt g i) (act (pointAt g i)) + P.gamma * ∑ j, W i j * v j := by
    intro i
    obtain ⟨e, e1, e2⟩ := bellman_at hθ i
    rw [← C17_tf_agrees, h4 i v] at e1
    cases e1
    exact e2
  have hW : ∀ i j, 0 ≤ W i j := fun i => h3 i (hr _ (pointAt_mem g i))
  rw [bellmannError_allPoints S heps h4] at he
  cases he
  intro k a b ha hb
  have hk : k < nParams g := by
    have := (List.getElem?_eq_some_iff.mp ha).1
    rwa [toParams_length] at this
  rw [toParams_getElem? _ _ hk] at ha hb
  cases ha
  cases hb
  -- the largest residual
  obtain ⟨l, -, hmax⟩ := Finset.exists_max_image Finset.univ
    (fun i => |P.reward (pointAt g i) (act (pointAt g i)) + P.gamma * ∑ j, W i j * x j - x i|)
    ⟨⟨k, hk⟩, Finset.mem_univ _⟩
  obtain ⟨c, hc⟩ : ∃ c, c = |P.reward (pointAt g l) (act (pointAt g l)) +
    P.gamma * ∑ j, W l j * x j - x l| := ⟨_, rfl⟩
  have hm : ∀ i, |P.reward (pointAt g i) (act (pointAt g i)) + P.gamma * ∑ j, W i j * x j - x i| ≤ c :=
    fun i => by rw [hc]; exact hmax i (Finset.mem_univ i)
  have hup := le_fixed_add (c := c) S.gamma hγ hW h1 hv (fun i => by
    have := (abs_le.mp (hm i)).1
    linarith) ⟨k, hk⟩
  have hlo := fixed_sub_le (c := c) S.gamma hγ hW h1 hv (fun i => by
    have := (abs_le.mp (hm i)).2
    linarith) ⟨k, hk⟩
  have hg : 0 < 1 - P.gamma := by linarith
  have habs : |(1 - P.gamma) * (x ⟨k, hk⟩ - v ⟨k, hk⟩)| ≤ c := by
    rw [abs_mul, abs_of_pos hg]
    have : |x ⟨k, hk⟩ - v ⟨k, hk⟩| ≤ c / (1 - P.gamma) := by
      rw [abs_le]
      constructor <;> linarith
    calc _ ≤ (1 - P.gamma) * (c / (1 - P.gamma)) := mul_le_mul_of_nonneg_left this hg.le
      _ = c := by field_simp
  calc _ = |(1 - P.gamma) * (x ⟨k, hk⟩ - v ⟨k, hk⟩)| ^ 2 := (sq_abs _).symm
    _ ≤ c ^ 2 := pow_le_pow_left₀ (abs_nonneg _) habs 2
    _ = (P.reward (pointAt g l) (act (pointAt g l)) + P.gamma * ∑ j, W l j * x j - x l) ^ 2 := by
        rw [hc, sq_abs]
    _ ≤ _ := Finset.single_le_sum
        (f := fun i => (P.reward (pointAt g i) (act (pointAt g i)) + P.gamma * ∑ j, W i j * x j - x i) ^ 2)
        (fun i _ => sq_nonneg _) (Finset.mem_univ l)

/-! ## Policy iteration with inaccurate values -/

/-- At the given values, the new action of every grid point is at least as good as every available one. -/
theorem greedy_step {act' act'' : (Fin d → K) → Fin m → K} {θ : Fin (nParams g) → K} {policy : List (Fin m → K)}
    {out : Vars K m} {constraint : Option (List (Fin m → K) → List K)} (hgrid : P.policyGrid = g)
    (ho : P.discretePolicyOptimization eps ⟨toParams θ, policy⟩ actionSpace constraint = .ok out)
    (hparam : ∀ (s : ℕ) x, g.allPoints[s]? = some x → out.policy[s]? = some (act' x))
    (hav : Spec.Available constraint actionSpace g.allPoints act'')
    {W' W'' : Fin (nParams g) → Fin (nParams g) → K}
    (h' : ∀ i θ, P.valueFunction.tfEvaluate eps (toParams θ)
        (P.dynamics (pointAt g i) (act' (pointAt g i))).nextMean = .ok fun _ => ∑ j, W' i j * θ j)
    (h'' : ∀ i θ, P.valueFunction.tfEvaluate eps (toParams θ)
        (P.dynamics (pointAt g i) (act'' (pointAt g i))).nextMean = .ok fun _ => ∑ j, W'' i j * θ j)
    (i : Fin (nParams g)) :
    P.reward (pointAt g i) (act'' (pointAt g i)) + P.gamma * ∑ j, W'' i j * θ j ≤
      P.reward (pointAt g i) (act' (pointAt g i)) + P.gamma * ∑ j, W' i j * θ j := by
  have hget : g.allPoints[i.1]? = some (pointAt g i) := List.getElem?_eq_getElem _
  obtain ⟨-, k, a, v, e1, e2, e3, e4⟩ := C63_best_safe_action_partial ho i.1 (pointAt g i)
    (by rw [hgrid]; exact hget)
  rw [hparam _ _ hget] at e1
  cases e1
  obtain ⟨hmem, hsafe⟩ := hav _ _ hget
  obtain ⟨j, hj⟩ := List.mem_iff_getElem?.mp hmem
  obtain ⟨-, w, hw, hwv, -⟩ := e4 j _ hj (by rw [hgrid]; exact hsafe)
  obtain ⟨e, he, rfl⟩ := futureValue_inv hw
  obtain ⟨f, hf, rfl⟩ := futureValue_inv e3
  simp only at he hf
  rw [h'' i θ] at he
  cases he
  rw [h' i θ] at hf
  cases hf
  exact hwv

/-- The Bellman equation for vectors. -/
theorem bellman_vec {W : Fin (nParams g) → Fin (nParams g) → K}
    (hW : ∀ i θ, P.valueFunction.tfEvaluate eps (toParams θ)
        (P.dynamics (pointAt g i) (act (pointAt g i))).nextMean = .ok fun _ => ∑ j, W i j * θ j)
    {v : Fin (nParams g) → K} (hv : Bellman P g eps act (toParams v)) (i : Fin (nParams g)) :
    v i = P.reward (pointAt g i) (act (pointAt g i)) + P.gamma * ∑ j, W i j * v j := by
  obtain ⟨e, e1, e2⟩ := bellman_at hv i
  rw [← C17_tf_agrees, hW i v] at e1
  cases e1
  exact e2

/-- `a` exceeds `b` by at most `c` in every entry. -/
def _root_.Spec.BelowBy (c : K) (a b : List (Fin 1 → K)) : Prop :=
  ∀ (k : ℕ) v w, a[k]? = some v → b[k]? = some w → v 0 ≤ w 0 + c

theorem belowBy_toParams {n : ℕ} {c : K} {θ θ' : Fin n → K} :
    Spec.BelowBy c (toParams θ) (toParams θ') ↔ ∀ i, θ i ≤ θ' i + c := by
  constructor
  · intro h i
    exact h i.1 _ _ (toParams_getElem? θ i.1 i.2) (toParams_getElem? θ' i.1 i.2)
  · intro h k v w hv hw
    have hk : k < n := by
      have := (List.getElem?_eq_some_iff.mp hv).1
      rwa [toParams_length] at this
    rw [toParams_getElem? _ _ hk] at hv hw
    cases hv
    cases hw
    exact h ⟨k, hk⟩

/-- **C146 (improvement with inaccurate values).** The values are within `δ` of the solution for the old policy, whose actions
are available. The solution for the policy that `discrete_policy_optimization` returns is at most `2 * gamma * δ / (1 - gamma)` worse
in any state. For any other policy `act''` with available actions, the amount by which it is better shrinks by the factor `gamma`
up to the same constant. -/
theorem C146_improvement {act' act'' : (Fin d → K) → Fin m → K} {vars out : Vars K m}
    {constraint : Option (List (Fin m → K) → List K)} {pp'' : List (Fin m → K)}
    (S : RLSetup P g D eps project pp act)
    (S' : RLSetup P g D eps project out.policy act') (S'' : RLSetup P g D eps project pp'' act'')
    (hγ : P.gamma < 1)
    (hr : ∀ x ∈ g.allPoints, ConvexRegion g eps project (P.dynamics x (act x)).nextMean)
    (hr' : ∀ x ∈ g.allPoints, ConvexRegion g eps project (P.dynamics x (act' x)).nextMean)
    (hr'' : ∀ x ∈ g.allPoints, ConvexRegion g eps project (P.dynamics x (act'' x)).nextMean)
    (hgrid : P.policyGrid = g)
    (hav : Spec.Available constraint actionSpace g.allPoints act)
    (hav'' : Spec.Available constraint actionSpace g.allPoints act'')
    (hlen : vars.value.length = ∏ i, g.num i)
    (ho : P.discretePolicyOptimization eps vars actionSpace constraint = .ok out)
    (hparam : ∀ (s : ℕ) x, g.allPoints[s]? = some x → out.policy[s]? = some (act' x))
    {δ G : K} (θ θ' θ'' : List (Fin 1 → K)) (hold : Bellman P g eps act θ)
    (hnew : Bellman P g eps act' θ') (hother : Bellman P g eps act'' θ'')
    (hδ : Within δ vars.value θ) (hG : Spec.BelowBy G θ'' θ) :
    Spec.BelowBy (2 * P.gamma * δ / (1 - P.gamma)) θ θ' ∧
      Spec.BelowBy (P.gamma * G + 2 * P.gamma * δ / (1 - P.gamma)) θ'' θ' := by
  obtain ⟨W, h1, -, h3, h4, -⟩ := valueIteration_eq S
  obtain ⟨W', h1', -, h3', h4', -⟩ := valueIteration_eq S'
  obtain ⟨W'', h1'', -, h3'', h4'', -⟩ := valueIteration_eq S''
  obtain ⟨value, policy⟩ := vars
  simp only at hlen hδ
  obtain ⟨x, rfl⟩ := toParams_surj value hlen
  have l1 := hold.1
  have l2 := hnew.1
  have l3 := hother.1
  obtain ⟨v, rfl⟩ := toParams_surj θ l1
  obtain ⟨v', rfl⟩ := toParams_surj θ' l2
  obtain ⟨v'', rfl⟩ := toParams_surj θ'' l3
  rw [belowBy_toParams] at hG
  rw [belowBy_toParams, belowBy_toParams]
  rw [within_toParams] at hδ
  have hv := bellman_vec h4 hold
  have hv' := bellman_vec h4' hnew
  have hv'' := bellman_vec h4'' hother
  have hW : ∀ i j, 0 ≤ W i j := fun i => h3 i (hr _ (pointAt_mem g i))
  have hW' : ∀ i j, 0 ≤ W' i j := fun i => h3' i (hr' _ (pointAt_mem g i))
  have hW'' : ∀ i j, 0 ≤ W'' i j := fun i => h3'' i (hr'' _ (pointAt_mem g i))
  have hg := greedy_step hgrid ho hparam hav h4' h4
  have hg'' := greedy_step hgrid ho hparam hav'' h4' h4''
  have hxv : ∀ j, x j ≤ v j + δ := fun j => by have := (abs_le.mp (hδ j)).2; linarith
  have hvx : ∀ j, v j ≤ x j + δ := fun j => by have := (abs_le.mp (hδ j)).1; linarith
  have hγ0 := S.gamma
  have hc : (2 * P.gamma * δ / (1 - P.gamma)) = 2 * P.gamma * δ + P.gamma * (2 * P.gamma * δ / (1 - P.gamma)) := by
    have : (1 - P.gamma) ≠ 0 := by linarith
    field_simp
    ring
  have himp : ∀ i, v i ≤ v' i + 2 * P.gamma * δ / (1 - P.gamma) := by
    refine le_fixed_add S.gamma hγ hW' h1' hv' fun i => ?_
    have a1 := mul_le_mul_of_nonneg_left (average_le (hW i) (h1 i) hvx) hγ0
    have a2 := mul_le_mul_of_nonneg_left (average_le (hW' i) (h1' i) hxv) hγ0
    have := hg i
    have := hv i
    linarith
  refine ⟨himp, fun i => ?_⟩
  have a1 := mul_le_mul_of_nonneg_left (average_le (hW'' i) (h1'' i) hG) hγ0
  have a2 := mul_le_mul_of_nonneg_left (average_le (hW'' i) (h1'' i) hvx) hγ0
  have a3 := mul_le_mul_of_nonneg_left (average_le (hW' i) (h1' i) hxv) hγ0
  have a4 := mul_le_mul_of_nonneg_left (average_le (hW' i) (h1' i) himp) hγ0
  have := hg'' i
  have := hv'' i
  have := hv' i
  linarith

/-- Outside the boundary strip, the Bellman equation has a solution for every discount factor below one. -/
theorem bellman_exists_convex (S : RLSetup P g D eps project pp act) (hγ : P.gamma < 1)
    (hr : ∀ x ∈ g.allPoints, ConvexRegion g eps project (P.dynamics x (act x)).nextMean) :
    ∃ θ, Bellman P g eps act θ := by
  obtain ⟨W, h1, -, h3, -, h5⟩ := valueIteration_eq S
  have hW : ∀ i j, 0 ≤ W i j := fun i => h3 i (hr _ (pointAt_mem g i))
  have hWa : ∀ i, ∑ j, |W i j| ≤ 1 := fun i => by
    rw [← h1 i]; exact le_of_eq (Finset.sum_congr rfl fun j _ => abs_of_nonneg (hW i j))
  obtain ⟨v, hv⟩ := exists_fixed S.gamma hWa (by simpa using hγ)
    (fun i => P.reward (pointAt g i) (act (pointAt g i)))
  refine ⟨toParams v, (bellman_iff S _).mpr ⟨toParams_length _, ?_⟩⟩
  rw [h5]
  congr 3
  funext i
  exact (hv i).symm

/-- **C146 (policy iteration with an inaccurate solver).** All rounds: `optimize_value_function` with a solver that violates the
constraints by at most `ε` and misses the optimum by at most `η`, then `discrete_policy_optimization`. Let `δ` be the bound of
`C146_inaccurate_solver`. In every round the values are within `δ` of the solution for the current policy, and a policy with available
actions is better than the current one by at most `gamma ^ n * G + 2 * gamma * δ / (1 - gamma) ** 2`, if it was better by at
most `G` than the first one. -/
theorem C146_rounds (C : ControlSetup P g D Dp eps project pproj tp actionSpace)
    {ε η : K} (hε : 0 ≤ ε) (hη : 0 ≤ η)
    (solve : Program K → Status × List K) (hs : InaccurateSolver ε η solve)
    (constraint : Option (List (Fin m → K) → List K))
    (before solved : ℕ → Vars K m)
    (hlenv : (before 0).value.length = ∏ i, g.num i) (hlenp : (before 0).policy.length = ∏ i, g.num i)
    (hav : Spec.AvailableParams constraint actionSpace (before 0).policy)
    (hvalue : ∀ n, P.optimizeValueFunction eps solve (before n) = .ok (solved n))
    (hpolicy : ∀ n, P.discretePolicyOptimization eps (solved n) actionSpace constraint =
      .ok (before (n + 1)))
    (δ : K) (hδ : δ = η + (∏ i, g.num i : ℕ) * (ε / (1 - P.gamma))) :
    ∃ act : ℕ → (Fin d → K) → Fin m → K, ∃ θ : ℕ → List (Fin 1 → K),
      (∀ n, Spec.AvailableParams constraint actionSpace (before n).policy) ∧
      (∀ n (s : ℕ) x, g.allPoints[s]? = some x → (before n).policy[s]? = some (act n x)) ∧
      (∀ n, Bellman P g eps (act n) (θ n)) ∧
      (∀ n, Within δ (solved n).value (θ n)) ∧
      ∀ (params : List (Fin m → K)) (act'' : (Fin d → K) → Fin m → K) (θ'' : List (Fin 1 → K)) (G : K),
        params.length = ∏ i, g.num i → Spec.AvailableParams constraint actionSpace params →
        (∀ (s : ℕ) x, g.allPoints[s]? = some x → params[s]? = some (act'' x)) →
        Bellman P g eps act'' θ'' → Spec.BelowBy G θ'' (θ 0) →
        ∀ n, Spec.BelowBy (P.gamma ^ n * G + 2 * P.gamma * δ / (1 - P.gamma) ^ 2) θ'' (θ n) := by
  have hinv : ∀ n, (before n).value.length = ∏ i, g.num i ∧ (before n).policy.length = ∏ i, g.num i ∧
      Spec.AvailableParams constraint actionSpace (before n).policy := by
    intro n
    induction n with
    | zero => exact ⟨hlenv, hlenp, hav⟩
    | succ n ih =>
      obtain ⟨i1, i2, i3⟩ := ih
      obtain ⟨a, S, -, -, hr⟩ := C.setup i2 i3
      obtain ⟨t, ht⟩ := bellman_exists_convex S C.gamma_lt hr
      obtain ⟨e1, e2, -, -⟩ := C146_inaccurate_solver S C.gamma_lt hr hε hη solve hs _ _ rfl i1 (hvalue n) t ht
      obtain ⟨e3, e4, e5⟩ := C.available (by rw [e1]; exact i2) (by rw [e1]; exact i3) (hpolicy n)
      exact ⟨by rw [e3]; exact e2, e4, e5⟩
  choose act S hparam hA hr using fun n => C.setup (hinv n).2.1 (hinv n).2.2
  choose θ hθ using fun n => bellman_exists_convex (S n) C.gamma_lt (hr n)
  have hsol := fun n => C146_inaccurate_solver (S n) C.gamma_lt (hr n) hε hη solve hs _ _ rfl (hinv n).1
    (hvalue n) (θ n) (hθ n)
  refine ⟨act, θ, fun n => (hinv n).2.2, hparam, hθ, fun n => by rw [hδ]; exact (hsol n).2.2.2, ?_⟩
  intro params act'' θ'' G hl hav'' hp'' hθ'' hG n
  obtain ⟨a, Sa, hpa, hAa, hra⟩ := C.setup hl hav''
  -- the two descriptions of the other policy agree at the grid points
  have hagree : ∀ x ∈ g.allPoints, a x = act'' x := fun x hx => by
    obtain ⟨s, hs⟩ := List.mem_iff_getElem?.mp hx
    have := (hpa s x hs).symm.trans (hp'' s x hs)
    exact Option.some.inj this
  have S'' : RLSetup P g D eps project params act'' := ⟨Sa.tri, Sa.new, Sa.gamma,
    fun x hx => by rw [← hagree x hx]; exact Sa.policy x hx,
    fun x hx => by rw [← hagree x hx]; exact Sa.next x hx⟩
  have hr'' : ∀ x ∈ g.allPoints, ConvexRegion g eps project (P.dynamics x (act'' x)).nextMean :=
    fun x hx => by rw [← hagree x hx]; exact hra x hx
  have hA'' : Spec.Available constraint actionSpace g.allPoints act'' := fun s x hx => by
    rw [← hagree x (List.mem_of_getElem? hx)]
    exact hAa s x hx
  have hg1 : 0 < 1 - P.gamma := by have := C.gamma_lt; linarith
  have hγ0 := C.gamma_nonneg
  have hδ0 : 0 ≤ δ := by
    rw [hδ]
    have := mul_nonneg (Nat.cast_nonneg (α := K) (∏ i, g.num i)) (div_nonneg hε hg1.le)
    linarith
  obtain ⟨c, hc⟩ : ∃ c, c = 2 * P.gamma * δ / (1 - P.gamma) ^ 2 := ⟨_, rfl⟩
  have hc0 : 0 ≤ c := by rw [hc]; positivity
  have hc1 : P.gamma * c + 2 * P.gamma * δ / (1 - P.gamma) = c := by
    rw [hc]
    field_simp
    ring
  rw [← hc]
  induction n with
  | zero =>
    intro k v w hv hw
    have := hG k v w hv hw
    simp only [pow_zero, one_mul]
    linarith
  | succ n ih =>
    have h2 := (C146_improvement (S n) (S (n + 1)) S'' C.gamma_lt (hr n) (hr (n + 1)) hr'' C.grid (hA n) hA''
      (hsol n).2.1 (hpolicy n) (hparam (n + 1)) (θ n) (θ (n + 1)) θ'' (hθ n) (hθ (n + 1)) hθ''
      (hsol n).2.2.2 ih).2
    rw [← hδ] at h2
    intro k v w hv hw
    have h3 := h2 k v w hv hw
    have h4 : P.gamma * (P.gamma ^ n * G + c) + 2 * P.gamma * δ / (1 - P.gamma) = P.gamma ^ (n + 1) * G + c := by
      rw [mul_add, add_assoc, hc1, pow_succ]
      ring
    rwa [h4] at h3

/-- **C146 (tight).** The bound of `C146_inaccurate_solver` is attained: for every tolerance `ε` some solver with this tolerance
returns values that exceed the solution by `ε / (1 - gamma)` at every grid point. -/
theorem C146_tight (S : RLSetup P g D eps project pp act) (hγ : P.gamma < 1)
    (hr : ∀ x ∈ g.allPoints, ConvexRegion g eps project (P.dynamics x (act x)).nextMean)
    {ε : K} (hε : 0 ≤ ε) (vars : Vars K m) (hp : vars.policy = pp)
    (hlen : vars.value.length = ∏ i, g.num i) (θ : List (Fin 1 → K)) (hθ : Bellman P g eps act θ) :
    ∃ (solve : Program K → Status × List K) (out : Vars K m), InaccurateSolver ε 0 solve ∧
      P.optimizeValueFunction eps solve vars = .ok out ∧
      out.value = θ.map fun w _ => w 0 + ε / (1 - P.gamma) := by
  classical
  obtain ⟨W, B, h1, -, h3, h4, h5, hd, h6, h7⟩ := program_dot S
  have hW : ∀ i j, 0 ≤ W i j := fun i => h3 i (hr _ (pointAt_mem g i))
  have hl' := hθ.1
  obtain ⟨v, rfl⟩ := toParams_surj θ hl'
  have hv := bellman_vec h4 hθ
  have hg1 : 0 < 1 - P.gamma := by linarith
  have hq : 0 ≤ ε / (1 - P.gamma) := div_nonneg hε hg1.le
  obtain ⟨x, hx⟩ : ∃ x : Fin (nParams g) → K, x = fun i => v i + ε / (1 - P.gamma) := ⟨_, rfl⟩
  obtain ⟨p, hpdef⟩ : ∃ p : Program K,
    p = ⟨List.ofFn fun i => P.reward (pointAt g i) (act (pointAt g i)), P.gamma, B⟩ := ⟨_, rfl⟩
  have hmap : (List.ofFn x).map (fun v (_ : Fin 1) => v) = toParams x := by
    rw [List.map_ofFn]; rfl
  have hnear : Program.NearlyOptimal p ε 0 (List.ofFn x) := by
    refine ⟨⟨by simp [hpdef], _, by rw [hmap, hpdef]; exact hd x, fun k a r w ha hr' hw => ?_⟩, fun u hu => ?_⟩
    · have hk : k < nParams g := by
        have := (List.getElem?_eq_some_iff.mp ha).1
        simpa using this
      simp only [hpdef, List.getElem?_ofFn, hk, dite_true, Option.some.injEq] at ha hr' hw
      subst ha hr' hw
      simp only [hpdef]
      have e : ∑ j, W ⟨k, hk⟩ j * x j = ∑ j, W ⟨k, hk⟩ j * v j + ε / (1 - P.gamma) := by
        simp only [hx, mul_add, Finset.sum_add_distrib, ← Finset.sum_mul, h1, one_mul]
      rw [e, hx]
      have e2 : ε / (1 - P.gamma) = P.gamma * (ε / (1 - P.gamma)) + ε := by
        field_simp
        ring
      have := hv ⟨k, hk⟩
      simp only [mul_add]
      linarith
    · have hl : u.length = nParams g := by simpa [hpdef] using hu.1
      obtain ⟨y, rfl⟩ : ∃ y : Fin (nParams g) → K, u = List.ofFn y :=
        ⟨fun i => u[i.1]'(by have := i.2; omega), by
          apply List.ext_getElem (by simp [hl])
          intro k e1 e2
          simp⟩
      rw [List.sum_ofFn, List.sum_ofFn, add_zero]
      rw [hpdef] at hu
      refine Finset.sum_le_sum fun i _ => ?_
      have := le_fixed_of_feasible S.gamma hγ hW h1 hv ((h6 y).mp hu) i
      rw [hx]
      simp only
      linarith
  refine ⟨fun q => if Program.NearlyOptimal q ε 0 (List.ofFn x) then (.optimal, List.ofFn x) else (.other, []),
    { vars with value := toParams x }, fun q hq' => ?_, ?_, ?_⟩
  · by_cases h : Program.NearlyOptimal q ε 0 (List.ofFn x)
    · simp only [if_pos h]
      exact h
    · simp only [if_neg h] at hq'
      cases hq'
  · rw [h7 _ vars hp, ← hpdef]
    simp only [if_pos hnear, ne_eq, not_true_eq_false, if_false]
    unfold PolicyIteration.assignValue
    rw [if_pos (by rw [hlen]; simp), hmap]
  · rw [hx]
    unfold toParams
    rw [List.map_ofFn]
    rfl

/-! ## Examples -/

/-- `C146_tight`, `C146_inaccurate_solver` and `C146_bellman_error` apply to `lineIteration`: a solver that violates the constraints by
1/100 returns values that are 1/10 too large. -/
example : ∃ t, Tri.new lineGrid (delaunay1D 0 (lineGrid.unit 0)) true = .ok t ∧
    ∃ solve vars out θ e, InaccurateSolver (1 / 100) 0 solve ∧
      (lineIteration t).optimizeValueFunction (1 / 1000) solve vars = .ok out ∧
      Bellman (lineIteration t) lineGrid (1 / 1000) (fun _ => ![-1 / 2]) θ ∧
      out.value = θ.map (fun w _ => w 0 + 1 / 10) ∧
      Within (3 / 10) out.value θ ∧
      (lineIteration t).bellmannError (1 / 1000) out lineGrid.allPoints = .ok e ∧
      ∀ (k : ℕ) v w, out.value[k]? = some v → θ[k]? = some w → (1 / 10 * (v 0 - w 0)) ^ 2 ≤ e := by
  obtain ⟨t, ht⟩ := C09_construction lineSetup true
  have S := lineRL ht
  have hr : ∀ x ∈ lineGrid.allPoints, ConvexRegion lineGrid (1 / 1000) true
      ((lineIteration t).dynamics x ![-1 / 2]).nextMean := fun _ _ => Or.inr ⟨rfl, Or.inl rfl⟩
  have hγ : (lineIteration t).gamma < 1 := by norm_num [lineIteration]
  have hγe : (lineIteration t).gamma = 9 / 10 := rfl
  have hn : ∏ i, lineGrid.num i = 3 := by decide +kernel
  obtain ⟨θ, hθ⟩ := bellman_exists_convex S hγ hr
  let vars : Vars ℚ 1 := ⟨[![0], ![0], ![0]], [![-1 / 2]]⟩
  have hl : vars.value.length = ∏ i, lineGrid.num i := by decide +kernel
  obtain ⟨solve, out, h1, h2, h3⟩ := C146_tight (ε := 1 / 100) S hγ hr (by norm_num) vars rfl hl θ hθ
  obtain ⟨h4, h5, -, h6⟩ := C146_inaccurate_solver S hγ hr (by norm_num) le_rfl solve h1 vars out rfl hl h2 θ hθ
  obtain ⟨e, he⟩ := C62_defined (P := lineIteration t) lineSetup ht out h5 lineGrid.allPoints
    (fun x hx => ⟨![-1 / 2], by rw [h4]; exact S.policy x hx⟩)
  have h7 := C146_bellman_error S hγ hr (by decide +kernel) out h4 h5 e he θ hθ
  rw [hγe] at h3 h6 h7
  rw [hn] at h6
  refine ⟨t, ht, solve, vars, out, θ, e, h1, h2, hθ, ?_, ?_, he, ?_⟩
  · rw [h3]
    norm_num
  · convert h6 using 1
    norm_num
  · intro k v w hv hw
    have := h7 k v w hv hw
    norm_num at this ⊢
    exact this

/-- `C146_rounds` applies to `lineControl`, and its conclusion holds with `G` the largest difference. -/
example {t : Tri ℚ 1} (ht : Tri.new lineGrid (delaunay1D 0 (lineGrid.unit 0)) true = .ok t)
    (solve : PolicyIteration.Program ℚ → PolicyIteration.Status × List ℚ) (hs : SolverContract solve)
    (hc : ∀ p, (∃ values, Program.Optimal p values) → (solve p).1 = .optimal) :
    ∃ before solved : ℕ → Vars ℚ 1, ∃ θ : ℕ → List (Fin 1 → ℚ),
      (∀ n, (lineControl t 1).optimizeValueFunction (1 / 1000) solve (before n) = .ok (solved n)) ∧
      ∀ n, Within 0 (solved n).value (θ n) := by
  have C := lineControlSetup ht
  have hl : lineActions ≠ [] := by decide
  obtain ⟨a, ha⟩ := List.exists_mem_of_ne_nil _ hl
  obtain ⟨before, solved, h0, h1, h2⟩ := C92_rounds_partial C solve hs hc none (by intro c h; cases h) hl
    ⟨List.replicate 3 ![0], List.replicate 3 a⟩ (by rw [List.length_replicate]; decide +kernel) (by rw [List.length_replicate]; decide +kernel)
    (by
      intro s b hb
      have : b = a := List.eq_of_mem_replicate (List.mem_of_getElem? hb)
      rw [this]
      exact ⟨ha, by intro c h; cases h⟩)
  have hi : InaccurateSolver 0 0 solve := (inaccurateSolver_zero solve).mpr hs
  obtain ⟨act, θ, -, -, -, h4, -⟩ := C146_rounds C le_rfl le_rfl solve hi none before solved
    (by rw [h0, List.length_replicate]; decide +kernel) (by rw [h0, List.length_replicate]; decide +kernel) (by
      rw [h0]
      intro s b hb
      have : b = a := List.eq_of_mem_replicate (List.mem_of_getElem? hb)
      rw [this]
      exact ⟨ha, by intro c h; cases h⟩) h1 h2 0 (by simp)
  exact ⟨before, solved, θ, h1, h4⟩

end SafeLearning
