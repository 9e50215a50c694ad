import Verif.Props.PolicySession
import Verif.Props.Response
set_option autoImplicit false

/-!
# C92: policy iteration terminates with the largest values
-/

namespace SafeLearning

set_option linter.unusedSectionVars false

open Spec PolicyIteration

variable {K : Type} [Field K] [LinearOrder K] [IsStrictOrderedRing K] [FloorRing K] {d m : ℕ}

/-- The policy parameters `params` (one row per state) are available: every row is in the action space and safe in its
state. -/
def _root_.Spec.AvailableParams (constraint : Option (List (Fin m → K) → List K))
    (actionSpace : List (Fin m → K)) (params : List (Fin m → K)) : Prop :=
  ∀ (s : ℕ) a, params[s]? = some a → a ∈ actionSpace ∧ SafeAction constraint params.length a s

/-- Policy and value function are triangulations on the same grid, the discount factor is in `[0, 1)`, and the actions
lead to states in the region where the triangulation takes convex combinations. -/
structure ControlSetup (P : PolicyIteration K d m) (g : GridWorld K d) (D Dp : Delaunay K d) (eps : K)
    (project pproj : Bool) (tp : Tri K d) (actionSpace : List (Fin m → K)) : Prop where
  policyTri : TriSetup g Dp eps
  policyNew : Tri.new g Dp pproj = .ok tp
  small : ∑ i, 2 * eps / ((g.hi i - g.lo i) / ((g.num i : K) - 1)) < 1
  valueTri : TriSetup g D eps
  valueNew : Tri.new g D project = .ok P.valueFunction
  gamma_nonneg : 0 ≤ P.gamma
  gamma_lt : P.gamma < 1
  policy : P.policy = fun params x => tp.tfEvaluate eps params x
  grid : P.policyGrid = g
  next : ∀ x ∈ g.allPoints, ∀ a ∈ actionSpace, ConvexRegion g eps project (P.dynamics x a).nextMean

variable {P : PolicyIteration K d m} {g : GridWorld K d} {D Dp : Delaunay K d} {eps : K}
  {project pproj : Bool} {tp : Tri K d} {actionSpace : List (Fin m → K)}

/-- The action that a parameter array gives at a grid point. -/
theorem ControlSetup.act (C : ControlSetup P g D Dp eps project pproj tp actionSpace)
    (params : List (Fin m → K)) (hlen : params.length = ∏ i, g.num i) :
    ∃ act : (Fin d → K) → Fin m → K, ∀ (s : ℕ) x, g.allPoints[s]? = some x →
      params[s]? = some (act x) ∧ tp.tfEvaluate eps params x = .ok (act x) := by
  have hnd := GridWorld.C03_all_points_nodup g C.valueTri.two_le C.valueTri.lt
  refine ⟨fun x => params.getD (g.allPoints.idxOf x) 0, fun s x hx => ?_⟩
  obtain ⟨a, e1, e2⟩ := policy_interpolates_tri (m := m) C.policyTri C.policyNew C.small params hlen s x hx
  have hs : s < g.allPoints.length := (List.getElem?_eq_some_iff.mp hx).1
  have hxs := (List.getElem?_eq_some_iff.mp hx).2
  have : g.allPoints.idxOf x = s := by
    rw [← hxs]
    exact hnd.idxOf_getElem s hs
  have e3 : params.getD (g.allPoints.idxOf x) 0 = a := by
    rw [this, List.getD_eq_getElem?_getD, e1]
    rfl
  exact ⟨by rw [e1]; exact congrArg some e3.symm, by rw [e2]; exact congrArg Except.ok e3.symm⟩

/-- Available parameters give a policy to which the results on values apply. -/
theorem ControlSetup.setup (C : ControlSetup P g D Dp eps project pproj tp actionSpace)
    {constraint : Option (List (Fin m → K) → List K)}
    {params : List (Fin m → K)} (hlen : params.length = ∏ i, g.num i)
    (hav : Spec.AvailableParams constraint actionSpace params) :
    ∃ act : (Fin d → K) → Fin m → K, RLSetup P g D eps project params act ∧
      (∀ (s : ℕ) x, g.allPoints[s]? = some x → params[s]? = some (act x)) ∧
      Spec.Available constraint actionSpace g.allPoints act ∧
      ∀ x ∈ g.allPoints, ConvexRegion g eps project (P.dynamics x (act x)).nextMean := by
  obtain ⟨act, hact⟩ := C.act params hlen
  have hgl := (GridWorld.C03_all_points_enumerates g).1
  have hA : Spec.Available constraint actionSpace g.allPoints act := fun s x hx => by
    have := hav s _ (hact s x hx).1
    rwa [hlen, ← hgl] at this
  have hr : ∀ x ∈ g.allPoints, ConvexRegion g eps project (P.dynamics x (act x)).nextMean := fun x hx => by
    obtain ⟨s, hs⟩ := List.mem_iff_getElem?.mp hx
    exact C.next x hx _ (hA s x hs).1
  refine ⟨act, ⟨C.valueTri, C.valueNew, C.gamma_nonneg, fun x hx => ?_, fun x hx => ?_⟩,
    fun s x hx => (hact s x hx).1, hA, hr⟩
  · obtain ⟨s, hs⟩ := List.mem_iff_getElem?.mp hx
    rw [C.policy]
    exact (hact s x hs).2
  · rcases hr x hx with h | ⟨-, h⟩
    · right
      intro i
      have := h i
      have := C.valueTri.eps_pos
      constructor <;> linarith
    · exact h

/-- **C92 (any initial policy).** If every state has a safe action, one `discrete_policy_optimization` makes the policy
available, whatever it was before. Without a safe action see `C63_no_safe_action_refuted`. -/
theorem C92_first_round_partial {constraint : Option (List (Fin m → K) → List K)} {vars out : Vars K m}
    (hlen : vars.policy.length = P.policyGrid.allPoints.length)
    (hsafe : ∀ s < P.policyGrid.allPoints.length, ∃ b ∈ actionSpace,
      SafeAction constraint P.policyGrid.allPoints.length b s)
    (h : P.discretePolicyOptimization eps vars actionSpace constraint = .ok out) :
    Spec.AvailableParams constraint actionSpace out.policy := by
  obtain ⟨-, -, -, -, -, e1, e2⟩ := policyOptimization_inv h
  intro s a hsa
  have hs : s < P.policyGrid.allPoints.length := by
    have := (List.getElem?_eq_some_iff.mp hsa).1
    rwa [e2, hlen] at this
  obtain ⟨-, i, a', v, h1, h2, -, h4⟩ := C63_best_safe_action_partial h s _ (List.getElem?_eq_getElem hs)
  rw [hsa] at h1
  cases h1
  obtain ⟨b, hb, hbs⟩ := hsafe s hs
  obtain ⟨j, hj⟩ := List.mem_iff_getElem?.mp hb
  exact ⟨List.mem_of_getElem? h2, by rw [e2, hlen]; exact (h4 j _ hj hbs).1⟩

/-- The optimised policy is available again. -/
theorem ControlSetup.available (C : ControlSetup P g D Dp eps project pproj tp actionSpace)
    {constraint : Option (List (Fin m → K) → List K)} {vars out : Vars K m}
    (hlen : vars.policy.length = ∏ i, g.num i)
    (hav : Spec.AvailableParams constraint actionSpace vars.policy)
    (h : P.discretePolicyOptimization eps vars actionSpace constraint = .ok out) :
    out.value = vars.value ∧ out.policy.length = ∏ i, g.num i ∧
      Spec.AvailableParams constraint actionSpace out.policy := by
  obtain ⟨-, -, -, -, -, e1, e2⟩ := policyOptimization_inv h
  have hgl := (GridWorld.C03_all_points_enumerates g).1
  have hl : vars.policy.length = P.policyGrid.allPoints.length := by rw [C.grid, hgl]; exact hlen
  refine ⟨e1, e2.trans hlen, C92_first_round_partial hl (fun s hs => ?_) h⟩
  have hs' : s < vars.policy.length := by rw [hl]; exact hs
  have := hav s _ (List.getElem?_eq_getElem hs')
  rw [hl] at this
  exact ⟨_, this⟩

theorem below_antisymm {n : ℕ} {a b : List (Fin 1 → K)} (ha : a.length = n) (hb : b.length = n)
    (h1 : Below a b) (h2 : Below b a) : a = b := by
  obtain ⟨x, rfl⟩ := toParams_surj a ha
  obtain ⟨y, rfl⟩ := toParams_surj b hb
  rw [below_toParams] at h1 h2
  congr 1
  funext i
  exact le_antisymm (h1 i) (h2 i)

theorem below_trans {n : ℕ} {a b c : List (Fin 1 → K)} (ha : a.length = n) (hb : b.length = n)
    (hc : c.length = n) (h1 : Below a b) (h2 : Below b c) : Below a c := by
  obtain ⟨x, rfl⟩ := toParams_surj a ha
  obtain ⟨y, rfl⟩ := toParams_surj b hb
  obtain ⟨z, rfl⟩ := toParams_surj c hc
  rw [below_toParams] at *
  exact fun i => (h1 i).trans (h2 i)

/-- Outside the boundary strip, the Bellman equation has one solution for every discount factor below one. -/
theorem bellman_unique_convex {pp : List (Fin m → K)} {act : (Fin d → K) → Fin m → K}
    (S : RLSetup P g D eps project pp act) (hγ : P.gamma < 1)
    (hr : ∀ x ∈ g.allPoints, ConvexRegion g eps project (P.dynamics x (act x)).nextMean)
    {θ η : List (Fin 1 → K)} (h1 : Bellman P g eps act θ) (h2 : Bellman P g eps act η) : θ = η := by
  obtain ⟨W, w1, -, w3, w4, -⟩ := valueIteration_eq S
  have hl1 := h1.1
  have hl2 := h2.1
  obtain ⟨x, rfl⟩ := toParams_surj θ hl1
  obtain ⟨y, rfl⟩ := toParams_surj η hl2
  have hfix : ∀ z : Fin (nParams g) → K, Bellman P g eps act (toParams z) → ∀ i,
      z i = P.reward (pointAt g i) (act (pointAt g i)) + P.gamma * ∑ j, W i j * z j := by
    intro z hz i
    obtain ⟨e, e1, e2⟩ := bellman_at hz i
    rw [← C17_tf_agrees, w4 i z] at e1
    cases e1
    exact e2
  have hW : ∀ i j, 0 ≤ W i j := fun i => w3 i (hr _ (pointAt_mem g i))
  congr 1
  funext i
  exact le_antisymm
    (le_fixed_of_feasible S.gamma hγ hW w1 (hfix y h2) (fun i => (hfix x h1 i).le) i)
    (le_fixed_of_feasible S.gamma hγ hW w1 (hfix x h1) (fun i => (hfix y h2 i).le) i)

/-- Parameters with rows from the action space: there are finitely many. -/
theorem params_pigeonhole {n : ℕ} {A : List (Fin m → K)} (params : ℕ → List (Fin m → K))
    (hlen : ∀ k, (params k).length = n) (hA : ∀ k, ∀ a ∈ params k, a ∈ A) :
    ∃ i j, i < j ∧ j ≤ A.length ^ n ∧ params i = params j := by
  classical
  have hidx : ∀ k (s : Fin n), ∃ t : Fin A.length, A[t] = (params k)[s.1]'(by rw [hlen]; exact s.2) := by
    intro k s
    obtain ⟨t, ht, e⟩ := List.mem_iff_getElem.mp (hA k _ (List.getElem_mem (by rw [hlen]; exact s.2)))
    exact ⟨⟨t, ht⟩, e⟩
  choose idx hidx using hidx
  obtain ⟨i, j, hne, he⟩ := Fintype.exists_ne_map_eq_of_card_lt
    (f := fun k : Fin (A.length ^ n + 1) => idx k.1) (by simp)
  have key : params i.1 = params j.1 := by
    apply List.ext_getElem (by rw [hlen, hlen])
    intro s h1 h2
    have hs : s < n := by rw [← hlen i.1]; exact h1
    have : idx i.1 ⟨s, hs⟩ = idx j.1 ⟨s, hs⟩ := congrFun he ⟨s, hs⟩
    exact (hidx i.1 ⟨s, hs⟩).symm.trans ((congrArg (fun t : Fin A.length => A[t]) this).trans (hidx j.1 ⟨s, hs⟩))
  rcases lt_or_gt_of_ne hne with h | h
  · exact ⟨i.1, j.1, h, Nat.lt_succ_iff.mp j.2, key⟩
  · exact ⟨j.1, i.1, h, Nat.lt_succ_iff.mp i.2, key.symm⟩

/-- **C92 (termination).** Rounds of `optimize_value_function` (`before n` to `solved n`) and
`discrete_policy_optimization` (`solved n` to `before (n + 1)`) that start with an available policy: all policies are available, after fewer than
`|actions| ^ |states|` rounds the values do not change any more, and no policy with available actions has a larger value in
any state. Missing: next states in the boundary strip, see `C92_boundary_refuted`. -/
theorem C92_terminates_partial (C : ControlSetup P g D Dp eps project pproj tp actionSpace)
    (solve : Program K → Status × List K) (hs : SolverContract solve)
    (constraint : Option (List (Fin m → K) → List K))
    (before solved : ℕ → Vars K m)
    (hlenv : (before 0).value.length = ∏ i, g.num i) (hlenp : (before 0).policy.length = ∏ i, g.num i)
    (hav : Spec.AvailableParams constraint actionSpace (before 0).policy)
    (hvalue : ∀ n, P.optimizeValueFunction eps solve (before n) = .ok (solved n))
    (hpolicy : ∀ n, P.discretePolicyOptimization eps (solved n) actionSpace constraint =
      .ok (before (n + 1))) :
    ∃ N < actionSpace.length ^ (∏ i, g.num i),
      (∀ n, Spec.AvailableParams constraint actionSpace (before n).policy) ∧
      (∀ n, N ≤ n → (solved n).value = (solved N).value) ∧
      ∀ vars out : Vars K m, vars.value.length = ∏ i, g.num i → vars.policy.length = ∏ i, g.num i →
        Spec.AvailableParams constraint actionSpace vars.policy →
        P.optimizeValueFunction eps solve vars = .ok out →
        Below out.value (solved N).value := by
  -- invariants of all rounds
  have hinv : ∀ n, (before n).value.length = ∏ i, g.num i ∧ (before n).policy.length = ∏ i, g.num i ∧
      Spec.AvailableParams constraint actionSpace (before n).policy := by
    intro n
    induction n with
    | zero => exact ⟨hlenv, hlenp, hav⟩
    | succ n ih =>
      obtain ⟨i1, i2, i3⟩ := ih
      obtain ⟨act, S, -, -, hr⟩ := C.setup i2 i3
      obtain ⟨hb, hp⟩ := C61_optimal_partial S C.gamma_lt hr solve hs _ _ rfl i1 (hvalue n)
      obtain ⟨e1, e2, e3⟩ := C.available (by rw [hp]; exact i2) (by rw [hp]; exact i3) (hpolicy n)
      exact ⟨by rw [e1]; exact hb.1, e2, e3⟩
  -- the actions of all rounds
  have hacts := fun n => C.setup (hinv n).2.1 (hinv n).2.2
  choose act S hpar hA hr using hacts
  have hbell := fun n => C61_optimal_partial (S n) C.gamma_lt (hr n) solve hs _ _ rfl (hinv n).1 (hvalue n)
  have hval : ∀ n, (before (n + 1)).value = (solved n).value := fun n => by
    obtain ⟨-, -, -, -, -, e, -⟩ := policyOptimization_inv (hpolicy n)
    exact e
  have hlen : ∀ n, (solved n).value.length = ∏ i, g.num i := fun n => (hbell n).1.1
  have hmono1 : ∀ n, Below (solved n).value (solved (n + 1)).value := fun n =>
    C64_improves_partial (S (n + 1)) C.gamma_lt (hr (n + 1)) C.grid (hbell n).1 (hA n) (hpolicy n)
      (hpar (n + 1)) _ (hbell (n + 1)).1
  have hmono : ∀ n k, Below (solved n).value (solved (n + k)).value := by
    intro n k
    induction k with
    | zero =>
      obtain ⟨x, hx⟩ := toParams_surj _ (hlen n)
      rw [Nat.add_zero, hx, below_toParams]
      exact fun i => le_rfl
    | succ k ih => exact below_trans (hlen _) (hlen _) (hlen _) ih (hmono1 (n + k))
  -- two rounds have the same policy, hence the same values
  obtain ⟨i, j, hij, hj, he⟩ := params_pigeonhole (n := ∏ i, g.num i) (A := actionSpace)
    (fun n => (before n).policy) (fun n => (hinv n).2.1) (fun n a ha => by
      obtain ⟨s, hs⟩ := List.mem_iff_getElem?.mp ha
      exact ((hinv n).2.2 s a hs).1)
  have heq : ∀ x ∈ g.allPoints, act i x = act j x := fun x hx => by
    obtain ⟨s, hs⟩ := List.mem_iff_getElem?.mp hx
    have h1 := hpar i s x hs
    have h2 := hpar j s x hs
    rw [show (before i).policy = (before j).policy from he, h2] at h1
    exact (Option.some.inj h1).symm
  have hvij : (solved j).value = (solved i).value := by
    have hbj : Bellman P g eps (act i) (solved j).value := by
      refine ⟨hlen j, fun k x hx => ?_⟩
      obtain ⟨v, e, h1, h2, h3⟩ := (hbell j).1.2 k x hx
      have hmem : x ∈ g.allPoints := by
        obtain ⟨mi, hm, -, hx'⟩ := hx
        rw [mem_allPoints_iff]
        exact fun i => ⟨mi i, hm i, hx' i⟩
      simp only at h2 h3
      rw [← heq x hmem] at h2 h3
      exact ⟨v, e, h1, h2, h3⟩
    exact bellman_unique_convex (S i) C.gamma_lt (hr i) hbj (hbell i).1
  have hstop : (solved (i + 1)).value = (solved i).value := by
    refine below_antisymm (hlen _) (hlen _) ?_ (hmono1 i)
    rw [← hvij, show j = i + 1 + (j - (i + 1)) by omega]
    exact hmono _ _
  have hopt : ∀ vars out : Vars K m, vars.value.length = ∏ i, g.num i → vars.policy.length = ∏ i, g.num i →
      Spec.AvailableParams constraint actionSpace vars.policy →
      P.optimizeValueFunction eps solve vars = .ok out → Below out.value (solved i).value := by
    intro vars out h1 h2 h3 h4
    obtain ⟨act'', S'', -, hA'', hr''⟩ := C.setup h2 h3
    obtain ⟨hb, -⟩ := C61_optimal_partial S'' C.gamma_lt hr'' solve hs _ _ rfl h1 h4
    exact C64_optimal_partial S'' C.gamma_lt hr'' C.grid (hpolicy i) (hpar (i + 1))
      (by rw [← hstop]; exact (hbell (i + 1)).1) hA'' _ hb
  refine ⟨i, by omega, fun n => (hinv n).2.2, fun n hn => ?_, hopt⟩
  refine below_antisymm (hlen _) (hlen _)
    (hopt _ _ (hinv n).1 (hinv n).2.1 (hinv n).2.2 (hvalue n)) ?_
  rw [show n = i + (n - i) by omega]
  exact hmono _ _

/-- One round succeeds. -/
theorem ControlSetup.round (C : ControlSetup P g D Dp eps project pproj tp actionSpace)
    (solve : Program K → Status × List K) (hs : SolverContract solve)
    (hc : ∀ p, (∃ values, Program.Optimal p values) → (solve p).1 = .optimal)
    (constraint : Option (List (Fin m → K) → List K))
    (hcon : ∀ c, constraint = some c → ∀ a, (c (List.replicate (∏ i, g.num i) a)).length = ∏ i, g.num i)
    (hne : actionSpace ≠ []) (vars : Vars K m)
    (hlenv : vars.value.length = ∏ i, g.num i) (hlenp : vars.policy.length = ∏ i, g.num i)
    (hav : Spec.AvailableParams constraint actionSpace vars.policy) :
    ∃ mid out, P.optimizeValueFunction eps solve vars = .ok mid ∧
      P.discretePolicyOptimization eps mid actionSpace constraint = .ok out ∧
      out.value.length = ∏ i, g.num i ∧ out.policy.length = ∏ i, g.num i ∧
      Spec.AvailableParams constraint actionSpace out.policy := by
  have hgl := (GridWorld.C03_all_points_enumerates g).1
  obtain ⟨act, S, -, -, hr⟩ := C.setup hlenp hav
  obtain ⟨p, hp, h⟩ := C61_solvable_partial S C.gamma_lt hr vars rfl hlenv
  obtain ⟨mid, hm⟩ := (h solve).1 hs (hc p hp)
  obtain ⟨hb, hpol⟩ := C61_optimal_partial S C.gamma_lt hr solve hs _ _ rfl hlenv hm
  obtain ⟨out, ho⟩ := C63_defined (P := P) (eps := eps) mid actionSpace hne constraint
    (by rw [C.grid, hgl]; exact hcon)
    (fun x hx a ha => by
      rw [C.grid] at hx
      obtain ⟨value, pol⟩ := mid
      obtain ⟨v, rfl⟩ := toParams_surj value hb.1
      obtain ⟨w, -, -, -, hw⟩ := exists_row C.valueTri C.valueNew (P.dynamics x a).nextMean (by
        rcases C.next x hx a ha with h | ⟨-, h⟩
        · right
          intro i
          have := h i
          have := C.valueTri.eps_pos
          constructor <;> linarith
        · exact h)
      exact ⟨_, futureValue_none (P := P) (vars := ⟨toParams v, pol⟩) x a (hw v) 1⟩)
    (by rw [C.grid, hgl, hpol]; exact hlenp)
  obtain ⟨e1, e2, e3⟩ := C.available (by rw [hpol]; exact hlenp) (by rw [hpol]; exact hav) ho
  exact ⟨mid, out, hm, ho, by rw [e1]; exact hb.1, e2, e3⟩

/-- **C92 (rounds).** With a solver that finds the optimum of every program that has one, no round of policy iteration
raises: the rounds of `C92_terminates_partial` exist for every available initial policy. -/
theorem C92_rounds_partial (C : ControlSetup P g D Dp eps project pproj tp actionSpace)
    (solve : Program K → Status × List K) (hs : SolverContract solve)
    (hc : ∀ p, (∃ values, Program.Optimal p values) → (solve p).1 = .optimal)
    (constraint : Option (List (Fin m → K) → List K))
    (hcon : ∀ c, constraint = some c → ∀ a, (c (List.replicate (∏ i, g.num i) a)).length = ∏ i, g.num i)
    (hne : actionSpace ≠ []) (vars : Vars K m)
    (hlenv : vars.value.length = ∏ i, g.num i) (hlenp : vars.policy.length = ∏ i, g.num i)
    (hav : Spec.AvailableParams constraint actionSpace vars.policy) :
    ∃ before solved : ℕ → Vars K m, before 0 = vars ∧
      (∀ n, P.optimizeValueFunction eps solve (before n) = .ok (solved n)) ∧
      ∀ n, P.discretePolicyOptimization eps (solved n) actionSpace constraint = .ok (before (n + 1)) := by
  let Good := {v : Vars K m // v.value.length = ∏ i, g.num i ∧ v.policy.length = ∏ i, g.num i ∧
    Spec.AvailableParams constraint actionSpace v.policy}
  have hstep : ∀ v : Good, ∃ (mid : Vars K m) (out : Good), P.optimizeValueFunction eps solve v.1 = .ok mid ∧
      P.discretePolicyOptimization eps mid actionSpace constraint = .ok out.1 := by
    rintro ⟨v, h1, h2, h3⟩
    obtain ⟨mid, out, e1, e2, e3, e4, e5⟩ := C.round solve hs hc constraint hcon hne v h1 h2 h3
    exact ⟨mid, ⟨out, e3, e4, e5⟩, e1, e2⟩
  choose mid next h1 h2 using hstep
  let seq : ℕ → Good := fun n => Nat.rec ⟨vars, hlenv, hlenp, hav⟩ (fun _ v => next v) n
  exact ⟨fun n => (seq n).1, fun n => mid (seq n), rfl, fun n => h1 _, fun n => h2 _⟩

/-- The control problem on the line. -/
theorem lineControlSetup {t : Tri ℚ 1} (ht : Tri.new lineGrid (delaunay1D 0 (lineGrid.unit 0)) true = .ok t) :
    ControlSetup (lineControl t 1) lineGrid (delaunay1D 0 (lineGrid.unit 0)) (delaunay1D 0 (lineGrid.unit 0))
      (1 / 1000) true true t lineActions where
  policyTri := lineSetup
  policyNew := ht
  small := by decide +kernel
  valueTri := lineSetup
  valueNew := ht
  gamma_nonneg := by norm_num [lineControl]
  gamma_lt := by norm_num [lineControl]
  policy := rfl
  grid := rfl
  next := fun _ _ _ _ => Or.inr ⟨rfl, Or.inl rfl⟩

/-- Policy iteration on the line, with a constraint, stops after fewer than `2 ^ 3` rounds with the largest values: all
hypotheses of `C92_rounds_partial` and `C92_terminates_partial` are met. -/
example {t : Tri ℚ 1} (ht : Tri.new lineGrid (delaunay1D 0 (lineGrid.unit 0)) true = .ok t) :
    ∃ (solve : Program ℚ → Status × List ℚ) (before solved : ℕ → Vars ℚ 1), before 0 = lineVars ∧
      (∀ n, (lineControl t 1).optimizeValueFunction (1 / 1000) solve (before n) = .ok (solved n)) ∧
      (∀ n, (lineControl t 1).discretePolicyOptimization (1 / 1000) (solved n) lineActions
        (some stayConstraint) = .ok (before (n + 1))) ∧
      ∃ N < 8, ∀ n, N ≤ n → (solved n).value = (solved N).value := by
  classical
  let solve : Program ℚ → Status × List ℚ := fun p =>
    if h : ∃ v, Program.Optimal p v then (.optimal, h.choose) else (.other, [])
  have hs : SolverContract solve := by
    intro p hp
    by_cases h : ∃ v, Program.Optimal p v
    · simp only [solve, dif_pos h]
      exact h.choose_spec
    · simp only [solve, dif_neg h] at hp
      cases hp
  have hprod : ∏ i, lineGrid.num i = 3 := by decide +kernel
  have hav : Spec.AvailableParams (some stayConstraint) lineActions lineVars.policy := by
    intro s a hsa
    have ha : a = 0 := by
      have := List.mem_of_getElem? hsa
      simpa [lineVars] using this
    have hs3 : s < 3 := (List.getElem?_eq_some_iff.mp hsa).1
    subst ha
    refine ⟨by simp [lineActions]; left; rfl, fun c hc => ?_⟩
    cases hc
    rw [show lineVars.policy.length = 3 from rfl]
    refine ⟨if s = 2 then 0 else 1, ?_, by split_ifs <;> norm_num⟩
    rw [stayConstraint, List.getElem?_map, List.getElem?_zipIdx, List.getElem?_replicate, if_pos hs3]
    simp
  obtain ⟨before, solved, h0, h1, h2⟩ := C92_rounds_partial (lineControlSetup ht) solve hs
    (fun p hp => by simp only [solve, dif_pos hp]) (some stayConstraint)
    (fun c h a => by cases h; simp [stayConstraint]) (by simp [lineActions]) lineVars
    (by rw [hprod]; rfl) (by rw [hprod]; rfl) hav
  obtain ⟨N, hN, -, hstop, -⟩ := C92_terminates_partial (lineControlSetup ht) solve hs (some stayConstraint)
    before solved (by rw [h0, hprod]; rfl) (by rw [h0, hprod]; rfl) (by rw [h0]; exact hav) h1 h2
  rw [hprod] at hN
  exact ⟨solve, before, solved, h0, h1, h2, N, hN, hstop⟩

end SafeLearning
