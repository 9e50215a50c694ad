import Verif.Props.FloatValueIteration
import Verif.Props.PolicyTermination
import Verif.Lemmas.ModifiedPolicyIteration
import Verif.Model.FloatPolicyOptimization
set_option autoImplicit false

/-!
# C149: policy optimisation and modified policy iteration in floating point arithmetic
-/

namespace SafeLearning

set_option linter.unusedSectionVars false

open Spec PolicyIteration

section

variable {K : Type} [Field K] [LinearOrder K] [IsStrictOrderedRing K] [FloorRing K] {d m : ℕ}
variable {g : GridWorld K d} {D : Delaunay K d} {eps u δ er ef : K} {project : Bool} {t : Tri K d} {fl : K → K}
variable {P : PolicyIteration K d m}

/-! ## The chosen action -/

/-- One column of the value matrix. -/
theorem flColumn_spec {vars : Vars K m} {constraint : Option (List (Fin m → K) → List K)}
    {a : Fin m → K} {col : List (Extended K)} (h : P.flColumn fl eps vars constraint a = .ok col)
    (s : ℕ) (x : Fin d → K) (hx : (P.policyGrid.flAllPoints fl)[s]? = some x) :
    ∃ v, P.flActionValue fl eps vars x a = .ok v ∧ ∃ e, col[s]? = some e ∧
      (SafeAction constraint (P.policyGrid.flAllPoints fl).length a s → e = (v : WithBot K)) ∧
      (¬ SafeAction constraint (P.policyGrid.flAllPoints fl).length a s → e = ⊥) := by
  unfold PolicyIteration.flColumn at h
  have hrep : ((P.policyGrid.flAllPoints fl).map fun _ => a) =
      List.replicate (P.policyGrid.flAllPoints fl).length a := by simp
  simp only [hrep] at h
  cases hf : (P.policyGrid.flAllPoints fl).mapM (fun s => P.flActionValue fl eps vars s a) with
  | error er =>
    simp only [hf, bind, Except.bind] at h
    cases h
  | ok values =>
  simp only [hf, bind, Except.bind] at h
  obtain ⟨hl, hk⟩ := mapM_ok_inv hf
  have hs : s < (P.policyGrid.flAllPoints fl).length := (List.getElem?_eq_some_iff.mp hx).1
  obtain ⟨v, hv, hfv⟩ := hk s x hx
  refine ⟨v, hfv, ?_⟩
  cases constraint with
  | none =>
    simp only [pure, Except.pure, Except.ok.injEq] at h
    subst h
    refine ⟨v, ?_, fun _ => rfl, fun hn => absurd (fun c hc => by cases hc) hn⟩
    rw [List.getElem?_map, hv]
    rfl
  | some c =>
    simp only at h
    split_ifs at h with hlen
    simp only [pure, Except.pure, Except.ok.injEq] at h
    subst h
    have hlen' : (c (List.replicate (P.policyGrid.flAllPoints fl).length a)).length =
        (P.policyGrid.flAllPoints fl).length := by
      by_contra hne
      exact hlen hne
    obtain ⟨sl, hsl⟩ : ∃ sl, (c (List.replicate (P.policyGrid.flAllPoints fl).length a))[s]? = some sl :=
      ⟨_, List.getElem?_eq_getElem (by omega)⟩
    refine ⟨entry v (some sl), by rw [List.getElem?_zipWith, hv, hsl], fun hsafe => ?_, fun hn => ?_⟩
    · obtain ⟨u, hu, hu0⟩ := hsafe c rfl
      rw [hsl] at hu
      cases hu
      simp only [entry]
      rw [if_neg (not_lt.mpr hu0)]
    · simp only [entry]
      rw [if_pos]
      by_contra hnn
      apply hn
      intro c' hc'
      cases hc'
      exact ⟨sl, hsl, not_lt.mp hnn⟩

theorem flPolicyOptimization_inv {vars out : Vars K m} {actionSpace : List (Fin m → K)}
    {constraint : Option (List (Fin m → K) → List K)}
    (h : P.flDiscretePolicyOptimization fl eps vars actionSpace constraint = .ok out) :
    ∃ columns best, actionSpace.mapM (P.flColumn fl eps vars constraint) = .ok columns ∧
      (List.range (P.policyGrid.flAllPoints fl).length).mapM (fun s =>
        argmaxFirst (columns.map fun c => c.getD s ⊥)) = .ok best ∧
      best.mapM (rowAt actionSpace) = .ok out.policy ∧ out.value = vars.value ∧
      out.policy.length = vars.policy.length := by
  unfold PolicyIteration.flDiscretePolicyOptimization at h
  cases hc : actionSpace.mapM (P.flColumn fl eps vars constraint) with
  | error er =>
    simp only [hc, bind, Except.bind] at h
    cases h
  | ok columns =>
  simp only [hc, bind, Except.bind] at h
  cases hb : (List.range (P.policyGrid.flAllPoints fl).length).mapM (fun s =>
      argmaxFirst (columns.map fun c => c.getD s ⊥)) with
  | error er =>
    simp only [hb] at h
    cases h
  | ok best =>
  simp only [hb] at h
  cases ha : best.mapM (rowAt actionSpace) with
  | error er =>
    simp only [ha] at h
    cases h
  | ok acts =>
  simp only [ha] at h
  split_ifs at h with hl
  simp only [pure, Except.pure, Except.ok.injEq] at h
  subst h
  exact ⟨columns, best, rfl, hb, ha, rfl, hl⟩

/-- **C149 (argmax).** In floating point arithmetic the parameter of the policy for every computed grid point `x` is an action of the action space.
If some action is safe in `x` it is safe, its computed future value is at least that of every safe action, and larger than that of
every earlier safe action. -/
theorem C149_best_safe_action {vars out : Vars K m} {actionSpace : List (Fin m → K)}
    {constraint : Option (List (Fin m → K) → List K)}
    (h : P.flDiscretePolicyOptimization fl eps vars actionSpace constraint = .ok out)
    (s : ℕ) (x : Fin d → K) (hx : (P.policyGrid.flAllPoints fl)[s]? = some x) :
    out.value = vars.value ∧ out.policy.length = vars.policy.length ∧
    ∃ (i : ℕ) (a : Fin m → K) (v : K), out.policy[s]? = some a ∧ actionSpace[i]? = some a ∧
      P.flActionValue fl eps vars x a = .ok v ∧
      ∀ (j : ℕ) b, actionSpace[j]? = some b →
        SafeAction constraint (P.policyGrid.flAllPoints fl).length b s →
        SafeAction constraint (P.policyGrid.flAllPoints fl).length a s ∧
        ∃ w, P.flActionValue fl eps vars x b = .ok w ∧ w ≤ v ∧ (j < i → w < v) := by
  obtain ⟨columns, best, hc, hb, ha, hval, hlen⟩ := flPolicyOptimization_inv h
  refine ⟨hval, hlen, ?_⟩
  have hs : s < (P.policyGrid.flAllPoints fl).length := (List.getElem?_eq_some_iff.mp hx).1
  obtain ⟨hcl, hck⟩ := mapM_ok_inv hc
  obtain ⟨hbl, hbk⟩ := mapM_ok_inv hb
  obtain ⟨hal, hak⟩ := mapM_ok_inv ha
  obtain ⟨i, hi, hmax⟩ := hbk s s (by simp [hs])
  obtain ⟨a, hpa, hra⟩ := hak s i hi
  have hai : actionSpace[i]? = some a := by
    unfold rowAt at hra
    cases e : actionSpace[i]? with
    | none => rw [e] at hra; cases hra
    | some b => rw [e] at hra; cases hra; rfl
  obtain ⟨top, htop, hle⟩ := argmaxFirst_first hmax
  obtain ⟨coli, hcoli, hci⟩ := hck i a hai
  obtain ⟨v, hv, e, he, hsafe, hunsafe⟩ := flColumn_spec hci s x hx
  have htop' : top = e := by
    rw [List.getElem?_map, hcoli] at htop
    simp only [Option.map_some, Option.some.injEq] at htop
    rw [← htop, List.getD_eq_getElem?_getD, he]
    rfl
  subst htop'
  refine ⟨i, a, v, hpa, hai, hv, fun j b hj hsb => ?_⟩
  obtain ⟨colj, hcolj, hcj⟩ := hck j b hj
  obtain ⟨w, hw, f, hf, hsafej, -⟩ := flColumn_spec hcj s x hx
  have hfw := hsafej hsb
  have hcmp := hle j f (by
    rw [List.getElem?_map, hcolj]
    simp only [Option.map_some, Option.some.injEq]
    rw [List.getD_eq_getElem?_getD, hf]
    rfl)
  have hsa : SafeAction constraint (P.policyGrid.flAllPoints fl).length a s := by
    by_contra hn
    have h1 := hunsafe hn
    rw [h1, hfw] at hcmp
    exact absurd hcmp.1 (not_le.mpr (WithBot.bot_lt_coe w))
  have h2 := hsafe hsa
  rw [h2, hfw] at hcmp
  exact ⟨hsa, w, hw, WithBot.coe_le_coe.mp hcmp.1, fun hji => WithBot.coe_lt_coe.mp (hcmp.2 hji)⟩

/-- **C149 (defined).** The call succeeds for every non-empty action space if the future values can be computed, the
constraint returns one slack per state and the policy has one parameter row per state. -/
theorem C149_defined (vars : Vars K m) (actionSpace : List (Fin m → K)) (hne : actionSpace ≠ [])
    (constraint : Option (List (Fin m → K) → List K))
    (hcon : ∀ c, constraint = some c → ∀ a, (c (List.replicate (P.policyGrid.flAllPoints fl).length a)).length =
      (P.policyGrid.flAllPoints fl).length)
    (hval : ∀ x ∈ P.policyGrid.flAllPoints fl, ∀ a ∈ actionSpace, ∃ v, P.flActionValue fl eps vars x a = .ok v)
    (hlen : vars.policy.length = (P.policyGrid.flAllPoints fl).length) :
    ∃ out, P.flDiscretePolicyOptimization fl eps vars actionSpace constraint = .ok out := by
  have hcol : ∀ a ∈ actionSpace, ∃ col, P.flColumn fl eps vars constraint a = .ok col := by
    intro a ha
    obtain ⟨ys, e, -, -⟩ := mapM_exists (l := P.policyGrid.flAllPoints fl) (f := fun s => P.flActionValue fl eps vars s a)
      fun x hx => hval x hx a ha
    unfold PolicyIteration.flColumn
    have hrep : ((P.policyGrid.flAllPoints fl).map fun _ => a) =
        List.replicate (P.policyGrid.flAllPoints fl).length a := by simp
    simp only [hrep, e, bind, Except.bind]
    cases constraint with
    | none => exact ⟨_, rfl⟩
    | some c =>
      simp only
      rw [if_neg (by simpa using hcon c rfl a)]
      exact ⟨_, rfl⟩
  obtain ⟨columns, e1, l1, -⟩ := mapM_exists hcol
  obtain ⟨best, e2, l2, k2⟩ := mapM_exists (l := List.range (P.policyGrid.flAllPoints fl).length)
    (f := fun s => argmaxFirst (columns.map fun c => c.getD s ⊥)) fun s _ => argmaxFirst_nonempty (by
      intro h
      rw [List.map_eq_nil_iff] at h
      rw [h] at l1
      exact hne (List.eq_nil_of_length_eq_zero l1.symm))
  obtain ⟨acts, e3, l3, -⟩ := mapM_exists (l := best) (f := rowAt actionSpace) fun i hi => by
    obtain ⟨s, hs⟩ := List.mem_iff_getElem?.mp hi
    have hs' := (List.getElem?_eq_some_iff.mp hs).1
    rw [l2] at hs'
    obtain ⟨b, hb1, hb2⟩ := k2 s _ (List.getElem?_eq_getElem hs')
    rw [hs] at hb1
    cases hb1
    obtain ⟨v, hv, -⟩ := argmaxFirst_first hb2
    have := (List.getElem?_eq_some_iff.mp hv).1
    rw [List.length_map, l1] at this
    exact ⟨_, rowAt_ok (List.getElem?_eq_getElem this)⟩
  unfold PolicyIteration.flDiscretePolicyOptimization
  rw [e1]
  simp only [bind, Except.bind]
  rw [e2]
  simp only
  rw [e3]
  simp only
  rw [if_pos (by rw [l3, l2, List.length_range, hlen])]
  exact ⟨_, rfl⟩

/-! ## The chosen action and the real system -/

/-- The value function is a triangulation on a valid grid in floating point arithmetic with computed inverses, and the policy has the same grid. For every action and
every computed grid point, the computed reward is within `er` of the real reward `rr` and the computed next state within `ef` of the
real one, clipped to the domain. The real rewards and next states are Lipschitz continuous, and returns are bounded by `V`. -/
structure FloatControl (P : PolicyIteration K d m) (g : GridWorld K d) (D : Delaunay K d) (fl : K → K) (u eps δ : K) (project : Bool)
    (t : Tri K d) (actionSpace : List (Fin m → K)) (rr : (Fin d → K) → (Fin m → K) → K)
    (ff : (Fin d → K) → (Fin m → K) → Fin d → K) (er ef Lr Lf L V : K) : Prop where
  tri : FloatTriSetup g D fl u eps
  new : Tri.new g D project = .ok t
  inverses : ∃ hs, P.valueFunction = withInverses t hs ∧ InverseWithin g.unit δ t.hyperplanes hs
  grid : P.policyGrid = g
  delta : 0 ≤ δ
  gamma : 0 ≤ P.gamma
  gamma_lt : P.gamma < 1
  er_nonneg : 0 ≤ er
  ef_nonneg : 0 ≤ ef
  L_nonneg : 0 ≤ L
  L_le : Lr + P.gamma * Lf * L ≤ L
  reward : ∀ a ∈ actionSpace, ∀ x ∈ g.flAllPoints fl, |P.reward x a - rr x a| ≤ er
  inBox : ∀ a ∈ actionSpace, ∀ x ∈ g.flAllPoints fl, InBox g.lo g.hi (P.dynamics x a).nextMean
  next : ∀ a ∈ actionSpace, ∀ x ∈ g.flAllPoints fl, dist1 (P.dynamics x a).nextMean (clipBox g.lo g.hi (ff x a)) ≤ ef
  rewardLip : ∀ a ∈ actionSpace, LipschitzOn1 g.lo g.hi Lr fun x => rr x a
  nextLip : ∀ a ∈ actionSpace, LipschitzMapOn1 g.lo g.hi Lf fun x => ff x a
  bounded : ∀ a ∈ actionSpace, ∀ x, InBox g.lo g.hi x → |rr x a| + P.gamma * V ≤ V

variable {actionSpace : List (Fin m → K)} {rr : (Fin d → K) → (Fin m → K) → K} {ff : (Fin d → K) → (Fin m → K) → Fin d → K}
  {Lr Lf L V : K}

/-- One step with action `a` and then the values `J`. -/
def _root_.Spec.actionReturn (γ : K) (lo hi : Fin d → K) (rr : (Fin d → K) → (Fin m → K) → K)
    (ff : (Fin d → K) → (Fin m → K) → Fin d → K) (J : (Fin d → K) → K) (x : Fin d → K) (a : Fin m → K) : K :=
  rr x a + γ * J (clipBox lo hi (ff x a))

/-- The error of computed future values: `A` is the error of the values at the grid points. -/
def _root_.Spec.backupError (γ u c κ Lρ Lf Lp V er A : K) : K :=
  Spec.floatContraction γ u c κ * A + Spec.floatOffset γ u κ Lρ Lf Lp V er

theorem FloatControl.step_bounded (C : FloatControl P g D fl u eps δ project t actionSpace rr ff er ef Lr Lf L V)
    {J : (Fin d → K) → K} (hJV : ∀ x, InBox g.lo g.hi x → |J x| ≤ V) {r : (Fin d → K) → K} {next : (Fin d → K) → Fin d → K}
    (hV : ∀ x, InBox g.lo g.hi x → |r x| + P.gamma * V ≤ V) (x : Fin d → K) (hx : InBox g.lo g.hi x) :
    |r x + P.gamma * J (clippedLoop g.lo g.hi next x)| ≤ V := by
  have h1 := hV x hx
  have h2 := mul_le_mul_of_nonneg_left (hJV (clippedLoop g.lo g.hi next x) (inBox_clipBox C.tri.lt (next x))) C.gamma
  have h3 := abs_add_le (r x) (P.gamma * J (clippedLoop g.lo g.hi next x))
  rw [abs_mul, abs_of_nonneg C.gamma] at h3
  linarith

/-- The computed value of an action at a grid point. -/
theorem FloatControl.actionValue (C : FloatControl P g D fl u eps δ project t actionSpace rr ff er ef Lr Lf L V) {c ρ : K}
    {a : Fin m → K} (ha : a ∈ actionSpace)
    (hloc : ∀ x ∈ g.flAllPoints fl, ∃ k s R, Located g D t fl eps (P.dynamics x a).nextMean c ρ k s R)
    {J : (Fin d → K) → K} (hJ : LipschitzOn1 g.lo g.hi L J) (hJV : ∀ x, InBox g.lo g.hi x → |J x| ≤ V)
    {vars : Vars K m} {A : K} (hv : Close g J A vars.value) (k : ℕ) (p : Fin d → K) (hp : IsGridPoint g.lo g.hi g.num k p) :
    ∃ q v, (g.flAllPoints fl)[k]? = some q ∧ P.flActionValue fl eps vars q a = .ok v ∧
      |v - Spec.actionReturn P.gamma g.lo g.hi rr ff J p a| ≤
        Spec.backupError P.gamma u c (Spec.evaluationError g.lo g.hi g.num u δ c) (L * ρ) (L * ef)
          (L * Spec.gridRounding g.lo g.hi u) V er A := by
  let Pa : PolicyIteration K d m := { P with policy := fun _ _ => .ok a }
  have S : FloatRLSetup Pa g D fl u eps δ project t vars.policy (fun _ => a) (fun x => rr x a) (fun x => ff x a) er ef :=
    { tri := C.tri, new := C.new, inverses := C.inverses, delta := C.delta, gamma := C.gamma, er_nonneg := C.er_nonneg
      ef_nonneg := C.ef_nonneg, policy := fun _ _ => rfl, reward := C.reward a ha, inBox := C.inBox a ha, next := C.next a ha }
  have hT := lipschitz_step C.tri.lt C.gamma C.L_nonneg C.L_le (C.rewardLip a ha) (C.nextLip a ha) hJ
  obtain ⟨values', e1, e2⟩ := fl_step S hloc C.L_nonneg hJ hJV hT
    (C.step_bounded hJV (r := fun x => rr x a) (next := fun x => ff x a) (C.bounded a ha)) hv
  obtain ⟨q, hq, -, -⟩ := flAllPoints_getElem C.tri hp
  obtain ⟨w, hw1, hw2⟩ := e2.2 k p hp
  have hdisc : P.valueFunction.disc = g := by
    obtain ⟨hs, hval, -⟩ := C.inverses
    rw [hval]
    exact (C.tri.good C.new).disc
  unfold PolicyIteration.flValueIteration at e1
  cases hm : (Pa.flStateSpace fl).mapM (Pa.flFutureValue fl eps ⟨vars.value, vars.policy⟩) with
  | error e =>
    rw [hm] at e1
    cases e1
  | ok ys =>
    rw [hm] at e1
    simp only [bind, Except.bind, PolicyIteration.assignValue] at e1
    split_ifs at e1
    cases e1
    obtain ⟨-, hk⟩ := mapM_ok_inv hm
    obtain ⟨v, hv1, hv2⟩ := hk k q (by
      show (P.valueFunction.disc.flAllPoints fl)[k]? = some q
      rw [hdisc]
      exact hq)
    rw [List.getElem?_map, hv1] at hw1
    cases hw1
    exact ⟨q, v, hq, hv2, hw2⟩

/-- The values at the grid points are within `A` of the `L`-Lipschitz function `J`. At every grid point `p` the action that
`discrete_policy_optimization` chooses in floating point arithmetic is at most twice `backupError` worse, for the real system, than every safe action. -/
theorem FloatControl.greedy (C : FloatControl P g D fl u eps δ project t actionSpace rr ff er ef Lr Lf L V) {c ρ : K}
    (hloc : ∀ a ∈ actionSpace, ∀ x ∈ g.flAllPoints fl, ∃ k s R, Located g D t fl eps (P.dynamics x a).nextMean c ρ k s R)
    {J : (Fin d → K) → K} (hJ : LipschitzOn1 g.lo g.hi L J) (hJV : ∀ x, InBox g.lo g.hi x → |J x| ≤ V)
    {vars out : Vars K m} {constraint : Option (List (Fin m → K) → List K)} {A : K} (hv : Close g J A vars.value)
    (ho : P.flDiscretePolicyOptimization fl eps vars actionSpace constraint = .ok out) (k : ℕ) (p : Fin d → K)
    (hp : IsGridPoint g.lo g.hi g.num k p) :
    ∃ a, out.policy[k]? = some a ∧ a ∈ actionSpace ∧
      ∀ b ∈ actionSpace, SafeAction constraint (∏ i, g.num i) b k → SafeAction constraint (∏ i, g.num i) a k ∧
        Spec.actionReturn P.gamma g.lo g.hi rr ff J p b ≤ Spec.actionReturn P.gamma g.lo g.hi rr ff J p a +
          2 * Spec.backupError P.gamma u c (Spec.evaluationError g.lo g.hi g.num u δ c) (L * ρ) (L * ef)
            (L * Spec.gridRounding g.lo g.hi u) V er A := by
  obtain ⟨q, hq, -, -⟩ := flAllPoints_getElem C.tri hp
  obtain ⟨-, -, i, a, v, h1, h2, h3, h4⟩ := C149_best_safe_action ho k q (by rw [C.grid]; exact hq)
  rw [C.grid, flAllPoints_length] at h4
  have ha := List.mem_of_getElem? h2
  refine ⟨a, h1, ha, fun b hb hsafe => ?_⟩
  obtain ⟨j, hj⟩ := List.mem_iff_getElem?.mp hb
  obtain ⟨hsa, w, hw, hle, -⟩ := h4 j b hj hsafe
  refine ⟨hsa, ?_⟩
  obtain ⟨q1, v1, f1, f2, f3⟩ := C.actionValue ha (hloc a ha) hJ hJV hv k p hp
  obtain ⟨q2, v2, g1, g2, g3⟩ := C.actionValue hb (hloc b hb) hJ hJV hv k p hp
  rw [hq] at f1 g1
  cases f1
  cases g1
  rw [h3] at f2
  rw [hw] at g2
  cases f2
  cases g2
  have := (abs_le.mp f3).2
  have := (abs_le.mp g3).1
  linarith

/-! ## Rounds of policy optimisation and value iteration -/

/-- A round: the policy is optimised, then `value_iteration` is run `runs k` times. `pol k` is the real policy of round `k`: at the grid points it
is the parameter of the policy, and the computed closed loop is that of `pol k` up to the errors. -/
structure FloatRounds (P : PolicyIteration K d m) (g : GridWorld K d) (D : Delaunay K d) (fl : K → K) (u eps δ : K) (project : Bool)
    (t : Tri K d) (actionSpace : List (Fin m → K)) (constraint : Option (List (Fin m → K) → List K))
    (rr : (Fin d → K) → (Fin m → K) → K) (ff : (Fin d → K) → (Fin m → K) → Fin d → K) (er ef Lr Lf L V : K)
    (before improved : ℕ → Vars K m) (runs : ℕ → ℕ) (act pol : ℕ → (Fin d → K) → Fin m → K) : Prop where
  improve : ∀ k, P.flDiscretePolicyOptimization fl eps (before k) actionSpace constraint = .ok (improved k)
  evaluate : ∀ k, P.flIterate fl eps (runs k) (improved k) = .ok (before (k + 1))
  runs_pos : ∀ k, 1 ≤ runs k
  setup : ∀ k, FloatRLSetup P g D fl u eps δ project t (improved k).policy (act k) (fun x => rr x (pol k x))
    (fun x => ff x (pol k x)) er ef
  parameters : ∀ k (s : ℕ) p, IsGridPoint g.lo g.hi g.num s p → (improved k).policy[s]? = some (pol k p)
  rewardLip : ∀ k, LipschitzOn1 g.lo g.hi Lr fun x => rr x (pol k x)
  nextLip : ∀ k, LipschitzMapOn1 g.lo g.hi Lf fun x => ff x (pol k x)
  bounded : ∀ k x, InBox g.lo g.hi x → |rr x (pol k x)| + P.gamma * V ≤ V

/-- The action `a` is in the action space and satisfies the constraint in every state. -/
def _root_.Spec.AlwaysAvailable (actionSpace : List (Fin m → K)) (constraint : Option (List (Fin m → K) → List K)) (n : ℕ)
    (a : Fin m → K) : Prop :=
  a ∈ actionSpace ∧ ∀ s < n, SafeAction constraint n a s

theorem Close.mono {J : (Fin d → K) → K} {A A' : K} {values : List (Fin 1 → K)} (h : Close g J A values) (hA : A ≤ A') :
    Close g J A' values :=
  ⟨h.1, fun k p hp => (h.2 k p hp).imp fun _ hv => ⟨hv.1, hv.2.trans hA⟩⟩

/-- A grid point close to a state of the domain. -/
theorem exists_near (hg : g.WF) (x : Fin d → K) (hx : InBox g.lo g.hi x) :
    ∃ k p, IsGridPoint g.lo g.hi g.num k p ∧ k < ∏ i, g.num i ∧ InBox g.lo g.hi p ∧ dist1 x p ≤ coverRadius g.lo g.hi g.num := by
  obtain ⟨k, p, -, hk, -, hp, -, hnear⟩ := GridWorld.C02_state_to_index_nearest g hg.two_le hg.lt x
  refine ⟨k, p, hp, hk, inBox_gridPoint hg hp, ?_⟩
  unfold dist1 coverRadius
  rw [Finset.sum_div]
  exact Finset.sum_le_sum fun i _ => hnear i (hx i).1 (hx i).2

theorem fl_rounds (C : FloatControl P g D fl u eps δ project t actionSpace rr ff er ef Lr Lf L V) {c ρ : K} (hc : 0 ≤ c) (hρ : 0 ≤ ρ)
    {constraint : Option (List (Fin m → K) → List K)} {before improved : ℕ → Vars K m} {runs : ℕ → ℕ}
    {act pol : ℕ → (Fin d → K) → Fin m → K}
    (R : FloatRounds P g D fl u eps δ project t actionSpace constraint rr ff er ef Lr Lf L V before improved runs act pol)
    (hloc : ∀ a ∈ actionSpace, ∀ x ∈ g.flAllPoints fl, ∃ k s R, Located g D t fl eps (P.dynamics x a).nextMean c ρ k s R)
    (hloc' : ∀ k, ∀ x ∈ g.flAllPoints fl, ∃ i s R, Located g D t fl eps (P.dynamics x (act k x)).nextMean c ρ i s R)
    {J : (Fin d → K) → K} (hJ : LipschitzOn1 g.lo g.hi L J) (hJV : ∀ x, InBox g.lo g.hi x → |J x| ≤ V) {B κ a b E : K} (hB : 0 ≤ B)
    (hstart : Close g J B (before 0).value)
    (hκ : κ = Spec.evaluationError g.lo g.hi g.num u δ c)
    (ha : a = Spec.floatContraction P.gamma u c κ) (ha1 : a < 1)
    (hb : b = Spec.floatOffset P.gamma u κ (L * ρ) (L * ef) (L * Spec.gridRounding g.lo g.hi u) V er)
    (hE : E = B + b / (1 - a))
    (hpess : ∀ x, InBox g.lo g.hi x → ∃ a₀, Spec.AlwaysAvailable actionSpace constraint (∏ i, g.num i) a₀ ∧
      J x ≤ Spec.actionReturn P.gamma g.lo g.hi rr ff J x a₀)
    (pol'' : (Fin d → K) → Fin m → K)
    (havail : ∀ x, InBox g.lo g.hi x → Spec.AlwaysAvailable actionSpace constraint (∏ i, g.num i) (pol'' x))
    (N n : ℕ) (x : Fin d → K) (hx : InBox g.lo g.hi x) :
    returnWithTerminal P.gamma (fun x => rr x (pol'' x)) (clippedLoop g.lo g.hi fun x => ff x (pol'' x)) (fun _ => 0) n x ≤
      returnWithTerminal P.gamma (fun x => rr x (pol N x)) (clippedLoop g.lo g.hi fun x => ff x (pol N x)) (fun _ => 0) n x +
        (2 * (2 * E + 2 * L * coverRadius g.lo g.hi g.num) / (1 - P.gamma) ^ 3 + 2 * P.gamma ^ N * V + 2 * P.gamma ^ n * V) := by
  have hg := C.tri.wf
  have hu := C.tri.rounds.nonneg
  have hpos : 0 < 1 - a := by linarith
  have hV0 : 0 ≤ V := (abs_nonneg _).trans (hJV x hx)
  have hκ0 : 0 ≤ κ := by
    rw [hκ]
    exact evaluationError_nonneg C.tri.lt C.tri.two_le hu C.delta hc
  have hgr : 0 ≤ Spec.gridRounding g.lo g.hi u := Finset.sum_nonneg fun i _ =>
    mul_nonneg hu (by have := abs_nonneg (g.lo i); have := C.tri.lt i; linarith)
  have hb0 : 0 ≤ b := by
    rw [hb]
    exact floatOffset_nonneg C.gamma hu hκ0 (mul_nonneg C.L_nonneg hρ) (mul_nonneg C.L_nonneg C.ef_nonneg)
      (mul_nonneg C.L_nonneg hgr) hV0 C.er_nonneg
  have ha0 : 0 ≤ a := by
    rw [ha]
    exact mul_nonneg (mul_nonneg (sq_nonneg _) C.gamma) (add_nonneg hc hκ0)
  have hbE : 0 ≤ b / (1 - a) := div_nonneg hb0 hpos.le
  have hE0 : 0 ≤ E := by rw [hE]; exact add_nonneg hB hbE
  have hτ := coverRadius_nonneg hg
  -- the error of the future values
  have hback : Spec.backupError P.gamma u c (Spec.evaluationError g.lo g.hi g.num u δ c) (L * ρ) (L * ef)
      (L * Spec.gridRounding g.lo g.hi u) V er E ≤ E := by
    unfold Spec.backupError
    rw [← hκ, ← ha, ← hb, hE]
    have e : a * (B + b / (1 - a)) + b = a * B + b / (1 - a) := by field_simp; ring
    rw [e]
    have := mul_le_mul_of_nonneg_right ha1.le hB
    linarith
  -- the real values
  obtain ⟨Js, hJs0, hJs⟩ : ∃ Js : ℕ → (Fin d → K) → K, Js 0 = J ∧ ∀ k, Js (k + 1) = returnWithTerminal P.gamma
      (fun x => rr x (pol k x)) (clippedLoop g.lo g.hi fun x => ff x (pol k x)) (Js k) (runs k) :=
    ⟨fun k => Nat.rec J (fun k F => returnWithTerminal P.gamma
      (fun x => rr x (pol k x)) (clippedLoop g.lo g.hi fun x => ff x (pol k x)) F (runs k)) k, rfl, fun _ => rfl⟩
  have hstay : ∀ (next : (Fin d → K) → Fin d → K) x, InBox g.lo g.hi x → InBox g.lo g.hi (clippedLoop g.lo g.hi next x) :=
    fun next x _ => inBox_clipBox C.tri.lt (next x)
  have hinv : ∀ k, LipschitzOn1 g.lo g.hi L (Js k) ∧ (∀ x, InBox g.lo g.hi x → |Js k x| ≤ V) ∧ Close g (Js k) E (before k).value := by
    intro k
    induction k with
    | zero => rw [hJs0]; exact ⟨hJ, hJV, hstart.mono (by rw [hE]; linarith)⟩
    | succ k ih =>
      obtain ⟨i1, i2, i3⟩ := ih
      rw [hJs]
      refine ⟨return_lipschitz C.tri.lt C.gamma C.L_nonneg C.L_le (R.rewardLip k) (R.nextLip k) _ _ i1,
        fun x hx => return_bounded C.gamma (hstay _) (R.bounded k) i2 _ x hx, ?_⟩
      obtain ⟨-, -, -, -, -, e1, -⟩ := flPolicyOptimization_inv (R.improve k)
      obtain ⟨values', f1, f2⟩ := fl_iterate (R.setup k) (hloc' k) C.L_nonneg C.L_le (R.rewardLip k) (R.nextLip k) (R.bounded k)
        (hκ ▸ ha) ha1 (hκ ▸ hb) (runs k) (Js k) i1 i2 B (before k).value (by rw [← hE]; exact i3)
      have hiv : improved k = ⟨(before k).value, (improved k).policy⟩ := by
        rw [← e1]
      have := R.evaluate k
      rw [hiv, f1] at this
      rw [← Except.ok.inj this]
      refine f2.mono ?_
      rw [hE]
      have := mul_le_mul_of_nonneg_right (pow_le_one₀ ha0 ha1.le : a ^ runs k ≤ 1) hB
      linarith
  have hact : ∀ k, ∀ b₀ ∈ actionSpace, LipschitzOn1 g.lo g.hi L fun x => Spec.actionReturn P.gamma g.lo g.hi rr ff (Js k) x b₀ :=
    fun k b₀ hb₀ => lipschitz_step C.tri.lt C.gamma C.L_nonneg C.L_le (C.rewardLip b₀ hb₀) (C.nextLip b₀ hb₀) (hinv k).1
  have hpolLip : ∀ j k, LipschitzOn1 g.lo g.hi L fun x => Spec.actionReturn P.gamma g.lo g.hi rr ff (Js j) x (pol k x) :=
    fun j k => lipschitz_step C.tri.lt C.gamma C.L_nonneg C.L_le (R.rewardLip k) (R.nextLip k) (hinv j).1
  have hgrid : ∀ k s p, IsGridPoint g.lo g.hi g.num s p → pol k p ∈ actionSpace ∧ ∀ b₀ ∈ actionSpace,
      SafeAction constraint (∏ i, g.num i) b₀ s → SafeAction constraint (∏ i, g.num i) (pol k p) s ∧
        Spec.actionReturn P.gamma g.lo g.hi rr ff (Js k) p b₀ ≤
          Spec.actionReturn P.gamma g.lo g.hi rr ff (Js k) p (pol k p) + 2 * E := by
    intro k s p hp
    obtain ⟨a', h1, h2, h3⟩ := C.greedy hloc (hinv k).1 (hinv k).2.1 (hinv k).2.2 (R.improve k) s p hp
    rw [R.parameters k s p hp] at h1
    cases h1
    exact ⟨h2, fun b₀ hb₀ hs => ⟨(h3 b₀ hb₀ hs).1, (h3 b₀ hb₀ hs).2.trans (by linarith)⟩⟩
  -- greedy everywhere
  obtain ⟨ε, hε⟩ : ∃ ε, ε = 2 * E + 2 * L * coverRadius g.lo g.hi g.num := ⟨_, rfl⟩
  have hε0 : 0 ≤ ε := by
    rw [hε]
    have := mul_nonneg C.L_nonneg hτ
    linarith
  have hgreedy : ∀ k x, InBox g.lo g.hi x → ∀ b₀, Spec.AlwaysAvailable actionSpace constraint (∏ i, g.num i) b₀ →
      Spec.actionReturn P.gamma g.lo g.hi rr ff (Js k) x b₀ ≤
        Spec.actionReturn P.gamma g.lo g.hi rr ff (Js k) x (pol k x) + ε := by
    intro k x hx b₀ hb₀
    obtain ⟨s, p, hp, hs, hpin, hd⟩ := exists_near hg x hx
    have h1 := ((hgrid k s p hp).2 b₀ hb₀.1 (hb₀.2 s hs)).2
    have h2 := (abs_le.mp (hact k b₀ hb₀.1 x p hx hpin)).2
    have h3 := (abs_le.mp (hpolLip k k x p hx hpin)).1
    have h4 := mul_le_mul_of_nonneg_left hd C.L_nonneg
    rw [hε]
    linarith
  rw [← hε]
  refine modified_policy_iteration (S := InBox g.lo g.hi) (J := Js) (runs := runs) (r := fun k x => rr x (pol k x))
    (nx := fun k => clippedLoop g.lo g.hi fun x => ff x (pol k x)) C.gamma C.gamma_lt hε0 (fun k => hstay _) (hstay _) R.runs_pos
    (fun k x => congrFun (hJs k) x) (fun k => (hinv k).2.1) (fun x hx => C.bounded _ (havail x hx).1 x hx)
    (fun k x hx => hgreedy k x hx _ (havail x hx)) (fun k x hx => ?_) (fun x hx => ?_) N n x hx
  · obtain ⟨s, p, hp, hs, hpin, hd⟩ := exists_near hg x hx
    obtain ⟨a₀, ha₀, -⟩ := hpess p hpin
    obtain ⟨g1, g2⟩ := hgrid k s p hp
    have h1 := ((hgrid (k + 1) s p hp).2 _ g1 (g2 a₀ ha₀.1 (ha₀.2 s hs)).1).2
    have h2 := (abs_le.mp (hpolLip (k + 1) k x p hx hpin)).2
    have h3 := (abs_le.mp (hpolLip (k + 1) (k + 1) x p hx hpin)).1
    have h4 := mul_le_mul_of_nonneg_left hd C.L_nonneg
    have h5 : Spec.actionReturn P.gamma g.lo g.hi rr ff (Js (k + 1)) x (pol k x) ≤
        Spec.actionReturn P.gamma g.lo g.hi rr ff (Js (k + 1)) x (pol (k + 1) x) + ε := by
      rw [hε]
      linarith
    exact h5
  · obtain ⟨a₀, ha₀, h⟩ := hpess x hx
    rw [← hJs0] at h
    exact h.trans (hgreedy 0 x hx a₀ ha₀)

theorem close_of_start {J : (Fin d → K) → K} {A : K} {values : List (Fin 1 → K)} (hlen : values.length = ∏ i, g.num i)
    (h : ∀ k x v, IsGridPoint g.lo g.hi g.num k x → values[k]? = some v → |v 0 - J x| ≤ A) : Close g J A values := by
  refine ⟨hlen, fun k p hp => ?_⟩
  obtain ⟨i, rfl, -⟩ := pointAt_of_isGridPoint hp
  have hi : i.1 < values.length := hlen ▸ i.2
  exact ⟨values[i.1], List.getElem?_eq_getElem hi, h i.1 p _ hp (List.getElem?_eq_getElem hi)⟩

theorem lineDefect_nonneg {g : GridWorld K 1} (hg : g.WF) (hu : 0 ≤ u) : 0 ≤ Spec.lineDefect g.lo g.hi g.num u := by
  unfold Spec.lineDefect
  have hU : 0 < (g.hi 0 - g.lo 0) / ((g.num 0 : K) - 1) := hg.unit_pos 0
  have h1 := hg.lt 0
  have h2 := abs_nonneg (g.lo 0)
  have := div_nonneg (mul_nonneg hu (show 0 ≤ |g.lo 0| + 5 * (g.hi 0 - g.lo 0) by linarith)) hU.le
  linarith

/-- **C149 (greedy).** The values at the grid points are within `A` of the `L`-Lipschitz function `J`. At every grid point `p` the action that
`discrete_policy_optimization` chooses in floating point arithmetic is an action of the action space. For every safe action `b` of the
action space it is safe, and, for the real system, one step of it followed by `J` is worth at least one step of `b` followed by `J`, up to `2 * (a * A + b)`,
where `a` and `b` are the constants of C128. Missing: computed next states on grid lines. -/
theorem C149_greedy_partial (C : FloatControl P g D fl u eps δ project t actionSpace rr ff er ef Lr Lf L V)
    (haway : ∀ a ∈ actionSpace, ∀ x ∈ g.flAllPoints fl, AwayFromGridLines g.lo g.hi g.num u eps (P.dynamics x a).nextMean)
    {c κ : K} (hc : c = 1 + Spec.locationDefect g.lo g.hi g.num u) (hκ : κ = Spec.evaluationError g.lo g.hi g.num u δ c)
    {J : (Fin d → K) → K} (hJ : LipschitzOn1 g.lo g.hi L J) (hJV : ∀ x, InBox g.lo g.hi x → |J x| ≤ V)
    {vars out : Vars K m} {constraint : Option (List (Fin m → K) → List K)} {A : K} (hlen : vars.value.length = ∏ i, g.num i)
    (hstart : ∀ k x v, IsGridPoint g.lo g.hi g.num k x → vars.value[k]? = some v → |v 0 - J x| ≤ A)
    (ho : P.flDiscretePolicyOptimization fl eps vars actionSpace constraint = .ok out) (k : ℕ) (p : Fin d → K)
    (hp : IsGridPoint g.lo g.hi g.num k p) :
    ∃ a, out.policy[k]? = some a ∧ a ∈ actionSpace ∧
      ∀ b ∈ actionSpace, SafeAction constraint (∏ i, g.num i) b k → SafeAction constraint (∏ i, g.num i) a k ∧
        Spec.actionReturn P.gamma g.lo g.hi rr ff J p b ≤ Spec.actionReturn P.gamma g.lo g.hi rr ff J p a +
          2 * Spec.backupError P.gamma u c κ
            (L * (coverRadius g.lo g.hi g.num * (1 + 2 * Spec.locationDefect g.lo g.hi g.num u)))
            (L * ef) (L * Spec.gridRounding g.lo g.hi u) V er A := by
  subst hκ hc
  exact C.greedy (fun a ha x hx => located_away C.tri C.new _ (C.inBox a ha x hx) (haway a ha x hx)) hJ hJV
    (close_of_start hlen hstart) ho k p hp

/-- **C149 (greedy, one dimension).** In one dimension the same holds for all computed next states. -/
theorem C149_greedy_line {g : GridWorld K 1} {D : Delaunay K 1} {t : Tri K 1} {P : PolicyIteration K 1 m}
    {rr : (Fin 1 → K) → (Fin m → K) → K} {ff : (Fin 1 → K) → (Fin m → K) → Fin 1 → K}
    (C : FloatControl P g D fl u eps δ project t actionSpace rr ff er ef Lr Lf L V)
    {c κ : K} (hc : c = 1 + Spec.lineDefect g.lo g.hi g.num u) (hκ : κ = Spec.evaluationError g.lo g.hi g.num u δ c)
    {J : (Fin 1 → K) → K} (hJ : LipschitzOn1 g.lo g.hi L J) (hJV : ∀ x, InBox g.lo g.hi x → |J x| ≤ V)
    {vars out : Vars K m} {constraint : Option (List (Fin m → K) → List K)} {A : K} (hlen : vars.value.length = ∏ i, g.num i)
    (hstart : ∀ k x v, IsGridPoint g.lo g.hi g.num k x → vars.value[k]? = some v → |v 0 - J x| ≤ A)
    (ho : P.flDiscretePolicyOptimization fl eps vars actionSpace constraint = .ok out) (k : ℕ) (p : Fin 1 → K)
    (hp : IsGridPoint g.lo g.hi g.num k p) :
    ∃ a, out.policy[k]? = some a ∧ a ∈ actionSpace ∧
      ∀ b ∈ actionSpace, SafeAction constraint (∏ i, g.num i) b k → SafeAction constraint (∏ i, g.num i) a k ∧
        Spec.actionReturn P.gamma g.lo g.hi rr ff J p b ≤ Spec.actionReturn P.gamma g.lo g.hi rr ff J p a +
          2 * Spec.backupError P.gamma u c κ
            (L * (coverRadius g.lo g.hi g.num * (1 + 2 * Spec.lineDefect g.lo g.hi g.num u)))
            (L * ef) (L * Spec.gridRounding g.lo g.hi u) V er A := by
  subst hκ hc
  exact C.greedy (fun a ha x hx => located_line C.tri C.new _ (C.inBox a ha x hx)) hJ hJV
    (close_of_start hlen hstart) ho k p hp

/-- **C149 (rounds).** Every round optimises the policy and then runs `value_iteration` at least once, both in floating point arithmetic. At the start the values are
within `B` of a function `J` from which some available action does not lose value. The policy of round `N` is nearly optimal for the real closed loop: every other policy `pol''` that chooses actions that are
always available has, over any number of steps `n`, a return that is larger by at most
`2 * (2 * E + 2 * L * sum(unit_maxes) / 2) / (1 - gamma) ^ 3` and two terms that vanish with the number of rounds and the number of steps, where `E = B + b / (1 - a)` with the constants of
C128. Missing: computed next states on grid lines. -/
theorem C149_rounds_partial (C : FloatControl P g D fl u eps δ project t actionSpace rr ff er ef Lr Lf L V)
    {constraint : Option (List (Fin m → K) → List K)} {before improved : ℕ → Vars K m} {runs : ℕ → ℕ}
    {act pol : ℕ → (Fin d → K) → Fin m → K}
    (R : FloatRounds P g D fl u eps δ project t actionSpace constraint rr ff er ef Lr Lf L V before improved runs act pol)
    (haway : ∀ a ∈ actionSpace, ∀ x ∈ g.flAllPoints fl, AwayFromGridLines g.lo g.hi g.num u eps (P.dynamics x a).nextMean)
    (haway' : ∀ k, ∀ x ∈ g.flAllPoints fl, AwayFromGridLines g.lo g.hi g.num u eps (P.dynamics x (act k x)).nextMean)
    {J : (Fin d → K) → K} (hJ : LipschitzOn1 g.lo g.hi L J) (hJV : ∀ x, InBox g.lo g.hi x → |J x| ≤ V) {B c κ a b E : K} (hB : 0 ≤ B)
    (hlen : (before 0).value.length = ∏ i, g.num i)
    (hstart : ∀ k x v, IsGridPoint g.lo g.hi g.num k x → (before 0).value[k]? = some v → |v 0 - J x| ≤ B)
    (hc : c = 1 + Spec.locationDefect g.lo g.hi g.num u) (hκ : κ = Spec.evaluationError g.lo g.hi g.num u δ c)
    (ha : a = Spec.floatContraction P.gamma u c κ) (ha1 : a < 1)
    (hb : b = Spec.floatOffset P.gamma u κ (L * (coverRadius g.lo g.hi g.num * (1 + 2 * Spec.locationDefect g.lo g.hi g.num u)))
      (L * ef) (L * Spec.gridRounding g.lo g.hi u) V er)
    (hE : E = B + b / (1 - a))
    (hpess : ∀ x, InBox g.lo g.hi x → ∃ a₀, Spec.AlwaysAvailable actionSpace constraint (∏ i, g.num i) a₀ ∧
      J x ≤ Spec.actionReturn P.gamma g.lo g.hi rr ff J x a₀)
    (pol'' : (Fin d → K) → Fin m → K)
    (havail : ∀ x, InBox g.lo g.hi x → Spec.AlwaysAvailable actionSpace constraint (∏ i, g.num i) (pol'' x))
    (N n : ℕ) (x : Fin d → K) (hx : InBox g.lo g.hi x) :
    returnWithTerminal P.gamma (fun x => rr x (pol'' x)) (clippedLoop g.lo g.hi fun x => ff x (pol'' x)) (fun _ => 0) n x ≤
      returnWithTerminal P.gamma (fun x => rr x (pol N x)) (clippedLoop g.lo g.hi fun x => ff x (pol N x)) (fun _ => 0) n x +
        (2 * (2 * E + 2 * L * coverRadius g.lo g.hi g.num) / (1 - P.gamma) ^ 3 + 2 * P.gamma ^ N * V + 2 * P.gamma ^ n * V) := by
  have h0 := locationDefect_nonneg C.tri.wf C.tri.rounds.nonneg
  exact fl_rounds C (by rw [hc]; linarith) (mul_nonneg (coverRadius_nonneg C.tri.wf) (by linarith)) R
    (fun a ha x hx => hc ▸ located_away C.tri C.new _ (C.inBox a ha x hx) (haway a ha x hx))
    (fun k x hx => hc ▸ located_away C.tri C.new _ ((R.setup k).inBox x hx) (haway' k x hx)) hJ hJV hB (close_of_start hlen hstart)
    hκ ha ha1 hb hE hpess pol'' havail N n x hx

/-- **C149 (rounds, one dimension).** In one dimension the same holds for all computed next states. -/
theorem C149_rounds_line {g : GridWorld K 1} {D : Delaunay K 1} {t : Tri K 1} {P : PolicyIteration K 1 m}
    {rr : (Fin 1 → K) → (Fin m → K) → K} {ff : (Fin 1 → K) → (Fin m → K) → Fin 1 → K}
    (C : FloatControl P g D fl u eps δ project t actionSpace rr ff er ef Lr Lf L V)
    {constraint : Option (List (Fin m → K) → List K)} {before improved : ℕ → Vars K m} {runs : ℕ → ℕ}
    {act pol : ℕ → (Fin 1 → K) → Fin m → K}
    (R : FloatRounds P g D fl u eps δ project t actionSpace constraint rr ff er ef Lr Lf L V before improved runs act pol)
    {J : (Fin 1 → K) → K} (hJ : LipschitzOn1 g.lo g.hi L J) (hJV : ∀ x, InBox g.lo g.hi x → |J x| ≤ V) {B c κ a b E : K} (hB : 0 ≤ B)
    (hlen : (before 0).value.length = ∏ i, g.num i)
    (hstart : ∀ k x v, IsGridPoint g.lo g.hi g.num k x → (before 0).value[k]? = some v → |v 0 - J x| ≤ B)
    (hc : c = 1 + Spec.lineDefect g.lo g.hi g.num u) (hκ : κ = Spec.evaluationError g.lo g.hi g.num u δ c)
    (ha : a = Spec.floatContraction P.gamma u c κ) (ha1 : a < 1)
    (hb : b = Spec.floatOffset P.gamma u κ (L * (coverRadius g.lo g.hi g.num * (1 + 2 * Spec.lineDefect g.lo g.hi g.num u)))
      (L * ef) (L * Spec.gridRounding g.lo g.hi u) V er)
    (hE : E = B + b / (1 - a))
    (hpess : ∀ x, InBox g.lo g.hi x → ∃ a₀, Spec.AlwaysAvailable actionSpace constraint (∏ i, g.num i) a₀ ∧
      J x ≤ Spec.actionReturn P.gamma g.lo g.hi rr ff J x a₀)
    (pol'' : (Fin 1 → K) → Fin m → K)
    (havail : ∀ x, InBox g.lo g.hi x → Spec.AlwaysAvailable actionSpace constraint (∏ i, g.num i) (pol'' x))
    (N n : ℕ) (x : Fin 1 → K) (hx : InBox g.lo g.hi x) :
    returnWithTerminal P.gamma (fun x => rr x (pol'' x)) (clippedLoop g.lo g.hi fun x => ff x (pol'' x)) (fun _ => 0) n x ≤
      returnWithTerminal P.gamma (fun x => rr x (pol N x)) (clippedLoop g.lo g.hi fun x => ff x (pol N x)) (fun _ => 0) n x +
        (2 * (2 * E + 2 * L * coverRadius g.lo g.hi g.num) / (1 - P.gamma) ^ 3 + 2 * P.gamma ^ N * V + 2 * P.gamma ^ n * V) := by
  have h0 := lineDefect_nonneg C.tri.wf C.tri.rounds.nonneg
  exact fl_rounds C (by rw [hc]; linarith) (mul_nonneg (coverRadius_nonneg C.tri.wf) (by linarith)) R
    (fun a ha x hx => hc ▸ located_line C.tri C.new _ (C.inBox a ha x hx))
    (fun k x hx => hc ▸ located_line C.tri C.new _ ((R.setup k).inBox x hx)) hJ hJV hB (close_of_start hlen hstart)
    hκ ha ha1 hb hE hpess pol'' havail N n x hx

/-- **C149 (rounds, small discount factors).** If the discount factor is small compared with a constant of the dimension, the same holds for all computed next states in
all dimensions. -/
theorem C149_rounds_small_discount (C : FloatControl P g D fl u eps δ project t actionSpace rr ff er ef Lr Lf L V)
    {constraint : Option (List (Fin m → K) → List K)} {before improved : ℕ → Vars K m} {runs : ℕ → ℕ}
    {act pol : ℕ → (Fin d → K) → Fin m → K}
    (R : FloatRounds P g D fl u eps δ project t actionSpace constraint rr ff er ef Lr Lf L V before improved runs act pol)
    {J : (Fin d → K) → K} (hJ : LipschitzOn1 g.lo g.hi L J) (hJV : ∀ x, InBox g.lo g.hi x → |J x| ≤ V) {B c κ a b E : K} (hB : 0 ≤ B)
    (hlen : (before 0).value.length = ∏ i, g.num i)
    (hstart : ∀ k x v, IsGridPoint g.lo g.hi g.num k x → (before 0).value[k]? = some v → |v 0 - J x| ≤ B)
    (hc : c = 1 + 3 * d * d * d.factorial) (hκ : κ = Spec.evaluationError g.lo g.hi g.num u δ c)
    (ha : a = Spec.floatContraction P.gamma u c κ) (ha1 : a < 1)
    (hb : b = Spec.floatOffset P.gamma u κ (L * (3 * c * coverRadius g.lo g.hi g.num))
      (L * ef) (L * Spec.gridRounding g.lo g.hi u) V er)
    (hE : E = B + b / (1 - a))
    (hpess : ∀ x, InBox g.lo g.hi x → ∃ a₀, Spec.AlwaysAvailable actionSpace constraint (∏ i, g.num i) a₀ ∧
      J x ≤ Spec.actionReturn P.gamma g.lo g.hi rr ff J x a₀)
    (pol'' : (Fin d → K) → Fin m → K)
    (havail : ∀ x, InBox g.lo g.hi x → Spec.AlwaysAvailable actionSpace constraint (∏ i, g.num i) (pol'' x))
    (N n : ℕ) (x : Fin d → K) (hx : InBox g.lo g.hi x) :
    returnWithTerminal P.gamma (fun x => rr x (pol'' x)) (clippedLoop g.lo g.hi fun x => ff x (pol'' x)) (fun _ => 0) n x ≤
      returnWithTerminal P.gamma (fun x => rr x (pol N x)) (clippedLoop g.lo g.hi fun x => ff x (pol N x)) (fun _ => 0) n x +
        (2 * (2 * E + 2 * L * coverRadius g.lo g.hi g.num) / (1 - P.gamma) ^ 3 + 2 * P.gamma ^ N * V + 2 * P.gamma ^ n * V) := by
  have h0 : 0 ≤ c := by rw [hc]; positivity
  have hl : ∀ y, InBox g.lo g.hi y → ∃ k s R, Located g D t fl eps y c (3 * c * coverRadius g.lo g.hi g.num) k s R := fun y hy => by
    obtain ⟨k, s, R, h, -⟩ := located_every C.tri C.new y hy
    exact ⟨k, s, R, hc ▸ h⟩
  exact fl_rounds C h0 (mul_nonneg (by linarith) (coverRadius_nonneg C.tri.wf)) R
    (fun a ha x hx => hl _ (C.inBox a ha x hx)) (fun k x hx => hl _ ((R.setup k).inBox x hx)) hJ hJV hB (close_of_start hlen hstart)
    hκ ha ha1 hb hE hpess pol'' havail N n x hx

/-- **C149 (no rounding).** Without rounding, the call is that of the exact model (C26). -/
theorem C149_without_rounding (h2 : ∀ i, 2 ≤ P.valueFunction.disc.num i) (h2' : ∀ i, 2 ≤ P.policyGrid.num i) (vars : Vars K m)
    (actionSpace : List (Fin m → K)) (constraint : Option (List (Fin m → K) → List K)) :
    P.flDiscretePolicyOptimization id eps vars actionSpace constraint =
      P.discretePolicyOptimization eps vars actionSpace constraint := by
  have hs : P.policyGrid.flAllPoints id = P.policyGrid.allPoints := by
    unfold GridWorld.flAllPoints GridWorld.allPoints
    congr 1
    funext i
    unfold GridWorld.flDiscretePoints GridWorld.discretePoints linspace
    refine List.map_congr_left fun k _ => ?_
    have : 1 < P.policyGrid.num i := h2' i
    simp only [this, and_true]
    rfl
  have hval : ∀ x a, P.flActionValue id eps vars x a = P.futureValue eps vars none 1 x a := by
    intro x a
    unfold PolicyIteration.flActionValue PolicyIteration.futureValue
    simp only [bind, Except.bind]
    rw [(C123_without_rounding h2 vars.value _).2, C17_tf_agrees]
    rfl
  have hmap : ∀ (a : Fin m → K) (l : List (Fin d → K)), l.mapM (fun s => P.flActionValue id eps vars s a) =
      (l.zip (l.map fun _ => a)).mapM fun sa => P.futureValue eps vars none 1 sa.1 sa.2 := by
    intro a l
    induction l with
    | nil => rfl
    | cons x l ih => rw [List.mapM_cons, List.map_cons, List.zip_cons_cons, List.mapM_cons, ih, hval]
  have hcol : P.flColumn id eps vars constraint = P.column eps vars constraint := by
    funext a
    unfold PolicyIteration.flColumn PolicyIteration.column PolicyIteration.futureValues
    simp only [hs, hmap, List.length_map, ne_eq, not_true_eq_false, if_false, bind, Except.bind]
    cases (P.policyGrid.allPoints.zip (P.policyGrid.allPoints.map fun _ => a)).mapM
      fun sa => P.futureValue eps vars none 1 sa.1 sa.2 <;> cases constraint <;> rfl
  unfold PolicyIteration.flDiscretePolicyOptimization PolicyIteration.discretePolicyOptimization
  rw [hcol, hs]

end

/-! ## Example -/

/-- Eleven points between `0` and `1`; the next state is `x / 2 + 0.27` and the reward `a - x` for the action `a`. The policy is piecewise constant. -/
def choiceLoop (hs : List (Matrix (Fin 1) (Fin 1) ℚ)) : PolicyIteration ℚ 1 1 where
  policy pp x := (tenthLine.flStateToIndex (roundBinary 53) id (List.ofFn x)).bind fun k => rowAt pp k
  policyGrid := tenthLine
  dynamics x _ := .exact fun i => roundBinary 53 (x i / 2 + 27 / 100)
  reward x a := roundBinary 53 (a 0 - x 0)
  valueFunction := withInverses tenthLineTri hs
  gamma := 1 / 8

theorem choice_control (hs : List (Matrix (Fin 1) (Fin 1) ℚ)) (hH : InverseWithin tenthLine.unit (1 / 2 ^ 50) tenthLineTri.hyperplanes hs) :
    FloatControl (choiceLoop hs) tenthLine (delaunay1D 0 (tenthLine.flUnit (roundBinary 53) 0)) (roundBinary 53)
      ((2 : ℚ) ^ (-((53 : ℕ) : ℤ))) doubleEps (1 / 2 ^ 50) true tenthLineTri [![0], ![1]] (fun x a => a 0 - x 0) (fun x _ i => x i / 2 + 27 / 100)
      (1 / 2 ^ 50) (1 / 2 ^ 50) 1 (1 / 2) (16 / 15) (8 / 7) where
  tri := tenthLine_setup
  new := tenthLineTri_new
  inverses := ⟨hs, rfl, hH⟩
  grid := rfl
  delta := by norm_num
  gamma := by norm_num [choiceLoop]
  gamma_lt := by norm_num [choiceLoop]
  er_nonneg := by norm_num
  ef_nonneg := by norm_num
  L_nonneg := by norm_num
  L_le := by norm_num [choiceLoop]
  reward := by
    show ∀ a ∈ ([![0], ![1]] : List (Fin 1 → ℚ)), ∀ x ∈ tenthLine.flAllPoints (roundBinary 53),
      |roundBinary 53 (a 0 - x 0) - (a 0 - x 0)| ≤ 1 / 2 ^ 50
    decide +kernel
  inBox := by
    intro a _
    show ∀ x ∈ tenthLine.flAllPoints (roundBinary 53), InBox tenthLine.lo tenthLine.hi fun i => roundBinary 53 (x i / 2 + 27 / 100)
    unfold InBox
    decide +kernel
  next := by
    intro a _
    show ∀ x ∈ tenthLine.flAllPoints (roundBinary 53),
      dist1 (fun i => roundBinary 53 (x i / 2 + 27 / 100)) (clipBox tenthLine.lo tenthLine.hi fun i => x i / 2 + 27 / 100) ≤ 1 / 2 ^ 50
    decide +kernel
  rewardLip := fun a _ x y _ _ => by
    unfold dist1
    rw [Fin.sum_univ_one, one_mul, sub_sub_sub_cancel_left, abs_sub_comm]
  nextLip := fun a _ x y _ _ => by
    unfold dist1
    rw [Fin.sum_univ_one, Fin.sum_univ_one, show x 0 / 2 + 27 / 100 - (y 0 / 2 + 27 / 100) = 1 / 2 * (x 0 - y 0) by ring, abs_mul]
    norm_num
  bounded := fun a ha x hx => by
    have h0 := hx 0
    simp only [tenthLine, Matrix.cons_val_fin_one] at h0
    have : |a 0 - x 0| ≤ 1 := by
      simp only [List.mem_cons, List.not_mem_nil, or_false] at ha
      rcases ha with rfl | rfl <;> (simp only [Matrix.cons_val_fin_one]; rw [abs_le]; constructor <;> linarith [h0.1, h0.2])
    norm_num [choiceLoop]
    linarith

/-- The constants of the example. -/
theorem choice_constants : ∃ c κ a b : ℚ, c = 1 + Spec.lineDefect tenthLine.lo tenthLine.hi tenthLine.num ((2 : ℚ) ^ (-((53 : ℕ) : ℤ))) ∧
    κ = Spec.evaluationError tenthLine.lo tenthLine.hi tenthLine.num ((2 : ℚ) ^ (-((53 : ℕ) : ℤ))) (1 / 2 ^ 50) c ∧
    a = Spec.floatContraction (1 / 8) ((2 : ℚ) ^ (-((53 : ℕ) : ℤ))) c κ ∧
    b = Spec.floatOffset (1 / 8) ((2 : ℚ) ^ (-((53 : ℕ) : ℤ))) κ
      (16 / 15 * (coverRadius tenthLine.lo tenthLine.hi tenthLine.num * (1 + 2 * Spec.lineDefect tenthLine.lo tenthLine.hi tenthLine.num ((2 : ℚ) ^ (-((53 : ℕ) : ℤ))))))
      (16 / 15 * (1 / 2 ^ 50)) (16 / 15 * Spec.gridRounding tenthLine.lo tenthLine.hi ((2 : ℚ) ^ (-((53 : ℕ) : ℤ)))) (8 / 7) (1 / 2 ^ 50) ∧
    0 ≤ a ∧ a < 1 ∧ 0 ≤ b ∧ b / (1 - a) ≤ 4 / 525 + 1 / 10 ^ 10 ∧ a * (b / (1 - a)) + b ≤ 4 / 525 + 1 / 10 ^ 10 := by
  refine ⟨_, _, _, _, rfl, rfl, rfl, rfl, ?_⟩
  unfold Spec.floatContraction Spec.floatOffset Spec.evaluationError Spec.weightError Spec.lineDefect coverRadius Spec.gridRounding
  decide +kernel

/-- The constant action `1` is the policy of the example. -/
theorem choice_setup (hs : List (Matrix (Fin 1) (Fin 1) ℚ)) (hH : InverseWithin tenthLine.unit (1 / 2 ^ 50) tenthLineTri.hyperplanes hs) :
    FloatRLSetup (choiceLoop hs) tenthLine (delaunay1D 0 (tenthLine.flUnit (roundBinary 53) 0)) (roundBinary 53)
      ((2 : ℚ) ^ (-((53 : ℕ) : ℤ))) doubleEps (1 / 2 ^ 50) true tenthLineTri (List.replicate 11 ![1]) (fun _ => ![1])
      (fun x => 1 - x 0) (fun x i => x i / 2 + 27 / 100) (1 / 2 ^ 50) (1 / 2 ^ 50) := by
  have C := choice_control hs hH
  have hm : (![1] : Fin 1 → ℚ) ∈ ([![0], ![1]] : List (Fin 1 → ℚ)) := by simp
  exact {
    tri := C.tri
    new := C.new
    inverses := C.inverses
    delta := C.delta
    gamma := C.gamma
    er_nonneg := C.er_nonneg
    ef_nonneg := C.ef_nonneg
    policy := by
      intro x hx
      have h : ∀ x ∈ tenthLine.flAllPoints (roundBinary 53), ∃ k ∈ List.range 11,
          tenthLine.flStateToIndex (roundBinary 53) id (List.ofFn x) = .ok k := by decide +kernel
      obtain ⟨k, hk, e⟩ := h x hx
      show (tenthLine.flStateToIndex (roundBinary 53) id (List.ofFn x)).bind (fun k => rowAt (List.replicate 11 ![1]) k) = _
      rw [e]
      exact rowAt_ok (by rw [List.getElem?_replicate, if_pos (List.mem_range.mp hk)])
    reward := C.reward _ hm
    inBox := C.inBox _ hm
    next := C.next _ hm }

/-- The states that the rounds of the example reach. -/
def ChoiceInv (E : ℚ) (vars : Vars ℚ 1) : Prop :=
  vars.policy.length = 11 ∧ ∃ J : (Fin 1 → ℚ) → ℚ, LipschitzOn1 tenthLine.lo tenthLine.hi (16 / 15) J ∧
    (∀ x, InBox tenthLine.lo tenthLine.hi x → |J x| ≤ 8 / 7) ∧ Close tenthLine J E vars.value

/-- A round of the example. -/
theorem choice_round (hs : List (Matrix (Fin 1) (Fin 1) ℚ)) (hH : InverseWithin tenthLine.unit (1 / 2 ^ 50) tenthLineTri.hyperplanes hs)
    {c κ a b E : ℚ} (hc : c = 1 + Spec.lineDefect tenthLine.lo tenthLine.hi tenthLine.num ((2 : ℚ) ^ (-((53 : ℕ) : ℤ))))
    (hκ : κ = Spec.evaluationError tenthLine.lo tenthLine.hi tenthLine.num ((2 : ℚ) ^ (-((53 : ℕ) : ℤ))) (1 / 2 ^ 50) c)
    (ha : a = Spec.floatContraction (1 / 8) ((2 : ℚ) ^ (-((53 : ℕ) : ℤ))) c κ)
    (hb : b = Spec.floatOffset (1 / 8) ((2 : ℚ) ^ (-((53 : ℕ) : ℤ))) κ
      (16 / 15 * (coverRadius tenthLine.lo tenthLine.hi tenthLine.num * (1 + 2 * Spec.lineDefect tenthLine.lo tenthLine.hi tenthLine.num ((2 : ℚ) ^ (-((53 : ℕ) : ℤ))))))
      (16 / 15 * (1 / 2 ^ 50)) (16 / 15 * Spec.gridRounding tenthLine.lo tenthLine.hi ((2 : ℚ) ^ (-((53 : ℕ) : ℤ)))) (8 / 7) (1 / 2 ^ 50))
    (ha1 : a < 1) (hE : E = b / (1 - a)) (hsmall : a * E + b ≤ 4 / 525 + 1 / 10 ^ 10) (vars : Vars ℚ 1) (hv : ChoiceInv E vars) :
    ∃ improved out, (choiceLoop hs).flDiscretePolicyOptimization (roundBinary 53) doubleEps vars [![0], ![1]] none = .ok improved ∧
      improved.policy = List.replicate 11 ![1] ∧
      (choiceLoop hs).flIterate (roundBinary 53) doubleEps 3 improved = .ok out ∧ ChoiceInv E out := by
  have C := choice_control hs hH
  obtain ⟨hp, J, hJ, hJV, hclose⟩ := hv
  have hloc : ∀ a ∈ ([![0], ![1]] : List (Fin 1 → ℚ)), ∀ x ∈ tenthLine.flAllPoints (roundBinary 53), ∃ k s R,
      Located tenthLine (delaunay1D 0 (tenthLine.flUnit (roundBinary 53) 0)) tenthLineTri (roundBinary 53) doubleEps
        ((choiceLoop hs).dynamics x a).nextMean c
        (coverRadius tenthLine.lo tenthLine.hi tenthLine.num * (1 + 2 * Spec.lineDefect tenthLine.lo tenthLine.hi tenthLine.num ((2 : ℚ) ^ (-((53 : ℕ) : ℤ))))) k s R :=
    fun a ha x hx => hc ▸ located_line C.tri C.new _ (C.inBox a ha x hx)
  have hlen : (tenthLine.flAllPoints (roundBinary 53)).length = 11 := by decide +kernel
  have hprod : ∏ i, tenthLine.num i = 11 := by decide +kernel
  have hgp : ∀ k < 11, IsGridPoint tenthLine.lo tenthLine.hi tenthLine.num k (fun _ => (k : ℚ) / 10) := by
    have h : ∀ k < 11, (∀ i, (fun _ : Fin 1 => k) i < tenthLine.num i) ∧ k = rowMajor tenthLine.num (fun _ => k) ∧
        ∀ i, (k : ℚ) / 10 = axisPoint (tenthLine.lo i) (tenthLine.hi i) (tenthLine.num i) k := by
      unfold rowMajor axisPoint
      decide +kernel
    exact fun k hk => ⟨fun _ => k, h k hk⟩
  obtain ⟨improved, himp⟩ := C149_defined (P := choiceLoop hs) (fl := roundBinary 53) (eps := doubleEps) vars [![0], ![1]] (by simp) none
    (fun c hc => by cases hc) (fun x hx a ha => by
      obtain ⟨k, hk⟩ := List.mem_iff_getElem?.mp hx
      have hk' := (List.getElem?_eq_some_iff.mp hk).1
      change k < (tenthLine.flAllPoints (roundBinary 53)).length at hk'
      obtain ⟨q, v, h1, h2, -⟩ := C.actionValue ha (hloc a ha) hJ hJV hclose k _ (hgp k (hlen ▸ hk'))
      have : q = x := by
        change (tenthLine.flAllPoints (roundBinary 53))[k]? = some x at hk
        rw [hk] at h1
        exact (Option.some.inj h1).symm
      exact ⟨v, this ▸ h2⟩) (hp.trans hlen.symm)
  obtain ⟨-, -, -, -, -, e1, e2⟩ := flPolicyOptimization_inv himp
  have hpol : improved.policy = List.replicate 11 ![1] := by
    refine List.eq_replicate_iff.mpr ⟨e2.trans hp, fun b₁ hb₁ => ?_⟩
    obtain ⟨k, hk⟩ := List.mem_iff_getElem?.mp hb₁
    have hk' : k < 11 := (e2.trans hp) ▸ (List.getElem?_eq_some_iff.mp hk).1
    obtain ⟨b', h1, h2, h3⟩ := C.greedy hloc hJ hJV hclose himp k _ (hgp k hk')
    rw [hk] at h1
    cases h1
    have h4 := (h3 ![1] (by simp) (fun c hc => by cases hc)).2
    simp only [List.mem_cons, List.not_mem_nil, or_false] at h2
    rcases h2 with rfl | rfl
    · exfalso
      rw [← hκ] at h4
      unfold Spec.actionReturn Spec.backupError at h4
      change _ ≤ _ + 2 * (Spec.floatContraction (1 / 8) _ _ _ * E + Spec.floatOffset (1 / 8) _ _ _ _ _ _ _) at h4
      rw [← ha, ← hb] at h4
      simp only [Matrix.cons_val_fin_one] at h4
      linarith
    · rfl
  have S := choice_setup hs hH
  obtain ⟨values', f1, f2⟩ := fl_iterate S (fun x hx => hloc ![1] (by simp) x hx) C.L_nonneg C.L_le (C.rewardLip ![1] (by simp))
    (C.nextLip ![1] (by simp)) (C.bounded ![1] (by simp)) (hκ ▸ ha) ha1 (hκ ▸ hb) 3 J hJ hJV 0 vars.value (by rw [zero_add, ← hE]; exact hclose)
  refine ⟨improved, ⟨values', List.replicate 11 ![1]⟩, himp, hpol, ?_, by simp, _,
    return_lipschitz C.tri.lt C.gamma C.L_nonneg C.L_le (C.rewardLip ![1] (by simp)) (C.nextLip ![1] (by simp)) 3 J hJ,
    fun x hx => return_bounded C.gamma (fun x _ => inBox_clipBox C.tri.lt _) (C.bounded ![1] (by simp)) hJV 3 x hx, ?_⟩
  · have : improved = ⟨vars.value, List.replicate 11 ![1]⟩ := by rw [← e1, ← hpol]
    rw [this]
    exact f1
  · refine f2.mono ?_
    rw [mul_zero, zero_add, hE]

/-- In double precision, starting from zero, every round finds the better action at every grid point. -/
theorem choice_rounds (hs : List (Matrix (Fin 1) (Fin 1) ℚ)) (hH : InverseWithin tenthLine.unit (1 / 2 ^ 50) tenthLineTri.hyperplanes hs) :
    ∃ before improved : ℕ → Vars ℚ 1, before 0 = ⟨List.replicate 11 ![0], List.replicate 11 ![0]⟩ ∧
      FloatRounds (choiceLoop hs) tenthLine (delaunay1D 0 (tenthLine.flUnit (roundBinary 53) 0)) (roundBinary 53)
        ((2 : ℚ) ^ (-((53 : ℕ) : ℤ))) doubleEps (1 / 2 ^ 50) true tenthLineTri [![0], ![1]] none (fun x a => a 0 - x 0) (fun x _ i => x i / 2 + 27 / 100)
        (1 / 2 ^ 50) (1 / 2 ^ 50) 1 (1 / 2) (16 / 15) (8 / 7) before improved (fun _ => 3) (fun _ _ => ![1]) (fun _ _ => ![1]) := by
  have C := choice_control hs hH
  obtain ⟨c, κ, a, b, hc, hκ, ha, hb, ha0, ha1, hb0, hE1, hE2⟩ := choice_constants
  obtain ⟨E, hE⟩ : ∃ E, E = b / (1 - a) := ⟨_, rfl⟩
  have hE0 : 0 ≤ E := by rw [hE]; exact div_nonneg hb0 (by linarith)
  have step := choice_round hs hH hc hκ ha hb ha1 hE (by rw [hE]; exact hE2)
  have hclose0 : Close tenthLine (fun _ => 0) 0 (List.replicate 11 ![0]) :=
    close_of_start (by decide +kernel) fun k x v _ hv => by
      have := List.eq_of_mem_replicate (List.mem_of_getElem? hv)
      subst this
      simp
  have hLip0 : LipschitzOn1 tenthLine.lo tenthLine.hi (16 / 15) fun _ => 0 := fun _ _ _ _ => by
    simp only [sub_self, abs_zero]
    exact mul_nonneg (by norm_num) (dist1_nonneg _ _)
  have hstart : ChoiceInv E ⟨List.replicate 11 ![0], List.replicate 11 ![0]⟩ :=
    ⟨by simp, fun _ => 0, hLip0, fun _ _ => by norm_num, hclose0.mono hE0⟩
  choose imp out h1 h2 h3 h4 using step
  let seq : ℕ → {v : Vars ℚ 1 // ChoiceInv E v} := fun k => Nat.rec ⟨_, hstart⟩ (fun _ v => ⟨out v.1 v.2, h4 v.1 v.2⟩) k
  have hp : ∀ k, (imp (seq k).1 (seq k).2).policy = List.replicate 11 ![1] := fun k => h2 _ _
  have R : FloatRounds (choiceLoop hs) tenthLine (delaunay1D 0 (tenthLine.flUnit (roundBinary 53) 0)) (roundBinary 53)
        ((2 : ℚ) ^ (-((53 : ℕ) : ℤ))) doubleEps (1 / 2 ^ 50) true tenthLineTri [![0], ![1]] none (fun x a => a 0 - x 0) (fun x _ i => x i / 2 + 27 / 100)
        (1 / 2 ^ 50) (1 / 2 ^ 50) 1 (1 / 2) (16 / 15) (8 / 7) (fun k => (seq k).1) (fun k => imp (seq k).1 (seq k).2) (fun _ => 3)
        (fun _ _ => ![1]) (fun _ _ => ![1]) :=
    { improve := fun k => h1 _ _
      evaluate := fun k => h3 _ _
      runs_pos := fun _ => by norm_num
      setup := fun k => by rw [hp k]; exact choice_setup hs hH
      parameters := fun k s p hpt => by
        obtain ⟨i, rfl, -⟩ := pointAt_of_isGridPoint hpt
        rw [hp k, List.getElem?_replicate, if_pos]
        exact lt_of_lt_of_eq i.2 (by decide +kernel)
      rewardLip := fun _ => C.rewardLip ![1] (by simp)
      nextLip := fun _ => C.nextLip ![1] (by simp)
      bounded := fun _ => C.bounded ![1] (by simp) }
  exact ⟨_, _, rfl, R⟩

/-- No computed next state of the example is on a grid line. -/
theorem choice_away (hs : List (Matrix (Fin 1) (Fin 1) ℚ)) {a : Fin 1 → ℚ} : ∀ x ∈ tenthLine.flAllPoints (roundBinary 53),
    AwayFromGridLines tenthLine.lo tenthLine.hi tenthLine.num ((2 : ℚ) ^ (-((53 : ℕ) : ℤ))) doubleEps ((choiceLoop hs).dynamics x a).nextMean := by
  show ∀ x ∈ tenthLine.flAllPoints (roundBinary 53), AwayFromGridLines tenthLine.lo tenthLine.hi tenthLine.num _ doubleEps
    fun i => roundBinary 53 (x i / 2 + 27 / 100)
  unfold AwayFromGridLines locationMargin axisPoint
  decide +kernel

/-- The policy that the rounds find in double precision; returns are up to `8 / 7`. -/
example (hs : List (Matrix (Fin 1) (Fin 1) ℚ)) (hH : InverseWithin tenthLine.unit (1 / 2 ^ 50) tenthLineTri.hyperplanes hs)
    (pol'' : (Fin 1 → ℚ) → Fin 1 → ℚ) (hpol : ∀ x, pol'' x = ![0] ∨ pol'' x = ![1]) (N n : ℕ) (x : Fin 1 → ℚ) (hx : InBox tenthLine.lo tenthLine.hi x) :
    returnWithTerminal (1 / 8) (fun x => pol'' x 0 - x 0) (clippedLoop tenthLine.lo tenthLine.hi fun x i => x i / 2 + 27 / 100) (fun _ => 0) n x ≤
      returnWithTerminal (1 / 8) (fun x => 1 - x 0) (clippedLoop tenthLine.lo tenthLine.hi fun x i => x i / 2 + 27 / 100) (fun _ => 0) n x +
        (2 / 5 + 2 * (1 / 8) ^ N * (8 / 7) + 2 * (1 / 8) ^ n * (8 / 7)) := by
  have C := choice_control hs hH
  obtain ⟨before, improved, h0, R⟩ := choice_rounds hs hH
  have hLip0 : LipschitzOn1 tenthLine.lo tenthLine.hi (16 / 15) fun _ => 0 := fun _ _ _ _ => by
    simp only [sub_self, abs_zero]
    exact mul_nonneg (by norm_num) (dist1_nonneg _ _)
  have := C149_rounds_line C R hLip0 (fun _ _ => by norm_num) (B := 0) le_rfl (by rw [h0]; decide +kernel)
    (fun k x v _ hv => by
      rw [h0] at hv
      have := List.eq_of_mem_replicate (List.mem_of_getElem? hv)
      subst this
      simp) rfl rfl rfl (by
      show Spec.floatContraction (1 / 8) _ _ _ < 1
      unfold Spec.floatContraction Spec.evaluationError Spec.weightError Spec.lineDefect
      decide +kernel) rfl rfl
    (fun x hx => ⟨![1], ⟨by simp, fun s _ c hc => by cases hc⟩, by
      have h0 := hx 0
      simp only [tenthLine, Matrix.cons_val_fin_one] at h0
      simp only [Spec.actionReturn, Matrix.cons_val_fin_one, mul_zero, add_zero]
      linarith [h0.2]⟩) pol''
    (fun x _ => ⟨by rcases hpol x with h | h <;> simp [h], fun s _ c hc => by cases hc⟩) N n x hx
  refine this.trans (add_le_add le_rfl (add_le_add (add_le_add ?_ le_rfl) le_rfl))
  show 2 * (2 * (0 + Spec.floatOffset (1 / 8) _ _ _ _ _ _ _ / (1 - Spec.floatContraction (1 / 8) _ _ _)) + 2 * (16 / 15) *
    coverRadius tenthLine.lo tenthLine.hi tenthLine.num) / (1 - 1 / 8) ^ 3 ≤ _
  unfold Spec.floatContraction Spec.floatOffset Spec.evaluationError Spec.weightError Spec.lineDefect coverRadius Spec.gridRounding
  decide +kernel

/-- The same bound from the theorem for several dimensions. -/
example (hs : List (Matrix (Fin 1) (Fin 1) ℚ)) (hH : InverseWithin tenthLine.unit (1 / 2 ^ 50) tenthLineTri.hyperplanes hs)
    (pol'' : (Fin 1 → ℚ) → Fin 1 → ℚ) (hpol : ∀ x, pol'' x = ![0] ∨ pol'' x = ![1]) (N n : ℕ) (x : Fin 1 → ℚ) (hx : InBox tenthLine.lo tenthLine.hi x) :
    returnWithTerminal (1 / 8) (fun x => pol'' x 0 - x 0) (clippedLoop tenthLine.lo tenthLine.hi fun x i => x i / 2 + 27 / 100) (fun _ => 0) n x ≤
      returnWithTerminal (1 / 8) (fun x => 1 - x 0) (clippedLoop tenthLine.lo tenthLine.hi fun x i => x i / 2 + 27 / 100) (fun _ => 0) n x +
        (2 / 5 + 2 * (1 / 8) ^ N * (8 / 7) + 2 * (1 / 8) ^ n * (8 / 7)) := by
  have C := choice_control hs hH
  obtain ⟨before, improved, h0, R⟩ := choice_rounds hs hH
  have hLip0 : LipschitzOn1 tenthLine.lo tenthLine.hi (16 / 15) fun _ => 0 := fun _ _ _ _ => by
    simp only [sub_self, abs_zero]
    exact mul_nonneg (by norm_num) (dist1_nonneg _ _)
  have := C149_rounds_partial C R (fun a _ => choice_away hs) (fun _ => choice_away hs) hLip0 (fun _ _ => by norm_num) (B := 0) le_rfl (by rw [h0]; decide +kernel)
    (fun k x v _ hv => by
      rw [h0] at hv
      have := List.eq_of_mem_replicate (List.mem_of_getElem? hv)
      subst this
      simp) rfl rfl rfl (by
      show Spec.floatContraction (1 / 8) _ _ _ < 1
      unfold Spec.floatContraction Spec.evaluationError Spec.weightError Spec.locationDefect
      decide +kernel) rfl rfl
    (fun x hx => ⟨![1], ⟨by simp, fun s _ c hc => by cases hc⟩, by
      have h0 := hx 0
      simp only [tenthLine, Matrix.cons_val_fin_one] at h0
      simp only [Spec.actionReturn, Matrix.cons_val_fin_one, mul_zero, add_zero]
      linarith [h0.2]⟩) pol''
    (fun x _ => ⟨by rcases hpol x with h | h <;> simp [h], fun s _ c hc => by cases hc⟩) N n x hx
  refine this.trans (add_le_add le_rfl (add_le_add (add_le_add ?_ le_rfl) le_rfl))
  show 2 * (2 * (0 + Spec.floatOffset (1 / 8) _ _ _ _ _ _ _ / (1 - Spec.floatContraction (1 / 8) _ _ _)) + 2 * (16 / 15) *
    coverRadius tenthLine.lo tenthLine.hi tenthLine.num) / (1 - 1 / 8) ^ 3 ≤ _
  unfold Spec.floatContraction Spec.floatOffset Spec.evaluationError Spec.weightError Spec.locationDefect coverRadius Spec.gridRounding
  decide +kernel

/-- The bound for small discount factors. -/
example (hs : List (Matrix (Fin 1) (Fin 1) ℚ)) (hH : InverseWithin tenthLine.unit (1 / 2 ^ 50) tenthLineTri.hyperplanes hs)
    (pol'' : (Fin 1 → ℚ) → Fin 1 → ℚ) (hpol : ∀ x, pol'' x = ![0] ∨ pol'' x = ![1]) (N n : ℕ) (x : Fin 1 → ℚ) (hx : InBox tenthLine.lo tenthLine.hi x) :
    returnWithTerminal (1 / 8) (fun x => pol'' x 0 - x 0) (clippedLoop tenthLine.lo tenthLine.hi fun x i => x i / 2 + 27 / 100) (fun _ => 0) n x ≤
      returnWithTerminal (1 / 8) (fun x => 1 - x 0) (clippedLoop tenthLine.lo tenthLine.hi fun x i => x i / 2 + 27 / 100) (fun _ => 0) n x +
        (13 / 10 + 2 * (1 / 8) ^ N * (8 / 7) + 2 * (1 / 8) ^ n * (8 / 7)) := by
  have C := choice_control hs hH
  obtain ⟨before, improved, h0, R⟩ := choice_rounds hs hH
  have hLip0 : LipschitzOn1 tenthLine.lo tenthLine.hi (16 / 15) fun _ => 0 := fun _ _ _ _ => by
    simp only [sub_self, abs_zero]
    exact mul_nonneg (by norm_num) (dist1_nonneg _ _)
  have := C149_rounds_small_discount C R hLip0 (fun _ _ => by norm_num) (B := 0) le_rfl (by rw [h0]; decide +kernel)
    (fun k x v _ hv => by
      rw [h0] at hv
      have := List.eq_of_mem_replicate (List.mem_of_getElem? hv)
      subst this
      simp) rfl rfl rfl (by
      show Spec.floatContraction (1 / 8) _ _ _ < 1
      unfold Spec.floatContraction Spec.evaluationError Spec.weightError
      decide +kernel) rfl rfl
    (fun x hx => ⟨![1], ⟨by simp, fun s _ c hc => by cases hc⟩, by
      have h0 := hx 0
      simp only [tenthLine, Matrix.cons_val_fin_one] at h0
      simp only [Spec.actionReturn, Matrix.cons_val_fin_one, mul_zero, add_zero]
      linarith [h0.2]⟩) pol''
    (fun x _ => ⟨by rcases hpol x with h | h <;> simp [h], fun s _ c hc => by cases hc⟩) N n x hx
  refine this.trans (add_le_add le_rfl (add_le_add (add_le_add ?_ le_rfl) le_rfl))
  show 2 * (2 * (0 + Spec.floatOffset (1 / 8) _ _ _ _ _ _ _ / (1 - Spec.floatContraction (1 / 8) _ _ _)) + 2 * (16 / 15) *
    coverRadius tenthLine.lo tenthLine.hi tenthLine.num) / (1 - 1 / 8) ^ 3 ≤ _
  unfold Spec.floatContraction Spec.floatOffset Spec.evaluationError Spec.weightError coverRadius Spec.gridRounding
  decide +kernel

/-- The hypotheses of the theorems on one call, for the first round. -/
example (hs : List (Matrix (Fin 1) (Fin 1) ℚ)) (hH : InverseWithin tenthLine.unit (1 / 2 ^ 50) tenthLineTri.hyperplanes hs) (k : ℕ) (p : Fin 1 → ℚ)
    (hp : IsGridPoint tenthLine.lo tenthLine.hi tenthLine.num k p) :
    ∃ out a, (choiceLoop hs).flDiscretePolicyOptimization (roundBinary 53) doubleEps ⟨List.replicate 11 ![0], List.replicate 11 ![0]⟩
        [![0], ![1]] none = .ok out ∧ out.policy[k]? = some a ∧ 1 ≤ a 0 + 2 / 50 := by
  have C := choice_control hs hH
  obtain ⟨before, improved, h0, R⟩ := choice_rounds hs hH
  have hLip0 : LipschitzOn1 tenthLine.lo tenthLine.hi (16 / 15) fun _ => 0 := fun _ _ _ _ => by
    simp only [sub_self, abs_zero]
    exact mul_nonneg (by norm_num) (dist1_nonneg _ _)
  have hstart : ∀ (k : ℕ) (x : Fin 1 → ℚ) v, IsGridPoint tenthLine.lo tenthLine.hi tenthLine.num k x →
      (List.replicate 11 (![0] : Fin 1 → ℚ))[k]? = some v → |v 0 - 0| ≤ 0 := fun k x v _ hv => by
    have := List.eq_of_mem_replicate (List.mem_of_getElem? hv)
    subst this
    simp
  have himp := R.improve 0
  rw [h0] at himp
  obtain ⟨a, h1, -, h2⟩ := C149_greedy_line C rfl rfl hLip0 (fun _ _ => by norm_num) (A := 0) (by decide +kernel) hstart himp k p hp
  obtain ⟨a', h1', -, -⟩ := C149_greedy_partial C (fun a _ => choice_away hs) rfl rfl hLip0 (fun _ _ => by norm_num) (A := 0)
    (by decide +kernel) hstart himp k p hp
  refine ⟨_, a, himp, h1, ?_⟩
  have h3 := (h2 ![1] (by simp) (fun c hc => by cases hc)).2
  simp only [Spec.actionReturn, Matrix.cons_val_fin_one, mul_zero, add_zero] at h3
  have h4 : 2 * Spec.backupError (1 / 8) ((2 : ℚ) ^ (-((53 : ℕ) : ℤ))) (1 + Spec.lineDefect tenthLine.lo tenthLine.hi tenthLine.num ((2 : ℚ) ^ (-((53 : ℕ) : ℤ))))
      (Spec.evaluationError tenthLine.lo tenthLine.hi tenthLine.num ((2 : ℚ) ^ (-((53 : ℕ) : ℤ))) (1 / 2 ^ 50)
        (1 + Spec.lineDefect tenthLine.lo tenthLine.hi tenthLine.num ((2 : ℚ) ^ (-((53 : ℕ) : ℤ)))))
      (16 / 15 * (coverRadius tenthLine.lo tenthLine.hi tenthLine.num * (1 + 2 * Spec.lineDefect tenthLine.lo tenthLine.hi tenthLine.num ((2 : ℚ) ^ (-((53 : ℕ) : ℤ))))))
      (16 / 15 * (1 / 2 ^ 50)) (16 / 15 * Spec.gridRounding tenthLine.lo tenthLine.hi ((2 : ℚ) ^ (-((53 : ℕ) : ℤ)))) (8 / 7) (1 / 2 ^ 50) 0 ≤ 2 / 50 := by
    unfold Spec.backupError Spec.floatContraction Spec.floatOffset Spec.evaluationError Spec.weightError Spec.lineDefect coverRadius Spec.gridRounding
    decide +kernel
  have hγ : (choiceLoop hs).gamma = 1 / 8 := rfl
  rw [hγ] at h3
  linarith

/-! ## Grid lines -/

/-- Five by five points between `0` and `16`. -/
def broadGrid : GridWorld ℚ 2 := ⟨![0, 0], ![16, 16], ![5, 5]⟩

theorem broadGrid_setup : FloatTriSetup broadGrid (delaunay2D broadGrid.unit) (roundBinary 53) ((2 : ℚ) ^ (-((53 : ℕ) : ℤ)))
    doubleEps := by
  have h : broadGrid.flUnit (roundBinary 53) = broadGrid.unit := by decide +kernel
  rw [← h]
  exact floatSetup_two (by decide +kernel) (by decide +kernel) (roundBinary_within 53 (by norm_num))
    (by unfold CoarseGrid; decide +kernel) (by decide +kernel) (by decide +kernel)

/-- No rewards; the action `0` leads to the grid point `(16, 16)` and the action `1` to `(2, 2)`. -/
def peakLoop : PolicyIteration ℚ 2 1 where
  policy pp x := (broadGrid.flStateToIndex (roundBinary 53) id (List.ofFn x)).bind fun k => rowAt pp k
  policyGrid := broadGrid
  dynamics _ a := .exact fun _ => 16 - 14 * a 0
  reward _ _ := 0
  valueFunction := Conformance.triTwo broadGrid false
  gamma := 1 / 2

theorem peak_control : FloatControl peakLoop broadGrid (delaunay2D broadGrid.unit) (roundBinary 53) ((2 : ℚ) ^ (-((53 : ℕ) : ℤ))) doubleEps 0 false
    (Conformance.triTwo broadGrid false) [![0], ![1]] (fun _ _ => 0) (fun _ a _ => 16 - 14 * a 0) 0 0 0 0 1 16 where
  tri := broadGrid_setup
  new := Conformance.new_of_check (t := Conformance.triTwo broadGrid false) (by decide +kernel)
  inverses := ⟨(Conformance.triTwo broadGrid false).hyperplanes, rfl, fun k H h => ⟨H, h, fun i j => by simp⟩⟩
  grid := rfl
  delta := le_rfl
  gamma := by norm_num [peakLoop]
  gamma_lt := by norm_num [peakLoop]
  er_nonneg := le_rfl
  ef_nonneg := le_rfl
  L_nonneg := by norm_num
  L_le := by norm_num
  reward := by simp [peakLoop]
  inBox := by
    intro a ha x _
    show InBox broadGrid.lo broadGrid.hi fun _ => 16 - 14 * a 0
    simp only [List.mem_cons, List.not_mem_nil, or_false] at ha
    unfold InBox
    rcases ha with rfl | rfl <;> decide +kernel
  next := by
    intro a ha x _
    show dist1 (fun _ => 16 - 14 * a 0) (clipBox broadGrid.lo broadGrid.hi fun _ => 16 - 14 * a 0) ≤ 0
    simp only [List.mem_cons, List.not_mem_nil, or_false] at ha
    rcases ha with rfl | rfl <;> decide +kernel
  rewardLip := fun a _ x y _ _ => by simp
  nextLip := fun a _ x y _ _ => by simp [dist1]
  bounded := fun a _ x _ => by norm_num [peakLoop]

/-- A 1-Lipschitz function with a peak in the middle of a cell. -/
def peakValues (x : Fin 2 → ℚ) : ℚ := max |x 0 - x 1| (11 - (|x 0 - 2| + |x 1 - 2|))

/-- **C149 (refuted).** In two dimensions, with computed next states on grid lines, the chosen action can be worse than the bound of `C149_greedy_partial`: the values at the grid points are those of a 1-Lipschitz function, one action
leads to its highest point, the other one to a grid point where it is zero, and `discrete_policy_optimization` in double precision chooses the second one everywhere. All other hypotheses hold: `peak_control`. -/
theorem C149_grid_lines_refuted : LipschitzOn1 broadGrid.lo broadGrid.hi 1 peakValues ∧ (∀ x, InBox broadGrid.lo broadGrid.hi x → |peakValues x| ≤ 16) ∧
    ∃ vars out : Vars ℚ 1, (∀ k x, IsGridPoint broadGrid.lo broadGrid.hi broadGrid.num k x → vars.value[k]? = some ![peakValues x]) ∧
      peakLoop.flDiscretePolicyOptimization (roundBinary 53) doubleEps vars [![0], ![1]] none = .ok out ∧
      ∀ (k : ℕ) p, IsGridPoint broadGrid.lo broadGrid.hi broadGrid.num k p → out.policy[k]? = some ![0] ∧
        ∀ c κ : ℚ, c = 1 + Spec.locationDefect broadGrid.lo broadGrid.hi broadGrid.num ((2 : ℚ) ^ (-((53 : ℕ) : ℤ))) →
          κ = Spec.evaluationError broadGrid.lo broadGrid.hi broadGrid.num ((2 : ℚ) ^ (-((53 : ℕ) : ℤ))) 0 c →
          Spec.actionReturn (1 / 2) broadGrid.lo broadGrid.hi (fun _ _ => 0) (fun _ a _ => 16 - 14 * a 0) peakValues p ![0] +
            2 * Spec.backupError (1 / 2) ((2 : ℚ) ^ (-((53 : ℕ) : ℤ))) c κ
              (1 * (coverRadius broadGrid.lo broadGrid.hi broadGrid.num * (1 + 2 * Spec.locationDefect broadGrid.lo broadGrid.hi broadGrid.num ((2 : ℚ) ^ (-((53 : ℕ) : ℤ))))))
              (1 * 0) (1 * Spec.gridRounding broadGrid.lo broadGrid.hi ((2 : ℚ) ^ (-((53 : ℕ) : ℤ)))) 16 0 0 <
          Spec.actionReturn (1 / 2) broadGrid.lo broadGrid.hi (fun _ _ => 0) (fun _ a _ => 16 - 14 * a 0) peakValues p ![1] := by
  refine ⟨?_, ?_, ⟨broadGrid.allPoints.map fun x => ![peakValues x], List.replicate 25 ![0]⟩, ?_⟩
  · intro x y _ _
    unfold peakValues dist1
    rw [Fin.sum_univ_two, one_mul]
    refine (abs_max_sub_max_le_max _ _ _ _).trans (max_le ?_ ?_)
    · have h1 := abs_abs_sub_abs_le (x 0 - x 1) (y 0 - y 1)
      have h2 := abs_sub (x 0 - y 0) (x 1 - y 1)
      rw [show x 0 - x 1 - (y 0 - y 1) = x 0 - y 0 - (x 1 - y 1) by ring] at h1
      exact h1.trans h2
    · have h1 := abs_le.mp (abs_abs_sub_abs_le (x 0 - 2) (y 0 - 2))
      have h2 := abs_le.mp (abs_abs_sub_abs_le (x 1 - 2) (y 1 - 2))
      rw [sub_sub_sub_cancel_right] at h1 h2
      rw [abs_le]
      constructor <;> linarith [h1.1, h1.2, h2.1, h2.2]
  · intro x hx
    have h0 := hx 0
    have h1 := hx 1
    simp only [broadGrid, Matrix.cons_val_zero, Matrix.cons_val_one] at h0 h1
    unfold peakValues
    rw [abs_of_nonneg (le_max_of_le_left (abs_nonneg _))]
    refine max_le ?_ (by linarith [abs_nonneg (x 0 - 2), abs_nonneg (x 1 - 2)])
    rw [abs_le]
    constructor <;> linarith [h0.1, h0.2, h1.1, h1.2]
  · have hrun : (match peakLoop.flDiscretePolicyOptimization (roundBinary 53) doubleEps
        ⟨broadGrid.allPoints.map fun x => ![peakValues x], List.replicate 25 ![0]⟩ [![0], ![1]] none with
        | .ok out => decide (out.policy = List.replicate 25 ![0])
        | .error _ => false) = true := by decide +kernel
    cases ho : peakLoop.flDiscretePolicyOptimization (roundBinary 53) doubleEps
        ⟨broadGrid.allPoints.map fun x => ![peakValues x], List.replicate 25 ![0]⟩ [![0], ![1]] none with
    | error e => rw [ho] at hrun; cases hrun
    | ok out =>
      rw [ho] at hrun
      have hpol : out.policy = List.replicate 25 ![0] := of_decide_eq_true hrun
      refine ⟨out, fun k x hx => samples_allPoints broadGrid (fun x => ![peakValues x]) k x hx, rfl, fun k p hp => ⟨?_, ?_⟩⟩
      · have hk : k < 25 := by
          have := samples_allPoints broadGrid (fun x => ![peakValues x]) k p hp
          have h1 := (List.getElem?_eq_some_iff.mp this).1
          have h2 : (broadGrid.allPoints.map fun x => ![peakValues x]).length = 25 := by decide +kernel
          omega
        rw [hpol, List.getElem?_replicate, if_pos hk]
      · rintro c κ rfl rfl
        unfold Spec.actionReturn Spec.backupError Spec.floatContraction Spec.floatOffset Spec.evaluationError Spec.weightError Spec.locationDefect coverRadius Spec.gridRounding
        beta_reduce
        decide +kernel

end SafeLearning
