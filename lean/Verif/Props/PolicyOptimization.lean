import Verif.Props.ValueProgram
import Verif.Props.PiecewiseConstant
set_option autoImplicit false

/-!
# C63, C64: optimising the policy over a finite set of actions
-/

namespace SafeLearning

set_option linter.unusedSectionVars false

open Spec PolicyIteration

variable {K : Type} [Field K] [LinearOrder K] [IsStrictOrderedRing K] {d m : ℕ}

/-! ## `np.argmax` -/

theorem argmaxFirst_go (l : List (Extended K)) : ∀ (pre vs : List (Extended K)) (best : Extended K) (bi : ℕ),
    l = pre ++ vs → l[bi]? = some best → bi < pre.length →
    (∀ j v, j < pre.length → l[j]? = some v → v ≤ best ∧ (j < bi → v < best)) →
    ∃ v, l[argmaxFirst.go best bi pre.length vs]? = some v ∧
      ∀ j w, l[j]? = some w → w ≤ v ∧ (j < argmaxFirst.go best bi pre.length vs → w < v) := by
  intro pre vs
  induction vs generalizing pre with
  | nil =>
    intro best bi hl hb hbi h
    refine ⟨best, hb, fun j w hw => ?_⟩
    have hj : j < pre.length := by
      have := (List.getElem?_eq_some_iff.mp hw).1
      rw [hl] at this
      simpa using this
    exact h j w hj hw
  | cons x vs ih =>
    intro best bi hl hb hbi h
    have hx : l[pre.length]? = some x := by rw [hl]; simp
    have hl' : l = (pre ++ [x]) ++ vs := by rw [hl]; simp
    have hlen : (pre ++ [x]).length = pre.length + 1 := by simp
    unfold argmaxFirst.go
    by_cases hlt : best < x
    · rw [if_pos hlt]
      have := ih (pre ++ [x]) x pre.length hl' hx (by simp) (by
        intro j v hj hv
        rw [hlen] at hj
        rcases Nat.lt_succ_iff_lt_or_eq.mp hj with hj | rfl
        · have := (h j v hj hv).1
          exact ⟨this.trans hlt.le, fun _ => this.trans_lt hlt⟩
        · rw [hx] at hv
          cases hv
          exact ⟨le_rfl, fun h => absurd h (lt_irrefl _)⟩)
      rwa [hlen] at this
    · rw [if_neg hlt]
      have := ih (pre ++ [x]) best bi hl' hb (by rw [hlen]; omega) (by
        intro j v hj hv
        rw [hlen] at hj
        rcases Nat.lt_succ_iff_lt_or_eq.mp hj with hj | rfl
        · exact h j v hj hv
        · rw [hx] at hv
          cases hv
          exact ⟨not_lt.mp hlt, fun h => by omega⟩)
      rwa [hlen] at this

/-- `np.argmax` returns the index of the first maximal entry. -/
theorem argmaxFirst_first {l : List (Extended K)} {i : ℕ} (h : argmaxFirst l = .ok i) :
    ∃ v, l[i]? = some v ∧ ∀ j w, l[j]? = some w → w ≤ v ∧ (j < i → w < v) := by
  cases l with
  | nil => cases h
  | cons v vs =>
    simp only [argmaxFirst, Except.ok.injEq] at h
    subst h
    exact argmaxFirst_go (v :: vs) [v] vs v 0 rfl rfl (by simp) (by
      intro j w hj hw
      have : j = 0 := by simpa using hj
      subst this
      simp only [List.getElem?_cons_zero, Option.some.injEq] at hw
      subst hw
      exact ⟨le_rfl, fun h => absurd h (lt_irrefl _)⟩)

theorem argmaxFirst_nonempty {l : List (Extended K)} (h : l ≠ []) : ∃ i, argmaxFirst l = .ok i := by
  cases l with
  | nil => exact absurd rfl h
  | cons v vs => exact ⟨_, rfl⟩

/-! ## C63 -/

/-- The action `a`, taken in all `n` states, has non-negative slack in state number `s` (always, without a constraint). -/
def _root_.Spec.SafeAction (constraint : Option (List (Fin m → K) → List K)) (n : ℕ) (a : Fin m → K)
    (s : ℕ) : Prop :=
  ∀ c, constraint = some c → ∃ v, (c (List.replicate n a))[s]? = some v ∧ 0 ≤ v

variable [FloorRing K] {P : PolicyIteration K d m} {eps : K}

/-- One column of the value matrix. -/
theorem column_spec {vars : Vars K m} {constraint : Option (List (Fin m → K) → List K)}
    {a : Fin m → K} {col : List (Extended K)} (h : P.column eps vars constraint a = .ok col)
    (s : ℕ) (x : Fin d → K) (hx : P.policyGrid.allPoints[s]? = some x) :
    ∃ v, P.futureValue eps vars none 1 x a = .ok v ∧ ∃ e, col[s]? = some e ∧
      (SafeAction constraint P.policyGrid.allPoints.length a s → e = (v : WithBot K)) ∧
      (¬ SafeAction constraint P.policyGrid.allPoints.length a s → e = ⊥) := by
  unfold PolicyIteration.column at h
  have hrep : (P.policyGrid.allPoints.map fun _ => a) =
      List.replicate P.policyGrid.allPoints.length a := by simp
  simp only [hrep] at h
  cases hf : P.futureValues eps vars P.policyGrid.allPoints none
      (some (List.replicate P.policyGrid.allPoints.length a)) with
  | error er =>
    simp only [hf, bind, Except.bind] at h
    cases h
  | ok values =>
  simp only [hf, bind, Except.bind] at h
  unfold PolicyIteration.futureValues at hf
  simp only [bind, Except.bind, List.length_replicate, ne_eq, not_true_eq_false, if_false] at hf
  obtain ⟨hl, hk⟩ := mapM_ok_inv hf
  have hs : s < P.policyGrid.allPoints.length := (List.getElem?_eq_some_iff.mp hx).1
  obtain ⟨v, hv, hfv⟩ := hk s (x, a) (by
    rw [List.getElem?_zip_eq_some]
    exact ⟨hx, by simp [hs]⟩)
  refine ⟨v, hfv, ?_⟩
  cases constraint with
  | none =>
    simp only [pure, Except.pure, Except.ok.injEq] at h
    subst h
    refine ⟨v, ?_, fun _ => rfl, fun hn => absurd (fun c hc => by cases hc) hn⟩
    rw [List.getElem?_map, hv]
    rfl
  | some c =>
    simp only at h
    split_ifs at h with hlen
    simp only [pure, Except.pure, Except.ok.injEq] at h
    subst h
    have hlen' : (c (List.replicate P.policyGrid.allPoints.length a)).length =
        P.policyGrid.allPoints.length := by
      by_contra hne
      exact hlen hne
    obtain ⟨sl, hsl⟩ : ∃ sl, (c (List.replicate P.policyGrid.allPoints.length a))[s]? = some sl :=
      ⟨_, List.getElem?_eq_getElem (by omega)⟩
    refine ⟨entry v (some sl), by rw [List.getElem?_zipWith, hv, hsl], fun hsafe => ?_, fun hn => ?_⟩
    · obtain ⟨u, hu, hu0⟩ := hsafe c rfl
      rw [hsl] at hu
      cases hu
      simp only [entry]
      rw [if_neg (not_lt.mpr hu0)]
    · simp only [entry]
      rw [if_pos]
      by_contra hnn
      apply hn
      intro c' hc'
      cases hc'
      exact ⟨sl, hsl, not_lt.mp hnn⟩

theorem policyOptimization_inv {vars out : Vars K m} {actionSpace : List (Fin m → K)}
    {constraint : Option (List (Fin m → K) → List K)}
    (h : P.discretePolicyOptimization eps vars actionSpace constraint = .ok out) :
    ∃ columns best, actionSpace.mapM (P.column eps vars constraint) = .ok columns ∧
      (List.range P.policyGrid.allPoints.length).mapM (fun s =>
        argmaxFirst (columns.map fun c => c.getD s ⊥)) = .ok best ∧
      best.mapM (rowAt actionSpace) = .ok out.policy ∧ out.value = vars.value ∧
      out.policy.length = vars.policy.length := by
  unfold PolicyIteration.discretePolicyOptimization at h
  cases hc : actionSpace.mapM (P.column eps vars constraint) with
  | error er =>
    simp only [hc, bind, Except.bind] at h
    cases h
  | ok columns =>
  simp only [hc, bind, Except.bind] at h
  cases hb : (List.range P.policyGrid.allPoints.length).mapM (fun s =>
      argmaxFirst (columns.map fun c => c.getD s ⊥)) with
  | error er =>
    simp only [hb] at h
    cases h
  | ok best =>
  simp only [hb] at h
  cases ha : best.mapM (rowAt actionSpace) with
  | error er =>
    simp only [ha] at h
    cases h
  | ok acts =>
  simp only [ha] at h
  split_ifs at h with hl
  simp only [pure, Except.pure, Except.ok.injEq] at h
  subst h
  exact ⟨columns, best, rfl, hb, ha, rfl, hl⟩

/-- **C63 (best safe action).** After `discrete_policy_optimization`, the parameter of the policy for every state `x` of its
grid is an action `a` of the action space. If some action is safe in `x`, then `a` is safe, its future value is at least the one of
every safe action, and larger than the one of every safe action that comes earlier in the action space. The value function
stays. Missing: states without a safe action, see `C63_no_safe_action_refuted`. -/
theorem C63_best_safe_action_partial {vars out : Vars K m} {actionSpace : List (Fin m → K)}
    {constraint : Option (List (Fin m → K) → List K)}
    (h : P.discretePolicyOptimization eps vars actionSpace constraint = .ok out)
    (s : ℕ) (x : Fin d → K) (hx : P.policyGrid.allPoints[s]? = some x) :
    out.value = vars.value ∧
    ∃ (i : ℕ) (a : Fin m → K) (v : K), out.policy[s]? = some a ∧ actionSpace[i]? = some a ∧
      P.futureValue eps vars none 1 x a = .ok v ∧
      ∀ (j : ℕ) b, actionSpace[j]? = some b →
        SafeAction constraint P.policyGrid.allPoints.length b s →
        SafeAction constraint P.policyGrid.allPoints.length a s ∧
        ∃ w, P.futureValue eps vars none 1 x b = .ok w ∧ w ≤ v ∧ (j < i → w < v) := by
  obtain ⟨columns, best, hc, hb, ha, hval, -⟩ := policyOptimization_inv h
  refine ⟨hval, ?_⟩
  have hs : s < P.policyGrid.allPoints.length := (List.getElem?_eq_some_iff.mp hx).1
  obtain ⟨hcl, hck⟩ := mapM_ok_inv hc
  obtain ⟨hbl, hbk⟩ := mapM_ok_inv hb
  obtain ⟨hal, hak⟩ := mapM_ok_inv ha
  obtain ⟨i, hi, hmax⟩ := hbk s s (by simp [hs])
  obtain ⟨a, hpa, hra⟩ := hak s i hi
  have hai : actionSpace[i]? = some a := by
    unfold rowAt at hra
    cases e : actionSpace[i]? with
    | none => rw [e] at hra; cases hra
    | some b => rw [e] at hra; cases hra; rfl
  obtain ⟨top, htop, hle⟩ := argmaxFirst_first hmax
  obtain ⟨coli, hcoli, hci⟩ := hck i a hai
  obtain ⟨v, hv, e, he, hsafe, hunsafe⟩ := column_spec hci s x hx
  have htop' : top = e := by
    rw [List.getElem?_map, hcoli] at htop
    simp only [Option.map_some, Option.some.injEq] at htop
    rw [← htop, List.getD_eq_getElem?_getD, he]
    rfl
  subst htop'
  refine ⟨i, a, v, hpa, hai, hv, fun j b hj hsb => ?_⟩
  obtain ⟨colj, hcolj, hcj⟩ := hck j b hj
  obtain ⟨w, hw, f, hf, hsafej, -⟩ := column_spec hcj s x hx
  have hfw := hsafej hsb
  have hcmp := hle j f (by
    rw [List.getElem?_map, hcolj]
    simp only [Option.map_some, Option.some.injEq]
    rw [List.getD_eq_getElem?_getD, hf]
    rfl)
  have hsa : SafeAction constraint P.policyGrid.allPoints.length a s := by
    by_contra hn
    have h1 := hunsafe hn
    rw [h1, hfw] at hcmp
    exact absurd hcmp.1 (not_le.mpr (WithBot.bot_lt_coe w))
  have h2 := hsafe hsa
  rw [h2, hfw] at hcmp
  exact ⟨hsa, w, hw, WithBot.coe_le_coe.mp hcmp.1, fun hji => WithBot.coe_lt_coe.mp (hcmp.2 hji)⟩

theorem discretePolicyOptimization_runs (vars : Vars K m) (actionSpace : List (Fin m → K)) (hne : actionSpace ≠ [])
    (constraint : Option (List (Fin m → K) → List K))
    (hcon : ∀ c, constraint = some c → ∀ a, (c (List.replicate P.policyGrid.allPoints.length a)).length =
      P.policyGrid.allPoints.length)
    (hval : ∀ x ∈ P.policyGrid.allPoints, ∀ a ∈ actionSpace, ∃ v, P.futureValue eps vars none 1 x a = .ok v) :
    ∃ best : List (Fin m → K), best.length = P.policyGrid.allPoints.length ∧ P.discretePolicyOptimization eps vars actionSpace constraint =
      if best.length = vars.policy.length then .ok { vars with policy := best } else .error .valueError := by
  have hval' : ∀ x a, ∃ v, x ∈ P.policyGrid.allPoints → a ∈ actionSpace →
      P.futureValue eps vars none 1 x a = .ok v := by
    intro x a
    by_cases h : x ∈ P.policyGrid.allPoints ∧ a ∈ actionSpace
    · obtain ⟨v, hv⟩ := hval x h.1 a h.2
      exact ⟨v, fun _ _ => hv⟩
    · exact ⟨0, fun h1 h2 => absurd ⟨h1, h2⟩ h⟩
  choose f hf using hval'
  have hcol : ∀ a, ∃ col, a ∈ actionSpace → P.column eps vars constraint a = .ok col := by
    intro a
    by_cases ha : a ∈ actionSpace
    swap
    · exact ⟨[], fun h => absurd h ha⟩
    suffices ∃ col, P.column eps vars constraint a = .ok col from ⟨this.choose, fun _ => this.choose_spec⟩
    unfold PolicyIteration.column
    have hrep : (P.policyGrid.allPoints.map fun _ => a) =
        List.replicate P.policyGrid.allPoints.length a := by simp
    have : P.futureValues eps vars P.policyGrid.allPoints none
        (some (List.replicate P.policyGrid.allPoints.length a)) =
        .ok ((P.policyGrid.allPoints.zip (List.replicate P.policyGrid.allPoints.length a)).map
          fun sa => f sa.1 sa.2) := by
      unfold PolicyIteration.futureValues
      simp only [bind, Except.bind, List.length_replicate, ne_eq, not_true_eq_false, if_false]
      exact mapM_ok (g := fun sa : (Fin d → K) × (Fin m → K) => f sa.1 sa.2) fun sa hsa => by
        have hz := List.of_mem_zip hsa
        exact hf sa.1 sa.2 hz.1 ((List.eq_of_mem_replicate hz.2) ▸ ha)
    simp only [hrep, this, bind, Except.bind]
    cases constraint with
    | none => exact ⟨_, rfl⟩
    | some c =>
      simp only
      rw [if_neg (by simpa using hcon c rfl a)]
      exact ⟨_, rfl⟩
  choose col hcol using hcol
  unfold PolicyIteration.discretePolicyOptimization
  rw [mapM_ok (g := col) fun a ha => hcol a ha]
  simp only [bind, Except.bind]
  have harg : ∀ s, ∃ i, argmaxFirst ((actionSpace.map col).map fun c => c.getD s ⊥) = .ok i := fun s =>
    argmaxFirst_nonempty (by simpa using hne)
  choose idx hidx using harg
  rw [mapM_ok (g := idx) fun s _ => hidx s]
  simp only
  have hrow : ∀ s, ∃ a, rowAt actionSpace (idx s) = .ok a := by
    intro s
    obtain ⟨v, hv, -⟩ := argmaxFirst_first (hidx s)
    have := (List.getElem?_eq_some_iff.mp hv).1
    simp only [List.length_map] at this
    exact ⟨_, rowAt_ok (List.getElem?_eq_getElem this)⟩
  choose row hrow using hrow
  have : ((List.range P.policyGrid.allPoints.length).map idx).mapM (rowAt actionSpace) =
      .ok ((List.range P.policyGrid.allPoints.length).map row) := by
    rw [List.mapM_map]
    exact mapM_ok fun s _ => hrow s
  simp only [this]
  exact ⟨_, by simp, rfl⟩

/-- **C63 (defined).** The call succeeds for every non-empty action space if the future values can be computed, the
constraint returns one slack per state and the policy has one parameter row per state. -/
theorem C63_defined (vars : Vars K m) (actionSpace : List (Fin m → K)) (hne : actionSpace ≠ [])
    (constraint : Option (List (Fin m → K) → List K))
    (hcon : ∀ c, constraint = some c → ∀ a, (c (List.replicate P.policyGrid.allPoints.length a)).length =
      P.policyGrid.allPoints.length)
    (hval : ∀ x ∈ P.policyGrid.allPoints, ∀ a ∈ actionSpace, ∃ v, P.futureValue eps vars none 1 x a = .ok v)
    (hlen : vars.policy.length = P.policyGrid.allPoints.length) :
    ∃ out, P.discretePolicyOptimization eps vars actionSpace constraint = .ok out := by
  obtain ⟨best, hb, h⟩ := discretePolicyOptimization_runs (P := P) (eps := eps) vars actionSpace hne constraint hcon hval
  rw [h, if_pos (by rw [hb, hlen])]
  exact ⟨_, rfl⟩

/-- **C63 (wrong parameters).** If the policy does not have one parameter row per state, `ValueError` is raised and nothing is assigned. -/
theorem C63_wrong_parameters (vars : Vars K m) (actionSpace : List (Fin m → K)) (hne : actionSpace ≠ [])
    (constraint : Option (List (Fin m → K) → List K))
    (hcon : ∀ c, constraint = some c → ∀ a, (c (List.replicate P.policyGrid.allPoints.length a)).length =
      P.policyGrid.allPoints.length)
    (hval : ∀ x ∈ P.policyGrid.allPoints, ∀ a ∈ actionSpace, ∃ v, P.futureValue eps vars none 1 x a = .ok v)
    (hlen : vars.policy.length ≠ P.policyGrid.allPoints.length) :
    P.discretePolicyOptimization eps vars actionSpace constraint = .error .valueError := by
  obtain ⟨best, hb, h⟩ := discretePolicyOptimization_runs (P := P) (eps := eps) vars actionSpace hne constraint hcon hval
  rw [h, if_neg (by rw [hb]; exact fun e => hlen e.symm)]

/-- **C63 (wrong constraints).** If the constraint does not return one number for every state, `IndexError` is raised. -/
theorem C63_wrong_constraint (vars : Vars K m) (a : Fin m → K) (actionSpace : List (Fin m → K))
    (c : List (Fin m → K) → List K)
    (hc : (c (List.replicate P.policyGrid.allPoints.length a)).length ≠ P.policyGrid.allPoints.length)
    (hval : ∀ x ∈ P.policyGrid.allPoints, ∃ v, P.futureValue eps vars none 1 x a = .ok v) :
    P.discretePolicyOptimization eps vars (a :: actionSpace) (some c) = .error .indexError := by
  have hrep : (P.policyGrid.allPoints.map fun _ => a) = List.replicate P.policyGrid.allPoints.length a := by simp
  choose! f hf using hval
  have hfv : P.futureValues eps vars P.policyGrid.allPoints none
      (some (List.replicate P.policyGrid.allPoints.length a)) = .ok (P.policyGrid.allPoints.map f) := by
    unfold PolicyIteration.futureValues
    simp only [List.length_replicate, ne_eq, not_true_eq_false, if_false, bind, Except.bind]
    have : ∀ l : List (Fin d → K), (∀ x ∈ l, x ∈ P.policyGrid.allPoints) →
        (l.zip (List.replicate l.length a)).mapM (fun sa => P.futureValue eps vars none 1 sa.1 sa.2) = .ok (l.map f) := by
      intro l
      induction l with
      | nil => intro _; rfl
      | cons x l ih =>
        intro h
        simp only [List.length_cons, List.replicate_succ, List.zip_cons_cons, List.mapM_cons]
        rw [hf x (h x (by simp)), ih fun y hy => h y (by simp [hy])]
        rfl
    exact this _ fun x hx => hx
  unfold PolicyIteration.discretePolicyOptimization
  rw [List.mapM_cons]
  have : P.column eps vars (some c) a = .error .indexError := by
    unfold PolicyIteration.column
    simp only [hrep, hfv, bind, Except.bind]
    rw [if_pos hc]
  rw [this]
  rfl

/-- **C63 (empty action space).** An empty action space raises `ValueError` (if the policy grid is not empty). -/
theorem C63_empty (vars : Vars K m) (constraint : Option (List (Fin m → K) → List K))
    (hne : P.policyGrid.allPoints ≠ []) :
    P.discretePolicyOptimization eps vars [] constraint = .error .valueError := by
  unfold PolicyIteration.discretePolicyOptimization
  simp only [List.mapM_nil, pure, Except.pure, bind, Except.bind, List.map_nil]
  obtain ⟨x, l, h⟩ := List.exists_cons_of_ne_nil hne
  rw [h, List.length_cons, List.range_succ_eq_map, List.mapM_cons]
  rfl

/-- The claim of C63 that the chosen action is safe in every state. -/
def _root_.Spec.ChoosesSafe (constraint : Option (List (Fin m → K) → List K)) (n : ℕ)
    (policy : List (Fin m → K)) : Prop :=
  ∀ (s : ℕ) a, policy[s]? = some a → SafeAction constraint n a s

/-- **C63 refuted** for states without a safe action: the first action of the action space is taken although it violates the
constraint. No error is reported. -/
theorem C63_no_safe_action_refuted {vars out : Vars K m} {actionSpace : List (Fin m → K)}
    {constraint : Option (List (Fin m → K) → List K)}
    (h : P.discretePolicyOptimization eps vars actionSpace constraint = .ok out)
    (s : ℕ) (hs : s < P.policyGrid.allPoints.length)
    (hun : ∀ a ∈ actionSpace, ¬ SafeAction constraint P.policyGrid.allPoints.length a s) :
    out.policy[s]? = actionSpace[0]? ∧
      ¬ Spec.ChoosesSafe constraint P.policyGrid.allPoints.length out.policy := by
  obtain ⟨columns, best, hc, hb, ha, -, -⟩ := policyOptimization_inv h
  obtain ⟨hcl, hck⟩ := mapM_ok_inv hc
  obtain ⟨hbl, hbk⟩ := mapM_ok_inv hb
  obtain ⟨hal, hak⟩ := mapM_ok_inv ha
  obtain ⟨i, hi, hmax⟩ := hbk s s (by simp [hs])
  obtain ⟨a, hpa, hra⟩ := hak s i hi
  have hai : actionSpace[i]? = some a := by
    unfold rowAt at hra
    cases e : actionSpace[i]? with
    | none => rw [e] at hra; cases hra
    | some b => rw [e] at hra; cases hra; rfl
  obtain ⟨top, htop, hle⟩ := argmaxFirst_first hmax
  have hbot : ∀ (j : ℕ) b, actionSpace[j]? = some b →
      (columns.map fun c => c.getD s ⊥)[j]? = some (⊥ : Extended K) := by
    intro j b hj
    obtain ⟨colj, hcolj, hcj⟩ := hck j b hj
    obtain ⟨w, hw, f, hf, -, hunsafe⟩ := column_spec hcj s _ (List.getElem?_eq_getElem hs)
    rw [List.getElem?_map, hcolj]
    simp only [Option.map_some, Option.some.injEq]
    rw [List.getD_eq_getElem?_getD, hf, hunsafe (hun b (List.mem_of_getElem? hj))]
    rfl
  have hi0 : i = 0 := by
    by_contra hne
    have hlt : 0 < actionSpace.length := by
      have := (List.getElem?_eq_some_iff.mp hai).1
      omega
    have h1 := hbot 0 _ (List.getElem?_eq_getElem hlt)
    have h2 := (hle 0 _ h1).2 (Nat.pos_of_ne_zero hne)
    have h3 := hbot i a hai
    rw [htop] at h3
    cases h3
    exact absurd h2 (lt_irrefl _)
  subst hi0
  exact ⟨by rw [hpa, hai], fun hsafe => hun a (List.mem_of_getElem? hai) (hsafe s a hpa)⟩

/-! ## C64 -/

variable {g : GridWorld K d} {D : Delaunay K d} {project : Bool}

/-- The value of an action is the Bellman update. -/
theorem futureValue_inv {vars : Vars K m} {x : Fin d → K} {a : Fin m → K} {v : K}
    (h : P.futureValue eps vars none 1 x a = .ok v) :
    ∃ e, P.valueFunction.tfEvaluate eps vars.value (P.dynamics x a).nextMean = .ok e ∧
      v = P.reward x a + P.gamma * e 0 := by
  cases hw : P.valueFunction.tfEvaluate eps vars.value (P.dynamics x a).nextMean with
  | error er =>
    unfold PolicyIteration.futureValue at h
    simp only [hw, bind, Except.bind] at h
    cases h
  | ok w =>
    rw [futureValue_none x a hw] at h
    cases h
    exact ⟨w, rfl, rfl⟩

/-- At every grid point, the actions of `act` are available: they are in the action space and safe. -/
def _root_.Spec.Available (constraint : Option (List (Fin m → K) → List K))
    (actionSpace : List (Fin m → K)) (states : List (Fin d → K)) (act : (Fin d → K) → Fin m → K) :
    Prop :=
  ∀ (s : ℕ) x, states[s]? = some x → act x ∈ actionSpace ∧
    SafeAction constraint states.length (act x) s

/-- The Bellman equation at the grid point with a given number. -/
theorem bellman_at {act : (Fin d → K) → Fin m → K} {θ : Fin (nParams g) → K}
    (h : Bellman P g eps act (toParams θ)) (i : Fin (nParams g)) :
    ∃ e, P.valueFunction.evaluate eps (toParams θ)
        (P.dynamics (pointAt g i) (act (pointAt g i))).nextMean = .ok e ∧
      θ i = P.reward (pointAt g i) (act (pointAt g i)) + P.gamma * e 0 := by
  have hx : IsGridPoint g.lo g.hi g.num i.1 (pointAt g i) :=
    ((GridWorld.C03_all_points_enumerates g).2 i.1 _).2
  obtain ⟨v, e, h1, h2, h3⟩ := h.2 _ _ hx
  rw [toParams_getElem? _ _ i.2] at h1
  cases h1
  exact ⟨e, h2, h3⟩

/-- **C64 (improvement).** Policy and value function share the grid. If the values solve the Bellman equation of the old
policy and the old actions are available, the values of the new policy are at least as large in every state.
Missing: next states in the boundary strip, see `C64_boundary_refuted`. -/
theorem C64_improves_partial {act act' : (Fin d → K) → Fin m → K} {vars out : Vars K m}
    {actionSpace : List (Fin m → K)} {constraint : Option (List (Fin m → K) → List K)}
    (S' : RLSetup P g D eps project out.policy act') (hγ : P.gamma < 1)
    (hr : ∀ x ∈ g.allPoints, ConvexRegion g eps project (P.dynamics x (act' x)).nextMean)
    (hgrid : P.policyGrid = g)
    (hold : Bellman P g eps act vars.value)
    (hav : Spec.Available constraint actionSpace g.allPoints act)
    (ho : P.discretePolicyOptimization eps vars actionSpace constraint = .ok out)
    (hparam : ∀ (s : ℕ) x, g.allPoints[s]? = some x → out.policy[s]? = some (act' x))
    (θ' : List (Fin 1 → K)) (hnew : Bellman P g eps act' θ') :
    Below vars.value θ' := by
  obtain ⟨W, h1, -, h3, h4, h5⟩ := valueIteration_eq S'
  obtain ⟨value, policy⟩ := vars
  simp only at hold ⊢
  obtain ⟨η, rfl⟩ := toParams_surj θ' hnew.1
  obtain ⟨θ, rfl⟩ := toParams_surj value hold.1
  rw [below_toParams]
  have hfix : ∀ i, η i = P.reward (pointAt g i) (act' (pointAt g i)) + P.gamma * ∑ j, W i j * η j := by
    intro i
    obtain ⟨e, e1, e2⟩ := bellman_at hnew i
    rw [← C17_tf_agrees, h4 i η] at e1
    cases e1
    exact e2
  refine le_fixed_of_feasible S'.gamma hγ (fun i => h3 i (hr _ (pointAt_mem g i))) h1 hfix fun i => ?_
  have hget : g.allPoints[i.1]? = some (pointAt g i) := List.getElem?_eq_getElem _
  obtain ⟨-, k, a, v, e1, e2, e3, e4⟩ := C63_best_safe_action_partial ho i.1 (pointAt g i)
    (by rw [hgrid]; exact hget)
  rw [hparam _ _ hget] at e1
  cases e1
  obtain ⟨hmem, hsafe⟩ := hav _ _ hget
  obtain ⟨j, hj⟩ := List.mem_iff_getElem?.mp hmem
  obtain ⟨-, w, hw, hwv, -⟩ := e4 j _ hj (by rw [hgrid]; exact hsafe)
  obtain ⟨e, he, rfl⟩ := futureValue_inv hw
  obtain ⟨f, hf, rfl⟩ := futureValue_inv e3
  simp only at he hf
  rw [h4 i θ] at hf
  cases hf
  obtain ⟨e', he1, he2⟩ := bellman_at hold i
  rw [← C17_tf_agrees, he] at he1
  cases he1
  rw [he2]
  exact hwv

/-- **C64 (optimality).** If the values solve the Bellman equation of the new policy as well (the optimisation brings no
improvement), no policy with available actions has a larger value in any state. -/
theorem C64_optimal_partial {act' act'' : (Fin d → K) → Fin m → K} {vars out : Vars K m}
    {actionSpace : List (Fin m → K)} {constraint : Option (List (Fin m → K) → List K)}
    {pp : List (Fin m → K)} (S'' : RLSetup P g D eps project pp act'') (hγ : P.gamma < 1)
    (hr : ∀ x ∈ g.allPoints, ConvexRegion g eps project (P.dynamics x (act'' x)).nextMean)
    (hgrid : P.policyGrid = g)
    (ho : P.discretePolicyOptimization eps vars actionSpace constraint = .ok out)
    (hparam : ∀ (s : ℕ) x, g.allPoints[s]? = some x → out.policy[s]? = some (act' x))
    (hsol : Bellman P g eps act' vars.value)
    (hav : Spec.Available constraint actionSpace g.allPoints act'')
    (θ'' : List (Fin 1 → K)) (hother : Bellman P g eps act'' θ'') :
    Below θ'' vars.value := by
  obtain ⟨W, h1, -, h3, h4, h5⟩ := valueIteration_eq S''
  obtain ⟨value, policy⟩ := vars
  simp only at hsol ⊢
  obtain ⟨η, rfl⟩ := toParams_surj θ'' hother.1
  obtain ⟨θ, rfl⟩ := toParams_surj value hsol.1
  rw [below_toParams]
  have hfix : ∀ i, η i = P.reward (pointAt g i) (act'' (pointAt g i)) + P.gamma * ∑ j, W i j * η j := by
    intro i
    obtain ⟨e, e1, e2⟩ := bellman_at hother i
    rw [← C17_tf_agrees, h4 i η] at e1
    cases e1
    exact e2
  have hge : ∀ i, P.reward (pointAt g i) (act'' (pointAt g i)) + P.gamma * ∑ j, W i j * θ j ≤ θ i := by
    intro i
    have hget : g.allPoints[i.1]? = some (pointAt g i) := List.getElem?_eq_getElem _
    obtain ⟨-, k, a, v, e1, e2, e3, e4⟩ := C63_best_safe_action_partial ho i.1 (pointAt g i)
      (by rw [hgrid]; exact hget)
    rw [hparam _ _ hget] at e1
    cases e1
    obtain ⟨hmem, hsafe⟩ := hav _ _ hget
    obtain ⟨j, hj⟩ := List.mem_iff_getElem?.mp hmem
    obtain ⟨-, w, hw, hwv, -⟩ := e4 j _ hj (by rw [hgrid]; exact hsafe)
    obtain ⟨e, he, rfl⟩ := futureValue_inv hw
    obtain ⟨f, hf, rfl⟩ := futureValue_inv e3
    simp only at he hf
    rw [h4 i θ] at he
    cases he
    obtain ⟨e', he1, he2⟩ := bellman_at hsol i
    rw [← C17_tf_agrees, hf] at he1
    cases he1
    rw [he2]
    exact hwv
  -- the negated vectors satisfy the hypotheses of `le_fixed_of_feasible`
  intro i
  have := le_fixed_of_feasible (W := W) (γ := P.gamma) (r := fun _ => 0) (v := fun _ => 0)
    (θ := fun i => η i - θ i) S''.gamma hγ (fun i => h3 i (hr _ (pointAt_mem g i))) h1
    (fun i => by simp) (fun i => by
      have := hge i
      have := hfix i
      simp only [mul_sub, Finset.sum_sub_distrib]
      linarith) i
  linarith

/-- A triangulated policy on the grid of the value function returns its parameters at the grid points. -/
theorem policy_interpolates_tri {Dp : Delaunay K d} {pproj : Bool} {tp : Tri K d}
    (S : TriSetup g Dp eps) (ht : Tri.new g Dp pproj = .ok tp)
    (heps : ∑ i, 2 * eps / ((g.hi i - g.lo i) / ((g.num i : K) - 1)) < 1)
    (params : List (Fin m → K)) (hlen : params.length = ∏ i, g.num i) (s : ℕ) (x : Fin d → K)
    (hx : g.allPoints[s]? = some x) :
    ∃ a, params[s]? = some a ∧ tp.tfEvaluate eps params x = .ok a := by
  have hs : s < g.allPoints.length := (List.getElem?_eq_some_iff.mp hx).1
  have hgp := ((GridWorld.C03_all_points_enumerates g).2 s hs).2
  rw [(List.getElem?_eq_some_iff.mp hx).2] at hgp
  obtain ⟨v, h1, h2⟩ := C11_interpolates S ht heps params hlen s x hgp
  exact ⟨v, h1, by rw [C17_tf_agrees]; exact h2⟩

/-- **C64 (triangulated policy).** Policy iteration as a whole: policy and value function are triangulations on the
same grid, `optimize_value_function` solves for the values of the current policy, `discrete_policy_optimization` picks the
actions and `optimize_value_function` solves for the new values. The new values are at least as large as the old ones, if the
actions of the old policy are available. Missing: as in `C64_improves_partial`. -/
theorem C64_policy_iteration_partial {Dp : Delaunay K d} {pproj : Bool} {tp : Tri K d}
    (St : TriSetup g Dp eps) (htp : Tri.new g Dp pproj = .ok tp)
    (heps : ∑ i, 2 * eps / ((g.hi i - g.lo i) / ((g.num i : K) - 1)) < 1)
    (Sv : TriSetup g D eps) (htv : Tri.new g D project = .ok P.valueFunction)
    (hγ0 : 0 ≤ P.gamma) (hγ : P.gamma < 1)
    (hpol : P.policy = fun params x => tp.tfEvaluate eps params x) (hgrid : P.policyGrid = g)
    (hr : ∀ x ∈ g.allPoints, ∀ a, ConvexRegion g eps project (P.dynamics x a).nextMean)
    (solve : Program K → Status × List K) (hs : SolverContract solve)
    (actionSpace : List (Fin m → K)) (constraint : Option (List (Fin m → K) → List K))
    (vars v1 v2 v3 : Vars K m) (hlenv : vars.value.length = ∏ i, g.num i)
    (hlenp : vars.policy.length = ∏ i, g.num i)
    (hav : ∀ (s : ℕ) a, vars.policy[s]? = some a → a ∈ actionSpace ∧
      SafeAction constraint g.allPoints.length a s)
    (h1 : P.optimizeValueFunction eps solve vars = .ok v1)
    (h2 : P.discretePolicyOptimization eps v1 actionSpace constraint = .ok v2)
    (h3 : P.optimizeValueFunction eps solve v2 = .ok v3) :
    Below v1.value v3.value := by
  have hint := fun params hlen => policy_interpolates_tri (m := m) St htp heps params hlen
  have hgl := (GridWorld.C03_all_points_enumerates g).1
  have hnd := GridWorld.C03_all_points_nodup g Sv.two_le Sv.lt
  -- the action a parameter array gives at a grid point
  have hact : ∀ params : List (Fin m → K), params.length = ∏ i, g.num i →
      ∃ act : (Fin d → K) → Fin m → K, ∀ (s : ℕ) x, g.allPoints[s]? = some x →
        params[s]? = some (act x) ∧ tp.tfEvaluate eps params x = .ok (act x) := by
    intro params hlen
    refine ⟨fun x => params.getD (g.allPoints.idxOf x) 0, fun s x hx => ?_⟩
    obtain ⟨a, e1, e2⟩ := hint params hlen s x hx
    have hs : s < g.allPoints.length := (List.getElem?_eq_some_iff.mp hx).1
    have hxs := (List.getElem?_eq_some_iff.mp hx).2
    have : g.allPoints.idxOf x = s := by
      rw [← hxs]
      exact hnd.idxOf_getElem s hs
    have e3 : params.getD (g.allPoints.idxOf x) 0 = a := by
      rw [this, List.getD_eq_getElem?_getD, e1]
      rfl
    exact ⟨by rw [e1]; exact congrArg some e3.symm, by rw [e2]; exact congrArg Except.ok e3.symm⟩
  have hconv : ∀ x a, ConvexRegion g eps project (P.dynamics x a).nextMean →
      project = true ∨ InBox g.lo g.hi (P.dynamics x a).nextMean := by
    rintro x a (h | ⟨-, h⟩)
    · right
      intro i
      have := h i
      have := Sv.eps_pos
      constructor <;> linarith
    · exact h
  obtain ⟨act, hactp⟩ := hact vars.policy hlenp
  have S1 : RLSetup P g D eps project vars.policy act := ⟨Sv, htv, hγ0, fun x hx => by
    obtain ⟨s, hs⟩ := List.mem_iff_getElem?.mp hx
    rw [hpol]
    exact (hactp s x hs).2, fun x hx => hconv x _ (hr x hx _)⟩
  obtain ⟨hb1, hp1⟩ := C61_optimal_partial S1 hγ (fun x hx => hr x hx _) solve hs vars v1 rfl hlenv h1
  have hl2 : v2.policy.length = ∏ i, g.num i := by
    obtain ⟨-, -, -, -, -, -, e⟩ := policyOptimization_inv h2
    rw [e, hp1, hlenp]
  obtain ⟨act', hactp'⟩ := hact v2.policy hl2
  have S2 : RLSetup P g D eps project v2.policy act' := ⟨Sv, htv, hγ0, fun x hx => by
    obtain ⟨s, hs⟩ := List.mem_iff_getElem?.mp hx
    rw [hpol]
    exact (hactp' s x hs).2, fun x hx => hconv x _ (hr x hx _)⟩
  have hv2 : v2.value = v1.value := by
    obtain ⟨-, -, -, -, -, e, -⟩ := policyOptimization_inv h2
    exact e
  obtain ⟨hb3, hp3⟩ := C61_optimal_partial S2 hγ (fun x hx => hr x hx _) solve hs v2 v3 rfl
    (by rw [hv2]; exact hb1.1) h3
  exact C64_improves_partial S2 hγ (fun x hx => hr x hx _) hgrid hb1
    (fun s x hx => hav s _ (hactp s x hx).1) h2 (fun s x hx => (hactp' s x hx).1) _ hb3

end SafeLearning
