import Verif.Props.PolicyOptimization
import Verif.Props.ValueExamples
set_option autoImplicit false

/-!
# C79: operations are built once; concrete cases of C63 and C64
-/

namespace SafeLearning

set_option linter.unusedSectionVars false

open Spec PolicyIteration

variable {K : Type} [Field K] [LinearOrder K] [IsStrictOrderedRing K] {d m : ℕ}

/-! ## C79 -/

/-- What a user does with a `PolicyIteration` object: run `discrete_policy_optimization`, change attributes (dynamics, reward
function, discount factor, ...) or run any operation that updates the variables. -/
inductive _root_.Spec.UserStep (K : Type) (d m : ℕ) where
  | optimize (actionSpace : List (Fin m → K)) (constraint : Option (List (Fin m → K) → List K))
  | setAttributes (P : PolicyIteration K d m)
  | update (run : Vars K m → Except PyErr (Vars K m))

variable [FloorRing K]

/-- The expected behaviour: every `discrete_policy_optimization` uses the attributes at the time of the call. -/
def _root_.Spec.runCurrent (eps : K) :
    PolicyIteration K d m → Vars K m → List (Spec.UserStep K d m) → Except PyErr (Vars K m)
  | _, vars, [] => .ok vars
  | P, vars, .optimize as c :: rest =>
    match P.discretePolicyOptimization eps vars as c with
    | .error e => .error e
    | .ok vars' => Spec.runCurrent eps P vars' rest
  | _, vars, .setAttributes Q :: rest => Spec.runCurrent eps Q vars rest
  | P, vars, .update run :: rest =>
    match run vars with
    | .error e => .error e
    | .ok vars' => Spec.runCurrent eps P vars' rest

/-- The same history on the object of the code. -/
def Session.run (eps : K) :
    Session K d m → List (Spec.UserStep K d m) → Except PyErr (Session K d m)
  | s, [] => .ok s
  | s, .optimize as c :: rest =>
    match s.discretePolicyOptimization eps as c with
    | .error e => .error e
    | .ok s' => s'.run eps rest
  | s, .setAttributes Q :: rest => Session.run eps { s with attributes := Q } rest
  | s, .update f :: rest =>
    match f s.vars with
    | .error e => .error e
    | .ok vars' => Session.run eps { s with vars := vars' } rest

/-- The claim of C79 for a history on a new object. -/
def _root_.Spec.CurrentAttributes (eps : K) (P : PolicyIteration K d m) (vars : Vars K m)
    (steps : List (Spec.UserStep K d m)) : Prop :=
  (Session.run eps ⟨P, none, vars⟩ steps).map Session.vars = Spec.runCurrent eps P vars steps

theorem run_stored (eps : K) : ∀ (steps : List (Spec.UserStep K d m)) (s : Session K d m),
    s.stored = none ∨ s.stored = some s.attributes →
    (∀ Q, Spec.UserStep.setAttributes Q ∉ steps) →
    (s.run eps steps).map Session.vars = Spec.runCurrent eps s.attributes s.vars steps
  | [], s, _, _ => rfl
  | .optimize as c :: rest, s, h, hn => by
    have hP : s.stored.getD s.attributes = s.attributes := by
      rcases h with h | h <;> rw [h] <;> rfl
    unfold Session.run Spec.runCurrent Session.discretePolicyOptimization
    rw [hP]
    cases e : s.attributes.discretePolicyOptimization eps s.vars as c with
    | error er => simp only [e, bind, Except.bind]; rfl
    | ok vars' =>
      simp only [e, bind, Except.bind, pure, Except.pure]
      exact run_stored eps rest ⟨s.attributes, some s.attributes, vars'⟩ (Or.inr rfl) fun Q hQ =>
        hn Q (List.mem_cons_of_mem _ hQ)
  | .setAttributes Q :: rest, s, h, hn => absurd List.mem_cons_self (hn Q)
  | .update f :: rest, s, h, hn => by
    unfold Session.run Spec.runCurrent
    cases e : f s.vars with
    | error er => rfl
    | ok vars' => exact run_stored eps rest _ h fun Q hQ => hn Q (List.mem_cons_of_mem _ hQ)

/-- **C79 (reuse).** As long as no attribute is changed after the first `discrete_policy_optimization`, every history of
optimisations, updates of the variables and (before the first optimisation) changes of the attributes has the result of
operations built anew for every call. Missing: changes after the first optimisation, see `C79_attributes_refuted`. -/
theorem C79_reuse_partial (eps : K) (P : PolicyIteration K d m) (vars : Vars K m)
    (before after : List (Spec.UserStep K d m))
    (hb : ∀ as c, Spec.UserStep.optimize as c ∉ before)
    (ha : ∀ Q, Spec.UserStep.setAttributes Q ∉ after) :
    Spec.CurrentAttributes eps P vars (before ++ after) := by
  unfold Spec.CurrentAttributes
  induction before generalizing P vars with
  | nil => exact run_stored eps after ⟨P, none, vars⟩ (Or.inl rfl) ha
  | cons st rest ih =>
    have hb' : ∀ as c, Spec.UserStep.optimize as c ∉ rest := fun as c h =>
      hb as c (List.mem_cons_of_mem _ h)
    cases st with
    | optimize as c => exact absurd List.mem_cons_self (hb as c)
    | setAttributes Q => exact ih Q vars hb'
    | update f =>
      rw [List.cons_append]
      unfold Session.run Spec.runCurrent
      dsimp only
      cases e : f vars with
      | error er => rfl
      | ok vars' => exact ih P vars' hb'

/-- **C79 (attributes are ignored).** After a successful `discrete_policy_optimization`, later ones do not depend on the
attributes at all. -/
theorem C79_attributes_ignored (eps : K) (s s' : Session K d m) (as as' : List (Fin m → K))
    (c c' : Option (List (Fin m → K) → List K))
    (h : s.discretePolicyOptimization eps as c = .ok s') (Q : PolicyIteration K d m) :
    ({ s' with attributes := Q }.discretePolicyOptimization eps as' c').map Session.vars =
      (s'.discretePolicyOptimization eps as' c').map Session.vars := by
  have hst : ∃ P, s'.stored = some P := by
    unfold Session.discretePolicyOptimization at h
    simp only [bind, Except.bind] at h
    split at h
    · cases h
    · cases h
      exact ⟨_, rfl⟩
  obtain ⟨P, hP⟩ := hst
  unfold Session.discretePolicyOptimization
  simp only [hP, Option.getD_some, bind, Except.bind]
  split <;> rfl

/-! ## Concrete cases -/

/-- The problem on the line with reward `c * action`; the policy is a triangulation on the same grid. -/
def lineControl (t : Tri ℚ 1) (c : ℚ) : PolicyIteration ℚ 1 1 where
  policy θ x := t.tfEvaluate (1 / 1000) θ x
  policyGrid := lineGrid
  dynamics x a := .exact fun i => x i + a i
  reward _ a := c * a 0
  valueFunction := t
  gamma := 9 / 10

/-- The two actions. -/
def lineActions : List (Fin 1 → ℚ) := [fun _ => 0, fun _ => 1]

/-- No values, no actions. -/
def lineVars : Vars ℚ 1 := ⟨toParams (fun _ : Fin (nParams lineGrid) => 0), [0, 0, 0]⟩

theorem lineValue {t : Tri ℚ 1} (ht : Tri.new lineGrid (delaunay1D 0 (lineGrid.unit 0)) true = .ok t)
    (c : ℚ) (pp : List (Fin 1 → ℚ)) (x : Fin 1 → ℚ) (a : Fin 1 → ℚ) :
    (lineControl t c).futureValue (1 / 1000) ⟨lineVars.value, pp⟩ none 1 x a = .ok (c * a 0) := by
  obtain ⟨w, -, -, -, hw⟩ := exists_row lineSetup ht ((lineControl t c).dynamics x a).nextMean (Or.inl rfl)
  rw [futureValue_none x a (hw fun _ => 0)]
  simp [lineControl]

theorem line_points : lineGrid.allPoints.length = 3 := by decide +kernel

/-- The result of the optimisation with reward `c * action`, without a constraint: the larger action for positive `c`,
the smaller one for negative `c`. -/
theorem line_optimum {t : Tri ℚ 1} (ht : Tri.new lineGrid (delaunay1D 0 (lineGrid.unit 0)) true = .ok t)
    (c : ℚ) (hc : c ≠ 0) (pp : List (Fin 1 → ℚ)) (hpp : pp.length = 3) :
    ∃ out, (lineControl t c).discretePolicyOptimization (1 / 1000) ⟨lineVars.value, pp⟩ lineActions
      none = .ok out ∧ out.policy.length = 3 ∧ out.value = lineVars.value ∧
      ∀ a ∈ out.policy, a = fun _ => if 0 < c then 1 else 0 := by
  obtain ⟨out, ho⟩ := C63_defined (P := lineControl t c) (eps := 1 / 1000) ⟨lineVars.value, pp⟩
    lineActions (by simp [lineActions]) none (fun _ h => by cases h)
    (fun x _ a _ => ⟨_, lineValue ht c pp x a⟩) (by simpa [lineControl, line_points] using hpp)
  obtain ⟨-, -, -, -, -, e1, e2⟩ := policyOptimization_inv ho
  have hl : out.policy.length = 3 := by rw [e2]; exact hpp
  refine ⟨out, ho, hl, e1, fun a ha => ?_⟩
  obtain ⟨s, hs⟩ := List.mem_iff_getElem?.mp ha
  have hs3 : s < lineGrid.allPoints.length := by
    rw [line_points, ← hl]
    exact (List.getElem?_eq_some_iff.mp hs).1
  obtain ⟨-, i, b, v, h1, h2, h3, h4⟩ := C63_best_safe_action_partial ho s _
    (List.getElem?_eq_getElem hs3)
  rw [hs] at h1
  cases h1
  rw [lineValue ht] at h3
  cases h3
  obtain ⟨-, w0, hw0, hle0, -⟩ := h4 0 (fun _ => 0) rfl (fun _ h => by cases h)
  obtain ⟨-, w1, hw1, hle1, -⟩ := h4 1 (fun _ => 1) rfl (fun _ h => by cases h)
  rw [lineValue ht] at hw0 hw1
  cases hw0
  cases hw1
  have hab : a = (fun _ => 0) ∨ a = fun _ => 1 := by
    have := List.mem_of_getElem? h2
    simpa [lineActions] using this
  rcases lt_or_gt_of_ne hc with hneg | hpos
  · rw [if_neg (not_lt.mpr hneg.le)]
    rcases hab with rfl | rfl
    · rfl
    · exfalso
      simp only at hle0
      linarith
  · rw [if_pos hpos]
    rcases hab with rfl | rfl
    · exfalso
      simp only at hle1
      linarith
    · rfl

/-- **C79 refuted.** The reward function is replaced by its negative after the first `discrete_policy_optimization`; the second
one still maximises the old reward. -/
theorem C79_attributes_refuted {t : Tri ℚ 1}
    (ht : Tri.new lineGrid (delaunay1D 0 (lineGrid.unit 0)) true = .ok t) :
    ¬ Spec.CurrentAttributes (1 / 1000) (lineControl t 1) lineVars
      [.optimize lineActions none, .setAttributes (lineControl t (-1)), .optimize lineActions none] := by
  intro h
  unfold Spec.CurrentAttributes at h
  obtain ⟨o1, h1, l1, v1, p1⟩ := line_optimum ht 1 (by norm_num) lineVars.policy rfl
  obtain ⟨o2, h2, l2, v2, p2⟩ := line_optimum ht 1 (by norm_num) o1.policy l1
  obtain ⟨o3, h3, l3, v3, p3⟩ := line_optimum ht (-1) (by norm_num) o1.policy l1
  have ho1 : (⟨lineVars.value, o1.policy⟩ : Vars ℚ 1) = o1 := by rw [← v1]
  rw [ho1] at h2 h3
  change (lineControl t 1).discretePolicyOptimization (1 / 1000) lineVars lineActions none = .ok o1 at h1
  simp only [Session.run, Spec.runCurrent, Session.discretePolicyOptimization, Option.getD_none,
    Option.getD_some, h1, h2, h3, bind, Except.bind, pure, Except.pure, Except.map,
    Except.ok.injEq] at h
  subst h
  have hne : o2.policy ≠ [] := by
    intro e
    rw [e] at l2
    cases l2
  obtain ⟨a, l, hal⟩ := List.exists_cons_of_ne_nil hne
  have hm : a ∈ o2.policy := by rw [hal]; exact List.mem_cons_self
  have e := (p2 a hm).symm.trans (p3 a hm)
  have := congrFun e 0
  norm_num at this

/-- C79 (reuse) for a concrete history. -/
example {t : Tri ℚ 1} : Spec.CurrentAttributes (1 / 1000) (lineControl t 1) lineVars
    ([.setAttributes (lineControl t (-1))] ++
      [.optimize lineActions none, .update fun v => .ok { v with value := [![5], ![6], ![7]] },
        .optimize lineActions none]) :=
  C79_reuse_partial _ _ _ _ _ (by simp) (by simp)

/-- A constraint without safe actions: the optimisation takes action `0` in every state (`C63_no_safe_action_refuted`). -/
example {t : Tri ℚ 1} (ht : Tri.new lineGrid (delaunay1D 0 (lineGrid.unit 0)) true = .ok t) :
    ∃ out, (lineControl t 1).discretePolicyOptimization (1 / 1000) lineVars lineActions
        (some fun acts => acts.map fun _ => -1) = .ok out ∧
      out.policy[1]? = lineActions[0]? ∧
      ¬ Spec.ChoosesSafe (some fun acts => acts.map fun _ => -1) 3 out.policy := by
  obtain ⟨out, ho⟩ := C63_defined (P := lineControl t 1) (eps := 1 / 1000) lineVars
    lineActions (by simp [lineActions]) (some fun acts => acts.map fun _ => -1)
    (fun c h a => by cases h; simp)
    (fun x _ a _ => ⟨_, lineValue ht 1 lineVars.policy x a⟩) rfl
  have hl : (lineControl t 1).policyGrid.allPoints.length = 3 := line_points
  have := C63_no_safe_action_refuted ho 1 (by rw [hl]; norm_num) (fun a _ hsafe => by
      obtain ⟨v, hv, hv0⟩ := hsafe _ rfl
      simp only [List.map_replicate, List.getElem?_replicate] at hv
      split_ifs at hv
      cases hv
      norm_num at hv0)
  rw [hl] at this
  exact ⟨out, ho, this⟩

/-- A policy with two parameter rows for three grid points is rejected. -/
example {t : Tri ℚ 1} (ht : Tri.new lineGrid (delaunay1D 0 (lineGrid.unit 0)) true = .ok t) :
    (lineControl t 1).discretePolicyOptimization (1 / 1000) ⟨lineVars.value, [![0], ![0]]⟩ lineActions none = .error .valueError :=
  C63_wrong_parameters (P := lineControl t 1) (eps := 1 / 1000) _ lineActions (by simp [lineActions]) none (fun _ h => by cases h)
    (fun x _ a _ => ⟨_, lineValue ht 1 [![0], ![0]] x a⟩) (by
      rw [show (lineControl t 1).policyGrid.allPoints.length = 3 from line_points]
      simp)

/-- Slack that forbids to move right from the last grid point. -/
def stayConstraint (acts : List (Fin 1 → ℚ)) : List ℚ :=
  acts.zipIdx.map fun ai => if ai.2 = 2 then -(ai.1 0) else 1

/-- All hypotheses of `C64_policy_iteration_partial` are met by the problem on the line: policy iteration with the two
actions and a constraint that forbids to leave the last grid point. -/
example {t : Tri ℚ 1} (ht : Tri.new lineGrid (delaunay1D 0 (lineGrid.unit 0)) true = .ok t) :
    ∃ solve v1 v2 v3, SolverContract solve ∧
      (lineControl t 1).optimizeValueFunction (1 / 1000) solve lineVars = .ok v1 ∧
      (lineControl t 1).discretePolicyOptimization (1 / 1000) v1 lineActions
        (some stayConstraint) = .ok v2 ∧
      (lineControl t 1).optimizeValueFunction (1 / 1000) solve v2 = .ok v3 ∧
      Below v1.value v3.value := by
  classical
  let solve : Program ℚ → Status × List ℚ := fun p =>
    if h : ∃ v, Program.Optimal p v then (.optimal, h.choose) else (.other, [])
  have hs : SolverContract solve := by
    intro p hp
    by_cases h : ∃ v, Program.Optimal p v
    · simp only [solve, dif_pos h]
      exact h.choose_spec
    · simp only [solve, dif_neg h] at hp
      cases hp
  have hγ : (lineControl t 1).gamma < 1 := by norm_num [lineControl]
  have hγ0 : 0 ≤ (lineControl t 1).gamma := by norm_num [lineControl]
  have heps : ∑ i, 2 * (1 / 1000 : ℚ) / ((lineGrid.hi i - lineGrid.lo i) / ((lineGrid.num i : ℚ) - 1)) < 1 := by
    decide +kernel
  have hprod : ∏ i, lineGrid.num i = 3 := by decide +kernel
  have hnd := GridWorld.C03_all_points_nodup lineGrid lineSetup.two_le lineSetup.lt
  have hr : ∀ x ∈ lineGrid.allPoints, ∀ a, ConvexRegion lineGrid (1 / 1000) true
      ((lineControl t 1).dynamics x a).nextMean := fun _ _ _ => Or.inr ⟨rfl, Or.inl rfl⟩
  -- every set of three policy parameters gives a policy
  have hset : ∀ pp : List (Fin 1 → ℚ), pp.length = 3 → ∃ act,
      RLSetup (lineControl t 1) lineGrid (delaunay1D 0 (lineGrid.unit 0)) (1 / 1000) true pp act := by
    intro pp hpp
    refine ⟨fun x => pp.getD (lineGrid.allPoints.idxOf x) 0, lineSetup, ht, hγ0, fun x hx => ?_,
      fun _ _ => Or.inl rfl⟩
    obtain ⟨s, hsx⟩ := List.mem_iff_getElem?.mp hx
    obtain ⟨a, e1, e2⟩ := policy_interpolates_tri lineSetup ht heps pp (hpp.trans hprod.symm) s x hsx
    obtain ⟨hlt, hxs⟩ := List.getElem?_eq_some_iff.mp hsx
    have : lineGrid.allPoints.idxOf x = s := by rw [← hxs]; exact hnd.idxOf_getElem s hlt
    rw [this, List.getD_eq_getElem?_getD, e1]
    exact e2
  have hopt : ∀ vars : Vars ℚ 1, vars.value.length = 3 → vars.policy.length = 3 →
      ∃ out, (lineControl t 1).optimizeValueFunction (1 / 1000) solve vars = .ok out ∧
        out.value.length = 3 ∧ out.policy = vars.policy := by
    intro vars h1 h2
    obtain ⟨act, S⟩ := hset vars.policy h2
    obtain ⟨p, hp, h⟩ := C61_solvable_partial S hγ (fun x hx => hr x hx _) vars rfl (h1.trans hprod.symm)
    obtain ⟨out, ho⟩ := (h solve).1 hs (by simp only [solve, dif_pos hp])
    obtain ⟨e1, e2⟩ := C61_optimal_partial S hγ (fun x hx => hr x hx _) solve hs vars out rfl
      (h1.trans hprod.symm) ho
    exact ⟨out, ho, e1.1.trans hprod, e2⟩
  obtain ⟨v1, h1, l1, p1⟩ := hopt lineVars rfl rfl
  obtain ⟨v2, h2⟩ := C63_defined (P := lineControl t 1) (eps := 1 / 1000) v1 lineActions
    (by simp [lineActions])
    (some stayConstraint) (fun c h a => by cases h; simp [stayConstraint])
    (fun x _ a _ => by
      obtain ⟨v, hv⟩ := toParams_surj (n := 3) v1.value l1
      obtain ⟨w, -, -, -, hw⟩ := exists_row lineSetup ht
        ((lineControl t 1).dynamics x a).nextMean (Or.inl rfl)
      obtain ⟨value, pol⟩ := v1
      simp only at hv
      subst hv
      exact ⟨_, futureValue_none (P := lineControl t 1) (vars := ⟨toParams v, pol⟩) x a (hw v) 1⟩)
    (by rw [p1]; exact line_points.symm)
  obtain ⟨-, -, -, -, -, e1, e2⟩ := policyOptimization_inv h2
  obtain ⟨v3, h3, -, -⟩ := hopt v2 (by rw [e1]; exact l1) (by rw [e2, p1]; rfl)
  refine ⟨solve, v1, v2, v3, hs, h1, h2, h3, ?_⟩
  refine C64_policy_iteration_partial lineSetup ht heps lineSetup ht hγ0 hγ rfl rfl hr solve hs
    lineActions _ lineVars v1 v2 v3 (by rw [hprod]; rfl) (by rw [hprod]; rfl) (fun s a hsa => ?_) h1 h2 h3
  have ha : a = 0 := by
    have := List.mem_of_getElem? hsa
    simpa [lineVars] using this
  have hs3 : s < 3 := (List.getElem?_eq_some_iff.mp hsa).1
  subst ha
  refine ⟨by simp [lineActions]; left; rfl, fun c hc => ?_⟩
  cases hc
  rw [line_points]
  refine ⟨if s = 2 then 0 else 1, ?_, by split_ifs <;> norm_num⟩
  rw [stayConstraint, List.getElem?_map, List.getElem?_zipIdx, List.getElem?_replicate, if_pos hs3]
  simp

end SafeLearning
