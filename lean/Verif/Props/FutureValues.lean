import Verif.Props.ValueProgram
import Verif.Props.TriangulationExamples
set_option autoImplicit false

/-!
# C84: `future_values` is the one-step backup for the chosen actions
-/

namespace SafeLearning

open Spec PolicyIteration GridWorld

variable {K : Type} [Field K] [LinearOrder K] [IsStrictOrderedRing K] [FloorRing K] {d m : ℕ}

/-- The actions of a call `future_values(states, policy, actions)`: the given actions; without them, those of the given policy;
without it, those of the policy of the object. -/
def _root_.Spec.ActionsOf {X A : Type} (own : X → A → Prop) (policy : Option (X → A → Prop))
    (given : Option (List A)) (states : List X) (used : List A) : Prop :=
  match given, policy with
  | some a, _ => used = a
  | none, some p => List.Forall₂ p states used
  | none, none => List.Forall₂ own states used

/-- `out` lists `reward + gamma * value(next state) - penalty` for the states and actions, in order. -/
def _root_.Spec.Backups {X A : Type} (gamma : K) (reward : X → A → K) (next : X → A → X)
    (value : X → K → Prop) (penalty : X → A → K) (states : List X) (actions : List A) (out : List K) : Prop :=
  actions.length = states.length ∧ out.length = states.length ∧
  ∀ (k : ℕ) x a q, states[k]? = some x → actions[k]? = some a → out[k]? = some q →
    ∃ v, value (next x a) v ∧ q = reward x a + gamma * v - penalty x a

theorem forall₂_of_getElem? {α β : Type} {R : α → β → Prop} : ∀ {l : List α} {r : List β},
    r.length = l.length → (∀ (k : ℕ) (a : α), l[k]? = some a → ∃ b, r[k]? = some b ∧ R a b) →
    List.Forall₂ R l r
  | [], [], _, _ => .nil
  | [], b :: r, h, _ => by simp at h
  | a :: l, [], h, _ => by simp at h
  | a :: l, b :: r, h, H => by
    obtain ⟨b', e, hb⟩ := H 0 a rfl
    simp only [List.getElem?_cons_zero, Option.some.injEq] at e
    subst e
    exact .cons hb (forall₂_of_getElem? (by simpa using h) fun k a hk => H (k + 1) a (by simpa using hk))

theorem mapM_of_forall₂ {α β : Type} {f : α → Except PyErr β} {l : List α} {r : List β}
    (h : List.Forall₂ (fun a b => f a = .ok b) l r) : l.mapM f = .ok r := by
  induction h with
  | nil => rfl
  | cons h1 _ ih =>
    rw [List.mapM_cons, h1, ih]
    rfl

theorem mapM_iff_forall₂ {α β : Type} {f : α → Except PyErr β} {l : List α} {r : List β} :
    l.mapM f = .ok r ↔ List.Forall₂ (fun a b => f a = .ok b) l r :=
  ⟨fun h => forall₂_of_getElem? (mapM_ok_inv h).1 fun k a hk => (mapM_ok_inv h).2 k a hk, mapM_of_forall₂⟩

/-- One backup without a Lyapunov object. -/
theorem futureValue_iff (P : PolicyIteration K d m) (eps : K) (vars : Vars K m) (c : K) (x : Fin d → K)
    (a : Fin m → K) (q : K) :
    P.futureValue eps vars none c x a = .ok q ↔
      ∃ v, P.valueFunction.evaluate eps vars.value (P.dynamics x a).nextMean = .ok v ∧
        q = P.reward x a + P.gamma * v 0 := by
  rw [← C17_tf_agrees]
  constructor
  · intro h
    cases hw : P.valueFunction.tfEvaluate eps vars.value (P.dynamics x a).nextMean with
    | error er =>
      unfold PolicyIteration.futureValue at h
      simp only [hw, bind, Except.bind] at h
      cases h
    | ok w =>
      rw [futureValue_none x a hw] at h
      cases h
      exact ⟨w, rfl, rfl⟩
  · rintro ⟨v, hv, rfl⟩
    exact futureValue_none x a hv c

/-- A call of `future_values` in terms of the actions used. -/
theorem futureValues_iff (P : PolicyIteration K d m) (eps : K) (vars : Vars K m) (states : List (Fin d → K))
    (policy : Option ((Fin d → K) → Except PyErr (Fin m → K))) (given : Option (List (Fin m → K)))
    (lyapunov : Option (LyapunovTerm K d)) (c : K) (out : List K) :
    P.futureValues eps vars states policy given lyapunov c = .ok out ↔
      ∃ used, ActionsOf (fun x a => P.policy vars.policy x = .ok a)
        (policy.map fun p x a => p x = .ok a) given states used ∧ used.length = states.length ∧
        List.Forall₂ (fun sa q => P.futureValue eps vars lyapunov c sa.1 sa.2 = .ok q)
          (states.zip used) out := by
  unfold PolicyIteration.futureValues
  cases given with
  | some a =>
    simp only [bind, Except.bind, ActionsOf]
    by_cases hl : a.length = states.length
    · rw [if_neg (by simpa using hl), mapM_iff_forall₂]
      exact ⟨fun h => ⟨a, rfl, hl, h⟩, by rintro ⟨_, rfl, _, h⟩; exact h⟩
    · rw [if_pos (by simpa using hl)]
      exact ⟨fun h => (by cases h), by rintro ⟨_, rfl, h, _⟩; exact absurd h hl⟩
  | none =>
    have key : ∀ p : (Fin d → K) → Except PyErr (Fin m → K),
        ((states.mapM p >>= fun actions => if actions.length ≠ states.length then .error .valueError else
          (states.zip actions).mapM fun sa => P.futureValue eps vars lyapunov c sa.1 sa.2) = .ok out ↔
        ∃ used, List.Forall₂ (fun x a => p x = .ok a) states used ∧ used.length = states.length ∧
          List.Forall₂ (fun sa q => P.futureValue eps vars lyapunov c sa.1 sa.2 = .ok q)
          (states.zip used) out) := by
      intro p
      cases hm : states.mapM p with
      | error e =>
        simp only [bind, Except.bind]
        refine ⟨fun h => (by cases h), ?_⟩
        rintro ⟨used, h, -, -⟩
        rw [← mapM_iff_forall₂, hm] at h
        cases h
      | ok acts =>
        simp only [bind, Except.bind]
        have hf := mapM_iff_forall₂.mp hm
        rw [if_neg (by simp [hf.length_eq]), mapM_iff_forall₂]
        refine ⟨fun h => ⟨acts, hf, hf.length_eq.symm, h⟩, ?_⟩
        rintro ⟨used, h, -, h2⟩
        rw [← mapM_iff_forall₂, hm] at h
        cases h
        exact h2
    cases policy with
    | none => exact key _
    | some p => exact key _

theorem forall₂_zip_iff {A B C : Type} {R : A × B → C → Prop} {l : List A} {r : List B} {out : List C}
    (hl : r.length = l.length) : List.Forall₂ R (l.zip r) out ↔
      out.length = l.length ∧ ∀ (k : ℕ) x a q, l[k]? = some x → r[k]? = some a → out[k]? = some q →
        R (x, a) q := by
  induction l generalizing r out with
  | nil => cases out <;> simp
  | cons x l ih =>
    cases r with
    | nil => simp at hl
    | cons a r =>
      cases out with
      | nil => simp
      | cons q out =>
        rw [List.zip_cons_cons, List.forall₂_cons, ih (by simpa using hl)]
        simp only [List.length_cons, Nat.add_right_cancel_iff]
        constructor
        · rintro ⟨h1, h2, h3⟩
          refine ⟨h2, fun k y b p hy hb hp => ?_⟩
          cases k with
          | zero =>
            simp only [List.getElem?_cons_zero, Option.some.injEq] at hy hb hp
            subst hy hb hp
            exact h1
          | succ k => exact h3 k y b p (by simpa using hy) (by simpa using hb) (by simpa using hp)
        · rintro ⟨h2, h3⟩
          exact ⟨h3 0 x a q rfl rfl rfl, h2, fun k y b p hy hb hp =>
            h3 (k + 1) y b p (by simpa using hy) (by simpa using hb) (by simpa using hp)⟩

/-- **C84.** `future_values(states, policy, actions)` returns `out` exactly if `out` lists, for every state, the reward plus the
discounted value of the next state under the actions given, or without them those of the policy given, or without it those of the
policy of the object. No assumption on the grid, the triangulation, the policies or the states. -/
theorem C84_future_values (P : PolicyIteration K d m) (eps : K) (vars : Vars K m) (states : List (Fin d → K))
    (policy : Option ((Fin d → K) → Except PyErr (Fin m → K))) (given : Option (List (Fin m → K))) (c : K)
    (out : List K) :
    P.futureValues eps vars states policy given none c = .ok out ↔
      ∃ used, ActionsOf (fun x a => P.policy vars.policy x = .ok a)
          (policy.map fun p x a => p x = .ok a) given states used ∧
        Backups P.gamma P.reward (fun x a => (P.dynamics x a).nextMean)
          (fun x v => P.valueFunction.evaluate eps vars.value x = .ok fun _ => v) (fun _ _ => 0) states used out := by
  rw [futureValues_iff]
  constructor
  · rintro ⟨used, h1, h2, h3⟩
    refine ⟨used, h1, h2, ((forall₂_zip_iff h2).mp h3).1, fun k x a q hx ha hq => ?_⟩
    obtain ⟨v, hv, e⟩ := (futureValue_iff P eps vars c x a q).mp (((forall₂_zip_iff h2).mp h3).2 k x a q hx ha hq)
    refine ⟨v 0, ?_, by rw [e, sub_zero]⟩
    show P.valueFunction.evaluate eps vars.value (P.dynamics x a).nextMean = _
    rw [hv]
    congr 1
    funext i
    rw [Subsingleton.elim i 0]
  · rintro ⟨used, h1, h2, h3, h4⟩
    refine ⟨used, h1, h2, (forall₂_zip_iff h2).mpr ⟨h3, fun k x a q hx ha hq => ?_⟩⟩
    obtain ⟨v, hv, e⟩ := h4 k x a q hx ha hq
    exact (futureValue_iff P eps vars c x a q).mpr ⟨_, hv, by rw [e, sub_zero]⟩

/-- **C84 (Lyapunov object).** With a Lyapunov object and uncertain dynamics, the multiplier times (decrease bound - threshold) is
subtracted for every state of the batch. Missing: deterministic dynamics (`C84_lyapunov_refuted`). -/
theorem C84_future_values_lyapunov_partial (P : PolicyIteration K d m) (eps : K) (vars : Vars K m)
    (states : List (Fin d → K)) (policy : Option ((Fin d → K) → Except PyErr (Fin m → K)))
    (given : Option (List (Fin m → K))) (l : LyapunovTerm K d) (c : K) (out : List K)
    (hu : ∀ x a, ∃ mean error, P.dynamics x a = .uncertain mean error) :
    P.futureValues eps vars states policy given (some l) c = .ok out ↔
      ∃ used, ActionsOf (fun x a => P.policy vars.policy x = .ok a)
          (policy.map fun p x a => p x = .ok a) given states used ∧
        Backups P.gamma P.reward (fun x a => (P.dynamics x a).nextMean)
          (fun x v => P.valueFunction.evaluate eps vars.value x = .ok fun _ => v)
          (fun x a => c * (vDecreaseBound l.V l.lv x (P.dynamics x a) - thresholdAt l.lv l.lf x l.tau))
          states used out := by
  have key : ∀ x a q, P.futureValue eps vars (some l) c x a = .ok q ↔
      ∃ v, P.valueFunction.evaluate eps vars.value (P.dynamics x a).nextMean = .ok v ∧
        q = P.reward x a + P.gamma * v 0 -
          c * (vDecreaseBound l.V l.lv x (P.dynamics x a) - thresholdAt l.lv l.lf x l.tau) := by
    intro x a q
    obtain ⟨mean, error, hdyn⟩ := hu x a
    constructor
    · intro h
      cases hw : P.valueFunction.tfEvaluate eps vars.value (P.dynamics x a).nextMean with
      | error er =>
        unfold PolicyIteration.futureValue at h
        simp only [hw, bind, Except.bind] at h
        cases h
      | ok w =>
        rw [C65_lyapunov_term_partial P eps vars l c x a mean error hdyn _ (futureValue_none x a hw c)] at h
        cases h
        exact ⟨w, by rw [← C17_tf_agrees]; exact hw, rfl⟩
    · rintro ⟨v, hv, rfl⟩
      rw [← C17_tf_agrees] at hv
      exact C65_lyapunov_term_partial P eps vars l c x a mean error hdyn _ (futureValue_none x a hv c)
  rw [futureValues_iff]
  constructor
  · rintro ⟨used, h1, h2, h3⟩
    refine ⟨used, h1, h2, ((forall₂_zip_iff h2).mp h3).1, fun k x a q hx ha hq => ?_⟩
    obtain ⟨v, hv, e⟩ := (key x a q).mp (((forall₂_zip_iff h2).mp h3).2 k x a q hx ha hq)
    refine ⟨v 0, ?_, e⟩
    show P.valueFunction.evaluate eps vars.value (P.dynamics x a).nextMean = _
    rw [hv]
    congr 1
    funext i
    rw [Subsingleton.elim i 0]
  · rintro ⟨used, h1, h2, h3, h4⟩
    refine ⟨used, h1, h2, (forall₂_zip_iff h2).mpr ⟨h3, fun k x a q hx ha hq => ?_⟩⟩
    obtain ⟨v, hv, e⟩ := h4 k x a q hx ha hq
    exact (key x a q).mpr ⟨_, hv, e⟩

/-- **C84 (defined).** With a triangulation as value function the call succeeds for all states whose actions are given or can be
computed, and raises if the numbers of states and actions differ. -/
theorem C84_defined {P : PolicyIteration K d m} {g : GridWorld K d} {D : Delaunay K d} {eps : K} {project : Bool}
    (S : TriSetup g D eps) (ht : Tri.new g D project = .ok P.valueFunction)
    (vars : Vars K m) (hlen : vars.value.length = ∏ i, g.num i) (states : List (Fin d → K))
    (actions : List (Fin m → K)) (policy : Option ((Fin d → K) → Except PyErr (Fin m → K))) (c : K) :
    (∃ out, P.futureValues eps vars states policy (some actions) none c = .ok out) ↔
      actions.length = states.length := by
  have hval : ∀ x, ∃ v, P.valueFunction.evaluate eps vars.value x = .ok v := by
    intro x
    obtain ⟨B, -, h⟩ := C13_parameter_derivative S ht [x]
    obtain ⟨-, values, h2⟩ := h 1 vars.value hlen
    obtain ⟨-, h3⟩ := mapM_ok_inv h2
    obtain ⟨v, -, h4⟩ := h3 0 x rfl
    exact ⟨v, h4⟩
  choose val hval using hval
  constructor
  · rintro ⟨out, h⟩
    obtain ⟨used, h1, h2, -⟩ := (futureValues_iff P eps vars states policy (some actions) none c out).mp h
    simp only [ActionsOf] at h1
    rw [← h1, h2]
  · intro hl
    refine ⟨(states.zip actions).map fun sa => P.reward sa.1 sa.2 +
      P.gamma * val (P.dynamics sa.1 sa.2).nextMean 0, ?_⟩
    rw [futureValues_iff]
    refine ⟨actions, rfl, hl, ?_⟩
    rw [List.forall₂_map_right_iff, List.forall₂_same]
    intro sa _
    exact (futureValue_iff P eps vars c _ _ _).mpr ⟨_, hval _, rfl⟩

/-- **C84 (Lyapunov object), refuted.** With deterministic dynamics and a Lyapunov object every call with at least one state and one action per state raises
`UnboundLocalError`, although the same call without the Lyapunov object succeeds. -/
theorem C84_lyapunov_refuted {P : PolicyIteration K d m} {g : GridWorld K d} {D : Delaunay K d} {eps : K} {project : Bool}
    (S : TriSetup g D eps) (ht : Tri.new g D project = .ok P.valueFunction)
    (vars : Vars K m) (hlen : vars.value.length = ∏ i, g.num i) (states : List (Fin d → K)) (hne : states ≠ [])
    (actions : List (Fin m → K)) (hl : actions.length = states.length)
    (policy : Option ((Fin d → K) → Except PyErr (Fin m → K))) (l : LyapunovTerm K d) (c : K)
    (hd : ∀ x a, ∃ next, P.dynamics x a = .exact next) :
    P.futureValues eps vars states policy (some actions) (some l) c = .error .unboundLocal ∧
      ∃ out, P.futureValues eps vars states policy (some actions) none c = .ok out := by
  refine ⟨?_, (C84_defined S ht vars hlen states actions policy c).mpr hl⟩
  obtain ⟨x, xs, rfl⟩ := List.exists_cons_of_ne_nil hne
  obtain ⟨a, as, rfl⟩ : ∃ a as, actions = a :: as := by
    cases actions with
    | nil => simp at hl
    | cons a as => exact ⟨a, as, rfl⟩
  obtain ⟨next, hn⟩ := hd x a
  obtain ⟨out, ho⟩ := (C84_defined S ht vars hlen [x] [a] policy c).mpr rfl
  obtain ⟨base, hb⟩ : ∃ base, P.futureValue eps vars none c x a = .ok base := by
    obtain ⟨used, h1, -, h3⟩ := (futureValues_iff P eps vars [x] policy (some [a]) none c out).mp ho
    simp only [ActionsOf] at h1
    subst h1
    cases h3 with
    | cons h _ => exact ⟨_, h⟩
  have h0 := (C65_deterministic_refuted P eps vars l c x a next hn base hb).1
  unfold PolicyIteration.futureValues
  simp only [bind, Except.bind, hl, ne_eq, not_true_eq_false, if_false, List.zip_cons_cons, List.mapM_cons, h0]

/-- A system that stays where it is; the reward is the first coordinate plus the action. -/
def restingIteration (t : Tri ℚ 2) : PolicyIteration ℚ 2 1 where
  policy _ _ := .ok 0
  policyGrid := exampleGrid
  dynamics x _ := .exact x
  reward x a := x 0 + a 0
  valueFunction := t
  gamma := 9 / 10

/-- A case of `C84_defined` and the precedence of the arguments: the action given wins over the policy given. -/
example {t : Tri ℚ 2} (ht : Tri.new exampleGrid (delaunay2D exampleGrid.unit) true = .ok t)
    (vars : Vars ℚ 1) (hv : vars.value.length = ∏ i, exampleGrid.num i) :
    ∃ v, (restingIteration t).futureValues (1 / 1000) vars [fun _ => 0] (some fun _ => .ok fun _ => 7)
      (some [fun _ => 3]) = .ok [3 + 9 / 10 * v] := by
  obtain ⟨out, h⟩ := (C84_defined (P := restingIteration t) exampleSetup ht vars hv [fun _ => 0] [fun _ => 3]
    (some fun _ => .ok fun _ => 7) 1).mpr rfl
  obtain ⟨used, h1, -, h2, h3⟩ := (C84_future_values (restingIteration t) (1 / 1000) vars [fun _ => 0]
    (some fun _ => .ok fun _ => 7) (some [fun _ => 3]) 1 out).mp h
  simp only [ActionsOf] at h1
  subst h1
  match out, h2 with
  | [q], _ =>
    obtain ⟨v, -, e⟩ := h3 0 (fun _ => 0) (fun _ => 3) q rfl rfl rfl
    refine ⟨v, ?_⟩
    rw [h, e]
    simp [restingIteration]

/-- A case of `C84_lyapunov_refuted`. -/
example {t : Tri ℚ 2} (ht : Tri.new exampleGrid (delaunay2D exampleGrid.unit) true = .ok t)
    (vars : Vars ℚ 1) (hv : vars.value.length = ∏ i, exampleGrid.num i) :
    (restingIteration t).futureValues (1 / 1000) vars [fun _ => 0] none (some [fun _ => 3])
      (some ⟨fun x => x 0 ^ 2, .const 1, .const 1, 1⟩) 1 = .error .unboundLocal :=
  (C84_lyapunov_refuted (P := restingIteration t) exampleSetup ht vars hv [fun _ => 0] (by simp) [fun _ => 3] rfl none _ 1
    fun x _ => ⟨x, rfl⟩).1

end SafeLearning
