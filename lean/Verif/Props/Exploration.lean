import Verif.Model.Exploration
import Verif.Props.Decrease
import Verif.Props.SafeSample
set_option autoImplicit false

/-!
# C87, C88: `get_safe_sample` in histories, and safety of the samples for the true system
-/

namespace SafeLearning

variable {K : Type} [Field K] [LinearOrder K] [IsStrictOrderedRing K] [FloorRing K] {n m : ℕ} {Prog Θ : Type}
  {β : Type} [LinearOrder β]

/-- The operations of a history that change the `Lyapunov` object. -/
def ExploreOp.lyapOps : List (ExploreOp K Prog Θ m) → List (Lyap.Op K Prog Θ)
  | [] => []
  | .lyap op :: rest => op :: lyapOps rest
  | .sample _ _ :: rest => lyapOps rest

/-- The operation is a call of `get_safe_sample`. -/
def ExploreOp.IsSample : ExploreOp K Prog Θ m → Prop
  | .sample _ _ => True
  | _ => False

/-- The operation does not assign the attributes `policy` and `dynamics`. -/
def ExploreOp.KeepsProg : ExploreOp K Prog Θ m → Prop
  | .lyap (.setProg _) => False
  | _ => True

theorem run_lyap (C : ControlSystem K Prog Θ n m) (g : GridWorld K n) (W : World K Prog Θ g.nindex)
    (key : Pair K n m → β) (ops : List (ExploreOp K Prog Θ m)) (e : Explorer K Prog g.nindex) :
    (e.run C g W key ops).lyap = Lyap.run W e.lyap (ExploreOp.lyapOps ops) := by
  induction ops generalizing e with
  | nil => rfl
  | cons op rest ih =>
    cases op with
    | lyap op => exact ih _
    | sample args θ => exact ih _

theorem step_prog (W : World K Prog Θ n) (s : Lyap K Prog n) (op : Lyap.Op K Prog Θ)
    (h : ∀ p, op ≠ .setProg p) : (Lyap.step W s op).prog = s.prog := by
  cases op with
  | update batch args θ => exact (Lyap.update_fields W batch args s θ).1
  | updateValues θ => rfl
  | setProg p => exact absurd rfl (h p)
  | setTau t => rfl
  | setAdaptive b => rfl

theorem run_stored_none (C : ControlSystem K Prog Θ n m) (g : GridWorld K n) (W : World K Prog Θ g.nindex)
    (key : Pair K n m → β) (ops : List (ExploreOp K Prog Θ m)) (h : ∀ op ∈ ops, ¬ op.IsSample)
    (e : Explorer K Prog g.nindex) : (e.run C g W key ops).stored = e.stored := by
  induction ops generalizing e with
  | nil => rfl
  | cons op rest ih =>
    cases op with
    | lyap op => exact ih (fun op ho => h op (List.mem_cons_of_mem _ ho)) _
    | sample args θ => exact absurd trivial (h _ List.mem_cons_self)

theorem run_stored_keep (C : ControlSystem K Prog Θ n m) (g : GridWorld K n) (W : World K Prog Θ g.nindex)
    (key : Pair K n m → β) (ops : List (ExploreOp K Prog Θ m)) (h : ∀ op ∈ ops, op.KeepsProg)
    (e : Explorer K Prog g.nindex) (he : e.stored = none ∨ e.stored = some e.lyap.prog) :
    let e' := e.run C g W key ops
    e'.lyap.prog = e.lyap.prog ∧ (e'.stored = none ∨ e'.stored = some e'.lyap.prog) := by
  induction ops generalizing e with
  | nil => exact ⟨rfl, he⟩
  | cons op rest ih =>
    have hr : ∀ op ∈ rest, op.KeepsProg := fun op ho => h op (List.mem_cons_of_mem _ ho)
    cases op with
    | lyap op =>
      have hp : (Lyap.step W e.lyap op).prog = e.lyap.prog :=
        step_prog W e.lyap op fun p hp => by
          have := h _ List.mem_cons_self
          rw [hp] at this
          exact this
      have := ih hr { e with lyap := Lyap.step W e.lyap op } (by rw [hp]; exact he)
      exact ⟨this.1.trans hp, this.2⟩
    | sample args θ =>
      refine ih hr { e with stored := some (e.stored.getD e.lyap.prog) } (Or.inr ?_)
      rcases he with he | he <;> rw [he] <;> rfl

/-! ## C87 -/

/-- The claim of C87 for a history `ops` on a new object: a call of `get_safe_sample` after it has the result that belongs to the current policy,
dynamics, safe set, level and variables. -/
def _root_.Spec.SampleIsCurrent (C : ControlSystem K Prog Θ n m) (g : GridWorld K n) (W : World K Prog Θ g.nindex)
    (key : Pair K n m → β) (s : Lyap K Prog g.nindex) (ops : List (ExploreOp K Prog Θ m))
    (args : SampleArgs K m) (θ : Θ) : Prop :=
  let e := Explorer.run C g W key ⟨s, none⟩ ops
  (e.getSafeSample C g key args θ).2 =
    SampleSystem.getSafeSample
      { grid := g
        policy := C.policy e.lyap.prog θ
        dynamics := C.dynamics e.lyap.prog θ
        lv := C.lv θ
        V := C.V θ
        cMax := e.lyap.cMax
        safeSet := fun k => if h : k < g.nindex then e.lyap.safeSet ⟨k, h⟩ else false }
      key args.perturbations args.limits args.positive args.idx args.actions

/-- **C87 (partial).** If policy and dynamics are not assigned after the first `get_safe_sample`, every call uses the current objects, safe set, level and
variables, for all histories of safe set updates, samples and other assignments. Missing: later assignments, see `C87_refuted`. -/
theorem C87_current_partial (C : ControlSystem K Prog Θ n m) (g : GridWorld K n) (W : World K Prog Θ g.nindex)
    (key : Pair K n m → β) (s : Lyap K Prog g.nindex) (before after : List (ExploreOp K Prog Θ m))
    (hb : ∀ op ∈ before, ¬ op.IsSample) (ha : ∀ op ∈ after, op.KeepsProg) (args : SampleArgs K m) (θ : Θ) :
    Spec.SampleIsCurrent C g W key s (before ++ after) args θ := by
  have h0 : Explorer.run C g W key ⟨s, none⟩ (before ++ after) =
      (Explorer.run C g W key ⟨s, none⟩ before).run C g W key after := List.foldl_append ..
  have h1 := run_stored_none C g W key before hb ⟨s, none⟩
  have h2 := (run_stored_keep C g W key after ha _ (Or.inl h1)).2
  rw [← h0] at h2
  unfold Spec.SampleIsCurrent Explorer.getSafeSample
  dsimp only
  rcases h2 with h2 | h2 <;> rw [h2] <;> rfl

/-- **C87 (ignored assignments).** After a call of `get_safe_sample`, the results of later calls do not depend on the attributes `policy` and `dynamics`
at all. -/
theorem C87_assignments_ignored (C : ControlSystem K Prog Θ n m) (g : GridWorld K n) (key : Pair K n m → β)
    (e : Explorer K Prog g.nindex) (args args' : SampleArgs K m) (θ θ' : Θ) (p : Prog) :
    let e' := (e.getSafeSample C g key args θ).1
    ((⟨{ e'.lyap with prog := p }, e'.stored⟩ : Explorer K Prog g.nindex).getSafeSample C g key args' θ').2 =
      (e'.getSafeSample C g key args' θ').2 := rfl

/-! ## C88 -/

/-- The true system: `next` is the true next state for a state and an action. It is compatible with the model if it is in the confidence interval at
each pair. -/
def _root_.Spec.InConfidence (C : ControlSystem K Prog Θ n m) (prog : Prog) (θ : Θ)
    (next : Pair K n m → Fin n → K) (q : Pair K n m) : Prop :=
  ∀ i, |next q i - (C.dynamics prog θ q).1 i| ≤ (C.dynamics prog θ q).2 i

/-- The full claim of C88 for a returned sample: if the sample is taken and the policy is applied from then on, the true state stays in the level set
`{V < c_max}` until it is within `tau` of an initially safe grid state. -/
def _root_.Spec.ReturnsSafely (V : (Fin n → K) → K) (g : GridWorld K n) (initial : Option (Fin g.nindex → Bool))
    (policy : (Fin n → K) → Fin m → K) (next : Pair K n m → Fin n → K) (c tau : K) (q : Pair K n m) : Prop :=
  let f := fun x => next (x, policy x)
  ∃ T, (∀ t ≤ T, V (f^[t] (next q)) < c) ∧
    ∃ j, InInitial initial j ∧ ∑ i, |f^[T] (next q) i - gridState g j i| ≤ tau

section C88

variable (C : ControlSystem K Prog Θ n m) (g : GridWorld K n)
  (argsort : (Fin g.nindex → K) → List (Fin g.nindex)) (tauDiv : K → ℕ → K) (key : Pair K n m → β)

/-- A new object, a history, `update_safe_set` and `get_safe_sample`: the object after the update and the result of the sample. -/
def explore (prog : Prog) (tau : K) (initial : Option (Fin g.nindex → Bool)) (adaptive : Bool) (θ₀ : Θ)
    (history : List (ExploreOp K Prog Θ m)) (batch : ℕ) (args : Lyap.UpdateArgs K) (sargs : SampleArgs K m) (θ : Θ) :
    Lyap K Prog g.nindex × Except PyErr (SampleSystem.Result K n m) :=
  let W := C.system.world g argsort tauDiv
  let e := Explorer.run C g W key ⟨Lyap.new W prog tau initial adaptive θ₀, none⟩
    (history ++ [.lyap (.update batch args θ)])
  (e.lyap, (e.getSafeSample C g key sargs θ).2)

theorem explore_eq (prog : Prog) (tau : K) (initial : Option (Fin g.nindex → Bool)) (adaptive : Bool) (θ₀ : Θ)
    (history : List (ExploreOp K Prog Θ m)) (hh : ∀ op ∈ ExploreOp.lyapOps history, op.IsMethod)
    (batch : ℕ) (args : Lyap.UpdateArgs K) (sargs : SampleArgs K m) (θ : Θ) :
    let W := C.system.world g argsort tauDiv
    let s := Lyap.run W (Lyap.new W prog tau initial adaptive θ₀) (ExploreOp.lyapOps history)
    let r := Lyap.updateSafeSet W batch args s θ
    explore C g argsort tauDiv key prog tau initial adaptive θ₀ history batch args sargs θ =
      (r.1, (C.sampleSystem g r.1 prog θ).getSafeSample key sargs.perturbations sargs.limits sargs.positive
        sargs.idx sargs.actions) := by
  intro W s r
  have hlyap : (Explorer.run C g W key ⟨Lyap.new W prog tau initial adaptive θ₀, none⟩
      (history ++ [.lyap (.update batch args θ)])).lyap = r.1 := by
    have : Explorer.run C g W key ⟨Lyap.new W prog tau initial adaptive θ₀, none⟩
        (history ++ [.lyap (.update batch args θ)]) =
        (Explorer.run C g W key ⟨Lyap.new W prog tau initial adaptive θ₀, none⟩ history).step C g W key
          (.lyap (.update batch args θ)) := by
      unfold Explorer.run
      rw [List.foldl_append]
      rfl
    rw [this]
    unfold Explorer.step
    dsimp only
    rw [run_lyap]
    rfl
  have hkeep : ∀ op ∈ history ++ [.lyap (.update batch args θ)], ExploreOp.KeepsProg op := by
    intro op ho
    rcases List.mem_append.mp ho with ho | ho
    · have : ∀ (l : List (ExploreOp K Prog Θ m)), (∀ op ∈ ExploreOp.lyapOps l, op.IsMethod) →
          ∀ op ∈ l, op.KeepsProg := by
        intro l
        induction l with
        | nil => simp
        | cons a rest ih =>
          intro h op ho
          cases a with
          | lyap o =>
            rcases List.mem_cons.mp ho with rfl | ho
            · have := h o List.mem_cons_self
              cases o <;> simp_all [ExploreOp.KeepsProg, Lyap.Op.IsMethod]
            · exact ih (fun o' ho' => h o' (List.mem_cons_of_mem _ ho')) op ho
          | sample a b =>
            rcases List.mem_cons.mp ho with rfl | ho
            · trivial
            · exact ih h op ho
      exact this history hh op ho
    · rw [List.mem_singleton.mp ho]
      trivial
  obtain ⟨h1, h2⟩ := run_stored_keep C g W key _ hkeep ⟨Lyap.new W prog tau initial adaptive θ₀, none⟩ (Or.inl rfl)
  unfold explore Explorer.getSafeSample
  dsimp only
  rw [hlyap] at h1 h2
  rw [hlyap]
  rcases h2 with h2 | h2 <;> rw [h2] <;> simp only [Option.getD_none, Option.getD_some] <;> rw [h1] <;> rfl

/-- The situations where `c_max` is correct (C23): some grid state is not certified but the one of smallest value is, or all are certified and the grid
fits into one batch. -/
def LevelIsCorrect (prog : Prog) (tau : K) (initial : Option (Fin g.nindex → Bool)) (θ : Θ) (batch : ℕ) : Prop :=
  let good := fun k => InInitial initial k ∨
    vDecreaseBound (C.V θ) (C.lv θ) (gridState g k)
        (.uncertain (C.dynamics prog θ (gridState g k, C.policy prog θ (gridState g k))).1
          (C.dynamics prog θ (gridState g k, C.policy prog θ (gridState g k))).2) <
      thresholdAt (C.lv θ) (C.lf θ) (gridState g k) tau
  ((∃ k : Fin g.nindex, ¬ good k) ∧
    ∀ k : Fin g.nindex, (∀ i : Fin g.nindex, C.V θ (gridState g k) ≤ C.V θ (gridState g i)) → good k) ∨
  ((∀ k : Fin g.nindex, good k) ∧ g.nindex ≤ batch)

/-- What all theorems on C88 assume: Lipschitz constants of the Lyapunov function and the true closed loop, a true closed loop inside the confidence intervals at
the grid states, `tau` at least half the sum of the grid spacings, an injective byte representation, the contract of `argsort`, a history of method
calls and samples, current values, a correct level, and a level set inside the grid. -/
structure ExplorationAssumptions (next : Pair K n m → Fin n → K) (prog : Prog) (Lv Lf tau : K)
    (initial : Option (Fin g.nindex → Bool)) (adaptive : Bool) (θ₀ : Θ) (history : List (ExploreOp K Prog Θ m))
    (batch : ℕ) (args : Lyap.UpdateArgs K) (θ : Θ) : Prop where
  two_le : ∀ i, 2 ≤ g.num i
  lt : ∀ i, g.lo i < g.hi i
  lv_eq : C.lv θ = .const Lv
  lf_eq : C.lf θ = .const Lf
  lv_nonneg : 0 ≤ Lv
  lf_nonneg : 0 ≤ Lf
  V_lipschitz : ∀ y z, |C.V θ y - C.V θ z| ≤ Lv * ∑ i, |y i - z i|
  next_lipschitz : ∀ y z, ∑ i, |next (y, C.policy prog θ y) i - next (z, C.policy prog θ z) i| ≤ Lf * ∑ i, |y i - z i|
  model : ∀ k : Fin g.nindex, Spec.InConfidence C prog θ next (gridState g k, C.policy prog θ (gridState g k))
  tau_le : ∑ i, (g.hi i - g.lo i) / ((g.num i : K) - 1) / 2 ≤ tau
  key_injective : Function.Injective key
  sort : (C.system.world g argsort tauDiv).SortContract
  methods : ∀ op ∈ ExploreOp.lyapOps history, op.IsMethod
  batch_pos : 0 < batch
  can_shrink : args.canShrink = true
  not_adaptive : ¬(adaptive = true ∧ 1 < args.maxRefinement)
  values : ∀ k, (Lyap.run (C.system.world g argsort tauDiv)
    (Lyap.new (C.system.world g argsort tauDiv) prog tau initial adaptive θ₀)
      (ExploreOp.lyapOps history)).values k = C.V θ (gridState g k)
  level : LevelIsCorrect C g prog tau initial θ batch
  inside : ∀ x, C.V θ x < (explore C g argsort tauDiv key prog tau initial adaptive θ₀ history batch args
    ⟨none, none, true, none, []⟩ θ).1.cMax - Lv * tau → ∀ i, g.lo i ≤ x i ∧ x i ≤ g.hi i

variable {C g argsort tauDiv key}
variable {next : Pair K n m → Fin n → K} {prog : Prog} {Lv Lf tau : K} {initial : Option (Fin g.nindex → Bool)}
  {adaptive : Bool} {θ₀ : Θ} {history : List (ExploreOp K Prog Θ m)} {batch : ℕ} {args : Lyap.UpdateArgs K} {θ : Θ}

/-- The assumptions of C27 hold for the true closed loop. -/
theorem ExplorationAssumptions.closed_loop
    (H : ExplorationAssumptions C g argsort tauDiv key next prog Lv Lf tau initial adaptive θ₀ history batch args θ) :
    Assumptions C.system g prog θ (fun x => next (x, C.policy prog θ x)) Lv Lf tau where
  two_le := H.two_le
  lt := H.lt
  lv_eq := H.lv_eq
  lf_eq := H.lf_eq
  lv_nonneg := H.lv_nonneg
  lf_nonneg := H.lf_nonneg
  V_lipschitz := H.V_lipschitz
  f_lipschitz := H.next_lipschitz
  model := H.model
  tau_le := H.tau_le

/-- From every state of the smaller level set the true closed loop returns. -/
theorem returns_from_margin
    (H : ExplorationAssumptions C g argsort tauDiv key next prog Lv Lf tau initial adaptive θ₀ history batch args θ)
    (sargs : SampleArgs K m) (q : Pair K n m)
    (hq : C.V θ (next q) < (explore C g argsort tauDiv key prog tau initial adaptive θ₀ history batch args
      sargs θ).1.cMax - Lv * tau) :
    Spec.ReturnsSafely (C.V θ) g initial (C.policy prog θ) next
      (explore C g argsort tauDiv key prog tau initial adaptive θ₀ history batch args sargs θ).1.cMax tau q := by
  have hin := H.inside
  rw [explore_eq C g argsort tauDiv key prog tau initial adaptive θ₀ history H.methods] at hq hin ⊢
  obtain ⟨ε, -, hε⟩ := C27_c_max_level C.system g argsort tauDiv H.sort prog θ _ Lv Lf tau H.closed_loop initial
    adaptive θ₀ (ExploreOp.lyapOps history) H.methods batch H.batch_pos args H.can_shrink H.not_adaptive
    (by
      have := H.level
      unfold LevelIsCorrect at this
      simp only [H.values]
      exact this) H.values hin
  obtain ⟨T, -, h2, h3⟩ := hε (next q) hq
  have h0 : 0 ≤ Lv * tau := by
    have : 0 ≤ tau := by
      refine le_trans (Finset.sum_nonneg fun i _ => ?_) H.closed_loop.tau_le
      have h1 : (2 : K) ≤ g.num i := by exact_mod_cast H.closed_loop.two_le i
      have h2 := H.closed_loop.lt i
      apply div_nonneg _ zero_le_two
      apply div_nonneg <;> linarith
    exact mul_nonneg H.closed_loop.lv_nonneg this
  exact ⟨T, fun t ht => lt_of_lt_of_le (h2 t ht) (by linarith), h3⟩

theorem lv_entry (A : Assumptions C.system g prog θ (fun x => next (x, C.policy prog θ x)) Lv Lf tau)
    (x : Fin n → K) (i : Fin n) : (C.lv θ).entry x i = Lv := by
  have : C.lv θ = .const Lv := A.lv_eq
  rw [this]
  rfl

/-- The true next value is below the upper bound that the code computes. -/
theorem next_value_le (A : Assumptions C.system g prog θ (fun x => next (x, C.policy prog θ x)) Lv Lf tau)
    (q : Pair K n m) (hq : Spec.InConfidence C prog θ next q) :
    C.V θ (next q) ≤ C.V θ (C.dynamics prog θ q).1 +
      ∑ i, (C.lv θ).entry (C.dynamics prog θ q).1 i * (C.dynamics prog θ q).2 i := by
  have h1 := (abs_le.mp (A.V_lipschitz (next q) (C.dynamics prog θ q).1)).2
  have h2 : Lv * ∑ i, |next q i - (C.dynamics prog θ q).1 i| ≤
      ∑ i, (C.lv θ).entry (C.dynamics prog θ q).1 i * (C.dynamics prog θ q).2 i := by
    rw [Finset.mul_sum]
    refine Finset.sum_le_sum fun i _ => ?_
    rw [lv_entry A]
    exact mul_le_mul_of_nonneg_left (hq i) A.lv_nonneg
  have h3 : C.system.V θ = C.V θ := rfl
  rw [h3] at h1
  linarith

/-- **C88 (next state, partial).** After any history of method calls and samples, `update_safe_set(can_shrink=True)` and `get_safe_sample`: unless the backup policy
is used, the true next state of the returned pair is in the level set `{V < c_max}` if it is in the confidence interval of the model. -/
theorem C88_next_state_partial
    (H : ExplorationAssumptions C g argsort tauDiv key next prog Lv Lf tau initial adaptive θ₀ history batch args θ)
    (sargs : SampleArgs K m) (ps : List (Fin m → K)) (hps : sargs.perturbations = some ps)
    (r : SampleSystem.Result K n m)
    (hr : (explore C g argsort tauDiv key prog tau initial adaptive θ₀ history batch args sargs θ).2 = .ok r)
    (hb : r.backup = false) (hq : Spec.InConfidence C prog θ next r.pair) :
    C.V θ (next r.pair) <
      (explore C g argsort tauDiv key prog tau initial adaptive θ₀ history batch args sargs θ).1.cMax := by
  rw [explore_eq C g argsort tauDiv key prog tau initial adaptive θ₀ history H.methods] at hr ⊢
  dsimp only at hr ⊢
  rw [hps] at hr
  obtain ⟨-, -, h, -⟩ := SampleSystem.C34_safe_sample _ key H.key_injective H.closed_loop.two_le H.closed_loop.lt ps
    sargs.limits sargs.positive sargs.idx sargs.actions r hr hb
  exact lt_of_le_of_lt (next_value_le H.closed_loop r.pair hq) h

/-- **C88 (samples with a margin, partial).** If the upper bound of the next value of the returned pair is not only below `c_max` but below `c_max - L_v tau`, the sample is
safe: when the policy is applied from then on, the true state stays in `{V < c_max}` until it is close to an initially safe state. Missing: samples without the margin
(`C88_refuted`). -/
theorem C88_margin_partial
    (H : ExplorationAssumptions C g argsort tauDiv key next prog Lv Lf tau initial adaptive θ₀ history batch args θ)
    (sargs : SampleArgs K m) (q : Pair K n m) (hq : Spec.InConfidence C prog θ next q)
    (hm : C.V θ (C.dynamics prog θ q).1 +
      ∑ i, (C.lv θ).entry (C.dynamics prog θ q).1 i * (C.dynamics prog θ q).2 i <
        (explore C g argsort tauDiv key prog tau initial adaptive θ₀ history batch args sargs θ).1.cMax - Lv * tau) :
    Spec.ReturnsSafely (C.V θ) g initial (C.policy prog θ) next
      (explore C g argsort tauDiv key prog tau initial adaptive θ₀ history batch args sargs θ).1.cMax tau q :=
  returns_from_margin H sargs q (lt_of_le_of_lt (next_value_le H.closed_loop q hq) hm)

/-- **C88 (backup samples, partial).** Samples of the backup policy are safe if the limits do not change the action of the policy: either the returned state is initially safe, or
the true state stays in `{V < c_max}` until it is close to an initially safe state. -/
theorem C88_backup_partial
    (H : ExplorationAssumptions C g argsort tauDiv key next prog Lv Lf tau initial adaptive θ₀ history batch args θ)
    (sargs : SampleArgs K m) (ps : List (Fin m → K)) (hps : sargs.perturbations = some ps)
    (r : SampleSystem.Result K n m)
    (hr : (explore C g argsort tauDiv key prog tau initial adaptive θ₀ history batch args sargs θ).2 = .ok r)
    (hb : r.backup = true)
    (hlim : Spec.limited sargs.limits (C.policy prog θ r.pair.1) = C.policy prog θ r.pair.1) :
    (∃ j, InInitial initial j ∧ r.pair.1 = gridState g j) ∨
    Spec.ReturnsSafely (C.V θ) g initial (C.policy prog θ) next
      (explore C g argsort tauDiv key prog tau initial adaptive θ₀ history batch args sargs θ).1.cMax tau r.pair := by
  have A := H.closed_loop
  have hret := returns_from_margin H sargs r.pair
  rw [explore_eq C g argsort tauDiv key prog tau initial adaptive θ₀ history H.methods] at hr hret ⊢
  dsimp only at hr hret ⊢
  set W := C.system.world g argsort tauDiv with hWdef
  set s := Lyap.run W (Lyap.new W prog tau initial adaptive θ₀) (ExploreOp.lyapOps history) with hs
  set u := Lyap.updateSafeSet W batch args s θ with hu
  set S := C.sampleSystem g u.1 prog θ with hS
  rw [hps] at hr
  -- the state is safe and the action is the one of the policy
  obtain ⟨hz, hact⟩ : r.pair.1 ∈ S.safeStates ∧ r.pair.2 = C.policy prog θ r.pair.1 := by
    cases hst : S.sampledStates sargs.idx with
    | error e => simp [SampleSystem.getSafeSample, hst, bind, Except.bind] at hr
    | ok states =>
      obtain ⟨cands, hc, -⟩ := S.candidates_some key H.key_injective states ps sargs.actions sargs.limits
      rcases S.getSafeSample_spec key A.two_le A.lt (some ps) sargs.limits sargs.positive sargs.idx sargs.actions
        states hst cands hc with ⟨p, -, -, hrun, -⟩ | ⟨-, hrun⟩
      · rw [hrun] at hr; cases hr; cases hb
      · rw [hrun] at hr
        rcases S.backupSample_spec key H.key_injective states ps sargs.limits with ⟨-, he⟩ | ⟨z, hz, he, -⟩
        · rw [he] at hr; cases hr
        · rw [he] at hr; cases hr
          exact ⟨S.sampledStates_sub hst z hz, hlim⟩
  obtain ⟨k, hk, hsafe, hzk'⟩ := (S.mem_safeStates r.pair.1).mp hz
  have hzk : r.pair.1 = gridState g k := hzk'
  have hk' : k < g.nindex := hk
  have hsafe' : u.1.safeSet ⟨k, hk'⟩ = true := by
    have : S.safeSet k = u.1.safeSet ⟨k, hk'⟩ := dif_pos hk'
    rw [← this]; exact hsafe
  by_cases hini : InInitial initial ⟨k, hk'⟩
  · exact Or.inl ⟨_, hini, hzk⟩
  right
  apply hret
  have hn : 0 < g.nindex := by omega
  have hlevel : ((∃ j, ¬ (InInitial initial j ∨ W.decrease prog θ j < W.threshold θ j tau)) ∧
      (∀ j, (∀ i, s.values j ≤ s.values i) → InInitial initial j ∨ W.decrease prog θ j < W.threshold θ j tau)) ∨
      ((∀ j, InInitial initial j ∨ W.decrease prog θ j < W.threshold θ j tau) ∧ g.nindex ≤ batch) := by
    have := H.level
    unfold LevelIsCorrect at this
    have hv : ∀ j, s.values j = C.V θ (gridState g j) := H.values
    simp only [hv]
    exact this
  obtain ⟨P, hP, htop, -, hPs⟩ := Lyap.C23_c_max_partial W H.sort hn prog tau initial adaptive θ₀
    (ExploreOp.lyapOps history) H.methods batch H.batch_pos args H.can_shrink θ H.not_adaptive hlevel
  have hkP : (⟨k, hk'⟩ : Fin g.nindex) ∈ P := ((hPs _).mp hsafe').resolve_left hini
  have hval : C.V θ (gridState g k) ≤ u.1.cMax := by
    have := htop.2 _ hkP
    rw [H.values] at this
    exact this
  have hdec : W.decrease prog θ ⟨k, hk'⟩ < W.threshold θ ⟨k, hk'⟩ tau :=
    (hP.good_of_mem _ hkP).resolve_left hini
  have hpair : r.pair = (gridState g k, C.policy prog θ (gridState g k)) := by
    have e : gridState g k = r.pair.1 := Eq.symm hzk
    rw [e]
    exact Prod.ext rfl hact
  have hV := C26_v_decrease_bound_constant (C.V θ) Lv A.lv_nonneg A.V_lipschitz (gridState g k) (next r.pair)
    (C.system.closedLoop prog θ (gridState g k)) (by rw [hpair]; exact A.model ⟨k, hk'⟩)
  have hdec' : vDecreaseBound (C.V θ) (C.lv θ) (gridState g k) (C.system.closedLoop prog θ (gridState g k)) <
      thresholdAt (C.lv θ) (C.lf θ) (gridState g k) tau := hdec
  have e1 : C.lv θ = .const Lv := A.lv_eq
  have e2 : C.lf θ = .const Lf := A.lf_eq
  rw [e1, e2] at hdec'
  have e3 : thresholdAt (.const Lv : LipArg K n) (.const Lf) (gridState g k) tau = -Lv * (1 + Lf) * tau := rfl
  rw [e3] at hdec'
  have ht : 0 ≤ tau := by
    refine le_trans (Finset.sum_nonneg fun i _ => ?_) A.tau_le
    have h1 : (2 : K) ≤ g.num i := by exact_mod_cast A.two_le i
    have h2 := A.lt i
    apply div_nonneg _ zero_le_two
    apply div_nonneg <;> linarith
  have h0 : 0 ≤ Lv * Lf * tau := mul_nonneg (mul_nonneg A.lv_nonneg A.lf_nonneg) ht
  show C.V θ (next r.pair) < u.1.cMax - Lv * tau
  nlinarith

end C88

/-! ## Concrete cases and refutations -/

/-- The line from -8 to 8 with 17 states. -/
def longLine : GridWorld ℚ 1 where
  lo := ![-8]
  hi := ![8]
  num := ![17]

/-- The closed loop: the origin is reached in one step from all states above -4.7; states below -5.875 diverge. -/
def escaping (x : ℚ) : ℚ := if x < -47/10 then 5 * (x + 47/10) else 0

/-- A Lyapunov function that is steeper on the left. -/
def tilted (x : ℚ) : ℚ := if x < 0 then -3/2 * x else 89/80 * x

/-- The policy is zero; the effect of actions is uncertain. -/
def escapingSystem : ControlSystem ℚ Unit Unit 1 1 where
  V := fun _ x => tilted (x 0)
  lv := fun _ => .const (3/2)
  lf := fun _ => .const 5
  policy := fun _ _ _ => ![0]
  dynamics := fun _ _ q => (![escaping (q.1 0) + q.2 0], ![9/109 * |q.2 0|])

/-- The true system, inside the confidence intervals. -/
def escapingNext (q : Pair ℚ 1 1) : Fin 1 → ℚ := ![escaping (q.1 0) + 118/109 * q.2 0]

/-- The initial safe set: the states from -3 to 4. -/
def longInitial : Option (Fin longLine.nindex → Bool) := some fun k => decide (5 ≤ k.val ∧ k.val ≤ 12)

/-- Sorting by value. -/
def sortBy {N : ℕ} (v : Fin N → K) : List (Fin N) := (List.finRange N).insertionSort fun i j => v i ≤ v j

theorem sortBy_contract {N : ℕ} (W : World K Prog Θ N) (h : W.argsort = sortBy) : W.SortContract :=
  sortContract_insertionSort W h

def longSort : (Fin longLine.nindex → ℚ) → List (Fin longLine.nindex) := sortBy

/-- The call of `update_safe_set` after a history of an earlier update and a sample, and then `get_safe_sample`. -/
def longExplore (sargs : SampleArgs ℚ 1) : Lyap ℚ Unit longLine.nindex × Except PyErr (SampleSystem.Result ℚ 1 1) :=
  explore escapingSystem longLine longSort (fun t k => t / k) SampleSystem.exampleKey () (1/2) longInitial false ()
    [.lyap (.update 7 ⟨true, 1, 1⟩ ()), .sample ⟨some [![1]], none, true, none, []⟩ ()] 10 ⟨true, 1, 1⟩ sargs ()

theorem long_cMax (sargs : SampleArgs ℚ 1) : (longExplore sargs).1.cMax = 89/10 := by
  have : (longExplore ⟨none, none, true, none, []⟩).1.cMax = 89/10 := by decide +kernel
  exact this

theorem escaping_lipschitz (y z : ℚ) : |escaping y - escaping z| ≤ 5 * |y - z| := by
  unfold escaping
  rw [abs_le]
  have h1 := neg_abs_le (y - z)
  have h2 := le_abs_self (y - z)
  split_ifs <;> constructor <;> linarith

theorem tilted_lipschitz (y z : ℚ) : |tilted y - tilted z| ≤ 3/2 * |y - z| := by
  unfold tilted
  rw [abs_le]
  have h1 := neg_abs_le (y - z)
  have h2 := le_abs_self (y - z)
  split_ifs <;> constructor <;> linarith

theorem escaping_confidence (q : Pair ℚ 1 1) : Spec.InConfidence escapingSystem () () escapingNext q := by
  intro i
  fin_cases i
  simp only [escapingSystem, escapingNext, Fin.zero_eta, Matrix.cons_val_zero]
  have : escaping (q.1 0) + 118/109 * q.2 0 - (escaping (q.1 0) + q.2 0) = 9/109 * q.2 0 := by ring
  rw [this, abs_mul]
  norm_num

instance {N : ℕ} (initial : Option (Fin N → Bool)) (j : Fin N) : Decidable (InInitial initial j) :=
  decidable_of_iff (initial.elim false (fun I => I j) = true) (by
    unfold InInitial
    cases initial <;> simp)

theorem long_level : LevelIsCorrect escapingSystem longLine () (1/2) longInitial () 10 := by
  unfold LevelIsCorrect
  dsimp only
  left
  decide +kernel

theorem long_values : ∀ k, (Lyap.run (escapingSystem.system.world longLine longSort (fun t k => t / k))
    (Lyap.new (escapingSystem.system.world longLine longSort (fun t k => t / k)) () (1/2) longInitial false ())
      [.update 7 ⟨true, 1, 1⟩ ()]).values k = escapingSystem.V () (gridState longLine k) := by
  decide +kernel

theorem long_inside (x : Fin 1 → ℚ) (h1 : tilted (x 0) < 89/10 - 3/2 * (1/2)) (i : Fin 1) :
    longLine.lo i ≤ x i ∧ x i ≤ longLine.hi i := by
  have hi : i = 0 := Subsingleton.elim _ _
  subst hi
  unfold tilted at h1
  simp only [longLine, Matrix.cons_val_zero]
  split_ifs at h1 with h <;> constructor <;> linarith

theorem sortBy_world (C : ControlSystem K Prog Θ n m) (g : GridWorld K n) (tauDiv : K → ℕ → K) :
    (C.system.world g sortBy tauDiv).SortContract := sortBy_contract _ rfl

theorem long_sort : (escapingSystem.system.world longLine longSort (fun t k => t / k)).SortContract := by
  unfold longSort
  exact sortBy_world _ _ _

/-- All assumptions of C88 hold for the example. -/
theorem long_assumptions : ExplorationAssumptions escapingSystem longLine longSort (fun t k => t / k)
    SampleSystem.exampleKey escapingNext () (3/2) 5 (1/2) longInitial false ()
    [.lyap (.update 7 ⟨true, 1, 1⟩ ()), .sample ⟨some [![1]], none, true, none, []⟩ ()] 10 ⟨true, 1, 1⟩ () where
  two_le := by intro i; fin_cases i; simp [longLine]
  lt := by intro i; fin_cases i; simp [longLine]
  lv_eq := rfl
  lf_eq := rfl
  lv_nonneg := by norm_num
  lf_nonneg := by norm_num
  V_lipschitz := by
    intro y z
    rw [Fin.sum_univ_one]
    exact tilted_lipschitz _ _
  next_lipschitz := by
    intro y z
    rw [Fin.sum_univ_one, Fin.sum_univ_one]
    have := escaping_lipschitz (y 0) (z 0)
    simpa [escapingNext, escapingSystem] using this
  model := fun k => escaping_confidence _
  tau_le := by simp [longLine]; norm_num
  key_injective := SampleSystem.exampleKey_injective
  sort := long_sort
  methods := by
    intro op ho
    rcases List.mem_singleton.mp ho with rfl
    trivial
  batch_pos := by norm_num
  can_shrink := rfl
  not_adaptive := by simp
  values := long_values
  level := long_level
  inside := by
    intro x hx i
    refine long_inside x ?_ i
    have := long_cMax ⟨none, none, true, none, []⟩
    unfold longExplore at this
    rw [this] at hx
    exact hx

/-- The history of the example: a safe set update and a sample. -/
def longHistory : List (ExploreOp ℚ Unit Unit 1) :=
  [.lyap (.update 7 ⟨true, 1, 1⟩ ()), .sample ⟨some [![1]], none, true, none, []⟩ ()]

/-- **C88 refuted.** All assumptions hold and the true system is inside the confidence intervals everywhere, but `get_safe_sample` returns, with both values of `positive`, a
pair after which the policy does not bring the true state back: its value leaves the level set in the next step. The level set `{V < c_max}` contains states between
the grid points whose closest grid state is not certified. -/
theorem C88_refuted (positive : Bool) :
    ExplorationAssumptions escapingSystem longLine longSort (fun t k => t / k) SampleSystem.exampleKey escapingNext ()
      (3/2) 5 (1/2) longInitial false () longHistory 10 ⟨true, 1, 1⟩ () ∧
    (∀ q, Spec.InConfidence escapingSystem () () escapingNext q) ∧
    ∃ r, (longExplore ⟨some [![-109/20]], none, positive, none, []⟩).2 = .ok r ∧ r.backup = false ∧
      ¬ Spec.ReturnsSafely (escapingSystem.V ()) longLine longInitial (escapingSystem.policy () ()) escapingNext
        (longExplore ⟨some [![-109/20]], none, positive, none, []⟩).1.cMax (1/2) r.pair := by
  refine ⟨long_assumptions, escaping_confidence, ?_⟩
  obtain ⟨r, hr, h1, h2, h3⟩ : ∃ r, (longExplore ⟨some [![-109/20]], none, positive, none, []⟩).2 = .ok r ∧
      r.backup = false ∧ r.pair.1 0 = -4 ∧ r.pair.2 0 = -109/20 := by
    have : (match (longExplore ⟨some [![-109/20]], none, positive, none, []⟩).2 with
        | .ok r => decide (r.backup = false ∧ r.pair.1 0 = -4 ∧ r.pair.2 0 = -109/20)
        | .error _ => false) = true := by
      cases positive <;> decide +kernel
    split at this
    · rename_i r hr
      exact ⟨r, hr, of_decide_eq_true this⟩
    · cases this
  refine ⟨r, hr, h1, ?_⟩
  rintro ⟨T, hT, j, hj, hd⟩
  have hx : escapingNext r.pair 0 = -59/10 := by
    simp only [escapingNext, Matrix.cons_val_zero, h2, h3]
    unfold escaping
    norm_num
  rcases T with _ | T
  · have hj' : (5 ≤ j.val ∧ j.val ≤ 12) := by
      obtain ⟨I, hI, hj⟩ := hj
      cases hI
      exact of_decide_eq_true hj
    rw [Fin.sum_univ_one] at hd
    simp only [Function.iterate_zero, id_eq] at hd
    rw [hx] at hd
    have hg : -3 ≤ gridState longLine j 0 := by
      have : ∀ j : Fin longLine.nindex, 5 ≤ j.val → -3 ≤ gridState longLine j 0 := by decide +kernel
      exact this j hj'.1
    have := (abs_le.mp hd).1
    linarith
  · have h := hT 1 (by omega)
    rw [long_cMax] at h
    simp only [Function.iterate_one] at h
    have : escapingNext (escapingNext r.pair, ![0]) 0 = -6 := by
      simp only [escapingNext, Matrix.cons_val_zero] at hx ⊢
      rw [hx]
      unfold escaping
      norm_num
    have h' : tilted (escapingNext (escapingNext r.pair, ![0]) 0) < 89/10 := h
    rw [this] at h'
    unfold tilted at h'
    norm_num at h'

/-- The result of the example as a decidable check. -/
def longCheck (sargs : SampleArgs ℚ 1) (backup : Bool) (x u : ℚ) : Bool :=
  match (longExplore sargs).2 with
  | .ok r => decide (r.backup = backup ∧ r.pair.1 0 = x ∧ r.pair.2 0 = u)
  | .error _ => false

theorem longCheck_ok {sargs : SampleArgs ℚ 1} {backup : Bool} {x u : ℚ} (h : longCheck sargs backup x u = true) :
    ∃ r, (longExplore sargs).2 = .ok r ∧ r.backup = backup ∧ r.pair.1 0 = x ∧ r.pair.2 0 = u := by
  unfold longCheck at h
  split at h
  · rename_i r hr
    exact ⟨r, hr, of_decide_eq_true h⟩
  · cases h

/-- C88: a returned sample whose next state is in the level set, and a sample with the margin. -/
example : ∃ r, (longExplore ⟨some [![-1], ![2]], none, true, none, []⟩).2 = .ok r ∧ r.pair.2 0 = 2 ∧
    escapingSystem.V () (escapingNext r.pair) < 89/10 ∧
    Spec.ReturnsSafely (escapingSystem.V ()) longLine longInitial (escapingSystem.policy () ()) escapingNext
      (89/10) (1/2) r.pair := by
  obtain ⟨r, hr, hb, hx, hu⟩ := longCheck_ok (sargs := ⟨some [![-1], ![2]], none, true, none, []⟩) (backup := false)
    (x := -5) (u := 2) (by decide +kernel)
  refine ⟨r, hr, hu, ?_, ?_⟩
  · have := C88_next_state_partial long_assumptions _ _ rfl r hr hb (escaping_confidence _)
    rw [← long_cMax ⟨some [![-1], ![2]], none, true, none, []⟩]
    exact this
  · have h := C88_margin_partial long_assumptions ⟨some [![-1], ![2]], none, true, none, []⟩ r.pair
      (escaping_confidence _) (by
        have hc := long_cMax ⟨some [![-1], ![2]], none, true, none, []⟩
        unfold longExplore at hc
        rw [hc, Fin.sum_univ_one]
        have e1 : (escapingSystem.dynamics () () r.pair).1 0 = 1/2 := by
          simp only [escapingSystem, Matrix.cons_val_zero, hx, hu]; unfold escaping; norm_num
        have e2 : (escapingSystem.dynamics () () r.pair).2 0 = 18/109 := by
          simp only [escapingSystem, Matrix.cons_val_zero, hu]; norm_num
        have e3 : escapingSystem.V () (escapingSystem.dynamics () () r.pair).1 = 89/160 := by
          show tilted ((escapingSystem.dynamics () () r.pair).1 0) = _
          rw [e1]; unfold tilted; norm_num
        rw [e3, e2]
        show (89:ℚ)/160 + 3/2 * (18/109) < _
        norm_num)
    have hc := long_cMax ⟨some [![-1], ![2]], none, true, none, []⟩
    rw [← hc]
    exact h

/-- C88: a sample of the backup policy in a state that is not initially safe. -/
example : ∃ r, (longExplore ⟨some [![100]], none, true, none, []⟩).2 = .ok r ∧ r.backup = true ∧
    ((∃ j, InInitial longInitial j ∧ r.pair.1 = gridState longLine j) ∨
    Spec.ReturnsSafely (escapingSystem.V ()) longLine longInitial (escapingSystem.policy () ()) escapingNext
      (longExplore ⟨some [![100]], none, true, none, []⟩).1.cMax (1/2) r.pair) := by
  obtain ⟨r, hr, hb, hx, hu⟩ := longCheck_ok (sargs := ⟨some [![100]], none, true, none, []⟩) (backup := true)
    (x := -5) (u := 0) (by decide +kernel)
  exact ⟨r, hr, hb, C88_backup_partial long_assumptions ⟨some [![100]], none, true, none, []⟩ _ rfl r hr hb rfl⟩

/-- Two policies. -/
def twoPolicies : ControlSystem ℚ Bool Unit 1 1 where
  V := fun _ x => |x 0|
  lv := fun _ => .const 1
  lf := fun _ => .const 1
  policy := fun p _ _ => if p then ![1/4] else ![0]
  dynamics := fun _ _ q => (![q.1 0 / 2 + q.2 0], ![1/100])

/-- Three states, with the middle one safe. -/
def shortLine : GridWorld ℚ 1 where
  lo := ![-1]
  hi := ![1]
  num := ![3]

def shortLyap : Lyap ℚ Bool shortLine.nindex :=
  Lyap.new (twoPolicies.system.world shortLine sortBy (fun t k => t / k)) false (1/10)
    (some fun k => decide (k.val = 1)) false ()

/-- The action of the sample after a history, or nothing. -/
def shortAction (ops : List (ExploreOp ℚ Bool Unit 1)) : Option ℚ :=
  match ((Explorer.run twoPolicies shortLine (twoPolicies.system.world shortLine sortBy (fun t k => t / k))
      SampleSystem.exampleKey ⟨shortLyap, none⟩ ops).getSafeSample twoPolicies shortLine SampleSystem.exampleKey
        ⟨some [![0]], none, true, none, []⟩ ()).2 with
  | .ok r => some (r.pair.2 0)
  | .error _ => none

/-- **C87 refuted.** A new policy that is assigned after the first `get_safe_sample` has no effect: the actions still are those of the old policy. If the same assignment is made
before the first call, the new policy is used. -/
theorem C87_refuted :
    shortAction [.sample ⟨some [![0]], none, true, none, []⟩ (), .lyap (.setProg true)] = some 0 ∧
    shortAction [.lyap (.setProg true)] = some (1/4) ∧
    ¬ Spec.SampleIsCurrent twoPolicies shortLine (twoPolicies.system.world shortLine sortBy (fun t k => t / k))
      SampleSystem.exampleKey shortLyap [.sample ⟨some [![0]], none, true, none, []⟩ (), .lyap (.setProg true)]
      ⟨some [![0]], none, true, none, []⟩ () := by
  refine ⟨by decide +kernel, by decide +kernel, ?_⟩
  intro h
  have h0 : shortAction [.sample ⟨some [![0]], none, true, none, []⟩ (), .lyap (.setProg true)] = some 0 := by
    decide +kernel
  unfold shortAction at h0
  unfold Spec.SampleIsCurrent at h
  rw [h] at h0
  revert h0
  decide +kernel

/-- C87: with the assignment before the first sample the result is current. -/
example := C87_current_partial twoPolicies shortLine (twoPolicies.system.world shortLine sortBy (fun t k => t / k))
  SampleSystem.exampleKey shortLyap [.lyap (.setProg true)]
  [.sample ⟨some [![0]], none, true, none, []⟩ (), .lyap (.update 2 ⟨true, 1, 1⟩ ())]
  (by simp [ExploreOp.IsSample]) (by simp [ExploreOp.KeepsProg]) ⟨some [![0]], none, true, none, []⟩ ()

end SafeLearning
