import Verif.Model.Interrupts
import Verif.Props.SafeSet
import Verif.Props.Hyperparameters
import Verif.Props.GaussianProcess
import Verif.Lemmas.ExampleWorld
import Mathlib.Tactic.IntervalCases
set_option autoImplicit false

/-!
# C135: interrupted calls
-/

namespace SafeLearning

theorem afterWrites_all {σ : Type} (writes : List (σ → σ)) (k : ℕ) (hk : writes.length ≤ k) (s : σ) :
    afterWrites writes k s = writes.foldl (fun t w => w t) s := by
  unfold afterWrites
  rw [List.take_of_length_le hk]

namespace Lyap

variable {K : Type} [Field K] [LinearOrder K] [IsStrictOrderedRing K] [FloorRing K] {Prog Θ : Type} {n : ℕ}

theorem finishWrites_foldl (W : World K Prog Θ n) (s : Lyap K Prog n) (rows : List (Row n)) (last : Option (ℕ × ℕ × ℕ)) :
    (finishWrites W s rows last).foldl (fun t w => w t) s = (match s.finish W rows last with | .ok t => t | .error _ => s) := by
  unfold finishWrites finish
  cases last with
  | none => rfl
  | some t =>
    obtain ⟨i, b, rb⟩ := t
    simp only []
    cases pyGet? (W.argsort s.values) ((i : ℤ) + b + rb - 1) with
    | none => rfl
    | some top =>
      cases hI : s.initial with
      | none =>
        simp only [initialMem, hI, List.append_nil, List.foldl_cons, List.foldl_nil, Bool.or_false, Bool.false_eq_true, if_false]
        rfl
      | some I =>
        simp only [initialMem, hI, List.cons_append, List.nil_append, List.foldl_cons, List.foldl_nil, Bool.or_false]
        congr 1
        funext j
        rw [Bool.or_comm]

/-- What the assignments of a call are. -/
theorem updateWrites_cases (W : World K Prog Θ n) (batch : ℕ) (args : UpdateArgs K) (s : Lyap K Prog n) (θ : Θ) :
    let store : Lyap K Prog n → Lyap K Prog n := fun t => { t with graph := some (s.graphFor args.safetyFactor) }
    (∃ e, (updateSafeSet W batch args s θ) = (store s, .error e) ∧ updateWrites W batch args s θ = [store]) ∨
    ∃ rows last t, (updateSafeSet W batch args s θ) = (t, .ok ()) ∧ (store s).finish W rows last = .ok t ∧
      updateWrites W batch args s θ = store :: finishWrites W (store s) rows last := by
  intro store
  unfold updateSafeSet updateWrites
  dsimp only
  by_cases h1 : (s.graphFor args.safetyFactor).adaptive ≠ s.adaptive
  · rw [if_pos h1, if_pos h1]
    exact Or.inl ⟨_, rfl, rfl⟩
  rw [if_neg h1, if_neg h1]
  generalize batchLoop W (s.graphFor args.safetyFactor) { s with graph := some (s.graphFor args.safetyFactor) } θ
      args.maxRefinement [] none
        (batchify (startRows W { s with graph := some (s.graphFor args.safetyFactor) } args.canShrink) batch) = b
  obtain e | ⟨rows, last⟩ := b
  · exact Or.inl ⟨e, rfl, rfl⟩
  · dsimp only
    cases hf : finish W { s with graph := some (s.graphFor args.safetyFactor) } rows last with
    | error e =>
      refine Or.inl ⟨e, rfl, ?_⟩
      congr 1
      unfold finish at hf
      unfold finishWrites
      cases last with
      | none => rfl
      | some l =>
        obtain ⟨i, b, rb⟩ := l
        dsimp only at hf ⊢
        cases hg : pyGet? (W.argsort s.values) ((i : ℤ) + b + rb - 1) with
        | none => rfl
        | some top => rw [hg] at hf; cases hf
    | ok t => exact Or.inr ⟨rows, last, t, rfl, hf, rfl⟩

/-- **C135 (complete calls).** A call that is stopped after the last assignment, or not at all, is a complete call. -/
theorem C135_complete (W : World K Prog Θ n) (batch : ℕ) (args : UpdateArgs K) (s : Lyap K Prog n) (θ : Θ) (k : ℕ)
    (hk : (updateWrites W batch args s θ).length ≤ k) :
    interruptedUpdate W batch args s θ k = (updateSafeSet W batch args s θ).1 := by
  unfold interruptedUpdate
  rw [afterWrites_all _ k hk]
  rcases updateWrites_cases W batch args s θ with ⟨e, h1, h2⟩ | ⟨rows, last, t, h1, h2, h3⟩
  · rw [h1, h2]; rfl
  · rw [h1, h3, List.foldl_cons, finishWrites_foldl, h2]

/-- The stages of a call that would return. -/
theorem stopped_stages (W : World K Prog Θ n) (batch : ℕ) (args : UpdateArgs K) (s t : Lyap K Prog n) (θ : Θ)
    (h : updateSafeSet W batch args s θ = (t, .ok ())) :
    let r := interruptedUpdate W batch args s θ
    (∀ k ≤ 2, (r k).safeSet = s.safeSet) ∧ (∀ k ≤ 1, (r k).cMax = s.cMax) ∧ (∀ k, 2 ≤ k → (r k).cMax = t.cMax) ∧
    (∀ j, (r 3).safeSet j = false) ∧
    (∀ k, 4 ≤ k → ∀ j, ((r k).safeSet j = true → t.safeSet j = true) ∧
      (t.safeSet j = true → (r k).safeSet j = true ∨ s.initialMem j = true)) ∧
    ∀ k, 7 ≤ k → r k = t := by
  intro r
  have hall : ∀ k, 7 ≤ k → r k = t := by
    intro k hk
    have := C135_complete W batch args s θ k (by
      rcases updateWrites_cases W batch args s θ with ⟨e, h1, h2⟩ | ⟨rows, last, t, h1, h2, h3⟩
      · rw [h2]; simp; omega
      · rw [h3]
        unfold finishWrites
        cases last with
        | none => simp; omega
        | some l =>
          dsimp only
          split
          · simp; omega
          · cases s.initial with
            | none => simp; omega
            | some I => simp; omega)
    rw [h] at this
    exact this
  suffices hs : (∀ k ≤ 2, (r k).safeSet = s.safeSet) ∧ (∀ k ≤ 1, (r k).cMax = s.cMax) ∧
      (∀ k, 2 ≤ k → k < 7 → (r k).cMax = t.cMax) ∧ (∀ j, (r 3).safeSet j = false) ∧
      (∀ k, 4 ≤ k → k < 7 → ∀ j, ((r k).safeSet j = true → t.safeSet j = true) ∧
        (t.safeSet j = true → (r k).safeSet j = true ∨ s.initialMem j = true)) by
    obtain ⟨h1, h2, h3, h4, h5⟩ := hs
    refine ⟨h1, h2, fun k hk => ?_, h4, fun k hk j => ?_, hall⟩
    · by_cases hk7 : 7 ≤ k
      · rw [hall k hk7]
      · exact h3 k hk (by omega)
    · by_cases hk7 : 7 ≤ k
      · rw [hall k hk7]
        exact ⟨id, Or.inl⟩
      · exact h5 k hk (by omega) j
  rcases updateWrites_cases W batch args s θ with ⟨e, h1, h2⟩ | ⟨rows, last, t', h1, h2, h3⟩
  · rw [h1] at h; cases h
  rw [h1] at h
  obtain rfl : t' = t := congrArg Prod.fst h
  have hr : ∀ k, r k = afterWrites (updateWrites W batch args s θ) k s := fun _ => rfl
  rw [h3] at hr
  unfold finish at h2
  unfold finishWrites at hr
  cases last with
  | none => cases h2
  | some l =>
    obtain ⟨i, b, rb⟩ := l
    dsimp only at h2 hr
    cases hg : pyGet? (W.argsort s.values) ((i : ℤ) + b + rb - 1) with
    | none => rw [hg] at h2; cases h2
    | some top =>
      rw [hg] at h2
      simp only [hg] at hr
      simp only [Except.ok.injEq] at h2
      subst h2
      clear hall h3 h1 h
      clear_value r
      rcases Option.eq_none_or_eq_some s.initial with hI | ⟨I, hI⟩
      · simp only [hI, List.append_nil] at hr
        refine ⟨fun k hk => ?_, fun k hk => ?_, fun k hk hk' => ?_, ?_, fun k hk hk' j => ?_⟩
        · interval_cases k <;> rw [hr] <;> rfl
        · interval_cases k <;> rw [hr] <;> rfl
        · interval_cases k <;> rw [hr] <;> rfl
        · intro j; rw [hr]; rfl
        · interval_cases k <;> rw [hr] <;> simp [afterWrites, initialMem, hI]
      · simp only [hI] at hr
        refine ⟨fun k hk => ?_, fun k hk => ?_, fun k hk hk' => ?_, ?_, fun k hk hk' j => ?_⟩
        · interval_cases k <;> rw [hr] <;> rfl
        · interval_cases k <;> rw [hr] <;> rfl
        · interval_cases k <;> rw [hr] <;> rfl
        · intro j; rw [hr]; rfl
        · cases hIj : I j <;> interval_cases k <;> rw [hr] <;> simp [afterWrites, initialMem, hI, hIj]

/-! ## Histories with stopped calls -/

/-- A call, stopped or not, or `update_values`, with positive batch sizes; no attribute is assigned. -/
def Event.Valid : Event K Prog Θ → Prop
  | .op (.update batch _ _) => 0 < batch
  | .op (.updateValues _) => True
  | .op _ => False
  | .stopped batch _ _ _ => 0 < batch

/-- The event is a call of `update_safe_set`, stopped or not, at which the statistical models are `θ`. -/
def Event.Calls (θ : Θ) : Event K Prog Θ → Prop
  | .op (.update _ _ θ') => θ' = θ
  | .stopped _ _ θ' _ => θ' = θ
  | _ => False

/-- The events that are not stopped calls. -/
def Event.op? : Event K Prog Θ → Option (Op K Prog Θ)
  | .op o => some o
  | .stopped _ _ _ _ => none

theorem foldl_field {α σ : Type} (f : σ → α) (ws : List (σ → σ)) (h : ∀ w ∈ ws, ∀ t, f (w t) = f t) (k : ℕ) (s : σ) :
    f (afterWrites ws k s) = f s := by
  unfold afterWrites
  have : ∀ (l : List (σ → σ)), (∀ w ∈ l, ∀ t, f (w t) = f t) → ∀ s, f (l.foldl (fun t w => w t) s) = f s := by
    intro l
    induction l with
    | nil => intro _ s; rfl
    | cons w l ih =>
      intro h s
      rw [List.foldl_cons, ih (fun w' hw' => h w' (List.mem_cons_of_mem _ hw')), h w List.mem_cons_self]
  exact this _ (fun w hw => h w (List.mem_of_mem_take hw)) s

theorem stopped_fields (W : World K Prog Θ n) (batch : ℕ) (args : UpdateArgs K) (s : Lyap K Prog n) (θ : Θ) (k : ℕ) :
    let t := interruptedUpdate W batch args s θ k
    t.prog = s.prog ∧ t.tau = s.tau ∧ t.adaptive = s.adaptive ∧ t.initial = s.initial ∧ t.values = s.values ∧
      (t.graph = s.graph ∨ t.graph = some (s.graphFor args.safetyFactor)) := by
  intro t
  have hw : ∀ w ∈ updateWrites W batch args s θ, ∀ u : Lyap K Prog n,
      (w u).prog = u.prog ∧ (w u).tau = u.tau ∧ (w u).adaptive = u.adaptive ∧ (w u).initial = u.initial ∧
        (w u).values = u.values ∧ (u.graph = some (s.graphFor args.safetyFactor) → (w u).graph = some (s.graphFor args.safetyFactor)) := by
    have hf : ∀ rows last, ∀ w ∈ finishWrites W { s with graph := some (s.graphFor args.safetyFactor) } rows last, ∀ u : Lyap K Prog n,
        (w u).prog = u.prog ∧ (w u).tau = u.tau ∧ (w u).adaptive = u.adaptive ∧ (w u).initial = u.initial ∧
          (w u).values = u.values ∧ (w u).graph = u.graph := by
      intro rows last w hw u
      unfold finishWrites at hw
      split at hw
      · simp at hw
      · dsimp only at hw
        split at hw
        · simp at hw
        · split at hw
          · simp only [List.append_nil, List.mem_cons, List.not_mem_nil, or_false] at hw
            rcases hw with rfl | rfl | rfl | rfl <;> exact ⟨rfl, rfl, rfl, rfl, rfl, rfl⟩
          · simp only [List.cons_append, List.nil_append, List.mem_cons, List.not_mem_nil, or_false] at hw
            rcases hw with rfl | rfl | rfl | rfl | rfl | rfl <;> exact ⟨rfl, rfl, rfl, rfl, rfl, rfl⟩
    intro w hw u
    rcases updateWrites_cases W batch args s θ with ⟨e, h1, h2⟩ | ⟨rows, last, t', h1, h2, h3⟩
    · rw [h2, List.mem_singleton] at hw
      subst hw
      exact ⟨rfl, rfl, rfl, rfl, rfl, fun _ => rfl⟩
    · rw [h3] at hw
      rcases List.mem_cons.mp hw with rfl | hw
      · exact ⟨rfl, rfl, rfl, rfl, rfl, fun _ => rfl⟩
      · obtain ⟨a, b, c, d, e, f⟩ := hf rows last w hw u
        exact ⟨a, b, c, d, e, fun h => f.trans h⟩
  refine ⟨foldl_field (·.prog) _ (fun w h u => (hw w h u).1) k s, foldl_field (·.tau) _ (fun w h u => (hw w h u).2.1) k s,
    foldl_field (·.adaptive) _ (fun w h u => (hw w h u).2.2.1) k s, foldl_field (·.initial) _ (fun w h u => (hw w h u).2.2.2.1) k s,
    foldl_field (·.values) _ (fun w h u => (hw w h u).2.2.2.2.1) k s, ?_⟩
  cases k with
  | zero => exact Or.inl rfl
  | succ k =>
    right
    have hcons : ∃ rest, updateWrites W batch args s θ = (fun t => { t with graph := some (s.graphFor args.safetyFactor) }) :: rest :=
      ⟨_, rfl⟩
    obtain ⟨rest, hrest⟩ := hcons
    have hr : t = afterWrites rest k { s with graph := some (s.graphFor args.safetyFactor) } := by
      change afterWrites _ _ _ = _
      rw [hrest]; rfl
    rw [hr]
    rw [hrest] at hw
    have : ∀ (l : List (Lyap K Prog n → Lyap K Prog n)) (u : Lyap K Prog n), (∀ w ∈ l, w ∈ rest) →
        u.graph = some (s.graphFor args.safetyFactor) → (l.foldl (fun t w => w t) u).graph = some (s.graphFor args.safetyFactor) := by
      intro l
      induction l with
      | nil => intro u _ hu; exact hu
      | cons w l ih =>
        intro u hl hu
        exact ih _ (fun w' hw' => hl w' (List.mem_cons_of_mem _ hw'))
          ((hw w (List.mem_cons_of_mem _ (hl w List.mem_cons_self)) u).2.2.2.2.2 hu)
    exact this _ _ (fun w hw' => List.mem_of_mem_take hw') rfl

theorem consistent_event (W : World K Prog Θ n) (s : Lyap K Prog n) (e : Event K Prog Θ) (he : e.Valid) {prog : Prog} {tau : K}
    {initial : Option (Fin n → Bool)} {adaptive : Bool} (h : s.Consistent prog tau initial adaptive) :
    (event W s e).Consistent prog tau initial adaptive := by
  cases e with
  | op o => exact consistent_step W s o (by cases o <;> trivial) h
  | stopped batch args θ k =>
    obtain ⟨h1, h2, h3, h4, -, h6⟩ := stopped_fields W batch args s θ k
    refine ⟨h1.trans h.hprog, h2.trans h.htau, h4.trans h.hinitial, h3.trans h.hadaptive, fun G hG => ?_⟩
    change (interruptedUpdate W batch args s θ k).graph = some G at hG
    rcases h6 with h6 | h6
    · exact h.hgraph G (h6 ▸ hG)
    · rw [h6] at hG
      cases hG
      exact h.graphFor args.safetyFactor

theorem consistent_events (W : World K Prog Θ n) (s : Lyap K Prog n) (es : List (Event K Prog Θ)) (hes : ∀ e ∈ es, e.Valid)
    {prog : Prog} {tau : K} {initial : Option (Fin n → Bool)} {adaptive : Bool} (h : s.Consistent prog tau initial adaptive) :
    (runEvents W s es).Consistent prog tau initial adaptive := by
  induction es generalizing s with
  | nil => exact h
  | cons e es ih =>
    exact ih (event W s e) (fun o ho => hes o (List.mem_cons_of_mem _ ho)) (consistent_event W s e (hes e List.mem_cons_self) h)

/-- **C135 (one call).** Wherever a call of `update_safe_set` is stopped, a state is safe only if it was safe before the call or is safe after the complete call. Also with adaptive
refinement and after assignments to attributes. -/
theorem C135_old_or_new (W : World K Prog Θ n) (batch : ℕ) (args : UpdateArgs K) (s : Lyap K Prog n) (θ : Θ) (k : ℕ) (j : Fin n)
    (hj : (interruptedUpdate W batch args s θ k).safeSet j = true) :
    s.safeSet j = true ∨ (updateSafeSet W batch args s θ).1.safeSet j = true := by
  rcases updateWrites_cases W batch args s θ with ⟨e, h1, h2⟩ | ⟨rows, last, t, h1, -⟩
  · left
    have : (interruptedUpdate W batch args s θ k).safeSet = s.safeSet :=
      foldl_field (·.safeSet) _ (fun w hw u => by
        rw [h2, List.mem_singleton] at hw
        subst hw; rfl) k s
    rwa [this] at hj
  · obtain ⟨g1, -, -, g3, g4, -⟩ := stopped_stages W batch args s t θ h1
    rw [h1]
    rcases Nat.lt_or_ge k 3 with hk | hk
    · left; rwa [g1 k (by omega)] at hj
    · rcases Nat.eq_or_lt_of_le hk with rfl | hk
      · rw [g3] at hj; cases hj
      · exact Or.inr ((g4 k (by omega) j).1 hj)

/-- **C135 (safety).** After any history of calls, any of which are stopped anywhere, a safe state is in the initial safe set or satisfied the decrease condition for the
statistical models of one of the calls (no adaptive refinement). -/
theorem C135_sound (W : World K Prog Θ n) (hW : W.SortContract) (hn : 0 < n) (prog : Prog) (tau : K) (initial : Option (Fin n → Bool))
    (θ₀ : Θ) (events : List (Event K Prog Θ)) (he : ∀ e ∈ events, e.Valid) (j : Fin n)
    (hj : (runEvents W (new W prog tau initial false θ₀) events).safeSet j = true) :
    InInitial initial j ∨ ∃ θ, (∃ e ∈ events, e.Calls θ) ∧ W.decrease prog θ j < W.threshold θ j tau := by
  have call : ∀ (s : Lyap K Prog n), s.Consistent prog tau initial false → ∀ batch, 0 < batch → ∀ args θ,
      (updateSafeSet W batch args s θ).1.safeSet j = true →
      InInitial initial j ∨ W.decrease prog θ j < W.threshold θ j tau ∨ s.safeSet j = true := by
    intro s hcon batch hb args θ hj
    obtain ⟨s', e, hcall, -, -, -, -, -, -, -, -, hsafe, -⟩ :=
      updateSafeSet_nonadaptive W hW hn batch hb args s θ (hcon.call (args := args) (by simp)).1 (hcon.call (args := args) (by simp)).2
    rw [hcall] at hj
    have hflag : s.startFlag args.canShrink j = true → InInitial initial j ∨ s.safeSet j = true := by
      unfold startFlag
      cases args.canShrink with
      | true => simp only [if_true]; intro h; rw [initialMem_iff, hcon.hinitial] at h; exact Or.inl h
      | false => simp only [Bool.false_eq_true, if_false]; exact Or.inr
    rcases (hsafe j).mp hj with h | h | ⟨-, h⟩
    · left; rw [initialMem_iff, hcon.hinitial] at h; exact h
    · have := List.mem_takeWhile_imp h
      rw [good_iff W s hcon] at this
      rcases this with h | h
      · exact (hflag h).imp_right Or.inr
      · exact Or.inr (Or.inl h)
    · exact (hflag h).imp_right Or.inr
  induction events using List.reverseRecOn with
  | nil =>
    left
    change (new W prog tau initial false θ₀).initialMem j = true at hj
    rwa [initialMem_iff] at hj
  | append_singleton es e ih =>
    have ih' := fun h => (ih (fun e' he' => he e' (List.mem_append_left _ he')) h).imp_right
      fun ⟨θ, ⟨e', h1, h2⟩, h3⟩ => (⟨θ, ⟨e', List.mem_append_left [e] h1, h2⟩, h3⟩ :
        ∃ θ, (∃ e' ∈ es ++ [e], e'.Calls θ) ∧ W.decrease prog θ j < W.threshold θ j tau)
    have hcon := consistent_events W _ es (fun e' he' => he e' (List.mem_append_left _ he'))
      (consistent_new W prog tau initial false θ₀)
    have hev := he e (by simp)
    have key : ∀ batch, 0 < batch → ∀ args θ, e.Calls θ →
        (updateSafeSet W batch args (runEvents W (new W prog tau initial false θ₀) es) θ).1.safeSet j = true →
        InInitial initial j ∨ ∃ θ, (∃ e' ∈ es ++ [e], e'.Calls θ) ∧ W.decrease prog θ j < W.threshold θ j tau := by
      intro batch hb args θ hc h
      rcases call _ hcon batch hb args θ h with h | h | h
      · exact Or.inl h
      · exact Or.inr ⟨θ, ⟨e, by simp, hc⟩, h⟩
      · exact ih' h
    unfold runEvents at hj
    rw [List.foldl_append] at hj
    cases e with
    | op o =>
      cases o with
      | update batch args θ => exact key batch hev args θ rfl hj
      | updateValues θ => exact ih' hj
      | setProg p => exact hev.elim
      | setTau p => exact hev.elim
      | setAdaptive p => exact hev.elim
    | stopped batch args θ k =>
      rcases C135_old_or_new W batch args _ θ k j hj with h | h
      · exact ih' h
      · exact key batch hev args θ rfl h

/-- **C135 (recovery).** Without adaptive refinement the next complete call with `can_shrink=True` gives the safe set, the refinement and `c_max` that it gives if the stopped calls
had not been made. -/
theorem C135_recovery (W : World K Prog Θ n) (hW : W.SortContract) (hn : 0 < n) (prog : Prog) (tau : K) (initial : Option (Fin n → Bool))
    (θ₀ : Θ) (events : List (Event K Prog Θ)) (he : ∀ e ∈ events, e.Valid) (batch : ℕ) (hb : 0 < batch) (args : UpdateArgs K)
    (hc : args.canShrink = true) (θ : Θ) :
    let r := updateSafeSet W batch args (runEvents W (new W prog tau initial false θ₀) events) θ
    let r' := updateSafeSet W batch args (run W (new W prog tau initial false θ₀) (events.filterMap Event.op?)) θ
    r.2 = .ok () ∧ r.1.safeSet = r'.1.safeSet ∧ r.1.refinement = r'.1.refinement ∧ r.1.cMax = r'.1.cMax := by
  intro r r'
  have hcon := consistent_events W _ events he (consistent_new W prog tau initial false θ₀)
  have hcon' := consistent_run W _ (events.filterMap Event.op?) (fun o ho => by
    obtain ⟨e, h1, h2⟩ := List.mem_filterMap.mp ho
    have := he e h1
    cases e with
    | op o' =>
      cases h2
      cases o <;> trivial
    | stopped _ _ _ _ => cases h2) (consistent_new W prog tau initial false θ₀)
  refine ⟨?_, call_congr W hW hn _ _ hcon hcon' batch hb args hc θ (by simp) ?_⟩
  · obtain ⟨s', e, hcall, -⟩ := updateSafeSet_nonadaptive W hW hn batch hb args
      (runEvents W (new W prog tau initial false θ₀) events) θ (hcon.call (args := args) (by simp)).1 (hcon.call (args := args) (by simp)).2
    exact congrArg Prod.snd hcall
  · have : ∀ s s' : Lyap K Prog n, s.values = s'.values →
        (runEvents W s events).values = (run W s' (events.filterMap Event.op?)).values := by
      clear hcon hcon' r r'
      induction events with
      | nil => intro s s' h; exact h
      | cons e es ih =>
        intro s s' h
        have hv := he e List.mem_cons_self
        have ih' := ih (fun e' he' => he e' (List.mem_cons_of_mem _ he'))
        cases e with
        | op o =>
          refine ih' _ _ ?_
          cases o with
          | update b a θ =>
            exact (update_fields W b a s θ).2.2.2.2.1.trans (h.trans (update_fields W b a s' θ).2.2.2.2.1.symm)
          | updateValues θ => rfl
          | setProg p => exact hv.elim
          | setTau p => exact hv.elim
          | setAdaptive p => exact hv.elim
        | stopped b a θ k => exact ih' _ _ ((stopped_fields W b a s θ k).2.2.2.2.1.trans h)
    exact this _ _ rfl

/-- Two states; both decrease for the models `true`, none for `false`. -/
def stoppedWorld : World ℚ Unit Bool 2 := tableWorld (fun _ θ _ => if θ then -2 else 1) (fun _ _ t => -t) fun _ j => j.val

example := C135_sound stoppedWorld (tableWorld_sort _ _ _) (by decide) () 1 (some ![true, false]) true
  [.op (.update 1 ⟨true, 1, 1⟩ true), .stopped 2 ⟨false, 1, 1⟩ false 2, .op (.updateValues false), .stopped 2 ⟨true, 1, 1⟩ false 1]
  (by simp [Event.Valid]) 1 (by decide +kernel)

example := C135_recovery stoppedWorld (tableWorld_sort _ _ _) (by decide) () 1 (some ![true, false]) true
  [.op (.update 1 ⟨true, 1, 1⟩ true), .stopped 2 ⟨false, 1, 1⟩ false 3, .op (.updateValues false), .stopped 2 ⟨true, 1, 1⟩ false 4]
  (by simp [Event.Valid]) 2 (by decide) ⟨true, 1, 1⟩ rfl true

example : (interruptedUpdate stoppedWorld 2 ⟨true, 1, 1⟩ (new stoppedWorld () 1 (some ![true, false]) false true) true 4).safeSet 1 = true := by
  decide +kernel

/-- **C135, refuted for the initial safe set.** Every call that returns has a point at which no state is safe: a call that is stopped there leaves the object without any safe state, and a user who catches the
interrupt has lost the initial safe set as well. -/
theorem C135_initial_refuted (W : World K Prog Θ n) (batch : ℕ) (args : UpdateArgs K) (s : Lyap K Prog n) (θ : Θ)
    (h : (updateSafeSet W batch args s θ).2 = .ok ()) :
    ∃ k, ∀ j, (interruptedUpdate W batch args s θ k).safeSet j = false :=
  ⟨3, (stopped_stages W batch args s _ θ (Prod.ext rfl h)).2.2.2.1⟩

example := C135_initial_refuted stoppedWorld 2 ⟨true, 1, 1⟩ (new stoppedWorld () 1 (some ![true, false]) false true) true (by decide +kernel)

/-- **C135, refuted for `c_max`.** A call that is stopped two assignments before that has the new `c_max` and the old safe set: here `c_max` is 0, the value of the first state, and the second state with the value 1 is still safe. -/
theorem C135_c_max_refuted :
    let s := run stoppedWorld (new stoppedWorld () 1 (some ![true, false]) false true) [.update 2 ⟨true, 1, 1⟩ true]
    let t := interruptedUpdate stoppedWorld 2 ⟨true, 1, 1⟩ s false 2
    t.cMax = 0 ∧ t.values 1 = 1 ∧ t.safeSet 1 = true := by
  decide +kernel

/-- **C135, refuted for `can_shrink=False`.** Both states are safe. If a call is stopped, the following complete call with `can_shrink=False` does not bring back the second state; without the stopped call it stays safe. -/
theorem C135_keep_refuted :
    let s := run stoppedWorld (new stoppedWorld () 1 (some ![true, false]) false true) [.update 2 ⟨true, 1, 1⟩ true]
    let t := interruptedUpdate stoppedWorld 2 ⟨false, 1, 1⟩ s false 3
    s.safeSet 1 = true ∧ (updateSafeSet stoppedWorld 2 ⟨false, 1, 1⟩ s false).1.safeSet 1 = true ∧
      (updateSafeSet stoppedWorld 2 ⟨false, 1, 1⟩ t false).1.safeSet 1 = false := by
  decide +kernel

/-- Three states with the thresholds `-tau`. The first is initially safe, the second decreases by `1/2`, the third increases. -/
def stoppedRefinedWorld : World ℚ Unit Unit 3 :=
  tableWorld (fun _ _ j => ![-2, -1 / 2, 1 / 10] j) (fun _ _ t => -t) fun _ j => j.val

/-- **C135, refuted with adaptive refinement.** A call with the safety factor 1 that is stopped during its first evaluation fixes the safety factor: the next call with the factor `11/10` does not certify the second state, which
it certifies if the stopped call was not made. -/
theorem C135_adaptive_refuted :
    let s := new stoppedRefinedWorld () 1 (some ![true, false, false]) true ()
    let t := interruptedUpdate stoppedRefinedWorld 10 ⟨true, 10, 1⟩ s () 1
    (updateSafeSet stoppedRefinedWorld 10 ⟨true, 10, 11 / 10⟩ s ()).1.safeSet 1 = true ∧
      (updateSafeSet stoppedRefinedWorld 10 ⟨true, 10, 11 / 10⟩ t ()).1.safeSet 1 = false := by
  decide +kernel

end Lyap

/-! ## Gaussian processes -/

section
variable {o : ℕ}

theorem vstack_inv {w : ℕ} {a b c : List (List ℝ)} (h : vstack w a b = .ok c) : (∀ r ∈ b, r.length = w) ∧ c = a ++ b := by
  unfold vstack at h
  split_ifs at h with h1
  cases h
  exact ⟨h1, rfl⟩

theorem evaluateObject_object (gp : GPModel o) (beta : ℝ) (s : GPState o) (pts : List (List ℝ)) :
    gp.evaluateObject beta s.object pts = gp.evaluate beta s pts := by
  unfold GPModel.evaluateObject
  rw [dif_pos (show s.object.feed.alpha.1 = s.object.feed.chol.1 from rfl)]
  rfl

theorem evaluateObject_feed (gp : GPModel o) (beta : ℝ) (s t : GPObject o) (pts : List (List ℝ)) (h : s.feed = t.feed) :
    gp.evaluateObject beta s pts = gp.evaluateObject beta t pts := by
  unfold GPModel.evaluateObject
  rw [h]

theorem feedHolder_data (s : GPObject o) (h : Holder) : (s.feedHolder h).data = s.data := by cases h <;> rfl

theorem feedHolders_data (order : List Holder) (s : GPObject o) :
    ((order.map fun h (t : GPObject o) => t.feedHolder h).foldl (fun t w => w t) s).data = s.data := by
  induction order generalizing s with
  | nil => rfl
  | cons h order ih =>
    rw [List.map_cons, List.foldl_cons, ih, feedHolder_data]

/-- Each entry of the feed dictionary is the new value if it was fed, and the old one otherwise. -/
theorem feedHolders_feed (order : List Holder) (s : GPObject o) :
    let t := (order.map fun h (t : GPObject o) => t.feedHolder h).foldl (fun t w => w t) s
    t.feed.X = (if Holder.X ∈ order then s.data.X else s.feed.X) ∧ t.feed.Y = (if Holder.Y ∈ order then s.data.Y else s.feed.Y) ∧
    t.feed.chol = (if Holder.cholesky ∈ order then s.data.chol else s.feed.chol) ∧
    t.feed.alpha = (if Holder.alpha ∈ order then s.data.alpha else s.feed.alpha) := by
  induction order generalizing s with
  | nil => simp
  | cons h order ih =>
    obtain ⟨h1, h2, h3, h4⟩ := ih (s.feedHolder h)
    rw [feedHolder_data] at h1 h2 h3 h4
    dsimp only at h1 h2 h3 h4 ⊢
    rw [List.map_cons, List.foldl_cons, h1, h2, h3, h4]
    cases h <;> simp [GPObject.feedHolder]

theorem GPObject.eq_of {t : GPObject o} {d f : GPHolders o} (hd : t.data = d) (hX : t.feed.X = f.X) (hY : t.feed.Y = f.Y)
    (hc : t.feed.chol = f.chol) (ha : t.feed.alpha = f.alpha) : t = ⟨d, f⟩ := by
  obtain ⟨td, ⟨tx, ty, tc, ta⟩⟩ := t
  obtain ⟨fx, fy, fc, fa⟩ := f
  dsimp only at *
  subst hd hX hY hc ha
  rfl

/-- What the assignments of `add_data_point` are. -/
theorem addDataWrites_cases (gp : GPModel o) (s : GPObject o) (x y : Arr ℝ) (order : List Holder) :
    let setX : GPObject o → GPObject o := fun t => { t with data := { t.data with X := s.data.X ++ x.rows } }
    let setY : GPObject o → GPObject o := fun t => { t with data := { t.data with Y := s.data.Y ++ y.rows } }
    (∃ e, gp.addDataWrites s x y order = ([], .error e) ∧ vstack gp.xdim s.data.X x.rows = .error e) ∨
    (∃ e, gp.addDataWrites s x y order = ([setX], .error e) ∧ vstack o s.data.Y y.rows = .error e) ∨
    (∃ e, gp.addDataWrites s x y order = ([setX, setY], .error e) ∧ gp.computeCache (s.data.X ++ x.rows) (s.data.Y ++ y.rows) = .error e) ∨
    ∃ c, gp.computeCache (s.data.X ++ x.rows) (s.data.Y ++ y.rows) = .ok c ∧ (∀ r ∈ x.rows, r.length = gp.xdim) ∧
      (∀ r ∈ y.rows, r.length = o) ∧ gp.addDataWrites s x y order =
        ([setX, setY, fun t => { t with data := { t.data with chol := ⟨c.n, c.chol⟩ } },
          fun t => { t with data := { t.data with alpha := ⟨c.n, c.alpha⟩ } }] ++ order.map fun h t => t.feedHolder h, .ok ()) := by
  intro setX setY
  unfold GPModel.addDataWrites
  cases hX : vstack gp.xdim s.data.X x.rows with
  | error e => exact Or.inl ⟨e, rfl, rfl⟩
  | ok X =>
    obtain ⟨h1, rfl⟩ := vstack_inv hX
    dsimp only
    cases hY : vstack o s.data.Y y.rows with
    | error e => exact Or.inr (Or.inl ⟨e, rfl, rfl⟩)
    | ok Y =>
      obtain ⟨h2, rfl⟩ := vstack_inv hY
      dsimp only
      cases hc : gp.computeCache (s.data.X ++ x.rows) (s.data.Y ++ y.rows) with
      | error e => exact Or.inr (Or.inr (Or.inl ⟨e, rfl, rfl⟩))
      | ok c => exact Or.inr (Or.inr (Or.inr ⟨c, rfl, h1, h2, rfl⟩))

/-- A complete call on any object. -/
theorem addToObject_ok (gp : GPModel o) (t : GPObject o) (x y : Arr ℝ) (order : List Holder) (ho : ∀ h, h ∈ order)
    (hx : ∀ r ∈ x.rows, r.length = gp.xdim) (hy : ∀ r ∈ y.rows, r.length = o) (s' : GPState o)
    (hs : gp.init (t.data.X ++ x.rows) (t.data.Y ++ y.rows) = .ok s') : gp.addToObject t x y order = (s'.object, .ok ()) := by
  obtain ⟨c, hc, rfl⟩ := init_inv hs
  unfold GPModel.addToObject
  rcases addDataWrites_cases gp t x y order with ⟨e, -, h⟩ | ⟨e, -, h⟩ | ⟨e, -, h⟩ | ⟨c', h, -, -, hw⟩
  · unfold vstack at h; rw [if_pos hx] at h; cases h
  · unfold vstack at h; rw [if_pos hy] at h; cases h
  · rw [hc] at h; cases h
  · rw [hc] at h
    cases h
    rw [hw]
    dsimp only
    rw [List.foldl_append]
    simp only [List.foldl_cons, List.foldl_nil, Prod.mk.injEq, and_true]
    obtain ⟨h1, h2, h3, h4⟩ := feedHolders_feed order
      (⟨⟨t.data.X ++ x.rows, t.data.Y ++ y.rows, ⟨c.n, c.chol⟩, ⟨c.n, c.alpha⟩⟩, t.feed⟩ : GPObject o)
    rw [if_pos (ho _)] at h1 h2 h3 h4
    exact GPObject.eq_of (feedHolders_data order _) h1 h2 h3 h4

/-- **C135 (Gaussian processes, complete calls).** A call that is not stopped is a call of `add_data_point`, in whichever order gpflow feeds the data holders. -/
theorem C135_gp_complete (gp : GPModel o) (s : GPState o) (x y : Arr ℝ) (order : List Holder) (ho : ∀ h, h ∈ order) :
    gp.addToObject s.object x y order = ((gp.addDataPoint s x y).1.object, (gp.addDataPoint s x y).2) := by
  unfold GPModel.addToObject GPModel.addDataWrites GPModel.addDataPoint
  have e1 : s.object.data.X = s.data.X := rfl
  have e2 : s.object.data.Y = s.data.Y := rfl
  rw [e1, e2]
  cases vstack gp.xdim s.data.X x.rows with
  | error e => rfl
  | ok X =>
    dsimp only
    cases vstack o s.data.Y y.rows with
    | error e => rfl
    | ok Y =>
      dsimp only
      cases gp.computeCache X Y with
      | error e => rfl
      | ok c =>
        dsimp only
        rw [List.foldl_append]
        simp only [List.foldl_cons, List.foldl_nil, Prod.mk.injEq, and_true]
        obtain ⟨h1, h2, h3, h4⟩ := feedHolders_feed order (⟨⟨X, Y, ⟨c.n, c.chol⟩, ⟨c.n, c.alpha⟩⟩, s.object.feed⟩ : GPObject o)
        rw [if_pos (ho _)] at h1 h2 h3 h4
        exact GPObject.eq_of (feedHolders_data order _) h1 h2 h3 h4

/-- The object after a stopped call: the feed dictionary has old and new entries, and the data are old, new or (after one assignment) half of each. -/
theorem interruptedAdd_stages (gp : GPModel o) (s : GPObject o) (x y : Arr ℝ) (order : List Holder) (c : GPCache o)
    (hc : gp.computeCache (s.data.X ++ x.rows) (s.data.Y ++ y.rows) = .ok c) (hx : ∀ r ∈ x.rows, r.length = gp.xdim)
    (hy : ∀ r ∈ y.rows, r.length = o) :
    let r := gp.interruptedAdd s x y order
    r 0 = s ∧ (∀ k ≤ 4, (r k).feed = s.feed) ∧ (∀ k, 1 ≤ k → (r k).data.X = s.data.X ++ x.rows) ∧
    (∀ k ≤ 1, (r k).data.Y = s.data.Y) ∧ (∀ k, 2 ≤ k → (r k).data.Y = s.data.Y ++ y.rows) ∧
    ∀ m, (r (4 + m)).feed.X = (if Holder.X ∈ order.take m then s.data.X ++ x.rows else s.feed.X) ∧
      (r (4 + m)).feed.chol = (if Holder.cholesky ∈ order.take m then ⟨c.n, c.chol⟩ else s.feed.chol) ∧
      (r (4 + m)).feed.alpha = (if Holder.alpha ∈ order.take m then ⟨c.n, c.alpha⟩ else s.feed.alpha) := by
  intro r
  have hr : ∀ k, r k = afterWrites (gp.addDataWrites s x y order).1 k s := fun _ => rfl
  rcases addDataWrites_cases gp s x y order with ⟨e, -, h⟩ | ⟨e, -, h⟩ | ⟨e, -, h⟩ | ⟨c', h, -, -, hw⟩
  · unfold vstack at h; rw [if_pos hx] at h; cases h
  · unfold vstack at h; rw [if_pos hy] at h; cases h
  · rw [hc] at h; cases h
  rw [hc] at h
  cases h
  rw [hw] at hr
  clear hw
  clear_value r
  have h4 : ∀ m, r (4 + m) = ((order.take m).map fun h (t : GPObject o) => t.feedHolder h).foldl (fun t w => w t)
      ⟨⟨s.data.X ++ x.rows, s.data.Y ++ y.rows, ⟨c.n, c.chol⟩, ⟨c.n, c.alpha⟩⟩, s.feed⟩ := by
    intro m
    rw [hr, Nat.add_comm]
    unfold afterWrites
    simp only [List.cons_append, List.nil_append, List.take_succ_cons, List.foldl_cons, List.map_take]
  have hd : ∀ k, 4 ≤ k → (r k).data = ⟨s.data.X ++ x.rows, s.data.Y ++ y.rows, ⟨c.n, c.chol⟩, ⟨c.n, c.alpha⟩⟩ := by
    intro k hk
    obtain ⟨m, rfl⟩ := Nat.exists_eq_add_of_le hk
    rw [h4, feedHolders_data]
  refine ⟨by rw [hr]; rfl, fun k hk => ?_, fun k hk => ?_, fun k hk => ?_, fun k hk => ?_, fun m => ?_⟩
  · interval_cases k <;> rw [hr] <;> simp [afterWrites]
  · by_cases h : 4 ≤ k
    · rw [hd k h]
    · interval_cases k <;> first | omega | (rw [hr]; rfl)
  · interval_cases k <;> rw [hr] <;> rfl
  · by_cases h : 4 ≤ k
    · rw [hd k h]
    · interval_cases k <;> first | omega | (rw [hr]; rfl)
  · obtain ⟨e1, -, e3, e4⟩ := feedHolders_feed (order.take m)
      (⟨⟨s.data.X ++ x.rows, s.data.Y ++ y.rows, ⟨c.n, c.chol⟩, ⟨c.n, c.alpha⟩⟩, s.feed⟩ : GPObject o)
    rw [h4]
    exact ⟨e1, e3, e4⟩

theorem evaluateObject_parts (gp : GPModel o) (beta : ℝ) (t : GPObject o) (pts : List (List ℝ)) (s : GPState o)
    (hX : t.feed.X = s.feed.X) (hc : t.feed.chol = ⟨_, s.feed.cache.chol⟩) (ha : t.feed.alpha = ⟨_, s.feed.cache.alpha⟩) :
    gp.evaluateObject beta t pts = gp.evaluate beta s pts := by
  obtain ⟨td, ⟨tx, ty, tc, ta⟩⟩ := t
  dsimp only at *
  subst hX hc ha
  unfold GPModel.evaluateObject
  dsimp only
  rw [dif_pos rfl]
  rfl

theorem evaluateObject_error (gp : GPModel o) (beta : ℝ) (t : GPObject o) (pts : List (List ℝ))
    (h : t.feed.alpha.1 ≠ t.feed.chol.1 ∨ t.feed.X.length ≠ t.feed.chol.1) : gp.evaluateObject beta t pts = .error .valueError := by
  unfold GPModel.evaluateObject
  split_ifs with h1
  · unfold GPModel.buildPredict
    rw [if_neg (h.resolve_left (not_not.mpr h1))]
    rfl
  · rfl

/-- **C135 (Gaussian processes).** Wherever a call of `add_data_point` is stopped, and in whichever order gpflow feeds the data holders, predictions are those before the call or those after the complete call,
or they raise: there are no predictions from mixed data. -/
theorem C135_gp_prediction (gp : GPModel o) (beta : ℝ) (X Y : List (List ℝ)) (s : GPState o)
    (h : gp.init X Y = .ok s) (x y : Arr ℝ) (hr : y.rows.length = x.rows.length) (order : List Holder) (k : ℕ) :
    let t := gp.interruptedAdd s.object x y order k
    (∀ pts, gp.evaluateObject beta t pts = gp.evaluate beta s pts) ∨
    (∃ s', gp.addDataPoint s x y = (s', .ok ()) ∧ ∀ pts, gp.evaluateObject beta t pts = gp.evaluate beta s' pts) ∨
    ∀ pts, gp.evaluateObject beta t pts = .error .valueError := by
  intro t
  obtain ⟨c₀, hc₀, rfl⟩ := init_inv h
  have hold : ∀ t : GPObject o, t.feed = (GPState.object ⟨⟨X, Y, c₀⟩, ⟨X, Y, c₀⟩⟩).feed → ∀ pts, gp.evaluateObject beta t pts =
      gp.evaluate beta ⟨⟨X, Y, c₀⟩, ⟨X, Y, c₀⟩⟩ pts := fun t ht pts =>
    (evaluateObject_feed gp beta t _ pts ht).trans (evaluateObject_object gp beta _ pts)
  have herr : ∀ ws : List (GPObject o → GPObject o), (gp.addDataWrites (GPState.object ⟨⟨X, Y, c₀⟩, ⟨X, Y, c₀⟩⟩) x y order).1 = ws →
      (∀ w ∈ ws, ∀ t : GPObject o, (w t).feed = t.feed) →
      ∀ pts, gp.evaluateObject beta t pts = gp.evaluate beta ⟨⟨X, Y, c₀⟩, ⟨X, Y, c₀⟩⟩ pts := by
    intro ws hws hw
    apply hold
    change (gp.interruptedAdd _ x y order k).feed = _
    unfold GPModel.interruptedAdd
    rw [hws]
    exact Lyap.foldl_field (·.feed) ws hw k _
  rcases addDataWrites_cases gp (GPState.object ⟨⟨X, Y, c₀⟩, ⟨X, Y, c₀⟩⟩) x y order with ⟨e, hw, -⟩ | ⟨e, hw, -⟩ | ⟨e, hw, -⟩ | ⟨c, hc, hx, hy, -⟩
  · exact Or.inl (herr _ (congrArg Prod.fst hw) (by simp))
  · exact Or.inl (herr _ (congrArg Prod.fst hw) (by simp))
  · exact Or.inl (herr _ (congrArg Prod.fst hw) (by simp))
  have hadd : gp.addDataPoint ⟨⟨X, Y, c₀⟩, ⟨X, Y, c₀⟩⟩ x y =
      (⟨⟨X ++ x.rows, Y ++ y.rows, c⟩, ⟨X ++ x.rows, Y ++ y.rows, c⟩⟩, .ok ()) := by
    unfold GPModel.addDataPoint vstack
    rw [if_pos hx]
    dsimp only
    rw [if_pos hy]
    dsimp only
    change gp.computeCache (X ++ x.rows) (Y ++ y.rows) = .ok c at hc
    rw [hc]
  obtain ⟨-, h4, -, -, -, hm⟩ := interruptedAdd_stages gp (GPState.object ⟨⟨X, Y, c₀⟩, ⟨X, Y, c₀⟩⟩) x y order c hc hx hy
  by_cases hk : k ≤ 4
  · exact Or.inl (hold _ (h4 k hk))
  obtain ⟨m, rfl⟩ := Nat.exists_eq_add_of_le (Nat.le_of_not_le hk)
  obtain ⟨e1, e2, e3⟩ := hm m
  change gp.computeCache (X ++ x.rows) (Y ++ y.rows) = .ok c at hc
  change _ = (if _ then X ++ x.rows else X) at e1
  change _ = (if _ then _ else (⟨c₀.n, c₀.chol⟩ : Σ n : ℕ, Matrix (Fin n) (Fin n) ℝ)) at e2
  change _ = (if _ then _ else (⟨c₀.n, c₀.alpha⟩ : Σ n : ℕ, Matrix (Fin n) (Fin o) ℝ)) at e3
  have hn₀ : c₀.n = X.length := by obtain ⟨-, L, -, rfl⟩ := computeCache_inv hc₀; rfl
  have hn : c.n = X.length + x.rows.length := by obtain ⟨-, L, -, rfl⟩ := computeCache_inv hc; simp
  rcases Nat.eq_zero_or_pos x.rows.length with hz | hpos
  · left
    have hx0 : x.rows = [] := List.length_eq_zero_iff.mp hz
    have hy0 : y.rows = [] := List.length_eq_zero_iff.mp (hr.trans hz)
    rw [hx0, hy0, List.append_nil, List.append_nil, hc₀] at hc
    cases hc
    rw [hx0, List.append_nil, ite_self] at e1
    rw [ite_self] at e2 e3
    exact fun pts => evaluateObject_parts gp beta _ pts ⟨⟨X, Y, c₀⟩, ⟨X, Y, c₀⟩⟩ e1 e2 e3
  · by_cases g1 : Holder.X ∈ order.take m <;> by_cases g2 : Holder.cholesky ∈ order.take m <;>
      by_cases g3 : Holder.alpha ∈ order.take m <;> simp only [g1, g2, g3, if_true, if_false] at e1 e2 e3
    · exact Or.inr (Or.inl ⟨_, hadd, fun pts => evaluateObject_parts gp beta _ pts _ e1 e2 e3⟩)
    all_goals first
      | exact Or.inl (fun pts => evaluateObject_parts gp beta _ pts ⟨⟨X, Y, c₀⟩, ⟨X, Y, c₀⟩⟩ e1 e2 e3)
      | (refine Or.inr (Or.inr (fun pts => evaluateObject_error gp beta _ pts ?_))
         rw [e1, e2, e3]
         dsimp only
         try rw [List.length_append]
         omega)

/-- **C135 (Gaussian processes, before the feed dictionary).** Until the last four assignments, the predictions are those before the call. -/
theorem C135_gp_old (gp : GPModel o) (beta : ℝ) (s : GPState o) (x y : Arr ℝ) (order : List Holder) (k : ℕ) (hk : k ≤ 4)
    (pts : List (List ℝ)) : gp.evaluateObject beta (gp.interruptedAdd s.object x y order k) pts = gp.evaluate beta s pts := by
  refine (evaluateObject_feed gp beta _ s.object pts ?_).trans (evaluateObject_object gp beta s pts)
  have herr : ∀ ws : List (GPObject o → GPObject o), (gp.addDataWrites s.object x y order).1 = ws →
      (∀ w ∈ ws, ∀ t : GPObject o, (w t).feed = t.feed) → (gp.interruptedAdd s.object x y order k).feed = s.object.feed := by
    intro ws hws hw
    unfold GPModel.interruptedAdd
    rw [hws]
    exact Lyap.foldl_field (·.feed) ws hw k _
  rcases addDataWrites_cases gp s.object x y order with ⟨e, hw, -⟩ | ⟨e, hw, -⟩ | ⟨e, hw, -⟩ | ⟨c, hc, hx, hy, -⟩
  · exact herr _ (congrArg Prod.fst hw) (by simp)
  · exact herr _ (congrArg Prod.fst hw) (by simp)
  · exact herr _ (congrArg Prod.fst hw) (by simp)
  · exact (interruptedAdd_stages gp s.object x y order c hc hx hy).2.1 k hk

/-- **C135 (Gaussian processes, recovery; partial: not if the call is stopped between its first two assignments).** The next complete call gives the Gaussian process of all data: with the data of the stopped call, unless
that was stopped before its first assignment. -/
theorem C135_gp_recovery_partial (gp : GPModel o) (hk : Spec.IsKernel gp.kern) (hn : 0 < gp.noise) (hs : gp.scale ≠ 0)
    (X Y : List (List ℝ)) (hl : Y.length = X.length) (s : GPState o) (h : gp.init X Y = .ok s) (x y x' y' : Arr ℝ)
    (hr : y.rows.length = x.rows.length) (hx : ∀ r ∈ x.rows, r.length = gp.xdim) (hy : ∀ r ∈ y.rows, r.length = o)
    (hr' : y'.rows.length = x'.rows.length) (hx' : ∀ r ∈ x'.rows, r.length = gp.xdim) (hy' : ∀ r ∈ y'.rows, r.length = o)
    (order order' : List Holder) (ho' : ∀ h, h ∈ order') (k : ℕ) (hk1 : k ≠ 1) :
    ∃ s', gp.init (X ++ (if k = 0 then [] else x.rows) ++ x'.rows) (Y ++ (if k = 0 then [] else y.rows) ++ y'.rows) = .ok s' ∧
      gp.addToObject (gp.interruptedAdd s.object x y order k) x' y' order' = (s'.object, .ok ()) := by
  obtain ⟨s', hs'⟩ := C53_defined gp hk hn hs (X ++ (if k = 0 then [] else x.rows) ++ x'.rows)
    (Y ++ (if k = 0 then [] else y.rows) ++ y'.rows) (by
      split_ifs
      · simp [hl, hr']
      · simp [hl, hr', hr])
  refine ⟨s', hs', addToObject_ok gp _ x' y' order' ho' hx' hy' s' ?_⟩
  obtain ⟨c₀, hc₀, rfl⟩ := init_inv h
  obtain ⟨c, hc⟩ := computeCache_ok hk hn hs (X := X ++ x.rows) (Y := Y ++ y.rows) (by simp [hl, hr])
  obtain ⟨h0, -, h1, -, h2, -⟩ := interruptedAdd_stages gp (GPState.object ⟨⟨X, Y, c₀⟩, ⟨X, Y, c₀⟩⟩) x y order c hc hx hy
  rcases Nat.eq_zero_or_pos k with rfl | hpos
  · rw [h0]
    simp only [if_true, List.append_nil] at hs'
    exact hs'
  · rw [h1 k hpos, h2 k (by omega)]
    rw [if_neg (by omega), if_neg (by omega)] at hs'
    exact hs'

/-- **C135, refuted for the first two assignments.** If a call is stopped after the inputs were assigned and before the targets were, the Gaussian process cannot be used any more: every later valid call of `add_data_point` raises `ValueError`,
and the predictions stay those before the stopped call. -/
theorem C135_gp_stuck_refuted (gp : GPModel o) (beta : ℝ) (X Y : List (List ℝ)) (hX : X ≠ []) (hl : Y.length = X.length) (s : GPState o)
    (h : gp.init X Y = .ok s) (x y : Arr ℝ) (hx : ∀ r ∈ x.rows, r.length = gp.xdim) (hpos : x.rows ≠ []) (order : List Holder)
    (calls : List (Arr ℝ × Arr ℝ × List Holder))
    (hcalls : ∀ c ∈ calls, c.1.rows ≠ [] ∧ c.2.1.rows.length = c.1.rows.length ∧ (∀ r ∈ c.1.rows, r.length = gp.xdim) ∧
      ∀ r ∈ c.2.1.rows, r.length = o) (pts : List (List ℝ)) :
    (∀ earlier c later, calls = earlier ++ c :: later →
      (gp.addToObject (earlier.foldl (fun t c => (gp.addToObject t c.1 c.2.1 c.2.2).1) (gp.interruptedAdd s.object x y order 1)) c.1 c.2.1 c.2.2).2 =
        .error .valueError) ∧
    gp.evaluateObject beta (calls.foldl (fun t c => (gp.addToObject t c.1 c.2.1 c.2.2).1) (gp.interruptedAdd s.object x y order 1)) pts =
      gp.evaluate beta s pts := by
  have step : ∀ (t : GPObject o) (c : Arr ℝ × Arr ℝ × List Holder), t.data.Y ≠ [] → t.data.Y.length < t.data.X.length →
      (c.1.rows ≠ [] ∧ c.2.1.rows.length = c.1.rows.length ∧ (∀ r ∈ c.1.rows, r.length = gp.xdim) ∧ ∀ r ∈ c.2.1.rows, r.length = o) →
      (gp.addToObject t c.1 c.2.1 c.2.2).2 = .error .valueError ∧ (gp.addToObject t c.1 c.2.1 c.2.2).1.data.Y ≠ [] ∧
      (gp.addToObject t c.1 c.2.1 c.2.2).1.data.Y.length < (gp.addToObject t c.1 c.2.1 c.2.2).1.data.X.length ∧
      (gp.addToObject t c.1 c.2.1 c.2.2).1.feed = t.feed := by
    intro t c hne hlt ⟨v1, v2, v3, v4⟩
    have hv : c.1.rows.length ≠ 0 := fun h0 => v1 (List.length_eq_zero_iff.mp h0)
    have hne' : t.data.Y.length ≠ 0 := fun h0 => hne (List.length_eq_zero_iff.mp h0)
    have hcache : gp.computeCache (t.data.X ++ c.1.rows) (t.data.Y ++ c.2.1.rows) = .error .valueError := by
      unfold GPModel.computeCache
      rw [if_neg]
      simp only [List.length_append]
      omega
    unfold GPModel.addToObject
    rcases addDataWrites_cases gp t c.1 c.2.1 c.2.2 with ⟨e, -, h⟩ | ⟨e, -, h⟩ | ⟨e, hw, h⟩ | ⟨c', h, -⟩
    · unfold vstack at h; rw [if_pos v3] at h; cases h
    · unfold vstack at h; rw [if_pos v4] at h; cases h
    · rw [hcache] at h
      cases h
      rw [hw]
      refine ⟨rfl, by simp [hne], ?_, rfl⟩
      simp only [List.foldl_cons, List.foldl_nil, List.length_append]
      omega
    · rw [hcache] at h; cases h
  have inv : ∀ (cs : List (Arr ℝ × Arr ℝ × List Holder)) (t : GPObject o), t.data.Y ≠ [] → t.data.Y.length < t.data.X.length →
      (∀ c ∈ cs, c.1.rows ≠ [] ∧ c.2.1.rows.length = c.1.rows.length ∧ (∀ r ∈ c.1.rows, r.length = gp.xdim) ∧
        ∀ r ∈ c.2.1.rows, r.length = o) →
      (cs.foldl (fun t c => (gp.addToObject t c.1 c.2.1 c.2.2).1) t).data.Y ≠ [] ∧
      (cs.foldl (fun t c => (gp.addToObject t c.1 c.2.1 c.2.2).1) t).data.Y.length <
        (cs.foldl (fun t c => (gp.addToObject t c.1 c.2.1 c.2.2).1) t).data.X.length ∧
      (cs.foldl (fun t c => (gp.addToObject t c.1 c.2.1 c.2.2).1) t).feed = t.feed := by
    intro cs
    induction cs with
    | nil => intro t h1 h2 _; exact ⟨h1, h2, rfl⟩
    | cons c cs ih =>
      intro t h1 h2 hv
      obtain ⟨-, g1, g2, g3⟩ := step t c h1 h2 (hv c List.mem_cons_self)
      obtain ⟨i1, i2, i3⟩ := ih _ g1 g2 (fun c' hc' => hv c' (List.mem_cons_of_mem _ hc'))
      exact ⟨i1, i2, i3.trans g3⟩
  obtain ⟨c₀, hc₀, rfl⟩ := init_inv h
  have hY : Y ≠ [] := fun h0 => hX (List.length_eq_zero_iff.mp (by rw [← hl, h0]; rfl))
  have h1 : gp.interruptedAdd (GPState.object ⟨⟨X, Y, c₀⟩, ⟨X, Y, c₀⟩⟩) x y order 1 =
      ⟨⟨X ++ x.rows, Y, ⟨_, c₀.chol⟩, ⟨_, c₀.alpha⟩⟩, ⟨X, Y, ⟨_, c₀.chol⟩, ⟨_, c₀.alpha⟩⟩⟩ := by
    unfold GPModel.interruptedAdd
    rcases addDataWrites_cases gp (GPState.object ⟨⟨X, Y, c₀⟩, ⟨X, Y, c₀⟩⟩) x y order with ⟨e, -, h⟩ | ⟨e, hw, -⟩ | ⟨e, hw, -⟩ | ⟨c, -, -, -, hw⟩
    · unfold vstack at h; rw [if_pos hx] at h; cases h
    all_goals rw [hw]; rfl
  rw [h1]
  have hlt : Y.length < (X ++ x.rows).length := by
    have : x.rows.length ≠ 0 := fun h0 => hpos (List.length_eq_zero_iff.mp h0)
    rw [List.length_append]; omega
  constructor
  · rintro earlier c later rfl
    obtain ⟨i1, i2, -⟩ := inv earlier ⟨⟨X ++ x.rows, Y, ⟨_, c₀.chol⟩, ⟨_, c₀.alpha⟩⟩, ⟨X, Y, ⟨_, c₀.chol⟩, ⟨_, c₀.alpha⟩⟩⟩ hY hlt (fun c' hc' => hcalls c' (List.mem_append_left _ hc'))
    exact (step _ c i1 i2 (hcalls c (by simp))).1
  · obtain ⟨-, -, i3⟩ := inv calls ⟨⟨X ++ x.rows, Y, ⟨_, c₀.chol⟩, ⟨_, c₀.alpha⟩⟩, ⟨X, Y, ⟨_, c₀.chol⟩, ⟨_, c₀.alpha⟩⟩⟩ hY hlt hcalls
    exact (evaluateObject_feed gp beta _ _ pts i3).trans (evaluateObject_object gp beta ⟨⟨X, Y, c₀⟩, ⟨X, Y, c₀⟩⟩ pts)

/-- **C135, refuted for evaluations.** While the feed dictionary is updated there is a point at which every evaluation raises, if at least one data point is added and the inputs are fed first. -/
theorem C135_gp_feed_refuted (gp : GPModel o) (hk : Spec.IsKernel gp.kern) (hn : 0 < gp.noise) (hs : gp.scale ≠ 0) (beta : ℝ)
    (X Y : List (List ℝ)) (hl : Y.length = X.length) (s : GPState o) (h : gp.init X Y = .ok s) (x y : Arr ℝ)
    (hr : y.rows.length = x.rows.length) (hx : ∀ r ∈ x.rows, r.length = gp.xdim) (hy : ∀ r ∈ y.rows, r.length = o) (hpos : x.rows ≠ [])
    (pts : List (List ℝ)) :
    gp.evaluateObject beta (gp.interruptedAdd s.object x y [.X, .Y, .cholesky, .alpha] 5) pts = .error .valueError := by
  obtain ⟨c₀, hc₀, rfl⟩ := init_inv h
  obtain ⟨c, hc⟩ := computeCache_ok hk hn hs (X := X ++ x.rows) (Y := Y ++ y.rows) (by simp [hl, hr])
  obtain ⟨-, -, -, -, -, hm⟩ := interruptedAdd_stages gp (GPState.object ⟨⟨X, Y, c₀⟩, ⟨X, Y, c₀⟩⟩) x y [.X, .Y, .cholesky, .alpha] c hc hx hy
  obtain ⟨e1, e2, -⟩ := hm 1
  have hn₀ : c₀.n = X.length := by obtain ⟨-, L, -, rfl⟩ := computeCache_inv hc₀; rfl
  refine evaluateObject_error gp beta _ pts (Or.inr ?_)
  rw [show 4 + 1 = 5 from rfl] at e1 e2
  rw [e1, e2]
  have : x.rows.length ≠ 0 := fun h0 => hpos (List.length_eq_zero_iff.mp h0)
  change (X ++ x.rows).length ≠ c₀.n
  rw [List.length_append, hn₀]
  omega

example : ∃ s, exampleGP.init [[1]] [[5]] = .ok s ∧
    (∃ s', exampleGP.init [[1], [2], [3]] [[5], [7], [8]] = .ok s' ∧
      exampleGP.addToObject (exampleGP.interruptedAdd s.object (.vector [2]) (.scalar 7) [.alpha, .X, .Y, .cholesky] 6) (.vector [3]) (.scalar 8)
        [.X, .Y, .cholesky, .alpha] = (s'.object, .ok ())) ∧
    (exampleGP.addToObject (exampleGP.interruptedAdd s.object (.vector [2]) (.scalar 7) [.alpha, .X, .Y, .cholesky] 1) (.vector [3]) (.scalar 8)
        [.X, .Y, .cholesky, .alpha]).2 = .error .valueError := by
  obtain ⟨s, hs⟩ := C53_defined exampleGP linearKernel_isKernel (by norm_num [exampleGP])
    (by norm_num [exampleGP]) [[1]] [[5]] rfl
  refine ⟨s, hs, ?_, ?_⟩
  · exact C135_gp_recovery_partial exampleGP linearKernel_isKernel (by norm_num [exampleGP]) (by norm_num [exampleGP]) [[1]] [[5]] rfl s hs
      (.vector [2]) (.scalar 7) (.vector [3]) (.scalar 8) rfl (by simp [Arr.rows, exampleGP]) (by simp [Arr.rows]) rfl
      (by simp [Arr.rows, exampleGP]) (by simp [Arr.rows]) [.alpha, .X, .Y, .cholesky] [.X, .Y, .cholesky, .alpha]
      (fun h => by cases h <;> simp) 6 (by decide)
  · exact (C135_gp_stuck_refuted exampleGP 1 [[1]] [[5]] (by simp) rfl s hs (.vector [2]) (.scalar 7) (by simp [Arr.rows, exampleGP])
      (by simp [Arr.rows]) [.alpha, .X, .Y, .cholesky] [(.vector [3], .scalar 8, [.X, .Y, .cholesky, .alpha])]
      (by simp [Arr.rows, exampleGP]) []).1 [] _ [] rfl

end

end SafeLearning
