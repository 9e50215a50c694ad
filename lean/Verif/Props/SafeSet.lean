import Verif.Lemmas.ExampleWorld
import Verif.Spec.SafeSet
import Mathlib.Tactic.FinCases
import Mathlib.Tactic.NormNum
set_option autoImplicit false

/-!
# Properties C19 - C24: `update_safe_set`

The objects quantified over are those reached from the constructor by any history of
`update_safe_set` and `update_values` calls (`methods`), with any arguments, batch sizes and values of
the TensorFlow variables; where it does not matter also by assignments to attributes.
-/

set_option linter.unusedSectionVars false
set_option linter.unusedVariables false

namespace SafeLearning

/-- `j` is in the initial safe set (`None` is the empty set). -/
def InInitial {n : ℕ} (initial : Option (Fin n → Bool)) (j : Fin n) : Prop :=
  ∃ I, initial = some I ∧ I j = true

variable {K : Type} [Field K] [LinearOrder K] [IsStrictOrderedRing K] [FloorRing K]

namespace Lyap

variable {Prog Θ : Type} {n : ℕ}

/-- The operation is a method call, not an assignment to an attribute. -/
def Op.IsMethod : Op K Prog Θ → Prop
  | .update _ _ _ => True
  | .updateValues _ => True
  | _ => False

theorem or_absorb {i c a b : Prop} : (i ∨ c ∨ (a ∧ i)) ↔ (i ∨ c ∨ (b ∧ i)) := by tauto

theorem initialMem_iff (s : Lyap K Prog n) (j : Fin n) :
    s.initialMem j = true ↔ InInitial s.initial j := by
  unfold initialMem InInitial
  cases h : s.initial with
  | none => simp
  | some I => simp

theorem finish_fields (W : World K Prog Θ n) (s s' : Lyap K Prog n) (rows : List (Row n))
    (last : Option (ℕ × ℕ × ℕ)) (h : s.finish W rows last = .ok s') :
    s'.prog = s.prog ∧ s'.tau = s.tau ∧ s'.adaptive = s.adaptive ∧ s'.initial = s.initial ∧
      s'.values = s.values ∧ s'.graph = s.graph ∧ ∀ j, s.initialMem j = true → s'.safeSet j = true := by
  unfold finish at h
  cases last with
  | none => cases h
  | some t =>
    obtain ⟨i, b, rb⟩ := t
    simp only [] at h
    cases hg : pyGet? (W.argsort s.values) ((i : ℤ) + b + rb - 1) with
    | none => rw [hg] at h; cases h
    | some top =>
      rw [hg] at h
      simp only [Except.ok.injEq] at h
      subst h
      exact ⟨rfl, rfl, rfl, rfl, rfl, rfl, fun j hj => by simp [hj]⟩

theorem update_fields (W : World K Prog Θ n) (batch : ℕ) (args : UpdateArgs K) (s : Lyap K Prog n)
    (θ : Θ) :
    let s' := (updateSafeSet W batch args s θ).1
    s'.prog = s.prog ∧ s'.tau = s.tau ∧ s'.adaptive = s.adaptive ∧ s'.initial = s.initial ∧
      s'.values = s.values ∧ s'.graph = some (s.graphFor args.safetyFactor) ∧
      ((∀ j, s.initialMem j = true → s.safeSet j = true) →
        ∀ j, s.initialMem j = true → s'.safeSet j = true) ∧
      (∀ e, (updateSafeSet W batch args s θ).2 = .error e → s'.safeSet = s.safeSet) := by
  unfold updateSafeSet
  simp only []
  split_ifs with h1
  · refine ⟨rfl, rfl, rfl, rfl, rfl, rfl, fun h => h, fun _ _ => rfl⟩
  · split
    · refine ⟨rfl, rfl, rfl, rfl, rfl, rfl, fun h => h, fun _ _ => rfl⟩
    · split
      · refine ⟨rfl, rfl, rfl, rfl, rfl, rfl, fun h => h, fun _ _ => rfl⟩
      · rename_i s' hfin
        obtain ⟨a, b, c, d, e, f, g⟩ := finish_fields _ _ _ _ _ hfin
        exact ⟨a, b, c, d, e, f, fun _ => g, fun _ h => by cases h⟩

/-- Attributes and the captured graph of an object on which only methods were called. -/
structure Consistent (s : Lyap K Prog n) (prog : Prog) (tau : K)
    (initial : Option (Fin n → Bool)) (adaptive : Bool) : Prop where
  hprog : s.prog = prog
  htau : s.tau = tau
  hinitial : s.initial = initial
  hadaptive : s.adaptive = adaptive
  hgraph : ∀ G, s.graph = some G → G.prog = prog ∧ G.tau = tau ∧ G.adaptive = adaptive

theorem consistent_step (W : World K Prog Θ n) (s : Lyap K Prog n) (op : Op K Prog Θ)
    (hop : op.IsMethod) {prog : Prog} {tau : K} {initial : Option (Fin n → Bool)} {adaptive : Bool}
    (h : s.Consistent prog tau initial adaptive) :
    (step W s op).Consistent prog tau initial adaptive := by
  cases op with
  | update batch args θ =>
    obtain ⟨h1, h2, h3, h4, h5, h6, -⟩ := update_fields W batch args s θ
    refine ⟨h1.trans h.hprog, h2.trans h.htau, h4.trans h.hinitial, h3.trans h.hadaptive, ?_⟩
    intro G hG
    change (updateSafeSet W batch args s θ).1.graph = some G at hG
    rw [h6] at hG
    cases hG
    unfold graphFor
    cases hs : s.graph with
    | none => exact ⟨h.hprog, h.htau, h.hadaptive⟩
    | some G => exact h.hgraph G hs
  | updateValues θ => exact ⟨h.hprog, h.htau, h.hinitial, h.hadaptive, h.hgraph⟩
  | setProg p => exact hop.elim
  | setTau t => exact hop.elim
  | setAdaptive b => exact hop.elim

theorem consistent_run (W : World K Prog Θ n) (s : Lyap K Prog n) (ops : List (Op K Prog Θ))
    (hops : ∀ op ∈ ops, op.IsMethod) {prog : Prog} {tau : K} {initial : Option (Fin n → Bool)}
    {adaptive : Bool} (h : s.Consistent prog tau initial adaptive) :
    (run W s ops).Consistent prog tau initial adaptive := by
  induction ops generalizing s with
  | nil => exact h
  | cons op ops ih =>
    exact ih (step W s op) (fun o ho => hops o (by simp [ho]))
      (consistent_step W s op (hops op (by simp)) h)

theorem consistent_new (W : World K Prog Θ n) (prog : Prog) (tau : K)
    (initial : Option (Fin n → Bool)) (adaptive : Bool) (θ : Θ) :
    (new W prog tau initial adaptive θ).Consistent prog tau initial adaptive :=
  ⟨rfl, rfl, rfl, rfl, fun G h => by cases h⟩

theorem Consistent.graphFor {s : Lyap K Prog n} {prog : Prog} {tau : K}
    {initial : Option (Fin n → Bool)} {adaptive : Bool} (h : s.Consistent prog tau initial adaptive)
    (sf : K) : (s.graphFor sf).prog = prog ∧ (s.graphFor sf).tau = tau ∧
      (s.graphFor sf).adaptive = adaptive := by
  unfold Lyap.graphFor
  cases hs : s.graph with
  | none => exact ⟨h.hprog, h.htau, h.hadaptive⟩
  | some G => exact h.hgraph G hs

/-- The element after the longest prefix satisfying `P` does not satisfy it. -/
theorem takeWhile_length_bad {ι : Type} (P : ι → Bool) (l : List ι)
    (h : (l.takeWhile P).length < l.length) : P l[(l.takeWhile P).length] = false := by
  induction l with
  | nil => simp at h
  | cons a l ih =>
    by_cases ha : P a = true
    · simp only [List.takeWhile_cons, ha, if_true, List.length_cons, List.getElem_cons_succ] at h ⊢
      exact ih (by omega)
    · simp only [List.takeWhile_cons, ha]
      simpa using ha

/-- The certified prefix of a sorted list is a largest level set. -/
theorem isLargestLevelSet_takeWhile {ι : Type} (values : ι → K) (order : List ι) (P : ι → Bool)
    (hs : order.Pairwise fun i j => values i ≤ values j) (hc : ∀ i, i ∈ order) :
    Spec.IsLargestLevelSet values (fun j => P j = true) {j | j ∈ order.takeWhile P} where
  good_of_mem j hj := List.mem_takeWhile_imp hj
  lower i j hj hlt := by
    have hsplit : order = order.takeWhile P ++ order.dropWhile P :=
      (List.takeWhile_append_dropWhile).symm
    have hi := hc i
    rw [hsplit, List.mem_append] at hi
    rcases hi with hi | hi
    · exact hi
    · rw [hsplit, List.pairwise_append] at hs
      exact absurd (hs.2.2 j hj i hi) (not_le.mpr hlt)
  maximal := by
    have hsplit : order = order.takeWhile P ++ order.dropWhile P :=
      (List.takeWhile_append_dropWhile).symm
    cases hd : order.dropWhile P with
    | nil =>
      left
      intro j
      have := hc j
      rw [hsplit, hd, List.append_nil] at this
      exact this
    | cons b rest =>
      right
      have hb : P b = false := by
        have := List.dropWhile_get_zero_not (p := P) order (by rw [hd]; simp)
        simpa [hd] using this
      rw [hsplit, hd, List.pairwise_append, List.pairwise_cons] at hs
      refine ⟨b, fun h => ?_, by simp [hb], fun j hj => hs.2.2 j hj b (by simp), ?_⟩
      · have := List.mem_takeWhile_imp (p := P) h
        rw [hb] at this; cases this
      intro j hj
      have hj' := hc j
      rw [hsplit, hd, List.mem_append] at hj'
      rcases hj' with h1 | h1
      · exact absurd h1 hj
      · rcases List.mem_cons.mp h1 with rfl | h1
        · exact le_refl _
        · exact hs.2.1.1 j h1

theorem Consistent.call {s : Lyap K Prog n} {prog : Prog} {tau : K}
    {initial : Option (Fin n → Bool)} {adaptive : Bool} (hcon : s.Consistent prog tau initial adaptive)
    {args : UpdateArgs K} (hna : ¬(adaptive = true ∧ 1 < args.maxRefinement)) :
    ¬(s.adaptive = true ∧ 1 < args.maxRefinement) ∧
      ∀ G, s.graph = some G → G.adaptive = s.adaptive :=
  ⟨by rw [hcon.hadaptive]; exact hna,
    fun G hG => by rw [(hcon.hgraph G hG).2.2, hcon.hadaptive]⟩

theorem good_iff (W : World K Prog Θ n) (s : Lyap K Prog n) {prog : Prog} {tau : K}
    {initial : Option (Fin n → Bool)} {adaptive : Bool} (hcon : s.Consistent prog tau initial adaptive)
    (sf : K) (θ : Θ) (c : Bool) (j : Fin n) :
    good W (s.graphFor sf) θ s c j = true ↔
      s.startFlag c j = true ∨ W.decrease prog θ j < W.threshold θ j tau := by
  unfold good negative
  rw [(hcon.graphFor sf).1, (hcon.graphFor sf).2.1]
  simp

/-! ## C19 -/

/-- **C19** After any history of method calls, a call of `update_safe_set` without adaptive
refinement succeeds, and every state in the new safe set is in the initial safe set, or satisfies
the decrease condition, or (`can_shrink=False`) was safe before the call. -/
theorem C19_safe_set_sound (W : World K Prog Θ n) (hW : W.SortContract) (hn : 0 < n)
    (prog : Prog) (tau : K) (initial : Option (Fin n → Bool)) (adaptive : Bool) (θ₀ : Θ)
    (history : List (Op K Prog Θ)) (hh : ∀ op ∈ history, op.IsMethod)
    (batch : ℕ) (hb : 0 < batch) (args : UpdateArgs K) (θ : Θ)
    (hna : ¬(adaptive = true ∧ 1 < args.maxRefinement)) :
    let s := run W (new W prog tau initial adaptive θ₀) history
    let r := updateSafeSet W batch args s θ
    r.2 = .ok () ∧ ∀ j, r.1.safeSet j = true →
      InInitial initial j ∨ W.decrease prog θ j < W.threshold θ j tau ∨
      (args.canShrink = false ∧ s.safeSet j = true) := by
  intro s r
  have hcon : s.Consistent prog tau initial adaptive :=
    consistent_run W _ history hh (consistent_new W prog tau initial adaptive θ₀)
  obtain ⟨s', e, hcall, -, -, -, -, -, -, -, -, hsafe, -⟩ :=
    updateSafeSet_nonadaptive W hW hn batch hb args s θ (hcon.call hna).1 (hcon.call hna).2
  have hr : r = (s', .ok ()) := hcall
  rw [hr]
  refine ⟨rfl, fun j hj => ?_⟩
  have hflag : s.startFlag args.canShrink j = true →
      InInitial initial j ∨ (args.canShrink = false ∧ s.safeSet j = true) := by
    unfold startFlag
    cases args.canShrink with
    | true =>
      simp only [if_true]; intro h
      rw [initialMem_iff, hcon.hinitial] at h
      exact Or.inl h
    | false => simp only [Bool.false_eq_true, if_false]; intro h; exact Or.inr ⟨trivial, h⟩
  rcases (hsafe j).mp hj with h | h | ⟨-, h⟩
  · left; rw [initialMem_iff, hcon.hinitial] at h; exact h
  · have := List.mem_takeWhile_imp h
    rw [good_iff W s hcon] at this
    rcases this with h | h
    · rcases hflag h with h | h
      · exact Or.inl h
      · exact Or.inr (Or.inr h)
    · exact Or.inr (Or.inl h)
  · rcases hflag h with h | h
    · exact Or.inl h
    · exact Or.inr (Or.inr h)

/-! ## C20 -/

/-- **C20** With `can_shrink=True` and no adaptive refinement the safe set is exactly the initial set
together with a largest level set of states that are initially safe or satisfy the decrease
condition. -/
theorem C20_largest_level_set (W : World K Prog Θ n) (hW : W.SortContract) (hn : 0 < n)
    (prog : Prog) (tau : K) (initial : Option (Fin n → Bool)) (adaptive : Bool) (θ₀ : Θ)
    (history : List (Op K Prog Θ)) (hh : ∀ op ∈ history, op.IsMethod)
    (batch : ℕ) (hb : 0 < batch) (args : UpdateArgs K) (hc : args.canShrink = true) (θ : Θ)
    (hna : ¬(adaptive = true ∧ 1 < args.maxRefinement)) :
    let s := run W (new W prog tau initial adaptive θ₀) history
    let r := updateSafeSet W batch args s θ
    ∃ P, Spec.IsLargestLevelSet s.values
        (fun j => InInitial initial j ∨ W.decrease prog θ j < W.threshold θ j tau) P ∧
      ∀ j, r.1.safeSet j = true ↔ InInitial initial j ∨ j ∈ P := by
  intro s r
  have hcon : s.Consistent prog tau initial adaptive :=
    consistent_run W _ history hh (consistent_new W prog tau initial adaptive θ₀)
  obtain ⟨s', e, hcall, -, -, -, -, -, -, -, -, hsafe, -⟩ :=
    updateSafeSet_nonadaptive W hW hn batch hb args s θ (hcon.call hna).1 (hcon.call hna).2
  have hr : r = (s', .ok ()) := hcall
  have hflag : ∀ j, s.startFlag args.canShrink j = true ↔ InInitial initial j := by
    intro j
    unfold startFlag
    rw [hc, if_pos rfl, initialMem_iff, hcon.hinitial]
  refine ⟨{j | j ∈ (W.argsort s.values).takeWhile
    (good W (s.graphFor args.safetyFactor) θ s args.canShrink)}, ?_, ?_⟩
  · have := isLargestLevelSet_takeWhile s.values (W.argsort s.values)
      (good W (s.graphFor args.safetyFactor) θ s args.canShrink) (hW.sorted _) (hW.complete _)
    convert this using 2
    rw [good_iff W s hcon, hflag]
  · intro j
    rw [hr]
    rw [hsafe j, hflag, initialMem_iff, hcon.hinitial]
    simp only [Set.mem_ofPred_eq]
    tauto

/-- A largest level set is unique if no two states have the same value. -/
theorem _root_.Spec.IsLargestLevelSet.unique {ι : Type} {values : ι → K} {good : ι → Prop}
    {P Q : Set ι} (hinj : Function.Injective values) (hP : Spec.IsLargestLevelSet values good P)
    (hQ : Spec.IsLargestLevelSet values good Q) : P = Q := by
  have key : ∀ {P Q : Set ι}, Spec.IsLargestLevelSet values good P →
      Spec.IsLargestLevelSet values good Q → ∀ j ∈ P, j ∈ Q := by
    intro P Q hP hQ j hj
    rcases hQ.maximal with h | ⟨b, hb, hgb, -, hmin⟩
    · exact h j
    · by_contra hjQ
      rcases (hmin j hjQ).lt_or_eq with h | h
      · exact hgb (hP.good_of_mem b (hP.lower b j hj h))
      · rw [hinj h] at hgb
        exact hgb (hP.good_of_mem j hj)
  exact Set.ext fun j => ⟨key hP hQ j, key hQ hP j⟩

/-- **C20** The safe set and the refinement do not depend on the batch size. -/
theorem C20_batch_independent (W : World K Prog Θ n) (hW : W.SortContract) (hn : 0 < n)
    (prog : Prog) (tau : K) (initial : Option (Fin n → Bool)) (adaptive : Bool) (θ₀ : Θ)
    (history : List (Op K Prog Θ)) (hh : ∀ op ∈ history, op.IsMethod)
    (b₁ b₂ : ℕ) (hb₁ : 0 < b₁) (hb₂ : 0 < b₂) (args : UpdateArgs K) (hc : args.canShrink = true)
    (θ : Θ) (hna : ¬(adaptive = true ∧ 1 < args.maxRefinement)) :
    let s := run W (new W prog tau initial adaptive θ₀) history
    (updateSafeSet W b₁ args s θ).1.safeSet = (updateSafeSet W b₂ args s θ).1.safeSet ∧
    (updateSafeSet W b₁ args s θ).1.refinement = (updateSafeSet W b₂ args s θ).1.refinement := by
  intro s
  have hcon : s.Consistent prog tau initial adaptive :=
    consistent_run W _ history hh (consistent_new W prog tau initial adaptive θ₀)
  obtain ⟨s₁, e₁, hcall₁, -, -, -, -, -, -, -, -, hsafe₁, href₁, -⟩ :=
    updateSafeSet_nonadaptive W hW hn b₁ hb₁ args s θ (hcon.call hna).1 (hcon.call hna).2
  obtain ⟨s₂, e₂, hcall₂, -, -, -, -, -, -, -, -, hsafe₂, href₂, -⟩ :=
    updateSafeSet_nonadaptive W hW hn b₂ hb₂ args s θ (hcon.call hna).1 (hcon.call hna).2
  rw [hcall₁, hcall₂]
  have hflag : ∀ j, s.startFlag args.canShrink j = s.initialMem j := by
    intro j; unfold startFlag; rw [hc, if_pos rfl]
  constructor
  · funext j
    rw [Bool.eq_iff_iff, hsafe₁ j, hsafe₂ j, hflag]
    exact or_absorb
  · funext j
    rw [href₁ j, href₂ j]
    unfold startRef
    rw [hc]
    simp only [if_true]
    by_cases hI : s.initialMem j = true
    · simp [hI]
    · simp [hI]

/-! ## C21 -/

/-- **C21** After any history of operations (also assignments to attributes and calls that raised
an exception) every state of the initial safe set is in the safe set. -/
theorem C21_initial_set_kept (W : World K Prog Θ n) (prog : Prog) (tau : K)
    (initial : Option (Fin n → Bool)) (adaptive : Bool) (θ₀ : Θ) (history : List (Op K Prog Θ))
    (j : Fin n) (hj : InInitial initial j) :
    (run W (new W prog tau initial adaptive θ₀) history).safeSet j = true := by
  suffices h : ∀ s : Lyap K Prog n, s.initial = initial →
      (∀ j, s.initialMem j = true → s.safeSet j = true) →
      ∀ j, InInitial initial j → (run W s history).safeSet j = true by
    refine h (new W prog tau initial adaptive θ₀) rfl ?_ j hj
    intro j hj
    exact hj
  clear hj j
  induction history with
  | nil =>
    intro s hs h j hj
    exact h j ((initialMem_iff s j).mpr (hs ▸ hj))
  | cons op ops ih =>
    intro s hs h j hj
    refine ih (step W s op) ?_ ?_ j hj
    · cases op with
      | update batch args θ => exact (update_fields W batch args s θ).2.2.2.1.trans hs
      | _ => exact hs
    · cases op with
      | update batch args θ =>
        obtain ⟨-, -, -, h4, -, -, h7, -⟩ := update_fields W batch args s θ
        intro j hj
        apply h7 h
        rw [initialMem_iff] at hj ⊢
        rwa [← h4]
      | _ => exact h

/-! ## C22 -/

/-- The safe set is the initial set plus a prefix of the value order. -/
def PrefixSafe (W : World K Prog Θ n) (s : Lyap K Prog n) : Prop :=
  ∃ p, p ≤ n ∧ ∀ j, s.safeSet j = true ↔ s.initialMem j = true ∨ j ∈ (W.argsort s.values).take p

theorem prefixSafe_update (W : World K Prog Θ n) (hW : W.SortContract) (s : Lyap K Prog n)
    (batch : ℕ) (args : UpdateArgs K) (θ : Θ) (hp : PrefixSafe W s)
    (h : (updateSafeSet W batch args s θ).2 = .ok ()) :
    PrefixSafe W (updateSafeSet W batch args s θ).1 ∧
    (args.canShrink = false → ∀ j, s.safeSet j = true →
      (updateSafeSet W batch args s θ).1.safeSet j = true) := by
  obtain ⟨p, hpn, hp⟩ := hp
  obtain ⟨p', e, hpe, hen, hcert, hsafe⟩ := updateSafeSet_shape W s θ hW batch args h
  obtain ⟨-, -, -, hinit, hval, -⟩ := update_fields W batch args s θ
  have hI : ∀ j, (updateSafeSet W batch args s θ).1.initialMem j = s.initialMem j := by
    intro j; unfold initialMem; rw [hinit]
  set order := W.argsort s.values with horder
  have hlen : order.length = n := argsort_length W hW s.values
  have hnd : order.Nodup := hW.nodup s.values
  -- with `can_shrink=False` the old prefix is part of the new one
  have hpp : args.canShrink = false → p ≤ p' := by
    intro hc
    refine le_trans ?_ hcert
    by_contra hlt
    push Not at hlt
    set q := (order.takeWhile (good W (s.graphFor args.safetyFactor) θ s args.canShrink)).length with hq
    have hqlt : q < order.length := by omega
    have hbad : good W (s.graphFor args.safetyFactor) θ s args.canShrink order[q] = false := by
      exact takeWhile_length_bad _ order hqlt
    have hmem : order[q] ∈ order.take p := by
      rw [List.mem_take_iff_getElem]; exact ⟨q, by omega, rfl⟩
    have := (hp order[q]).mpr (Or.inr hmem)
    unfold good startFlag at hbad
    rw [hc] at hbad
    simp [this] at hbad
  have hdisj : ∀ j, j ∈ order.take p → j ∈ order.drop e → p ≤ e → False := by
    intro j h1 h2 hle
    have hd := (List.nodup_append.mp ((List.take_append_drop e order).symm ▸ hnd)).2.2
    refine hd j ?_ j h2 rfl
    exact (List.take_subset_take_left _ hle) h1
  constructor
  · refine ⟨p', by omega, fun j => ?_⟩
    rw [hsafe j, hI, hval]
    constructor
    · rintro (h1 | h1 | ⟨h1, h2⟩)
      · exact Or.inl h1
      · exact Or.inr h1
      · left
        unfold startFlag at h2
        cases hc : args.canShrink with
        | true => simpa [hc] using h2
        | false =>
          rw [hc] at h2
          simp only [Bool.false_eq_true, if_false] at h2
          rcases (hp j).mp h2 with h3 | h3
          · exact h3
          · exact (hdisj j h3 h1 (le_trans (hpp hc) hpe)).elim
    · rintro (h1 | h1)
      · exact Or.inl h1
      · exact Or.inr (Or.inl h1)
  · intro hc j hj
    rw [hsafe j]
    rcases (hp j).mp hj with h1 | h1
    · exact Or.inl h1
    · exact Or.inr (Or.inl ((List.take_subset_take_left _ (hpp hc)) h1))

/-- **C22** (partial: the Lyapunov values do not change during the history). After any history of
operations in which the Lyapunov values stay the same, `update_safe_set(can_shrink=False)`, adaptive
or not, keeps every state that was safe before the call. The full statement, without the condition
on the values, is refuted below. -/
theorem C22_cannot_shrink_partial (W : World K Prog Θ n) (hW : W.SortContract)
    (prog : Prog) (tau : K) (initial : Option (Fin n → Bool)) (adaptive : Bool) (θ₀ : Θ)
    (history : List (Op K Prog Θ))
    (hval : ∀ θ, .updateValues θ ∈ history → W.lyapunov θ = W.lyapunov θ₀)
    (batch : ℕ) (args : UpdateArgs K) (hc : args.canShrink = false) (θ : Θ) :
    let s := run W (new W prog tau initial adaptive θ₀) history
    ∀ j, s.safeSet j = true → (updateSafeSet W batch args s θ).1.safeSet j = true := by
  have hinv : ∀ (ops : List (Op K Prog Θ)),
      (∀ θ, .updateValues θ ∈ ops → W.lyapunov θ = W.lyapunov θ₀) →
      ∀ s : Lyap K Prog n, s.values = W.lyapunov θ₀ → PrefixSafe W s →
      PrefixSafe W (run W s ops) := by
    intro ops
    induction ops with
    | nil => intro _ s _ hp; exact hp
    | cons op ops ih =>
      intro hv s hs hp
      refine ih (fun θ h => hv θ (by simp [h])) (step W s op) ?_ ?_
      · cases op with
        | update batch args θ => exact (update_fields W batch args s θ).2.2.2.2.1.trans hs
        | updateValues θ => exact hv θ (by simp)
        | _ => exact hs
      · cases op with
        | update batch args θ =>
          cases hr : (updateSafeSet W batch args s θ).2 with
          | ok u => exact (prefixSafe_update W hW s batch args θ hp hr).1
          | error e =>
            obtain ⟨-, -, -, h4, h5, -, -, h8⟩ := update_fields W batch args s θ
            obtain ⟨p, hpn, hp⟩ := hp
            refine ⟨p, hpn, fun j => ?_⟩
            change (updateSafeSet W batch args s θ).1.safeSet j = true ↔ _
            rw [h8 e hr, hp j]
            change _ ↔ (updateSafeSet W batch args s θ).1.initialMem j = true ∨
              j ∈ (W.argsort (updateSafeSet W batch args s θ).1.values).take p
            rw [h5]
            unfold initialMem
            rw [h4]
        | updateValues θ =>
          have hv' : W.lyapunov θ = s.values := by rw [hs]; exact hv θ (by simp)
          obtain ⟨p, hpn, hp⟩ := hp
          refine ⟨p, hpn, fun j => ?_⟩
          change s.safeSet j = true ↔ s.initialMem j = true ∨ j ∈ (W.argsort (W.lyapunov θ)).take p
          rw [hv']; exact hp j
        | _ => exact hp
  intro s j hj
  have hp : PrefixSafe W s := hinv history hval _ rfl
    ⟨0, by omega, fun j => by
      simp only [List.take_zero, List.not_mem_nil, or_false]
      rfl⟩
  cases hr : (updateSafeSet W batch args s θ).2 with
  | ok u => exact (prefixSafe_update W hW s batch args θ hp hr).2 hc j hj
  | error e =>
    rw [(update_fields W batch args s θ).2.2.2.2.2.2.2 e hr]
    exact hj

/-- Two states; the flag selects the values and the outcome of the decrease condition. -/
def shrinkWorld : World ℚ Unit Bool 2 :=
  tableWorld (fun _ θ j => if θ then 1 else (j.val : ℚ)) (fun _ _ _ => 1 / 2)
    (fun θ j => if θ then 1 - j.val else j.val)

/-- **C22** is false in general: after the Lyapunov values change, `can_shrink=False` can remove a
safe state. Here state 0 is certified first; the values are then updated so that state 1 comes
first, it is not certified, and the code clears the rest of the batch, including state 0. -/
theorem C22_cannot_shrink_refuted :
    ∃ (W : World ℚ Unit Bool 2) (_ : W.SortContract) (history : List (Op ℚ Unit Bool)),
      (∀ op ∈ history, op.IsMethod) ∧
      let s := run W (new W () 1 none false false) history
      let r := updateSafeSet W 10 ⟨false, 1, 1⟩ s true
      s.safeSet 0 = true ∧ r.2 = .ok () ∧ r.1.safeSet 0 = false := by
  refine ⟨shrinkWorld, tableWorld_sort _ _ _, [.update 10 ⟨true, 1, 1⟩ false, .updateValues true],
    ?_, ?_⟩
  · intro op hop
    simp only [List.mem_cons, List.not_mem_nil, or_false] at hop
    rcases hop with rfl | rfl <;> trivial
  · decide +kernel

/-! ## C23 -/

/-- **C23** (partial). If some state is not certified but the state of smallest value is, or if all
states are certified and the grid fits into one batch, then `c_max` is the largest value of the
certified level set, which contains all states with a smaller value and makes up the safe set together with the initial set. Missing: the two situations
refuted below. -/
theorem C23_c_max_partial (W : World K Prog Θ n) (hW : W.SortContract) (hn : 0 < n)
    (prog : Prog) (tau : K) (initial : Option (Fin n → Bool)) (adaptive : Bool) (θ₀ : Θ)
    (history : List (Op K Prog Θ)) (hh : ∀ op ∈ history, op.IsMethod)
    (batch : ℕ) (hb : 0 < batch) (args : UpdateArgs K) (hc : args.canShrink = true) (θ : Θ)
    (hna : ¬(adaptive = true ∧ 1 < args.maxRefinement)) :
    let s := run W (new W prog tau initial adaptive θ₀) history
    let r := updateSafeSet W batch args s θ
    let good := fun j => InInitial initial j ∨ W.decrease prog θ j < W.threshold θ j tau
    ((∃ j, ¬ good j) ∧ (∀ j, (∀ i, s.values j ≤ s.values i) → good j)) ∨
      ((∀ j, good j) ∧ n ≤ batch) →
    ∃ P, Spec.IsLargestLevelSet s.values good P ∧ Spec.IsTopValue s.values P r.1.cMax ∧
      (∀ j, s.values j < r.1.cMax → j ∈ P) ∧ ∀ j, r.1.safeSet j = true ↔ InInitial initial j ∨ j ∈ P := by
  intro s r good' hyp
  have hcon : s.Consistent prog tau initial adaptive :=
    consistent_run W _ history hh (consistent_new W prog tau initial adaptive θ₀)
  obtain ⟨s', e, hcall, -, -, -, -, -, -, -, -, hsafe, -, hc1, -, hc3, -⟩ :=
    updateSafeSet_nonadaptive W hW hn batch hb args s θ (hcon.call hna).1 (hcon.call hna).2
  have hr : r = (s', .ok ()) := hcall
  set order := W.argsort s.values with horder
  set cert := order.takeWhile (good W (s.graphFor args.safetyFactor) θ s args.canShrink) with hcertdef
  have hlen : order.length = n := argsort_length W hW s.values
  have hflag : ∀ j, s.startFlag args.canShrink j = true ↔ InInitial initial j := by
    intro j; unfold startFlag; rw [hc, if_pos rfl, initialMem_iff, hcon.hinitial]
  have hgood : ∀ j, good W (s.graphFor args.safetyFactor) θ s args.canShrink j = true ↔ good' j := by
    intro j; rw [good_iff W s hcon, hflag]
  have hP := isLargestLevelSet_takeWhile s.values order
      (good W (s.graphFor args.safetyFactor) θ s args.canShrink) (hW.sorted _) (hW.complete _)
  rw [← hcertdef] at hP
  have hfun : (fun j => good W (s.graphFor args.safetyFactor) θ s args.canShrink j = true) = good' :=
    funext fun j => propext (hgood j)
  rw [hfun] at hP
  have hle : cert.length ≤ n := (List.takeWhile_sublist _).length_le.trans_eq hlen
  have hpre : cert = order.take cert.length := List.prefix_iff_eq_take.mp (List.takeWhile_prefix _)
  have hmem : ∀ j, j ∈ cert ↔ j ∈ order.take cert.length := fun j => by rw [← hpre]
  -- the last element of the prefix has the largest value
  have htop : ∀ top, order[cert.length - 1]? = some top → 0 < cert.length →
      Spec.IsTopValue s.values {j | j ∈ cert} (s.values top) := by
    intro top ht h0
    obtain ⟨hlt, rfl⟩ := List.getElem?_eq_some_iff.mp ht
    have hsorted := hW.sorted s.values
    refine ⟨⟨order[cert.length - 1], ?_, rfl⟩, ?_⟩
    · change _ ∈ cert
      rw [hmem, List.mem_take_iff_getElem]
      exact ⟨cert.length - 1, by omega, rfl⟩
    · intro j hj
      change j ∈ cert at hj
      rw [hmem, List.mem_take_iff_getElem] at hj
      obtain ⟨k, hk, rfl⟩ := hj
      rcases Nat.lt_or_ge k (cert.length - 1) with h1 | h1
      · have hk' : k < order.length := by omega
        exact List.pairwise_iff_getElem.mp hsorted k (cert.length - 1) hk' hlt h1
      · have : k = cert.length - 1 := by omega
        subst this; exact le_refl _
  have hfinish : ∀ top, order[cert.length - 1]? = some top → 0 < cert.length →
      s'.cMax = s.values top →
      ∃ P, Spec.IsLargestLevelSet s.values good' P ∧ Spec.IsTopValue s.values P r.1.cMax ∧
        (∀ j, s.values j < r.1.cMax → j ∈ P) ∧ ∀ j, r.1.safeSet j = true ↔ InInitial initial j ∨ j ∈ P := by
    intro top ht h0 hcm
    have hT := htop top ht h0
    refine ⟨{j | j ∈ cert}, hP, by rw [hr]; simp only [hcm]; exact hT, ?_, ?_⟩
    · intro j hj
      rw [hr] at hj
      simp only [hcm] at hj
      obtain ⟨t, ht', hte⟩ := hT.1
      exact hP.lower j t ht' (by rw [hte]; exact hj)
    · intro j
      rw [hr]
      have h1 : InInitial initial j ↔ s.initialMem j = true := by rw [initialMem_iff, hcon.hinitial]
      show s'.safeSet j = true ↔ _ ∨ j ∈ cert
      rw [hsafe j, hflag, h1]
      exact ⟨fun h => h.elim Or.inl fun h => h.elim Or.inr fun h => Or.inl h.2,
        fun h => h.elim Or.inl fun h => Or.inr (Or.inl h)⟩
  rcases hyp with ⟨⟨b, hbad⟩, hfirst⟩ | ⟨hall, hnb⟩
  · have hlt : cert.length < n := by
      by_contra hge
      have hl : cert.length = order.length := by omega
      have : cert = order := by rw [hpre, hl, List.take_length]
      have hbm : b ∈ cert := by rw [this]; exact hW.complete _ b
      exact hbad ((hgood b).mp (List.mem_takeWhile_imp hbm))
    have hpos : 0 < cert.length := by
      rcases Nat.eq_zero_or_pos cert.length with h0 | h0
      · exfalso
        -- the first state of the order has the smallest value
        have h1 : 0 < order.length := by omega
        have hmin : ∀ i, s.values order[0] ≤ s.values i := by
          intro i
          obtain ⟨k, hk, rfl⟩ := List.getElem_of_mem (hW.complete s.values i)
          rcases Nat.eq_zero_or_pos k with h2 | h2
          · subst h2; exact le_refl _
          · exact List.pairwise_iff_getElem.mp (hW.sorted s.values) 0 k h1 hk h2
        have h2 := (hgood order[0]).mpr (hfirst _ hmin)
        have h3 : cert ≠ [] := by
          rw [hcertdef]
          intro h4
          cases ho : order with
          | nil => rw [ho] at h1; simp at h1
          | cons a l =>
            have h5 : order[0] = a := by simp [ho]
            rw [h5] at h2
            rw [ho, List.takeWhile_cons, if_pos h2] at h4
            cases h4
        exact h3 (List.length_eq_zero_iff.mp h0)
      · exact h0
    obtain ⟨top, ht, hcm⟩ := hc1 hlt hpos
    exact hfinish top ht hpos hcm
  · have hcert : cert = order := takeWhile_eq_self_of_all _ _ fun j _ => (hgood j).mpr (hall j)
    have hcl : cert.length = n := by rw [hcert, hlen]
    obtain ⟨i, top, ⟨q, hq⟩, hi, hin, ht, hcm⟩ := hc3 hcl
    have hi0 : i = 0 := by
      rcases Nat.eq_zero_or_pos q with h0 | h0
      · simp [hq, h0]
      · exfalso
        have : 1 * batch ≤ q * batch := Nat.mul_le_mul_right _ h0
        omega
    rw [if_pos hi0] at ht
    exact hfinish top (by rw [hcl]; exact ht) (by omega) hcm

/-- What happens if even the state of smallest value is not certified: the safe set is the initial
set but `c_max` is the *largest* value on the whole grid. -/
theorem C23_c_max_wraps_when_nothing_certified (W : World K Prog Θ n) (hW : W.SortContract)
    (hn : 0 < n) (prog : Prog) (tau : K) (initial : Option (Fin n → Bool)) (adaptive : Bool) (θ₀ : Θ)
    (history : List (Op K Prog Θ)) (hh : ∀ op ∈ history, op.IsMethod)
    (batch : ℕ) (hb : 0 < batch) (args : UpdateArgs K) (hc : args.canShrink = true) (θ : Θ)
    (hna : ¬(adaptive = true ∧ 1 < args.maxRefinement)) :
    let s := run W (new W prog tau initial adaptive θ₀) history
    let r := updateSafeSet W batch args s θ
    (∀ j, (∀ i, s.values j ≤ s.values i) →
      ¬ InInitial initial j ∧ ¬ W.decrease prog θ j < W.threshold θ j tau) →
    (∀ j, r.1.safeSet j = true ↔ InInitial initial j) ∧
      Spec.IsTopValue s.values Set.univ r.1.cMax := by
  intro s r hbad
  have hcon : s.Consistent prog tau initial adaptive :=
    consistent_run W _ history hh (consistent_new W prog tau initial adaptive θ₀)
  obtain ⟨s', e, hcall, -, -, -, -, -, -, -, -, hsafe, -, -, hc2, -, -⟩ :=
    updateSafeSet_nonadaptive W hW hn batch hb args s θ (hcon.call hna).1 (hcon.call hna).2
  have hr : r = (s', .ok ()) := hcall
  set order := W.argsort s.values with horder
  have hlen : order.length = n := argsort_length W hW s.values
  have hflag : ∀ j, s.startFlag args.canShrink j = true ↔ InInitial initial j := by
    intro j; unfold startFlag; rw [hc, if_pos rfl, initialMem_iff, hcon.hinitial]
  have h1 : 0 < order.length := by omega
  have hmin : ∀ i, s.values order[0] ≤ s.values i := by
    intro i
    obtain ⟨k, hk, rfl⟩ := List.getElem_of_mem (hW.complete s.values i)
    rcases Nat.eq_zero_or_pos k with h2 | h2
    · subst h2; exact le_refl _
    · exact List.pairwise_iff_getElem.mp (hW.sorted s.values) 0 k h1 hk h2
  have hnot : ¬ good W (s.graphFor args.safetyFactor) θ s args.canShrink order[0] = true := by
    rw [good_iff W s hcon, hflag]
    have := hbad _ hmin
    tauto
  have hnil : order.takeWhile (good W (s.graphFor args.safetyFactor) θ s args.canShrink) = [] := by
    cases ho : order with
    | nil => rfl
    | cons a l =>
      have h5 : order[0] = a := by simp [ho]
      rw [h5] at hnot
      rw [List.takeWhile_cons, if_neg hnot]
  rw [hnil] at hsafe hc2
  obtain ⟨top, ht, hcm⟩ := hc2 rfl
  rw [hr]
  refine ⟨fun j => ?_, ⟨top, trivial, hcm.symm⟩, ?_⟩
  · rw [hsafe j, initialMem_iff, hcon.hinitial, hflag]
    simp
  · intro j _
    simp only [hcm]
    obtain ⟨hlt, rfl⟩ := List.getElem?_eq_some_iff.mp ht
    obtain ⟨k, hk, rfl⟩ := List.getElem_of_mem (hW.complete s.values j)
    rcases Nat.lt_or_ge k (n - 1) with h2 | h2
    · exact List.pairwise_iff_getElem.mp (hW.sorted s.values) k (n - 1) hk hlt h2
    · have h3 : k = n - 1 := by
        have h4 : k < order.length := hk
        omega
      simp only [h3]; exact le_refl _

/-- Four states with values 0, 1, 2, 3. -/
def levelWorld (dec : Fin 4 → ℚ) : World ℚ Unit Unit 4 :=
  tableWorld (fun _ _ => dec) (fun _ _ _ => 0) (fun _ j => j.val)

/-- **C23** is false in general: all four states are certified (the largest certified value is 3),
but with batches of two states `c_max` is 1. -/
theorem C23_c_max_refuted_too_small :
    ∃ (W : World ℚ Unit Unit 4) (_ : W.SortContract),
      let r := updateSafeSet W 2 ⟨true, 1, 1⟩ (new W () 1 none false ()) ()
      r.2 = .ok () ∧ (∀ j, r.1.safeSet j = true) ∧ r.1.values 3 = 3 ∧ r.1.cMax = 1 := by
  refine ⟨levelWorld fun _ => -1, tableWorld_sort _ _ _, ?_⟩
  decide +kernel

/-- **C23** is false in general: no state is certified and the safe set is empty, but `c_max` is the
largest value on the grid. -/
theorem C23_c_max_refuted_too_large :
    ∃ (W : World ℚ Unit Unit 4) (_ : W.SortContract),
      let r := updateSafeSet W 10 ⟨true, 1, 1⟩ (new W () 1 none false ()) ()
      r.2 = .ok () ∧ (∀ j, r.1.safeSet j = false) ∧ r.1.cMax = 3 := by
  refine ⟨levelWorld fun _ => 1, tableWorld_sort _ _ _, ?_⟩
  decide +kernel

/-! ## C24 -/

/-- Two objects with the same attributes and values. -/
theorem call_congr (W : World K Prog Θ n) (hW : W.SortContract) (hn : 0 < n)
    (s₁ s₂ : Lyap K Prog n) {prog : Prog} {tau : K} {initial : Option (Fin n → Bool)}
    {adaptive : Bool} (hcon₁ : s₁.Consistent prog tau initial adaptive)
    (hcon₂ : s₂.Consistent prog tau initial adaptive)
    (batch : ℕ) (hb : 0 < batch) (args : UpdateArgs K) (hc : args.canShrink = true) (θ : Θ)
    (hna : ¬(adaptive = true ∧ 1 < args.maxRefinement)) (hv : s₁.values = s₂.values) :
    (updateSafeSet W batch args s₁ θ).1.safeSet = (updateSafeSet W batch args s₂ θ).1.safeSet ∧
    (updateSafeSet W batch args s₁ θ).1.refinement =
      (updateSafeSet W batch args s₂ θ).1.refinement ∧
    (updateSafeSet W batch args s₁ θ).1.cMax = (updateSafeSet W batch args s₂ θ).1.cMax := by
  obtain ⟨t₁, e₁, hcall₁, -, -, -, -, -, -, -, -, hsafe₁, href₁, hz₁, hp₁, hn₁, -⟩ :=
    updateSafeSet_nonadaptive W hW hn batch hb args s₁ θ (hcon₁.call hna).1 (hcon₁.call hna).2
  obtain ⟨t₂, e₂, hcall₂, -, -, -, -, -, -, -, -, hsafe₂, href₂, hz₂, hp₂, hn₂, -⟩ :=
    updateSafeSet_nonadaptive W hW hn batch hb args s₂ θ (hcon₂.call hna).1 (hcon₂.call hna).2
  rw [hcall₁, hcall₂]
  have hI : ∀ j, s₁.initialMem j = s₂.initialMem j := by
    intro j; unfold initialMem; rw [hcon₁.hinitial, hcon₂.hinitial]
  have hflag₁ : ∀ j, s₁.startFlag args.canShrink j = s₁.initialMem j := by
    intro j; unfold startFlag; rw [hc, if_pos rfl]
  have hflag₂ : ∀ j, s₂.startFlag args.canShrink j = s₂.initialMem j := by
    intro j; unfold startFlag; rw [hc, if_pos rfl]
  have hgood : good W (s₁.graphFor args.safetyFactor) θ s₁ args.canShrink =
      good W (s₂.graphFor args.safetyFactor) θ s₂ args.canShrink := by
    funext j
    rw [Bool.eq_iff_iff, good_iff W s₁ hcon₁, good_iff W s₂ hcon₂, hflag₁, hflag₂, hI]
  have hneg : ∀ j, negative W (s₁.graphFor args.safetyFactor) θ j =
      negative W (s₂.graphFor args.safetyFactor) θ j := by
    intro j
    unfold negative
    rw [(hcon₁.graphFor _).1, (hcon₁.graphFor _).2.1, (hcon₂.graphFor _).1, (hcon₂.graphFor _).2.1]
  refine ⟨?_, ?_, ?_⟩
  · funext j
    rw [Bool.eq_iff_iff, hsafe₁ j, hsafe₂ j, hflag₁, hflag₂, hI, hgood, hv]
    exact or_absorb
  · funext j
    rw [href₁ j, href₂ j, hI, hgood, hv, hneg]
    unfold startRef
    rw [hc]
    simp only [if_true, hI]
    by_cases h : s₂.initialMem j = true
    · simp [h]
    · simp [h]
  · rw [hgood, hv] at hz₁ hp₁ hn₁
    have hle : (List.takeWhile (good W (s₂.graphFor args.safetyFactor) θ s₂ args.canShrink)
        (W.argsort s₂.values)).length ≤ n :=
      (List.takeWhile_sublist _).length_le.trans_eq (argsort_length W hW s₂.values)
    generalize (List.takeWhile (good W (s₂.graphFor args.safetyFactor) θ s₂ args.canShrink)
        (W.argsort s₂.values)).length = m at hle hz₁ hp₁ hn₁ hz₂ hp₂ hn₂
    generalize W.argsort s₂.values = order at hz₁ hp₁ hn₁ hz₂ hp₂ hn₂
    clear hsafe₁ hsafe₂ href₁ href₂ hgood hflag₁ hflag₂ hneg hcall₁ hcall₂
    rcases Nat.eq_zero_or_pos m with h0 | h0
    · obtain ⟨t₁, ht₁, hc₁⟩ := hp₁ h0
      obtain ⟨t₂, ht₂, hc₂⟩ := hp₂ h0
      rw [ht₁] at ht₂; cases ht₂
      simp only [hc₁, hc₂]
    · rcases Nat.lt_or_ge m n with h1 | h1
      · obtain ⟨t₁, ht₁, hc₁⟩ := hz₁ h1 h0
        obtain ⟨t₂, ht₂, hc₂⟩ := hz₂ h1 h0
        rw [ht₁] at ht₂; cases ht₂
        simp only [hc₁, hc₂]
      · obtain ⟨i₁, t₁, ⟨q₁, hq₁⟩, hi₁, hj₁, ht₁, hc₁⟩ := hn₁ (by omega)
        obtain ⟨i₂, t₂, ⟨q₂, hq₂⟩, hi₂, hj₂, ht₂, hc₂⟩ := hn₂ (by omega)
        have e1 : q₁ < q₂ + 1 := Nat.lt_of_mul_lt_mul_right (a := batch) (by
          rw [Nat.add_mul]; omega)
        have e2 : q₂ < q₁ + 1 := Nat.lt_of_mul_lt_mul_right (a := batch) (by
          rw [Nat.add_mul]; omega)
        have e3 : q₁ = q₂ := by omega
        rw [hq₁, e3] at ht₁
        rw [hq₂] at ht₂
        rw [ht₁] at ht₂; cases ht₂
        simp only [hc₁, hc₂]

/-- **C24** The outcome of `update_safe_set(can_shrink=True)` without adaptive refinement is the same
for two objects with the same attributes, whatever their histories and previous safe sets. -/
theorem C24_history_independent (W : World K Prog Θ n) (hW : W.SortContract) (hn : 0 < n)
    (prog : Prog) (tau : K) (initial : Option (Fin n → Bool)) (adaptive : Bool) (θ₁ θ₂ : Θ)
    (history₁ history₂ : List (Op K Prog Θ)) (hh₁ : ∀ op ∈ history₁, op.IsMethod)
    (hh₂ : ∀ op ∈ history₂, op.IsMethod)
    (batch : ℕ) (hb : 0 < batch) (args : UpdateArgs K) (hc : args.canShrink = true) (θ : Θ)
    (hna : ¬(adaptive = true ∧ 1 < args.maxRefinement)) :
    let s₁ := run W (new W prog tau initial adaptive θ₁) history₁
    let s₂ := run W (new W prog tau initial adaptive θ₂) history₂
    s₁.values = s₂.values →
    (updateSafeSet W batch args s₁ θ).1.safeSet = (updateSafeSet W batch args s₂ θ).1.safeSet ∧
    (updateSafeSet W batch args s₁ θ).1.refinement =
      (updateSafeSet W batch args s₂ θ).1.refinement ∧
    (updateSafeSet W batch args s₁ θ).1.cMax = (updateSafeSet W batch args s₂ θ).1.cMax := by
  intro s₁ s₂ hv
  have hcon₁ : s₁.Consistent prog tau initial adaptive :=
    consistent_run W _ history₁ hh₁ (consistent_new W prog tau initial adaptive θ₁)
  have hcon₂ : s₂.Consistent prog tau initial adaptive :=
    consistent_run W _ history₂ hh₂ (consistent_new W prog tau initial adaptive θ₂)
  exact call_congr W hW hn s₁ s₂ hcon₁ hcon₂ batch hb args hc θ hna hv

/-- **C24** Calling `update_safe_set(can_shrink=True)` twice gives the same safe set, refinement and
`c_max` as calling it once. -/
theorem C24_idempotent (W : World K Prog Θ n) (hW : W.SortContract) (hn : 0 < n)
    (prog : Prog) (tau : K) (initial : Option (Fin n → Bool)) (adaptive : Bool) (θ₀ : Θ)
    (history : List (Op K Prog Θ)) (hh : ∀ op ∈ history, op.IsMethod)
    (batch : ℕ) (hb : 0 < batch) (args : UpdateArgs K) (hc : args.canShrink = true) (θ : Θ)
    (hna : ¬(adaptive = true ∧ 1 < args.maxRefinement)) :
    let s := run W (new W prog tau initial adaptive θ₀) history
    let once := (updateSafeSet W batch args s θ).1
    let twice := (updateSafeSet W batch args once θ).1
    twice.safeSet = once.safeSet ∧ twice.refinement = once.refinement ∧ twice.cMax = once.cMax := by
  intro s once twice
  have := C24_history_independent W hW hn prog tau initial adaptive θ₀ θ₀
    (history ++ [.update batch args θ]) history
    (by
      intro op hop
      rcases List.mem_append.mp hop with h | h
      · exact hh op h
      · rw [List.mem_singleton] at h; subst h; trivial) hh batch hb args hc θ hna
  simp only [run, List.foldl_append, List.foldl_cons, List.foldl_nil] at this
  refine this ?_
  exact (update_fields W batch args s θ).2.2.2.2.1

/-! ## Concrete cases that meet the hypotheses -/

/-- States 0, 1, 2 are certified, state 3 is not. -/
def exampleDec : Fin 4 → ℚ := ![-1, -2, -1/2, 1]

/-- A history with a previous call and an update of the values. -/
def exampleHistory : List (Op ℚ Unit Unit) :=
  [.update 3 ⟨true, 1, 1⟩ (), .updateValues (), .update 0 ⟨false, 1, 2⟩ ()]

theorem exampleHistory_methods : ∀ op ∈ exampleHistory, op.IsMethod := by
  intro op hop
  simp only [exampleHistory, List.mem_cons, List.not_mem_nil, or_false] at hop
  rcases hop with rfl | rfl | rfl <;> trivial

example := C19_safe_set_sound (levelWorld exampleDec) (tableWorld_sort _ _ _) (by decide) () 1
  (some ![true, false, false, false]) false () exampleHistory exampleHistory_methods 2 (by decide)
  ⟨true, 1, 1⟩ () (by simp)

example := C20_largest_level_set (levelWorld exampleDec) (tableWorld_sort _ _ _) (by decide) () 1
  (some ![true, false, false, false]) false () exampleHistory exampleHistory_methods 2 (by decide)
  ⟨true, 1, 1⟩ rfl () (by simp)

/-- The certified level set of the example is not trivial. -/
example : let W := levelWorld exampleDec
    let s := run W (new W () 1 (some ![true, false, false, false]) false ()) exampleHistory
    let r := updateSafeSet W 2 ⟨true, 1, 1⟩ s ()
    r.2 = .ok () ∧ r.1.safeSet = ![true, true, true, false] ∧ r.1.cMax = 2 := by decide +kernel

example := C20_batch_independent (levelWorld exampleDec) (tableWorld_sort _ _ _) (by decide) () 1
  (some ![true, false, false, false]) false () exampleHistory exampleHistory_methods 2 3 (by decide)
  (by decide) ⟨true, 1, 1⟩ rfl () (by simp)

example : (run (levelWorld fun _ => 1) (new (levelWorld fun _ => 1) () 1
    (some ![false, true, false, false]) false ())
    (exampleHistory ++ [.setTau 3, .setAdaptive true, .update 2 ⟨true, 5, 1⟩ ()])).safeSet 1 = true :=
  C21_initial_set_kept _ () 1 _ false () _ 1 ⟨_, rfl, rfl⟩

example := C22_cannot_shrink_partial (levelWorld exampleDec) (tableWorld_sort _ _ _) () 1
  (some ![true, false, false, false]) false () exampleHistory (fun _ _ => rfl) 2
  ⟨false, 1, 1⟩ rfl ()

example := C23_c_max_partial (levelWorld exampleDec) (tableWorld_sort _ _ _) (by decide) () 1
  (some ![true, false, false, false]) false () exampleHistory exampleHistory_methods 2 (by decide)
  ⟨true, 1, 1⟩ rfl () (by simp) (Or.inl ⟨⟨3, by
    rintro (⟨I, hI, h⟩ | h)
    · cases hI; revert h; decide
    · revert h; decide +kernel⟩, by
    intro j hj
    have h0 : j = 0 := by
      have := hj 0
      revert j; decide +kernel
    subst h0
    exact Or.inl ⟨_, rfl, rfl⟩⟩)

example := C23_c_max_wraps_when_nothing_certified (levelWorld fun _ => 1) (tableWorld_sort _ _ _)
  (by decide) () 1 none false () exampleHistory exampleHistory_methods 2 (by decide)
  ⟨true, 1, 1⟩ rfl () (by simp) (by
    intro j _
    refine ⟨fun ⟨I, hI, _⟩ => (by cases hI), ?_⟩
    clear * -
    revert j; decide +kernel)

example := C24_history_independent (levelWorld exampleDec) (tableWorld_sort _ _ _) (by decide) () 1
  (some ![true, false, false, false]) false () () exampleHistory [] exampleHistory_methods (by simp)
  2 (by decide) ⟨true, 1, 1⟩ rfl () (by simp) (by decide +kernel)

example := C24_idempotent (levelWorld exampleDec) (tableWorld_sort _ _ _) (by decide) () 1
  (some ![true, false, false, false]) false () exampleHistory exampleHistory_methods
  2 (by decide) ⟨true, 1, 1⟩ rfl () (by simp)

end Lyap

end SafeLearning
