import Verif.Model.Utilities
import Verif.Spec.Utilities
import Mathlib.Tactic.Linarith
set_option autoImplicit false

/-!
# C46, C47: training constraints and concatenated inputs
-/

namespace SafeLearning

set_option linter.unusedSectionVars false

variable {K : Type} [Field K] [LinearOrder K] [IsStrictOrderedRing K]

/-! ## C46 -/

theorem clipByValue_bounds {lo hi : K} (h : lo ≤ hi) (x : K) : lo ≤ clipByValue x lo hi ∧ clipByValue x lo hi ≤ hi := by
  unfold clipByValue
  exact ⟨le_max_right _ _, max_le (min_le_right _ _) h⟩

theorem clipByValue_eq_self {lo hi x : K} (h1 : lo ≤ x) (h2 : x ≤ hi) : clipByValue x lo hi = x := by
  unfold clipByValue
  rw [min_eq_left h2, max_eq_left h1]

theorem weightConstraint_fold {Var ι : Type} [DecidableEq Var] (val : Var → ι → K)
    (θ0 : Var → ι → K) : ∀ (l : List (Var × (K × K))), (l.map Prod.fst).Nodup → ∀ v : Var,
    l.foldl (fun θ' vb => fun v =>
      if v = vb.1 then fun i => clipByValue (val v i) vb.2.1 vb.2.2 else θ' v) θ0 v =
    match l.find? (fun vb => vb.1 = v) with
    | some vb => fun i => clipByValue (val v i) vb.2.1 vb.2.2
    | none => θ0 v := by
  intro l
  induction l using List.reverseRecOn with
  | nil => intro _ v; rfl
  | append_singleton l e ih =>
    intro hn v
    rw [List.map_append, List.nodup_append] at hn
    rw [List.foldl_append, List.foldl_cons, List.foldl_nil, List.find?_append]
    by_cases hv : v = e.1
    · have : l.find? (fun vb => vb.1 = v) = none := by
        rw [List.find?_eq_none]
        intro x hx
        have := hn.2.2 x.1 (List.mem_map.mpr ⟨x, hx, rfl⟩) e.1 (by simp)
        simpa [hv] using this
      rw [if_pos hv, this]
      simp [hv]
    · have hv' : ¬ e.1 = v := fun h => hv h.symm
      rw [if_neg hv, ih hn.1 v]
      simp [hv']

theorem map_fst_zip_sublist {α β : Type} : ∀ (l : List α) (l' : List β),
    ((l.zip l').map Prod.fst).Sublist l
  | [], _ => by simp
  | _ :: _, [] => by simp
  | a :: l, b :: l' => by
    simp only [List.zip_cons_cons, List.map_cons]
    exact (map_fst_zip_sublist l l').cons_cons a

/-- **C46.** After every run of the operations returned by `add_weight_constraint`, whatever the
optimisation steps did and whichever values the clipping read, every entry of every constrained variable is within its
bounds. The other variables are as the optimisation step left them. -/
theorem C46_weights_in_bounds {Var ι : Type} [DecidableEq Var] (varList : List Var)
    (boundList : List (K × K)) (hn : varList.Nodup) (hb : ∀ b ∈ boundList, b.1 ≤ b.2)
    (runs : List (((Var → ι → K) → Var → ι → K) × (Var → Bool))) (θ : Var → ι → K) :
    let θs := runs.foldl (fun θ r => weightConstraintStep varList boundList r.1 r.2 θ) θ
    ∀ (opt : (Var → ι → K) → Var → ι → K) (stale : Var → Bool),
      let θ' := weightConstraintStep varList boundList opt stale θs
      (∀ v lo hi, (v, (lo, hi)) ∈ varList.zip boundList → ∀ i, lo ≤ θ' v i ∧ θ' v i ≤ hi) ∧
      (∀ v, v ∉ varList → θ' v = opt θs v) ∧
      (∀ v lo hi, (v, (lo, hi)) ∈ varList.zip boundList → stale v = false →
        (∀ i, lo ≤ opt θs v i ∧ opt θs v i ≤ hi) → θ' v = opt θs v) := by
  intro θs opt stale θ'
  have hn' : ((varList.zip boundList).map Prod.fst).Nodup :=
    hn.sublist (map_fst_zip_sublist _ _)
  have key : ∀ v, θ' v = match (varList.zip boundList).find? (fun vb => vb.1 = v) with
      | some vb => fun i => clipByValue ((if stale v then θs else opt θs) v i) vb.2.1 vb.2.2
      | none => opt θs v :=
    weightConstraint_fold (fun v => (if stale v then θs else opt θs) v) (opt θs) _ hn'
  have found : ∀ v lo hi, (v, (lo, hi)) ∈ varList.zip boundList →
      (varList.zip boundList).find? (fun vb => vb.1 = v) = some (v, (lo, hi)) := by
    intro v lo hi hm
    cases hf : (varList.zip boundList).find? (fun vb => vb.1 = v) with
    | none =>
      have := List.find?_eq_none.mp hf _ hm
      simp at this
    | some e =>
      have h1 : e.1 = v := by simpa using List.find?_some hf
      have h2 := List.mem_of_find?_eq_some hf
      have := List.inj_on_of_nodup_map hn' h2 hm h1
      rw [this]
  refine ⟨fun v lo hi hm i => ?_, fun v hv => ?_, fun v lo hi hm hs hin => ?_⟩
  · rw [key, found v lo hi hm]
    exact clipByValue_bounds (hb (lo, hi) (List.of_mem_zip hm).2) _
  · rw [key]
    have : (varList.zip boundList).find? (fun vb => vb.1 = v) = none := by
      rw [List.find?_eq_none]
      rintro ⟨a, b⟩ hx
      have := (List.of_mem_zip hx).1
      simp only [decide_eq_true_eq]
      rintro rfl
      exact hv this
    rw [this]
  · rw [key, found v lo hi hm]
    funext i
    simp only [hs]
    exact clipByValue_eq_self (hin i).1 (hin i).2

/-- **C46.** `gradient_clipping` only applies gradients within the limits, to the same variables in the same order, and
gradients that are within the limits are applied unchanged (when there are limits for every variable). -/
theorem C46_gradient_clipping {Var ι : Type} (gradients : List (Option (ι → K) × Var))
    (limits : List (K × K)) (hl : gradients.length = limits.length)
    (hb : ∀ b ∈ limits, b.1 ≤ b.2) {applied : List ((ι → K) × Var)}
    (h : clippedGradients gradients limits = .ok applied) :
    applied.map Prod.snd = gradients.map Prod.snd ∧
    ∀ (k : ℕ) (g : ι → K) (v : Var), applied[k]? = some (g, v) → ∃ (g0 : ι → K) (lo hi : K),
      gradients[k]? = some (some g0, v) ∧ limits[k]? = some (lo, hi) ∧ (∀ i, lo ≤ g i ∧ g i ≤ hi) ∧
      ∀ i, lo ≤ g0 i → g0 i ≤ hi → g i = g0 i := by
  unfold clippedGradients at h
  induction gradients generalizing limits applied with
  | nil =>
    simp only [List.zip_nil_left, List.mapM_nil, pure, Except.pure, Except.ok.injEq] at h
    subst h
    simp
  | cons gv gradients ih =>
    cases limits with
    | nil => simp at hl
    | cons b limits =>
      obtain ⟨g, v⟩ := gv
      simp only [List.zip_cons_cons, List.mapM_cons, bind, Except.bind] at h
      cases g with
      | none => simp [clipGradient] at h
      | some g =>
        simp only [clipGradient] at h
        cases hr : (gradients.zip limits).mapM (clipGradient (K := K) (Var := Var) (ι := ι)) with
        | error e => simp [hr] at h
        | ok rest =>
          simp only [hr, pure, Except.pure, Except.ok.injEq] at h
          subst h
          obtain ⟨i1, i2⟩ := ih limits (by simpa using hl)
            (fun b hb' => hb b (List.mem_cons_of_mem _ hb')) hr
          refine ⟨by simp [i1], fun k g' v' hk => ?_⟩
          cases k with
          | zero =>
            simp only [List.getElem?_cons_zero, Option.some.injEq, Prod.mk.injEq] at hk
            obtain ⟨rfl, rfl⟩ := hk
            exact ⟨g, b.1, b.2, rfl, rfl, fun i => clipByValue_bounds (hb b (by simp)) _,
              fun i => clipByValue_eq_self⟩
          | succ k => exact i2 k g' v' (by simpa using hk)

/-- A concrete step: the second variable is pushed out of its bounds by the optimiser and clipped back. -/
example : [4, 7, 8].map (fun v => weightConstraintStep (K := ℚ) (Var := ℕ) (ι := Unit) [4, 7]
    [(0, 1), (-1, 2)] (fun θ v i => 3 * θ v i) (fun _ => false) (fun v _ => v / 8) v ()) =
    [1, 2, 3] := by decide +kernel

/-- A concrete call of `gradient_clipping`. -/
example : (match clippedGradients (K := ℚ) (Var := ℕ) (ι := Unit)
      [(some fun _ => 5, 0), (some fun _ => -1 / 2, 1)] [(-1, 1), (-1, 1)] with
    | .ok l => decide (l.map (fun e => (e.1 (), e.2)) = [(1, 0), (-1 / 2, 1)])
    | .error _ => false) = true := by decide +kernel

/-! ## C47 -/

/-- The matrix (list of rows) whose row `i` is the concatenation of the rows `i` of the given matrices. -/
def _root_.Spec.joinColumns {α : Type} (N : ℕ) (ms : List (List (List α))) : List (List α) :=
  (List.range N).map fun i => (ms.map fun m => m.getD i []).flatten

theorem hstack_eq {α : Type} (N : ℕ) : ∀ (ms : List (List (List α))), ms ≠ [] →
    (∀ m ∈ ms, m.length = N) → hstack ms = .ok (Spec.joinColumns N ms)
  | [], h, _ => absurd rfl h
  | [m], _, hm => by
    have hN := hm m (by simp)
    simp only [hstack, Spec.joinColumns, List.map_cons, List.map_nil, List.flatten_cons,
      List.flatten_nil, List.append_nil, Except.ok.injEq]
    apply List.ext_getElem
    · simp [hN]
    · intro i h1 h2
      simp [List.getD_eq_getElem?_getD, h1]
  | m :: m' :: ms, _, hm => by
    have ih := hstack_eq N (m' :: ms) (by simp) fun m hm' => hm m (List.mem_cons_of_mem _ hm')
    have hN := hm m (by simp)
    rw [hstack, ih]
    · have hl : m.length = (Spec.joinColumns N (m' :: ms)).length := by simp [Spec.joinColumns, hN]
      simp only [bind, Except.bind, hl, if_true, Except.ok.injEq]
      apply List.ext_getElem
      · simp [Spec.joinColumns, hN]
      · intro i h1 h2
        have hi : i < m.length := by
          simp only [List.length_zipWith] at h1
          omega
        simp [Spec.joinColumns, List.getD_eq_getElem?_getD, hi]
    · simp

theorem hstack_mismatch {α : Type} : ∀ (ms : List (List (List α))) (r : List (List α)),
    hstack ms = .ok r → ∀ m ∈ ms, m.length = r.length
  | [], _, h => by simp [hstack] at h
  | [m], r, h => by
    simp only [hstack, Except.ok.injEq] at h
    simp [h]
  | m :: m' :: ms, r, h => by
    rw [hstack] at h
    · cases hr : hstack (m' :: ms) with
      | error e => simp [hr, bind, Except.bind] at h
      | ok r' =>
        simp only [hr, bind, Except.bind] at h
        split_ifs at h with hl
        simp only [Except.ok.injEq] at h
        have ih := hstack_mismatch (m' :: ms) r' hr
        have hrl : r.length = r'.length := by
          rw [← h]
          simp [hl]
        intro x hx
        rcases List.mem_cons.mp hx with rfl | hx
        · omega
        · rw [ih x hx, hrl]
    · simp

theorem tfConcat_matrices {α : Type} (ms : List (List (List α))) :
    tfConcat (ms.map Arr.matrix) = hstack ms := by
  have : ∀ ms : List (List (List α)), (ms.map Arr.matrix).mapM Arr.asMatrix = .ok ms := by
    intro ms
    induction ms with
    | nil => rfl
    | cons m ms ih =>
      simp only [List.map_cons, List.mapM_cons, bind, Except.bind, ih, Arr.asMatrix]
      rfl
  unfold tfConcat
  rw [this]
  rfl

/-- **C47.** A function wrapped by `concatenate_inputs` and called with any positive number of matrices with the same number of
rows, given as numpy arrays or tensors, is called once with the matrix that has
the rows of all arguments side by side; the arguments before `start` are passed on. -/
theorem C47_concatenates {α β γ : Type} (f : β → Arr α → Except PyErr γ) (isTf : Bool) (pre : β)
    (N : ℕ) (ms : List (List (List α))) (hne : ms ≠ []) (hm : ∀ m ∈ ms, m.length = N) :
    concatenated f isTf pre (ms.map Arr.matrix) = f pre (.matrix (Spec.joinColumns N ms)) := by
  have hs := hstack_eq N ms hne hm
  match ms, hne with
  | [m], _ =>
    simp only [hstack, Except.ok.injEq] at hs
    cases isTf <;> simp [concatenated, Arr.rows, ← hs]
  | m :: m' :: ms, _ =>
    cases isTf
    · have : ((m :: m' :: ms).map Arr.matrix).map Arr.rows = m :: m' :: ms := by
        rw [List.map_map]
        exact List.map_id _
      simp only [concatenated, Bool.false_eq_true, if_false, List.map_cons] at this ⊢
      rw [this, hs]
      rfl
    · have := tfConcat_matrices (m :: m' :: ms)
      simp only [concatenated, if_true, List.map_cons] at this ⊢
      rw [this, hs]
      rfl

/-- **C47.** Calling the wrapped function with the parts of the input or with their concatenation is the same, for any way to
split the columns into two groups of arguments. -/
theorem C47_transparent {α β γ : Type} (f : β → Arr α → Except PyErr γ) (isTf : Bool) (pre : β)
    (N : ℕ) (ms ms' : List (List (List α))) (hne : ms ≠ [])
    (hm : ∀ m ∈ ms ++ ms', m.length = N) :
    concatenated f isTf pre ((ms ++ ms').map Arr.matrix) =
      concatenated f isTf pre
        [.matrix (Spec.joinColumns N ms), .matrix (Spec.joinColumns N ms')] := by
  rw [C47_concatenates f isTf pre N _ (by simp [hne]) hm]
  have := C47_concatenates f isTf pre N [Spec.joinColumns N ms, Spec.joinColumns N ms'] (by simp)
    (by intro m hm'; simp only [List.mem_cons, List.not_mem_nil, or_false] at hm'
        rcases hm' with rfl | rfl <;> simp [Spec.joinColumns])
  simp only [List.map_cons, List.map_nil] at this
  rw [this]
  congr 2
  unfold Spec.joinColumns
  apply List.map_congr_left
  intro i hi
  have hi' := List.mem_range.mp hi
  simp [List.getD_eq_getElem?_getD, hi']

theorem hstack_error {α : Type} : ∀ (ms : List (List (List α))) (e : PyErr), hstack ms = .error e → e = .valueError
  | [], e, h => by
    simp only [hstack, Except.error.injEq] at h
    exact h.symm
  | [m], e, h => by simp [hstack] at h
  | m :: m' :: ms, e, h => by
    rw [hstack] at h
    · cases hr : hstack (m' :: ms) with
      | error e' =>
        simp only [hr, bind, Except.bind, Except.error.injEq] at h
        exact h ▸ hstack_error (m' :: ms) e' hr
      | ok r' =>
        simp only [hr, bind, Except.bind] at h
        split_ifs at h
        simp only [Except.error.injEq] at h
        exact h.symm
    · simp

/-- **C47.** Two or more matrices with different numbers of rows, and no argument at all, are rejected with `ValueError`: the
function is not called. -/
theorem C47_rejects {α β γ : Type} (f : β → Arr α → Except PyErr γ) (isTf : Bool) (pre : β)
    (ms : List (List (List α))) (h : ms = [] ∨ ∃ m ∈ ms, ∃ m' ∈ ms, m.length ≠ m'.length) :
    concatenated f isTf pre (ms.map Arr.matrix) = .error .valueError := by
  have he : hstack ms = .error .valueError := by
    cases hr : hstack ms with
    | error e => rw [hstack_error ms e hr]
    | ok r =>
      exfalso
      rcases h with rfl | ⟨m, hm, m', hm', hne⟩
      · simp [hstack] at hr
      · exact hne ((hstack_mismatch ms r hr m hm).trans (hstack_mismatch ms r hr m' hm').symm)
  match ms with
  | [] =>
    cases isTf
    · simp [concatenated, hstack, bind, Except.bind]
    · simp [concatenated, tfConcat, hstack, bind, Except.bind, pure, Except.pure]
  | [m] => simp [hstack] at he
  | m :: m' :: ms =>
    cases isTf
    · have : ((m :: m' :: ms).map Arr.matrix).map Arr.rows = m :: m' :: ms := by
        rw [List.map_map]
        exact List.map_id _
      simp only [concatenated, Bool.false_eq_true, if_false, List.map_cons] at this ⊢
      rw [this, he]
      rfl
    · have := tfConcat_matrices (m :: m' :: ms)
      simp only [concatenated, if_true, List.map_cons] at this ⊢
      rw [this, he]
      rfl

theorem asMatrix_error {α : Type} : ∀ (args : List (Arr α)), (∃ a ∈ args, ∀ m, a ≠ .matrix m) →
    args.mapM Arr.asMatrix = .error .valueError
  | [], h => by simp at h
  | a :: args, h => by
    rw [List.mapM_cons]
    cases a with
    | matrix m =>
      have ih := asMatrix_error args (by
        obtain ⟨b, hb, hn⟩ := h
        rcases List.mem_cons.mp hb with rfl | hb
        · exact absurd rfl (hn m)
        · exact ⟨b, hb, hn⟩)
      rw [ih]
      rfl
    | vector v => rfl
    | scalar v => rfl

/-- **C47.** Unlike numpy arguments, tensors with fewer dimensions are rejected with `ValueError` if there are several arguments; a single argument is passed on as it is. -/
theorem C47_tensor_rank {α β γ : Type} (f : β → Arr α → Except PyErr γ) (pre : β) (args : List (Arr α)) :
    (args.length ≠ 1 → (∃ a ∈ args, ∀ m, a ≠ .matrix m) → concatenated f true pre args = .error .valueError) ∧
    ∀ a, concatenated f true pre [a] = f pre a := by
  refine ⟨fun hl h => ?_, fun a => rfl⟩
  have e := asMatrix_error args h
  match args with
  | [] => simp at h
  | [a] => simp at hl
  | a :: a' :: args =>
    simp only [concatenated, if_true, tfConcat, e]
    rfl

example := (C47_tensor_rank (fun (_ : Unit) (a : Arr ℕ) => .ok a.rows) () [.matrix [[1]], .vector [2]]).1 (by simp) ⟨.vector [2], by simp⟩

/-- **C47.** Numpy arguments with fewer dimensions count as a single row. -/
theorem C47_single_rows {α β γ : Type} (f : β → Arr α → Except PyErr γ) (pre : β)
    (args : List (Arr α)) :
    concatenated f false pre args =
      concatenated f false pre (args.map fun a => .matrix a.rows) := by
  match args with
  | [] => rfl
  | [a] => rfl
  | a :: a' :: args =>
    have h : ∀ l : List (Arr α), (l.map fun a => Arr.matrix a.rows).map Arr.rows =
        l.map Arr.rows := by
      intro l
      rw [List.map_map]
      rfl
    have := h (a :: a' :: args)
    simp only [concatenated, Bool.false_eq_true, if_false, List.map_cons] at this ⊢
    rw [this]

/-- A concrete call with a state and an action. -/
example : concatenated (fun (_ : Unit) (a : Arr ℕ) => .ok a.rows) false ()
      [.matrix [[1, 2], [3, 4]], .matrix [[5], [6]]] = .ok [[1, 2, 5], [3, 4, 6]] := rfl

end SafeLearning
