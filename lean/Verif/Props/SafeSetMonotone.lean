import Verif.Props.Confidence
import Verif.Lemmas.ExampleWorld
set_option autoImplicit false

/-!
# C134: better models and more data
-/

namespace SafeLearning

open Lyap Spec

/-! ## Without adaptive refinement -/

theorem mem_takeWhile_mono {α : Type} (p q : α → Bool) (h : ∀ a, p a = true → q a = true) :
    ∀ (l : List α) (a : α), a ∈ l.takeWhile p → a ∈ l.takeWhile q
  | [], a, ha => by simp at ha
  | b :: l, a, ha => by
    by_cases hb : p b = true
    · rw [List.takeWhile_cons_of_pos hb] at ha
      rw [List.takeWhile_cons_of_pos (h b hb)]
      rcases List.mem_cons.mp ha with rfl | ha
      · exact List.mem_cons_self
      · exact List.mem_cons_of_mem _ (mem_takeWhile_mono p q h l a ha)
    · rw [List.takeWhile_cons_of_neg hb] at ha
      simp at ha

section

variable {K : Type} [Field K] [LinearOrder K] [IsStrictOrderedRing K] [FloorRing K] {Prog Θ : Type} {n : ℕ}

/-- **C134, partial.** Two objects with any histories of method calls, with the same values of the Lyapunov function, are updated with `can_shrink=True`; the first call does not refine, the second one may.
If the second one has at least the initial set, at most the decrease bounds and at least the thresholds of the first one and does not raise, then its safe set contains the one of the first.
In particular refinement never certifies less than the check without refinement. Missing: refinement in the first call, see `C134_adaptive_refuted`, and `can_shrink=False`, see `C134_keep_refuted`. -/
theorem C134_monotone_partial (W : World K Prog Θ n) (hW : W.SortContract) (hn : 0 < n)
    (prog prog' : Prog) (tau tau' : K) (initial initial' : Option (Fin n → Bool)) (adaptive adaptive' : Bool) (θ₀ θ₀' : Θ)
    (history history' : List (Op K Prog Θ)) (hh : ∀ op ∈ history, op.IsMethod) (hh' : ∀ op ∈ history', op.IsMethod)
    (batch batch' : ℕ) (hb : 0 < batch) (args args' : UpdateArgs K) (hc : args.canShrink = true)
    (hc' : args'.canShrink = true) (θ θ' : Θ) (hna : ¬(adaptive = true ∧ 1 < args.maxRefinement)) :
    let s := run W (new W prog tau initial adaptive θ₀) history
    let s' := run W (new W prog' tau' initial' adaptive' θ₀') history'
    s.values = s'.values →
    (∀ j, InInitial initial j → InInitial initial' j) →
    (∀ j, W.decrease prog' θ' j ≤ W.decrease prog θ j) → (∀ j, W.threshold θ j tau ≤ W.threshold θ' j tau') →
    (updateSafeSet W batch' args' s' θ').2 = .ok () →
    ∀ j, (updateSafeSet W batch args s θ).1.safeSet j = true → (updateSafeSet W batch' args' s' θ').1.safeSet j = true := by
  intro s s' hv hi hd ht hok j hj
  have hcon : s.Consistent prog tau initial adaptive :=
    consistent_run W _ history hh (consistent_new W prog tau initial adaptive θ₀)
  have hcon' : s'.Consistent prog' tau' initial' adaptive' :=
    consistent_run W _ history' hh' (consistent_new W prog' tau' initial' adaptive' θ₀')
  obtain ⟨r, e, hr, -, -, -, -, -, -, -, -, hsafe, -⟩ :=
    updateSafeSet_nonadaptive W hW hn batch hb args s θ (hcon.call hna).1 (hcon.call hna).2
  obtain ⟨p', e', -, -, hcert, hsafe'⟩ := updateSafeSet_shape W s' θ' hW batch' args' hok
  rw [hr] at hj
  have hflag : ∀ j, s.startFlag args.canShrink j = true ↔ InInitial initial j := by
    intro j
    unfold startFlag
    rw [hc, if_pos rfl, initialMem_iff, hcon.hinitial]
  have hflag' : ∀ j, s'.startFlag args'.canShrink j = true ↔ InInitial initial' j := by
    intro j
    unfold startFlag
    rw [hc', if_pos rfl, initialMem_iff, hcon'.hinitial]
  rcases (hsafe j).mp hj with h | h | ⟨-, h⟩
  · rw [initialMem_iff, hcon.hinitial] at h
    exact (hsafe' j).mpr (Or.inl (by rw [initialMem_iff, hcon'.hinitial]; exact hi j h))
  · refine (hsafe' j).mpr (Or.inr (Or.inl ?_))
    have hmem : j ∈ (W.argsort s'.values).takeWhile (good W (s'.graphFor args'.safetyFactor) θ' s' args'.canShrink) := by
      rw [← hv]
      refine mem_takeWhile_mono _ _ (fun a ha => ?_) _ _ h
      rw [good_iff W s hcon, hflag] at ha
      rw [good_iff W s' hcon', hflag']
      rcases ha with ha | ha
      · exact Or.inl (hi a ha)
      · exact Or.inr ((hd a).trans_lt (ha.trans_le (ht a)))
    rw [List.prefix_iff_eq_take.mp (List.takeWhile_prefix (l := W.argsort s'.values) _)] at hmem
    exact List.take_subset_take_left _ hcert hmem
  · rw [hflag] at h
    exact (hsafe' j).mpr (Or.inl (by rw [initialMem_iff, hcon'.hinitial]; exact hi j h))

end

/-- A case with different policies, histories, batch sizes and initial sets, in which the second object refines. The second policy (`true`) decreases more. -/
def betterWorld : World ℚ Bool Unit 3 :=
  tableWorld (fun p _ j => if p then (if j.val = 1 then -1 / 2 else -3) else if j.val = 0 then -2 else 0) (fun _ _ t => -t) fun _ j => (j.val : ℚ)

example := C134_monotone_partial betterWorld (tableWorld_sort _ _ _) (by decide) false true 1 1 none (some ![true, false, false]) false true () ()
  [.update 2 ⟨true, 1, 1⟩ (), .updateValues ()] [] (by simp [Op.IsMethod]) (by simp) 2 5 (by decide) ⟨true, 1, 1⟩ ⟨true, 4, 11 / 10⟩
  rfl rfl () () (by simp) rfl (by simp [InInitial]) (by decide +kernel) (fun _ => le_rfl) (by decide +kernel)

/-- In this case the safe sets are `{0}` and `{0, 1, 2}`. -/
example : (∀ j, (updateSafeSet betterWorld 2 ⟨true, 1, 1⟩ (new betterWorld false 1 none false ()) ()).1.safeSet j = decide (j = 0)) ∧
    ∀ j, (updateSafeSet betterWorld 2 ⟨true, 4, 11 / 10⟩ (new betterWorld true 1 (some ![true, false, false]) true ()) ()).1.safeSet j = true := by
  decide +kernel

/-! ## With adaptive refinement -/

/-- Three states with the thresholds `-tau`. The first is initially safe, the second one decreases by `1/2`; the decrease of the third depends on the dynamics. -/
def refinedWorld : World ℚ ℚ Unit 3 :=
  tableWorld (fun p _ j => ![-2, -1 / 2, p] j) (fun _ _ t => -t) fun _ j => j.val

/-- **C134, refuted with adaptive refinement.** The two dynamics differ in the bound of the last state only, which is better for the second one: it decreases, by `1/4`, and does not
increase. Nevertheless the second state is no longer safe, although nothing changed for it, with a safety factor larger than one: the refinement now includes the last state,
and all states are compared with the threshold of the second one. -/
theorem C134_adaptive_refuted :
    let I : Option (Fin 3 → Bool) := some ![true, false, false]
    let r := updateSafeSet refinedWorld 10 ⟨true, 10, 11 / 10⟩ (new refinedWorld (1 / 10) 1 I true ()) ()
    let r' := updateSafeSet refinedWorld 10 ⟨true, 10, 11 / 10⟩ (new refinedWorld (-1 / 4) 1 I true ()) ()
    r.2 = .ok () ∧ r'.2 = .ok () ∧ (∀ j, refinedWorld.decrease (-1 / 4) () j ≤ refinedWorld.decrease (1 / 10) () j) ∧
      r.1.safeSet 1 = true ∧ r'.1.safeSet 1 = false := by
  decide +kernel

/-- **C134, refuted for the argument `max_refinement`.** Allowing more refinement makes the second state unsafe. -/
theorem C134_max_refinement_refuted :
    let I : Option (Fin 3 → Bool) := some ![true, false, false]
    let r := updateSafeSet refinedWorld 10 ⟨true, 3, 11 / 10⟩ (new refinedWorld (-1 / 4) 1 I true ()) ()
    let r' := updateSafeSet refinedWorld 10 ⟨true, 5, 11 / 10⟩ (new refinedWorld (-1 / 4) 1 I true ()) ()
    r.2 = .ok () ∧ r'.2 = .ok () ∧ r.1.safeSet 1 = true ∧ r'.1.safeSet 1 = false := by
  decide +kernel

/-- Four states, ordered `0, 3, 1, 2` at first and `0, 1, 2, 3` after the Lyapunov function changed. The state 1 decreases by `1/2`, the state 2 does not decrease. -/
def reorderedWorld : World ℚ Unit Bool 4 :=
  tableWorld (fun _ _ j => ![-2, -1 / 2, 0, -2] j) (fun _ _ t => -t) fun new j => if new then j.val else ![0, 2, 3, 1] j

/-- **C134, refuted for `can_shrink=False`.** The two calls differ in `max_refinement` only. Without refinement the state 3 remains safe; with refinement the state 1 is certified and the state 3 is lost, although the safe set
was not supposed to shrink: the loop over batches of size two stops in the second batch and not in the first one. -/
theorem C134_keep_refuted :
    let I : Option (Fin 4 → Bool) := some ![true, false, false, false]
    let s := run reorderedWorld (new reorderedWorld () 1 I true false) [.update 2 ⟨true, 1, 11 / 10⟩ false, .updateValues true]
    let r := updateSafeSet reorderedWorld 2 ⟨false, 1, 11 / 10⟩ s true
    let r' := updateSafeSet reorderedWorld 2 ⟨false, 4, 11 / 10⟩ s true
    r.2 = .ok () ∧ r'.2 = .ok () ∧ s.safeSet 3 = true ∧ r.1.safeSet 3 = true ∧ r'.1.safeSet 3 = false := by
  decide +kernel

/-! ## More data -/

theorem constant_evaluate (n : ℕ) (s : GPState 1)
    (hs : (constantGP 1).init (List.replicate n [0]) (List.replicate n [1]) = .ok s) (pts : List (List ℝ)) :
    (constantGP 1).evaluate 1 s pts = .ok (fun _ _ => (n : ℝ) / (n + 1), fun _ _ => Real.sqrt (1 / ((n : ℝ) + 1))) := by
  have hl : (List.replicate n ([1] : List ℝ)).length = (List.replicate n ([0] : List ℝ)).length := by simp
  obtain ⟨mean, error, e, he⟩ := C53_posterior (constantGP 1) (by norm_num [constantGP]) 1 (List.replicate n [0])
    (List.replicate n [1]) pts hl s hs
  rw [e]
  have hpd := noisyGram_pd (constantKernel_isKernel zero_le_one) (one_pos : (0 : ℝ) < 1) (List.replicate n ([0] : List ℝ)).get
  have hnoise : (constantGP 1).noise = 1 := rfl
  have hlen : (List.replicate n ([0] : List ℝ)).length = n := by simp
  have hn1 : (n : ℝ) + 1 ≠ 0 := by positivity
  have hmean : ∀ z l, (constantGP 1).mean z l = 0 := fun _ _ => rfl
  have hy : ∀ (i : Fin (List.replicate n ([0] : List ℝ)).length) (l : Fin 1), entryOf (List.replicate n [1]) i (l : ℕ) = 1 := by
    intro i l
    have hi : (i : ℕ) < n := by simpa using i.2
    have : l = 0 := Subsingleton.elim _ _
    subst this
    unfold entryOf
    have : (List.replicate n ([1] : List ℝ)).getD i [] = [1] := by
      rw [List.getD_eq_getElem?_getD, List.getElem?_replicate, if_pos hi]
      rfl
    rw [this]
    rfl
  have e1 : mean = fun _ _ => (n : ℝ) / (n + 1) := by
    ext i l
    rw [(he i l).1, hnoise, posteriorMean_weights hpd, constant_weights]
    simp only [hy, hmean, Finset.sum_const, Finset.card_univ, Fintype.card_fin, nsmul_eq_mul, hlen]
    ring
  have e2 : error = fun _ _ => Real.sqrt (1 / ((n : ℝ) + 1)) := by
    ext i l
    rw [(he i l).2, hnoise, one_mul]
    congr 1
    unfold Spec.posteriorCov
    have := constant_weights _ (pts.get i) (List.replicate n ([0] : List ℝ)).get
    unfold dataWeights at this
    rw [this]
    simp only [dotProduct, constantGP, Finset.sum_const, Finset.card_univ, Fintype.card_fin, nsmul_eq_mul, hlen]
    field_simp
    ring
  rw [e1, e2]

/-- The states 0 and 5/2. -/
noncomputable def twoStates : GridWorld ℝ 1 where
  lo := ![0]
  hi := ![5 / 2]
  num := ![2]

/-- `V(x) = |x|` and dynamics given by a Gaussian process with the constant kernel 1 and noise 1, `beta = 1`. The data of the process are the variables. -/
noncomputable def dataSystem : System ℝ Unit (GPState 1) 1 where
  V := fun _ x => |x 0|
  lv := fun _ => .const 1
  lf := fun _ => .const 0
  closedLoop := fun _ s x =>
    match (constantGP 1).evaluate 1 s [List.ofFn x] with
    | .ok (mean, error) => .uncertain (mean ⟨0, by simp⟩) (error ⟨0, by simp⟩)
    | .error _ => .exact x

theorem dataSystem_loop (n : ℕ) (s : GPState 1)
    (hs : (constantGP 1).init (List.replicate n [0]) (List.replicate n [1]) = .ok s) (x : Fin 1 → ℝ) :
    dataSystem.closedLoop () s x = .uncertain (fun _ => (n : ℝ) / (n + 1)) fun _ => Real.sqrt (1 / ((n : ℝ) + 1)) := by
  simp only [dataSystem, constant_evaluate n s hs]

theorem constant_covered (n : ℕ) : Spec.Covered (constantGP 1) 1 (List.replicate n [0]) (List.replicate n [1]) (fun _ => 1) 1 0 where
  kernel := constantKernel_isKernel zero_le_one
  noise_nonneg := by norm_num [constantGP]
  scale_ne := by norm_num [constantGP]
  length := by simp
  norm := by
    have := normAtMost_span (k := (constantGP 1).kern) (constantKernel_isKernel zero_le_one) (N := 1) (fun _ => [0]) (fun _ => 1) (B := 1) zero_le_one (by
      norm_num [Spec.kernelForm, constantGP])
    convert this using 2 with x
    norm_num [constantGP]
  errors := by
    refine (Finset.sum_eq_zero fun i _ => ?_).trans_le (by norm_num [constantGP])
    have hi : (i : ℕ) < n := by simpa using i.2
    unfold entryOf
    have : (List.replicate n ([1] : List ℝ)).getD i [] = [1] := by
      rw [List.getD_eq_getElem?_getD, List.getElem?_replicate, if_pos hi]
      rfl
    rw [this]
    norm_num
  beta_nonneg := zero_le_one
  factor := by norm_num

theorem twoStates_state (j : Fin twoStates.nindex) : gridState twoStates j 0 = (j : ℕ) * (5 / 2) := by
  unfold gridState GridWorld.ijkToState GridWorld.unit
  have hn : twoStates.nindex = 2 := by simp [GridWorld.nindex, shapeProd, twoStates]
  have hj : (j : ℕ) < 2 := hn ▸ j.2
  have : unravel twoStates.num j 0 = j := by
    simp [unravel, twoStates, shapeProd]
  rw [this]
  simp [twoStates]
  norm_num

theorem dataSystem_assumptions (n : ℕ) (s : GPState 1)
    (hs : (constantGP 1).init (List.replicate n [0]) (List.replicate n [1]) = .ok s) :
    Assumptions dataSystem twoStates () s (fun _ _ => 1) 1 0 (5 / 4) where
  two_le i := by fin_cases i; simp [twoStates]
  lt i := by fin_cases i; simp [twoStates]
  lv_eq := rfl
  lf_eq := rfl
  lv_nonneg := zero_le_one
  lf_nonneg := le_rfl
  V_lipschitz y z := by simp only [Fin.sum_univ_one, one_mul]; exact abs_abs_sub_abs_le _ _
  f_lipschitz y z := by simp
  model k := by
    rw [dataSystem_loop n s hs]
    obtain ⟨mean, error, e, h⟩ := covered_rows (constantGP 1) 1 _ _ _ 1 0 (constant_covered n) s
      ⟨_, _, s, [], hs, rfl, by simp, by simp⟩ [[0]]
    have e' : (constantGP 1).evaluateRows 1 s [[0]] = .ok ([[(n : ℝ) / (n + 1)]], [[Real.sqrt (1 / ((n : ℝ) + 1))]]) := by
      unfold GPModel.evaluateRows
      rw [constant_evaluate n s hs]
      simp [bind, Except.bind, pure, Except.pure]
    rw [e'] at e
    simp only [Except.ok.injEq, Prod.mk.injEq, List.length_singleton, List.ofFn_succ, List.ofFn_zero, List.cons.injEq, and_true] at e
    intro i
    have := h 0
    rw [show mean 0 = _ from e.1.symm, show error 0 = _ from e.2.symm] at this
    exact this
  tau_le := by simp [twoStates]; norm_num

/-- **C134, refuted for more data.** All assumptions of C27 and C129 hold before and after two exact measurements of the true dynamics are added to the Gaussian process: the confidence intervals contain
the true dynamics, which are constant. But the upper bound of the interval increases although the interval becomes shorter, and a state that was safe is no longer safe. -/
theorem C134_data_refuted : ∃ s s' : GPState 1, (constantGP 1).init [[0]] [[1]] = .ok s ∧
    addHistory (constantGP 1) s [(.matrix [[0], [0]], .matrix [[1], [1]])] = .ok s' ∧
    Spec.Covered (constantGP 1) 1 [[0], [0], [0]] [[1], [1], [1]] (fun _ => 1) 1 0 ∧
    Assumptions dataSystem twoStates () s (fun _ _ => 1) 1 0 (5 / 4) ∧ Assumptions dataSystem twoStates () s' (fun _ _ => 1) 1 0 (5 / 4) ∧
    ∃ (argsort : (Fin twoStates.nindex → ℝ) → List (Fin twoStates.nindex)) (j : Fin twoStates.nindex),
      let W := dataSystem.world twoStates argsort fun t k => t / k
      W.SortContract ∧
      (updateSafeSet W 10 ⟨true, 1, 1⟩ (new W () (5 / 4) (some fun k => decide (k.val = 0)) false s) s).1.safeSet j = true ∧
      (updateSafeSet W 10 ⟨true, 1, 1⟩ (new W () (5 / 4) (some fun k => decide (k.val = 0)) false s) s').1.safeSet j = false := by
  have hk := constantKernel_isKernel (v := 1) zero_le_one
  have hno : (0 : ℝ) < (constantGP 1).noise := by norm_num [constantGP]
  have hsc : (constantGP 1).scale ≠ 0 := by norm_num [constantGP]
  obtain ⟨s, hs⟩ := C53_defined (constantGP 1) hk hno hsc [[0]] [[1]] rfl
  obtain ⟨s', hs'⟩ := C54_accepts (constantGP 1) hk hno hsc [[0]] [[1]] rfl s hs [(.matrix [[0], [0]], .matrix [[1], [1]])] (by
    intro c hc
    rw [List.mem_singleton] at hc
    subst hc
    simp [Arr.rows, constantGP])
  have hi' := (C54_history (constantGP 1) [[0]] [[1]] s hs _ s' hs').2.2
  have h1 : (constantGP 1).init (List.replicate 1 [0]) (List.replicate 1 [1]) = .ok s := hs
  have h3 : (constantGP 1).init (List.replicate 3 [0]) (List.replicate 3 [1]) = .ok s' := hi'
  have hn : twoStates.nindex = 2 := by simp [GridWorld.nindex, shapeProd, twoStates]
  refine ⟨s, s', hs, hs', constant_covered 3, dataSystem_assumptions 1 s h1, dataSystem_assumptions 3 s' h3,
    fun v => (List.finRange _).insertionSort fun i j => v i ≤ v j, ⟨1, by omega⟩, ?_⟩
  intro W
  have hW : W.SortContract := sortContract_insertionSort _ rfl
  have hdec : ∀ (n : ℕ) (t : GPState 1), (constantGP 1).init (List.replicate n [0]) (List.replicate n [1]) = .ok t →
      ∀ j : Fin twoStates.nindex, W.decrease () t j < W.threshold t j (5 / 4) ↔
        (n : ℝ) / (n + 1) + Real.sqrt (1 / ((n : ℝ) + 1)) < (j : ℕ) * (5 / 2) - 5 / 4 := by
    intro n t ht j
    have hx := twoStates_state j
    have h0 : (0 : ℝ) ≤ (n : ℝ) / (n + 1) := by positivity
    have hx0 : (0 : ℝ) ≤ (j : ℕ) * (5 / 2) := by positivity
    simp only [W, System.world, dataSystem_loop n t ht]
    simp only [vDecreaseBound, vDecreaseConfidence, thresholdAt, dataSystem, LipArg.forThreshold, LipArg.entry, LipDyn.at, Fin.sum_univ_one, hx]
    rw [abs_of_nonneg h0, abs_of_nonneg hx0]
    constructor <;> intro h <;> linarith
  refine ⟨hW, ?_, ?_⟩
  · obtain ⟨Q, hQ, hsafe⟩ := C20_largest_level_set W hW (by omega) () (5 / 4) (some fun k => decide (k.val = 0)) false s [] (by simp) 10 (by decide)
      ⟨true, 1, 1⟩ rfl s (by simp)
    refine (hsafe _).mpr (Or.inr ?_)
    rcases hQ.maximal with h | ⟨b, -, hb, -⟩
    · exact h _
    · refine absurd ?_ hb
      by_cases h0 : (b : ℕ) = 0
      · exact Or.inl (by simpa [InInitial] using h0)
      · have hb1 : (b : ℕ) = 1 := by have := b.2; omega
        refine Or.inr ((hdec 1 s h1 b).mpr ?_)
        rw [hb1]
        have : Real.sqrt (1 / ((1 : ℕ) + 1)) < 3 / 4 := by
          rw [Real.sqrt_lt' (by norm_num)]
          norm_num
        push_cast at this ⊢
        linarith
  · rw [Bool.eq_false_iff]
    intro hcon
    obtain ⟨Q, hQ, hsafe⟩ := C20_largest_level_set W hW (by omega) () (5 / 4) (some fun k => decide (k.val = 0)) false s [] (by simp) 10 (by decide)
      ⟨true, 1, 1⟩ rfl s' (by simp)
    have hgood : InInitial (some fun k : Fin twoStates.nindex => decide (k.val = 0)) ⟨1, by omega⟩ ∨
        W.decrease () s' ⟨1, by omega⟩ < W.threshold s' ⟨1, by omega⟩ (5 / 4) := by
      rcases (hsafe _).mp hcon with h | h
      · exact Or.inl h
      · exact hQ.good_of_mem _ h
    rcases hgood with h | h
    · simp [InInitial] at h
    · have := (hdec 3 s' h3 _).mp h
      have h4 : Real.sqrt (1 / ((3 : ℕ) + 1)) = 1 / 2 := by
        rw [Real.sqrt_eq_iff_mul_self_eq (by norm_num) (by norm_num)]
        norm_num
      rw [h4] at this
      norm_num at this

end SafeLearning
