import Verif.Model.LearningLoop
import Verif.Props.BayesPosterior
import Verif.Model.Exploration
import Verif.Props.SafeSample
import Mathlib.Data.Prod.Lex
set_option autoImplicit false

/-!
# C138: guarantees for measurements that are chosen from earlier measurements
-/

namespace SafeLearning

open Matrix Spec MeasureTheory ProbabilityTheory

variable {Ω : Type} [MeasurableSpace Ω] {d : ℕ} {μ : Measure Ω} {F : Ω → List ℝ → Fin d → ℝ} {ε : Ω → ℕ → Fin d → ℝ}

/-! ## Adaptive inputs -/

@[simp] theorem measurements_length (f : List ℝ → Fin d → ℝ) (n : ℕ → Fin d → ℝ) (X : List (List ℝ)) : (measurements f n X).length = X.length := by
  simp [measurements]

@[simp] theorem measurements_getElem (f : List ℝ → Fin d → ℝ) (n : ℕ → Fin d → ℝ) (X : List (List ℝ)) (k : ℕ) (hk : k < (measurements f n X).length) :
    (measurements f n X)[k] = fun i => f (X[k]'(by simpa using hk)) i + n k i := by
  simp [measurements]

theorem measurements_append (f : List ℝ → Fin d → ℝ) (n : ℕ → Fin d → ℝ) (X : List (List ℝ)) (x : List ℝ) :
    measurements f n (X ++ [x]) = measurements f n X ++ [fun i => f x i + n X.length i] := by
  apply List.ext_getElem
  · simp
  · intro k h1 h2
    rw [measurements_getElem]
    by_cases hk : k < X.length
    · simp only [List.getElem_append_left hk]
      rw [List.getElem_append_left (by simpa using hk), measurements_getElem]
    · have : k = X.length := by simp at h1; omega
      subst this
      simp

@[simp] theorem adaptive_length (choose : List (Fin d → ℝ) → List ℝ) (f : List ℝ → Fin d → ℝ) (n : ℕ → Fin d → ℝ) (N : ℕ) :
    (adaptive choose f n N).length = N := by
  induction N with
  | zero => rfl
  | succ N ih => simp [adaptive, ih]

theorem adaptive_iff (choose : List (Fin d → ℝ) → List ℝ) (f : List ℝ → Fin d → ℝ) (n : ℕ → Fin d → ℝ) (N : ℕ) (X : List (List ℝ)) :
    adaptive choose f n N = X ↔ X.length = N ∧ ∀ (k : ℕ) (hk : k < X.length), choose ((measurements f n X).take k) = X[k] := by
  induction N generalizing X with
  | zero =>
    constructor
    · rintro rfl
      exact ⟨rfl, fun k hk => absurd hk (by simp [adaptive])⟩
    · rintro ⟨h, -⟩
      rw [List.length_eq_zero_iff.mp h]
      rfl
  | succ N ih =>
    constructor
    · rintro rfl
      refine ⟨by simp, fun k hk => ?_⟩
      have hA := (ih (adaptive choose f n N)).mp rfl
      simp only [adaptive, measurements_append]
      by_cases hkN : k < N
      · rw [List.take_append_of_le_length (by simp; omega), List.getElem_append_left (by simpa using hkN)]
        exact hA.2 k (by simpa using hkN)
      · have : k = N := by simp at hk; omega
        subst this
        rw [List.take_append_of_le_length (by simp), List.take_of_length_le (by simp), List.getElem_append_right (by simp)]
        simp
    · rintro ⟨hl, hX⟩
      rcases List.eq_nil_or_concat X with rfl | ⟨A, x, rfl⟩
      · simp at hl
      · simp only [List.concat_eq_append] at *
        have hlA : A.length = N := by simpa using hl
        have hA : adaptive choose f n N = A := by
          refine (ih A).mpr ⟨hlA, fun k hk => ?_⟩
          have := hX k (by simp; omega)
          rw [measurements_append, List.take_append_of_le_length (by simp; omega), List.getElem_append_left hk] at this
          exact this
        have hx := hX A.length (by simp)
        rw [measurements_append, List.take_append_of_le_length (by simp), List.take_of_length_le (by simp)] at hx
        simp only [le_refl, List.getElem_append_right, Nat.sub_self, List.getElem_cons_zero] at hx
        rw [adaptive, hA, hx]

/-- The set of measurements at the inputs `X` for which the inputs are those that are chosen. -/
theorem measurableSet_path {choose : List (Fin d → ℝ) → List ℝ} (hc : MeasurableChoice choose) (X : List (List ℝ)) :
    MeasurableSet {y : Fin X.length → Fin d → ℝ | ∀ (k : ℕ) (hk : k < X.length), choose ((List.ofFn y).take k) = X[k]} := by
  have : {y : Fin X.length → Fin d → ℝ | ∀ (k : ℕ) (hk : k < X.length), choose ((List.ofFn y).take k) = X[k]} =
      ⋂ k : Fin X.length, (fun y : Fin X.length → Fin d → ℝ => fun j : Fin k => y (Fin.castLE k.2.le j)) ⁻¹'
        {y : Fin k → Fin d → ℝ | choose (List.ofFn y) = X[k]} := by
    ext y
    have ht : ∀ k : Fin X.length, (List.ofFn y).take k = List.ofFn fun j : Fin k => y (Fin.castLE k.2.le j) := by
      intro k
      apply List.ext_getElem
      · simp [k.2.le]
      · intro j h1 h2
        simp
    simp only [Set.mem_ofPred_eq, Set.mem_iInter, Set.mem_preimage]
    constructor
    · intro h k
      rw [← ht]
      exact h k k.2
    · intro h k hk
      have := h ⟨k, hk⟩
      rw [← ht] at this
      exact this
  rw [this]
  exact MeasurableSet.iInter fun k => (by fun_prop : Measurable fun y : Fin X.length → Fin d → ℝ => fun j : Fin k => y (Fin.castLE k.2.le j)) (hc.measurable k _)

theorem data_aemeasurable [IsProbabilityMeasure μ] {kern : Fin d → List ℝ → List ℝ → ℝ} {mean : Fin d → List ℝ → ℝ} {noise : Fin d → ℝ}
    (h : PriorMoments μ kern mean noise F ε) (X : List (List ℝ)) :
    AEMeasurable (fun ω (k : Fin X.length) (j : Fin d) => F ω (X.get k) j + ε ω k j) μ := by
  refine aemeasurable_pi_lambda _ fun k => aemeasurable_pi_lambda _ fun j => ?_
  have h1 := (datum_memLp h X k j).aestronglyMeasurable.aemeasurable.add_const (mean j (X.get k))
  refine h1.congr (Filter.Eventually.of_forall fun ω => ?_)
  simp only [datum, deviation, Pi.add_apply]
  ring

/-- The probability that the interval at a chosen point, after chosen measurements, does not contain the true value. -/
theorem adaptive_miss [IsProbabilityMeasure μ] {kern : Fin d → List ℝ → List ℝ → ℝ} {mean : Fin d → List ℝ → ℝ} {noise : Fin d → ℝ}
    (h : GaussianPrior μ kern mean noise F ε) {choose query : List (Fin d → ℝ) → List ℝ} (hc : MeasurableChoice choose) (hq : MeasurableChoice query)
    (N : ℕ) (i : Fin d) {b : ℝ} (hb : 0 < b)
    (hpd : ∀ ω, PD (noisyGram (kern i) (noise i) (adaptive choose (F ω) (ε ω) N).get)) :
    μ.real {ω | let X := adaptive choose (F ω) (ε ω) N
      let x := query (measurements (F ω) (ε ω) X)
      b * Real.sqrt (posteriorCov (kern i) (noise i) X.get x x) < |residual kern mean noise F ε X i x ω|} ≤ 2 * Real.exp (-b ^ 2 / 2) := by
  classical
  have : Countable (Set.range choose) := hc.countable.to_subtype
  have : Countable (Set.range query) := hq.countable.to_subtype
  set q : ℝ := 2 * Real.exp (-b ^ 2 / 2) with hqdef
  have hq0 : 0 ≤ q := by positivity
  let ι := List (Set.range choose) × Set.range query
  let path : ι → List (List ℝ) := fun a => a.1.map Subtype.val
  let E : ι → Set Ω := fun a => {ω | adaptive choose (F ω) (ε ω) N = path a ∧ query (measurements (F ω) (ε ω) (path a)) = a.2}
  let B : ι → Set Ω := fun a => {ω | b * Real.sqrt (posteriorCov (kern i) (noise i) (path a).get a.2 a.2) < |residual kern mean noise F ε (path a) i a.2 ω|}
  let S : (a : ι) → Set (Fin (path a).length → Fin d → ℝ) := fun a =>
    {y | (path a).length = N ∧ (∀ (k : ℕ) (hk : k < (path a).length), choose ((List.ofFn y).take k) = (path a)[k]) ∧ query (List.ofFn y) = a.2}
  have hES : ∀ a, E a = (fun ω (k : Fin (path a).length) (j : Fin d) => F ω ((path a).get k) j + ε ω k j) ⁻¹' S a := by
    intro a
    ext ω
    simp only [E, S, Set.mem_ofPred_eq, Set.mem_preimage]
    rw [adaptive_iff, and_assoc]
    rfl
  have hSm : ∀ a, MeasurableSet (S a) := by
    intro a
    by_cases hl : (path a).length = N
    · have : S a = {y | ∀ (k : ℕ) (hk : k < (path a).length), choose ((List.ofFn y).take k) = (path a)[k]} ∩ {y | query (List.ofFn y) = a.2} := by
        ext y
        simp [S, hl]
      rw [this]
      exact (measurableSet_path hc _).inter (hq.measurable _ _)
    · have : S a = ∅ := by
        ext y
        simp [S, hl]
      rw [this]
      exact MeasurableSet.empty
  have hEm : ∀ a, NullMeasurableSet (E a) μ := fun a => by
    rw [hES]
    exact (data_aemeasurable h.toPriorMoments _).nullMeasurable (hSm a)
  have hdisj : Pairwise (Function.onFun (AEDisjoint μ) E) := by
    intro a a' haa'
    refine Disjoint.aedisjoint (Set.disjoint_left.mpr fun ω h1 h2 => haa' ?_)
    have hp : path a = path a' := h1.1.symm.trans h2.1
    refine Prod.ext ((List.map_injective_iff.mpr Subtype.val_injective) hp) (Subtype.ext ?_)
    rw [← h1.2, ← h2.2, hp]
  have hsum : ∑' a, μ (E a) ≤ 1 := by
    have := tsum_measure_le_measure_univ hEm hdisj
    simpa using this
  have hEB : ∀ a, μ (E a ∩ B a) ≤ μ (E a) * ENNReal.ofReal q := by
    intro a
    rcases (E a).eq_empty_or_nonempty with he | ⟨ω, hω⟩
    · rw [he]
      simp
    · have hpd' : PD (noisyGram (kern i) (noise i) (path a).get) := by
        have := hpd ω
        rw [hω.1] at this
        exact this
      have hBm : MeasurableSet {r : ℝ | b * Real.sqrt (posteriorCov (kern i) (noise i) (path a).get a.2 a.2) < |r|} :=
        measurableSet_lt measurable_const (by fun_prop)
      have hind := (residual_indep h hpd' (a.2 : List ℝ)).symm.measure_inter_preimage_eq_mul _ _ (hSm a) hBm
      have hB : B a = residual kern mean noise F ε (path a) i a.2 ⁻¹' {r : ℝ | b * Real.sqrt (posteriorCov (kern i) (noise i) (path a).get a.2 a.2) < |r|} := rfl
      rw [hES, hB, hind]
      gcongr
      rw [← hB]
      have hv0 : 0 ≤ posteriorCov (kern i) (noise i) (path a).get a.2 a.2 := by
        rw [← residual_square h.toPriorMoments hpd']
        exact integral_nonneg fun _ => sq_nonneg _
      have := gaussian_tail hv0 (residual_law h hpd' (a.2 : List ℝ)) hb
      rw [measureReal_def] at this
      exact (ENNReal.le_ofReal_iff_toReal_le (measure_ne_top _ _) hq0).mpr this
  have hsub : {ω | let X := adaptive choose (F ω) (ε ω) N
      let x := query (measurements (F ω) (ε ω) X)
      b * Real.sqrt (posteriorCov (kern i) (noise i) X.get x x) < |residual kern mean noise F ε X i x ω|} ⊆ ⋃ a, E a ∩ B a := by
    intro ω hω
    have hX : ∀ z ∈ adaptive choose (F ω) (ε ω) N, z ∈ Set.range choose := by
      intro z hz
      obtain ⟨k, hk, rfl⟩ := List.getElem_of_mem hz
      exact ⟨_, ((adaptive_iff choose (F ω) (ε ω) N _).mp rfl).2 k hk⟩
    let a : ι := ((adaptive choose (F ω) (ε ω) N).attach.map fun z => ⟨z.1, hX z.1 z.2⟩,
      ⟨query (measurements (F ω) (ε ω) (adaptive choose (F ω) (ε ω) N)), ⟨_, rfl⟩⟩)
    have hp : path a = adaptive choose (F ω) (ε ω) N := by
      simp [path, a]
    refine Set.mem_iUnion.mpr ⟨a, ⟨hp.symm, by rw [hp]⟩, ?_⟩
    simp only [B, Set.mem_ofPred_eq]
    rw [hp]
    exact hω
  rw [measureReal_def]
  refine ENNReal.toReal_le_of_le_ofReal hq0 ?_
  calc _ ≤ μ (⋃ a, E a ∩ B a) := measure_mono hsub
    _ ≤ ∑' a, μ (E a ∩ B a) := measure_iUnion_le _
    _ ≤ ∑' a, μ (E a) * ENNReal.ofReal q := ENNReal.tsum_le_tsum hEB
    _ = (∑' a, μ (E a)) * ENNReal.ofReal q := ENNReal.tsum_mul_right
    _ ≤ 1 * ENNReal.ofReal q := by gcongr
    _ = ENNReal.ofReal q := one_mul _

/-! ## The learning loop -/

theorem adaptive_startWith (X : List (List ℝ)) (choose : List (Fin d → ℝ) → List ℝ) (f : List ℝ → Fin d → ℝ) (n : ℕ → Fin d → ℝ) :
    Spec.adaptive (Spec.startWith X choose) f n X.length = X := by
  refine (adaptive_iff _ _ _ _ _).mpr ⟨rfl, fun k hk => ?_⟩
  unfold Spec.startWith
  have : ((measurements f n X).take k).length = k := by
    simp
    omega
  rw [dif_pos (by omega)]
  congr 1

/-- The choice of the first inputs does not make a choice less observable. -/
theorem measurableChoice_startWith (X : List (List ℝ)) {choose : List (Fin d → ℝ) → List ℝ} (hc : Spec.MeasurableChoice choose) :
    Spec.MeasurableChoice (Spec.startWith X choose) where
  countable := by
    refine ((List.finite_toSet X).countable.union hc.countable).mono ?_
    rintro _ ⟨Y, rfl⟩
    unfold Spec.startWith
    split_ifs with h
    · exact Or.inl (List.getElem_mem h)
    · exact Or.inr ⟨Y, rfl⟩
  measurable n x := by
    by_cases h : n < X.length
    · have : {y : Fin n → Fin d → ℝ | Spec.startWith X choose (List.ofFn y) = x} = {_y | X[n] = x} := by
        ext y
        simp [Spec.startWith, h]
      rw [this]
      exact MeasurableSet.const _
    · have : {y : Fin n → Fin d → ℝ | Spec.startWith X choose (List.ofFn y) = x} = {y | choose (List.ofFn y) = x} := by
        ext y
        simp [Spec.startWith, h]
      rw [this]
      exact hc.measurable n x

/-- **C138 (learning loop).** With at least two components, any number of rounds of the learning loop returns without an exception, and afterwards each process has seen its component
of the measurements at the inputs `X₀` and at all chosen inputs. -/
theorem C138_loop (h2 : 2 ≤ d) (gps : Fin d → GPModel 1) (hk : ∀ i, IsKernel (gps i).kern) (hn : ∀ i, 0 < (gps i).noise)
    (hscale : ∀ i, (gps i).scale ≠ 0) (X₀ : List (List ℝ)) (choose : List (Fin d → ℝ) → List ℝ)
    (hdim : ∀ Y i, (choose Y).length = (gps i).xdim) (f : List ℝ → Fin d → ℝ) (n : ℕ → Fin d → ℝ) (l₀ : Learner d)
    (h0 : ∀ i, (gps i).init X₀ ((Spec.measurements f n X₀).map fun y => [y i]) = .ok (l₀.states i))
    (hout : l₀.outputs = Spec.measurements f n X₀) (t : ℕ) :
    ∃ l, learnLoop gps choose (fun k x i => f x i + n k i) l₀ t = .ok l ∧
      let X := Spec.adaptive (Spec.startWith X₀ choose) f n (X₀.length + t)
      l.outputs = Spec.measurements f n X ∧ ∀ i, Spec.TrainedComponent gps i (l.states i) X (Spec.measurements f n X) := by
  suffices key : ∃ l, learnLoop gps choose (fun k x i => f x i + n k i) l₀ t = .ok l ∧
      l.outputs = measurements f n (Spec.adaptive (Spec.startWith X₀ choose) f n (X₀.length + t)) ∧
      ∀ i, (gps i).init (Spec.adaptive (Spec.startWith X₀ choose) f n (X₀.length + t))
        ((measurements f n (Spec.adaptive (Spec.startWith X₀ choose) f n (X₀.length + t))).map fun y => [y i]) = .ok (l.states i) by
    obtain ⟨l, h3, h4, h5⟩ := key
    exact ⟨l, h3, h4, fun i => ⟨_, _, _, [], h5 i, rfl, by simp, by simp⟩⟩
  induction t with
  | zero =>
    refine ⟨l₀, rfl, ?_⟩
    rw [Nat.add_zero, adaptive_startWith]
    exact ⟨hout, h0⟩
  | succ t ih =>
    obtain ⟨l, hl, hY, hst⟩ := ih
    rw [← Nat.add_assoc, Spec.adaptive]
    set X := Spec.adaptive (Spec.startWith X₀ choose) f n (X₀.length + t) with hX
    have hlen : X.length = X₀.length + t := by simp [hX]
    have hch : Spec.startWith X₀ choose (measurements f n X) = choose (measurements f n X) := by
      unfold Spec.startWith
      rw [dif_neg (by simp; omega)]
    rw [hch, measurements_append]
    set x := choose (measurements f n X) with hx
    set y : Fin d → ℝ := fun i => f x i + n X.length i with hy
    have hcall := C52_add_data_point_partial (List.ofFn fun i => (gps i, l.states i)) (by simpa using h2) [x] (List.ofFn y) (by simp) (by
      intro i p hp
      obtain ⟨hi, rfl⟩ := List.getElem?_eq_some_iff.mp hp
      have hi' : i < d := by simpa using hi
      have hg : (List.ofFn y).getD i 0 = y ⟨i, hi'⟩ := by simp [List.getD_eq_getElem?_getD, hi']
      simp only [List.getElem_ofFn, hg]
      obtain ⟨u, hu⟩ := C54_accepts (gps ⟨i, hi'⟩) (hk _) (hn _) (hscale _) _ _ (by simp) _ (hst ⟨i, hi'⟩) [(.matrix [x], .matrix [[y ⟨i, hi'⟩]])] (by
        intro c hc
        rw [List.mem_singleton] at hc
        subst hc
        refine ⟨rfl, ?_, ?_⟩
        · intro r hr
          have : r = x := by simpa [Arr.rows] using hr
          rw [this]
          exact hdim _ _
        · intro r hr
          have : r = [y ⟨i, hi'⟩] := by simpa [Arr.rows] using hr
          rw [this]
          rfl)
      unfold addHistory at hu
      split at hu
      · rename_i he
        rw [he]
      · cases hu)
    obtain ⟨hok, hlenS, hs'⟩ := hcall
    set res := stackAddDataPoint (List.ofFn fun i => (gps i, l.states i)) (.matrix [x]) [List.ofFn y] with hres
    refine ⟨{ states := fun i => res.1.getD i (l.states i), outputs := l.outputs ++ [y] }, ?_, ?_, fun i => ?_⟩
    · unfold learnLoop
      rw [hl]
      show learnRound gps choose (fun k x i => f x i + n k i) l = _
      unfold learnRound
      simp only [hY, measurements_length]
      rw [← hx, ← hy, ← hres]
      obtain ⟨states, r⟩ := res
      simp only at hok
      subst hok
      rfl
    · rw [hY]
    · have hi : (i : ℕ) < res.1.length := by
        rw [hlenS]
        simp
      have hsi := hs' i (gps i, l.states i) res.1[(i : ℕ)] (by simp) (by simp)
      have hdata := init_data (hst i)
      have hnew := addDataPoint_inv hsi
      simp only [Arr.rows, hdata.1, hdata.2.1] at hnew
      have : res.1.getD (i : ℕ) (l.states i) = res.1[(i : ℕ)] := by
        rw [List.getD_eq_getElem?_getD, List.getElem?_eq_getElem hi]
        rfl
      simp only [this, ← hnew]
      congr 1
      simp [List.getD_eq_getElem?_getD]

/-! ## Coverage -/

/-- **C138 (coverage).** The true function and the errors are drawn from the priors, and every input is chosen from the measurements before it. After `N` measurements the
predictions at `p` points, which may be chosen from all measurements, contain the true values of all components at the same time, except with a probability of at most
`2 exp (-beta ^ 2 / 2)` for each point and component: as if all inputs and points had been fixed in advance. -/
theorem C138_coverage [IsProbabilityMeasure μ] (hd : 0 < d) (gps : Fin d → GPModel 1) (h : Spec.DrawnFrom μ gps F ε)
    (hscale : ∀ i, (gps i).scale ≠ 0) (beta : Fin d → ℝ) (hb : ∀ i, 0 < beta i)
    (choose : List (Fin d → ℝ) → List ℝ) (hc : Spec.MeasurableChoice choose) (N : ℕ) (s : Ω → Fin d → GPState 1)
    (hs : ∀ ω i, Spec.TrainedComponent gps i (s ω i) (Spec.adaptive choose (F ω) (ε ω) N)
      (Spec.measurements (F ω) (ε ω) (Spec.adaptive choose (F ω) (ε ω) N)))
    {p : ℕ} (query : Fin p → List (Fin d → ℝ) → List ℝ) (hq : ∀ r, Spec.MeasurableChoice (query r)) :
    let x : Ω → Fin p → List ℝ := fun ω r => query r (Spec.measurements (F ω) (ε ω) (Spec.adaptive choose (F ω) (ε ω) N))
    ∃ m e : Ω → Fin p → Fin d → ℝ,
      (∀ ω r, stackEvaluate (List.ofFn fun i => (gps i).evaluateRows (beta i) (s ω i)) [x ω r] = .ok ([List.ofFn (m ω r)], [List.ofFn (e ω r)])) ∧
      μ.real {ω | ∃ r i, ¬|F ω (x ω r) i - m ω r i| ≤ e ω r i} ≤ p * ∑ i, 2 * Real.exp (-beta i ^ 2 / 2) := by
  intro x
  refine ⟨_, _, fun ω r => stack_prediction hd gps hscale beta _ _ _ (s ω) (hs ω) [x ω r], ?_⟩
  simp only [not_le]
  refine union_bound _ _ fun r i => ?_
  exact adaptive_miss h hc (hq r) N i (hb i) fun ω => (trained_point gps i (hscale i) (beta i) _ _ _ (s ω i) (hs ω i) []).1

/-! ## The region of attraction -/

/-- A call of `update_safe_set`: the `Lyapunov` object with all that it uses, the calls before, and the arguments. -/
structure _root_.Spec.Check (g : GridWorld ℝ d) where
  Prog : Type
  Θ : Type
  sys : System ℝ Prog Θ d
  argsort : (Fin g.nindex → ℝ) → List (Fin g.nindex)
  tauDiv : ℝ → ℕ → ℝ
  prog : Prog
  θ₀ : Θ
  θ : Θ
  Lv : ℝ
  Lf : ℝ
  tau : ℝ
  initial : Option (Fin g.nindex → Bool)
  adaptive : Bool
  history : List (Lyap.Op ℝ Prog Θ)
  batch : ℕ
  args : Lyap.UpdateArgs ℝ

variable {g : GridWorld ℝ d}

/-- The object before the call. -/
noncomputable def _root_.Spec.Check.before (K : Spec.Check g) : Lyap ℝ K.Prog g.nindex :=
  Lyap.run (K.sys.world g K.argsort K.tauDiv) (Lyap.new (K.sys.world g K.argsort K.tauDiv) K.prog K.tau K.initial K.adaptive K.θ₀) K.history

/-- The grid states that are safe after the call. -/
noncomputable def _root_.Spec.Check.safe (K : Spec.Check g) : Fin g.nindex → Bool := (Lyap.updateSafeSet (K.sys.world g K.argsort K.tauDiv) K.batch K.args K.before K.θ).1.safeSet

/-- The call is made as the library asks for: the dynamics are the stack in the state `st` with the actions of `policy`, the Lipschitz constant of the Lyapunov function and `tau` are
right, the values are up to date, and the safe set may shrink. -/
structure _root_.Spec.Check.Valid (K : Spec.Check g) (gps : Fin d → GPModel 1) (beta : Fin d → ℝ) (st : Fin d → GPState 1) (policy : (Fin d → ℝ) → List ℝ) : Prop where
  sort : (K.sys.world g K.argsort K.tauDiv).SortContract
  loop : ∀ x mean error, stackEvaluate (List.ofFn fun i => (gps i).evaluateRows (beta i) (st i)) [List.ofFn x ++ policy x] =
    .ok ([List.ofFn mean], [List.ofFn error]) → K.sys.closedLoop K.prog K.θ x = .uncertain mean error
  lv : K.sys.lv K.θ = .const K.Lv
  lf : K.sys.lf K.θ = .const K.Lf
  lv_nonneg : 0 ≤ K.Lv
  lf_nonneg : 0 ≤ K.Lf
  lipschitz : ∀ y z, |K.sys.V K.θ y - K.sys.V K.θ z| ≤ K.Lv * ∑ i, |y i - z i|
  tau : ∑ i, (g.hi i - g.lo i) / ((g.num i : ℝ) - 1) / 2 ≤ K.tau
  methods : ∀ op ∈ K.history, op.IsMethod
  batch : 0 < K.batch
  shrink : K.args.canShrink = true
  uniform : ¬(K.adaptive = true ∧ 1 < K.args.maxRefinement)
  values : ∀ j, K.before.values j = K.sys.V K.θ (gridState g j)

/-- What the safe set promises for the closed loop `f`: every trajectory that starts in a level set of certified grid states stays in it, and reaches the neighbourhood of an initially
safe state. -/
def _root_.Spec.Check.Promise (K : Spec.Check g) (f : (Fin d → ℝ) → Fin d → ℝ) : Prop :=
  ∀ c, (∀ j, K.before.values j < c → K.safe j = true) →
    (∀ x, K.sys.V K.θ x < c - K.Lv * K.tau → ∀ i, g.lo i ≤ x i ∧ x i ≤ g.hi i) →
    ∃ δ, 0 < δ ∧ ∀ x₀, K.sys.V K.θ x₀ < c - K.Lv * K.tau →
      ∃ T, (∀ t < T, K.sys.V K.θ (f^[t + 1] x₀) ≤ K.sys.V K.θ (f^[t] x₀) - δ) ∧
        (∀ t ≤ T, K.sys.V K.θ (f^[t] x₀) < c - K.Lv * K.tau) ∧
        ∃ j, InInitial K.initial j ∧ ∑ i, |f^[T] x₀ i - gridState g j i| ≤ K.tau

/-- The Lipschitz constant of the dynamics is right for the closed loop `f`. -/
def _root_.Spec.Check.Lipschitz (K : Spec.Check g) (f : (Fin d → ℝ) → Fin d → ℝ) : Prop := ∀ y z, ∑ i, |f y i - f z i| ≤ K.Lf * ∑ i, |y i - z i|

/-- **C138 (safe learning).** The true dynamics and the measurement errors are drawn from the priors. In every one of `T` rounds the measurements, the policy and all else that
`update_safe_set` uses may have been chosen from all earlier measurements. Then, with a probability of at least `1 - T * n * ∑ i, 2 exp (- beta i ^ 2 / 2)` for a grid of `n` states, in
no round does the safe set promise something that is false for the true closed loop, unless it is not Lipschitz with the constant that is used. -/
theorem C138_region [IsProbabilityMeasure μ] (hd : 0 < d) (gps : Fin d → GPModel 1) (h : Spec.DrawnFrom μ gps F ε)
    (hscale : ∀ i, (gps i).scale ≠ 0) (beta : Fin d → ℝ) (hb : ∀ i, 0 < beta i)
    (choose : List (Fin d → ℝ) → List ℝ) (hc : Spec.MeasurableChoice choose) (T : ℕ) (N : Fin T → ℕ) (s : Ω → Fin T → Fin d → GPState 1)
    (hs : ∀ ω t i, Spec.TrainedComponent gps i (s ω t i) (Spec.adaptive choose (F ω) (ε ω) (N t))
      (Spec.measurements (F ω) (ε ω) (Spec.adaptive choose (F ω) (ε ω) (N t))))
    (g : GridWorld ℝ d) (h2 : ∀ i, 2 ≤ g.num i) (hlt : ∀ i, g.lo i < g.hi i)
    (policy : Fin T → List (Fin d → ℝ) → (Fin d → ℝ) → List ℝ)
    (hp : ∀ t (k : Fin g.nindex), Spec.MeasurableChoice fun Y => List.ofFn (gridState g k) ++ policy t Y (gridState g k))
    (K : Ω → Fin T → Spec.Check g)
    (hK : ∀ ω t, (K ω t).Valid gps beta (s ω t) (policy t (Spec.measurements (F ω) (ε ω) (Spec.adaptive choose (F ω) (ε ω) (N t))))) :
    let f : Ω → Fin T → (Fin d → ℝ) → Fin d → ℝ := fun ω t x =>
      F ω (List.ofFn x ++ policy t (Spec.measurements (F ω) (ε ω) (Spec.adaptive choose (F ω) (ε ω) (N t))) x)
    μ.real {ω | ∃ t, (K ω t).Lipschitz (f ω t) ∧ ¬(K ω t).Promise (f ω t)} ≤ T * (g.nindex * ∑ i, 2 * Real.exp (-beta i ^ 2 / 2)) := by
  intro f
  have hround : ∀ t, μ.real {ω | (K ω t).Lipschitz (f ω t) ∧ ¬(K ω t).Promise (f ω t)} ≤ g.nindex * ∑ i, 2 * Real.exp (-beta i ^ 2 / 2) := by
    intro t
    obtain ⟨m, e, hev, hm⟩ := C138_coverage hd gps h hscale beta hb choose hc (N t) (fun ω => s ω t) (fun ω => hs ω t)
      (fun k Y => List.ofFn (gridState g k) ++ policy t Y (gridState g k)) (hp t)
    refine (measureReal_mono (fun ω hω => ?_) (measure_ne_top _ _)).trans hm
    obtain ⟨hL, hP⟩ := hω
    by_contra hcov
    have hcov' : ∀ (k : Fin g.nindex) i, |f ω t (gridState g k) i - m ω k i| ≤ e ω k i := by
      intro k i
      by_contra hki
      exact hcov ⟨k, i, hki⟩
    apply hP
    have v := hK ω t
    refine C27_reaches_initial_set (K ω t).sys g (K ω t).argsort (K ω t).tauDiv v.sort (K ω t).prog (K ω t).θ (f ω t) (K ω t).Lv (K ω t).Lf (K ω t).tau
      ⟨h2, hlt, v.lv, v.lf, v.lv_nonneg, v.lf_nonneg, v.lipschitz, hL, fun k => ?_, v.tau⟩ (K ω t).initial (K ω t).adaptive (K ω t).θ₀ (K ω t).history v.methods
      (K ω t).batch v.batch (K ω t).args v.shrink v.uniform v.values
    rw [v.loop _ _ _ (hev ω k)]
    exact fun i => hcov' k i
  have h1 : {ω | ∃ t, (K ω t).Lipschitz (f ω t) ∧ ¬(K ω t).Promise (f ω t)} =
      ⋃ t ∈ (Finset.univ : Finset (Fin T)), {ω | (K ω t).Lipschitz (f ω t) ∧ ¬(K ω t).Promise (f ω t)} := by
    ext ω
    simp
  rw [h1]
  refine (measureReal_biUnion_finset_le _ _).trans ((Finset.sum_le_sum fun t _ => hround t).trans ?_)
  simp

/-- **C138 (safe exploration).** The true dynamics and the errors are drawn from the priors, and every measurement is taken where `get_safe_sample` says, for a policy, a Lyapunov function, a
level and a safe set that may have been chosen from all earlier measurements. Then, with a probability of at least `1 - T * ∑ i, 2 exp (- beta i ^ 2 / 2)`, in all of `T` rounds the true system
is in the level set `{V < c_max}` after the measurement, unless the backup policy is used. -/
theorem C138_exploration [IsProbabilityMeasure μ] (hd : 0 < d) (gps : Fin d → GPModel 1) (h : Spec.DrawnFrom μ gps F ε)
    (hscale : ∀ i, (gps i).scale ≠ 0) (beta : Fin d → ℝ) (hb : ∀ i, 0 < beta i)
    (choose : List (Fin d → ℝ) → List ℝ) (hc : Spec.MeasurableChoice choose) (T : ℕ) (N : Fin T → ℕ) (s : Ω → Fin T → Fin d → GPState 1)
    (hs : ∀ ω t i, Spec.TrainedComponent gps i (s ω t i) (Spec.adaptive choose (F ω) (ε ω) (N t))
      (Spec.measurements (F ω) (ε ω) (Spec.adaptive choose (F ω) (ε ω) (N t))))
    {m : ℕ} {β : Type} [LinearOrder β] (key : Pair ℝ d m → β) (hkey : Function.Injective key) (S : Ω → Fin T → SampleSystem ℝ d m)
    (h2 : ∀ ω t i, 2 ≤ (S ω t).grid.num i) (hlt : ∀ ω t i, (S ω t).grid.lo i < (S ω t).grid.hi i)
    (hdyn : ∀ ω t q mean error, stackEvaluate (List.ofFn fun i => (gps i).evaluateRows (beta i) (s ω t i)) [List.ofFn q.1 ++ List.ofFn q.2] =
      .ok ([List.ofFn mean], [List.ofFn error]) → (S ω t).dynamics q = (mean, error))
    (hlv : ∀ ω t y i, 0 ≤ (S ω t).lv.entry y i)
    (hlip : ∀ ω t y z, |(S ω t).V y - (S ω t).V z| ≤ ∑ i, (S ω t).lv.entry z i * |y i - z i|)
    (args : Ω → Fin T → SampleArgs ℝ m) (ps : Ω → Fin T → List (Fin m → ℝ)) (hps : ∀ ω t, (args ω t).perturbations = some (ps ω t))
    (r : Ω → Fin T → SampleSystem.Result ℝ d m)
    (hr : ∀ ω t, (S ω t).getSafeSample key (args ω t).perturbations (args ω t).limits (args ω t).positive (args ω t).idx (args ω t).actions = .ok (r ω t))
    (hchoose : ∀ ω t, choose (Spec.measurements (F ω) (ε ω) (Spec.adaptive choose (F ω) (ε ω) (N t))) = List.ofFn (r ω t).pair.1 ++ List.ofFn (r ω t).pair.2) :
    μ.real {ω | ∃ t, (r ω t).backup = false ∧ ¬(S ω t).V (F ω (List.ofFn (r ω t).pair.1 ++ List.ofFn (r ω t).pair.2)) < (S ω t).cMax} ≤
      T * ∑ i, 2 * Real.exp (-beta i ^ 2 / 2) := by
  have hround : ∀ t, μ.real {ω | (r ω t).backup = false ∧ ¬(S ω t).V (F ω (List.ofFn (r ω t).pair.1 ++ List.ofFn (r ω t).pair.2)) < (S ω t).cMax} ≤
      ∑ i, 2 * Real.exp (-beta i ^ 2 / 2) := by
    intro t
    obtain ⟨mn, e, hev, hm⟩ := C138_coverage hd gps h hscale beta hb choose hc (N t) (fun ω => s ω t) (fun ω => hs ω t) (fun _ : Fin 1 => choose) fun _ => hc
    rw [Nat.cast_one, one_mul] at hm
    refine (measureReal_mono (fun ω hω => ?_) (measure_ne_top _ _)).trans hm
    obtain ⟨hbk, hV⟩ := hω
    by_contra hcov
    have hcov' : ∀ i, |F ω (List.ofFn (r ω t).pair.1 ++ List.ofFn (r ω t).pair.2) i - mn ω 0 i| ≤ e ω 0 i := by
      intro i
      rw [← hchoose ω t]
      by_contra hki
      exact hcov ⟨0, i, hki⟩
    have hev' := hev ω 0
    dsimp only at hev'
    rw [hchoose ω t] at hev'
    have hd' := hdyn ω t _ _ _ hev'
    have hr' := hr ω t
    rw [hps ω t] at hr'
    refine hV ((S ω t).C34_true_next_state_inside key hkey (h2 ω t) (hlt ω t) (ps ω t) _ _ _ _ (r ω t) hr' hbk _ ?_ (fun i => hlv ω t _ i) (hlip ω t _ _))
    intro i
    rw [hd']
    exact hcov' i
  have h1 : {ω | ∃ t, (r ω t).backup = false ∧ ¬(S ω t).V (F ω (List.ofFn (r ω t).pair.1 ++ List.ofFn (r ω t).pair.2)) < (S ω t).cMax} =
      ⋃ t ∈ (Finset.univ : Finset (Fin T)), {ω | (r ω t).backup = false ∧ ¬(S ω t).V (F ω (List.ofFn (r ω t).pair.1 ++ List.ofFn (r ω t).pair.2)) < (S ω t).cMax} := by
    ext ω
    simp
  rw [h1]
  refine (measureReal_biUnion_finset_le _ _).trans ((Finset.sum_le_sum fun t _ => hround t).trans ?_)
  simp

/-! ## Non-vacuity -/

/-- A choice between two inputs by the sign of the first component of the first measurement. -/
noncomputable def signChoice (a b : List ℝ) (Y : List (Fin d → ℝ)) : List ℝ :=
  if ∃ y ∈ Y.head?, ∃ i : Fin d, (i : ℕ) = 0 ∧ 0 < y i then a else b

theorem signChoice_measurable (a b : List ℝ) : Spec.MeasurableChoice (signChoice (d := d) a b) where
  countable := by
    refine (Set.toFinite {a, b}).countable.mono ?_
    rintro _ ⟨Y, rfl⟩
    unfold signChoice
    split_ifs <;> simp
  measurable n x := by
    have hP : MeasurableSet {y : Fin n → Fin d → ℝ | ∃ z ∈ (List.ofFn y).head?, ∃ i : Fin d, (i : ℕ) = 0 ∧ 0 < z i} := by
      cases n with
      | zero => simp
      | succ n =>
        have : {y : Fin (n + 1) → Fin d → ℝ | ∃ z ∈ (List.ofFn y).head?, ∃ i : Fin d, (i : ℕ) = 0 ∧ 0 < z i} =
            ⋃ i : Fin d, {y : Fin (n + 1) → Fin d → ℝ | (i : ℕ) = 0 ∧ 0 < y 0 i} := by
          ext y
          simp [List.ofFn_succ]
        rw [this]
        refine MeasurableSet.iUnion fun i => ?_
        have h0 : MeasurableSet {y : Fin (n + 1) → Fin d → ℝ | 0 < y 0 i} := measurableSet_lt measurable_const (by fun_prop)
        exact (MeasurableSet.const ((i : ℕ) = 0)).inter h0
    have : {y : Fin n → Fin d → ℝ | signChoice a b (List.ofFn y) = x} =
        ({y | ∃ z ∈ (List.ofFn y).head?, ∃ i : Fin d, (i : ℕ) = 0 ∧ 0 < z i} ∩ {_y | a = x}) ∪
        ({y | ∃ z ∈ (List.ofFn y).head?, ∃ i : Fin d, (i : ℕ) = 0 ∧ 0 < z i}ᶜ ∩ {_y | b = x}) := by
      ext y
      unfold signChoice
      simp only [Set.mem_ofPred_eq, Set.mem_union, Set.mem_inter_iff, Set.mem_compl_iff]
      split_ifs with h
      · exact ⟨fun hx => Or.inl ⟨h, hx⟩, fun hx => hx.elim (fun hx => hx.2) fun hx => absurd h hx.1⟩
      · exact ⟨fun hx => Or.inr ⟨h, hx⟩, fun hx => hx.elim (fun hx => absurd hx.1 h) fun hx => hx.2⟩
    rw [this]
    exact (hP.inter (MeasurableSet.const _)).union (hP.compl.inter (MeasurableSet.const _))

/-- Five rounds of learning with two processes: the inputs depend on the first measurement. -/
example : ∃ (l₀ l : Learner 2), learnLoop (fun _ => exampleGP) (signChoice [2] [-1]) (fun k x i => x.getD 0 0 + i + k) l₀ 5 = .ok l ∧
    l.outputs = Spec.measurements (fun x i => x.getD 0 0 + i) (fun k _ => k)
      (Spec.adaptive (Spec.startWith [[1]] (signChoice [2] [-1])) (fun x (i : Fin 2) => x.getD 0 0 + i) (fun k _ => k) 6) := by
  choose st hst using fun i : Fin 2 => C53_defined exampleGP linearKernel_isKernel (by norm_num [exampleGP]) (by norm_num [exampleGP]) [[1]]
    ((Spec.measurements (fun x i => x.getD 0 0 + (i : ℕ)) (fun k _ => k) [[1]]).map fun y : Fin 2 → ℝ => [y i]) (by simp)
  obtain ⟨l, h1, h2, -⟩ := C138_loop le_rfl (fun _ => exampleGP) (fun _ => linearKernel_isKernel) (fun _ => by norm_num [exampleGP]) (fun _ => by norm_num [exampleGP])
    [[1]] (signChoice [2] [-1]) (by intro Y i; unfold signChoice; split_ifs <;> rfl) (fun x i => x.getD 0 0 + i) (fun k _ => k)
    ⟨st, Spec.measurements (fun x i => x.getD 0 0 + (i : ℕ)) (fun k _ => k) [[1]]⟩ hst rfl 5
  exact ⟨_, l, h1, h2⟩

/-- Three measurements of two random affine functions, the second and the third where the sign of the first says, and a point that is also chosen by it: the prediction contains both true
values, except with a probability of less than a tenth. -/
example : ∃ (Ω : Type) (_ : MeasurableSpace Ω) (μ : Measure Ω) (_ : IsProbabilityMeasure μ) (F : Ω → List ℝ → Fin 2 → ℝ) (ε : Ω → ℕ → Fin 2 → ℝ)
    (s : Ω → Fin 2 → GPState 1) (m e : Ω → Fin 1 → Fin 2 → ℝ), Spec.DrawnFrom μ (fun _ : Fin 2 => exampleGP) F ε ∧
    let x : Ω → List ℝ := fun ω => signChoice [5] [-4] (Spec.measurements (F ω) (ε ω) (Spec.adaptive (Spec.startWith [[1]] (signChoice [2] [-1])) (F ω) (ε ω) 3))
    (∀ ω, stackEvaluate (List.ofFn fun i => exampleGP.evaluateRows 3 (s ω i)) [x ω] = .ok ([List.ofFn (m ω 0)], [List.ofFn (e ω 0)])) ∧
    μ.real {ω | ∃ i, ¬|F ω (x ω) i - m ω 0 i| ≤ e ω 0 i} < 1 / 10 := by
  choose s hs using fun ω : Fin 2 × (Fin 2 ⊕ ℕ) → ℝ => linear_trained
    (Spec.adaptive (Spec.startWith [[1]] (signChoice [2] [-1])) (featureTruth (fun _ x => exampleGP.mean x 0) (fun _ j x => ![1, x.getD 0 0] j) ω) (featureError ω) 3)
    (featureTruth (fun _ x => exampleGP.mean x 0) (fun _ j x => ![1, x.getD 0 0] j) ω) (featureError ω)
  obtain ⟨m, e, h1, h2⟩ := C138_coverage two_pos _ linear_drawn (fun _ => by norm_num [exampleGP]) (fun _ => 3) (fun _ => by norm_num) _
    (measurableChoice_startWith [[1]] (signChoice_measurable [2] [-1])) 3 s hs (fun _ : Fin 1 => signChoice [5] [-4]) fun _ => signChoice_measurable _ _
  refine ⟨_, _, _, inferInstance, _, _, s, m, e, linear_drawn, fun ω => h1 ω 0, ?_⟩
  have h3 : ((1 : ℕ) : ℝ) * ∑ _i : Fin 2, 2 * Real.exp (-(3 : ℝ) ^ 2 / 2) < 1 / 10 := by
    simp only [Fin.sum_univ_two]
    push_cast
    linarith [exp_three]
  refine lt_of_le_of_lt ?_ h3
  refine le_trans (le_of_eq ?_) h2
  congr 1
  ext ω
  simp

/-- The dynamics `x / 5 + u` plus a random constant. -/
theorem line_drawn : Spec.DrawnFrom (featureMeasure 1 fun _ : Fin 1 => lineGP.noise) (fun _ : Fin 1 => lineGP)
    (featureTruth (fun _ x => lineGP.mean x 0) fun _ _ _ => Real.sqrt (1 / 200)) featureError :=
  feature_prior _ _ _ _ (fun _ x y => by
    rw [Fin.sum_univ_one, Real.mul_self_sqrt (by norm_num)]
    rfl) fun _ => by norm_num [lineGP]

/-- The policy `u = -x / 10`, or `u = 0` if the first measurement is positive. -/
noncomputable def switchPolicy (Y : List (Fin 1 → ℝ)) (x : Fin 1 → ℝ) : List ℝ := signChoice [0] [-x 0 / 10] Y

theorem switch_lipschitz (ω : Fin 1 × (Fin 1 ⊕ ℕ) → ℝ) (Y : List (Fin 1 → ℝ)) (y z : Fin 1 → ℝ) :
    ∑ i, |featureTruth (fun _ x => lineGP.mean x 0) (fun _ _ _ => Real.sqrt (1 / 200)) ω (List.ofFn y ++ switchPolicy Y y) i -
      featureTruth (fun _ x => lineGP.mean x 0) (fun _ _ _ => Real.sqrt (1 / 200)) ω (List.ofFn z ++ switchPolicy Y z) i| ≤ 1 / 5 * ∑ i, |y i - z i| := by
  simp only [switchPolicy, signChoice, Fin.sum_univ_one]
  by_cases hP : ∃ y ∈ Y.head?, ∃ i : Fin 1, (i : ℕ) = 0 ∧ 0 < y i
  · rw [if_pos hP, if_pos hP]
    simp [featureTruth, lineGP]
    rw [← sub_div, abs_div]
    norm_num
    linarith
  · rw [if_neg hP, if_neg hP]
    simp [featureTruth, lineGP]
    rw [show y 0 / 5 + -y 0 / 10 - (z 0 / 5 + -z 0 / 10) = (y 0 - z 0) / 10 by ring, abs_div]
    norm_num
    linarith [abs_nonneg (y 0 - z 0)]

/-- The call of `update_safe_set` on the grid from -2 to 2, for `V(x) = |x|`. -/
noncomputable def lineCheck (s : GPState 1) (policy : (Fin 1 → ℝ) → List ℝ) : Spec.Check realLine where
  Prog := Unit
  Θ := Unit
  sys :=
    { V := fun _ x => |x 0|
      lv := fun _ => .const 1
      lf := fun _ => .const (1 / 5)
      closedLoop := fun _ _ x =>
        match stackEvaluate [lineGP.evaluateRows 3 s] [List.ofFn x ++ policy x] with
        | .ok (mean, error) => .uncertain (fun i => entryOf mean 0 i) (fun i => entryOf error 0 i)
        | .error _ => .exact x }
  argsort := fun v => (List.finRange _).insertionSort fun i j => v i ≤ v j
  tauDiv := fun t k => t / k
  prog := ()
  θ₀ := ()
  θ := ()
  Lv := 1
  Lf := 1 / 5
  tau := 1 / 2
  initial := some fun k => decide (k.val = 2)
  adaptive := false
  history := []
  batch := 10
  args := ⟨true, 1, 1⟩

/-- Two rounds of safe learning with measurements and policies that are chosen from earlier measurements: in no round does the safe set promise something that is false, except with a
probability of less than two fifths. -/
example : ∃ (Ω : Type) (_ : MeasurableSpace Ω) (μ : Measure Ω) (_ : IsProbabilityMeasure μ) (F : Ω → List ℝ → Fin 1 → ℝ) (ε : Ω → ℕ → Fin 1 → ℝ)
    (s : Ω → Fin 2 → GPState 1), Spec.DrawnFrom μ (fun _ : Fin 1 => lineGP) F ε ∧
    let Y : Ω → Fin 2 → List (Fin 1 → ℝ) := fun ω t =>
      Spec.measurements (F ω) (ε ω) (Spec.adaptive (Spec.startWith [[0, 0]] (signChoice [1, 0] [-1, 1 / 10])) (F ω) (ε ω) (t + 1))
    μ.real {ω | ∃ t, ¬(lineCheck (s ω t) (switchPolicy (Y ω t))).Promise fun x => F ω (List.ofFn x ++ switchPolicy (Y ω t) x)} < 2 / 5 := by
  set F : (Fin 1 × (Fin 1 ⊕ ℕ) → ℝ) → List ℝ → Fin 1 → ℝ := featureTruth (fun _ x => lineGP.mean x 0) fun _ _ _ => Real.sqrt (1 / 200) with hF
  choose s hs using fun (ω : Fin 1 × (Fin 1 ⊕ ℕ) → ℝ) (t : Fin 2) => trained_exists (fun _ : Fin 1 => lineGP) (fun _ => lineKernel_isKernel)
    (fun _ => by norm_num [lineGP]) (fun _ => by norm_num [lineGP])
    (Spec.adaptive (Spec.startWith [[0, 0]] (signChoice [1, 0] [-1, 1 / 10])) (F ω) (featureError ω) (t + 1)) (F ω) (featureError ω)
  have h := C138_region one_pos _ line_drawn (fun _ => by norm_num [lineGP]) (fun _ => 3) (fun _ => by norm_num) _
    (measurableChoice_startWith [[0, 0]] (signChoice_measurable [1, 0] [-1, 1 / 10])) 2 (fun t => t + 1) s hs realLine
    (by intro i; fin_cases i; simp [realLine]) (by intro i; fin_cases i; simp [realLine]) (fun _ => switchPolicy)
    (fun t k => by
      have := signChoice_measurable (d := 1) (List.ofFn (gridState realLine k) ++ [0]) (List.ofFn (gridState realLine k) ++ [-gridState realLine k 0 / 10])
      convert this using 1
      funext Y
      unfold switchPolicy signChoice
      split_ifs <;> rfl)
    (fun ω t => lineCheck (s ω t 0) (switchPolicy (Spec.measurements (F ω) (featureError ω)
      (Spec.adaptive (Spec.startWith [[0, 0]] (signChoice [1, 0] [-1, 1 / 10])) (F ω) (featureError ω) (t + 1)))))
    (fun ω t =>
      { sort := sortContract_insertionSort _ rfl
        loop := by
          intro x mean error h
          have h' : stackEvaluate [lineGP.evaluateRows 3 (s ω t 0)] [List.ofFn x ++ (switchPolicy (Spec.measurements (F ω) (featureError ω)
            (Spec.adaptive (Spec.startWith [[0, 0]] (signChoice [1, 0] [-1, 1 / 10])) (F ω) (featureError ω) (t + 1)))) x] = .ok ([List.ofFn mean], [List.ofFn error]) := h
          simp only [lineCheck, h']
          congr 1 <;> (funext i; have : i = 0 := Subsingleton.elim _ _; subst this; simp [entryOf])
        lv := rfl
        lf := rfl
        lv_nonneg := by norm_num [lineCheck]
        lf_nonneg := by norm_num [lineCheck]
        lipschitz := by
          intro y z
          simp only [lineCheck, Fin.sum_univ_one, one_mul]
          exact abs_abs_sub_abs_le _ _
        tau := by
          simp [realLine, lineCheck]
          norm_num
        methods := fun op hop => absurd hop List.not_mem_nil
        batch := by simp [lineCheck]
        shrink := rfl
        uniform := by simp [lineCheck]
        values := fun j => rfl })
  refine ⟨_, _, _, inferInstance, F, featureError, fun ω t => s ω t 0, line_drawn, lt_of_le_of_lt (measureReal_mono ?_ (measure_ne_top _ _)) (h.trans_lt ?_)⟩
  · rintro ω ⟨t, ht⟩
    refine ⟨t, ?_, ht⟩
    exact switch_lipschitz ω _
  · have hn : realLine.nindex = 5 := by simp [GridWorld.nindex, shapeProd, realLine]
    rw [hn]
    simp only [Fin.sum_univ_one]
    push_cast
    linarith [exp_three]

/-- What `get_safe_sample` uses in the example: one of the two states 1 and -1 is safe, which depends on the first measurement. -/
noncomputable def lineSample (s : GPState 1) (Y : List (Fin 1 → ℝ)) : SampleSystem ℝ 1 1 where
  grid := realLine
  policy := fun x i => (switchPolicy Y x).getD i 0
  dynamics := fun q =>
    match stackEvaluate [lineGP.evaluateRows 3 s] [List.ofFn q.1 ++ List.ofFn q.2] with
    | .ok (mean, error) => (fun i => entryOf mean 0 i, fun i => entryOf error 0 i)
    | .error _ => (0, 0)
  lv := .const 1
  V := fun x => |x 0|
  cMax := 1
  safeSet := fun k => decide (signChoice [3] [1] Y = [(k : ℝ)])

/-- The sample is the safe state with the action of the policy. -/
theorem lineSample_returns (s : GPState 1) (Y : List (Fin 1 → ℝ)) :
    ∃ r, (lineSample s Y).getSafeSample (fun q => toLex (q.1 0, q.2 0)) (some [0]) none true none [] = .ok r ∧
      List.ofFn r.pair.1 ++ List.ofFn r.pair.2 = signChoice [1, 0] [-1, 1 / 10] Y := by
  have hkey : Function.Injective fun q : Pair ℝ 1 1 => toLex (q.1 0, q.2 0) := by
    rintro ⟨a, b⟩ ⟨a', b'⟩ hab
    obtain ⟨h1, h2⟩ := Prod.mk.inj (toLex.injective hab)
    refine Prod.ext (funext fun i => ?_) (funext fun i => ?_) <;> (have : i = 0 := Subsingleton.elim _ _; subst this; assumption)
  have h2 : ∀ i, 2 ≤ (lineSample s Y).grid.num i := by intro i; fin_cases i; simp [lineSample, realLine]
  have hlt : ∀ i, (lineSample s Y).grid.lo i < (lineSample s Y).grid.hi i := by intro i; fin_cases i; simp [lineSample, realLine]
  have hx0 : ∃ x, (lineSample s Y).IsSafeGridState x := by
    by_cases hP : ∃ y ∈ Y.head?, ∃ i : Fin 1, (i : ℕ) = 0 ∧ 0 < y i
    · refine ⟨![1], 3, ⟨![3], ?_, ?_, ?_⟩, ?_⟩
      · intro i; fin_cases i; simp [lineSample, realLine]
      · simp [Spec.rowMajor]
      · intro i; fin_cases i; simp [lineSample, realLine, Spec.axisPoint]; norm_num
      · exact decide_eq_true (by unfold signChoice; rw [if_pos hP]; norm_num)
    · refine ⟨![-1], 1, ⟨![1], ?_, ?_, ?_⟩, ?_⟩
      · intro i; fin_cases i; simp [lineSample, realLine]
      · simp [Spec.rowMajor]
      · intro i; fin_cases i; simp [lineSample, realLine, Spec.axisPoint]; norm_num
      · exact decide_eq_true (by unfold signChoice; rw [if_neg hP]; norm_num)
  have hx1 : ∀ x, (lineSample s Y).IsSafeGridState x → List.ofFn x ++ List.ofFn ((lineSample s Y).policy x) = signChoice [1, 0] [-1, 1 / 10] Y := by
    rintro x ⟨k, ⟨ijk, -, hk, hx⟩, hsafe⟩
    have hk' : k = ijk 0 := by simpa [Spec.rowMajor] using hk
    have hx' : x 0 = -2 + ijk 0 := by
      rw [hx 0]
      simp [lineSample, realLine, Spec.axisPoint]
      ring
    replace hsafe : signChoice [3] [1] Y = [(k : ℝ)] := of_decide_eq_true hsafe
    simp only [lineSample, signChoice, switchPolicy] at hsafe ⊢
    by_cases hP : ∃ y ∈ Y.head?, ∃ i : Fin 1, (i : ℕ) = 0 ∧ 0 < y i
    · simp only [if_pos hP, List.cons.injEq, and_true] at hsafe ⊢
      have : x 0 = 1 := by rw [hx', ← hk', ← hsafe]; norm_num
      simp [this]
    · simp only [if_neg hP, List.cons.injEq, and_true] at hsafe ⊢
      have : x 0 = -1 := by rw [hx', ← hk', ← hsafe]; norm_num
      simp [this]
  obtain ⟨x, hx⟩ := hx0
  obtain ⟨r, hr⟩ := (lineSample s Y).C36_returns _ hkey h2 hlt [0] none true [] x hx
  refine ⟨r, hr, ?_⟩
  cases hb : r.backup with
  | false =>
    obtain ⟨h3, ⟨p, hp, hu⟩, -⟩ := (lineSample s Y).C34_safe_sample _ hkey h2 hlt [0] none true none [] r hr hb
    obtain rfl : p = 0 := by simpa using hp
    rw [hu, ← hx1 _ h3]
    simp [Spec.limited]
  | true =>
    obtain ⟨h3, hu, -⟩ := ((lineSample s Y).C36_backup _ hkey h2 hlt [0] none true [] r hr).2 hb
    rw [hu, ← hx1 _ h3]
    simp [Spec.limited]

/-- Two measurements where `get_safe_sample` says: after both the true state is in the level set, except with a probability of less than a tenth. -/
example : ∃ (Ω : Type) (_ : MeasurableSpace Ω) (μ : Measure Ω) (_ : IsProbabilityMeasure μ) (F : Ω → List ℝ → Fin 1 → ℝ) (ε : Ω → ℕ → Fin 1 → ℝ)
    (s : Ω → Fin 2 → GPState 1) (r : Ω → Fin 2 → SampleSystem.Result ℝ 1 1), Spec.DrawnFrom μ (fun _ : Fin 1 => lineGP) F ε ∧
    let Y : Ω → Fin 2 → List (Fin 1 → ℝ) := fun ω t =>
      Spec.measurements (F ω) (ε ω) (Spec.adaptive (Spec.startWith [[0, 0]] (signChoice [1, 0] [-1, 1 / 10])) (F ω) (ε ω) (t + 1))
    (∀ ω t, (lineSample (s ω t) (Y ω t)).getSafeSample (fun q => toLex (q.1 0, q.2 0)) (some [0]) none true none [] = .ok (r ω t)) ∧
    μ.real {ω | ∃ t, (r ω t).backup = false ∧ ¬|F ω (List.ofFn (r ω t).pair.1 ++ List.ofFn (r ω t).pair.2) 0| < 1} < 1 / 10 := by
  set F : (Fin 1 × (Fin 1 ⊕ ℕ) → ℝ) → List ℝ → Fin 1 → ℝ := featureTruth (fun _ x => lineGP.mean x 0) fun _ _ _ => Real.sqrt (1 / 200) with hF
  choose s hs using fun (ω : Fin 1 × (Fin 1 ⊕ ℕ) → ℝ) (t : Fin 2) => trained_exists (fun _ : Fin 1 => lineGP) (fun _ => lineKernel_isKernel)
    (fun _ => by norm_num [lineGP]) (fun _ => by norm_num [lineGP])
    (Spec.adaptive (Spec.startWith [[0, 0]] (signChoice [1, 0] [-1, 1 / 10])) (F ω) (featureError ω) (t + 1)) (F ω) (featureError ω)
  choose r hr hpair using fun (ω : Fin 1 × (Fin 1 ⊕ ℕ) → ℝ) (t : Fin 2) => lineSample_returns (s ω t 0)
    (Spec.measurements (F ω) (featureError ω) (Spec.adaptive (Spec.startWith [[0, 0]] (signChoice [1, 0] [-1, 1 / 10])) (F ω) (featureError ω) (t + 1)))
  have h := C138_exploration one_pos _ line_drawn (fun _ => by norm_num [lineGP]) (fun _ => 3) (fun _ => by norm_num) _
    (measurableChoice_startWith [[0, 0]] (signChoice_measurable [1, 0] [-1, 1 / 10])) 2 (fun t => t + 1) s hs (fun q : Pair ℝ 1 1 => toLex (q.1 0, q.2 0))
    (by
      rintro ⟨a, b⟩ ⟨a', b'⟩ hab
      obtain ⟨h1, h2⟩ := Prod.mk.inj (toLex.injective hab)
      refine Prod.ext (funext fun i => ?_) (funext fun i => ?_) <;> (have : i = 0 := Subsingleton.elim _ _; subst this; assumption))
    (fun ω t => lineSample (s ω t 0) (Spec.measurements (F ω) (featureError ω)
      (Spec.adaptive (Spec.startWith [[0, 0]] (signChoice [1, 0] [-1, 1 / 10])) (F ω) (featureError ω) (t + 1))))
    (by intro ω t i; fin_cases i; simp [lineSample, realLine]) (by intro ω t i; fin_cases i; simp [lineSample, realLine])
    (by
      intro ω t q mean error h
      have h' : stackEvaluate [lineGP.evaluateRows 3 (s ω t 0)] [List.ofFn q.1 ++ List.ofFn q.2] = .ok ([List.ofFn mean], [List.ofFn error]) := h
      simp only [lineSample, h']
      refine Prod.ext ?_ ?_ <;> (funext i; have : i = 0 := Subsingleton.elim _ _; subst this; simp [entryOf]))
    (by intro ω t y i; simp [lineSample, LipArg.entry])
    (by
      intro ω t y z
      simp only [lineSample, LipArg.entry, Fin.sum_univ_one, one_mul]
      exact abs_abs_sub_abs_le _ _)
    (fun _ _ => ⟨some [0], none, true, none, []⟩) (fun _ _ => [0]) (fun _ _ => rfl) r hr
    (by
      intro ω t
      rw [hpair ω t]
      unfold Spec.startWith
      rw [dif_neg (by simp)])
  refine ⟨_, _, _, inferInstance, F, featureError, fun ω t => s ω t 0, r, line_drawn, hr, lt_of_le_of_lt h ?_⟩
  simp only [Fin.sum_univ_one]
  push_cast
  linarith [exp_three]

end SafeLearning
