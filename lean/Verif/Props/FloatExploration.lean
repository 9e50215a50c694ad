import Verif.Props.FloatLearning
import Verif.Props.NonFiniteSample
set_option autoImplicit false

/-!
# C153: safe exploration with everything in floating point arithmetic

Gaussian processes (safe_learning/functions.py:395-458, 507-546) and `get_safe_sample` (safe_learning/lyapunov.py:713-723, 762-797) round every operation.
-/

namespace SafeLearning

open Matrix Spec MeasureTheory ProbabilityTheory Flt FltLyap

/-- A pair of numbers as a pair of floating point numbers. -/
def _root_.Spec.numberPair {d m : ℕ} (q : Pair ℝ d m) : Pair (Flt ℝ) d m := (fun i => fin (q.1 i), fun i => fin (q.2 i))

/-- The input of the Gaussian processes for a state and an action. -/
def _root_.Spec.pairInput {d m : ℕ} (q : Pair ℝ d m) : List ℝ := List.ofFn q.1 ++ List.ofFn q.2

/-- A pair that is not from the backup policy is one of the candidates that were accepted. -/
theorem selected_accepted {d m : ℕ} {A : Arith ℝ} (S : FSample ℝ d m) (positive : Bool) (pairs backupPairs : List (Pair (Flt ℝ) d m)) (r : SampleSystem.Result (Flt ℝ) d m)
    (h : selectSample A S positive pairs backupPairs = .ok r) (hb : r.backup = false) : r.pair ∈ pairs ∧ accepted A S positive r.pair = .ok true := by
  unfold selectSample at h
  simp only [bind, Except.bind] at h
  cases hm : pairs.mapM fun p => accepted A S positive p with
  | error e => rw [hm] at h; cases h
  | ok mask =>
    rw [hm] at h
    simp only [] at h
    obtain ⟨-, hmask⟩ := mapM_ok_inv hm
    obtain ⟨safe, hsafe⟩ : ∃ safe, safe = ((pairs.zip mask).filter fun q => q.2).map fun q => q.1 := ⟨_, rfl⟩
    rw [← hsafe] at h
    have hmem : ∀ p, p ∈ safe → p ∈ pairs ∧ accepted A S positive p = .ok true := by
      intro p
      rw [hsafe, List.mem_map]
      rintro ⟨⟨q, b⟩, hq, rfl⟩
      obtain ⟨hq, hb⟩ := List.mem_filter.mp hq
      obtain ⟨k, hk⟩ := List.getElem?_of_mem hq
      rw [List.getElem?_zip_eq_some] at hk
      obtain ⟨b', h1, h2⟩ := hmask k q hk.1
      have hbb : b' = b := by
        have := h1.symm.trans hk.2; simpa using this
      refine ⟨List.mem_of_getElem? hk.1, ?_⟩
      simp only [] at hb
      rw [h2, hbb, hb]
    split_ifs at h with h0
    · exfalso
      cases hbp : backupPairs with
      | nil => rw [hbp] at h; cases h
      | cons x l =>
        obtain ⟨p, -, hp, -⟩ := mostUncertain_spec A S true backupPairs (by simp [hbp])
        rw [hp] at h
        cases h
        cases hb
    · have hne : safe ≠ [] := by intro hc; rw [hc] at h0; exact h0 rfl
      obtain ⟨p, hp1, hp2, -, -⟩ := mostUncertain_spec A S false safe hne
      rw [hp2] at h
      cases h
      exact hmem p hp1

/-- A round of exploration: what `get_safe_sample` evaluates, its candidates, the pairs of the backup policy and the level. The Lyapunov function is computed as `Vc`, and the true one is `V`. -/
structure _root_.Spec.RoundedExploration (d m : ℕ) where
  S : FSample ℝ d m
  positive : Bool
  candidates : List (Pair ℝ d m)
  backup : List (Pair (Flt ℝ) d m)
  V : (Fin d → ℝ) → ℝ
  Vc : (Fin d → ℝ) → ℝ
  Lv : ℝ
  η : ℝ
  c : ℝ

/-- The call is made as the library asks for: the dynamics are Gaussian processes that were trained with the measurements `Y` at `X`, and the Lipschitz constant of the Lyapunov function is right. -/
structure _root_.Spec.RoundedExploration.Valid {d m : ℕ} (R : RoundedExploration d m) (fl : ℝ → ℝ) (gps : Fin d → GPModel 1) (beta : Fin d → ℝ) (X : List (List ℝ)) (Y : List (Fin d → ℝ)) : Prop where
  dynamics : ∃ st : Fin d → GPState 1, (∀ i, RoundedTrained fl (gps i) (st i) X (Y.map fun y => [y i])) ∧
    ∀ q ∈ R.candidates, ∃ mean error, R.S.dynamics (numberPair q) = (fun i => fin (mean i), fun i => fltOfOption (error i)) ∧ RoundedPrediction fl gps beta st (pairInput q) mean error
  computed : ∀ y : Fin d → ℝ, R.S.V (fun i => fin (y i)) = fin (R.Vc y)
  error : ∀ y, |R.Vc y - R.V y| ≤ R.η
  lv : R.S.lv = .const (fin R.Lv)
  lv_nonneg : 0 ≤ R.Lv
  lipschitz : ∀ y z, |R.V y - R.V z| ≤ R.Lv * ∑ i, |y i - z i|
  level : R.S.cMax = fin R.c

/-- The prediction for the pair `q` is free of NaN, and the value of the next state `next` is below the level, up to the effects of rounding in the comparison, in the Lyapunov function and in the prediction. -/
def _root_.Spec.RoundedExploration.StaysBelow {d m : ℕ} (R : RoundedExploration d m) (u : ℝ) (gps : Fin d → GPModel 1) (beta : Fin d → ℝ) (X : List (List ℝ)) (Y : List (Fin d → ℝ)) (q : Pair ℝ d m)
    (next : Fin d → ℝ) : Prop :=
  ∃ mean error : Fin d → ℝ, R.S.dynamics (numberPair q) = (fun i => fin (mean i), fun i => fin (error i)) ∧
    R.V next < R.c + ((1 + u) ^ (d + 2) - 1) * (|R.Vc mean| + ∑ i, R.Lv * error i) + R.η +
      R.Lv * ∑ i, intervalError u (gps i) (beta i) X (fun n => entryOf (Y.map fun y => [y i]) n 0) (pairInput q)

/-- **C153 (one round).** If `get_safe_sample` returns a pair that is not from the backup policy, with everything in floating point arithmetic, then the pair is one of the candidates, and the true next state is below
the level up to the effects of rounding, provided the exact intervals contain it. -/
theorem C153_round {fl : ℝ → ℝ} {u : ℝ} {A : Arith ℝ} {d m : ℕ} (hA : RoundedArith A fl u) (gps : Fin d → GPModel 1) (hk : ∀ i, IsKernel (gps i).kern) (hn : ∀ i, 0 < (gps i).noise)
    (hs : ∀ i, (gps i).scale ≠ 0) (beta : Fin d → ℝ) (hb : ∀ i, 0 ≤ beta i) (X : List (List ℝ)) (Y : List (Fin d → ℝ)) (hw : ∀ i, WellConditioned u (gps i) X)
    (R : RoundedExploration d m) (hR : R.Valid fl gps beta X Y) (r : SampleSystem.Result (Flt ℝ) d m)
    (hr : selectSample A R.S R.positive (R.candidates.map numberPair) R.backup = .ok r) (hback : r.backup = false) :
    ∃ q ∈ R.candidates, r.pair = numberPair q ∧
      ∀ next : Fin d → ℝ, (∀ i, InExactInterval (gps i) (beta i) X (Y.map fun y => [y i]) (pairInput q) (next i)) → R.StaysBelow u gps beta X Y q next := by
  obtain ⟨h1, h2⟩ := selected_accepted R.S R.positive _ _ r hr hback
  obtain ⟨q, hq, hrq⟩ := List.mem_map.mp h1
  refine ⟨q, hq, hrq.symm, fun next hnext => ?_⟩
  rw [← hrq] at h2
  obtain ⟨st, h3, h4⟩ := hR.dynamics
  obtain ⟨mean, error, h5, h6⟩ := h4 q hq
  obtain ⟨e, h7, h8⟩ := C151_sample hA gps hk hn hs beta hb X Y st h3 hw R.S R.positive q.1 q.2 mean error h5 h6 R.V R.Vc R.Lv R.η R.c hR.computed hR.error hR.lv hR.lv_nonneg hR.lipschitz hR.level h2
    next hnext
  refine ⟨mean, e, ?_, h8⟩
  rw [h5]
  congr 1
  funext i
  rw [h7 i]
  rfl

section Learning

variable {Ω : Type} [MeasurableSpace Ω] {d m : ℕ} {μ : Measure Ω} {F : Ω → List ℝ → Fin d → ℝ} {ε : Ω → ℕ → Fin d → ℝ}

/-- **C153 (safe exploration).** The true dynamics and the measurement errors are drawn from the priors, and every measurement is taken where `get_safe_sample` says, for candidates, a Lyapunov function, a level and a safe
set that may have been chosen from all earlier measurements. Gaussian processes and `get_safe_sample` round. Then, with a probability of at least `1 - T * ∑ i, 2 exp (- beta i ^ 2 / 2)`, in all of `T` rounds the true system is
below the level after the measurement, up to the effects of rounding, unless the backup policy is used. -/
theorem C153_exploration [IsProbabilityMeasure μ] {fl : ℝ → ℝ} {u : ℝ} {A : Arith ℝ} (hA : RoundedArith A fl u) (gps : Fin d → GPModel 1) (h : Spec.DrawnFrom μ gps F ε)
    (hk : ∀ i, IsKernel (gps i).kern) (hn : ∀ i, 0 < (gps i).noise) (hs : ∀ i, (gps i).scale ≠ 0) (beta : Fin d → ℝ) (hb : ∀ i, 0 < beta i)
    (choose : List (Fin d → ℝ) → List ℝ) (hc : Spec.MeasurableChoice choose) (T : ℕ) (N : Fin T → ℕ)
    (X : Ω → Fin T → List (List ℝ)) (hX : X = fun ω t => Spec.adaptive choose (F ω) (ε ω) (N t))
    (Y : Ω → Fin T → List (Fin d → ℝ)) (hY : Y = fun ω t => Spec.measurements (F ω) (ε ω) (X ω t))
    (hw : ∀ ω t i, WellConditioned u (gps i) (X ω t))
    (R : Ω → Fin T → RoundedExploration d m) (hR : ∀ ω t, (R ω t).Valid fl gps beta (X ω t) (Y ω t)) (r : Ω → Fin T → SampleSystem.Result (Flt ℝ) d m)
    (hr : ∀ ω t, selectSample A (R ω t).S (R ω t).positive ((R ω t).candidates.map numberPair) (R ω t).backup = .ok (r ω t))
    (hchoose : ∀ ω t q, (r ω t).pair = numberPair q → choose (Y ω t) = pairInput q) :
    μ.real {ω | ∃ t, (r ω t).backup = false ∧ ¬∃ q, (r ω t).pair = numberPair q ∧ (R ω t).StaysBelow u gps beta (X ω t) (Y ω t) q (F ω (pairInput q))} ≤
      T * ∑ i, 2 * Real.exp (-beta i ^ 2 / 2) := by
  have hround : ∀ t, μ.real {ω | ∃ (_ : Fin 1) (i : Fin d), ¬InExactInterval (gps i) (beta i) (X ω t) ((Y ω t).map fun y => [y i]) (choose (Y ω t)) (F ω (choose (Y ω t)) i)} ≤
      ∑ i, 2 * Real.exp (-beta i ^ 2 / 2) := by
    intro t
    have h1 : {ω | ∃ (_ : Fin 1) (i : Fin d), ¬InExactInterval (gps i) (beta i) (X ω t) ((Y ω t).map fun y => [y i]) (choose (Y ω t)) (F ω (choose (Y ω t)) i)} =
        {ω | ∃ (_ : Fin 1) (i : Fin d), beta i * Real.sqrt (posteriorCov (gps i).kern (gps i).noise (Spec.adaptive choose (F ω) (ε ω) (N t)).get
            (choose (measurements (F ω) (ε ω) (Spec.adaptive choose (F ω) (ε ω) (N t)))) (choose (measurements (F ω) (ε ω) (Spec.adaptive choose (F ω) (ε ω) (N t))))) <
          |residual (fun i => (gps i).kern) (fun i x => (gps i).mean x 0) (fun i => (gps i).noise) F ε (Spec.adaptive choose (F ω) (ε ω) (N t)) i
            (choose (measurements (F ω) (ε ω) (Spec.adaptive choose (F ω) (ε ω) (N t)))) ω|} := by
      subst hY hX
      ext ω
      simp only [Set.mem_ofPred_eq, InExactInterval, not_le, residual]
      refine exists_congr fun k => exists_congr fun i => ?_
      have : (fun n : Fin (Spec.adaptive choose (F ω) (ε ω) (N t)).length => entryOf ((measurements (F ω) (ε ω) (Spec.adaptive choose (F ω) (ε ω) (N t))).map fun y => [y i]) n 0) =
          fun n => F ω ((Spec.adaptive choose (F ω) (ε ω) (N t)).get n) i + ε ω n i := funext fun n => entryOf_measurements _ _ _ _ _
      rw [this]
    rw [h1]
    have h2 : ((1 : ℕ) : ℝ) * ∑ i, 2 * Real.exp (-beta i ^ 2 / 2) = ∑ i, 2 * Real.exp (-beta i ^ 2 / 2) := by simp
    rw [← h2]
    exact union_bound _ _ fun _ i => adaptive_miss h hc hc (N t) i (hb i) fun ω => noisyGram_pd (hk i) (hn i) _
  have hsub : {ω | ∃ t, (r ω t).backup = false ∧ ¬∃ q, (r ω t).pair = numberPair q ∧ (R ω t).StaysBelow u gps beta (X ω t) (Y ω t) q (F ω (pairInput q))} ⊆
      ⋃ t ∈ (Finset.univ : Finset (Fin T)), {ω | ∃ (_ : Fin 1) (i : Fin d), ¬InExactInterval (gps i) (beta i) (X ω t) ((Y ω t).map fun y => [y i]) (choose (Y ω t)) (F ω (choose (Y ω t)) i)} := by
    rintro ω ⟨t, h1, h2⟩
    by_contra hno
    obtain ⟨q, -, h3, h4⟩ := C153_round hA gps hk hn hs beta (fun i => (hb i).le) _ _ (hw ω t) (R ω t) (hR ω t) (r ω t) (hr ω t) h1
    refine h2 ⟨q, h3, h4 _ fun i => ?_⟩
    rw [← hchoose ω t q h3]
    by_contra hki
    exact hno (Set.mem_iUnion₂.mpr ⟨t, Finset.mem_univ _, 0, i, hki⟩)
  refine (measureReal_mono hsub (measure_ne_top _ _)).trans ((measureReal_biUnion_finset_le _ _).trans ((Finset.sum_le_sum fun t _ => hround t).trans ?_))
  simp

end Learning

/-! ## A case that meets the hypotheses -/

/-- The dynamics are drawn from the prior. Before the first measurement `get_safe_sample` accepts the state 1 with the action `-1 / 10` in double precision, for `c_max = 1 / 2`. The true next state has a value below `0.52`,
except with a probability of less than `1 / 20`. -/
example : ∃ (Ω : Type) (_ : MeasurableSpace Ω) (μ : Measure Ω) (_ : IsProbabilityMeasure μ) (F : Ω → List ℝ → Fin 1 → ℝ) (ε : Ω → ℕ → Fin 1 → ℝ) (R : RoundedExploration 1 1)
    (r : SampleSystem.Result (Flt ℝ) 1 1), Spec.DrawnFrom μ (fun _ : Fin 1 => lineGP) F ε ∧ R.Valid (roundBinaryReal 53) (fun _ : Fin 1 => lineGP) (fun _ => 3) [] [] ∧ R.c = 1 / 2 ∧
    selectSample realDouble R.S R.positive (R.candidates.map numberPair) R.backup = .ok r ∧ r.backup = false ∧ r.pair = numberPair (fun _ => 1, fun _ => -1 / 10) ∧
    μ.real {ω | ¬|F ω [1, -1 / 10] 0| < 52 / 100} < 1 / 20 := by
  obtain ⟨F, hF⟩ : ∃ F : (Fin 1 × (Fin 1 ⊕ ℕ) → ℝ) → List ℝ → Fin 1 → ℝ, F = featureTruth (fun _ x => lineGP.mean x 0) fun _ _ _ => Real.sqrt (1 / 200) := ⟨_, rfl⟩
  obtain ⟨s, m, e, h1, ⟨M, E, h3, hm, he⟩, hm1, he0, he1, h14, hint'⟩ := line_first
  have hmpos : 0 ≤ m := by linarith [(abs_le.mp hm1).1]
  have hm2 : m ≤ 11 / 100 := by linarith [(abs_le.mp hm1).2]
  obtain ⟨S, hS⟩ : ∃ S : FSample ℝ 1 1, S = ⟨fun _ => (fun _ => fin m, fun _ => fltOfOption (some e)), .const (fin 1),
    fun x => (match x 0 with | .fin a => .fin |a| | _ => .nan), fin (1 / 2), fun _ => .ok true⟩ := ⟨_, rfl⟩
  obtain ⟨q, hq⟩ : ∃ q : Pair ℝ 1 1, q = (fun _ => 1, fun _ => -1 / 10) := ⟨_, rfl⟩
  have hqi : pairInput q = [1, -1 / 10] := by rw [hq]; simp [pairInput]
  obtain ⟨R, hRdef⟩ : ∃ R : RoundedExploration 1 1, R = ⟨S, true, [q], [], fun x => |x 0|, fun x => |x 0|, 1, 0, 1 / 2⟩ := ⟨_, rfl⟩
  have hR : R.Valid (roundBinaryReal 53) (fun _ : Fin 1 => lineGP) (fun _ => 3) [] [] := by
    refine ⟨⟨fun _ => s, fun _ => ⟨[], [], s, [], rfl, by simp, h1, rfl, by simp, by simp⟩, fun p hp => ⟨fun _ => m, fun _ => some e, ?_, fun i => ?_⟩⟩, ?_, ?_, ?_, ?_, ?_, ?_⟩
    · rw [hRdef, hS]
    · have : p = q := by rw [hRdef] at hp; simpa using hp
      rw [this, hqi]
      exact ⟨M, E, h3, hm, he⟩
    · intro y; rw [hRdef, hS]
    · intro y; rw [hRdef]; simp
    · rw [hRdef, hS]
    · rw [hRdef]; norm_num
    · intro y z
      rw [hRdef]
      simp only [Fin.sum_univ_one, one_mul]
      exact abs_abs_sub_abs_le _ _
    · rw [hRdef, hS]
  have hmaps : mapsInside realDouble S (numberPair q) = true := by
    have hfl : ∀ y, 0 ≤ y → 0 ≤ roundBinaryReal 53 y ∧ roundBinaryReal 53 y ≤ (1 + 1 / 2 ^ 53) * y := by
      intro y hy
      have := abs_le.mp (roundBinaryReal_within.err y)
      rw [abs_of_nonneg hy] at this
      constructor <;> nlinarith [this.1, this.2]
    have hmaps : mapsInside realDouble S (numberPair q) =
        decide (roundBinaryReal 53 (|m| + roundBinaryReal 53 (0 + roundBinaryReal 53 (1 * e))) < 1 / 2) := by
      rw [hS]
      rfl
    rw [hmaps]
    have a1 := hfl (1 * e) (by linarith)
    have a2 := hfl (0 + roundBinaryReal 53 (1 * e)) (by linarith)
    have a3 := hfl (|m| + roundBinaryReal 53 (0 + roundBinaryReal 53 (1 * e))) (by linarith [abs_nonneg m])
    rw [abs_of_nonneg hmpos] at a3 ⊢
    have : roundBinaryReal 53 (m + roundBinaryReal 53 (0 + roundBinaryReal 53 (1 * e))) < 1 / 2 := by
      norm_num at a1 a2 a3 ⊢
      linarith
    exact decide_eq_true this
  obtain ⟨r, hrdef⟩ : ∃ r : SampleSystem.Result (Flt ℝ) 1 1, r = ⟨false, numberPair q, sampleBound realDouble S (numberPair q)⟩ := ⟨_, rfl⟩
  have hr : selectSample realDouble R.S R.positive (R.candidates.map numberPair) R.backup = .ok r := by
    rw [hRdef, hrdef]
    simp [selectSample, accepted, hmaps, mostUncertain, argmaxNaN, bind, Except.bind, pure, Except.pure]
  have hconst : ∀ Y : List (Fin 1 → ℝ), signChoice [1, -1 / 10] [1, -1 / 10] Y = [1, -1 / 10] := by
    intro Y
    unfold signChoice
    split_ifs <;> rfl
  have hX0 : ∀ ω (t : Fin 1), Spec.adaptive (signChoice [1, -1 / 10] [1, -1 / 10]) (F ω) (featureError ω) (t : ℕ) = [] := by
    intro ω t
    obtain rfl : t = 0 := Subsingleton.elim _ _
    exact List.length_eq_zero_iff.mp (by rw [adaptive_length]; rfl)
  have hY0 : ∀ ω (t : Fin 1), Spec.measurements (F ω) (featureError ω) (Spec.adaptive (signChoice [1, -1 / 10] [1, -1 / 10]) (F ω) (featureError ω) (t : ℕ)) = [] := by
    intro ω t
    rw [hX0]
    simp [Spec.measurements]
  have hpair : ∀ p : Pair ℝ 1 1, numberPair q = numberPair p → q = p := by
    intro p hp
    obtain ⟨h4, h5⟩ := Prod.mk.inj hp
    refine Prod.ext (funext fun i => ?_) (funext fun i => ?_)
    · have := congrFun h4 i; injection this
    · have := congrFun h5 i; injection this
  have h := C153_exploration (m := 1) realDouble_rounded _ (hF ▸ line_drawn) (fun _ => lineKernel_isKernel) (fun _ => by norm_num [lineGP]) (fun _ => by norm_num [lineGP]) (fun _ => 3) (fun _ => by norm_num) _
    (signChoice_measurable [1, -1 / 10] [1, -1 / 10]) 1 (fun t => (t : ℕ)) _ rfl _ rfl (fun ω t _ => line_conditioned _ (by rw [hX0]; simp)) (fun _ _ => R) (fun ω t => by rw [hY0, hX0]; exact hR) (fun _ _ => r)
    (fun _ _ => hr) (fun ω t p hp => by
      rw [hrdef] at hp
      rw [hconst, ← hpair p hp, hqi])
  refine ⟨_, _, featureMeasure 1 fun _ : Fin 1 => lineGP.noise, inferInstance, F, featureError, R, r, hF ▸ line_drawn, hR, by rw [hRdef], hr, by rw [hrdef], by rw [hrdef, hq],
    lt_of_le_of_lt (measureReal_mono ?_ (measure_ne_top _ _)) (h.trans_lt ?_)⟩
  · intro ω hω
    refine ⟨0, by rw [hrdef], ?_⟩
    rintro ⟨p, h4, mean, error, h5, h6⟩
    apply hω
    rw [hrdef] at h4
    obtain rfl := hpair p h4
    rw [hX0, hqi] at h6
    rw [hRdef] at h5 h6
    rw [hS] at h5
    obtain ⟨h7, h8⟩ := Prod.mk.inj h5
    have h9 : mean 0 = m := by have := congrFun h7 0; injection this with this; exact this.symm
    have h10 : error 0 = e := by have := congrFun h8 0; injection this with this; exact this.symm
    simp only [Fin.sum_univ_one, h9, h10, abs_of_nonneg hmpos] at h6
    have h11 := h14 fun n => entryOf ((measurements (F ω) (featureError ω) []).map fun y => [y 0]) n 0
    have h12 : ((1 + 1 / 2 ^ 53 : ℝ) ^ (1 + 2) - 1) * (m + 1 * e) ≤ 1 / 1000 := by
      refine (mul_le_mul_of_nonneg_left (by linarith : m + 1 * e ≤ 1) (by norm_num)).trans (by norm_num)
    linarith
  · simp only [Fin.sum_univ_one]
    push_cast
    linarith [exp_three]

end SafeLearning
