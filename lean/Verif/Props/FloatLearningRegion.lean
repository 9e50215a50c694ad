import Verif.Props.FloatLearning
import Verif.Props.FloatRegion
set_option autoImplicit false

/-!
# C152: the region of attraction that is learned, with everything in floating point arithmetic
-/

namespace SafeLearning

open Matrix Spec MeasureTheory ProbabilityTheory Flt FltLyap

variable {Prog Θ : Type} {d : ℕ} {g : GridWorld ℝ d}

/-- One call of `update_safe_set` in floating point arithmetic: the object, the calls that were made on it before, and the arguments. The Lyapunov function is computed as `Vc`, and the true one is `V`. -/
structure _root_.Spec.RoundedCall (Prog Θ : Type) {d : ℕ} (g : GridWorld ℝ d) where
  W : FWorld ℝ Prog Θ d g.nindex
  prog : Prog
  tau : ℝ
  initial : Option (Fin g.nindex → Bool)
  θ₀ : Θ
  history : List (Lyap.Op ℝ Prog Θ)
  batch : ℕ
  args : Lyap.UpdateArgs (Flt ℝ)
  θ : Θ
  V : (Fin d → ℝ) → ℝ
  Vc : (Fin d → ℝ) → ℝ
  Lv : ℝ
  Lf : ℝ
  η : ℝ

/-- The result of the call: the object and whether it returns. -/
noncomputable def _root_.Spec.RoundedCall.result (A : Arith ℝ) (K : RoundedCall Prog Θ g) :=
  updateSafeSet A K.W K.batch K.args (run A K.W (new K.W K.prog (fin K.tau) K.initial false K.θ₀) (K.history.map finiteOp)) K.θ

/-- The call is made as the library asks for: the dynamics are Gaussian processes that were trained with the measurements `Y` at `X`, with the actions of `policy`, the Lipschitz constant of the
Lyapunov function is right, and the safe set may shrink. -/
structure _root_.Spec.RoundedCall.Valid (K : RoundedCall Prog Θ g) (fl : ℝ → ℝ) (gps : Fin d → GPModel 1) (beta : Fin d → ℝ) (X : List (List ℝ)) (Y : List (Fin d → ℝ))
    (policy : (Fin d → ℝ) → List ℝ) : Prop where
  inputs : LyapunovInputs g K.W K.θ K.V K.Vc K.Lv K.Lf K.η
  loop : ∃ st : Fin d → GPState 1, (∀ i, RoundedTrained fl (gps i) (st i) X (Y.map fun y => [y i])) ∧
    ∀ k, ∃ mean error, K.W.closedLoop K.prog K.θ (K.W.state k) = .uncertain (fun i => fin (mean i)) (fun i => fltOfOption (error i)) ∧
      RoundedPrediction fl gps beta st (List.ofFn (gridState g k) ++ policy (gridState g k)) mean error
  methods : ∀ op ∈ K.history, op.IsMethod
  shrink : K.args.canShrink = true

/-- What the safe set promises for the closed loop `f`: if the call returns, the states with a computed value below `c` are safe, and `tau` is larger than the radius `r` of the grid by enough to cover the effects of
rounding in the comparisons, in the Lyapunov function and in the predictions at these states, then every trajectory that starts below the level `c - Lv r - η` stays there and reaches the neighbourhood of an
initially safe state. -/
def _root_.Spec.RoundedCall.Promise (K : RoundedCall Prog Θ g) (A : Arith ℝ) (u : ℝ) (gps : Fin d → GPModel 1) (beta : Fin d → ℝ) (X : List (List ℝ)) (Y : List (Fin d → ℝ))
    (policy : (Fin d → ℝ) → List ℝ) (f : (Fin d → ℝ) → Fin d → ℝ) : Prop :=
  ∀ c r, (K.result A).2 = .ok () → (∀ j : Fin g.nindex, K.Vc (gridState g j) < c → (K.result A).1.safeSet j = true) →
    ∑ i, (g.hi i - g.lo i) / ((g.num i : ℝ) - 1) / 2 ≤ r →
    (∀ (j : Fin g.nindex) (mean error : Fin d → ℝ), K.Vc (gridState g j) < c → K.W.closedLoop K.prog K.θ (K.W.state j) = .uncertain (fun i => fin (mean i)) (fun i => fin (error i)) →
      roundingMargin u K.Vc (.const K.Lv) (.const K.Lf) (gridState g j) (.uncertain mean error) K.tau + 2 * K.η +
        K.Lv * ∑ i, intervalError u (gps i) (beta i) X (fun n => entryOf (Y.map fun y => [y i]) n 0) (List.ofFn (gridState g j) ++ policy (gridState g j)) ≤
        K.Lv * (1 + K.Lf) * (K.tau - r)) →
    (∀ x, K.V x < c - K.Lv * r - K.η → ∀ i, g.lo i ≤ x i ∧ x i ≤ g.hi i) →
    ∃ δ, 0 < δ ∧ ∀ x₀, K.V x₀ < c - K.Lv * r - K.η →
      ∃ T, (∀ t < T, K.V (f^[t + 1] x₀) ≤ K.V (f^[t] x₀) - δ) ∧ (∀ t ≤ T, K.V (f^[t] x₀) < c - K.Lv * r - K.η) ∧
        ∃ j, InInitial K.initial j ∧ ∑ i, |f^[T] x₀ i - gridState g j i| ≤ r

/-- After method calls, a state that is safe after `update_safe_set(can_shrink=True)` is initial or passes the comparison now. -/
theorem call_certified {A : Arith ℝ} (K : RoundedCall Prog Θ g) (hh : ∀ op ∈ K.history, op.IsMethod) (hcs : K.args.canShrink = true) (hok : (K.result A).2 = .ok ())
    (j : Fin g.nindex) (hj : (K.result A).1.safeSet j = true) :
    InInitial K.initial j ∨ lt (decreaseAt A K.W K.prog K.θ j) (thresholdOf A K.W K.θ j (fin K.tau)) = true := by
  obtain ⟨s, hs⟩ : ∃ s, s = run A K.W (new K.W K.prog (fin K.tau) K.initial false K.θ₀) (K.history.map finiteOp) := ⟨_, rfl⟩
  have hres : K.result A = updateSafeSet A K.W K.batch K.args s K.θ := by rw [hs]; rfl
  rw [hres] at hok hj
  obtain ⟨hp, ht, hi, ha, hG, -⟩ := run_settings A K.W K.prog (fin K.tau) K.initial false K.history hh (new K.W K.prog (fin K.tau) K.initial false K.θ₀)
    ⟨rfl, rfl, rfl, rfl, by simp [new], by simp [new]⟩
  rw [← hs] at hp ht hi ha hG
  have hG' : (graphFor s K.args.safetyFactor).prog = K.prog ∧ (graphFor s K.args.safetyFactor).tau = fin K.tau := by
    unfold graphFor
    cases hg : s.graph with
    | none => exact ⟨hp, ht⟩
    | some G => exact hG G hg
  have hIm : initialMem s j = true → InInitial K.initial j := by
    intro h
    unfold initialMem at h
    rw [hi] at h
    unfold InInitial
    cases hI : K.initial with
    | none => rw [hI] at h; cases h
    | some I => rw [hI] at h; exact ⟨I, rfl, h⟩
  obtain ⟨-, -, -, -, -, -, h7⟩ := updateSafeSet_shape A K.W K.batch K.args s K.θ _ rfl
  rcases h7 with ⟨-, h7⟩ | ⟨p, -, h7⟩
  · exact absurd hok h7
  · rcases h7 j hj with h | h | h | ⟨fed, N, -, -, -, h, -⟩
    · exact Or.inl (hIm h)
    · unfold startFlag at h
      rw [hcs] at h
      exact Or.inl (hIm h)
    · unfold negative at h
      rw [hG'.1, hG'.2] at h
      exact Or.inr h
    · rw [ha] at h
      cases h

/-- If all states are initial or pass the comparison, the call returns and all states are safe. -/
theorem call_complete {A : Arith ℝ} (K : RoundedCall Prog Θ g) (hh : ∀ op ∈ K.history, op.IsMethod) (hcs : K.args.canShrink = true) (hb : 0 < K.batch) (hn : 0 < g.nindex)
    (hall : ∀ v j, j ∈ K.W.argsort v)
    (h : ∀ j, InInitial K.initial j ∨ lt (decreaseAt A K.W K.prog K.θ j) (thresholdOf A K.W K.θ j (fin K.tau)) = true) :
    (K.result A).2 = .ok () ∧ ∀ j, (K.result A).1.safeSet j = true := by
  obtain ⟨s, hs⟩ : ∃ s, s = run A K.W (new K.W K.prog (fin K.tau) K.initial false K.θ₀) (K.history.map finiteOp) := ⟨_, rfl⟩
  have hres : K.result A = updateSafeSet A K.W K.batch K.args s K.θ := by rw [hs]; rfl
  rw [hres]
  obtain ⟨hp, ht, hi, ha, hG, hGa⟩ := run_settings A K.W K.prog (fin K.tau) K.initial false K.history hh (new K.W K.prog (fin K.tau) K.initial false K.θ₀)
    ⟨rfl, rfl, rfl, rfl, by simp [new], by simp [new]⟩
  rw [← hs] at hp ht hi ha hG hGa
  have hG' : (graphFor s K.args.safetyFactor).prog = K.prog ∧ (graphFor s K.args.safetyFactor).tau = fin K.tau := by
    unfold graphFor
    cases hg : s.graph with
    | none => exact ⟨hp, ht⟩
    | some G => exact hG G hg
  obtain ⟨h1, h2⟩ := updateSafeSet_level A K.W hn K.batch hb K.args hcs s K.θ (hall _) (by rw [ha]; simp) (fun G h => by rw [ha]; exact hGa G h)
  have hpass : ∀ j, (initialMem s j || negative A K.W (graphFor s K.args.safetyFactor) K.θ j) = true := by
    intro j
    rw [Bool.or_eq_true]
    rcases h j with ⟨I, h3, h4⟩ | h3
    · left
      unfold initialMem
      rw [hi, h3]
      exact h4
    · right
      unfold negative
      rw [hG'.1, hG'.2]
      exact h3
  refine ⟨h1, fun j => (h2 j).mpr (Or.inr ?_)⟩
  rw [List.takeWhile_eq_self_iff.mpr fun j _ => hpass j]
  exact hall _ j

/-- **C152 (trajectories).** All computations are rounded. If the true next states are in the exact intervals at all grid states, and the true closed loop is Lipschitz with the constant that is used, then what
the safe set promises is true. -/
theorem C152_trajectories {fl : ℝ → ℝ} {u : ℝ} {A : Arith ℝ} (hA : RoundedArith A fl u) (gps : Fin d → GPModel 1) (hk : ∀ i, IsKernel (gps i).kern) (hn : ∀ i, 0 < (gps i).noise)
    (hs : ∀ i, (gps i).scale ≠ 0) (beta : Fin d → ℝ) (X : List (List ℝ)) (Y : List (Fin d → ℝ)) (hw : ∀ i, WellConditioned u (gps i) X)
    (h2 : ∀ i, 2 ≤ g.num i) (hlt : ∀ i, g.lo i < g.hi i)
    (policy : (Fin d → ℝ) → List ℝ) (K : RoundedCall Prog Θ g) (hK : K.Valid fl gps beta X Y policy)
    (f : (Fin d → ℝ) → Fin d → ℝ) (hf : ∀ y z, ∑ i, |f y i - f z i| ≤ K.Lf * ∑ i, |y i - z i|)
    (hexact : ∀ (k : Fin g.nindex) i, InExactInterval (gps i) (beta i) X (Y.map fun y => [y i]) (List.ofFn (gridState g k) ++ policy (gridState g k)) (f (gridState g k) i)) :
    K.Promise A u gps beta X Y policy f := by
  intro c r hok hc hr hmargin hbox
  have hcell : ∀ j : Fin g.nindex, ∃ δ, 0 < δ ∧ (K.Vc (gridState g j) < c → InInitial K.initial j ∨ ∀ z, ∑ i, |z i - gridState g j i| ≤ r → K.V (f z) ≤ K.V z - δ) := by
    intro j
    by_cases hj : K.Vc (gridState g j) < c
    · rcases call_certified K hK.methods hK.shrink hok j (hc j hj) with h | h
      · exact ⟨1, one_pos, fun _ => Or.inl h⟩
      · obtain ⟨st, h3, h4⟩ := hK.loop
        obtain ⟨mean, error, h5, h6⟩ := h4 j
        obtain ⟨m, e, h7, h8⟩ := C151_check g hA gps hk hn hs beta X Y st h3 hw K.W K.prog K.θ K.V K.Vc K.Lv K.Lf K.η hK.inputs policy j mean error h5 h6 f hf (hexact j) _ h
        obtain ⟨δ, hδ, h9⟩ := h8 K.tau r rfl (hmargin j m e hj h7)
        exact ⟨δ, hδ, fun _ => Or.inr h9⟩
    · exact ⟨1, one_pos, fun h => absurd h hj⟩
  choose m hm0 hm using hcell
  obtain ⟨ε, hε, hmin⟩ := exists_margin m
  refine ⟨ε, hε, ?_⟩
  have hV := hK.inputs.lipschitz
  have hLv := hK.inputs.lv_nonneg
  have hnn : 0 < g.nindex := by
    unfold GridWorld.nindex shapeProd
    exact Finset.prod_pos fun i _ => by have := h2 i; omega
  -- a lower bound of `V`
  obtain ⟨k₀, -, hk₀⟩ := Finset.exists_min_image (Finset.univ : Finset (Fin g.nindex)) (fun k => K.V (gridState g k)) ⟨⟨0, hnn⟩, Finset.mem_univ _⟩
  obtain ⟨B, hB⟩ : ∃ B, B = K.V (gridState g k₀) - K.Lv * r := ⟨_, rfl⟩
  have hlow : ∀ x, K.V x < c - K.Lv * r - K.η → B ≤ K.V x := by
    intro x hx
    obtain ⟨k, hk⟩ := exists_near_grid g h2 hlt r hr x (hbox x hx)
    have h1 := (abs_le.mp (hV x (gridState g k))).1
    have h3 := mul_le_mul_of_nonneg_left hk hLv
    have h4 := hk₀ k (Finset.mem_univ _)
    linarith
  have hstep : ∀ x, K.V x < c - K.Lv * r - K.η → (∃ j, InInitial K.initial j ∧ ∑ i, |x i - gridState g j i| ≤ r) ∨ K.V (f x) ≤ K.V x - ε := by
    intro x hx
    obtain ⟨j, hj⟩ := exists_near_grid g h2 hlt r hr x (hbox x hx)
    have hlr := mul_le_mul_of_nonneg_left hj hLv
    have hVj := abs_le.mp (hV x (gridState g j))
    have hjc : K.Vc (gridState g j) < c := by
      have h1 := (abs_le.mp (hK.inputs.error (gridState g j))).2
      linarith [hVj.1]
    rcases hm j hjc with h | h
    · exact Or.inl ⟨j, h, hj⟩
    · exact Or.inr (by linarith [h x hj, hmin j (hm0 j)])
  have key : ∀ (N : ℕ) x, K.V x < c - K.Lv * r - K.η → K.V x < B + N * ε →
      ∃ T, (∀ t < T, K.V (f^[t + 1] x) ≤ K.V (f^[t] x) - ε) ∧ (∀ t ≤ T, K.V (f^[t] x) < c - K.Lv * r - K.η) ∧
        ∃ j, InInitial K.initial j ∧ ∑ i, |f^[T] x i - gridState g j i| ≤ r := by
    intro N
    induction N with
    | zero =>
      intro x hx hx2
      have := hlow x hx
      simp only [Nat.cast_zero, zero_mul, add_zero] at hx2
      exact absurd this (not_le.mpr hx2)
    | succ N ih =>
      intro x hx hx2
      rcases hstep x hx with h | h
      · refine ⟨0, fun t ht => absurd ht (Nat.not_lt_zero t), fun t ht => ?_, h⟩
        rw [Nat.le_zero.mp ht]; exact hx
      · have hx3 : K.V (f x) < c - K.Lv * r - K.η := by linarith
        obtain ⟨T, h1, h3, h4⟩ := ih (f x) hx3 (by push_cast at hx2; linarith)
        refine ⟨T + 1, fun t ht => ?_, fun t ht => ?_, h4⟩
        · rcases t with _ | t
          · exact h
          · exact h1 t (by omega)
        · rcases t with _ | t
          · exact hx
          · exact h3 t (by omega)
  intro x hx
  obtain ⟨N, hN⟩ := exists_nat_gt ((K.V x - B) / ε)
  exact key N x hx (by rw [div_lt_iff₀ hε] at hN; linarith)

section Learning

variable {Ω : Type} [MeasurableSpace Ω] {μ : Measure Ω} {F : Ω → List ℝ → Fin d → ℝ} {ε : Ω → ℕ → Fin d → ℝ}

/-- **C152 (the region of attraction).** The true dynamics and the measurement errors are drawn from the priors. In every one of `T` rounds the inputs of the measurements, the policy, the Lyapunov function, and all else that
`update_safe_set` uses may have been chosen from all earlier measurements. Gaussian processes, Lyapunov functions and comparisons are rounded. Then, with a probability of at least `1 - T * n * ∑ i, 2 exp (- beta i ^ 2 / 2)` for
a grid of `n` states, in no round does the safe set promise something that is false for the true closed loop, unless it is not Lipschitz with the constant that is used. -/
theorem C152_region [IsProbabilityMeasure μ] {fl : ℝ → ℝ} {u : ℝ} {A : Arith ℝ} (hA : RoundedArith A fl u) (gps : Fin d → GPModel 1) (h : Spec.DrawnFrom μ gps F ε)
    (hk : ∀ i, IsKernel (gps i).kern) (hn : ∀ i, 0 < (gps i).noise) (hs : ∀ i, (gps i).scale ≠ 0) (beta : Fin d → ℝ) (hb : ∀ i, 0 < beta i)
    (choose : List (Fin d → ℝ) → List ℝ) (hc : Spec.MeasurableChoice choose) (T : ℕ) (N : Fin T → ℕ)
    (X : Ω → Fin T → List (List ℝ)) (hX : X = fun ω t => Spec.adaptive choose (F ω) (ε ω) (N t))
    (Y : Ω → Fin T → List (Fin d → ℝ)) (hY : Y = fun ω t => Spec.measurements (F ω) (ε ω) (X ω t))
    (hw : ∀ ω t i, WellConditioned u (gps i) (X ω t)) (h2 : ∀ i, 2 ≤ g.num i) (hlt : ∀ i, g.lo i < g.hi i)
    (policy : Fin T → List (Fin d → ℝ) → (Fin d → ℝ) → List ℝ)
    (hp : ∀ t (k : Fin g.nindex), Spec.MeasurableChoice fun Y => List.ofFn (gridState g k) ++ policy t Y (gridState g k))
    (K : Ω → Fin T → RoundedCall Prog Θ g) (hK : ∀ ω t, (K ω t).Valid fl gps beta (X ω t) (Y ω t) (policy t (Y ω t)))
    (f : Ω → Fin T → (Fin d → ℝ) → Fin d → ℝ) (hfdef : f = fun ω t x => F ω (List.ofFn x ++ policy t (Y ω t) x)) :
    μ.real {ω | ∃ t, (∀ y z, ∑ i, |f ω t y i - f ω t z i| ≤ (K ω t).Lf * ∑ i, |y i - z i|) ∧
      ¬(K ω t).Promise A u gps beta (X ω t) (Y ω t) (policy t (Y ω t)) (f ω t)} ≤ T * (g.nindex * ∑ i, 2 * Real.exp (-beta i ^ 2 / 2)) := by
  refine (measureReal_mono (fun ω hω => ?_) (measure_ne_top _ _)).trans (intervals_miss gps h hk hn beta hb choose hc T N X hX Y hY g policy hp f hfdef)
  obtain ⟨t, hL, hP⟩ := hω
  by_contra hno
  refine hP (C152_trajectories hA gps hk hn hs beta _ _ (hw ω t) h2 hlt _ _ (hK ω t) _ hL fun k i => ?_)
  by_contra hki
  exact hno ⟨t, k, i, hki⟩

end Learning

/-! ## A case that meets the hypotheses -/

theorem realLine_state (j : Fin realLine.nindex) : gridState realLine j 0 = (j : ℝ) - 2 := by
  obtain ⟨j, hj⟩ := j
  have hn : realLine.nindex = 5 := by simp [GridWorld.nindex, shapeProd, realLine]
  rw [hn] at hj
  simp [gridState, realLine, unravel, shapeProd, GridWorld.ijkToState, GridWorld.unit]
  interval_cases j <;> norm_num

/-- Before the first measurement, with the policy `u = -x / 10`, all states of the line from -2 to 2 pass the test in double precision with the discretisation constant `51 / 100`, except for the origin, which is initially
safe. -/
theorem line_call : ∃ K : RoundedCall (Fin 2) Unit realLine, K.Valid (roundBinaryReal 53) (fun _ : Fin 1 => lineGP) (fun _ => 3) [] [] (fun x => [-x 0 / 10]) ∧
    K.V = (fun x => |x 0|) ∧ K.Lf = 1 / 5 ∧ ∀ f : (Fin 1 → ℝ) → Fin 1 → ℝ, K.Promise realDouble (1 / 2 ^ 53) (fun _ : Fin 1 => lineGP) (fun _ => 3) [] [] (fun x => [-x 0 / 10]) f →
      ∃ δ, 0 < δ ∧ ∀ x₀ : Fin 1 → ℝ, |x₀ 0| < 2 → ∃ T, (∀ t < T, |f^[t + 1] x₀ 0| ≤ |f^[t] x₀ 0| - δ) ∧ (∀ t ≤ T, |f^[t] x₀ 0| < 2) ∧ |f^[T] x₀ 0| ≤ 1 / 2 := by
  obtain ⟨s, hs, hline⟩ := line_at
  choose m e hM hm he0 he1 herr hexact using hline
  obtain ⟨prediction, hp⟩ : ∃ prediction : Fin 2 → ℝ → ℝ × Option ℝ, prediction = fun _ a => if h : |a| ≤ 2 then (m a h, some (e a h)) else (0, none) := ⟨_, rfl⟩
  have hn : realLine.nindex = 5 := by simp [GridWorld.nindex, shapeProd, realLine]
  have hstate : ∀ k : Fin realLine.nindex, |gridState realLine k 0| ≤ 2 := by
    intro k
    have h1 : (k : ℝ) ≤ 4 := by
      have : (k : ℕ) ≤ 4 := by have := k.2; omega
      exact_mod_cast this
    have h2 : (0 : ℝ) ≤ k := Nat.cast_nonneg _
    rw [realLine_state, abs_le]
    constructor <;> linarith
  have hpk : ∀ k : Fin realLine.nindex, prediction 0 (gridState realLine k 0) = (m _ (hstate k), some (e _ (hstate k))) := by
    intro k
    rw [hp]
    exact dif_pos (hstate k)
  have hinput : ∀ x : Fin 1 → ℝ, List.ofFn x ++ [-x 0 / 10] = [x 0, -x 0 / 10] := by intro x; simp
  obtain ⟨K, hK⟩ : ∃ K : RoundedCall (Fin 2) Unit realLine, K = ⟨floatLine prediction, 0, 51 / 100, some fun k => decide ((k : ℕ) = 2), (), [.updateValues (), .update 3 ⟨true, 1, 1⟩ ()], 10, ⟨true, 1, fin 1⟩, (),
    fun x => |x 0|, fun x => |x 0|, 1, 1 / 5, 0⟩ := ⟨_, rfl⟩
  have hloop : ∀ k : Fin realLine.nindex, K.W.closedLoop K.prog K.θ (K.W.state k) = .uncertain (fun _ => fin (m _ (hstate k))) (fun _ => fin (e _ (hstate k))) := by
    intro k
    have : K.W.closedLoop K.prog K.θ (K.W.state k) = .uncertain (fun _ => fin (prediction 0 (gridState realLine k 0)).1) (fun _ => fltOfOption (prediction 0 (gridState realLine k 0)).2) := by
      rw [hK]
      rfl
    rw [this, hpk]
    rfl
  have hvalid : K.Valid (roundBinaryReal 53) (fun _ : Fin 1 => lineGP) (fun _ => 3) [] [] (fun x => [-x 0 / 10]) := by
    refine ⟨by rw [hK]; exact floatLine_inputs _, ⟨fun _ => s, fun _ => ⟨[], [], s, [], rfl, by simp, hs, rfl, by simp, by simp⟩, fun k => ?_⟩, ?_, by rw [hK]⟩
    · refine ⟨fun _ => m _ (hstate k), fun _ => some (e _ (hstate k)), hloop k, fun i => ?_⟩
      rw [hinput]
      exact hM _ (hstate k)
    · rw [hK]
      simp [Lyap.Op.IsMethod]
  -- the effects of rounding
  have hmk : ∀ k : Fin realLine.nindex, |m _ (hstate k)| ≤ |gridState realLine k 0| / 10 + 1 / 1000 := by
    intro k
    have h1 := hm _ (hstate k)
    have h2 : |gridState realLine k 0 / 10| = |gridState realLine k 0| / 10 := by rw [abs_div, abs_of_pos (by norm_num : (0 : ℝ) < 10)]
    have h3 := abs_sub_abs_le_abs_sub (m _ (hstate k)) (gridState realLine k 0 / 10)
    linarith
  have hmargin : ∀ k : Fin realLine.nindex, roundingMargin (1 / 2 ^ 53) (fun x : Fin 1 → ℝ => |x 0|) (.const 1) (.const (1 / 5)) (gridState realLine k)
      (.uncertain (fun _ => m _ (hstate k)) fun _ => e _ (hstate k)) (51 / 100) ≤ 1 / 1000 := by
    intro k
    have hsize : checkSize (fun x : Fin 1 → ℝ => |x 0|) (.const 1) (.const (1 / 5)) (gridState realLine k) (.uncertain (fun _ => m _ (hstate k)) fun _ => e _ (hstate k)) (51 / 100) ≤ 10 := by
      simp only [checkSize, thresholdAt, LipArg.forThreshold, LipDyn.at, LipArg.entry, Fin.sum_univ_one, one_mul, abs_of_nonneg (he0 _ (hstate k))]
      have h1 := hmk k
      have h2 := hstate k
      have h3 := abs_nonneg (m _ (hstate k))
      have h4 := abs_nonneg (gridState realLine k 0)
      have h5 : |(|m _ (hstate k)| - |gridState realLine k 0|)| ≤ 3 := by rw [abs_le]; constructor <;> linarith
      have h6 := he1 _ (hstate k)
      norm_num
      norm_num at h5
      linarith
    unfold roundingMargin
    refine (mul_le_mul_of_nonneg_left hsize (by norm_num)).trans (by norm_num)
  have hpass : ∀ k : Fin realLine.nindex, InInitial K.initial k ∨ lt (decreaseAt realDouble K.W K.prog K.θ k) (thresholdOf realDouble K.W K.θ k (fin K.tau)) = true := by
    intro k
    by_cases hk2 : (k : ℕ) = 2
    · left
      rw [hK]
      exact ⟨_, rfl, by simp [hk2]⟩
    right
    have hfar : 1 ≤ |gridState realLine k 0| := by
      rw [realLine_state]
      rcases lt_or_gt_of_ne hk2 with h | h
      · have h1 : (k : ℝ) ≤ 1 := by exact_mod_cast Nat.lt_succ_iff.mp h
        rw [le_abs]
        right
        linarith
      · have h1 : (3 : ℝ) ≤ k := by exact_mod_cast h
        rw [le_abs]
        left
        linarith
    have := C119_complete_partial (Prog := Unit) (Θ := Unit) ⟨fun _ x => |x 0|, fun _ => .const 1, fun _ => .const (1 / 5), fun _ _ _ => .uncertain (fun _ => m _ (hstate k)) fun _ => e _ (hstate k)⟩ realLine
      (fun _ => []) (fun t _ => t) realDouble_rounded () () k (51 / 100) (by
        dsimp only
        have h1 : thresholdAt (.const (1 : ℝ)) (.const (1 / 5)) (gridState realLine k) (51 / 100) = -(612 / 1000) := by norm_num [thresholdAt, LipArg.forThreshold, LipDyn.at]
        rw [h1]
        have h2 : vDecreaseBound (fun x : Fin 1 → ℝ => |x 0|) (.const 1) (gridState realLine k) (.uncertain (fun _ => m _ (hstate k)) fun _ => e _ (hstate k)) ≤ -679 / 1000 := by
          simp only [vDecreaseBound, vDecreaseConfidence, LipArg.entry, Fin.sum_univ_one, one_mul]
          linarith [hmk k, he1 _ (hstate k)]
        linarith [hmargin k])
    have hW : decreaseAt realDouble K.W K.prog K.θ k = decreaseAt realDouble (finiteWorld (Prog := Unit) (Θ := Unit)
        ⟨fun _ x => |x 0|, fun _ => .const 1, fun _ => .const (1 / 5), fun _ _ _ => .uncertain (fun _ => m _ (hstate k)) fun _ => e _ (hstate k)⟩ realLine (fun _ => []) fun t _ => t) () () k := by
      unfold decreaseAt
      rw [hloop k, hK]
      rfl
    rw [hW]
    have hT : thresholdOf realDouble K.W K.θ k (fin K.tau) = thresholdOf realDouble (finiteWorld (Prog := Unit) (Θ := Unit)
        ⟨fun _ x => |x 0|, fun _ => .const 1, fun _ => .const (1 / 5), fun _ _ _ => .uncertain (fun _ => m _ (hstate k)) fun _ => e _ (hstate k)⟩ realLine (fun _ => []) fun t _ => t) () k (fin (51 / 100)) := by
      rw [hK]
      rfl
    rw [hT]
    exact this
  obtain ⟨hok, hsafe⟩ := call_complete (A := realDouble) K hvalid.methods hvalid.shrink (by rw [hK]; norm_num) (by rw [hn]; norm_num) (by intro v j; rw [hK]; simp [floatLine]) hpass
  refine ⟨K, hvalid, by rw [hK], by rw [hK], fun f hf => ?_⟩
  obtain ⟨δ, hδ, h⟩ := hf (5 / 2) (1 / 2) hok (fun j _ => hsafe j) (by norm_num [realLine])
    (by
      intro j mean error _ h1
      have h2 : mean = (fun _ => m _ (hstate j)) ∧ error = fun _ => e _ (hstate j) := by
        rw [hloop j] at h1
        injection h1 with h1 h1'
        constructor
        · funext i
          have := congrFun h1 i
          injection this with this
          exact this.symm
        · funext i
          have := congrFun h1' i
          injection this with this
          exact this.symm
      rw [h2.1, h2.2, hK, Fin.sum_univ_one, hinput]
      have h3 := hmargin j
      have h4 := herr _ (hstate j) fun n => entryOf (([] : List (Fin 1 → ℝ)).map fun y => [y 0]) n 0
      dsimp only
      linarith)
    (by
      intro x hx i
      obtain rfl : i = 0 := Subsingleton.elim _ _
      rw [hK] at hx
      dsimp only at hx
      have h1 : |x 0| < 2 := by linarith
      have h2 := abs_lt.mp h1
      simp only [realLine, Matrix.cons_val_zero]
      constructor <;> linarith)
  refine ⟨δ, hδ, fun x₀ hx₀ => ?_⟩
  obtain ⟨T, h1, h2, j, h3, h4⟩ := h x₀ (by rw [hK]; dsimp only; linarith)
  rw [hK] at h1 h2 h3
  dsimp only at h1 h2 h3
  refine ⟨T, h1, fun t ht => by linarith [h2 t ht], ?_⟩
  obtain ⟨I, h5, h6⟩ := h3
  obtain rfl := Option.some.inj h5
  rw [Fin.sum_univ_one, realLine_state, of_decide_eq_true h6] at h4
  simpa using h4

/-- The hypotheses of `C152_region` are met: the dynamics are drawn from the prior, and before the first measurement the safe set that is computed in double precision says that all trajectories of the true closed loop that start between
-2 and 2 come to within `1 / 2` of the origin. This is true with a probability of at least four fifths. -/
example : ∃ (Ω : Type) (_ : MeasurableSpace Ω) (μ : Measure Ω) (_ : IsProbabilityMeasure μ) (F : Ω → List ℝ → Fin 1 → ℝ) (ε : Ω → ℕ → Fin 1 → ℝ), Spec.DrawnFrom μ (fun _ : Fin 1 => lineGP) F ε ∧
    ∃ f : Ω → (Fin 1 → ℝ) → Fin 1 → ℝ, (f = fun ω x => F ω (List.ofFn x ++ [-x 0 / 10])) ∧
      μ.real {ω | ¬∀ x₀ : Fin 1 → ℝ, |x₀ 0| < 2 → ∃ T, (∀ t < T, |(f ω)^[t + 1] x₀ 0| < |(f ω)^[t] x₀ 0|) ∧ (∀ t ≤ T, |(f ω)^[t] x₀ 0| < 2) ∧ |(f ω)^[T] x₀ 0| ≤ 1 / 2} < 1 / 5 := by
  obtain ⟨F, hF⟩ : ∃ F : (Fin 1 × (Fin 1 ⊕ ℕ) → ℝ) → List ℝ → Fin 1 → ℝ, F = featureTruth (fun _ x => lineGP.mean x 0) fun _ _ _ => Real.sqrt (1 / 200) := ⟨_, rfl⟩
  obtain ⟨K, hK, hV, hLf, hreach⟩ := line_call
  have hswitch : ∀ x, switchPolicy [] x = [-x 0 / 10] := by
    intro x
    simp [switchPolicy, signChoice]
  have hX0 : ∀ ω (t : Fin 1), Spec.adaptive (signChoice [1, 0] [-1, 1 / 10]) (F ω) (featureError ω) (t : ℕ) = [] := by
    intro ω t
    obtain rfl : t = 0 := Subsingleton.elim _ _
    exact List.length_eq_zero_iff.mp (by rw [adaptive_length]; rfl)
  have hY0 : ∀ ω (t : Fin 1), Spec.measurements (F ω) (featureError ω) (Spec.adaptive (signChoice [1, 0] [-1, 1 / 10]) (F ω) (featureError ω) (t : ℕ)) = [] := by
    intro ω t
    rw [hX0]
    simp [Spec.measurements]
  have h := C152_region (g := realLine) realDouble_rounded _ (hF ▸ line_drawn) (fun _ => lineKernel_isKernel) (fun _ => by norm_num [lineGP]) (fun _ => by norm_num [lineGP]) (fun _ => 3) (fun _ => by norm_num) _
    (signChoice_measurable [1, 0] [-1, 1 / 10]) 1 (fun t => (t : ℕ)) _ rfl _ rfl (fun ω t _ => line_conditioned _ (by rw [hX0]; simp)) (by intro i; fin_cases i; simp [realLine])
    (by intro i; fin_cases i; norm_num [realLine]) (fun _ => switchPolicy)
    (fun t k => by
      have := signChoice_measurable (d := 1) (List.ofFn (gridState realLine k) ++ [0]) (List.ofFn (gridState realLine k) ++ [-gridState realLine k 0 / 10])
      convert this using 1
      funext Y
      unfold switchPolicy signChoice
      split_ifs <;> rfl)
    (fun _ _ => K) (fun ω t => by
      rw [hY0, hX0, show switchPolicy [] = fun x => [-x 0 / 10] from funext hswitch]
      exact hK) _ rfl
  refine ⟨_, _, featureMeasure 1 fun _ : Fin 1 => lineGP.noise, inferInstance, F, featureError, hF ▸ line_drawn, _, rfl, lt_of_le_of_lt (measureReal_mono ?_ (measure_ne_top _ _)) (h.trans_lt ?_)⟩
  · intro ω hω
    refine ⟨0, fun y z => ?_, fun hP => hω ?_⟩
    · rw [hLf, hF]
      exact switch_lipschitz ω _ y z
    · simp only [hY0, hX0, show switchPolicy [] = fun x => [-x 0 / 10] from funext hswitch] at hP
      obtain ⟨δ, hδ, h1⟩ := hreach _ hP
      intro x₀ hx₀
      obtain ⟨T, h2, h3, h4⟩ := h1 x₀ hx₀
      exact ⟨T, fun t ht => lt_of_le_of_lt (h2 t ht) (sub_lt_self _ hδ), h3, h4⟩
  · have hn : realLine.nindex = 5 := by simp [GridWorld.nindex, shapeProd, realLine]
    rw [hn]
    simp only [Fin.sum_univ_one]
    push_cast
    linarith [exp_three]

end SafeLearning
