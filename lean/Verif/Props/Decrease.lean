import Verif.Props.Adaptive
import Mathlib.Algebra.Order.Archimedean.Basic
import Mathlib.Algebra.Order.BigOperators.Group.Finset
import Mathlib.Algebra.Order.BigOperators.Ring.Finset
import Mathlib.Data.Finset.Max
import Mathlib.Tactic.Linarith
set_option autoImplicit false

/-! # Properties C25 - C27: the decrease condition in continuous space -/

set_option linter.unusedSectionVars false

namespace SafeLearning

variable {K : Type} [Field K] [LinearOrder K] [IsStrictOrderedRing K] {d : ℕ}

/-! ## C26 -/

/-- The true next state `y` is inside the confidence region of the prediction. -/
def Prediction.Contains (p : Prediction K d) (y : Fin d → K) : Prop :=
  match p with
  | .exact next => y = next
  | .uncertain mean error => ∀ i, |y i - mean i| ≤ error i

/-- The state about which the Lipschitz constant is evaluated. -/
def Prediction.center (p : Prediction K d) : Fin d → K :=
  match p with
  | .exact next => next
  | .uncertain mean _ => mean

/-- **C26** `v_decrease_bound` bounds the change of `V` to every next state `y` inside the confidence
region, for every `V` whose variation around the predicted mean is bounded entrywise by the
(nonnegative) Lipschitz constants returned there. -/
theorem C26_v_decrease_bound_upper (V : (Fin d → K) → K) (lv : LipArg K d) (x y : Fin d → K)
    (p : Prediction K d) (hy : p.Contains y) (hnn : ∀ i, 0 ≤ lv.entry p.center i)
    (hV : ∀ z, |V z - V p.center| ≤ ∑ i, lv.entry p.center i * |z i - p.center i|) :
    V y - V x ≤ vDecreaseBound V lv x p := by
  unfold vDecreaseBound vDecreaseConfidence
  cases p with
  | exact next =>
    have : y = next := hy
    subst this
    simp
  | uncertain mean error =>
    have hy' : ∀ i, |y i - mean i| ≤ error i := hy
    have h1 := (abs_le.mp (hV y)).2
    have h2 : ∑ i, lv.entry mean i * |y i - mean i| ≤ ∑ i, lv.entry mean i * error i :=
      Finset.sum_le_sum fun i _ => mul_le_mul_of_nonneg_left (hy' i) (hnn i)
    have h3 : V y - V mean ≤ ∑ i, lv.entry mean i * |y i - mean i| := h1
    simp only []
    linarith

/-- **C26** with a global constant: it is enough that `V` is `L`-Lipschitz in the 1-norm. -/
theorem C26_v_decrease_bound_constant (V : (Fin d → K) → K) (L : K) (hL : 0 ≤ L)
    (hV : ∀ y z, |V y - V z| ≤ L * ∑ i, |y i - z i|) (x y : Fin d → K) (p : Prediction K d)
    (hy : p.Contains y) : V y - V x ≤ vDecreaseBound V (.const L) x p := by
  refine C26_v_decrease_bound_upper V (.const L) x y p hy (fun _ => hL) fun z => ?_
  have := hV z p.center
  rw [Finset.mul_sum] at this
  exact this

/-- **C26** for deterministic dynamics the bound is the exact change. -/
theorem C26_v_decrease_bound_exact (V : (Fin d → K) → K) (lv : LipArg K d) (x y : Fin d → K) :
    vDecreaseBound V lv x (.exact y) = V y - V x := by
  simp [vDecreaseBound, vDecreaseConfidence]

example : (2 : ℚ) * 3 - 2 * 5 ≤ vDecreaseBound (fun x : Fin 1 → ℚ => 2 * x 0) (.const 2) ![5]
    (.uncertain ![4] ![1]) :=
  C26_v_decrease_bound_constant (fun x : Fin 1 → ℚ => 2 * x 0) 2 (by norm_num)
    (by
      intro y z
      rw [← mul_sub, abs_mul]
      simp) ![5] ![3] (.uncertain ![4] ![1]) (by
        intro i; fin_cases i; norm_num [Prediction.Contains])

/-! ## C25 -/

/-- **C25** Let `dist` be any nonnegative function on pairs of states (for example a norm of the
difference), `f` the true closed loop whose value at the grid state `x` lies in the confidence region
of the prediction. If the Lyapunov function is `L_v`-Lipschitz, `f` is `L_f`-Lipschitz and
`v_decrease_bound` at `x` is below the threshold, then `V` decreases strictly along `f` at every
continuous state `z` within distance `tau` of `x`; more precisely by at least the margin at `x`. -/
theorem C25_decrease_in_cell (V : (Fin d → K) → K) (Lv Lf tau : K) (f : (Fin d → K) → Fin d → K)
    (dist : (Fin d → K) → (Fin d → K) → K) (hLv : 0 ≤ Lv) (hLf : 0 ≤ Lf)
    (hV : ∀ y z, |V y - V z| ≤ Lv * dist y z)
    (hV1 : ∀ y z, |V y - V z| ≤ Lv * ∑ i, |y i - z i|)
    (hf : ∀ y z, dist (f y) (f z) ≤ Lf * dist y z)
    (x : Fin d → K) (p : Prediction K d) (hp : p.Contains (f x))
    (hdec : vDecreaseBound V (.const Lv) x p < thresholdAt (.const Lv) (.const Lf) x tau)
    (z : Fin d → K) (hz : dist z x ≤ tau) :
    V (f z) - V z ≤ vDecreaseBound V (.const Lv) x p - thresholdAt (.const Lv) (.const Lf) x tau ∧
    V (f z) < V z := by
  have h1 := C26_v_decrease_bound_constant V Lv hLv hV1 x (f x) p hp
  have h2 := (abs_le.mp (hV (f z) (f x))).2
  have h3 := (abs_le.mp (hV z x)).1
  have h4 := hf z x
  have h5 : Lv * dist (f z) (f x) ≤ Lv * (Lf * tau) :=
    mul_le_mul_of_nonneg_left (h4.trans (mul_le_mul_of_nonneg_left hz hLf)) hLv
  have h6 : Lv * dist z x ≤ Lv * tau := mul_le_mul_of_nonneg_left hz hLv
  have h7 : thresholdAt (.const Lv) (.const Lf) x tau = -(Lv * (Lf * tau)) - Lv * tau := by
    unfold thresholdAt LipArg.forThreshold LipDyn.at; simp only []; ring
  have h8 : V (f z) - V z ≤
      vDecreaseBound V (.const Lv) x p - thresholdAt (.const Lv) (.const Lf) x tau := by
    rw [h7]; linarith
  exact ⟨h8, by linarith⟩

/-- **C25** for local constants. What is needed of the value `lv` that `threshold` uses at `x`: it
bounds the variation of `V` between `x` and the states of the cell *and* between their images. -/
theorem C25_decrease_in_cell_local (V : (Fin d → K) → K) (lv : LipArg K d) (lf : LipDyn K d) (tau : K)
    (f : (Fin d → K) → Fin d → K) (dist : (Fin d → K) → (Fin d → K) → K)
    (x : Fin d → K) (p : Prediction K d) (hb : V (f x) - V x ≤ vDecreaseBound V lv x p)
    (hlv : 0 ≤ lv.forThreshold x) (hlf : 0 ≤ lf.at x)
    (hV : ∀ z, dist z x ≤ tau → |V z - V x| ≤ lv.forThreshold x * dist z x)
    (hVf : ∀ z, dist z x ≤ tau → |V (f z) - V (f x)| ≤ lv.forThreshold x * dist (f z) (f x))
    (hf : ∀ z, dist z x ≤ tau → dist (f z) (f x) ≤ lf.at x * dist z x)
    (hdec : vDecreaseBound V lv x p < thresholdAt lv lf x tau)
    (z : Fin d → K) (hz : dist z x ≤ tau) : V (f z) < V z := by
  have h2 := (abs_le.mp (hVf z hz)).2
  have h3 := (abs_le.mp (hV z hz)).1
  have h5 : lv.forThreshold x * dist (f z) (f x) ≤ lv.forThreshold x * (lf.at x * tau) :=
    mul_le_mul_of_nonneg_left ((hf z hz).trans (mul_le_mul_of_nonneg_left hz hlf)) hlv
  have h6 : lv.forThreshold x * dist z x ≤ lv.forThreshold x * tau :=
    mul_le_mul_of_nonneg_left hz hlv
  have h7 : thresholdAt lv lf x tau =
      -(lv.forThreshold x * (lf.at x * tau)) - lv.forThreshold x * tau := by
    unfold thresholdAt; ring
  linarith

/-- The Lyapunov function of the counterexample: slope 10 up to `1`, slope `1/10` beyond. -/
def steepV (x : ℚ) : ℚ := if |x| ≤ 1 then 10 * |x| else 10 + (|x| - 1) / 10

/-- With *local* Lipschitz constants, as the class documents for callables, the claim of C25 is
false: `L_v(x) = 1/10` is a Lipschitz constant of `V` in the whole cell around `x`, the closed loop is
1-Lipschitz everywhere and the code certifies `x`, but `V` increases at a state of the cell. The
threshold uses `L_v` at the current state also for the variation of `V` at the next state. -/
theorem C25_local_lipschitz_refuted :
    ∃ (V : (Fin 1 → ℚ) → ℚ) (f : (Fin 1 → ℚ) → Fin 1 → ℚ) (lv : LipArg ℚ 1) (x z : Fin 1 → ℚ),
      (∀ y w, |y 0 - x 0| ≤ 2/5 → |w 0 - x 0| ≤ 2/5 →
        |V y - V w| ≤ lv.forThreshold x * |y 0 - w 0|) ∧
      (∀ y w, |f y 0 - f w 0| ≤ 1 * |y 0 - w 0|) ∧
      vDecreaseBound V lv x (.exact (f x)) < thresholdAt lv (.const 1) x (2/5) ∧
      |z 0 - x 0| ≤ 2/5 ∧ V z < V (f z) := by
  refine ⟨fun x => steepV (x 0), fun x => ![9/10 - 3/5 * (x 0 - 3/2)],
    .scalar fun x => if |x 0| ≤ 1 then 10 else 1/10, ![3/2], ![11/10], ?_, ?_, ?_, ?_, ?_⟩
  · intro y w hy hw
    have e : (LipArg.scalar fun x : Fin 1 → ℚ => if |x 0| ≤ 1 then (10 : ℚ) else 1/10).forThreshold
        ![3/2] = 1/10 := by
      unfold LipArg.forThreshold; norm_num
    rw [e]
    simp only [Matrix.cons_val_zero] at hy hw
    have hy1 := abs_le.mp hy
    have hw1 := abs_le.mp hw
    have hy2 : |y 0| = y 0 := abs_of_nonneg (by linarith)
    have hw2 : |w 0| = w 0 := abs_of_nonneg (by linarith)
    unfold steepV
    beta_reduce
    rw [hy2, hw2, if_neg (by linarith), if_neg (by linarith)]
    have : 10 + (y 0 - 1) / 10 - (10 + (w 0 - 1) / 10) = 1/10 * (y 0 - w 0) := by ring
    rw [this, abs_mul]
    norm_num
  · intro y w
    simp only [Matrix.cons_val_zero]
    have : 9 / 10 - 3 / 5 * (y 0 - 3 / 2) - (9 / 10 - 3 / 5 * (w 0 - 3 / 2)) =
        -(3/5) * (y 0 - w 0) := by ring
    rw [this, abs_mul]
    have h1 : |(-(3/5) : ℚ)| = 3/5 := by norm_num
    rw [h1]
    have := abs_nonneg (y 0 - w 0)
    linarith
  · unfold vDecreaseBound vDecreaseConfidence thresholdAt LipArg.forThreshold LipDyn.at steepV
    norm_num [abs_le]
  · norm_num [abs_le]
  · unfold steepV
    norm_num [abs_le, abs_of_pos]

/-- The hypotheses of C25 are met by `V(x) = |x|` and `f(x) = x / 4`, with an uncertain prediction. -/
example : (1/4 * 7/8 : ℚ) < 7/8 := by
  have := (C25_decrease_in_cell (d := 1) (fun x => |x 0|) 1 (1/4) (1/4 : ℚ) (fun x => ![x 0 / 4])
    (fun y z => |y 0 - z 0|) (by norm_num) (by norm_num)
    (fun y z => by rw [one_mul]; exact abs_abs_sub_abs_le _ _)
    (fun y z => by simp only [Fin.sum_univ_one, one_mul]; exact abs_abs_sub_abs_le _ _)
    (fun y z => by
      simp only [Matrix.cons_val_zero]
      rw [← sub_div, abs_div]
      have : |(4 : ℚ)| = 4 := by norm_num
      rw [this]; linarith)
    ![1] (.uncertain ![1/4] ![1/10])
    (by intro i; fin_cases i; norm_num)
    (by norm_num [vDecreaseBound, vDecreaseConfidence, thresholdAt, LipArg.forThreshold,
      LipArg.entry, LipDyn.at, abs_of_pos])
    ![7/8] (by norm_num [abs_le])).2
  norm_num

/-! ## C27 -/

section C27

variable {Prog Θ : Type} [FloorRing K]

theorem exists_margin {n : ℕ} (m : Fin n → K) : ∃ ε, 0 < ε ∧ ∀ j, 0 < m j → ε ≤ m j := by
  by_cases h : ∃ j, 0 < m j
  · obtain ⟨j₀, hj₀⟩ := h
    obtain ⟨j, hj, hmin⟩ := Finset.exists_min_image (Finset.univ.filter fun j => 0 < m j) m
      ⟨j₀, by simp [hj₀]⟩
    refine ⟨m j, (Finset.mem_filter.mp hj).2, fun i hi => hmin i (by simp [hi])⟩
  · push Not at h
    exact ⟨1, one_pos, fun j hj => absurd hj (not_lt.mpr (h j))⟩

theorem gridState_of_ok (g : GridWorld K d) (k : ℕ) (p : Fin d → K) (h : g.indexToState k = .ok p) :
    gridState g k = p := by
  unfold GridWorld.indexToState unravelIndex at h
  split_ifs at h with hk
  · simp only [bind, Except.bind, pure, Except.pure, Except.ok.injEq] at h
    rw [← h]; rfl
  · simp [bind, Except.bind] at h

/-- Every state of the box is within `tau` of its closest grid state, in the 1-norm. -/
theorem exists_near_grid (g : GridWorld K d) (h2 : ∀ i, 2 ≤ g.num i) (hlt : ∀ i, g.lo i < g.hi i)
    (tau : K) (htau : ∑ i, (g.hi i - g.lo i) / ((g.num i : K) - 1) / 2 ≤ tau) (x : Fin d → K)
    (hx : ∀ i, g.lo i ≤ x i ∧ x i ≤ g.hi i) :
    ∃ k : Fin g.nindex, ∑ i, |x i - gridState g k i| ≤ tau := by
  obtain ⟨k, p, -, h3, h4, -, -, h7⟩ := GridWorld.C02_state_to_index_nearest g h2 hlt x
  refine ⟨⟨k, h3⟩, le_trans ?_ htau⟩
  refine Finset.sum_le_sum fun i _ => ?_
  rw [gridState_of_ok g k p h4]
  exact h7 i (hx i).1 (hx i).2

/-- The assumptions of the stability theorem at the variables `θ`: global constants, `V` and the true
closed loop `f` are Lipschitz in the 1-norm, `f` is inside the confidence region of the model at
every grid state, `tau` is at least half the diameter of a cell. -/
structure Assumptions (sys : System K Prog Θ d) (g : GridWorld K d) (prog : Prog) (θ : Θ)
    (f : (Fin d → K) → Fin d → K) (Lv Lf tau : K) : Prop where
  two_le : ∀ i, 2 ≤ g.num i
  lt : ∀ i, g.lo i < g.hi i
  lv_eq : sys.lv θ = .const Lv
  lf_eq : sys.lf θ = .const Lf
  lv_nonneg : 0 ≤ Lv
  lf_nonneg : 0 ≤ Lf
  V_lipschitz : ∀ y z, |sys.V θ y - sys.V θ z| ≤ Lv * ∑ i, |y i - z i|
  f_lipschitz : ∀ y z, ∑ i, |f y i - f z i| ≤ Lf * ∑ i, |y i - z i|
  model : ∀ k : Fin g.nindex,
    (sys.closedLoop prog θ (gridState g k)).Contains (f (gridState g k))
  tau_le : ∑ i, (g.hi i - g.lo i) / ((g.num i : K) - 1) / 2 ≤ tau

/-- One step: a state of the box whose closest grid state is safe is close to an initially safe
state, or `V` decreases by the margin. -/
theorem step_or_initial (sys : System K Prog Θ d) (g : GridWorld K d)
    (argsort : (Fin g.nindex → K) → List (Fin g.nindex)) (tauDiv : K → ℕ → K)
    (prog : Prog) (θ : Θ) (f : (Fin d → K) → Fin d → K) (Lv Lf tau : K)
    (A : Assumptions sys g prog θ f Lv Lf tau) (initial : Option (Fin g.nindex → Bool)) (c : K)
    (hsafe : ∀ j, (sys.world g argsort tauDiv).lyapunov θ j < c → InInitial initial j ∨
      (sys.world g argsort tauDiv).decrease prog θ j <
        (sys.world g argsort tauDiv).threshold θ j tau)
    (ε : K) (hε : ∀ j, 0 < (sys.world g argsort tauDiv).threshold θ j tau -
        (sys.world g argsort tauDiv).decrease prog θ j →
      ε ≤ (sys.world g argsort tauDiv).threshold θ j tau -
        (sys.world g argsort tauDiv).decrease prog θ j)
    (x : Fin d → K) (hbox : ∀ i, g.lo i ≤ x i ∧ x i ≤ g.hi i) (hx : sys.V θ x < c - Lv * tau) :
    (∃ j, InInitial initial j ∧ ∑ i, |x i - gridState g j i| ≤ tau) ∨
      sys.V θ (f x) ≤ sys.V θ x - ε := by
  obtain ⟨k, hk⟩ := exists_near_grid g A.two_le A.lt tau A.tau_le x hbox
  have hVk : sys.V θ (gridState g k) < c := by
    have h1 := (abs_le.mp (A.V_lipschitz x (gridState g k))).1
    have h2 := mul_le_mul_of_nonneg_left hk A.lv_nonneg
    linarith
  rcases hsafe k hVk with h | h
  · exact Or.inl ⟨k, h, hk⟩
  · right
    have hd := h
    simp only [System.world] at h
    rw [A.lv_eq, A.lf_eq] at h
    have h1 := (C25_decrease_in_cell (sys.V θ) Lv Lf tau f (fun y z => ∑ i, |y i - z i|)
      A.lv_nonneg A.lf_nonneg A.V_lipschitz A.V_lipschitz A.f_lipschitz (gridState g k)
      (sys.closedLoop prog θ (gridState g k)) (A.model k) h x hk).1
    have h2 := hε k (by linarith)
    simp only [System.world] at h2
    rw [A.lv_eq, A.lf_eq] at h2
    linarith

/-- **C27** After any history of method calls followed by `update_safe_set(can_shrink=True)`: let `c`
be a level such that all grid states with a value below `c` are in the safe set, and let the
continuous level set `{V < c - L_v tau}` be inside the grid. Then there is an `ε > 0` such that every
trajectory of the true closed loop that starts in this level set stays in it and `V` decreases by at
least `ε` in each step, until after finitely many steps the trajectory is within `tau` of an
initially safe grid state. -/
theorem C27_reaches_initial_set (sys : System K Prog Θ d) (g : GridWorld K d)
    (argsort : (Fin g.nindex → K) → List (Fin g.nindex)) (tauDiv : K → ℕ → K)
    (hW : (sys.world g argsort tauDiv).SortContract)
    (prog : Prog) (θ : Θ) (f : (Fin d → K) → Fin d → K) (Lv Lf tau : K)
    (A : Assumptions sys g prog θ f Lv Lf tau)
    (initial : Option (Fin g.nindex → Bool)) (adaptive : Bool) (θ₀ : Θ)
    (history : List (Lyap.Op K Prog Θ)) (hh : ∀ op ∈ history, op.IsMethod)
    (batch : ℕ) (hb : 0 < batch) (args : Lyap.UpdateArgs K) (hcs : args.canShrink = true)
    (hna : ¬(adaptive = true ∧ 1 < args.maxRefinement)) :
    let W := sys.world g argsort tauDiv
    let s := Lyap.run W (Lyap.new W prog tau initial adaptive θ₀) history
    let r := Lyap.updateSafeSet W batch args s θ
    (∀ j, s.values j = sys.V θ (gridState g j)) →
    ∀ c, (∀ j, s.values j < c → r.1.safeSet j = true) →
    (∀ x, sys.V θ x < c - Lv * tau → ∀ i, g.lo i ≤ x i ∧ x i ≤ g.hi i) →
    ∃ ε, 0 < ε ∧ ∀ x₀, sys.V θ x₀ < c - Lv * tau →
      ∃ T, (∀ t < T, sys.V θ (f^[t + 1] x₀) ≤ sys.V θ (f^[t] x₀) - ε) ∧
        (∀ t ≤ T, sys.V θ (f^[t] x₀) < c - Lv * tau) ∧
        ∃ j, InInitial initial j ∧ ∑ i, |f^[T] x₀ i - gridState g j i| ≤ tau := by
  intro W s r hval c hc hbox
  have hn : 0 < g.nindex := by
    unfold GridWorld.nindex shapeProd
    exact Finset.prod_pos fun i _ => by have := A.two_le i; omega
  have hsound := Lyap.C19_safe_set_sound W hW hn prog tau initial adaptive θ₀ history hh batch hb args
    θ hna
  have hsafe : ∀ j, W.lyapunov θ j < c → InInitial initial j ∨
      W.decrease prog θ j < W.threshold θ j tau := by
    intro j hj
    have hj' : s.values j < c := by rw [hval j]; exact hj
    rcases hsound.2 j (hc j hj') with h | h | ⟨h, -⟩
    · exact Or.inl h
    · exact Or.inr h
    · rw [hcs] at h; cases h
  obtain ⟨ε, hε, hmargin⟩ := exists_margin fun j => W.threshold θ j tau - W.decrease prog θ j
  refine ⟨ε, hε, ?_⟩
  -- a lower bound of `V` on the level set
  obtain ⟨k₀, -, hk₀⟩ := Finset.exists_min_image (Finset.univ : Finset (Fin g.nindex))
    (fun k => sys.V θ (gridState g k)) ⟨⟨0, hn⟩, Finset.mem_univ _⟩
  set B := sys.V θ (gridState g k₀) - Lv * tau with hB
  have hlow : ∀ x, sys.V θ x < c - Lv * tau → B ≤ sys.V θ x := by
    intro x hx
    obtain ⟨k, hk⟩ := exists_near_grid g A.two_le A.lt tau A.tau_le x (hbox x hx)
    have h1 := (abs_le.mp (A.V_lipschitz x (gridState g k))).1
    have h2 := mul_le_mul_of_nonneg_left hk A.lv_nonneg
    have h3 := hk₀ k (Finset.mem_univ _)
    linarith
  have key : ∀ (N : ℕ) x, sys.V θ x < c - Lv * tau → sys.V θ x < B + N * ε →
      ∃ T, (∀ t < T, sys.V θ (f^[t + 1] x) ≤ sys.V θ (f^[t] x) - ε) ∧
        (∀ t ≤ T, sys.V θ (f^[t] x) < c - Lv * tau) ∧
        ∃ j, InInitial initial j ∧ ∑ i, |f^[T] x i - gridState g j i| ≤ tau := by
    intro N
    induction N with
    | zero =>
      intro x hx hx2
      have := hlow x hx
      simp only [Nat.cast_zero, zero_mul, add_zero] at hx2
      exact absurd this (not_le.mpr hx2)
    | succ N ih =>
      intro x hx hx2
      rcases step_or_initial sys g argsort tauDiv prog θ f Lv Lf tau A initial c hsafe ε hmargin x
        (hbox x hx) hx with h | h
      · refine ⟨0, fun t ht => absurd ht (Nat.not_lt_zero t), fun t ht => ?_, h⟩
        rw [Nat.le_zero.mp ht]; exact hx
      · have hx3 : sys.V θ (f x) < c - Lv * tau := by linarith
        obtain ⟨T, h1, h2, h3⟩ := ih (f x) hx3 (by push_cast at hx2; linarith)
        refine ⟨T + 1, fun t ht => ?_, fun t ht => ?_, h3⟩
        · rcases t with _ | t
          · exact h
          · exact h1 t (by omega)
        · rcases t with _ | t
          · exact hx
          · exact h2 t (by omega)
  intro x₀ hx₀
  obtain ⟨N, hN⟩ := exists_nat_gt ((sys.V θ x₀ - B) / ε)
  rw [div_lt_iff₀ hε] at hN
  exact key N x₀ hx₀ (by linarith)

/-- **C27** If in addition the closed loop keeps the states near the initial set in the level set,
then the level set is forward invariant for all times. -/
theorem C27_forward_invariant (sys : System K Prog Θ d) (g : GridWorld K d)
    (argsort : (Fin g.nindex → K) → List (Fin g.nindex)) (tauDiv : K → ℕ → K)
    (hW : (sys.world g argsort tauDiv).SortContract)
    (prog : Prog) (θ : Θ) (f : (Fin d → K) → Fin d → K) (Lv Lf tau : K)
    (A : Assumptions sys g prog θ f Lv Lf tau)
    (initial : Option (Fin g.nindex → Bool)) (adaptive : Bool) (θ₀ : Θ)
    (history : List (Lyap.Op K Prog Θ)) (hh : ∀ op ∈ history, op.IsMethod)
    (batch : ℕ) (hb : 0 < batch) (args : Lyap.UpdateArgs K) (hcs : args.canShrink = true)
    (hna : ¬(adaptive = true ∧ 1 < args.maxRefinement)) :
    let W := sys.world g argsort tauDiv
    let s := Lyap.run W (Lyap.new W prog tau initial adaptive θ₀) history
    let r := Lyap.updateSafeSet W batch args s θ
    (∀ j, s.values j = sys.V θ (gridState g j)) →
    ∀ c, (∀ j, s.values j < c → r.1.safeSet j = true) →
    (∀ x, sys.V θ x < c - Lv * tau → ∀ i, g.lo i ≤ x i ∧ x i ≤ g.hi i) →
    (∀ x j, InInitial initial j → ∑ i, |x i - gridState g j i| ≤ tau →
      sys.V θ x < c - Lv * tau → sys.V θ (f x) < c - Lv * tau) →
    ∀ x₀, sys.V θ x₀ < c - Lv * tau → ∀ t, sys.V θ (f^[t] x₀) < c - Lv * tau := by
  intro W s r hval c hc hbox hinit x₀ hx₀ t
  have hn : 0 < g.nindex := by
    unfold GridWorld.nindex shapeProd
    exact Finset.prod_pos fun i _ => by have := A.two_le i; omega
  have hsound := Lyap.C19_safe_set_sound W hW hn prog tau initial adaptive θ₀ history hh batch hb args
    θ hna
  have hsafe : ∀ j, W.lyapunov θ j < c → InInitial initial j ∨
      W.decrease prog θ j < W.threshold θ j tau := by
    intro j hj
    have hj' : s.values j < c := by rw [hval j]; exact hj
    rcases hsound.2 j (hc j hj') with h | h | ⟨h, -⟩
    · exact Or.inl h
    · exact Or.inr h
    · rw [hcs] at h; cases h
  obtain ⟨ε, hε, hmargin⟩ := exists_margin fun j => W.threshold θ j tau - W.decrease prog θ j
  induction t with
  | zero => exact hx₀
  | succ t ih =>
    rw [Function.iterate_succ_apply']
    rcases step_or_initial sys g argsort tauDiv prog θ f Lv Lf tau A initial c hsafe ε hmargin _
      (hbox _ ih) ih with ⟨j, hj, hd⟩ | h
    · exact hinit _ j hj hd ih
    · linarith

/-- **C27** with the level `c_max` that the code stores, in the situations where `c_max` is correct
(C23): some grid state is not certified but the one of smallest value is, or all are certified and
the grid fits into one batch. -/
theorem C27_c_max_level (sys : System K Prog Θ d) (g : GridWorld K d)
    (argsort : (Fin g.nindex → K) → List (Fin g.nindex)) (tauDiv : K → ℕ → K)
    (hW : (sys.world g argsort tauDiv).SortContract)
    (prog : Prog) (θ : Θ) (f : (Fin d → K) → Fin d → K) (Lv Lf tau : K)
    (A : Assumptions sys g prog θ f Lv Lf tau)
    (initial : Option (Fin g.nindex → Bool)) (adaptive : Bool) (θ₀ : Θ)
    (history : List (Lyap.Op K Prog Θ)) (hh : ∀ op ∈ history, op.IsMethod)
    (batch : ℕ) (hb : 0 < batch) (args : Lyap.UpdateArgs K) (hcs : args.canShrink = true)
    (hna : ¬(adaptive = true ∧ 1 < args.maxRefinement)) :
    let W := sys.world g argsort tauDiv
    let s := Lyap.run W (Lyap.new W prog tau initial adaptive θ₀) history
    let r := Lyap.updateSafeSet W batch args s θ
    let good := fun j => InInitial initial j ∨ W.decrease prog θ j < W.threshold θ j tau
    ((∃ j, ¬ good j) ∧ (∀ j, (∀ i, s.values j ≤ s.values i) → good j)) ∨
      ((∀ j, good j) ∧ g.nindex ≤ batch) →
    (∀ j, s.values j = sys.V θ (gridState g j)) →
    (∀ x, sys.V θ x < r.1.cMax - Lv * tau → ∀ i, g.lo i ≤ x i ∧ x i ≤ g.hi i) →
    ∃ ε, 0 < ε ∧ ∀ x₀, sys.V θ x₀ < r.1.cMax - Lv * tau →
      ∃ T, (∀ t < T, sys.V θ (f^[t + 1] x₀) ≤ sys.V θ (f^[t] x₀) - ε) ∧
        (∀ t ≤ T, sys.V θ (f^[t] x₀) < r.1.cMax - Lv * tau) ∧
        ∃ j, InInitial initial j ∧ ∑ i, |f^[T] x₀ i - gridState g j i| ≤ tau := by
  intro W s r good hgood hval hbox
  have hn : 0 < g.nindex := by
    unfold GridWorld.nindex shapeProd
    exact Finset.prod_pos fun i _ => by have := A.two_le i; omega
  obtain ⟨P, -, -, h3, h4⟩ := Lyap.C23_c_max_partial W hW hn prog tau initial adaptive θ₀ history hh
    batch hb args hcs θ hna hgood
  exact C27_reaches_initial_set sys g argsort tauDiv hW prog θ f Lv Lf tau A initial adaptive θ₀
    history hh batch hb args hcs hna hval _ (fun j hj => (h4 j).mpr (Or.inr (h3 j hj))) hbox

/-- The line from -2 to 2 with five states. -/
def exampleLine : GridWorld ℚ 1 where
  lo := ![-2]
  hi := ![2]
  num := ![5]

/-- `V(x) = |x|` and the closed loop `x / 10`, known up to an error of `1/20`. -/
def exampleSystem : System ℚ Unit Unit 1 where
  V := fun _ x => |x 0|
  lv := fun _ => .const 1
  lf := fun _ => .const (1/10)
  closedLoop := fun _ _ x => .uncertain ![x 0 / 10] ![1/20]

/-- The assumptions of C27 hold for the example. -/
theorem exampleAssumptions : Assumptions exampleSystem exampleLine () () (fun x => ![x 0 / 10]) 1
    (1/10) (1/2) where
  two_le := by intro i; fin_cases i; simp [exampleLine]
  lt := by intro i; fin_cases i; simp [exampleLine]
  lv_eq := rfl
  lf_eq := rfl
  lv_nonneg := by norm_num
  lf_nonneg := by norm_num
  V_lipschitz y z := by
    simp only [Fin.sum_univ_one, one_mul]; exact abs_abs_sub_abs_le _ _
  f_lipschitz y z := by
    simp only [Fin.sum_univ_one, Matrix.cons_val_zero]
    rw [← sub_div, abs_div]
    have : |(10 : ℚ)| = 10 := by norm_num
    rw [this]; linarith
  model k := by intro i; fin_cases i; simp
  tau_le := by simp [exampleLine]; norm_num

/-- All hypotheses of C27 are met: starting from any `|x| < 2` the state comes close to the origin. -/
example := C27_reaches_initial_set exampleSystem exampleLine
  (fun v => (List.finRange _).insertionSort fun i j => v i ≤ v j) (fun t k => t / k)
  (sortContract_insertionSort _ rfl) () () _ 1 (1/10) (1/2) exampleAssumptions
  (some fun k => decide (k.val = 2)) false () [] (by simp) 10 (by decide) ⟨true, 1, 1⟩ rfl (by simp)
  (fun j => rfl) (5/2) (by decide +kernel)
  (by
    intro x hx i
    have h1 : |x 0| < 5/2 - 1 * (1/2) := hx
    have h2 := abs_lt.mp h1
    have hi : i = 0 := Subsingleton.elim _ _
    subst hi
    simp only [exampleLine, Matrix.cons_val_zero]
    constructor <;> linarith)

end C27

end SafeLearning
