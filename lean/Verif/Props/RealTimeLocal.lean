import Verif.Props.RealTime
set_option autoImplicit false

/-!
# C141 for vector fields that are Lipschitz on a box only
-/

namespace SafeLearning

open Matrix Spec Set

variable {n k : ℕ}

/-! ## Specification -/

/-- The real closed loop, up to the `N`-th measurement. -/
structure _root_.Spec.SampledLoopUntil (ode : (Fin n → ℝ) → (Fin k → ℝ) → Fin n → ℝ) (norm : Normalization n k) (policy : (Fin n → ℝ) → Fin k → ℝ) (dt : ℝ) (N : ℕ)
    (z : ℕ → Fin n → ℝ) (y : ℝ → Fin n → ℝ) : Prop where
  measured : ∀ j ≤ N, y (j * dt) = inUnits (norm.map Prod.fst) (z j)
  motion : ∀ j < N, ∀ t ∈ Icc (j * dt) ((j + 1) * dt),
    HasDerivWithinAt y (ode (y t) (inUnits (norm.map Prod.snd) (policy (z j)))) (Icc (j * dt) ((j + 1) * dt)) t

/-- For states with entries of at most `R` and actions with entries of at most `U` the vector field is Lipschitz in the state with constant `L` and in the action with constant
`M`, and the speed is below `B`. -/
structure _root_.Spec.LipschitzFieldOn (ode : (Fin n → ℝ) → (Fin k → ℝ) → Fin n → ℝ) (R : Fin n → ℝ) (U : Fin k → ℝ) (L M B : ℝ) : Prop where
  box : ∀ i, 0 ≤ R i
  pos : 0 < L
  nonneg : 0 ≤ M
  state : ∀ a b u, (∀ i, |a i| ≤ R i) → (∀ i, |b i| ≤ R i) → (∀ i, |u i| ≤ U i) → ‖ode a u - ode b u‖ ≤ L * ‖a - b‖
  action : ∀ a u v, (∀ i, |a i| ≤ R i) → (∀ i, |u i| ≤ U i) → (∀ i, |v i| ≤ U i) → ‖ode a u - ode a v‖ ≤ M * ‖u - v‖
  speed : ∀ a u, (∀ i, |a i| ≤ R i) → (∀ i, |u i| ≤ U i) → ‖ode a u‖ < B

/-! ## Clamping to a box -/

def clampBox {m : ℕ} (R x : Fin m → ℝ) (i : Fin m) : ℝ := max (-R i) (min (R i) (x i))

theorem clampBox_sub {m : ℕ} (R a b : Fin m → ℝ) : ‖clampBox R a - clampBox R b‖ ≤ ‖a - b‖ := by
  refine (pi_norm_le_iff_of_nonneg (norm_nonneg _)).mpr fun i => ?_
  refine le_trans ?_ (norm_le_pi_norm (a - b) i)
  simp only [Pi.sub_apply, Real.norm_eq_abs, clampBox]
  refine (abs_max_sub_max_le_max _ _ _ _).trans ?_
  rw [sub_self, abs_zero]
  refine max_le (abs_nonneg _) ((abs_min_sub_min_le_max _ _ _ _).trans ?_)
  rw [sub_self, abs_zero]
  exact max_le (abs_nonneg _) le_rfl

theorem clampBox_mem {m : ℕ} {R : Fin m → ℝ} (hR : ∀ i, 0 ≤ R i) (x : Fin m → ℝ) (i : Fin m) : |clampBox R x i| ≤ R i :=
  abs_le.mpr ⟨le_max_left _ _, max_le (by linarith [hR i]) (min_le_left _ _)⟩

theorem clampBox_eq {m : ℕ} {R x : Fin m → ℝ} (hx : ∀ i, |x i| ≤ R i) : clampBox R x = x := by
  funext i
  have := abs_le.mp (hx i)
  rw [clampBox, min_eq_right this.2, max_eq_right this.1]

theorem clampField {ode : (Fin n → ℝ) → (Fin k → ℝ) → Fin n → ℝ} {R : Fin n → ℝ} {U : Fin k → ℝ} {L M B : ℝ} (hf : LipschitzFieldOn ode R U L M B)
    (hU : ∀ i, 0 ≤ U i) : LipschitzField (fun s u => ode (clampBox R s) (clampBox U u)) L M where
  pos := hf.pos
  nonneg := hf.nonneg
  state a b u := (hf.state _ _ _ (clampBox_mem hf.box a) (clampBox_mem hf.box b) (clampBox_mem hU u)).trans (mul_le_mul_of_nonneg_left (clampBox_sub R a b) hf.pos.le)
  action a u v := (hf.action _ _ _ (clampBox_mem hf.box a) (clampBox_mem hU u) (clampBox_mem hU v)).trans (mul_le_mul_of_nonneg_left (clampBox_sub U u v) hf.nonneg)

/-- Euler's method does not leave the box in a short time. -/
theorem eulerSteps_congr {f g : (Fin n → ℝ) → Fin n → ℝ} {R : Fin n → ℝ} {B h : ℝ} (hh : 0 ≤ h) (hfg : ∀ x, (∀ i, |x i| ≤ R i) → f x = g x)
    (hB : ∀ x, (∀ i, |x i| ≤ R i) → ‖f x‖ ≤ B) (m : ℕ) (x : Fin n → ℝ) (hx : ∀ i, |x i| + m * (h * B) ≤ R i) (hB0 : 0 ≤ B) : eulerSteps h f m x = eulerSteps h g m x := by
  induction m generalizing x with
  | zero => rfl
  | succ m ih =>
    have hx0 : ∀ i, |x i| ≤ R i := fun i => by
      have h1 := hx i
      have : 0 ≤ ((m + 1 : ℕ) : ℝ) * (h * B) := by positivity
      linarith
    rw [eulerSteps, eulerSteps, ← hfg x hx0]
    refine ih _ fun i => ?_
    have h1 := hx i
    have h2 : |f x i| ≤ B := (norm_le_pi_norm (f x) i).trans (hB x hx0)
    have h3 : |x i + h * f x i| ≤ |x i| + h * B := by
      refine (abs_add_le _ _).trans ?_
      rw [abs_mul, abs_of_nonneg hh]
      gcongr
    push_cast at h1
    linarith

/-- A solution does not leave the box in a short time. -/
theorem solution_in_box {f : (Fin n → ℝ) → Fin n → ℝ} {R : Fin n → ℝ} {B T : ℝ} {y : ℝ → Fin n → ℝ} (hB : ∀ x, (∀ i, |x i| ≤ R i) → ‖f x‖ < B) (hB0 : 0 ≤ B)
    (hy : ∀ t ∈ Icc 0 T, HasDerivWithinAt y (f (y t)) (Icc 0 T) t) (h0 : ∀ i, |y 0 i| + B * T ≤ R i) : ∀ t ∈ Icc 0 T, ∀ i, |y t i| ≤ R i := by
  have hball : ∀ t ∈ Icc 0 T, ‖y t - y 0‖ ≤ B * t → ∀ i, |y t i| ≤ R i := by
    intro t ht h i
    have h1 : |y t i - y 0 i| ≤ B * t := (norm_le_pi_norm (y t - y 0) i).trans h
    have h2 : B * t ≤ B * T := mul_le_mul_of_nonneg_left ht.2 hB0
    have h3 := h0 i
    have h4 := abs_sub_abs_le_abs_sub (y t i) (y 0 i)
    linarith
  intro t ht
  refine hball t ht ?_
  have hy' := right_deriv hy
  refine image_norm_le_of_norm_deriv_right_lt_deriv_boundary (f := fun t => y t - y 0) (f' := fun t => f (y t)) (a := 0) (b := T) (B := fun t => B * t) (B' := fun _ => B)
    (hy'.1.sub continuousOn_const) (fun t ht => (hy'.2 t ht).sub_const _) (by simp) (fun t => by simpa using (hasDerivAt_id t).const_mul B) ?_ ht
  intro t ht h
  exact hB _ (hball t (Ico_subset_Icc_self ht) h.le)

theorem SampledLoopUntil_shift {ode : (Fin n → ℝ) → (Fin k → ℝ) → Fin n → ℝ} {norm : Normalization n k} {policy : (Fin n → ℝ) → Fin k → ℝ} {dt : ℝ} {N : ℕ}
    {z : ℕ → Fin n → ℝ} {y : ℝ → Fin n → ℝ} (h : SampledLoopUntil ode norm policy dt N z y) {j : ℕ} (hj : j < N) :
    ∀ t ∈ Icc 0 dt, HasDerivWithinAt (fun t => y (j * dt + t)) (ode (y (j * dt + t)) (inUnits (norm.map Prod.snd) (policy (z j)))) (Icc 0 dt) t := by
  intro t ht
  have h1 := h.motion j hj (j * dt + t) ⟨by linarith [ht.1], by linarith [ht.2]⟩
  have h2 : HasDerivWithinAt (fun s : ℝ => j * dt + s) 1 (Icc 0 dt) t := ((hasDerivAt_id t).const_add (j * dt)).hasDerivWithinAt
  have := h1.scomp t h2 (fun s hs => (⟨by linarith [hs.1], by linarith [hs.2]⟩ : (j * dt + s) ∈ Icc (j * dt) ((j + 1) * dt)))
  rw [one_smul] at this
  exact this

theorem gridState_mem {d : ℕ} {g : GridWorld ℝ d} (h2 : ∀ i, 2 ≤ g.num i) (hlt : ∀ i, g.lo i < g.hi i) (j : Fin g.nindex) (i : Fin d) :
    g.lo i ≤ gridState g j i ∧ gridState g j i ≤ g.hi i := by
  have hg : g.WF := ⟨h2, hlt⟩
  have h3 := unravel_lt g.num j.val j.isLt i
  have h1 := hg.unit_mul i
  have hu := hg.unit_pos i
  have h4 : ((unravel g.num j.val i : ℕ) : ℝ) ≤ (g.num i : ℝ) - 1 := by
    have : ((unravel g.num j.val i + 1 : ℕ) : ℝ) ≤ g.num i := by exact_mod_cast h3
    push_cast at this
    linarith
  unfold gridState GridWorld.ijkToState
  constructor
  · have : (0 : ℝ) ≤ (unravel g.num j.val i : ℕ) * g.unit i := by positivity
    linarith
  · nlinarith

/-! ## The safe set -/

/-- **C141 (vector fields that are Lipschitz on a box).** Like `C141_region`, for a vector field that is Lipschitz for states with entries of at most `R` and actions with entries of at most
`U` only. The grid has a distance from the boundary of this box that the system cannot cross within `dt` seconds. -/
theorem C141_region_local {Prog Θ : Type} (norm : Normalization n k) (hn : ∀ T, norm = some T → ∀ i, T.1 i ≠ 0) (ode : (Fin n → ℝ) → (Fin k → ℝ) → Fin n → ℝ)
    (R : Fin n → ℝ) (U : Fin k → ℝ) (L M B dt : ℝ)
    (hf : LipschitzFieldOn ode R U L M B) (hdt : 0 < dt) (policy : (Fin n → ℝ) → Fin k → ℝ) (P : ℝ) (hP0 : 0 ≤ P)
    (hP : ∀ x x', ‖inUnits (norm.map Prod.snd) (policy x) - inUnits (norm.map Prod.snd) (policy x')‖ ≤
      P * ‖inUnits (norm.map Prod.fst) x - inUnits (norm.map Prod.fst) x'‖)
    (hpU : ∀ x i, |inUnits (norm.map Prod.snd) (policy x) i| ≤ U i)
    (a b : ℝ) (hb0 : 0 < b) (hunits : ∀ i, b ≤ |inUnits (norm.map Prod.fst) 1 i| ∧ |inUnits (norm.map Prod.fst) 1 i| ≤ a)
    (sys : System ℝ Prog Θ n) (g : GridWorld ℝ n)
    (hgrid : ∀ i, |inUnits (norm.map Prod.fst) 1 i| * max |g.lo i| |g.hi i| + B * dt ≤ R i)
    (argsort : (Fin g.nindex → ℝ) → List (Fin g.nindex)) (tauDiv : ℝ → ℕ → ℝ) (hW : (sys.world g argsort tauDiv).SortContract) (prog : Prog) (θ : Θ)
    (error : (Fin n → ℝ) → Fin n → ℝ) (hloop : ∀ j : Fin g.nindex, sys.closedLoop prog θ (gridState g j) =
      .uncertain (evaluateSystem norm ode dt (gridState g j) (policy (gridState g j))) (error (gridState g j)))
    (herr : ∀ (j : Fin g.nindex) (i : Fin n), simulationError ode L dt (inUnits (norm.map Prod.fst) (gridState g j))
      (inUnits (norm.map Prod.snd) (policy (gridState g j))) ≤ |inUnits (norm.map Prod.fst) 1 i| * error (gridState g j) i)
    (Lv Lf tau : ℝ) (h2 : ∀ i, 2 ≤ g.num i) (hlt : ∀ i, g.lo i < g.hi i) (hlv : sys.lv θ = .const Lv) (hlf : sys.lf θ = .const Lf)
    (hLv : 0 ≤ Lv) (hV : ∀ y z, |sys.V θ y - sys.V θ z| ≤ Lv * ∑ i, |y i - z i|)
    (hLf : n * (a / b) * (Real.exp (L * dt) + M * P / L * (Real.exp (L * dt) - 1)) ≤ Lf)
    (htau : ∑ i, (g.hi i - g.lo i) / ((g.num i : ℝ) - 1) / 2 ≤ tau)
    (initial : Option (Fin g.nindex → Bool)) (adaptive : Bool) (θ₀ : Θ)
    (history : List (Lyap.Op ℝ Prog Θ)) (hh : ∀ op ∈ history, op.IsMethod)
    (batch : ℕ) (hb : 0 < batch) (args : Lyap.UpdateArgs ℝ) (hcs : args.canShrink = true)
    (hna : ¬(adaptive = true ∧ 1 < args.maxRefinement)) :
    let W := sys.world g argsort tauDiv
    let s := Lyap.run W (Lyap.new W prog tau initial adaptive θ₀) history
    let r := Lyap.updateSafeSet W batch args s θ
    (∀ j, s.values j = sys.V θ (gridState g j)) →
    ∀ c, (∀ j, s.values j < c → r.1.safeSet j = true) →
    (∀ x, sys.V θ x < c - Lv * tau → ∀ i, g.lo i ≤ x i ∧ x i ≤ g.hi i) →
    ∃ ε, 0 < ε ∧ ∀ x, sys.V θ x < c - Lv * tau → ∃ T,
      (∃ z y, z 0 = x ∧ SampledLoopUntil ode norm policy dt T z y) ∧
      ∀ z y, z 0 = x → SampledLoopUntil ode norm policy dt T z y →
        (∀ j < T, sys.V θ (z (j + 1)) ≤ sys.V θ (z j) - ε) ∧ (∀ j ≤ T, sys.V θ (z j) < c - Lv * tau) ∧
        (∃ j, InInitial initial j ∧ ∑ i, |z T i - gridState g j i| ≤ tau) ∧
        ∀ j < T, ∀ t ∈ Icc (j * dt) ((j + 1) * dt), ∀ i, |y t i| ≤ R i := by
  intro W s r hval c hc hbox
  have hs : ∀ T, norm.map Prod.fst = some T → ∀ i, T i ≠ 0 := by
    intro T hT i
    obtain ⟨T', h1, rfl⟩ := Option.map_eq_some_iff.mp hT
    exact hn T' h1 i
  have hU : ∀ i, 0 ≤ U i := fun i => (abs_nonneg _).trans (hpU 0 i)
  -- states of the grid are well inside the box
  have hin : ∀ x : Fin n → ℝ, (∀ i, g.lo i ≤ x i ∧ x i ≤ g.hi i) → ∀ i, |inUnits (norm.map Prod.fst) x i| + B * dt ≤ R i := by
    intro x hx i
    rw [inUnits_eq, abs_mul]
    have h1 : |x i| ≤ max |g.lo i| |g.hi i| := abs_le_max_abs_abs (hx i).1 (hx i).2
    have h3 := mul_le_mul_of_nonneg_left h1 (abs_nonneg (inUnits (norm.map Prod.fst) 1 i))
    linarith [hgrid i]
  have hR := hf.box
  have hB0 : 0 ≤ B := (norm_nonneg _).trans (hf.speed 0 (inUnits (norm.map Prod.snd) (policy 0)) (fun i => by simpa using hR i) (hpU 0)).le
  have hbox' : ∀ x : Fin n → ℝ, (∀ i, |x i| + B * dt ≤ R i) → ∀ i, |x i| ≤ R i := fun x hx i => by
    have : 0 ≤ B * dt := by positivity
    linarith [hx i]
  obtain ⟨ode', hode'⟩ : ∃ ode' : (Fin n → ℝ) → (Fin k → ℝ) → Fin n → ℝ, ode' = fun s u => ode (clampBox R s) (clampBox U u) := ⟨_, rfl⟩
  have hf' : LipschitzField ode' L M := by rw [hode']; exact clampField hf hU
  have heq : ∀ x u, (∀ i, |x i| ≤ R i) → (∀ i, |u i| ≤ U i) → ode' x u = ode x u := by
    intro x u hx hu
    simp only [hode', clampBox_eq hx, clampBox_eq hu]
  have heval : ∀ x, (∀ i, g.lo i ≤ x i ∧ x i ≤ g.hi i) → evaluateSystem norm ode dt x (policy x) = evaluateSystem norm ode' dt x (policy x) := by
    intro x hx
    refine inUnits_injective hs ?_
    rw [evaluateSystem_units norm hn, evaluateSystem_units norm hn]
    refine eulerSteps_congr (by positivity) (fun a ha => (heq a _ ha (hpU x)).symm) (fun a ha => (hf.speed a _ ha (hpU x)).le) 10 _ (fun i => ?_) hB0
    have := hin x hx i
    push_cast
    linarith
  obtain ⟨ε, hε, hmain⟩ := C141_region norm hn ode' L M dt hf' hdt policy P hP0 hP a b hb0 hunits sys g argsort tauDiv hW prog θ error (fun j => by
      rw [hloop, heval _ (gridState_mem h2 hlt j)]) (fun j i => by
      refine le_trans (le_of_eq ?_) (herr j i)
      rw [simulationError, simulationError, heq _ _ (hbox' _ (hin _ (gridState_mem h2 hlt j))) (hpU _)])
    Lv Lf tau h2 hlt hlv hlf hLv hV hLf htau initial adaptive θ₀ history hh batch hb args hcs hna hval c hc hbox
  refine ⟨ε, hε, fun x hx => ?_⟩
  obtain ⟨⟨z', y', h0', hloop'⟩, -⟩ := C141_exists norm hn hf' hdt policy x
  obtain ⟨T, h3, h4, h5⟩ := hmain z' y' hloop' (by rw [h0']; exact hx)
  -- the clamped loop does not leave the box
  have hin' : ∀ j ≤ T, ∀ i, |y' (j * dt) i| + B * dt ≤ R i := fun j hj => by
    rw [hloop'.measured]
    exact hin _ (hbox _ (h4 j hj))
  have hstay : ∀ j ≤ T, ∀ t ∈ Icc 0 dt, ∀ i, |y' (j * dt + t) i| ≤ R i := by
    intro j hj
    refine solution_in_box (f := fun a => ode' a (inUnits (norm.map Prod.snd) (policy (z' j)))) (fun a ha => by
      rw [heq _ _ ha (hpU _)]
      exact hf.speed _ _ ha (hpU _)) hB0 (SampledLoop_shift hloop' j) (fun i => ?_)
    rw [add_zero]
    exact hin' j hj i
  refine ⟨T, ⟨z', y', h0', fun j _ => hloop'.measured j, fun j hj t ht => ?_⟩, ?_⟩
  · have h6 := hloop'.motion j t ht
    have h7 := hstay j hj.le (t - j * dt) ⟨by linarith [ht.1], by linarith [ht.2]⟩
    rw [add_sub_cancel] at h7
    rwa [heq _ _ h7 (hpU _)] at h6
  · intro z y h0 hzy
    have hstep : ∀ j < T, z j = z' j → ∀ t ∈ Icc 0 dt, (∀ i, |y (j * dt + t) i| ≤ R i) ∧ y (j * dt + t) = y' (j * dt + t) := by
      intro j hj hz
      have hy := SampledLoopUntil_shift hzy hj
      have hbx := solution_in_box (f := fun a => ode a (inUnits (norm.map Prod.snd) (policy (z j)))) (fun a ha => hf.speed _ _ ha (hpU _)) hB0 hy (fun i => by
        have := hin' j hj.le i
        rw [hloop'.measured, ← hz, ← hzy.measured j hj.le] at this
        rw [add_zero]
        exact this)
      intro t ht
      refine ⟨hbx t ht, ?_⟩
      have h6 := SampledLoop_shift hloop' j
      rw [← hz] at h6
      have h7 := solutions_close (f := fun a => ode' a (inUnits (norm.map Prod.snd) (policy (z j)))) (g := fun a => ode' a (inUnits (norm.map Prod.snd) (policy (z j))))
        (ε := 0) (y := fun t => y (j * dt + t)) hf'.pos (fun a b => hf'.state a b _) (fun a => by simp) (fun t ht => by
          rw [heq _ _ (hbx t ht) (hpU _)]
          exact hy t ht) h6 ht
      rw [add_zero, hzy.measured j hj.le, hloop'.measured, hz, sub_self, norm_zero, zero_mul, zero_div, zero_mul, add_zero] at h7
      exact sub_eq_zero.mp (norm_le_zero_iff.mp h7)
    have hz : ∀ j ≤ T, z j = z' j := by
      intro j
      induction j with
      | zero => intro _; rw [h0, h0']
      | succ j ih =>
        intro hj
        have h1 := (hstep j hj (ih (by omega)) dt ⟨hdt.le, le_rfl⟩).2
        have e : (j : ℝ) * dt + dt = (j + 1 : ℕ) * dt := by push_cast; ring
        rw [e, hzy.measured _ hj, hloop'.measured] at h1
        exact inUnits_injective hs h1
    refine ⟨fun j hj => ?_, fun j hj => ?_, ?_, fun j hj t ht => ?_⟩
    · rw [hz j hj.le, hz (j + 1) hj]
      exact h3 j hj
    · rw [hz j hj]
      exact h4 j hj
    · rw [hz T le_rfl]
      exact h5
    · have h7 := (hstep j hj (hz j hj.le) (t - j * dt) ⟨by linarith [ht.1], by linarith [ht.2]⟩).1
      rwa [add_sub_cancel] at h7

/-! ## The cart-pole -/

/-- Constants for the cart-pole with masses `m` of the pole and `M` of the cart, length `l` and friction `b`, for velocities of at most `v`, angular velocities of at most `w` and
actions of at most `U`: `L` bounds how the accelerations change with the state, `A` how they change with the action, `B` is above all speeds. -/
structure _root_.Spec.CartPoleConstants (m M l b v w U L A B : ℝ) : Prop where
  one_le : 1 ≤ L
  cart : (m * l * (w ^ 2 + 2 * w) + b * (1 + w) + m * 9.81 * l) / M + (U + m * l * w ^ 2 + b * w + m * 9.81 * l / 2) * m / M ^ 2 ≤ L
  pole : ((U + m * l * (w ^ 2 + w) + b * (m + M) / (m * l) + (m + M) * 9.81) / M + (U + m * l * w ^ 2 / 2 + b * (m + M) / (m * l) * w + (m + M) * 9.81) * m / M ^ 2) / l ≤ L
  cart_action : 1 / M ≤ A
  pole_action : 1 / (M * l) ≤ A
  velocity : v < B
  angular : w < B
  cart_speed : (U + m * l * w ^ 2 + b * w + m * 9.81 * l / 2) / M < B
  pole_speed : (U + m * l * w ^ 2 / 2 + b * (m + M) / (m * l) * w + (m + M) * 9.81) / (M * l) < B

theorem quotient_close {A B q r S D m d X : ℝ} (hm : 0 < m) (hq : m ≤ q) (hr : m ≤ r) (hB : |B| ≤ S) (hAB : |A - B| ≤ D * X) (hqr : |q - r| ≤ d * X) (hX : 0 ≤ X) (hS : 0 ≤ S) (hd : 0 ≤ d) :
    |A / q - B / r| ≤ (D / m + S * d / m ^ 2) * X := by
  have hq0 : 0 < q := hm.trans_le hq
  have hr0 : 0 < r := hm.trans_le hr
  have e : A / q - B / r = (A - B) / q - B * (q - r) / (q * r) := by field_simp; ring
  rw [e]
  have h1 : |(A - B) / q| ≤ D * X / m := by
    rw [abs_div, abs_of_pos hq0]
    exact div_le_div₀ ((abs_nonneg _).trans hAB) hAB hm hq
  have h2 : |B * (q - r) / (q * r)| ≤ S * (d * X) / m ^ 2 := by
    rw [abs_div, abs_mul, abs_of_pos (mul_pos hq0 hr0)]
    refine div_le_div₀ (by positivity) (by gcongr) (by positivity) ?_
    rw [pow_two]
    gcongr
  refine (abs_sub _ _).trans ((add_le_add h1 h2).trans (le_of_eq ?_))
  ring

theorem sin_sq_close (a b : ℝ) : |Real.sin a ^ 2 - Real.sin b ^ 2| ≤ |a - b| := by
  have e : Real.sin a ^ 2 - Real.sin b ^ 2 = (Real.cos (2 * b) - Real.cos (2 * a)) / 2 := by
    rw [Real.cos_two_mul, Real.cos_two_mul, Real.sin_sq, Real.sin_sq]
    ring
  rw [e, abs_div]
  have := Real.abs_cos_sub_cos_le (2 * b) (2 * a)
  rw [← mul_sub, abs_mul, abs_sub_comm b a] at this
  norm_num at this ⊢
  linarith

theorem mul_close {a b c d S T X Y Z : ℝ} (hb : |b| ≤ S) (hc : |c| ≤ T) (h1 : |a - b| ≤ Y * X) (h2 : |c - d| ≤ Z * X) (hX : 0 ≤ X) (hY : 0 ≤ Y) (hS : 0 ≤ S) :
    |a * c - b * d| ≤ (T * Y + S * Z) * X := by
  have e : a * c - b * d = (a - b) * c + b * (c - d) := by ring
  rw [e]
  refine (abs_add_le _ _).trans ?_
  rw [abs_mul, abs_mul]
  have h3 : |a - b| * |c| ≤ Y * X * T := by gcongr
  have h4 : |b| * |c - d| ≤ S * (Z * X) := by gcongr
  linarith

theorem sq_close {a b w X : ℝ} (ha : |a| ≤ w) (hb : |b| ≤ w) (h : |a - b| ≤ X) : |a ^ 2 - b ^ 2| ≤ 2 * w * X := by
  have e : a ^ 2 - b ^ 2 = (a + b) * (a - b) := by ring
  rw [e, abs_mul]
  have hw : 0 ≤ w := (abs_nonneg _).trans ha
  have := (abs_add_le a b).trans (add_le_add ha hb)
  calc _ ≤ (w + w) * X := by gcongr
    _ = _ := by ring

theorem cart_field (p : CartPole) (hm : 0 < p.pendulumMass) (hM : 0 < p.cartMass) (hl : 0 < p.length) (hb : 0 ≤ p.rotFriction) (R : Fin 4 → ℝ) (hR : ∀ i, 0 ≤ R i)
    (U : Fin 1 → ℝ) (hU : 0 ≤ U 0) (L A B : ℝ) (hC : CartPoleConstants p.pendulumMass p.cartMass p.length p.rotFriction (R 2) (R 3) (U 0) L A B) :
    LipschitzFieldOn p.ode R U L A B := by
  obtain ⟨m, hm'⟩ : ∃ m, m = p.pendulumMass := ⟨_, rfl⟩
  obtain ⟨M, hM'⟩ : ∃ M, M = p.cartMass := ⟨_, rfl⟩
  obtain ⟨l, hl'⟩ : ∃ l, l = p.length := ⟨_, rfl⟩
  obtain ⟨b, hb'⟩ : ∃ b, b = p.rotFriction := ⟨_, rfl⟩
  obtain ⟨w, hw'⟩ : ∃ w, w = R 3 := ⟨_, rfl⟩
  obtain ⟨V, hV'⟩ : ∃ V, V = U 0 := ⟨_, rfl⟩
  rw [← hm', ← hM', ← hl', ← hb', ← hw', ← hV'] at hC
  rw [← hm'] at hm
  rw [← hM'] at hM
  rw [← hl'] at hl
  rw [← hb'] at hb
  have hw : 0 ≤ w := hw' ▸ hR 3
  rw [← hV'] at hU
  -- the accelerations
  obtain ⟨N1, hN1⟩ : ∃ N1 : ℝ → ℝ → ℝ → ℝ, N1 = fun u θ ω => u - m * l * (ω ^ 2 * Real.sin θ) - b * (ω * Real.cos θ) + m * 9.81 * l / 2 * Real.sin (2 * θ) := ⟨_, rfl⟩
  obtain ⟨N2, hN2⟩ : ∃ N2 : ℝ → ℝ → ℝ → ℝ, N2 = fun u θ ω => u * Real.cos θ - m * l / 2 * (ω ^ 2 * Real.sin (2 * θ)) - b * (m + M) / (m * l) * ω + (m + M) * 9.81 * Real.sin θ := ⟨_, rfl⟩
  obtain ⟨q, hq⟩ : ∃ q : ℝ → ℝ, q = fun θ => M + m * Real.sin θ ^ 2 := ⟨_, rfl⟩
  have hqM : ∀ θ, M ≤ q θ := fun θ => by rw [hq]; simp only; nlinarith [mul_nonneg hm.le (sq_nonneg (Real.sin θ))]
  have hode : ∀ s a, p.ode s a = ![s 2, s 3, N1 (a 0) (s 1) (s 3) / q (s 1), N2 (a 0) (s 1) (s 3) / q (s 1) / l] := by
    intro s a
    have hq0 := hM.trans_le (hqM (s 1))
    simp only [hq] at hq0
    simp only [CartPole.ode, CartPole.gravity, ← hm', ← hM', ← hl', ← hb', hN1, hN2, hq]
    funext i
    fin_cases i
    · rfl
    · rfl
    · show _ / _ = _ / _
      field_simp
      ring
    · show _ / _ = _ / _ / _
      field_simp
      ring
  have s1 : ∀ x : ℝ, |Real.sin x| ≤ 1 := Real.abs_sin_le_one
  have c1 : ∀ x : ℝ, |Real.cos x| ≤ 1 := Real.abs_cos_le_one
  have hsq : ∀ ω : ℝ, |ω| ≤ w → |ω ^ 2| ≤ w ^ 2 := fun ω h => by rw [abs_pow]; gcongr
  have hg : (0 : ℝ) ≤ m * 9.81 * l / 2 := by positivity
  have hg2 : (0 : ℝ) ≤ (m + M) * 9.81 := by positivity
  have hfr : 0 ≤ b * (m + M) / (m * l) := by positivity
  have hml : 0 ≤ m * l := by positivity
  have bound : ∀ {c x S : ℝ}, 0 ≤ c → |x| ≤ S → |c * x| ≤ c * S := by
    intro c x S hc h
    rw [abs_mul, abs_of_nonneg hc]
    gcongr
  have bound2 : ∀ {x y S T : ℝ}, |x| ≤ S → |y| ≤ T → |x * y| ≤ S * T := by
    intro x y S T h1 h2
    rw [abs_mul]
    have := (abs_nonneg _).trans h1
    gcongr
  have four : ∀ {a b c d A B C D : ℝ}, |a| ≤ A → |b| ≤ B → |c| ≤ C → |d| ≤ D → |a - b - c + d| ≤ A + B + C + D := by
    intro a b c d A B C D h1 h2 h3 h4
    rw [abs_le] at *
    constructor <;> linarith
  have hS1 : ∀ u θ ω, |u| ≤ V → |ω| ≤ w → |N1 u θ ω| ≤ V + m * l * w ^ 2 + b * w + m * 9.81 * l / 2 := by
    intro u θ ω hu hω
    rw [hN1]
    have := four hu (bound hml (bound2 (hsq ω hω) (s1 θ))) (bound hb (bound2 hω (c1 θ))) (bound hg (s1 (2 * θ)))
    simpa only [mul_one] using this
  have hS2 : ∀ u θ ω, |u| ≤ V → |ω| ≤ w → |N2 u θ ω| ≤ V + m * l * w ^ 2 / 2 + b * (m + M) / (m * l) * w + (m + M) * 9.81 := by
    intro u θ ω hu hω
    rw [hN2]
    have := four (bound2 hu (c1 θ)) (bound (by positivity : 0 ≤ m * l / 2) (bound2 (hsq ω hω) (s1 (2 * θ)))) (bound hfr hω) (bound hg2 (s1 θ))
    simp only [mul_one] at this
    linarith
  have hq1 : ∀ θ θ' X, |θ - θ'| ≤ X → |q θ - q θ'| ≤ m * X := by
    intro θ θ' X h
    rw [hq]
    simp only
    rw [add_sub_add_left_eq_sub, ← mul_sub]
    exact bound hm.le ((sin_sq_close _ _).trans h)
  have sc : ∀ θ θ' X, |θ - θ'| ≤ X → |Real.sin θ - Real.sin θ'| ≤ 1 * X := fun θ θ' X h => by
    rw [one_mul]
    exact (Real.abs_sin_sub_sin_le _ _).trans h
  have cc : ∀ θ θ' X, |θ - θ'| ≤ X → |Real.cos θ - Real.cos θ'| ≤ 1 * X := fun θ θ' X h => by
    rw [one_mul]
    exact (Real.abs_cos_sub_cos_le _ _).trans h
  have sc2 : ∀ θ θ' X, |θ - θ'| ≤ X → |Real.sin (2 * θ) - Real.sin (2 * θ')| ≤ 2 * X := fun θ θ' X h => by
    have := Real.abs_sin_sub_sin_le (2 * θ) (2 * θ')
    rw [← mul_sub, abs_mul, abs_two] at this
    linarith
  have hD1 : ∀ u θ ω θ' ω' X, |u| ≤ V → |ω| ≤ w → |ω'| ≤ w → |θ - θ'| ≤ X → |ω - ω'| ≤ X →
      |N1 u θ ω - N1 u θ' ω'| ≤ (m * l * (w ^ 2 + 2 * w) + b * (1 + w) + m * 9.81 * l) * X := by
    intro u θ ω θ' ω' X hu hω hω' h1 h2
    have hX : 0 ≤ X := (abs_nonneg _).trans h1
    have e : N1 u θ ω - N1 u θ' ω' = 0 - m * l * (ω ^ 2 * Real.sin θ - ω' ^ 2 * Real.sin θ') - b * (ω * Real.cos θ - ω' * Real.cos θ') +
        m * 9.81 * l / 2 * (Real.sin (2 * θ) - Real.sin (2 * θ')) := by
      rw [hN1]
      ring
    rw [e]
    have k1 := mul_close (hsq ω' hω') (s1 θ) (sq_close hω hω' h2) (sc _ _ _ h1) hX (by positivity) (by positivity)
    have k2 := mul_close hω' (c1 θ) (by rw [one_mul]; exact h2 : |ω - ω'| ≤ 1 * X) (cc _ _ _ h1) hX zero_le_one hw
    refine (four (abs_zero.le) (bound hml k1) (bound hb k2) (bound hg (sc2 _ _ _ h1))).trans (le_of_eq ?_)
    ring
  have hD2 : ∀ u θ ω θ' ω' X, |u| ≤ V → |ω| ≤ w → |ω'| ≤ w → |θ - θ'| ≤ X → |ω - ω'| ≤ X →
      |N2 u θ ω - N2 u θ' ω'| ≤ (V + m * l * (w ^ 2 + w) + b * (m + M) / (m * l) + (m + M) * 9.81) * X := by
    intro u θ ω θ' ω' X hu hω hω' h1 h2
    have hX : 0 ≤ X := (abs_nonneg _).trans h1
    have e : N2 u θ ω - N2 u θ' ω' = u * (Real.cos θ - Real.cos θ') - m * l / 2 * (ω ^ 2 * Real.sin (2 * θ) - ω' ^ 2 * Real.sin (2 * θ')) -
        b * (m + M) / (m * l) * (ω - ω') + (m + M) * 9.81 * (Real.sin θ - Real.sin θ') := by
      rw [hN2]
      ring
    rw [e]
    have k1 := mul_close (hsq ω' hω') (s1 (2 * θ)) (sq_close hω hω' h2) (sc2 _ _ _ h1) hX (by positivity) (by positivity)
    refine (four (bound2 hu (cc _ _ _ h1)) (bound (by positivity : 0 ≤ m * l / 2) k1) (bound hfr h2) (bound hg2 (sc _ _ _ h1))).trans (le_of_eq ?_)
    ring
  have hL0 : 0 < L := one_pos.trans_le hC.one_le
  have hA0 : 0 ≤ A := le_trans (by positivity) hC.cart_action
  refine ⟨hR, hL0, hA0, fun s t u hs ht hu => ?_, fun s u v hs hu hv => ?_, fun s u hs hu => ?_⟩
  · have hX : ∀ i, |s i - t i| ≤ ‖s - t‖ := fun i => norm_le_pi_norm (s - t) i
    have hu0 : |u 0| ≤ V := hV' ▸ hu 0
    have hs3 : |s 3| ≤ w := hw' ▸ hs 3
    have ht3 : |t 3| ≤ w := hw' ▸ ht 3
    refine (pi_norm_le_iff_of_nonneg (by positivity)).mpr fun i => ?_
    have hone : ∀ i, |s i - t i| ≤ L * ‖s - t‖ := fun i => by
      refine (hX i).trans ?_
      have := mul_le_mul_of_nonneg_right hC.one_le (norm_nonneg (s - t))
      linarith
    rw [hode, hode, Pi.sub_apply, Real.norm_eq_abs]
    fin_cases i
    · exact hone 2
    · exact hone 3
    · refine (quotient_close hM (hqM (s 1)) (hqM (t 1)) (hS1 _ _ _ hu0 ht3) (hD1 _ _ _ _ _ _ hu0 hs3 ht3 (hX 1) (hX 3)) (hq1 _ _ _ (hX 1)) (norm_nonneg _) (by positivity) hm.le).trans ?_
      exact mul_le_mul_of_nonneg_right hC.cart (norm_nonneg _)
    · have k := quotient_close hM (hqM (s 1)) (hqM (t 1)) (hS2 _ _ _ hu0 ht3) (hD2 _ _ _ _ _ _ hu0 hs3 ht3 (hX 1) (hX 3)) (hq1 _ _ _ (hX 1)) (norm_nonneg _) (by positivity) hm.le
      have h5 := mul_le_mul_of_nonneg_right hC.pole (norm_nonneg (s - t))
      refine le_trans ?_ h5
      show |N2 (u 0) (s 1) (s 3) / q (s 1) / l - N2 (u 0) (t 1) (t 3) / q (t 1) / l| ≤ _
      rw [← sub_div, abs_div, abs_of_pos hl, div_mul_eq_mul_div]
      exact div_le_div_of_nonneg_right k hl.le
  · have hX : |u 0 - v 0| ≤ ‖u - v‖ := norm_le_pi_norm (u - v) 0
    have hq0 := hM.trans_le (hqM (s 1))
    refine (pi_norm_le_iff_of_nonneg (by positivity)).mpr fun i => ?_
    rw [hode, hode, Pi.sub_apply, Real.norm_eq_abs]
    fin_cases i
    · show |s 2 - s 2| ≤ _
      rw [sub_self, abs_zero]
      positivity
    · show |s 3 - s 3| ≤ _
      rw [sub_self, abs_zero]
      positivity
    · show |N1 (u 0) (s 1) (s 3) / q (s 1) - N1 (v 0) (s 1) (s 3) / q (s 1)| ≤ _
      have e : N1 (u 0) (s 1) (s 3) - N1 (v 0) (s 1) (s 3) = u 0 - v 0 := by rw [hN1]; ring
      rw [← sub_div, e, abs_div, abs_of_pos hq0]
      calc _ ≤ ‖u - v‖ / M := div_le_div₀ (norm_nonneg _) hX hM (hqM _)
        _ = 1 / M * ‖u - v‖ := by ring
        _ ≤ _ := mul_le_mul_of_nonneg_right hC.cart_action (norm_nonneg _)
    · show |N2 (u 0) (s 1) (s 3) / q (s 1) / l - N2 (v 0) (s 1) (s 3) / q (s 1) / l| ≤ _
      have e : N2 (u 0) (s 1) (s 3) - N2 (v 0) (s 1) (s 3) = (u 0 - v 0) * Real.cos (s 1) := by rw [hN2]; ring
      rw [← sub_div, ← sub_div, e, abs_div, abs_div, abs_of_pos hq0, abs_of_pos hl]
      have h6 : |(u 0 - v 0) * Real.cos (s 1)| ≤ ‖u - v‖ := by simpa using bound2 hX (c1 (s 1))
      calc _ ≤ ‖u - v‖ / M / l := div_le_div_of_nonneg_right (div_le_div₀ (norm_nonneg _) h6 hM (hqM _)) hl.le
        _ = 1 / (M * l) * ‖u - v‖ := by field_simp
        _ ≤ _ := mul_le_mul_of_nonneg_right hC.pole_action (norm_nonneg _)
  · have hu0 : |u 0| ≤ V := hV' ▸ hu 0
    have hs3 : |s 3| ≤ w := hw' ▸ hs 3
    have hq0 := hM.trans_le (hqM (s 1))
    have hB0 : 0 < B := hw.trans_lt hC.angular
    refine (pi_norm_lt_iff hB0).mpr fun i => ?_
    rw [hode, Real.norm_eq_abs]
    fin_cases i
    · exact (hs 2).trans_lt hC.velocity
    · exact hs3.trans_lt hC.angular
    · show |N1 (u 0) (s 1) (s 3) / q (s 1)| < _
      rw [abs_div, abs_of_pos hq0]
      exact (div_le_div₀ (by positivity) (hS1 _ _ _ hu0 hs3) hM (hqM _)).trans_lt hC.cart_speed
    · show |N2 (u 0) (s 1) (s 3) / q (s 1) / l| < _
      rw [abs_div, abs_div, abs_of_pos hq0, abs_of_pos hl]
      refine lt_of_le_of_lt ?_ hC.pole_speed
      rw [← div_div]
      exact div_le_div_of_nonneg_right (div_le_div₀ (by positivity) (hS2 _ _ _ hu0 hs3) hM (hqM _)) hl.le

/-- **C141 (cart-pole).** The safe set of a `Lyapunov` object whose dynamics are a `CartPole` with error bounds of at least `simulationError` holds for the system that moves according to
the differential equation of the class, for every policy with bounded actions. -/
theorem C141_cart_pole {Prog Θ : Type} (p : CartPole) (hm : 0 < p.pendulumMass) (hM : 0 < p.cartMass) (hl : 0 < p.length) (hbf : 0 ≤ p.rotFriction) (hdt : 0 < p.dt)
    (hn : ∀ T, p.normalization = some T → ∀ i, T.1 i ≠ 0) (R : Fin 4 → ℝ) (hR : ∀ i, 0 ≤ R i) (U : Fin 1 → ℝ) (L A B : ℝ)
    (hC : CartPoleConstants p.pendulumMass p.cartMass p.length p.rotFriction (R 2) (R 3) (U 0) L A B)
    (policy : (Fin 4 → ℝ) → Fin 1 → ℝ) (P : ℝ) (hP0 : 0 ≤ P)
    (hP : ∀ x x', ‖inUnits (p.normalization.map Prod.snd) (policy x) - inUnits (p.normalization.map Prod.snd) (policy x')‖ ≤
      P * ‖inUnits (p.normalization.map Prod.fst) x - inUnits (p.normalization.map Prod.fst) x'‖)
    (hpU : ∀ x i, |inUnits (p.normalization.map Prod.snd) (policy x) i| ≤ U i)
    (a b : ℝ) (hb0 : 0 < b) (hunits : ∀ i, b ≤ |inUnits (p.normalization.map Prod.fst) 1 i| ∧ |inUnits (p.normalization.map Prod.fst) 1 i| ≤ a)
    (sys : System ℝ Prog Θ 4) (g : GridWorld ℝ 4)
    (hgrid : ∀ i, |inUnits (p.normalization.map Prod.fst) 1 i| * max |g.lo i| |g.hi i| + B * p.dt ≤ R i)
    (argsort : (Fin g.nindex → ℝ) → List (Fin g.nindex)) (tauDiv : ℝ → ℕ → ℝ) (hW : (sys.world g argsort tauDiv).SortContract) (prog : Prog) (θ : Θ)
    (error : (Fin 4 → ℝ) → Fin 4 → ℝ) (hloop : ∀ j : Fin g.nindex, sys.closedLoop prog θ (gridState g j) =
      .uncertain (p.evaluate (gridState g j) (policy (gridState g j))) (error (gridState g j)))
    (herr : ∀ (j : Fin g.nindex) (i : Fin 4), simulationError p.ode L p.dt (inUnits (p.normalization.map Prod.fst) (gridState g j))
      (inUnits (p.normalization.map Prod.snd) (policy (gridState g j))) ≤ |inUnits (p.normalization.map Prod.fst) 1 i| * error (gridState g j) i)
    (Lv Lf tau : ℝ) (h2 : ∀ i, 2 ≤ g.num i) (hlt : ∀ i, g.lo i < g.hi i) (hlv : sys.lv θ = .const Lv) (hlf : sys.lf θ = .const Lf)
    (hLv : 0 ≤ Lv) (hV : ∀ y z, |sys.V θ y - sys.V θ z| ≤ Lv * ∑ i, |y i - z i|)
    (hLf : 4 * (a / b) * (Real.exp (L * p.dt) + A * P / L * (Real.exp (L * p.dt) - 1)) ≤ Lf)
    (htau : ∑ i, (g.hi i - g.lo i) / ((g.num i : ℝ) - 1) / 2 ≤ tau)
    (initial : Option (Fin g.nindex → Bool)) (adaptive : Bool) (θ₀ : Θ)
    (history : List (Lyap.Op ℝ Prog Θ)) (hh : ∀ op ∈ history, op.IsMethod)
    (batch : ℕ) (hb : 0 < batch) (args : Lyap.UpdateArgs ℝ) (hcs : args.canShrink = true)
    (hna : ¬(adaptive = true ∧ 1 < args.maxRefinement)) :
    let W := sys.world g argsort tauDiv
    let s := Lyap.run W (Lyap.new W prog tau initial adaptive θ₀) history
    let r := Lyap.updateSafeSet W batch args s θ
    (∀ j, s.values j = sys.V θ (gridState g j)) →
    ∀ c, (∀ j, s.values j < c → r.1.safeSet j = true) →
    (∀ x, sys.V θ x < c - Lv * tau → ∀ i, g.lo i ≤ x i ∧ x i ≤ g.hi i) →
    ∃ ε, 0 < ε ∧ ∀ x, sys.V θ x < c - Lv * tau → ∃ T,
      (∃ z y, z 0 = x ∧ SampledLoopUntil p.ode p.normalization policy p.dt T z y) ∧
      ∀ z y, z 0 = x → SampledLoopUntil p.ode p.normalization policy p.dt T z y →
        (∀ j < T, sys.V θ (z (j + 1)) ≤ sys.V θ (z j) - ε) ∧ (∀ j ≤ T, sys.V θ (z j) < c - Lv * tau) ∧
        (∃ j, InInitial initial j ∧ ∑ i, |z T i - gridState g j i| ≤ tau) ∧
        ∀ j < T, ∀ t ∈ Icc (j * p.dt) ((j + 1) * p.dt), ∀ i, |y t i| ≤ R i :=
  C141_region_local p.normalization hn p.ode R U L A B p.dt (cart_field p hm hM hl hbf R hR U ((abs_nonneg _).trans (hpU 0 0)) L A B hC) hdt policy P hP0 hP hpU a b hb0 hunits sys g hgrid
    argsort tauDiv hW prog θ error hloop herr Lv Lf tau h2 hlt hlv hlf hLv hV (by exact_mod_cast hLf) htau initial adaptive θ₀ history hh batch hb args hcs hna

/-- Constants for the cart-pole of the example notebook (examples/reinforcement_learning_cartpole.ipynb:120-130), with a margin for the velocities. -/
theorem notebook_constants : CartPoleConstants 0.175 1.732 0.28 0.01 3 1.6 15.256 80 3 75 := by
  constructor <;> norm_num

/-- **C139 (cart-pole, constants).** For actions with absolute values of at most `U`, and along a solution whose entries are at most `R` with a margin `r`, the constants of the general bound are explicit: the Lipschitz constant `L` and
the speed `B` of `CartPoleConstants`. -/
theorem C139_cart_pole_constants (p : CartPole) (hm : 0 < p.pendulumMass) (hM : 0 < p.cartMass) (hl : 0 < p.length) (hbf : 0 ≤ p.rotFriction) (hdt : 0 ≤ p.dt)
    (hn : ∀ T, p.normalization = some T → ∀ i, T.1 i ≠ 0) (R : Fin 4 → ℝ) (hR : ∀ i, 0 ≤ R i) (U : Fin 1 → ℝ) (hU : 0 ≤ U 0) (L A B : ℝ)
    (hC : CartPoleConstants p.pendulumMass p.cartMass p.length p.rotFriction (R 2) (R 3) (U 0) L A B)
    (x : Fin 4 → ℝ) (u : ℕ → Fin 1 → ℝ) (N : ℕ) (hu : ∀ j < N, |inUnits (p.normalization.map Prod.snd) (u j) 0| ≤ U 0)
    (y : ℝ → Fin 4 → ℝ) (hy0 : y 0 = inUnits (p.normalization.map Prod.fst) x)
    (hy : Spec.SampledSolution p.ode p.dt (fun j => inUnits (p.normalization.map Prod.snd) (u j)) N y)
    (r : ℝ) (hbox : ∀ t ∈ Icc 0 (N * p.dt), ∀ i, |y t i| + r ≤ R i) (hr : B * p.dt / 20 * (Real.exp (L * (N * p.dt)) - 1) ≤ r) :
    ‖inUnits (p.normalization.map Prod.fst) (Spec.discreteStates p.evaluate u x N) - y (N * p.dt)‖ ≤ B * p.dt / 20 * (Real.exp (L * (N * p.dt)) - 1) := by
  have hf := cart_field p hm hM hl hbf R hR U hU L A B hC
  have hB0 : 0 ≤ B := (norm_nonneg _).trans (hf.speed 0 0 (fun i => by simpa using hR i) (fun i => by
    obtain rfl : i = 0 := Subsingleton.elim _ _
    simpa using hU)).le
  have hr0 : 0 ≤ r := le_trans (mul_nonneg (by positivity) (by
    have := Real.add_one_le_exp (L * (N * p.dt))
    have := mul_nonneg hf.pos.le (mul_nonneg (Nat.cast_nonneg (α := ℝ) N) hdt)
    linarith)) hr
  have hu' : ∀ j < N, ∀ i, |inUnits (p.normalization.map Prod.snd) (u j) i| ≤ U i := fun j hj i => by
    obtain rfl : i = 0 := Subsingleton.elim _ _
    exact hu j hj
  have htube : ∀ a ∈ Spec.tube y (N * p.dt) r, ∀ i, |a i| ≤ R i := by
    rintro a ⟨t, ht, h⟩ i
    have h1 : |a i - y t i| ≤ r := (norm_le_pi_norm (a - y t) i).trans h
    have h2 := abs_sub_abs_le_abs_sub (a i) (y t i)
    linarith [hbox t ht i]
  refine C139_cart_pole p hn hdt x u N y hy0 hy r L B hf.pos.le hB0 (fun j hj a ha b hb => hf.state a b _ (htube a ha) (htube b hb) (hu' j hj)) (fun j hj t ht => ?_) hr
  refine (hf.speed _ _ (fun i => ?_) (hu' j hj)).le
  have hj' : (j : ℝ) + 1 ≤ N := by exact_mod_cast hj
  have ht' : t ∈ Icc 0 (N * p.dt) := ⟨le_trans (by positivity) ht.1, ht.2.trans (mul_le_mul_of_nonneg_right hj' hdt)⟩
  linarith [hbox t ht' i]

theorem exp_cart_le : Real.exp (80 * 0.01) < 2.3 := by
  have h : Real.exp (80 * 0.01) ^ 5 = Real.exp 1 ^ 4 := by
    rw [← Real.exp_nat_mul, ← Real.exp_nat_mul]
    norm_num
  by_contra hn
  push Not at hn
  have h1 := pow_le_pow_left₀ (by norm_num) hn 5
  rw [h] at h1
  have h2 := pow_le_pow_left₀ (Real.exp_pos 1).le Real.exp_one_lt_d9.le 4
  norm_num at h1 h2
  linarith

/-- The cart-pole of the notebook with a tilted pendulum: there is a solution, and the simulation follows it for one step of 0.01 seconds with an error below 0.05. -/
example : ∃ y : ℝ → Fin 4 → ℝ, y 0 = ![0, 0.1, 0, 0] ∧
    (∀ t ∈ Icc 0 0.01, HasDerivWithinAt y ((⟨0.175, 1.732, 0.28, 0.01, 0.01, none⟩ : CartPole).ode (y t) ![1]) (Icc 0 0.01) t) ∧
    ‖(⟨0.175, 1.732, 0.28, 0.01, 0.01, none⟩ : CartPole).evaluate ![0, 0.1, 0, 0] ![1] - y 0.01‖ < 0.05 := by
  obtain ⟨p, hp⟩ : ∃ p : CartPole, p = ⟨0.175, 1.732, 0.28, 0.01, 0.01, none⟩ := ⟨_, rfl⟩
  rw [← hp]
  obtain ⟨R, hR⟩ : ∃ R : Fin 4 → ℝ, R = ![2, 2, 3, 1.6] := ⟨_, rfl⟩
  have hR0 : ∀ i, 0 ≤ R i := by intro i; rw [hR]; fin_cases i <;> norm_num
  have hC : CartPoleConstants p.pendulumMass p.cartMass p.length p.rotFriction (R 2) (R 3) ((![15.256] : Fin 1 → ℝ) 0) 80 3 75 := by
    rw [hp, hR]
    exact notebook_constants
  have hf := cart_field p (by rw [hp]; norm_num) (by rw [hp]; norm_num) (by rw [hp]; norm_num) (by rw [hp]; norm_num) R hR0 ![15.256] (by norm_num) 80 3 75 hC
  have hU : ∀ i : Fin 1, (0 : ℝ) ≤ (![15.256] : Fin 1 → ℝ) i := by intro i; fin_cases i; norm_num
  obtain ⟨⟨z, y, hz, hy⟩, -⟩ := C141_exists (dt := 0.01) none (by simp) (clampField hf hU) (by norm_num) (fun _ => ![1]) ![0, 0.1, 0, 0]
  have hu1 : ∀ i : Fin 1, |(![1] : Fin 1 → ℝ) i| ≤ (![15.256] : Fin 1 → ℝ) i := by intro i; fin_cases i; norm_num
  have hy0 : y 0 = ![0, 0.1, 0, 0] := by
    have := hy.measured 0
    simp only [Nat.cast_zero, zero_mul, Option.map_none, inUnits, hz] at this
    exact this
  have hm : ∀ t ∈ Icc (0 : ℝ) 0.01, HasDerivWithinAt y (p.ode (clampBox R (y t)) (clampBox ![15.256] ![1])) (Icc 0 0.01) t := by
    have := hy.motion 0
    simp only [Nat.cast_zero, zero_mul, zero_add, one_mul, Option.map_none, inUnits] at this
    exact this
  have hin : ∀ t ∈ Icc (0 : ℝ) 0.01, ∀ i, |y t i| ≤ R i - 0.05 := by
    refine solution_in_box (f := fun x => p.ode (clampBox R x) (clampBox ![15.256] ![1])) (R := fun i => R i - 0.05) (B := 75)
      (fun x _ => hf.speed _ _ (clampBox_mem hR0 x) (clampBox_mem hU _)) (by norm_num) hm ?_
    intro i
    rw [hy0, hR]
    fin_cases i <;> norm_num
  have hm' : ∀ t ∈ Icc (0 : ℝ) 0.01, HasDerivWithinAt y (p.ode (y t) ![1]) (Icc 0 0.01) t := by
    intro t ht
    have := hm t ht
    rwa [clampBox_eq (fun i => (hin t ht i).trans (by norm_num)), clampBox_eq hu1] at this
  refine ⟨y, hy0, hm', ?_⟩
  have e1 : p.normalization = none := by rw [hp]
  have e2 : p.dt = 0.01 := by rw [hp]
  have hb := C139_cart_pole_constants p (by rw [hp]; norm_num) (by rw [hp]; norm_num) (by rw [hp]; norm_num) (by rw [hp]; norm_num) (by rw [hp]; norm_num) (by simp [e1]) R hR0 ![15.256]
    (by norm_num) 80 3 75 hC ![0, 0.1, 0, 0] (fun _ => ![1]) 1 (by simp [e1, inUnits]; norm_num) y (by simp only [e1, Option.map_none, inUnits]; exact hy0) (by
      intro j hj t ht
      obtain rfl : j = 0 := by omega
      simp only [Nat.cast_zero, zero_mul, zero_add, one_mul, e1, e2, Option.map_none, inUnits] at ht ⊢
      exact hm' t ht) 0.05 (by
      intro t ht i
      rw [e2, Nat.cast_one, one_mul] at ht
      linarith [hin t ht i]) (by
      rw [e2, Nat.cast_one, one_mul]
      have := exp_cart_le
      norm_num at this ⊢
      linarith)
  rw [e1, e2, Nat.cast_one, one_mul] at hb
  simp only [Option.map_none, inUnits, Spec.discreteStates] at hb
  refine lt_of_le_of_lt hb ?_
  have := exp_cart_le
  norm_num at this ⊢
  linarith

/-- The states of the notebook, without normalisation, with 11 states per dimension. -/
noncomputable def cartGrid : GridWorld ℝ 4 where
  lo := ![-0.5, -0.53, -2, -0.53]
  hi := ![0.5, 0.53, 2, 0.53]
  num := ![11, 11, 11, 11]

/-- The cart-pole of the notebook with the error bounds of the simulation. -/
noncomputable def balancing : System ℝ Unit Unit 4 where
  V := fun _ x => ∑ i, |x i|
  lv := fun _ => .const 1
  lf := fun _ => .const (4 * (1 / 1) * (Real.exp (80 * 0.01) + 3 * 15.256 / 80 * (Real.exp (80 * 0.01) - 1)))
  closedLoop := fun _ _ x => .uncertain ((⟨0.175, 1.732, 0.28, 0.01, 0.01, none⟩ : CartPole).evaluate x ![-15.256 * Real.sin (x 1)])
    fun _ => simulationError (⟨0.175, 1.732, 0.28, 0.01, 0.01, none⟩ : CartPole).ode 80 0.01 x ![-15.256 * Real.sin (x 1)]

open Classical in
/-- The hypotheses of `C141_cart_pole` about the system, the policy and the constants can be met. -/
example (sort : (Fin cartGrid.nindex → ℝ) → List (Fin cartGrid.nindex)) (hsort : sort = fun v => (List.finRange _).insertionSort fun i j => v i ≤ v j) :=
  C141_cart_pole ⟨0.175, 1.732, 0.28, 0.01, 0.01, none⟩ (by norm_num) (by norm_num) (by norm_num) (by norm_num) (by norm_num) (by simp) ![2, 2, 3, 1.6]
    (by intro i; fin_cases i <;> norm_num) ![15.256] 80 3 75 notebook_constants (fun x => ![-15.256 * Real.sin (x 1)]) 15.256 (by norm_num) (by
      intro x x'
      simp only [inUnits, Option.map_none]
      rw [pi_norm_le_iff_of_nonneg (by positivity)]
      intro i
      obtain rfl : i = 0 := Subsingleton.elim _ _
      have h1 := norm_le_pi_norm (x - x') 1
      have h2 := Real.abs_sin_sub_sin_le (x 1) (x' 1)
      simp only [Pi.sub_apply, Matrix.cons_val_zero, Real.norm_eq_abs] at h1 ⊢
      rw [← mul_sub, abs_mul]
      norm_num
      linarith) (by
      intro x i
      obtain rfl : i = 0 := Subsingleton.elim _ _
      simp only [inUnits, Option.map_none, Matrix.cons_val_zero]
      rw [abs_mul]
      have := Real.abs_sin_le_one (x 1)
      norm_num
      linarith) 1 1 one_pos (by simp [inUnits]) balancing cartGrid (by intro i; fin_cases i <;> norm_num [inUnits, cartGrid])
    sort (fun t k => t / k) (sortContract_insertionSort _ hsort) () ()
    (fun x _ => simulationError (⟨0.175, 1.732, 0.28, 0.01, 0.01, none⟩ : CartPole).ode 80 0.01 x ![-15.256 * Real.sin (x 1)]) (fun _ => rfl) (by intro j i; simp [inUnits])
    1 _ (2 / 5) (by intro i; fin_cases i <;> simp [cartGrid]) (by intro i; fin_cases i <;> norm_num [cartGrid]) rfl rfl zero_le_one (by
      intro y z
      simp only [one_mul, balancing]
      rw [← Finset.sum_sub_distrib]
      exact (Finset.abs_sum_le_sum_abs _ _).trans (Finset.sum_le_sum fun i _ => abs_abs_sub_abs_le _ _)) le_rfl (by simp only [Fin.sum_univ_four, cartGrid, Matrix.cons_val]; norm_num)
    (some fun j => decide (‖gridState cartGrid j.val‖ < 1 / 2)) false () [] (by simp) 10 (by norm_num) ⟨true, 1, 1⟩ rfl (by simp) (fun _ => rfl)

/-! ## The Van der Pol oscillator -/

theorem van_der_pol_field (p : VanDerPol) (r : ℝ) (hr : 0 ≤ r) (B : ℝ) (hB : r * (1 + |p.damping| * (r ^ 2 + 1)) < B) (U : Fin 1 → ℝ) :
    LipschitzFieldOn (fun s (_ : Fin 1 → ℝ) => ![-s 1, s 0 + p.damping * (s 0 ^ 2 - 1) * s 1]) (fun _ => r) U (1 + |p.damping| * (3 * r ^ 2 + 1)) 0 B := by
  have q1 : ∀ x : ℝ, |x| ≤ r → |x ^ 2 - 1| ≤ r ^ 2 + 1 := by
    intro x hx
    have := sq_le_sq' (by linarith [(abs_le.mp hx).1]) (abs_le.mp hx).2
    rw [abs_le]
    constructor <;> nlinarith [sq_nonneg x, sq_nonneg r]
  refine ⟨fun _ => hr, by positivity, le_rfl, fun a b u ha hb _ => ?_, fun a u v _ _ _ => by simp, fun a u ha _ => ?_⟩
  · have h0 := norm_le_pi_norm (a - b) 0
    have h1 := norm_le_pi_norm (a - b) 1
    simp only [Pi.sub_apply, Real.norm_eq_abs] at h0 h1
    refine (pi_norm_le_iff_of_nonneg (by positivity)).mpr fun i => ?_
    fin_cases i
    · show |-a 1 - -b 1| ≤ _
      rw [show -a 1 - -b 1 = -(a 1 - b 1) by ring, abs_neg]
      have : 0 ≤ |p.damping| * (3 * r ^ 2 + 1) * ‖a - b‖ := by positivity
      linarith
    · show |a 0 + p.damping * (a 0 ^ 2 - 1) * a 1 - (b 0 + p.damping * (b 0 ^ 2 - 1) * b 1)| ≤ _
      have e : a 0 + p.damping * (a 0 ^ 2 - 1) * a 1 - (b 0 + p.damping * (b 0 ^ 2 - 1) * b 1) =
          (a 0 - b 0) + p.damping * ((a 0 ^ 2 - 1) * (a 1 - b 1) + (a 0 + b 0) * b 1 * (a 0 - b 0)) := by ring
      rw [e]
      have q2 : |(a 0 + b 0) * b 1| ≤ 2 * r ^ 2 := by
        rw [abs_mul]
        calc _ ≤ (2 * r) * r := mul_le_mul ((abs_add_le _ _).trans (by linarith [ha 0, hb 0])) (hb 1) (abs_nonneg _) (by positivity)
          _ = _ := by ring
      have q1' := q1 (a 0) (ha 0)
      calc _ ≤ |a 0 - b 0| + |p.damping * ((a 0 ^ 2 - 1) * (a 1 - b 1) + (a 0 + b 0) * b 1 * (a 0 - b 0))| := abs_add_le _ _
        _ ≤ ‖a - b‖ + |p.damping| * ((r ^ 2 + 1) * ‖a - b‖ + 2 * r ^ 2 * ‖a - b‖) := by
          rw [abs_mul]
          gcongr
          refine (abs_add_le _ _).trans ?_
          rw [abs_mul, abs_mul ((a 0 + b 0) * b 1)]
          gcongr
        _ = _ := by ring
  · refine lt_of_le_of_lt ?_ hB
    refine (pi_norm_le_iff_of_nonneg (by positivity)).mpr fun i => ?_
    fin_cases i
    · show |-a 1| ≤ _
      rw [abs_neg]
      have : 0 ≤ r * (|p.damping| * (r ^ 2 + 1)) := by positivity
      linarith [ha 1]
    · show |a 0 + p.damping * (a 0 ^ 2 - 1) * a 1| ≤ _
      refine (abs_add_le _ _).trans ?_
      rw [abs_mul, abs_mul]
      have h1 := q1 (a 0) (ha 0)
      calc _ ≤ r + |p.damping| * (r ^ 2 + 1) * r := by
            gcongr
            · exact ha 0
            · exact ha 1
        _ = _ := by ring

/-- **C141 (Van der Pol oscillator).** The safe set of a `Lyapunov` object whose dynamics are a `VanDerPol` with error bounds of at least `simulationError` holds for the real oscillator in
continuous time. Actions have no effect. -/
theorem C141_van_der_pol {Prog Θ : Type} (p : VanDerPol) (hdt : 0 < p.dt) (hn : ∀ T, p.normalization = some T → ∀ i, T i ≠ 0)
    (ρ : ℝ) (hρ : 0 ≤ ρ) (B : ℝ) (hB : ρ * (1 + |p.damping| * (ρ ^ 2 + 1)) < B) (policy : (Fin 2 → ℝ) → Fin 1 → ℝ)
    (a b : ℝ) (hb0 : 0 < b) (hunits : ∀ i, b ≤ |inUnits p.normalization 1 i| ∧ |inUnits p.normalization 1 i| ≤ a)
    (sys : System ℝ Prog Θ 2) (g : GridWorld ℝ 2)
    (hgrid : ∀ i, |inUnits p.normalization 1 i| * max |g.lo i| |g.hi i| + B * p.dt ≤ ρ)
    (argsort : (Fin g.nindex → ℝ) → List (Fin g.nindex)) (tauDiv : ℝ → ℕ → ℝ) (hW : (sys.world g argsort tauDiv).SortContract) (prog : Prog) (θ : Θ)
    (error : (Fin 2 → ℝ) → Fin 2 → ℝ) (hloop : ∀ j : Fin g.nindex, sys.closedLoop prog θ (gridState g j) =
      .uncertain (p.evaluate (gridState g j) (policy (gridState g j))) (error (gridState g j)))
    (herr : ∀ (j : Fin g.nindex) (i : Fin 2), simulationError (fun s (_ : Fin 1 → ℝ) => ![-s 1, s 0 + p.damping * (s 0 ^ 2 - 1) * s 1])
      (1 + |p.damping| * (3 * ρ ^ 2 + 1)) p.dt (inUnits p.normalization (gridState g j)) 0 ≤ |inUnits p.normalization 1 i| * error (gridState g j) i)
    (Lv Lf tau : ℝ) (h2 : ∀ i, 2 ≤ g.num i) (hlt : ∀ i, g.lo i < g.hi i) (hlv : sys.lv θ = .const Lv) (hlf : sys.lf θ = .const Lf)
    (hLv : 0 ≤ Lv) (hV : ∀ y z, |sys.V θ y - sys.V θ z| ≤ Lv * ∑ i, |y i - z i|)
    (hLf : 2 * (a / b) * Real.exp ((1 + |p.damping| * (3 * ρ ^ 2 + 1)) * p.dt) ≤ Lf)
    (htau : ∑ i, (g.hi i - g.lo i) / ((g.num i : ℝ) - 1) / 2 ≤ tau)
    (initial : Option (Fin g.nindex → Bool)) (adaptive : Bool) (θ₀ : Θ)
    (history : List (Lyap.Op ℝ Prog Θ)) (hh : ∀ op ∈ history, op.IsMethod)
    (batch : ℕ) (hb : 0 < batch) (args : Lyap.UpdateArgs ℝ) (hcs : args.canShrink = true)
    (hna : ¬(adaptive = true ∧ 1 < args.maxRefinement)) :
    let W := sys.world g argsort tauDiv
    let s := Lyap.run W (Lyap.new W prog tau initial adaptive θ₀) history
    let r := Lyap.updateSafeSet W batch args s θ
    (∀ j, s.values j = sys.V θ (gridState g j)) →
    ∀ c, (∀ j, s.values j < c → r.1.safeSet j = true) →
    (∀ x, sys.V θ x < c - Lv * tau → ∀ i, g.lo i ≤ x i ∧ x i ≤ g.hi i) →
    ∃ ε, 0 < ε ∧ ∀ x, sys.V θ x < c - Lv * tau → ∃ T,
      (∃ z y, z 0 = x ∧ SampledLoopUntil (fun s (_ : Fin 1 → ℝ) => ![-s 1, s 0 + p.damping * (s 0 ^ 2 - 1) * s 1]) (p.normalization.map fun T => (T, 1)) 0 p.dt T z y) ∧
      ∀ z y, z 0 = x → SampledLoopUntil (fun s (_ : Fin 1 → ℝ) => ![-s 1, s 0 + p.damping * (s 0 ^ 2 - 1) * s 1]) (p.normalization.map fun T => (T, 1)) 0 p.dt T z y →
        (∀ j < T, sys.V θ (z (j + 1)) ≤ sys.V θ (z j) - ε) ∧ (∀ j ≤ T, sys.V θ (z j) < c - Lv * tau) ∧
        (∃ j, InInitial initial j ∧ ∑ i, |z T i - gridState g j i| ≤ tau) ∧
        ∀ j < T, ∀ t ∈ Icc (j * p.dt) ((j + 1) * p.dt), ∀ i, |y t i| ≤ ρ := by
  have e1 : (p.normalization.map fun T => (T, (1 : Fin 1 → ℝ))).map Prod.fst = p.normalization := by
    cases p.normalization <;> rfl
  have e2 : ∀ x u, p.evaluate x u = evaluateSystem (p.normalization.map fun T => (T, (1 : Fin 1 → ℝ))) (fun s (_ : Fin 1 → ℝ) => ![-s 1, s 0 + p.damping * (s 0 ^ 2 - 1) * s 1]) p.dt x 0 := by
    intro x u
    rw [show p.evaluate x u = p.evaluate x 0 from rfl, vdp_evaluate]
    rfl
  have e3 : ∀ s : Option (Fin 1 → ℝ), inUnits s (0 : Fin 1 → ℝ) = 0 := by
    intro s
    funext i
    rw [inUnits_eq]
    simp
  exact C141_region_local (p.normalization.map fun T => (T, (1 : Fin 1 → ℝ))) (by
      intro T hT i
      obtain ⟨T', h1, rfl⟩ := Option.map_eq_some_iff.mp hT
      exact hn T' h1 i) _ (fun _ => ρ) 0 _ 0 B p.dt (van_der_pol_field p ρ hρ B hB 0) hdt 0 0 le_rfl (by simp [e3]) (by simp [e3]) a b hb0 (by rw [e1]; exact hunits) sys g
    (by rw [e1]; exact hgrid) argsort tauDiv hW prog θ error (fun j => by rw [hloop, e2]; rfl) (fun j i => by
      simp only [Pi.zero_apply, e3, e1]
      exact herr j i) Lv Lf tau h2 hlt hlv hlf hLv hV (by
      simpa using hLf) htau initial adaptive θ₀ history hh batch hb args hcs hna

/-- The oscillator with damping one, 100 steps per second, for states of at most 1.7. -/
noncomputable def oscillating : System ℝ Unit Unit 2 where
  V := fun _ x => |x 0| + |x 1|
  lv := fun _ => .const 1
  lf := fun _ => .const (2 * (1 / 1) * Real.exp ((1 + |1| * (3 * 1.7 ^ 2 + 1)) * 0.01))
  closedLoop := fun _ _ x => .uncertain ((⟨1, 0.01, none⟩ : VanDerPol).evaluate x 0)
    fun _ => simulationError (fun s (_ : Fin 1 → ℝ) => ![-s 1, s 0 + 1 * (s 0 ^ 2 - 1) * s 1]) (1 + |1| * (3 * 1.7 ^ 2 + 1)) 0.01 x 0

open Classical in
/-- The hypotheses of `C141_van_der_pol` about the system and the constants can be met. -/
example (sort : (Fin fineSquare.nindex → ℝ) → List (Fin fineSquare.nindex)) (hsort : sort = fun v => (List.finRange _).insertionSort fun i j => v i ≤ v j) :=
  C141_van_der_pol ⟨1, 0.01, none⟩ (by norm_num) (by simp) 1.7 (by norm_num) 10 (by norm_num) (fun _ => 0) 1 1 one_pos (by simp [inUnits]) oscillating fineSquare
    (by intro i; fin_cases i <;> norm_num [inUnits, fineSquare]) sort (fun t k => t / k) (sortContract_insertionSort _ hsort) () ()
    (fun x _ => simulationError (fun s (_ : Fin 1 → ℝ) => ![-s 1, s 0 + 1 * (s 0 ^ 2 - 1) * s 1]) (1 + |1| * (3 * 1.7 ^ 2 + 1)) 0.01 x 0) (fun _ => rfl)
    (by intro j i; simp [inUnits])
    1 _ (2 / 100) (by intro i; fin_cases i <;> simp [fineSquare]) (by intro i; fin_cases i <;> norm_num [fineSquare]) rfl rfl zero_le_one (by
      intro y z
      simp only [Fin.sum_univ_two, one_mul, oscillating]
      have h1 := abs_abs_sub_abs_le (y 0) (z 0)
      have h2 := abs_abs_sub_abs_le (y 1) (z 1)
      calc _ = |(|y 0| - |z 0|) + (|y 1| - |z 1|)| := by ring_nf
        _ ≤ _ := (abs_add_le _ _).trans (add_le_add h1 h2)) le_rfl (by norm_num [Fin.sum_univ_two, fineSquare])
    (some fun j => decide (‖gridState fineSquare j.val‖ < 1 / 2)) false () [] (by simp) 10 (by norm_num) ⟨true, 1, 1⟩ rfl (by simp) (fun _ => rfl)

end SafeLearning
