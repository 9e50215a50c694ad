import Verif.Props.FloatRegion
import Verif.Props.RealTime
set_option autoImplicit false

/-!
# C144: safe sets that are computed in floating point arithmetic, and the real system in continuous time
-/

namespace SafeLearning

open Spec Flt FltLyap

variable {n k : ℕ} {A : Arith ℝ} {u ω : ℝ}

/-- **C144 (real time).** Everything is computed with rounding errors: the means of the predictions differ from the exact result of the simulation by at most `ρ`, the values differ from those of
the Lyapunov function `V` by at most `η`, and `update_safe_set` runs in floating point arithmetic with underflow and overflow and compares finite numbers. The error bounds of the predictions cover the error of Euler's method and `ρ`, and the
discretisation constant `tau` is larger than the radius `r` of the grid by enough to cover the other errors. Then what the safe set promises holds for the real system in continuous time: along every
solution of the differential equation whose action is updated by the policy every `dt` seconds, the value decreases from each measurement to the next until the state is close to an initially safe
one. -/
theorem C144_real_time {Prog Θ : Type} (norm : Normalization n k) (hn : ∀ T, norm = some T → ∀ i, T.1 i ≠ 0) (ode : (Fin n → ℝ) → (Fin k → ℝ) → Fin n → ℝ) (L M dt : ℝ)
    (hf : LipschitzField ode L M) (hdt : 0 < dt) (policy : (Fin n → ℝ) → Fin k → ℝ) (P : ℝ) (hP0 : 0 ≤ P)
    (hP : ∀ x x', ‖inUnits (norm.map Prod.snd) (policy x) - inUnits (norm.map Prod.snd) (policy x')‖ ≤
      P * ‖inUnits (norm.map Prod.fst) x - inUnits (norm.map Prod.fst) x'‖)
    (a b : ℝ) (hb0 : 0 < b) (hunits : ∀ i, b ≤ |inUnits (norm.map Prod.fst) 1 i| ∧ |inUnits (norm.map Prod.fst) 1 i| ≤ a)
    (hA : RoundsFinite A u ω) (sys : System ℝ Prog Θ n) (g : GridWorld ℝ n)
    (argsort : (Fin g.nindex → ℝ) → List (Fin g.nindex)) (tauDiv : ℝ → ℕ → ℝ) (prog : Prog) (θ : Θ)
    (mean error : Fin g.nindex → Fin n → ℝ) (ρ : ℝ) (hloop : ∀ j : Fin g.nindex, sys.closedLoop prog θ (gridState g j) = .uncertain (mean j) (error j))
    (hρ : ∀ (j : Fin g.nindex) (i : Fin n), |mean j i - evaluateSystem norm ode dt (gridState g j) (policy (gridState g j)) i| ≤ ρ)
    (herr : ∀ (j : Fin g.nindex) (i : Fin n), simulationError ode L dt (inUnits (norm.map Prod.fst) (gridState g j))
      (inUnits (norm.map Prod.snd) (policy (gridState g j))) ≤ |inUnits (norm.map Prod.fst) 1 i| * (error j i - ρ))
    (V : (Fin n → ℝ) → ℝ) (Lv Lf tau r η c : ℝ) (h2 : ∀ i, 2 ≤ g.num i) (hlt : ∀ i, g.lo i < g.hi i) (hlv : sys.lv θ = .const Lv) (hlf : sys.lf θ = .const Lf)
    (hLv : 0 ≤ Lv) (hV : ∀ y z, |V y - V z| ≤ Lv * ∑ i, |y i - z i|)
    (hη : ∀ j : Fin g.nindex, |sys.V θ (gridState g j) - V (gridState g j)| ≤ η ∧ |sys.V θ (mean j) - V (mean j)| ≤ η)
    (hLf : n * (a / b) * (Real.exp (L * dt) + M * P / L * (Real.exp (L * dt) - 1)) ≤ Lf)
    (hr : ∑ i, (g.hi i - g.lo i) / ((g.num i : ℝ) - 1) / 2 ≤ r)
    (hmargin : ∀ j : Fin g.nindex, sys.V θ (gridState g j) < c →
      finiteMargin u ω (sys.V θ) (.const Lv) (.const Lf) (gridState g j) (.uncertain (mean j) (error j)) tau + 2 * η ≤ Lv * (1 + Lf) * (tau - r))
    (initial : Option (Fin g.nindex → Bool)) (θ₀ : Θ)
    (history : List (Lyap.Op ℝ Prog Θ)) (hh : ∀ op ∈ history, op.IsMethod)
    (batch : ℕ) (args : Lyap.UpdateArgs (Flt ℝ)) (hcs : args.canShrink = true) :
    let W := finiteWorld sys g argsort tauDiv
    let s := run A W (new W prog (fin tau) initial false θ₀) (history.map finiteOp)
    let out := updateSafeSet A W batch args s θ
    (∀ j : Fin g.nindex, sys.V θ (gridState g j) < c → (∃ D, decreaseAt A W prog θ j = fin D) ∧ ∃ T, thresholdOf A W θ j (fin tau) = fin T) →
    out.2 = .ok () → (∀ j : Fin g.nindex, sys.V θ (gridState g j) < c → out.1.safeSet j = true) →
    (∀ x, V x < c - Lv * r - η → ∀ i, g.lo i ≤ x i ∧ x i ≤ g.hi i) →
    ∃ ε, 0 < ε ∧ ∀ z y, SampledLoop ode norm policy dt z y → V (z 0) < c - Lv * r - η →
      ∃ T, (∀ j < T, V (z (j + 1)) ≤ V (z j) - ε) ∧ (∀ j ≤ T, V (z j) < c - Lv * r - η) ∧
        ∃ j, InInitial initial j ∧ ∑ i, |z T i - gridState g j i| ≤ r := by
  intro W s out hfin hok hc hbox
  obtain ⟨hLf0, F, hLf', herrF, hz⟩ := exists_sampled_map norm hn ode L M dt hf hdt policy P hP0 hP a b hb0 hunits Lf hLf
  obtain ⟨ε, hε, hmain⟩ := C144_region sys g argsort tauDiv hA prog θ tau initial θ₀ history hh batch args hcs F V Lv Lf r η c h2 hlt hlv hlf hLv hLf0 hV hLf' hr
    (fun j => by
      rw [hloop]
      intro i
      have h1 := le_of_mul_le_mul_left ((herrF _ i).trans (herr j i)) (lt_of_lt_of_le hb0 (hunits i).1)
      have h3 := hρ j i
      have h4 := abs_sub_le (F (gridState g j) i) (evaluateSystem norm ode dt (gridState g j) (policy (gridState g j)) i) (mean j i)
      rw [abs_sub_comm (evaluateSystem norm ode dt (gridState g j) (policy (gridState g j)) i)] at h4
      linarith)
    (fun j => by rw [hloop]; exact hη j) (fun j hj => by rw [hloop]; exact hmargin j hj) hfin hok hc hbox
  refine ⟨ε, hε, fun z y hzy hz0 => ?_⟩
  have hz := hz z y hzy
  obtain ⟨T, h3, h4, j, h5, h6⟩ := hmain (z 0) hz0
  simp only [← hz] at h3 h4 h6
  exact ⟨T, h3, h4, j, h5, h6⟩

/-- **C144 (the pendulum).** The same for `InvertedPendulum`, with constants from its mass, length and friction. -/
theorem C144_pendulum {Prog Θ : Type} (p : InvertedPendulum) (hm : 0 < p.mass) (hl : 0 < p.length) (hfr : 0 ≤ p.friction) (hdt : 0 < p.dt)
    (hn : ∀ T, p.normalization = some T → ∀ i, T.1 i ≠ 0) (policy : (Fin 2 → ℝ) → Fin 1 → ℝ) (P : ℝ) (hP0 : 0 ≤ P)
    (hP : ∀ x x', ‖inUnits (p.normalization.map Prod.snd) (policy x) - inUnits (p.normalization.map Prod.snd) (policy x')‖ ≤
      P * ‖inUnits (p.normalization.map Prod.fst) x - inUnits (p.normalization.map Prod.fst) x'‖)
    (a b : ℝ) (hb0 : 0 < b) (hunits : ∀ i, b ≤ |inUnits (p.normalization.map Prod.fst) 1 i| ∧ |inUnits (p.normalization.map Prod.fst) 1 i| ≤ a)
    (hA : RoundsFinite A u ω) (sys : System ℝ Prog Θ 2) (g : GridWorld ℝ 2)
    (argsort : (Fin g.nindex → ℝ) → List (Fin g.nindex)) (tauDiv : ℝ → ℕ → ℝ) (prog : Prog) (θ : Θ)
    (mean error : Fin g.nindex → Fin 2 → ℝ) (ρ : ℝ) (hloop : ∀ j : Fin g.nindex, sys.closedLoop prog θ (gridState g j) = .uncertain (mean j) (error j))
    (hρ : ∀ (j : Fin g.nindex) (i : Fin 2), |mean j i - p.evaluate (gridState g j) (policy (gridState g j)) i| ≤ ρ)
    (L : ℝ) (hL : L = max 1 (9.81 / p.length + p.friction / (p.mass * p.length ^ 2)))
    (herr : ∀ (j : Fin g.nindex) (i : Fin 2), simulationError (pendulumMotion p.mass p.length p.friction) L p.dt (inUnits (p.normalization.map Prod.fst) (gridState g j))
      (inUnits (p.normalization.map Prod.snd) (policy (gridState g j))) ≤ |inUnits (p.normalization.map Prod.fst) 1 i| * (error j i - ρ))
    (V : (Fin 2 → ℝ) → ℝ) (Lv Lf tau r η c : ℝ) (h2 : ∀ i, 2 ≤ g.num i) (hlt : ∀ i, g.lo i < g.hi i) (hlv : sys.lv θ = .const Lv) (hlf : sys.lf θ = .const Lf)
    (hLv : 0 ≤ Lv) (hV : ∀ y z, |V y - V z| ≤ Lv * ∑ i, |y i - z i|)
    (hη : ∀ j : Fin g.nindex, |sys.V θ (gridState g j) - V (gridState g j)| ≤ η ∧ |sys.V θ (mean j) - V (mean j)| ≤ η)
    (hLf : 2 * (a / b) * (Real.exp (L * p.dt) + 1 / (p.mass * p.length ^ 2) * P / L * (Real.exp (L * p.dt) - 1)) ≤ Lf)
    (hr : ∑ i, (g.hi i - g.lo i) / ((g.num i : ℝ) - 1) / 2 ≤ r)
    (hmargin : ∀ j : Fin g.nindex, sys.V θ (gridState g j) < c →
      finiteMargin u ω (sys.V θ) (.const Lv) (.const Lf) (gridState g j) (.uncertain (mean j) (error j)) tau + 2 * η ≤ Lv * (1 + Lf) * (tau - r))
    (initial : Option (Fin g.nindex → Bool)) (θ₀ : Θ)
    (history : List (Lyap.Op ℝ Prog Θ)) (hh : ∀ op ∈ history, op.IsMethod)
    (batch : ℕ) (args : Lyap.UpdateArgs (Flt ℝ)) (hcs : args.canShrink = true) :
    let W := finiteWorld sys g argsort tauDiv
    let s := run A W (new W prog (fin tau) initial false θ₀) (history.map finiteOp)
    let out := updateSafeSet A W batch args s θ
    (∀ j : Fin g.nindex, sys.V θ (gridState g j) < c → (∃ D, decreaseAt A W prog θ j = fin D) ∧ ∃ T, thresholdOf A W θ j (fin tau) = fin T) →
    out.2 = .ok () → (∀ j : Fin g.nindex, sys.V θ (gridState g j) < c → out.1.safeSet j = true) →
    (∀ x, V x < c - Lv * r - η → ∀ i, g.lo i ≤ x i ∧ x i ≤ g.hi i) →
    ∃ ε, 0 < ε ∧ ∀ z y, SampledLoop (pendulumMotion p.mass p.length p.friction) p.normalization policy p.dt z y → V (z 0) < c - Lv * r - η →
      ∃ T, (∀ j < T, V (z (j + 1)) ≤ V (z j) - ε) ∧ (∀ j ≤ T, V (z j) < c - Lv * r - η) ∧
        ∃ j, InInitial initial j ∧ ∑ i, |z T i - gridState g j i| ≤ r := by
  have hf := pendulum_field p hm hl hfr
  rw [← hL] at hf
  have he : p.evaluate = evaluateSystem p.normalization (pendulumMotion p.mass p.length p.friction) p.dt := by
    funext x u
    rw [InvertedPendulum.evaluate, pendulum_motion p hfr]
  rw [he] at hρ
  exact C144_real_time p.normalization hn (pendulumMotion p.mass p.length p.friction) L _ p.dt hf hdt policy P hP0 hP a b hb0 hunits hA sys g argsort tauDiv prog θ mean error ρ hloop hρ
    herr V Lv Lf tau r η c h2 hlt hlv hlf hLv hV hη (by exact_mod_cast hLf) hr hmargin initial θ₀ history hh batch args hcs

/-! ## A case that meets the hypotheses -/

/-- `x' = -x`, simulated with rounding errors of up to `1 / 10 ^ 6` in the next states and in the values. -/
noncomputable def roundedDecay : System ℝ Unit Unit 1 where
  V := fun _ x => |x 0| + 1 / 10 ^ 6
  lv := fun _ => .const 1
  lf := fun _ => .const (Real.exp 1)
  closedLoop := fun _ _ x => .uncertain (fun i => (9 / 10) ^ 10 * x i + 1 / 10 ^ 6) fun _ => simulationError (k := 1) (fun s _ => -s) 1 1 x 0 + 1 / 10 ^ 6

/-- All hypotheses about the system and the rounding errors are met, for every arithmetic with the accuracy of double precision: for `x' = -x`, the line from -2 to 2 with 21 states and the discretisation
constant `11 / 100`. -/
example (hA : RoundsFinite A ((2 : ℝ) ^ (-(53 : ℕ) : ℤ)) ((2 : ℝ) ^ (-1075 : ℤ))) (sort : (Fin fineLine.nindex → ℝ) → List (Fin fineLine.nindex)) (initial : Option (Fin fineLine.nindex → Bool)) :=
  C144_real_time none (by simp) (fun s (_ : Fin 1 → ℝ) => -s) 1 0 1 ⟨one_pos, le_rfl, fun a b _ => by rw [one_mul, neg_sub_neg, norm_sub_rev], by simp⟩ one_pos (fun _ => 0) 0 le_rfl (by simp) 1 1 one_pos
    (by simp [inUnits]) hA roundedDecay fineLine sort (fun t k => t / k) () () (fun j i => (9 / 10) ^ 10 * gridState fineLine j i + 1 / 10 ^ 6)
    (fun j _ => simulationError (k := 1) (fun s _ => -s) 1 1 (gridState fineLine j) 0 + 1 / 10 ^ 6) (1 / 10 ^ 6) (fun _ => rfl)
    (by intro j i; rw [decaying_evaluate]; norm_num) (by intro j i; simp [inUnits]) (fun x => |x 0|) 1 (Real.exp 1) (11 / 100) (1 / 10) (1 / 10 ^ 6) (21 / 10)
    (by simp [fineLine]) (by simp [fineLine]) rfl rfl zero_le_one (by intro y z; rw [Fin.sum_univ_one, one_mul]; exact abs_abs_sub_abs_le _ _)
    (by intro j; simp only [roundedDecay, add_sub_cancel_left]; norm_num) (by simp) (by norm_num [fineLine])
    (by
      intro j hj
      have e1 := Real.exp_one_gt_d9
      have e2 := Real.exp_one_lt_d9
      obtain ⟨x, hx⟩ : ∃ x, x = gridState fineLine j := ⟨_, rfl⟩
      rw [← hx] at hj ⊢
      have hj : |x 0| + 1 / 10 ^ 6 < 21 / 10 := hj
      have hn : ‖-x‖ = |x 0| := by
        rw [norm_neg]
        refine le_antisymm ((pi_norm_le_iff_of_nonneg (abs_nonneg _)).mpr fun i => ?_) (norm_le_pi_norm x 0)
        obtain rfl : i = 0 := Subsingleton.elim _ _
        exact le_rfl
      have h0 := abs_nonneg (x 0)
      have hS : checkSize (roundedDecay.V ()) (.const 1) (.const (Real.exp 1)) x
          (.uncertain (fun i => (9 / 10) ^ 10 * x i + 1 / 10 ^ 6) fun _ => simulationError (k := 1) (fun s _ => -s) 1 1 x 0 + 1 / 10 ^ 6) (11 / 100) ≤ 10 := by
        simp only [checkSize, roundedDecay, LipArg.entry, Fin.sum_univ_one, thresholdAt, LipArg.forThreshold, LipDyn.at, simulationError, hn, one_mul, mul_one]
        have h3 : |x 0| * Real.exp 1 / 20 * (Real.exp 1 - 1) ≤ |x 0| * (24 / 100) := by
          have : Real.exp 1 / 20 * (Real.exp 1 - 1) ≤ 24 / 100 := by nlinarith
          calc _ = |x 0| * (Real.exp 1 / 20 * (Real.exp 1 - 1)) := by ring
            _ ≤ _ := mul_le_mul_of_nonneg_left this h0
        have h4 : 0 ≤ |x 0| * Real.exp 1 / 20 * (Real.exp 1 - 1) := by
          have : 0 ≤ Real.exp 1 - 1 := by linarith
          positivity
        have h5 : |(9 / 10 : ℝ) ^ 10 * x 0 + 1 / 10 ^ 6| ≤ |x 0| + 1 := by
          refine (abs_add_le _ _).trans ?_
          rw [abs_mul]
          norm_num
          linarith
        have h6 := abs_nonneg ((9 / 10 : ℝ) ^ 10 * x 0 + 1 / 10 ^ 6)
        have a1 : |(|(9 / 10 : ℝ) ^ 10 * x 0 + 1 / 10 ^ 6| + 1 / 10 ^ 6 - (|x 0| + 1 / 10 ^ 6))| ≤ 6 := by
          rw [abs_le]; constructor <;> linarith
        have a2 : |(|x 0| * Real.exp 1 / 20 * (Real.exp 1 - 1) + 1 / 10 ^ 6)| ≤ 2 := by
          rw [abs_le]; constructor <;> linarith
        have a3 : |(-1 * (1 + Real.exp 1) * (11 / 100) : ℝ)| ≤ 2 := by
          rw [abs_le]; constructor <;> linarith
        have h20 : (1 : ℝ) / 20 = 1 / 20 := rfl
        simp only [neg_mul, one_mul] at a3 ⊢
        linarith
      have hu : ((1 + (2 : ℝ) ^ (-(53 : ℕ) : ℤ)) ^ (1 + 3) - 1) ≤ 1 / 10 ^ 6 := by norm_num
      have hu0 : 0 ≤ ((1 + (2 : ℝ) ^ (-(53 : ℕ) : ℤ)) ^ (1 + 3) - 1) := by norm_num
      have hm := (mul_le_mul_of_nonneg_left hS hu0).trans (mul_le_mul_of_nonneg_right hu (by norm_num))
      have hu1 : (1 + (2 : ℝ) ^ (-(53 : ℕ) : ℤ)) ^ (1 + 3) ≤ 2 := by norm_num
      have hω : (2 : ℝ) ^ (-1075 : ℤ) ≤ 1 / 10 ^ 6 :=
        (zpow_le_zpow_right₀ (by norm_num) (by norm_num : (-1075 : ℤ) ≤ -20)).trans (by norm_num)
      have hω0 : (0 : ℝ) ≤ (2 : ℝ) ^ (-1075 : ℤ) := by positivity
      have hs : 2 * ((1 : ℕ) : ℝ) + 3 + |(11 / 100 : ℝ)| * (1 + |(LipArg.const (1 : ℝ)).forThreshold x| + ((1 : ℕ) : ℝ) * (|1 + (LipDyn.const (Real.exp 1)).at x| + (2 : ℝ) ^ (-1075 : ℤ))) ≤ 10 := by
        simp only [LipArg.forThreshold, LipDyn.at]
        rw [abs_of_nonneg (by linarith : 0 ≤ 1 + Real.exp 1), abs_of_pos (by norm_num : (0 : ℝ) < 11 / 100), abs_one]
        push_cast
        linarith
      have hs0 : 0 ≤ 2 * ((1 : ℕ) : ℝ) + 3 + |(11 / 100 : ℝ)| * (1 + |(LipArg.const (1 : ℝ)).forThreshold x| + ((1 : ℕ) : ℝ) * (|1 + (LipDyn.const (Real.exp 1)).at x| + (2 : ℝ) ^ (-1075 : ℤ))) := by
        positivity
      have hm2 := mul_le_mul hu1 (mul_le_mul hω hs hs0 (by norm_num)) (mul_nonneg hω0 hs0) (by norm_num)
      unfold finiteMargin roundingMargin
      linarith)
    initial () [.update 3 ⟨true, 1, 1⟩ (), .updateValues ()] (by simp [Lyap.Op.IsMethod]) 3 ⟨true, 1, .fin 1⟩ rfl

end SafeLearning
