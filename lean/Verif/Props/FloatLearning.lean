import Verif.Props.FloatGaussianProcessBounds
import Verif.Props.FloatDecrease
import Verif.Props.LearningLoop
set_option autoImplicit false

/-!
# C151: safe learning with everything in floating point arithmetic

The Gaussian processes (safe_learning/functions.py:395-458, 507-546) and `update_safe_set` and `get_safe_sample` (safe_learning/lyapunov.py:265-376, 423-606) both round every
operation. The states of the grid and the actions are numbers without further errors.
-/

namespace SafeLearning

open Matrix Spec MeasureTheory ProbabilityTheory Flt FltLyap

/-! ## Specification -/

/-- What rounding can do to the prediction at `x` from the measurements `y` at the inputs `X`: an interval that is computed must be enlarged by this number so that it contains all that the exact interval
contains. The first line is the error of the mean, the second one that of the standard deviation times `beta`. -/
noncomputable def _root_.Spec.intervalError (u : ℝ) (gp : GPModel 1) (beta : ℝ) (X : List (List ℝ)) (y : Fin X.length → ℝ) (x : List ℝ) : ℝ :=
  let c := roundingEffect u X.length
  let P := predictionError c gp.noise (X.map fun z => gp.kern z z + gp.noise).sum
  let k := euclid fun n => gp.kern (X.get n) x
  (k * euclid (fun n => y n - gp.mean (X.get n) 0) * P + c * |gp.mean x 0|) +
    |beta| * ((1 + c) * Real.sqrt (k ^ 2 * P + c * gp.kern x x) + c * Real.sqrt (posteriorCov gp.kern gp.noise X.get x x))

/-- The noise is large compared to the effect of rounding. -/
def _root_.Spec.WellConditioned (u : ℝ) (gp : GPModel 1) (X : List (List ℝ)) : Prop :=
  roundingEffect u X.length < 1 ∧
    2 * factorError (roundingEffect u X.length) (X.map fun z => gp.kern z z + gp.noise).sum < gp.noise

/-- The process was constructed with some of the data, and the rest was added in one or more calls of `add_data_point`, all of it in floating point arithmetic. -/
def _root_.Spec.RoundedTrained (fl : ℝ → ℝ) (gp : GPModel 1) (s : GPState 1) (X Y : List (List ℝ)) : Prop :=
  ∃ X₀ Y₀ s₀ calls, Y₀.length = X₀.length ∧
    (∀ c ∈ calls, c.2.rows.length = c.1.rows.length ∧ (∀ r ∈ c.1.rows, r.length = gp.xdim) ∧ ∀ r ∈ c.2.rows, r.length = 1) ∧
    gp.flInit fl X₀ Y₀ = .ok s₀ ∧ flAddHistory fl gp s₀ calls = .ok s ∧
    X = X₀ ++ calls.flatMap (fun c => c.1.rows) ∧ Y = Y₀ ++ calls.flatMap fun c => c.2.rows

/-- A number or NaN. -/
def _root_.Spec.fltOfOption : Option ℝ → Flt ℝ
  | none => .nan
  | some x => .fin x

/-- The prediction `mean`, `error` (NaN included) is what the processes in the states `st` return at `x`. -/
def _root_.Spec.RoundedPrediction {d : ℕ} (fl : ℝ → ℝ) (gps : Fin d → GPModel 1) (beta : Fin d → ℝ) (st : Fin d → GPState 1) (x : List ℝ)
    (mean : Fin d → ℝ) (error : Fin d → Option ℝ) : Prop :=
  ∀ i, ∃ M E, (gps i).flEvaluate fl (beta i) (st i) [x] = .ok (M, E) ∧ M 0 0 = mean i ∧ E 0 0 = error i

/-! ## Intervals -/

/-- **C151 (intervals).** Let a process be trained in floating point arithmetic, in any number of calls. What the exact interval at a point contains, the computed interval contains after it is enlarged by
`intervalError`, if it is not NaN. -/
theorem C151_interval {fl : ℝ → ℝ} {u : ℝ} (h : RoundsWithin fl u) (gp : GPModel 1) (hk : IsKernel gp.kern) (hn : 0 < gp.noise) (hs : gp.scale ≠ 0) (beta : ℝ)
    (X Y : List (List ℝ)) (s : GPState 1) (ht : RoundedTrained fl gp s X Y) (hw : WellConditioned u gp X) (x : List ℝ)
    (M : Matrix (Fin [x].length) (Fin 1) ℝ) (E : Matrix (Fin [x].length) (Fin 1) (Option ℝ))
    (he : gp.flEvaluate fl beta s [x] = .ok (M, E)) (e : ℝ) (hE : E 0 0 = some e) (v : ℝ)
    (hv : |v - posteriorMean gp.kern (fun z => gp.mean z 0) gp.noise X.get (fun n => entryOf Y n 0) x| ≤
      beta * Real.sqrt (posteriorCov gp.kern gp.noise X.get x x)) :
    |v - M 0 0| ≤ e + intervalError u gp beta X (fun n => entryOf Y n 0) x := by
  obtain ⟨X₀, Y₀, s₀, calls, hl, hc, h1, h2, hX, hY⟩ := ht
  obtain ⟨s', t', mean, error, h3, h4, h5, h6⟩ := C150_bounds fl u h gp hk hn hs beta X₀ Y₀ [x] hl calls hc X Y hX hY _ _ rfl rfl hw.1 hw.2
  obtain rfl : s₀ = s' := Except.ok.inj (h1.symm.trans h3)
  obtain rfl : s = t' := Except.ok.inj (h2.symm.trans h4)
  obtain ⟨rfl, rfl⟩ := Prod.mk.inj (Except.ok.inj (he.symm.trans h5))
  obtain ⟨h7, h8⟩ := h6 0 0
  have h9 := (h8 _ rfl).1 e hE
  have hx : [x].get (0 : Fin [x].length) = x := rfl
  rw [hx] at h7 h9
  have key : ∀ v m pm e b D1 D2 : ℝ, |v - pm| ≤ b → |m - pm| ≤ D1 → |e - b| ≤ D2 → |v - m| ≤ e + (D1 + D2) := by
    intro v m pm e b D1 D2 h1 h2 h3
    rw [abs_le] at *
    constructor <;> linarith [h1.1, h1.2, h2.1, h2.2, h3.1, h3.2]
  exact key v _ _ e _ _ _ hv h7 h9

/-! ## One comparison -/

section Check

variable {d : ℕ}

theorem foldl_nan (A : Arith ℝ) (l : List (Flt ℝ)) : l.foldl (add A) nan = nan := by
  induction l with
  | nil => rfl
  | cons a l ih => rw [List.foldl_cons]; exact ih

theorem foldl_of_nan (A : Arith ℝ) (l : List (Flt ℝ)) (h : nan ∈ l) : ∀ a, l.foldl (add A) a = nan := by
  induction l with
  | nil => simp at h
  | cons b l ih =>
    intro a
    rw [List.foldl_cons]
    rcases List.mem_cons.mp h with rfl | h
    · have : add A a nan = nan := by cases a <;> rfl
      rw [this]
      exact foldl_nan A l
    · exact ih h _

theorem mul_nan (A : Arith ℝ) (a : Flt ℝ) : Flt.mul A a nan = nan := by cases a <;> rfl

theorem add_nan (A : Arith ℝ) (a : Flt ℝ) : add A a nan = nan := by cases a <;> rfl

/-- A state with a NaN in its error bounds never passes the test. -/
theorem decrease_no_nan (A : Arith ℝ) (V : (Fin d → Flt ℝ) → Flt ℝ) (lv : LipArg (Flt ℝ) d) (x mean error : Fin d → Flt ℝ) (T : Flt ℝ)
    (h : lt (FltLyap.decrease A V lv x (.uncertain mean error)) T = true) (i : Fin d) : error i ≠ nan := by
  intro hi
  have : FltLyap.decrease A V lv x (.uncertain mean error) = nan := by
    unfold FltLyap.decrease
    dsimp only
    have hs : Flt.sum A (List.ofFn fun i => Flt.mul A (lipEntry lv mean i) (error i)) = nan := by
      unfold Flt.sum
      refine foldl_of_nan A _ ?_ _
      rw [List.mem_ofFn]
      exact ⟨i, by simp only [hi]; exact mul_nan A _⟩
    rw [hs, add_nan]
  rw [this] at h
  cases T <;> simp [lt] at h

variable {Prog Θ : Type} (g : GridWorld ℝ d)

/-- The inputs of the test for the parameters `θ`: the Lyapunov function is computed as `Vc`, with errors of at most `η`, the true one is `V`, and its Lipschitz constant is `Lv`. -/
structure _root_.Spec.LyapunovInputs (W : FWorld ℝ Prog Θ d g.nindex) (θ : Θ) (V Vc : (Fin d → ℝ) → ℝ) (Lv Lf η : ℝ) : Prop where
  state : ∀ k, W.state k = fun i => fin (gridState g k i)
  computed : ∀ y : Fin d → ℝ, W.V θ (fun i => fin (y i)) = fin (Vc y)
  error : ∀ y, |Vc y - V y| ≤ η
  lv : W.lv θ = .const (fin Lv)
  lf : W.lf θ = .const (fin Lf)
  lv_nonneg : 0 ≤ Lv
  lf_nonneg : 0 ≤ Lf
  lipschitz : ∀ y z, |V y - V z| ≤ Lv * ∑ i, |y i - z i|

/-- What a test in floating point arithmetic with the discretisation constant `tau` establishes about the true closed loop `f` with the policy `policy` at the grid state number `k`: the prediction is free of NaN,
and `V` decreases by at least some `δ > 0` from every state within `r` of the grid state, where `r` is less than `tau` by as much as the effects of rounding in the test, in the Lyapunov function and in the prediction
require. -/
def _root_.Spec.CellDecrease (W : FWorld ℝ Prog Θ d g.nindex) (u : ℝ) (gps : Fin d → GPModel 1) (beta : Fin d → ℝ) (X : List (List ℝ)) (Y : List (Fin d → ℝ))
    (policy : (Fin d → ℝ) → List ℝ) (f : (Fin d → ℝ) → Fin d → ℝ) (V Vc : (Fin d → ℝ) → ℝ) (Lv Lf η : ℝ) (p : Prog) (θ : Θ) (k : Fin g.nindex) (tau : Flt ℝ) : Prop :=
  ∃ mean error : Fin d → ℝ, W.closedLoop p θ (W.state k) = .uncertain (fun i => fin (mean i)) (fun i => fin (error i)) ∧
    ∀ t r, tau = fin t →
      roundingMargin u Vc (.const Lv) (.const Lf) (gridState g k) (.uncertain mean error) t + 2 * η +
        Lv * ∑ i, intervalError u (gps i) (beta i) X (fun n => entryOf (Y.map fun y => [y i]) n 0) (List.ofFn (gridState g k) ++ policy (gridState g k)) ≤
        Lv * (1 + Lf) * (t - r) →
      ∃ δ, 0 < δ ∧ ∀ z : Fin d → ℝ, ∑ i, |z i - gridState g k i| ≤ r → V (f z) ≤ V z - δ

/-- The value of the true function is in the exact interval. -/
def _root_.Spec.InExactInterval (gp : GPModel 1) (beta : ℝ) (X Y : List (List ℝ)) (x : List ℝ) (v : ℝ) : Prop :=
  |v - posteriorMean gp.kern (fun z => gp.mean z 0) gp.noise X.get (fun n => entryOf Y n 0) x| ≤
    beta * Real.sqrt (posteriorCov gp.kern gp.noise X.get x x)

/-- A comparison that succeeds by some amount makes the Lyapunov function decrease by this amount in the whole cell. -/
theorem decrease_by {d : ℕ} (V Vc : (Fin d → ℝ) → ℝ) (Lv Lf tau r margin η : ℝ) (f : (Fin d → ℝ) → Fin d → ℝ) (hLv : 0 ≤ Lv) (hLf : 0 ≤ Lf)
    (hV : ∀ y z, |V y - V z| ≤ Lv * ∑ i, |y i - z i|) (hf : ∀ y z, ∑ i, |f y i - f z i| ≤ Lf * ∑ i, |y i - z i|) (x : Fin d → ℝ) (mean e : Fin d → ℝ)
    (hp : ∀ i, |f x i - mean i| ≤ e i) (hη : ∀ y, |Vc y - V y| ≤ η) (hr : margin + 2 * η ≤ Lv * (1 + Lf) * (tau - r)) (z : Fin d → ℝ) (hz : ∑ i, |z i - x i| ≤ r) :
    V (f z) ≤ V z - (thresholdAt (.const Lv) (.const Lf) x tau + margin - vDecreaseBound Vc (.const Lv) x (.uncertain mean e)) := by
  have h1 := C26_v_decrease_bound_constant V Lv hLv hV x (f x) (.uncertain mean e) hp
  have h0 : vDecreaseBound V (.const Lv) x (.uncertain mean e) ≤ vDecreaseBound Vc (.const Lv) x (.uncertain mean e) + 2 * η := by
    have e3 := (abs_le.mp (hη x)).2
    have e4 := (abs_le.mp (hη mean)).1
    simp only [vDecreaseBound, vDecreaseConfidence]
    linarith
  have h2 := (abs_le.mp (hV (f z) (f x))).2
  have h3 := (abs_le.mp (hV z x)).1
  have h5 : Lv * ∑ i, |f z i - f x i| ≤ Lv * (Lf * r) := mul_le_mul_of_nonneg_left ((hf z x).trans (mul_le_mul_of_nonneg_left hz hLf)) hLv
  have h6 : Lv * ∑ i, |z i - x i| ≤ Lv * r := mul_le_mul_of_nonneg_left hz hLv
  have h7 : thresholdAt (.const Lv) (.const Lf) x tau = -(Lv * (1 + Lf) * tau) := by
    unfold thresholdAt LipArg.forThreshold LipDyn.at; simp only []; ring
  have h8 : Lv * (1 + Lf) * (tau - r) = Lv * (1 + Lf) * tau - Lv * (Lf * r) - Lv * r := by ring
  rw [h7]
  linarith

/-- **C151 (one comparison).** Predictions, Lyapunov function and comparison are computed in floating point arithmetic. If a grid state passes the test, and the next state of the true closed loop is in the exact
intervals there, then the prediction is free of NaN and the true closed loop decreases the Lyapunov function in the cell, as in `CellDecrease`. -/
theorem C151_check {fl : ℝ → ℝ} {u : ℝ} {A : Arith ℝ} (hA : RoundedArith A fl u) (gps : Fin d → GPModel 1) (hk : ∀ i, IsKernel (gps i).kern) (hn : ∀ i, 0 < (gps i).noise)
    (hs : ∀ i, (gps i).scale ≠ 0) (beta : Fin d → ℝ) (X : List (List ℝ)) (Y : List (Fin d → ℝ)) (st : Fin d → GPState 1)
    (ht : ∀ i, RoundedTrained fl (gps i) (st i) X (Y.map fun y => [y i])) (hw : ∀ i, WellConditioned u (gps i) X)
    (W : FWorld ℝ Prog Θ d g.nindex) (p : Prog) (θ : Θ) (V Vc : (Fin d → ℝ) → ℝ) (Lv Lf η : ℝ) (hin : LyapunovInputs g W θ V Vc Lv Lf η)
    (policy : (Fin d → ℝ) → List ℝ) (k : Fin g.nindex) (mean : Fin d → ℝ) (error : Fin d → Option ℝ)
    (hloop : W.closedLoop p θ (W.state k) = .uncertain (fun i => fin (mean i)) fun i => fltOfOption (error i))
    (hpred : RoundedPrediction fl gps beta st (List.ofFn (gridState g k) ++ policy (gridState g k)) mean error)
    (f : (Fin d → ℝ) → Fin d → ℝ) (hf : ∀ y z, ∑ i, |f y i - f z i| ≤ Lf * ∑ i, |y i - z i|)
    (hexact : ∀ i, InExactInterval (gps i) (beta i) X (Y.map fun y => [y i]) (List.ofFn (gridState g k) ++ policy (gridState g k)) (f (gridState g k) i))
    (tau : Flt ℝ) (hlt : lt (decreaseAt A W p θ k) (thresholdOf A W θ k tau) = true) :
    CellDecrease g W u gps beta X Y policy f V Vc Lv Lf η p θ k tau := by
  have hnan : ∀ i, ∃ e, error i = some e := by
    intro i
    have h1 := hlt
    unfold decreaseAt at h1
    rw [hloop] at h1
    have h2 := decrease_no_nan A _ _ _ _ _ _ h1 i
    cases hi : error i with
    | none => rw [hi] at h2; exact absurd rfl h2
    | some e => exact ⟨e, rfl⟩
  choose e he using hnan
  have hloop' : W.closedLoop p θ (W.state k) = .uncertain (fun i => fin (mean i)) fun i => fin (e i) := by
    rw [hloop]
    congr 1
    funext i
    rw [he i]
    rfl
  refine ⟨mean, e, hloop', ?_⟩
  intro t r htau hr
  subst htau
  obtain ⟨x, hx⟩ : ∃ x, x = gridState g k := ⟨_, rfl⟩
  -- the comparison
  have hcheck : vDecreaseBound Vc (.const Lv) (gridState g k) (.uncertain mean e) <
      thresholdAt (.const Lv) (.const Lf) (gridState g k) t +
      roundingMargin u Vc (.const Lv) (.const Lf) (gridState g k) (.uncertain mean e) t := by
    refine C119_check_partial (Prog := Unit) (Θ := Unit) ⟨fun _ => Vc, fun _ => .const Lv, fun _ => .const Lf, fun _ _ _ => .uncertain mean e⟩ g (fun _ => [])
      (fun t _ => t) hA () () k t ?_
    convert hlt using 2
    · unfold decreaseAt FltLyap.decrease
      rw [hloop', hin.lv, hin.state k]
      simp only [finiteWorld, hin.computed, number]
    · unfold thresholdOf
      rw [hin.lv, hin.lf, hin.state k]
      rfl
  -- the intervals
  obtain ⟨D, hD⟩ : ∃ D : Fin d → ℝ, D = fun i => intervalError u (gps i) (beta i) X (fun n => entryOf (Y.map fun y => [y i]) n 0)
    (List.ofFn (gridState g k) ++ policy (gridState g k)) := ⟨_, rfl⟩
  have hint : ∀ i, |f (gridState g k) i - mean i| ≤ e i + D i := by
    intro i
    obtain ⟨M, E, h1, h2, h3⟩ := hpred i
    rw [← h2, hD]
    exact C151_interval hA.within (gps i) (hk i) (hn i) (hs i) (beta i) X _ (st i) (ht i) (hw i) _ M E h1 (e i) (h3.trans (he i)) _ (hexact i)
  have hsum : (∑ i, intervalError u (gps i) (beta i) X (fun n => entryOf (Y.map fun y => [y i]) n 0) (List.ofFn (gridState g k) ++ policy (gridState g k))) = ∑ i, D i := by rw [hD]
  rw [hsum] at hr
  have hdec : vDecreaseBound Vc (.const Lv) (gridState g k) (.uncertain mean fun i => e i + D i) <
      thresholdAt (.const Lv) (.const Lf) (gridState g k) t +
      (roundingMargin u Vc (.const Lv) (.const Lf) (gridState g k) (.uncertain mean e) t + Lv * ∑ i, D i) := by
    have hsplit : vDecreaseBound Vc (.const Lv) (gridState g k) (.uncertain mean fun i => e i + D i) =
        vDecreaseBound Vc (.const Lv) (gridState g k) (.uncertain mean e) + Lv * ∑ i, D i := by
      simp only [vDecreaseBound, vDecreaseConfidence, LipArg.entry, mul_add, Finset.sum_add_distrib, Finset.mul_sum]
      ring
    rw [hsplit]
    linarith
  exact ⟨_, sub_pos.mpr hdec, fun z hz => decrease_by V Vc Lv Lf t r _ η f hin.lv_nonneg hin.lf_nonneg hin.lipschitz hf (gridState g k) mean (fun i => e i + D i) hint hin.error
    (by linarith) z hz⟩

end Check

/-! ## Histories -/

section History

variable {Prog Θ : Type} {d n : ℕ}

/-- Some call of `update_safe_set` in the history has established `Q` about the grid state `k`, for parameters, dynamics and a discretisation constant that were set at some time. -/
def _root_.Spec.EstablishedInWorld (W : FWorld ℝ Prog Θ d n) (Q : Prog → Θ → Fin n → Flt ℝ → Prop) (prog : Prog) (tau : Flt ℝ) (ops : List (Lyap.Op (Flt ℝ) Prog Θ)) (k : Fin n) : Prop :=
  ∃ p t t' batch args θ, Lyap.Op.update batch args θ ∈ ops ∧
    (p = prog ∨ Lyap.Op.setProg p ∈ ops) ∧ (t = tau ∨ Lyap.Op.setTau t ∈ ops) ∧
    (t' = t ∨ ∃ N, 1 ≤ N ∧ N ≤ args.maxRefinement ∧ t' = W.tauDiv t N) ∧ Q p θ k t'

/-- Histories in any floating point world: what follows from a comparison that succeeds holds for all safe states that are not initial. -/
theorem world_established {A : Arith ℝ} (W : FWorld ℝ Prog Θ d n) (Q : Prog → Θ → Fin n → Flt ℝ → Prop)
    (hQ : ∀ p θ k t, lt (decreaseAt A W p θ k) (thresholdOf A W θ k t) = true → Q p θ k t)
    (prog : Prog) (tau : Flt ℝ) (initial : Option (Fin n → Bool)) (adaptive : Bool) (θ₀ : Θ)
    (ops : List (Lyap.Op (Flt ℝ) Prog Θ)) (k : Fin n)
    (hk : (run A W (new W prog tau initial adaptive θ₀) ops).safeSet k = true) :
    InInitial initial k ∨ EstablishedInWorld W Q prog tau ops k := by
  suffices H : ∀ (done rest : List (Lyap.Op (Flt ℝ) Prog Θ)) (s : Lyap (Flt ℝ) Prog n),
      ops = done ++ rest → s.initial = initial → (s.tau = tau ∨ Lyap.Op.setTau s.tau ∈ ops) →
      (s.prog = prog ∨ Lyap.Op.setProg s.prog ∈ ops) →
      (∀ G, s.graph = some G → (G.tau = tau ∨ Lyap.Op.setTau G.tau ∈ ops) ∧
        (G.prog = prog ∨ Lyap.Op.setProg G.prog ∈ ops)) →
      (∀ j, s.safeSet j = true → InInitial initial j ∨ EstablishedInWorld W Q prog tau ops j) →
      ∀ j, (run A W s rest).safeSet j = true → InInitial initial j ∨ EstablishedInWorld W Q prog tau ops j by
    refine H [] ops _ rfl rfl (Or.inl rfl) (Or.inl rfl) (by simp [new]) ?_ k hk
    intro j hj
    left
    simp only [new] at hj
    cases initial with
    | none => cases hj
    | some I => exact ⟨I, rfl, hj⟩
  intro done rest
  induction rest generalizing done with
  | nil => intro s _ _ _ _ _ h j hj; exact h j hj
  | cons op rest ih =>
    intro s heq hinit hst hsp hsg hsafe j hj
    have hmem : op ∈ ops := by rw [heq]; simp
    have heq' : ops = (done ++ [op]) ++ rest := by rw [heq]; simp
    cases op with
    | updateValues θ => exact ih _ (step A W s (.updateValues θ)) heq' hinit hst hsp hsg hsafe j hj
    | setProg p => exact ih _ (step A W s (.setProg p)) heq' hinit hst (Or.inr hmem) hsg hsafe j hj
    | setTau t => exact ih _ (step A W s (.setTau t)) heq' hinit (Or.inr hmem) hsp hsg hsafe j hj
    | setAdaptive b => exact ih _ (step A W s (.setAdaptive b)) heq' hinit hst hsp hsg hsafe j hj
    | update batch args θ =>
      have hG : ((graphFor s args.safetyFactor).tau = tau ∨ Lyap.Op.setTau (graphFor s args.safetyFactor).tau ∈ ops) ∧
          ((graphFor s args.safetyFactor).prog = prog ∨
            Lyap.Op.setProg (graphFor s args.safetyFactor).prog ∈ ops) := by
        unfold graphFor
        cases hg : s.graph with
        | none => exact ⟨hst, hsp⟩
        | some G => exact hsg G hg
      obtain ⟨h1, h2, h3, h4, h5, h6, h7⟩ := updateSafeSet_shape A W batch args s θ _ rfl
      refine ih _ (updateSafeSet A W batch args s θ).1 heq' (h2.trans hinit) (by rw [h4]; exact hst)
        (by rw [h3]; exact hsp) ?_ ?_ j hj
      · intro G' hG'
        rw [h1] at hG'
        cases hG'
        exact hG
      · have hIm : ∀ j, initialMem s j = true → InInitial initial j := by
          intro j hj
          unfold initialMem at hj
          rw [hinit] at hj
          cases initial with
          | none => cases hj
          | some I => exact ⟨I, rfl, hj⟩
        intro j hj
        rcases h7 with ⟨h7, -⟩ | ⟨p, -, h7⟩
        · rw [h7] at hj; exact hsafe j hj
        · rcases h7 j hj with h | h | h | ⟨fed, N, ha, hN, hM, -, hb⟩
          · exact Or.inl (hIm j h)
          · unfold startFlag at h
            split_ifs at h
            · exact Or.inl (hIm j h)
            · exact hsafe j h
          · exact Or.inr ⟨_, _, _, batch, args, θ, hmem, hG.2, hG.1, Or.inl rfl, hQ _ θ j _ h⟩
          · unfold refinedNegative at hb
            rw [List.all_eq_true] at hb
            exact Or.inr ⟨_, _, _, batch, args, θ, hmem, hG.2, hG.1, Or.inr ⟨N, hN, hM, rfl⟩, hQ _ θ j _ (hb j ha)⟩

variable (g : GridWorld ℝ d)

/-- A `Lyapunov` object whose dynamics are Gaussian processes, all in floating point arithmetic. With the dynamics `p` and the parameters `θ`, the predictions are those of the round `round p θ` of
learning, in which the processes have the states `st` after the measurements `Y` at the inputs `X`, and the actions are those of `policy`. -/
structure _root_.Spec.RoundedLearner (W : FWorld ℝ Prog Θ d g.nindex) (fl : ℝ → ℝ) (gps : Fin d → GPModel 1) (beta : Fin d → ℝ) {T : Type}
    (X : T → List (List ℝ)) (Y : T → List (Fin d → ℝ)) (policy : T → (Fin d → ℝ) → List ℝ) (round : Prog → Θ → T) (V Vc : Θ → (Fin d → ℝ) → ℝ) (Lv Lf : Θ → ℝ) (η : ℝ) : Prop where
  inputs : ∀ θ, LyapunovInputs g W θ (V θ) (Vc θ) (Lv θ) (Lf θ) η
  loop : ∀ p θ, ∃ st : Fin d → GPState 1, (∀ i, RoundedTrained fl (gps i) (st i) (X (round p θ)) ((Y (round p θ)).map fun y => [y i])) ∧
    ∀ k, ∃ mean error, W.closedLoop p θ (W.state k) = .uncertain (fun i => fin (mean i)) (fun i => fltOfOption (error i)) ∧
      RoundedPrediction fl gps beta st (List.ofFn (gridState g k) ++ policy (round p θ) (gridState g k)) mean error

/-- **C151 (histories).** All computations are rounded. If the true next states are in the exact intervals at all grid states in all rounds, then, whatever is called on the object, a state that is safe at the end is initial, or some
call of `update_safe_set` has established that the true closed loop, with the policy of that time, decreases the Lyapunov function in its cell. -/
theorem C151_history {fl : ℝ → ℝ} {u : ℝ} {A : Arith ℝ} (hA : RoundedArith A fl u) (gps : Fin d → GPModel 1) (hk : ∀ i, IsKernel (gps i).kern) (hn : ∀ i, 0 < (gps i).noise)
    (hs : ∀ i, (gps i).scale ≠ 0) (beta : Fin d → ℝ) {T : Type} (X : T → List (List ℝ)) (Y : T → List (Fin d → ℝ)) (hw : ∀ t i, WellConditioned u (gps i) (X t))
    (policy : T → (Fin d → ℝ) → List ℝ) (W : FWorld ℝ Prog Θ d g.nindex) (round : Prog → Θ → T) (V Vc : Θ → (Fin d → ℝ) → ℝ) (Lv Lf : Θ → ℝ) (η : ℝ)
    (L : RoundedLearner g W fl gps beta X Y policy round V Vc Lv Lf η)
    (f : T → (Fin d → ℝ) → Fin d → ℝ) (hf : ∀ p θ y z, ∑ i, |f (round p θ) y i - f (round p θ) z i| ≤ Lf θ * ∑ i, |y i - z i|)
    (hexact : ∀ t (k : Fin g.nindex) i, InExactInterval (gps i) (beta i) (X t) ((Y t).map fun y => [y i]) (List.ofFn (gridState g k) ++ policy t (gridState g k)) (f t (gridState g k) i))
    (prog : Prog) (tau : Flt ℝ) (initial : Option (Fin g.nindex → Bool)) (adaptive : Bool) (θ₀ : Θ) (ops : List (Lyap.Op (Flt ℝ) Prog Θ)) (k : Fin g.nindex)
    (hsafe : (run A W (new W prog tau initial adaptive θ₀) ops).safeSet k = true) :
    InInitial initial k ∨ EstablishedInWorld W (fun p θ => CellDecrease g W u gps beta (X (round p θ)) (Y (round p θ)) (policy (round p θ)) (f (round p θ))
      (V θ) (Vc θ) (Lv θ) (Lf θ) η p θ) prog tau ops k := by
  refine world_established W _ (fun p θ k t hlt => ?_) prog tau initial adaptive θ₀ ops k hsafe
  obtain ⟨st, h1, h2⟩ := L.loop p θ
  obtain ⟨mean, error, h3, h4⟩ := h2 k
  exact C151_check g hA gps hk hn hs beta _ _ st h1 (hw _) W p θ _ _ _ _ η (L.inputs θ) _ k mean error h3 h4 _ (hf p θ) (hexact _ k) t hlt

end History

/-! ## Learning -/

section Learning

variable {Ω : Type} [MeasurableSpace Ω] {d : ℕ} {μ : Measure Ω} {F : Ω → List ℝ → Fin d → ℝ} {ε : Ω → ℕ → Fin d → ℝ} {Prog Θ : Type}

/-- In all rounds and at all grid states, the next states are in the exact intervals, with high probability. -/
theorem intervals_miss [IsProbabilityMeasure μ] (gps : Fin d → GPModel 1) (h : Spec.DrawnFrom μ gps F ε)
    (hk : ∀ i, IsKernel (gps i).kern) (hn : ∀ i, 0 < (gps i).noise) (beta : Fin d → ℝ) (hb : ∀ i, 0 < beta i)
    (choose : List (Fin d → ℝ) → List ℝ) (hc : Spec.MeasurableChoice choose) (T : ℕ) (N : Fin T → ℕ)
    (X : Ω → Fin T → List (List ℝ)) (hX : X = fun ω t => Spec.adaptive choose (F ω) (ε ω) (N t))
    (Y : Ω → Fin T → List (Fin d → ℝ)) (hY : Y = fun ω t => Spec.measurements (F ω) (ε ω) (X ω t))
    (g : GridWorld ℝ d) (policy : Fin T → List (Fin d → ℝ) → (Fin d → ℝ) → List ℝ)
    (hp : ∀ t (k : Fin g.nindex), Spec.MeasurableChoice fun Y => List.ofFn (gridState g k) ++ policy t Y (gridState g k))
    (f : Ω → Fin T → (Fin d → ℝ) → Fin d → ℝ) (hfdef : f = fun ω t x => F ω (List.ofFn x ++ policy t (Y ω t) x)) :
    μ.real {ω | ∃ (t : Fin T) (k : Fin g.nindex) (i : Fin d), ¬InExactInterval (gps i) (beta i) (X ω t) ((Y ω t).map fun y => [y i])
      (List.ofFn (gridState g k) ++ policy t (Y ω t) (gridState g k)) (f ω t (gridState g k) i)} ≤ T * (g.nindex * ∑ i, 2 * Real.exp (-beta i ^ 2 / 2)) := by
  -- the intervals of one round
  have hround : ∀ t, μ.real {ω | ∃ (k : Fin g.nindex) (i : Fin d), ¬InExactInterval (gps i) (beta i) (X ω t) ((Y ω t).map fun y => [y i])
      (List.ofFn (gridState g k) ++ policy t (Y ω t) (gridState g k)) (f ω t (gridState g k) i)} ≤ g.nindex * ∑ i, 2 * Real.exp (-beta i ^ 2 / 2) := by
    intro t
    have h1 : {ω | ∃ (k : Fin g.nindex) (i : Fin d), ¬InExactInterval (gps i) (beta i) (X ω t) ((Y ω t).map fun y => [y i])
        (List.ofFn (gridState g k) ++ policy t (Y ω t) (gridState g k)) (f ω t (gridState g k) i)} =
        {ω | ∃ (k : Fin g.nindex) (i : Fin d), beta i * Real.sqrt (posteriorCov (gps i).kern (gps i).noise (Spec.adaptive choose (F ω) (ε ω) (N t)).get
            (List.ofFn (gridState g k) ++ policy t (measurements (F ω) (ε ω) (Spec.adaptive choose (F ω) (ε ω) (N t))) (gridState g k))
            (List.ofFn (gridState g k) ++ policy t (measurements (F ω) (ε ω) (Spec.adaptive choose (F ω) (ε ω) (N t))) (gridState g k))) <
          |residual (fun i => (gps i).kern) (fun i x => (gps i).mean x 0) (fun i => (gps i).noise) F ε (Spec.adaptive choose (F ω) (ε ω) (N t)) i
            (List.ofFn (gridState g k) ++ policy t (measurements (F ω) (ε ω) (Spec.adaptive choose (F ω) (ε ω) (N t))) (gridState g k)) ω|} := by
      subst hfdef hY hX
      ext ω
      simp only [Set.mem_ofPred_eq, InExactInterval, not_le, residual]
      refine exists_congr fun k => exists_congr fun i => ?_
      have : (fun n : Fin (Spec.adaptive choose (F ω) (ε ω) (N t)).length => entryOf ((measurements (F ω) (ε ω) (Spec.adaptive choose (F ω) (ε ω) (N t))).map fun y => [y i]) n 0) =
          fun n => F ω ((Spec.adaptive choose (F ω) (ε ω) (N t)).get n) i + ε ω n i := funext fun n => entryOf_measurements _ _ _ _ _
      rw [this]
    rw [h1]
    exact union_bound _ _ fun k i => adaptive_miss h hc (hp t k) (N t) i (hb i) fun ω => noisyGram_pd (hk i) (hn i) _
  refine (measureReal_mono (s₂ := ⋃ t ∈ (Finset.univ : Finset (Fin T)), {ω | ∃ (k : Fin g.nindex) (i : Fin d), ¬InExactInterval (gps i) (beta i) (X ω t) ((Y ω t).map fun y => [y i])
      (List.ofFn (gridState g k) ++ policy t (Y ω t) (gridState g k)) (f ω t (gridState g k) i)}) (by rintro ω ⟨t, ht⟩; exact Set.mem_iUnion₂.mpr ⟨t, Finset.mem_univ _, ht⟩) (measure_ne_top _ _)).trans
    ((measureReal_biUnion_finset_le _ _).trans ((Finset.sum_le_sum fun t _ => hround t).trans ?_))
  simp

/-- **C151 (safe learning).** The true dynamics and the measurement errors are drawn from the priors. The inputs of the measurements, the policies, the Lyapunov functions and the whole history of calls may be chosen from earlier measurements.
Gaussian processes, Lyapunov functions and comparisons are rounded. Then, with a probability of at least `1 - T * n * ∑ i, 2 exp (- beta i ^ 2 / 2)` for `T` rounds and a grid of `n` states, every state that is safe at the
end of the history is initial or has been certified by a call at whose time the true closed loop decreased the Lyapunov function in the cell of the state, unless it is not Lipschitz with the constant that is used. -/
theorem C151_learning [IsProbabilityMeasure μ] {fl : ℝ → ℝ} {u : ℝ} {A : Arith ℝ} (hA : RoundedArith A fl u) (gps : Fin d → GPModel 1) (h : Spec.DrawnFrom μ gps F ε)
    (hk : ∀ i, IsKernel (gps i).kern) (hn : ∀ i, 0 < (gps i).noise) (hs : ∀ i, (gps i).scale ≠ 0) (beta : Fin d → ℝ) (hb : ∀ i, 0 < beta i)
    (choose : List (Fin d → ℝ) → List ℝ) (hc : Spec.MeasurableChoice choose) (T : ℕ) (N : Fin T → ℕ)
    (X : Ω → Fin T → List (List ℝ)) (hX : X = fun ω t => Spec.adaptive choose (F ω) (ε ω) (N t))
    (Y : Ω → Fin T → List (Fin d → ℝ)) (hY : Y = fun ω t => Spec.measurements (F ω) (ε ω) (X ω t))
    (hw : ∀ ω t i, WellConditioned u (gps i) (X ω t)) (g : GridWorld ℝ d) (policy : Fin T → List (Fin d → ℝ) → (Fin d → ℝ) → List ℝ)
    (hp : ∀ t (k : Fin g.nindex), Spec.MeasurableChoice fun Y => List.ofFn (gridState g k) ++ policy t Y (gridState g k))
    (W : Ω → FWorld ℝ Prog Θ d g.nindex) (round : Ω → Prog → Θ → Fin T) (V Vc : Ω → Θ → (Fin d → ℝ) → ℝ) (Lv Lf : Ω → Θ → ℝ) (η : ℝ)
    (L : ∀ ω, RoundedLearner g (W ω) fl gps beta (X ω) (Y ω) (fun t => policy t (Y ω t)) (round ω) (V ω) (Vc ω) (Lv ω) (Lf ω) η)
    (f : Ω → Fin T → (Fin d → ℝ) → Fin d → ℝ) (hfdef : f = fun ω t x => F ω (List.ofFn x ++ policy t (Y ω t) x))
    (prog : Ω → Prog) (tau : Ω → Flt ℝ) (initial : Ω → Option (Fin g.nindex → Bool)) (adaptive : Ω → Bool) (θ₀ : Ω → Θ) (ops : Ω → List (Lyap.Op (Flt ℝ) Prog Θ)) :
    μ.real {ω | (∀ p θ y z, ∑ i, |f ω (round ω p θ) y i - f ω (round ω p θ) z i| ≤ Lf ω θ * ∑ i, |y i - z i|) ∧
      ∃ k, (run A (W ω) (new (W ω) (prog ω) (tau ω) (initial ω) (adaptive ω) (θ₀ ω)) (ops ω)).safeSet k = true ∧ ¬InInitial (initial ω) k ∧
        ¬EstablishedInWorld (W ω) (fun p θ => CellDecrease g (W ω) u gps beta (X ω (round ω p θ)) (Y ω (round ω p θ)) (policy (round ω p θ) (Y ω (round ω p θ))) (f ω (round ω p θ))
          (V ω θ) (Vc ω θ) (Lv ω θ) (Lf ω θ) η p θ) (prog ω) (tau ω) (ops ω) k} ≤ T * (g.nindex * ∑ i, 2 * Real.exp (-beta i ^ 2 / 2)) := by
  refine (measureReal_mono ?_ (measure_ne_top _ _)).trans (intervals_miss gps h hk hn beta hb choose hc T N X hX Y hY g policy hp f hfdef)
  rintro ω ⟨hf, k, h1, h2, h3⟩
  by_contra hno
  have hall : ∀ t (k : Fin g.nindex) i, InExactInterval (gps i) (beta i) (X ω t) ((Y ω t).map fun y => [y i])
      (List.ofFn (gridState g k) ++ policy t (Y ω t) (gridState g k)) (f ω t (gridState g k) i) := by
    intro t k i
    by_contra hki
    exact hno ⟨t, k, i, hki⟩
  rcases C151_history g hA gps hk hn hs beta (X ω) (Y ω) (hw ω) (fun t => policy t (Y ω t)) (W ω) (round ω) (V ω) (Vc ω) (Lv ω) (Lf ω) η (L ω) (f ω) hf hall
    (prog ω) (tau ω) (initial ω) (adaptive ω) (θ₀ ω) (ops ω) k h1 with h4 | h4
  · exact h2 h4
  · exact h3 h4

end Learning

/-! ## Samples -/

theorem evaluate_nonneg {fl : ℝ → ℝ} {u : ℝ} (h : RoundsWithin fl u) (gp : GPModel 1) {beta : ℝ} (hb : 0 ≤ beta) (s : GPState 1) (x : List ℝ)
    (M : Matrix (Fin [x].length) (Fin 1) ℝ) (E : Matrix (Fin [x].length) (Fin 1) (Option ℝ))
    (he : gp.flEvaluate fl beta s [x] = .ok (M, E)) (e : ℝ) (hE : E 0 0 = some e) : 0 ≤ e := by
  have hfl : ∀ y, 0 ≤ y → 0 ≤ fl y := by
    intro y hy
    have h1 := (abs_le.mp (h.err y)).1
    rw [abs_of_nonneg hy] at h1
    have := h.small
    nlinarith
  unfold GPModel.flEvaluate at he
  cases hp : gp.flBuildPredict fl s.feed [x] with
  | error e => rw [hp] at he; simp [Bind.bind, Except.bind] at he
  | ok p =>
    rw [hp] at he
    simp only [Bind.bind, Except.bind, Pure.pure, Except.pure, Except.ok.injEq] at he
    obtain ⟨-, rfl⟩ := he
    simp only [Option.map_eq_some_iff] at hE
    obtain ⟨r, hr, rfl⟩ := hE
    unfold GPModel.flSqrt at hr
    split_ifs at hr
    obtain rfl := Option.some.inj hr
    exact hfl _ (mul_nonneg hb (hfl _ (Real.sqrt_nonneg _)))

/-- **C151 (samples).** If `get_safe_sample` accepts a candidate, with predictions and comparisons in floating point arithmetic, and the true next state is in the exact intervals, then its value is below `c_max`, up to the
effects of rounding in the comparison, in the Lyapunov function and in the prediction. -/
theorem C151_sample {fl : ℝ → ℝ} {u : ℝ} {A : Arith ℝ} {d m : ℕ} (hA : RoundedArith A fl u) (gps : Fin d → GPModel 1) (hk : ∀ i, IsKernel (gps i).kern) (hn : ∀ i, 0 < (gps i).noise)
    (hs : ∀ i, (gps i).scale ≠ 0) (beta : Fin d → ℝ) (hb : ∀ i, 0 ≤ beta i) (X : List (List ℝ)) (Y : List (Fin d → ℝ)) (st : Fin d → GPState 1)
    (ht : ∀ i, RoundedTrained fl (gps i) (st i) X (Y.map fun y => [y i])) (hw : ∀ i, WellConditioned u (gps i) X)
    (S : FSample ℝ d m) (positive : Bool) (x : Fin d → ℝ) (a : Fin m → ℝ) (mean : Fin d → ℝ) (error : Fin d → Option ℝ)
    (hdyn : S.dynamics (fun i => fin (x i), fun i => fin (a i)) = (fun i => fin (mean i), fun i => fltOfOption (error i)))
    (hpred : RoundedPrediction fl gps beta st (List.ofFn x ++ List.ofFn a) mean error)
    (V Vc : (Fin d → ℝ) → ℝ) (Lv η c : ℝ) (hV : ∀ y : Fin d → ℝ, S.V (fun i => fin (y i)) = fin (Vc y)) (hη : ∀ y, |Vc y - V y| ≤ η)
    (hlv : S.lv = .const (fin Lv)) (hLv : 0 ≤ Lv) (hlip : ∀ y z, |V y - V z| ≤ Lv * ∑ i, |y i - z i|) (hc : S.cMax = fin c)
    (hacc : accepted A S positive (fun i => fin (x i), fun i => fin (a i)) = .ok true)
    (next : Fin d → ℝ) (hexact : ∀ i, InExactInterval (gps i) (beta i) X (Y.map fun y => [y i]) (List.ofFn x ++ List.ofFn a) (next i)) :
    ∃ e : Fin d → ℝ, (∀ i, error i = some (e i)) ∧
      V next < c + ((1 + u) ^ (d + 2) - 1) * (|Vc mean| + ∑ i, Lv * e i) + η +
        Lv * ∑ i, intervalError u (gps i) (beta i) X (fun n => entryOf (Y.map fun y => [y i]) n 0) (List.ofFn x ++ List.ofFn a) := by
  have hmaps : mapsInside A S (fun i => fin (x i), fun i => fin (a i)) = true := by
    have h := hacc
    unfold accepted at h
    cases positive with
    | true => simpa [pure, Except.pure] using h
    | false =>
      cases hs : S.inSafeSet (S.dynamics (fun i => fin (x i), fun i => fin (a i))).1 with
      | error e => rw [hs] at h; simp [bind, Except.bind] at h
      | ok b =>
        rw [hs] at h
        simp only [bind, Except.bind, pure, Except.pure, Bool.false_eq_true, if_false, Except.ok.injEq,
          Bool.and_eq_true] at h
        exact h.1
  have hnan : ∀ i, ∃ e, error i = some e := by
    intro i
    cases hi : error i with
    | some e => exact ⟨e, rfl⟩
    | none =>
      unfold mapsInside at hmaps
      rw [hdyn] at hmaps
      have hsum : Flt.sum A (List.ofFn fun j => Flt.mul A (lipEntry S.lv (fun i => fin (mean i)) j) (fltOfOption (error j))) = nan := by
        unfold Flt.sum
        refine foldl_of_nan A _ ?_ _
        rw [List.mem_ofFn]
        exact ⟨i, by rw [hi]; exact mul_nan A _⟩
      dsimp only at hmaps
      rw [hsum, add_nan] at hmaps
      simp [lt] at hmaps
  choose e he using hnan
  refine ⟨e, he, ?_⟩
  have he0 : ∀ i, 0 ≤ e i := by
    intro i
    obtain ⟨M, E, h1, h2, h3⟩ := hpred i
    exact evaluate_nonneg hA.within (gps i) (hb i) (st i) _ M E h1 _ (h3.trans (he i))
  have hint : ∀ i, |next i - mean i| ≤ e i + intervalError u (gps i) (beta i) X (fun n => entryOf (Y.map fun y => [y i]) n 0) (List.ofFn x ++ List.ofFn a) := by
    intro i
    obtain ⟨M, E, h1, h2, h3⟩ := hpred i
    rw [← h2]
    exact C151_interval hA.within (gps i) (hk i) (hn i) (hs i) (beta i) X _ (st i) (ht i) (hw i) _ M E h1 (e i) (h3.trans (he i)) _ (hexact i)
  have hbox := C119_sample_partial hA S positive (fun i => fin (x i), fun i => fin (a i)) mean e (fun _ => Lv) (Vc mean) c
    (by rw [hdyn]) (by rw [hdyn]; funext i; simp only [he i]; rfl) (fun i => by rw [hlv]; rfl) (hV mean) hc hacc
    (fun y => Vc mean + ∑ i, Lv * |y i - mean i|) (by simp) (fun _ => hLv)
    (fun y => by simp only [sub_self, abs_zero, mul_zero, Finset.sum_const_zero, add_zero, add_sub_cancel_left]
                 rw [abs_of_nonneg (Finset.sum_nonneg fun i _ => mul_nonneg hLv (abs_nonneg _))])
    (fun i => mean i + e i) (fun i => by rw [add_sub_cancel_left, abs_of_nonneg (he0 i)])
  simp only [add_sub_cancel_left] at hbox
  have h1 := (abs_le.mp (hlip next mean)).2
  have h2 := (abs_le.mp (hη mean)).1
  have h3 : Lv * ∑ i, |next i - mean i| ≤ Lv * ∑ i, (e i + intervalError u (gps i) (beta i) X (fun n => entryOf (Y.map fun y => [y i]) n 0) (List.ofFn x ++ List.ofFn a)) :=
    mul_le_mul_of_nonneg_left (Finset.sum_le_sum fun i _ => hint i) hLv
  rw [Finset.sum_add_distrib, mul_add] at h3
  have h4 : ∑ i, Lv * |e i| = Lv * ∑ i, e i := by
    rw [Finset.mul_sum]
    exact Finset.sum_congr rfl fun i _ => by rw [abs_of_nonneg (he0 i)]
  rw [h4] at hbox
  linarith

/-! ## Examples -/

/-- Double precision numbers, as real numbers. -/
noncomputable def _root_.Spec.realDouble : Arith ℝ :=
  ⟨fun x => .fin (roundBinaryReal 53 x), fun _ => .pinf, fun
    | .fin x => ⌊x⌋₊
    | _ => 0⟩

theorem realDouble_rounded : RoundedArith realDouble (roundBinaryReal 53) (1 / 2 ^ 53) := ⟨fun _ => rfl, roundBinaryReal_within⟩

theorem line_conditioned (X : List (List ℝ)) (h : X.length ≤ 2) : WellConditioned (1 / 2 ^ 53) lineGP X := by
  have h1 : (X.map fun z => lineGP.kern z z + lineGP.noise).sum = X.length * (1 / 100) := by
    simp [lineGP]
    ring
  unfold WellConditioned
  rw [h1]
  interval_cases hn : X.length <;> constructor <;> norm_num [roundingEffect, factorError, lineGP]

theorem line_predicts (X Y : List (List ℝ)) (hX : X.length ≤ 2) (hY : Y.length = X.length) :
    ∃ s, RoundedTrained (roundBinaryReal 53) lineGP s X Y ∧ ∀ x, ∃ M E, lineGP.flEvaluate (roundBinaryReal 53) 3 s [x] = .ok (M, E) := by
  have hw := line_conditioned X hX
  have h := fun x => C150_bounds (roundBinaryReal 53) _ roundBinaryReal_within lineGP lineKernel_isKernel (by norm_num [lineGP]) (by norm_num [lineGP]) 3 X Y [x] hY []
    (by simp) X Y (by simp) (by simp) _ _ rfl rfl hw.1 hw.2
  obtain ⟨s, t, M, E, h1, h2, -, -⟩ := h []
  refine ⟨t, ⟨X, Y, s, [], hY, by simp, h1, h2, by simp, by simp⟩, fun x => ?_⟩
  obtain ⟨s', t', M', E', h3, h4, h5, -⟩ := h x
  obtain rfl : s = s' := Except.ok.inj (h1.symm.trans h3)
  obtain rfl : t = t' := Except.ok.inj (h2.symm.trans h4)
  exact ⟨M', E', h5⟩

/-- The grid from -2 to 2 with `V(x) = |x|` and two predictions, before and after a measurement. -/
noncomputable def floatLine (prediction : Fin 2 → ℝ → ℝ × Option ℝ) : FWorld ℝ (Fin 2) Unit 1 realLine.nindex where
  state k i := fin (gridState realLine k i)
  V _ x := match x 0 with
    | .fin a => .fin |a|
    | _ => .nan
  lv _ := .const (fin 1)
  lf _ := .const (fin (1 / 5))
  closedLoop p _ x := .uncertain (fun _ => fin (prediction p (number (x 0))).1) fun _ => fltOfOption (prediction p (number (x 0))).2
  tauDiv t N := .fin (roundBinaryReal 53 (number t / N))
  argsort _ := List.finRange _

theorem floatLine_inputs (prediction : Fin 2 → ℝ → ℝ × Option ℝ) :
    LyapunovInputs realLine (floatLine prediction) () (fun x => |x 0|) (fun x => |x 0|) 1 (1 / 5) 0 where
  state k := rfl
  computed y := rfl
  error y := by simp
  lv := rfl
  lf := rfl
  lv_nonneg := by norm_num
  lf_nonneg := by norm_num
  lipschitz y z := by
    simp only [Fin.sum_univ_one, one_mul]
    exact abs_abs_sub_abs_le _ _

/-- Two rounds of safe learning in double precision, with measurements and policies that are chosen from earlier measurements, and a call of `update_safe_set` in each round: no state is safe by mistake, except with a
probability of less than two fifths. -/
example : ∃ (Ω : Type) (_ : MeasurableSpace Ω) (μ : Measure Ω) (_ : IsProbabilityMeasure μ) (F : Ω → List ℝ → Fin 1 → ℝ) (ε : Ω → ℕ → Fin 1 → ℝ)
    (prediction : Ω → Fin 2 → ℝ → ℝ × Option ℝ), Spec.DrawnFrom μ (fun _ : Fin 1 => lineGP) F ε ∧
    let X : Ω → Fin 2 → List (List ℝ) := fun ω t => Spec.adaptive (Spec.startWith [[0, 0]] (signChoice [1, 0] [-1, 1 / 10])) (F ω) (ε ω) (t + 1)
    let Y : Ω → Fin 2 → List (Fin 1 → ℝ) := fun ω t => Spec.measurements (F ω) (ε ω) (X ω t)
    (∀ ω, RoundedLearner realLine (floatLine (prediction ω)) (roundBinaryReal 53) (fun _ : Fin 1 => lineGP) (fun _ => 3) (X ω) (Y ω) (fun t => switchPolicy (Y ω t)) (fun p _ => p)
      (fun _ x => |x 0|) (fun _ x => |x 0|) (fun _ => 1) (fun _ => 1 / 5) 0) ∧
    μ.real {ω | ∃ k, (run realDouble (floatLine (prediction ω)) (new (floatLine (prediction ω)) 0 (fin (1 / 10)) none false ())
        [.update 10 ⟨true, 1, fin 1⟩ (), .setProg 1, .update 10 ⟨true, 2, fin 1⟩ ()]).safeSet k = true ∧
      ¬EstablishedInWorld (floatLine (prediction ω)) (fun p θ => CellDecrease realLine (floatLine (prediction ω)) (1 / 2 ^ 53) (fun _ : Fin 1 => lineGP) (fun _ => 3) (X ω p) (Y ω p)
        (switchPolicy (Y ω p)) (fun x => F ω (List.ofFn x ++ switchPolicy (Y ω p) x)) (fun x => |x 0|) (fun x => |x 0|) 1 (1 / 5) 0 p θ) 0 (fin (1 / 10))
        [.update 10 ⟨true, 1, fin 1⟩ (), .setProg 1, .update 10 ⟨true, 2, fin 1⟩ ()] k} < 2 / 5 := by
  obtain ⟨F, hF⟩ : ∃ F : (Fin 1 × (Fin 1 ⊕ ℕ) → ℝ) → List ℝ → Fin 1 → ℝ, F = featureTruth (fun _ x => lineGP.mean x 0) fun _ _ _ => Real.sqrt (1 / 200) := ⟨_, rfl⟩
  obtain ⟨X, hX⟩ : ∃ X : (Fin 1 × (Fin 1 ⊕ ℕ) → ℝ) → Fin 2 → List (List ℝ),
    X = fun ω (t : Fin 2) => Spec.adaptive (Spec.startWith [[0, 0]] (signChoice [1, 0] [-1, 1 / 10])) (F ω) (featureError ω) ((t : ℕ) + 1) := ⟨_, rfl⟩
  obtain ⟨Y, hY⟩ : ∃ Y : (Fin 1 × (Fin 1 ⊕ ℕ) → ℝ) → Fin 2 → List (Fin 1 → ℝ), Y = fun ω t => Spec.measurements (F ω) (featureError ω) (X ω t) := ⟨_, rfl⟩
  have hlen : ∀ ω t, (X ω t).length ≤ 2 := by
    intro ω t
    rw [hX]
    simp only [adaptive_length]
    omega
  choose s hs M E hM using fun ω t => line_predicts (X ω t) ((Y ω t).map fun y => [y 0]) (hlen ω t) (by rw [hY]; simp [Spec.measurements])
  obtain ⟨prediction, hpred⟩ : ∃ prediction : (Fin 1 × (Fin 1 ⊕ ℕ) → ℝ) → Fin 2 → ℝ → ℝ × Option ℝ,
    prediction = fun ω t a => (M ω t ([a] ++ switchPolicy (Y ω t) fun _ => a) 0 0, E ω t ([a] ++ switchPolicy (Y ω t) fun _ => a) 0 0) := ⟨_, rfl⟩
  have hL : ∀ ω, RoundedLearner realLine (floatLine (prediction ω)) (roundBinaryReal 53) (fun _ : Fin 1 => lineGP) (fun _ => 3) (X ω) (Y ω) (fun t => switchPolicy (Y ω t)) (fun p _ => p)
      (fun _ x => |x 0|) (fun _ x => |x 0|) (fun _ => 1) (fun _ => 1 / 5) 0 := by
    intro ω
    refine ⟨fun _ => floatLine_inputs _, fun p _ => ⟨fun _ => s ω p, fun i => ?_, fun k => ⟨fun _ => (prediction ω p (gridState realLine k 0)).1, fun _ => (prediction ω p (gridState realLine k 0)).2, rfl, fun i => ?_⟩⟩⟩
    · have : i = 0 := Subsingleton.elim _ _
      subst this
      exact hs ω p
    · have h1 : gridState realLine k = fun _ => gridState realLine k 0 := by
        funext i
        have : i = 0 := Subsingleton.elim _ _
        rw [this]
      rw [hpred]
      refine ⟨_, _, ?_, rfl, rfl⟩
      have h2 : List.ofFn (gridState realLine k) ++ switchPolicy (Y ω p) (gridState realLine k) = [gridState realLine k 0] ++ switchPolicy (Y ω p) fun _ => gridState realLine k 0 := by
        rw [← h1]
        simp
      dsimp only
      rw [h2]
      exact hM ω p _
  have h := C151_learning realDouble_rounded _ (hF ▸ line_drawn) (fun _ => lineKernel_isKernel) (fun _ => by norm_num [lineGP]) (fun _ => by norm_num [lineGP]) (fun _ => 3) (fun _ => by norm_num) _
    (measurableChoice_startWith [[0, 0]] (signChoice_measurable [1, 0] [-1, 1 / 10])) 2 (fun t => t + 1) X hX Y hY (fun ω t _ => line_conditioned _ (hlen ω t)) realLine (fun _ => switchPolicy)
    (fun t k => by
      have := signChoice_measurable (d := 1) (List.ofFn (gridState realLine k) ++ [0]) (List.ofFn (gridState realLine k) ++ [-gridState realLine k 0 / 10])
      convert this using 1
      funext Y
      unfold switchPolicy signChoice
      split_ifs <;> rfl)
    (fun ω => floatLine (prediction ω)) (fun _ p _ => p) (fun _ _ x => |x 0|) (fun _ _ x => |x 0|) (fun _ _ => 1) (fun _ _ => 1 / 5) 0 hL _ rfl
    (fun _ => 0) (fun _ => fin (1 / 10)) (fun _ => none) (fun _ => false) (fun _ => ()) fun _ => [.update 10 ⟨true, 1, fin 1⟩ (), .setProg 1, .update 10 ⟨true, 2, fin 1⟩ ()]
  refine ⟨_, _, featureMeasure 1 fun _ : Fin 1 => lineGP.noise, inferInstance, F, featureError, prediction, hF ▸ line_drawn, ?_⟩
  rw [← hX]
  dsimp only
  refine ⟨fun ω => by have := hL ω; rw [hY] at this; exact this, lt_of_le_of_lt (measureReal_mono ?_ (measure_ne_top _ _)) (h.trans_lt ?_)⟩
  · rintro ω ⟨k, h1, h2⟩
    refine ⟨fun p θ => ?_, k, h1, by simp [InInitial], ?_⟩
    · rw [hF]
      exact switch_lipschitz ω _
    · rw [hY]
      exact h2
  · have hn : realLine.nindex = 5 := by simp [GridWorld.nindex, shapeProd, realLine]
    rw [hn]
    simp only [Fin.sum_univ_one]
    push_cast
    linarith [exp_three]

/-- The third state to the right of -2 is 1. -/
theorem realLine_three : gridState realLine 3 = ![1] := by
  funext i
  have : i = 0 := Subsingleton.elim _ _
  subst this
  simp [gridState, realLine, unravel, shapeProd, GridWorld.ijkToState, GridWorld.unit]
  norm_num

/-- The predictions before the first measurement. -/
theorem line_at : ∃ s : GPState 1, lineGP.flInit (roundBinaryReal 53) [] [] = .ok s ∧ ∀ a : ℝ, |a| ≤ 2 → ∃ m e : ℝ,
    (∃ M E, lineGP.flEvaluate (roundBinaryReal 53) 3 s [[a, -a / 10]] = .ok (M, E) ∧ M 0 0 = m ∧ E 0 0 = some e) ∧ |m - a / 10| ≤ 1 / 1000 ∧ 0 ≤ e ∧ e ≤ 22 / 100 ∧
    (∀ y, intervalError (1 / 2 ^ 53) lineGP 3 [] y [a, -a / 10] ≤ 1 / 100) ∧
    ∀ (Y : List (List ℝ)) v, |v - a / 10| ≤ 3 * Real.sqrt (1 / 200) → InExactInterval lineGP 3 [] Y [a, -a / 10] v := by
  have hw := line_conditioned [] (by simp)
  obtain ⟨c, hc⟩ : ∃ c, c = roundingEffect (1 / 2 ^ 53) ([] : List (List ℝ)).length := ⟨_, rfl⟩
  have hall := fun a : ℝ => C150_bounds (roundBinaryReal 53) _ roundBinaryReal_within lineGP lineKernel_isKernel (by norm_num [lineGP]) (by norm_num [lineGP]) 3 [] [] [[a, -a / 10]] rfl []
    (by simp) [] [] (by simp) (by simp) c _ hc rfl (hc ▸ hw.1) (hc ▸ hw.2)
  obtain ⟨s, -, -, -, h1, -, -, -⟩ := hall 0
  refine ⟨s, h1, fun a ha => ?_⟩
  obtain ⟨s', t, M, E, h1', h2, h3, h4⟩ := hall a
  obtain rfl : s = s' := Except.ok.inj (h1.symm.trans h1')
  have hc0 : 0 ≤ c := by rw [hc]; norm_num [roundingEffect]
  have hc1 : c ≤ 1 / 10 ^ 6 := by rw [hc]; norm_num [roundingEffect]
  have hst : s = t := Except.ok.inj h2
  subst hst
  obtain ⟨h5, h6⟩ := h4 0 0
  obtain ⟨h7, h8⟩ := h6 _ rfl
  have hcov : posteriorCov lineGP.kern lineGP.noise ([] : List (List ℝ)).get [a, -a / 10] [a, -a / 10] = 1 / 200 := by
    simp [posteriorCov, lineGP, dotProduct]
  have hm0 : lineGP.mean [a, -a / 10] 0 = a / 10 := by
    simp [lineGP]
    ring
  have hmean : ∀ y, posteriorMean lineGP.kern (fun z => lineGP.mean z 0) lineGP.noise ([] : List (List ℝ)).get y [a, -a / 10] = a / 10 := by
    intro y
    rw [← hm0]
    simp [posteriorMean, dotProduct]
  have heu : ∀ v : Fin ([] : List (List ℝ)).length → ℝ, euclid v = 0 := by intro v; simp [euclid]
  have hk0 : lineGP.kern [a, -a / 10] [a, -a / 10] = 1 / 200 := rfl
  rw [show [[(a : ℝ), -a / 10]].get 0 = [a, -a / 10] from rfl] at h5 h7 h8
  rw [hmean, heu, hm0] at h5
  rw [heu, hcov, hk0] at h7 h8
  obtain ⟨e, he⟩ := h8 (by nlinarith)
  have hE := h7 e he
  -- bounds for the roots
  have hr1 : Real.sqrt (1 / 200) ≤ 71 / 1000 := by rw [Real.sqrt_le_left (by norm_num)]; norm_num
  have hr0 : 0 ≤ Real.sqrt (1 / 200) := Real.sqrt_nonneg _
  have hr2 : Real.sqrt (0 ^ 2 * predictionError c lineGP.noise (([] : List (List ℝ)).map fun x => lineGP.kern x x + lineGP.noise).sum + c * (1 / 200)) ≤ 1 / 10000 := by
    rw [Real.sqrt_le_left (by norm_num)]
    nlinarith
  obtain ⟨R, hR⟩ : ∃ R, R = Real.sqrt (0 ^ 2 * predictionError c lineGP.noise (([] : List (List ℝ)).map fun x => lineGP.kern x x + lineGP.noise).sum + c * (1 / 200)) := ⟨_, rfl⟩
  have hR0 : 0 ≤ R := by rw [hR]; exact Real.sqrt_nonneg _
  rw [← hR] at hr2 hE
  obtain ⟨m, hm⟩ : ∃ m : ℝ, m = M (0 : Fin 1) (0 : Fin 1) := ⟨_, rfl⟩
  have h5 : |m - a / 10| ≤ _ := hm ▸ h5
  have hD : (1 + c) * R + c * Real.sqrt (1 / 200) ≤ 1 / 1000 := by
    have : c * R ≤ 1 / 10 ^ 6 * (1 / 10000) := mul_le_mul hc1 hr2 hR0 (by norm_num)
    have : c * Real.sqrt (1 / 200) ≤ 1 / 10 ^ 6 * (71 / 1000) := mul_le_mul hc1 hr1 hr0 (by norm_num)
    nlinarith
  have ha10 : |a / 10| ≤ 2 / 10 := by
    rw [abs_div, abs_of_pos (by norm_num : (0 : ℝ) < 10)]
    linarith
  have hca : c * |a / 10| ≤ 1 / 10 ^ 6 * (2 / 10) := mul_le_mul hc1 ha10 (abs_nonneg _) (by norm_num)
  have hm1 : |m - a / 10| ≤ 1 / 1000 := by
    refine h5.trans ?_
    linarith
  rw [abs_of_pos (by norm_num : (0 : ℝ) < 3)] at hE
  have he1 : e ≤ 22 / 100 := by linarith [(abs_le.mp hE).2]
  have he0 : 0 ≤ e := by
    exact evaluate_nonneg roundBinaryReal_within lineGP (by norm_num) s _ M E h3 e he
  refine ⟨m, e, ⟨M, E, h3, hm.symm, he⟩, hm1, he0, he1, fun y => ?_, fun Y v hv => ?_⟩
  · unfold intervalError
    dsimp only
    rw [← hc, heu, hcov, hk0, hm0, ← hR, abs_of_pos (by norm_num : (0 : ℝ) < 3)]
    linarith
  · unfold InExactInterval
    rw [hmean, hcov]
    exact hv

/-- The prediction for the state 1 before the first measurement. -/
theorem line_first : ∃ (s : GPState 1) (m e : ℝ), lineGP.flInit (roundBinaryReal 53) [] [] = .ok s ∧
    (∃ M E, lineGP.flEvaluate (roundBinaryReal 53) 3 s [[1, -1 / 10]] = .ok (M, E) ∧ M 0 0 = m ∧ E 0 0 = some e) ∧ |m - 1 / 10| ≤ 1 / 1000 ∧ 0 ≤ e ∧ e ≤ 22 / 100 ∧
    (∀ y, intervalError (1 / 2 ^ 53) lineGP 3 [] y [1, -1 / 10] ≤ 1 / 100) ∧
    ∀ (Y : List (List ℝ)) v, |v - 1 / 10| ≤ 3 * Real.sqrt (1 / 200) → InExactInterval lineGP 3 [] Y [1, -1 / 10] v := by
  obtain ⟨s, h1, h2⟩ := line_at
  obtain ⟨m, e, h3⟩ := h2 1 (by norm_num)
  exact ⟨s, m, e, h1, h3⟩

/-- Before the first measurement, with the policy `u = -x / 10`, the state 1 passes the test in double precision with the discretisation constant `1 / 10`, and this says that all true closed loops in the interval that are Lipschitz decrease
`|x|` from all states between `0.95` and `1.05`. -/
example : ∃ (prediction : Fin 2 → ℝ → ℝ × Option ℝ) (s : GPState 1) (k : Fin realLine.nindex), gridState realLine k = ![1] ∧ lineGP.flInit (roundBinaryReal 53) [] [] = .ok s ∧
    RoundedPrediction (roundBinaryReal 53) (fun _ : Fin 1 => lineGP) (fun _ => 3) (fun _ => s) [1, -1 / 10] (fun _ => (prediction 0 1).1) (fun _ => (prediction 0 1).2) ∧
    lt (decreaseAt realDouble (floatLine prediction) 0 () k) (thresholdOf realDouble (floatLine prediction) () k (fin (1 / 10))) = true ∧
    ∀ f : (Fin 1 → ℝ) → Fin 1 → ℝ, (∀ y z, ∑ i, |f y i - f z i| ≤ 1 / 5 * ∑ i, |y i - z i|) → |f ![1] 0 - 1 / 10| ≤ 3 * Real.sqrt (1 / 200) →
      ∀ z : Fin 1 → ℝ, |z 0 - 1| ≤ 1 / 20 → |f z 0| < |z 0| := by
  obtain ⟨s, m, e, h1, ⟨M, E, h3, hm, he⟩, hm1, he0, he1, h14, hint'⟩ := line_first
  have hmpos : 0 ≤ m := by linarith [(abs_le.mp hm1).1]
  obtain ⟨prediction, hp⟩ : ∃ prediction : Fin 2 → ℝ → ℝ × Option ℝ, prediction = fun _ _ => (m, some e) := ⟨_, rfl⟩
  have hn : realLine.nindex = 5 := by simp [GridWorld.nindex, shapeProd, realLine]
  have hk3 : gridState realLine (⟨3, by omega⟩ : Fin realLine.nindex) = ![1] := realLine_three
  have hpred : RoundedPrediction (roundBinaryReal 53) (fun _ : Fin 1 => lineGP) (fun _ => 3) (fun _ => s) [1, -1 / 10] (fun _ => (prediction 0 1).1) (fun _ => (prediction 0 1).2) := by
    intro i
    rw [hp]
    exact ⟨M, E, h3, hm, he⟩
  have hmargin : roundingMargin (1 / 2 ^ 53) (fun x : Fin 1 → ℝ => |x 0|) (.const 1) (.const (1 / 5)) ![1] (.uncertain (fun _ => m) fun _ => e) (1 / 10) ≤ 1 / 1000 := by
    have hsize : checkSize (fun x : Fin 1 → ℝ => |x 0|) (.const 1) (.const (1 / 5)) ![1] (.uncertain (fun _ => m) fun _ => e) (1 / 10) ≤ 2 := by
      simp only [checkSize, thresholdAt, LipArg.forThreshold, LipDyn.at, LipArg.entry, Fin.sum_univ_one, one_mul, Matrix.cons_val_zero, abs_of_nonneg hmpos, abs_one, abs_of_nonneg he0]
      rw [abs_of_nonpos (by linarith [(abs_le.mp hm1).2] : m - 1 ≤ 0)]
      norm_num
      linarith [(abs_le.mp hm1).1]
    unfold roundingMargin
    refine (mul_le_mul_of_nonneg_left hsize (by norm_num)).trans (by norm_num)
  have hdec : vDecreaseBound (fun x : Fin 1 → ℝ => |x 0|) (.const 1) ![1] (.uncertain (fun _ => m) fun _ => e) ≤ -67 / 100 := by
    simp only [vDecreaseBound, vDecreaseConfidence, LipArg.entry, Fin.sum_univ_one, one_mul, Matrix.cons_val_zero, abs_of_nonneg hmpos, abs_one]
    linarith [(abs_le.mp hm1).2]
  have hlt : lt (decreaseAt realDouble (floatLine prediction) 0 () ⟨3, by omega⟩) (thresholdOf realDouble (floatLine prediction) () ⟨3, by omega⟩ (fin (1 / 10))) = true := by
    have := C119_complete_partial (Prog := Unit) (Θ := Unit) ⟨fun _ x => |x 0|, fun _ => .const 1, fun _ => .const (1 / 5), fun _ _ _ => .uncertain (fun _ => m) fun _ => e⟩ realLine (fun _ => [])
      (fun t _ => t) realDouble_rounded () () ⟨3, by omega⟩ (1 / 10) (by
        dsimp only
        rw [hk3]
        have : thresholdAt (.const (1 : ℝ)) (.const (1 / 5)) ![(1 : ℝ)] (1 / 10) = -(12 / 100) := by norm_num [thresholdAt, LipArg.forThreshold, LipDyn.at]
        rw [this]
        linarith)
    have hW : decreaseAt realDouble (floatLine prediction) 0 () ⟨3, by omega⟩ = decreaseAt realDouble (finiteWorld (Prog := Unit) (Θ := Unit)
        ⟨fun _ x => |x 0|, fun _ => .const 1, fun _ => .const (1 / 5), fun _ _ _ => .uncertain (fun _ => m) fun _ => e⟩ realLine (fun _ => []) fun t _ => t) () () ⟨3, by omega⟩ := by
      rw [hp]
      rfl
    rw [hW]
    exact this
  refine ⟨prediction, s, ⟨3, by omega⟩, hk3, h1, hpred, hlt, ?_⟩
  intro f hf hint z hz
  obtain ⟨mean', error', h9, h10⟩ := C151_check realLine realDouble_rounded (fun _ : Fin 1 => lineGP) (fun _ => lineKernel_isKernel) (fun _ => by norm_num [lineGP]) (fun _ => by norm_num [lineGP])
    (fun _ => 3) [] [] (fun _ => s) (fun _ => ⟨[], [], s, [], rfl, by simp, h1, rfl, by simp, by simp⟩) (fun _ => line_conditioned [] (by simp)) (floatLine prediction) 0 () _ _ 1 (1 / 5) 0 (floatLine_inputs _)
    (fun x => [-x 0 / 10]) ⟨3, by omega⟩ (fun _ => (prediction 0 1).1) (fun _ => (prediction 0 1).2) (by rw [hp]; rfl)
    (by rw [hk3]; simpa using hpred) f hf
    (by
      intro i
      have : i = 0 := Subsingleton.elim _ _
      subst this
      rw [hk3]
      have h11 : List.ofFn (![1] : Fin 1 → ℝ) ++ [-(![1] : Fin 1 → ℝ) 0 / 10] = [1, -1 / 10] := by simp
      rw [h11]
      exact hint' _ _ hint) (fin (1 / 10)) hlt
  have h11 : mean' = fun _ => m := by
    have : (floatLine prediction).closedLoop 0 () ((floatLine prediction).state ⟨3, by omega⟩) = .uncertain (fun _ => fin m) fun _ => fin e := by rw [hp]; rfl
    rw [this] at h9
    injection h9 with h9 h9'
    funext i
    have := congrFun h9 i
    injection this with this
    exact this.symm
  have h12 : error' = fun _ => e := by
    have : (floatLine prediction).closedLoop 0 () ((floatLine prediction).state ⟨3, by omega⟩) = .uncertain (fun _ => fin m) fun _ => fin e := by rw [hp]; rfl
    rw [this] at h9
    injection h9 with h9 h9'
    funext i
    have := congrFun h9' i
    injection this with this
    exact this.symm
  suffices h : ∃ δ, 0 < δ ∧ ∀ z : Fin 1 → ℝ, ∑ i, |z i - gridState realLine (⟨3, by omega⟩ : Fin realLine.nindex) i| ≤ 1 / 20 → |f z 0| ≤ |z 0| - δ by
    obtain ⟨δ, hδ, h⟩ := h
    linarith [h z (by rw [hk3]; simpa using hz)]
  refine h10 (1 / 10) (1 / 20) rfl ?_
  rw [hk3, h11, h12, Fin.sum_univ_one]
  have h13 : List.ofFn (![1] : Fin 1 → ℝ) ++ [-(![1] : Fin 1 → ℝ) 0 / 10] = [1, -1 / 10] := by simp
  rw [h13]
  linarith [h14 fun n => entryOf (([] : List (Fin 1 → ℝ)).map fun y => [y 0]) n 0]

/-- The pair of the state 1 and the action `-1 / 10` is accepted in double precision for `c_max = 1 / 2`, and the true next state has a value below `0.52`. -/
example : ∃ (S : FSample ℝ 1 1), S.cMax = fin (1 / 2) ∧ accepted realDouble S true (fun _ => fin 1, fun _ => fin (-1 / 10)) = .ok true ∧
    ∀ next : Fin 1 → ℝ, |next 0 - 1 / 10| ≤ 3 * Real.sqrt (1 / 200) → |next 0| < 52 / 100 := by
  obtain ⟨s, m, e, h1, ⟨M, E, h3, hm, he⟩, hm1, he0, he1, h14, hint'⟩ := line_first
  have hmpos : 0 ≤ m := by linarith [(abs_le.mp hm1).1]
  have hm2 : m ≤ 11 / 100 := by linarith [(abs_le.mp hm1).2]
  obtain ⟨S, hS⟩ : ∃ S : FSample ℝ 1 1, S = ⟨fun _ => (fun _ => fin m, fun _ => fltOfOption (some e)), .const (fin 1),
    fun x => (match x 0 with | .fin a => .fin |a| | _ => .nan), fin (1 / 2), fun _ => .ok true⟩ := ⟨_, rfl⟩
  have hacc : accepted realDouble S true (fun _ => fin 1, fun _ => fin (-1 / 10)) = .ok true := by
    have hfl : ∀ y, 0 ≤ y → 0 ≤ roundBinaryReal 53 y ∧ roundBinaryReal 53 y ≤ (1 + 1 / 2 ^ 53) * y := by
      intro y hy
      have := abs_le.mp (roundBinaryReal_within.err y)
      rw [abs_of_nonneg hy] at this
      constructor <;> nlinarith [this.1, this.2]
    have hmaps : mapsInside realDouble S (fun _ => fin 1, fun _ => fin (-1 / 10)) =
        decide (roundBinaryReal 53 (|m| + roundBinaryReal 53 (0 + roundBinaryReal 53 (1 * e))) < 1 / 2) := by
      rw [hS]
      rfl
    unfold accepted
    rw [if_pos rfl, hmaps]
    have a1 := hfl (1 * e) (by linarith)
    have a2 := hfl (0 + roundBinaryReal 53 (1 * e)) (by linarith)
    have a3 := hfl (|m| + roundBinaryReal 53 (0 + roundBinaryReal 53 (1 * e))) (by linarith [abs_nonneg m])
    rw [abs_of_nonneg hmpos] at a3 ⊢
    have : roundBinaryReal 53 (m + roundBinaryReal 53 (0 + roundBinaryReal 53 (1 * e))) < 1 / 2 := by
      norm_num at a1 a2 a3 ⊢
      linarith
    rw [decide_eq_true this]
    rfl
  refine ⟨S, by rw [hS], hacc, fun next hnext => ?_⟩
  obtain ⟨e', h4, h5⟩ := C151_sample realDouble_rounded (fun _ : Fin 1 => lineGP) (fun _ => lineKernel_isKernel) (fun _ => by norm_num [lineGP]) (fun _ => by norm_num [lineGP])
    (fun _ => 3) (fun _ => by norm_num) [] [] (fun _ => s) (fun _ => ⟨[], [], s, [], rfl, by simp, h1, rfl, by simp, by simp⟩) (fun _ => line_conditioned [] (by simp)) S true
    (fun _ => 1) (fun _ => -1 / 10) (fun _ => m) (fun _ => some e) (by rw [hS]) (fun i => ⟨M, E, h3, hm, he⟩) (fun x => |x 0|) (fun x => |x 0|) 1 0 (1 / 2) (by intro y; rw [hS])
    (by simp) (by rw [hS]) (by norm_num) (by
      intro y z
      simp only [Fin.sum_univ_one, one_mul]
      exact abs_abs_sub_abs_le _ _) (by rw [hS]) hacc next (fun i => by
      have : i = 0 := Subsingleton.elim _ _
      subst this
      simpa using hint' _ _ hnext)
  have h6 : e' 0 = e := (Option.some.inj (h4 0)).symm
  simp only [Fin.sum_univ_one, h6, abs_of_nonneg hmpos] at h5
  have h7 := h14 fun n => entryOf (([] : List (Fin 1 → ℝ)).map fun y => [y 0]) n 0
  have h8 : List.ofFn (fun _ : Fin 1 => (1 : ℝ)) ++ List.ofFn (fun _ : Fin 1 => (-1 / 10 : ℝ)) = [1, -1 / 10] := by simp
  rw [h8] at h5
  have h9 : ((1 + 1 / 2 ^ 53 : ℝ) ^ (1 + 2) - 1) * (m + 1 * e) ≤ 1 / 1000 := by
    refine (mul_le_mul_of_nonneg_left (by linarith : m + 1 * e ≤ 1) (by norm_num)).trans (by norm_num)
  linarith

end SafeLearning
