import Verif.Props.FloatDecrease
set_option autoImplicit false

/-!
# C119, continued: the check in arithmetic with underflow and overflow
-/

namespace SafeLearning

open Flt

variable {K : Type} [Field K] [LinearOrder K] [IsStrictOrderedRing K]

/-! ## Specification -/

/-- Floating point arithmetic with a bounded range: rounding may overflow; if it does not, it changes a number by at most the fraction `u` and, near zero, by at most `ω` more. -/
structure _root_.Spec.RoundsFinite (A : Arith K) (u ω : K) : Prop where
  nonneg : 0 ≤ u
  tiny : 0 ≤ ω
  err : ∀ x y, A.rnd x = .fin y → |y - x| ≤ u * |x| + ω

/-- The effect of rounding on the check of `update_safe_set` in dimension `d`: a relative part for numbers of the size of those that are compared, and an absolute part for underflow. -/
def _root_.Spec.finiteMargin {d : ℕ} (u ω : K) (V : (Fin d → K) → K) (lv : LipArg K d) (lf : LipDyn K d) (x : Fin d → K) (p : Prediction K d) (tau : K) : K :=
  Spec.roundingMargin u V lv lf x p tau +
    (1 + u) ^ (d + 3) * (ω * (2 * d + 3 + |tau| * (1 + |lv.forThreshold x| + d * (|1 + lf.at x| + ω))))

open Spec

/-- Arithmetic without overflow and underflow is a special case. -/
theorem _root_.Spec.RoundedArith.finite {A : Arith K} {fl : K → K} {u : K} (h : RoundedArith A fl u) : RoundsFinite A u 0 where
  nonneg := h.within.nonneg
  tiny := le_rfl
  err x y hy := by
    rw [h.rnd] at hy
    obtain rfl := Flt.fin.inj hy
    rw [add_zero]
    exact h.within.err x

/-! ## A calculus of rounding errors -/

/-- `a` is `b` after at most `m` roundings of numbers of size `s`, with underflows of `c` in total. -/
def NearTo (u : K) (m : ℕ) (a b s c : K) : Prop := |b| ≤ s ∧ 0 ≤ c ∧ |a - b| ≤ ((1 + u) ^ m - 1) * s + (1 + u) ^ m * c

namespace NearTo

variable {u ω : K} {m m' : ℕ} {a b s c a' b' s' c' : K}

theorem exact (u b : K) : NearTo u 0 b b |b| 0 := ⟨le_rfl, le_rfl, by simp⟩

theorem size (h : NearTo u m a b s c) : 0 ≤ s := (abs_nonneg b).trans h.1

theorem mono (hu : 0 ≤ u) (h : NearTo u m a b s c) (hm : m ≤ m') (hc : c ≤ c') : NearTo u m' a b s c' := by
  have h1 := pow_le_pow_right₀ (by linarith : (1 : K) ≤ 1 + u) hm
  have h0 : 0 ≤ (1 + u) ^ m := by positivity
  refine ⟨h.1, h.2.1.trans hc, h.2.2.trans (add_le_add (mul_le_mul_of_nonneg_right ?_ h.size) (mul_le_mul h1 hc h.2.1 (h0.trans h1)))⟩
  linarith

theorem abs_left (h : NearTo u m a b s c) : |a| ≤ (1 + u) ^ m * (s + c) := by
  have h1 : |a| ≤ |a - b| + |b| := by
    have := abs_add_le (a - b) b
    rwa [sub_add_cancel] at this
  have := h.1
  have := h.2.2
  linarith

theorem round {r : K} (hu : 0 ≤ u) (hω : 0 ≤ ω) (hr : |r - a| ≤ u * |a| + ω) (h : NearTo u m a b s c) : NearTo u (m + 1) r b s (c + ω) := by
  refine ⟨h.1, add_nonneg h.2.1 hω, ?_⟩
  have h1 : |r - b| ≤ |r - a| + |a - b| := by
    have := abs_add_le (r - a) (a - b)
    rwa [sub_add_sub_cancel] at this
  have h2 := mul_le_mul_of_nonneg_left h.abs_left hu
  have h3 := mul_le_mul_of_nonneg_right (one_le_pow₀ (by linarith : (1 : K) ≤ 1 + u) (n := m + 1)) hω
  rw [pow_succ] at h3 ⊢
  linarith [h.2.2]

theorem add (h : NearTo u m a b s c) (h' : NearTo u m a' b' s' c') : NearTo u m (a + a') (b + b') (s + s') (c + c') := by
  refine ⟨(abs_add_le _ _).trans (add_le_add h.1 h'.1), add_nonneg h.2.1 h'.2.1, ?_⟩
  have h1 : |a + a' - (b + b')| ≤ |a - b| + |a' - b'| := by
    have := abs_add_le (a - b) (a' - b')
    rwa [show a - b + (a' - b') = a + a' - (b + b') by ring] at this
  linarith [h.2.2, h'.2.2]

theorem mul (hu : 0 ≤ u) (h : NearTo u m a b s c) (h' : NearTo u m' a' b' s' c') : NearTo u (m + m') (a * a') (b * b') (s * s') (s * c' + c * s' + c * c') := by
  have hs := h.size
  have hs' := h'.size
  have hc := h.2.1
  have hc' := h'.2.1
  refine ⟨by rw [abs_mul]; exact mul_le_mul h.1 h'.1 (abs_nonneg _) hs, by positivity, ?_⟩
  have h1 : |a * a' - b * b'| ≤ |a| * |a' - b'| + |a - b| * |b'| := by
    have := abs_add_le (a * (a' - b')) ((a - b) * b')
    rwa [abs_mul, abs_mul, show a * (a' - b') + (a - b) * b' = a * a' - b * b' by ring] at this
  have h2 : |a| * |a' - b'| ≤ ((1 + u) ^ m * (s + c)) * (((1 + u) ^ m' - 1) * s' + (1 + u) ^ m' * c') :=
    mul_le_mul h.abs_left h'.2.2 (abs_nonneg _) ((abs_nonneg a).trans h.abs_left)
  have h3 : |a - b| * |b'| ≤ (((1 + u) ^ m - 1) * s + (1 + u) ^ m * c) * s' :=
    mul_le_mul h.2.2 h'.1 (abs_nonneg _) ((abs_nonneg _).trans h.2.2)
  have h4 : ((1 + u) ^ (m + m') - 1) * (s * s') + (1 + u) ^ (m + m') * (s * c' + c * s' + c * c') =
      ((1 + u) ^ m * (s + c)) * (((1 + u) ^ m' - 1) * s' + (1 + u) ^ m' * c') + (((1 + u) ^ m - 1) * s + (1 + u) ^ m * c) * s' := by
    rw [pow_add]; ring
  rw [h4]
  linarith

theorem neg (h : NearTo u m a b s c) : NearTo u m (-a) (-b) s c := by
  refine ⟨by rw [abs_neg]; exact h.1, h.2.1, ?_⟩
  rw [show -a - -b = -(a - b) by ring, abs_neg]
  exact h.2.2

end NearTo

/-- A floating point number that is near `b` unless it is infinite or NaN. -/
def FNear (u : K) (m : ℕ) (X : Flt K) (b s c : K) : Prop := ∀ a, X = .fin a → NearTo u m a b s c

namespace FNear

variable {A : Arith K} {u ω : K} {m m' : ℕ} {X Y : Flt K} {b s c b' s' c' : K}

theorem exact (u b : K) : FNear u 0 (.fin b) b |b| 0 := by
  rintro a h
  obtain rfl := Flt.fin.inj h
  exact NearTo.exact u b

theorem mono (hu : 0 ≤ u) (h : FNear u m X b s c) (hm : m ≤ m') (hc : c ≤ c') : FNear u m' X b s c' :=
  fun a ha => (h a ha).mono hu hm hc

theorem add (hA : RoundsFinite A u ω) (h : FNear u m X b s c) (h' : FNear u m Y b' s' c') :
    FNear u (m + 1) (Flt.add A X Y) (b + b') (s + s') (c + c' + ω) := by
  intro r hr
  cases X <;> cases Y <;> simp only [Flt.add, reduceCtorEq] at hr
  exact ((h _ rfl).add (h' _ rfl)).round hA.nonneg hA.tiny (hA.err _ _ hr)

theorem neg (h : FNear u m X b s c) : FNear u m (Flt.neg X) (-b) s c := by
  intro r hr
  cases X <;> simp only [Flt.neg, reduceCtorEq] at hr
  obtain rfl := Flt.fin.inj hr
  exact (h _ rfl).neg

theorem mul (hA : RoundsFinite A u ω) (h : FNear u m X b s c) (h' : FNear u m' Y b' s' c') :
    FNear u (m + m' + 1) (Flt.mul A X Y) (b * b') (s * s') (s * c' + c * s' + c * c' + ω) := by
  intro r hr
  cases X <;> cases Y <;> simp only [Flt.mul, timesInf, reduceCtorEq] at hr <;> try (split_ifs at hr)
  exact ((h _ rfl).mul hA.nonneg (h' _ rfl)).round hA.nonneg hA.tiny (hA.err _ _ hr)

/-- Sums from left to right. -/
theorem foldl (hA : RoundsFinite A u ω) (l : List (Flt K × K × K × K)) (hl : ∀ q ∈ l, FNear u m q.1 q.2.1 q.2.2.1 q.2.2.2) :
    ∀ (j : ℕ) (X : Flt K) (b s c : K), m ≤ j → FNear u j X b s c →
      FNear u (j + l.length) ((l.map fun q => q.1).foldl (Flt.add A) X) (b + (l.map fun q => q.2.1).sum) (s + (l.map fun q => q.2.2.1).sum)
        (c + (l.map fun q => q.2.2.2).sum + l.length * ω) := by
  induction l with
  | nil => intro j X b s c _ h; simpa using h
  | cons q l ih =>
    intro j X b s c hj h
    have h2 := h.add hA ((hl q (by simp)).mono hA.nonneg hj le_rfl)
    have := ih (fun q' hq' => hl q' (by simp [hq'])) (j + 1) _ _ _ _ (by omega) h2
    simp only [List.map_cons, List.sum_cons, List.length_cons, List.foldl_cons]
    push_cast
    rw [show j + (l.length + 1) = j + 1 + l.length by omega, ← add_assoc, ← add_assoc,
      show c + (q.2.2.2 + (l.map fun q => q.2.2.2).sum) + (l.length + 1) * ω = c + q.2.2.2 + ω + (l.map fun q => q.2.2.2).sum + l.length * ω by ring]
    exact this

theorem sum {d : ℕ} (hA : RoundsFinite A u ω) (X : Fin d → Flt K) (b s c : Fin d → K) (h : ∀ i, FNear u m (X i) (b i) (s i) (c i)) :
    FNear u (m + d) (Flt.sum A (List.ofFn X)) (∑ i, b i) (∑ i, s i) (∑ i, c i + d * ω) := by
  have := foldl hA (m := m) (List.ofFn fun i => (X i, b i, s i, c i))
    (by intro q hq; rw [List.mem_ofFn] at hq; obtain ⟨i, rfl⟩ := hq; exact h i) m (.fin 0) 0 0 0 le_rfl
    (by have := (FNear.exact u 0).mono hA.nonneg (Nat.zero_le m) le_rfl; simpa using this)
  simp only [List.map_ofFn, List.sum_ofFn, List.length_ofFn, zero_add, Function.comp_def] at this
  exact this

end FNear

namespace FltLyap

variable {Prog Θ : Type} {d : ℕ} {A : Arith K} {u ω : K} (sys : System K Prog Θ d) (g : GridWorld K d)
    (argsort : (Fin g.nindex → K) → List (Fin g.nindex)) (tauDiv : K → ℕ → K)

/-- The rounded upper bound on the change of the value. -/
theorem decrease_fnear (hA : RoundsFinite A u ω) (p : Prog) (θ : Θ) (k : Fin g.nindex) :
    FNear u (d + 3) (decreaseAt A (finiteWorld sys g argsort tauDiv) p θ k)
        (vDecreaseBound (sys.V θ) (sys.lv θ) (gridState g k) (sys.closedLoop p θ (gridState g k)))
        (match sys.closedLoop p θ (gridState g k) with
          | .exact next => |sys.V θ next - sys.V θ (gridState g k)|
          | .uncertain mean error => |sys.V θ mean - sys.V θ (gridState g k)| + ∑ i, |(sys.lv θ).entry mean i * error i|) ((2 * d + 2) * ω) := by
  have hu := hA.nonneg
  have hω := hA.tiny
  unfold decreaseAt decrease
  simp only [vDecreaseBound, vDecreaseConfidence]
  have hcl : (finiteWorld sys g argsort tauDiv).closedLoop p θ ((finiteWorld sys g argsort tauDiv).state k) =
      match sys.closedLoop p θ (gridState g k) with
        | .exact y => .exact fun i => .fin (y i)
        | .uncertain m e => .uncertain (fun i => .fin (m i)) fun i => .fin (e i) := rfl
  rw [hcl]
  have hs : ∀ y : Fin d → K, FNear u 1 (Flt.sub A ((finiteWorld sys g argsort tauDiv).V θ fun i => fin (y i))
        ((finiteWorld sys g argsort tauDiv).V θ ((finiteWorld sys g argsort tauDiv).state k)))
        (sys.V θ y - sys.V θ (gridState g k)) |sys.V θ y - sys.V θ (gridState g k)| ω := by
    intro y r hr
    have h := (NearTo.exact u (sys.V θ y - sys.V θ (gridState g k))).round hu hω (hA.err _ r (by rw [sub_eq_add_neg]; exact hr))
    simpa using h
  cases sys.closedLoop p θ (gridState g k) with
  | exact y =>
    simp only []
    have h := (hs y).add hA ((FNear.exact u 0).mono hu (Nat.zero_le 1) le_rfl)
    rw [abs_zero, add_zero, add_zero, add_zero] at h
    rw [add_zero]
    refine h.mono hu (by omega) ?_
    have : 0 ≤ (d : K) * ω := by positivity
    linarith
  | uncertain mean error =>
    simp only []
    have hl : ∀ i, FNear u 1 (Flt.mul A (lipEntry ((finiteWorld sys g argsort tauDiv).lv θ) (fun i => fin (mean i)) i) (fin (error i)))
        ((sys.lv θ).entry mean i * error i) |(sys.lv θ).entry mean i * error i| ω := by
      intro i
      have : lipEntry ((finiteWorld sys g argsort tauDiv).lv θ) (fun i => fin (mean i)) i = fin ((sys.lv θ).entry mean i) := by
        simp only [finiteWorld]
        cases sys.lv θ <;> rfl
      rw [this, abs_mul]
      have h := (FNear.exact u ((sys.lv θ).entry mean i)).mul hA (FNear.exact u (error i))
      simpa using h
    have h := ((hs mean).mono hu (by omega : 1 ≤ 1 + d) le_rfl).add hA (FNear.sum hA _ _ _ _ hl)
    refine h.mono hu (by omega) (le_of_eq ?_)
    rw [Finset.sum_const, Finset.card_univ, Fintype.card_fin, nsmul_eq_mul]
    ring

/-- The rounded threshold. -/
theorem threshold_fnear (hA : RoundsFinite A u ω) (θ : Θ) (k : Fin g.nindex) (tau : K) :
    FNear u (d + 3) (thresholdOf A (finiteWorld sys g argsort tauDiv) θ k (fin tau)) (thresholdAt (sys.lv θ) (sys.lf θ) (gridState g k) tau)
      |thresholdAt (sys.lv θ) (sys.lf θ) (gridState g k) tau|
      (ω * (1 + |tau| * (1 + |(sys.lv θ).forThreshold (gridState g k)| + d * (|1 + (sys.lf θ).at (gridState g k)| + ω)))) := by
  have hu := hA.nonneg
  have hω := hA.tiny
  have hdω : 0 ≤ (d : K) * ω := by positivity
  -- the Lipschitz constant of the Lyapunov function
  have hnorm : FNear u d (lipNorm A ((finiteWorld sys g argsort tauDiv).lv θ) ((finiteWorld sys g argsort tauDiv).state k))
      ((sys.lv θ).forThreshold (gridState g k)) |(sys.lv θ).forThreshold (gridState g k)| (d * ω) := by
    simp only [finiteWorld]
    cases sys.lv θ with
    | const c => exact (FNear.exact u c).mono hu (Nat.zero_le _) hdω
    | scalar f => exact (FNear.exact u (f (gridState g k))).mono hu (Nat.zero_le _) hdω
    | vector f =>
      unfold lipNorm LipArg.forThreshold
      simp only []
      by_cases hd : 1 < d
      · rw [if_pos hd, if_pos hd]
        have h := FNear.sum hA (m := 0) (fun i => Flt.abs (fin (f (gridState g k) i))) (fun i => |f (gridState g k) i|) (fun i => |f (gridState g k) i|) (fun _ => 0)
          (fun i => by have := FNear.exact u |f (gridState g k) i|; rwa [abs_abs] at this)
        rw [zero_add, Finset.sum_const_zero, zero_add] at h
        rwa [abs_of_nonneg (Finset.sum_nonneg fun i _ => abs_nonneg (f (gridState g k) i))]
      · rw [if_neg hd, if_neg hd]
        by_cases h0 : 0 < d
        · rw [dif_pos h0]
          obtain rfl : d = 1 := by omega
          rw [Fin.sum_univ_one]
          exact (FNear.exact u (f (gridState g k) 0)).mono hu (Nat.zero_le _) hdω
        · rw [dif_neg h0]
          obtain rfl : d = 0 := by omega
          simpa using FNear.exact u 0
  have hlf : lipDyn ((finiteWorld sys g argsort tauDiv).lf θ) ((finiteWorld sys g argsort tauDiv).state k) = fin ((sys.lf θ).at (gridState g k)) := by
    simp only [finiteWorld]
    cases sys.lf θ <;> rfl
  unfold thresholdOf threshold
  rw [hlf]
  have h1 : FNear u 1 (Flt.add A (fin 1) (fin ((sys.lf θ).at (gridState g k)))) (1 + (sys.lf θ).at (gridState g k)) |1 + (sys.lf θ).at (gridState g k)| ω := by
    intro r hr
    simpa using (NearTo.exact u (1 + (sys.lf θ).at (gridState g k))).round hu hω (hA.err _ r hr)
  have h3 := ((hnorm.neg.mul hA h1).mul hA (FNear.exact u tau)).mono hu (by omega : d + 1 + 1 + 0 + 1 ≤ d + 3) le_rfl
  unfold thresholdAt
  rw [abs_mul, abs_mul, abs_neg]
  refine h3.mono hu le_rfl (le_of_eq ?_)
  ring

/-- **C119 (with underflow and overflow).** If the rounded numbers pass the test of `update_safe_set` and are finite, the exact numbers pass it up to the margin. -/
theorem C119_check_finite_partial (hA : RoundsFinite A u ω) (p : Prog) (θ : Θ) (k : Fin g.nindex) (tau D T : K)
    (hD : decreaseAt A (finiteWorld sys g argsort tauDiv) p θ k = fin D) (hT : thresholdOf A (finiteWorld sys g argsort tauDiv) θ k (fin tau) = fin T)
    (h : lt (decreaseAt A (finiteWorld sys g argsort tauDiv) p θ k) (thresholdOf A (finiteWorld sys g argsort tauDiv) θ k (fin tau)) = true) :
    vDecreaseBound (sys.V θ) (sys.lv θ) (gridState g k) (sys.closedLoop p θ (gridState g k)) <
      thresholdAt (sys.lv θ) (sys.lf θ) (gridState g k) tau +
      finiteMargin u ω (sys.V θ) (sys.lv θ) (sys.lf θ) (gridState g k) (sys.closedLoop p θ (gridState g k)) tau := by
  have h1 := decrease_fnear sys g argsort tauDiv hA p θ k D hD
  have h2 := threshold_fnear sys g argsort tauDiv hA θ k tau T hT
  rw [hD, hT] at h
  have h3 : D < T := by simpa [lt] using h
  have h4 := (abs_le.mp h1.2.2).1
  have h5 := (abs_le.mp h2.2.2).2
  unfold finiteMargin roundingMargin checkSize
  rw [mul_add]
  have e : (1 + u) ^ (d + 3) * (ω * (2 * d + 3 + |tau| * (1 + |(sys.lv θ).forThreshold (gridState g k)| + d * (|1 + (sys.lf θ).at (gridState g k)| + ω)))) =
      (1 + u) ^ (d + 3) * ((2 * d + 2) * ω) +
      (1 + u) ^ (d + 3) * (ω * (1 + |tau| * (1 + |(sys.lv θ).forThreshold (gridState g k)| + d * (|1 + (sys.lf θ).at (gridState g k)| + ω)))) := by ring
  rw [e]
  generalize (1 + u) ^ (d + 3) = P at *
  cases hp : sys.closedLoop p θ (gridState g k) <;> simp only [hp] at h4 ⊢ <;> linarith

/-- The converse: if the exact numbers pass the test with the margin and the rounded numbers are finite, these pass it. -/
theorem C119_complete_finite_partial (hA : RoundsFinite A u ω) (p : Prog) (θ : Θ) (k : Fin g.nindex) (tau D T : K)
    (hD : decreaseAt A (finiteWorld sys g argsort tauDiv) p θ k = fin D) (hT : thresholdOf A (finiteWorld sys g argsort tauDiv) θ k (fin tau) = fin T)
    (h : vDecreaseBound (sys.V θ) (sys.lv θ) (gridState g k) (sys.closedLoop p θ (gridState g k)) +
      finiteMargin u ω (sys.V θ) (sys.lv θ) (sys.lf θ) (gridState g k) (sys.closedLoop p θ (gridState g k)) tau <
      thresholdAt (sys.lv θ) (sys.lf θ) (gridState g k) tau) :
    lt (decreaseAt A (finiteWorld sys g argsort tauDiv) p θ k) (thresholdOf A (finiteWorld sys g argsort tauDiv) θ k (fin tau)) = true := by
  have h1 := decrease_fnear sys g argsort tauDiv hA p θ k D hD
  have h2 := threshold_fnear sys g argsort tauDiv hA θ k tau T hT
  rw [hD, hT]
  have h4 := (abs_le.mp h1.2.2).2
  have h5 := (abs_le.mp h2.2.2).1
  unfold finiteMargin roundingMargin checkSize at h
  rw [mul_add] at h
  have e : (1 + u) ^ (d + 3) * (ω * (2 * d + 3 + |tau| * (1 + |(sys.lv θ).forThreshold (gridState g k)| + d * (|1 + (sys.lf θ).at (gridState g k)| + ω)))) =
      (1 + u) ^ (d + 3) * ((2 * d + 2) * ω) +
      (1 + u) ^ (d + 3) * (ω * (1 + |tau| * (1 + |(sys.lv θ).forThreshold (gridState g k)| + d * (|1 + (sys.lf θ).at (gridState g k)| + ω)))) := by ring
  rw [e] at h
  have h3 : D < T := by
    generalize (1 + u) ^ (d + 3) = P at *
    cases hp : sys.closedLoop p θ (gridState g k) <;> simp only [hp] at h h4 <;> linarith
  simpa [lt] using h3

/-! ### Histories and samples -/

/-- What some call of the history has established about a grid state in arithmetic with underflow and overflow: the decrease condition up to the margin, or one of the two
compared numbers was not finite. -/
def _root_.Spec.CertifiedOrInfinite (A : Arith K) (u ω : K) (prog : Prog) (tau : K) (ops : List (Lyap.Op K Prog Θ)) (k : Fin g.nindex) : Prop :=
  ∃ p t t' batch args θ, Lyap.Op.update batch args θ ∈ ops ∧
    (p = prog ∨ Lyap.Op.setProg p ∈ ops) ∧ (t = tau ∨ Lyap.Op.setTau t ∈ ops) ∧
    (t' = t ∨ ∃ N, 1 ≤ N ∧ N ≤ args.maxRefinement ∧ t' = tauDiv t N) ∧
    (vDecreaseBound (sys.V θ) (sys.lv θ) (gridState g k) (sys.closedLoop p θ (gridState g k)) <
        thresholdAt (sys.lv θ) (sys.lf θ) (gridState g k) t' +
        finiteMargin u ω (sys.V θ) (sys.lv θ) (sys.lf θ) (gridState g k) (sys.closedLoop p θ (gridState g k)) t' ∨
      decreaseAt A (finiteWorld sys g argsort tauDiv) p θ k = .ninf ∨
      thresholdOf A (finiteWorld sys g argsort tauDiv) θ k (fin t') = .pinf)

/-- **C119 (histories with underflow and overflow).** Whatever is called on a new object, a state is safe at the end only if it is initial, or some earlier call of `update_safe_set`
established the decrease condition there up to the margin, or the computed decrease overflowed to minus infinity or the threshold to infinity. -/
theorem C119_history_finite_partial [FloorRing K] (hA : RoundsFinite A u ω) (prog : Prog) (tau : K)
    (initial : Option (Fin g.nindex → Bool)) (adaptive : Bool) (θ₀ : Θ)
    (ops : List (Lyap.Op K Prog Θ)) (k : Fin g.nindex)
    (hk : (run A (finiteWorld sys g argsort tauDiv)
      (new (finiteWorld sys g argsort tauDiv) prog (fin tau) initial adaptive θ₀)
      (ops.map finiteOp)).safeSet k = true) :
    (∃ I, initial = some I ∧ I k = true) ∨ CertifiedOrInfinite sys g argsort tauDiv A u ω prog tau ops k := by
  refine history_established sys g argsort tauDiv (fun p θ k t =>
      vDecreaseBound (sys.V θ) (sys.lv θ) (gridState g k) (sys.closedLoop p θ (gridState g k)) <
        thresholdAt (sys.lv θ) (sys.lf θ) (gridState g k) t +
        finiteMargin u ω (sys.V θ) (sys.lv θ) (sys.lf θ) (gridState g k) (sys.closedLoop p θ (gridState g k)) t ∨
      decreaseAt A (finiteWorld sys g argsort tauDiv) p θ k = .ninf ∨
      thresholdOf A (finiteWorld sys g argsort tauDiv) θ k (fin t) = .pinf)
    (fun p θ k t h => ?_) prog tau initial adaptive θ₀ ops k hk
  cases hD : decreaseAt A (finiteWorld sys g argsort tauDiv) p θ k with
  | ninf => exact Or.inr (Or.inl rfl)
  | pinf => rw [hD] at h; cases hT : thresholdOf A (finiteWorld sys g argsort tauDiv) θ k (fin t) <;> rw [hT] at h <;> simp [lt] at h
  | nan => rw [hD] at h; cases hT : thresholdOf A (finiteWorld sys g argsort tauDiv) θ k (fin t) <;> rw [hT] at h <;> simp [lt] at h
  | fin D =>
    cases hT : thresholdOf A (finiteWorld sys g argsort tauDiv) θ k (fin t) with
    | pinf => exact Or.inr (Or.inr rfl)
    | ninf => rw [hD, hT] at h; simp [lt] at h
    | nan => rw [hD, hT] at h; simp [lt] at h
    | fin T => exact Or.inl (C119_check_finite_partial sys g argsort tauDiv hA p θ k t D T hD hT h)

/-- **C119 (samples with underflow and overflow).** If `get_safe_sample` accepts the candidate `q` and the computed bound on the next value is not minus infinity, every state `y` inside the confidence region
of its next state has a value below `c_max`, up to the effect of rounding and underflow. -/
theorem C119_sample_finite_partial {n m : ℕ} (hA : RoundsFinite A u ω) (S : FSample K n m) (positive : Bool)
    (q : Pair (Flt K) n m) (mean e l : Fin n → K) (v c : K)
    (hm : (S.dynamics q).1 = fun i => fin (mean i)) (he : (S.dynamics q).2 = fun i => fin (e i))
    (hl : ∀ i, lipEntry S.lv (fun i => fin (mean i)) i = fin (l i))
    (hv : S.V (fun i => fin (mean i)) = fin v) (hc : S.cMax = fin c)
    (h : accepted A S positive q = .ok true)
    (hfin : Flt.add A (fin v) (Flt.sum A (List.ofFn fun i => Flt.mul A (fin (l i)) (fin (e i)))) ≠ .ninf)
    (V : (Fin n → K) → K) (hV0 : V mean = v)
    (hl0 : ∀ i, 0 ≤ l i) (hV : ∀ y, |V y - V mean| ≤ ∑ i, l i * |y i - mean i|)
    (y : Fin n → K) (hy : ∀ i, |y i - mean i| ≤ e i) :
    V y < c + ((1 + u) ^ (n + 2) - 1) * (|v| + ∑ i, l i * e i) + (1 + u) ^ (n + 2) * ((2 * n + 1) * ω) := by
  have hmaps : mapsInside A S q = true := by
    unfold accepted at h
    cases positive with
    | true => simpa [pure, Except.pure] using h
    | false =>
      cases hs : S.inSafeSet (S.dynamics q).1 with
      | error e => rw [hs] at h; simp [bind, Except.bind] at h
      | ok b =>
        rw [hs] at h
        simp only [bind, Except.bind, pure, Except.pure, Bool.false_eq_true, if_false, Except.ok.injEq, Bool.and_eq_true] at h
        exact h.1
  unfold mapsInside at hmaps
  rw [hm, he, hv, hc] at hmaps
  simp only [hl] at hmaps
  have hle : ∀ i, 0 ≤ l i * e i := fun i => mul_nonneg (hl0 i) ((abs_nonneg _).trans (hy i))
  have hsum := FNear.sum hA (m := 1) (fun i => Flt.mul A (fin (l i)) (fin (e i))) (fun i => l i * e i) (fun i => l i * e i) (fun _ => ω) (fun i => by
    have := (FNear.exact u (l i)).mul hA (FNear.exact u (e i))
    rw [← abs_mul, abs_of_nonneg (hle i)] at this
    simpa using this)
  have htot := ((FNear.exact u v).mono hA.nonneg (Nat.zero_le (1 + n)) le_rfl).add hA hsum
  cases hX : Flt.add A (fin v) (Flt.sum A (List.ofFn fun i => Flt.mul A (fin (l i)) (fin (e i)))) with
  | ninf => exact absurd hX hfin
  | pinf => rw [hX] at hmaps; simp [lt] at hmaps
  | nan => rw [hX] at hmaps; simp [lt] at hmaps
  | fin r =>
    rw [hX] at hmaps
    have hlt : r < c := by simpa [lt] using hmaps
    have h1 := (abs_le.mp (htot r hX).2.2).1
    have h2 := (abs_le.mp (hV y)).2
    have h3 : ∑ i, l i * |y i - mean i| ≤ ∑ i, l i * e i := Finset.sum_le_sum fun i _ => mul_le_mul_of_nonneg_left (hy i) (hl0 i)
    have h4 : (0 : K) + (∑ _i : Fin n, ω + n * ω) + ω = (2 * n + 1) * ω := by
      rw [Finset.sum_const, Finset.card_univ, Fintype.card_fin, nsmul_eq_mul]
      ring
    rw [show 1 + n + 1 = n + 2 by omega, h4] at h1
    generalize (1 + u) ^ (n + 2) = P at *
    linarith

end FltLyap

/-! ## Double precision -/

/-- The number that IEEE 754 double precision would have without overflow: 53 bits, but no digits below `2 ^ -1074`. -/
def _root_.Spec.roundSubnormal (x : ℚ) : ℚ :=
  let e : ℤ := max (Int.log 2 |x| + 1 - 53) (-1074)
  (rint (x / (2 : ℚ) ^ e) : ℚ) * (2 : ℚ) ^ e

/-- IEEE 754 double precision: round to nearest, ties to even, with subnormal numbers and overflow to infinity. -/
def _root_.Spec.ieeeDouble : Arith ℚ where
  rnd x :=
    let r := Spec.roundSubnormal x
    if (2 : ℚ) ^ (1024 : ℕ) ≤ r then .pinf else if r ≤ -(2 : ℚ) ^ (1024 : ℕ) then .ninf else .fin r
  divZero _ := .nan
  toInt
    | .fin x => ⌊x⌋.toNat
    | _ => 0

theorem ieeeDouble_rounds : RoundsFinite ieeeDouble ((2 : ℚ) ^ (-(53 : ℕ) : ℤ)) ((2 : ℚ) ^ (-1075 : ℤ)) where
  nonneg := (zpow_pos (by norm_num) _).le
  tiny := (zpow_pos (by norm_num) _).le
  err x y h := by
    have hy : y = roundSubnormal x := by
      simp only [ieeeDouble] at h
      split_ifs at h
      exact (Flt.fin.inj h).symm
    rw [hy]
    rcases eq_or_ne x 0 with rfl | hx
    · have h0 : roundSubnormal 0 = 0 := by simp [roundSubnormal, rint]
      rw [h0]
      simp
    unfold roundSubnormal
    simp only
    obtain ⟨e, he⟩ : ∃ e : ℤ, e = max (Int.log 2 |x| + 1 - 53) (-1074) := ⟨_, rfl⟩
    rw [← he]
    have hpos : (0 : ℚ) < 2 ^ e := zpow_pos (by norm_num) _
    have h1 := rint_abs_le (x / (2 : ℚ) ^ e)
    have h2 : |(rint (x / (2 : ℚ) ^ e) : ℚ) * 2 ^ e - x| = |x / 2 ^ e - rint (x / (2 : ℚ) ^ e)| * 2 ^ e := by
      rw [← abs_of_pos hpos, ← abs_mul, abs_of_pos hpos, ← abs_neg]
      congr 1
      field_simp
      ring
    rw [h2]
    refine (mul_le_mul_of_nonneg_right h1 hpos.le).trans ?_
    have hu : (0 : ℚ) < 2 ^ (-(53 : ℕ) : ℤ) := zpow_pos (by norm_num) _
    have hω : (0 : ℚ) < 2 ^ (-1075 : ℤ) := zpow_pos (by norm_num) _
    rcases max_choice (Int.log 2 |x| + 1 - 53) (-1074) with hm | hm
    · have h3 : (2 : ℚ) ^ Int.log 2 |x| ≤ |x| := by
        have := Int.zpow_log_le_self (b := 2) (r := |x|) (by norm_num) (abs_pos.mpr hx)
        exact_mod_cast this
      have h4 : (1 / 2 : ℚ) * 2 ^ e = 2 ^ (-(53 : ℕ) : ℤ) * 2 ^ Int.log 2 |x| := by
        rw [he, hm, ← zpow_add₀ (by norm_num : (2 : ℚ) ≠ 0), show (1 / 2 : ℚ) = 2 ^ (-1 : ℤ) by norm_num, ← zpow_add₀ (by norm_num : (2 : ℚ) ≠ 0)]
        congr 1
        push_cast
        ring
      rw [h4]
      have := mul_le_mul_of_nonneg_left h3 hu.le
      linarith
    · rw [he, hm, show (1 / 2 : ℚ) = 2 ^ (-1 : ℤ) by norm_num, ← zpow_add₀ (by norm_num : (2 : ℚ) ≠ 0), show (-1 + -1074 : ℤ) = -1075 by norm_num]
      have := mul_nonneg hu.le (abs_nonneg x)
      linarith

/-- A system with a Lipschitz constant and an error bound whose product underflows. -/
def tinySystem : System ℚ Unit Unit 1 where
  V := fun _ x => |x 0|
  lv := fun _ => .const (1 / 2 ^ 600)
  lf := fun _ => .const 1
  closedLoop := fun _ _ x => .uncertain ![x 0 / 2] ![1 / 2 ^ 600]

/-- Two states, one and two. -/
def tinyGrid : GridWorld ℚ 1 := ⟨![1], ![2], ![2]⟩

/-- All hypotheses are met in double precision: the computed error bound is zero, and the test passes up to the margin of `2 ^ -50`. -/
example : FltLyap.decreaseAt ieeeDouble (finiteWorld tinySystem tinyGrid (fun v => (List.finRange _).insertionSort fun i j => v i ≤ v j) fun t N => t / N) () () ⟨0, by decide +kernel⟩ = .fin (-1 / 2) ∧
    vDecreaseBound (tinySystem.V ()) (tinySystem.lv ()) (gridState tinyGrid 0) (tinySystem.closedLoop () () (gridState tinyGrid 0)) <
      thresholdAt (tinySystem.lv ()) (tinySystem.lf ()) (gridState tinyGrid 0) 1 + 1 / 2 ^ 50 := by
  refine ⟨by decide +kernel, ?_⟩
  have h := FltLyap.C119_check_finite_partial tinySystem tinyGrid (fun v => (List.finRange _).insertionSort fun i j => v i ≤ v j) (fun t N => t / N) ieeeDouble_rounds () () ⟨0, by decide +kernel⟩ 1 (-1 / 2) (-1 / 2 ^ 599) (by decide +kernel) (by decide +kernel)
    (by decide +kernel)
  refine h.trans_le (add_le_add le_rfl ?_)
  decide +kernel

/-- The history of `tinySystem` in double precision: the state one is safe after the first call, and passes the exact test up to the margin. -/
example : Spec.CertifiedOrInfinite tinySystem tinyGrid (fun v => (List.finRange _).insertionSort fun i j => v i ≤ v j) (fun t N => t / N) ieeeDouble
    ((2 : ℚ) ^ (-(53 : ℕ) : ℤ)) ((2 : ℚ) ^ (-1075 : ℤ)) () 1 [.update 100 ⟨true, 1, 1⟩ ()] ⟨0, by decide +kernel⟩ :=
  (FltLyap.C119_history_finite_partial tinySystem tinyGrid (fun v => (List.finRange _).insertionSort fun i j => v i ≤ v j) (fun t N => t / N) ieeeDouble_rounds () 1 none
    false () [.update 100 ⟨true, 1, 1⟩ ()] _ (by decide +kernel)).resolve_left (by simp)

/-- An accepted sample whose error term underflows: predicted next state 1 with error bound and Lipschitz constant `2 ^ -600`, and level 2. -/
example (V : (Fin 1 → ℚ) → ℚ) (h1 : V (fun _ => 1) = 1) (hV : ∀ y, |V y - V fun _ => 1| ≤ ∑ i, 1 / 2 ^ 600 * |y i - 1|)
    (y : Fin 1 → ℚ) (hy : |y 0 - 1| ≤ 1 / 2 ^ 600) : V y < 2 + 1 / 2 ^ 40 := by
  have := FltLyap.C119_sample_finite_partial (n := 1) (m := 1) ieeeDouble_rounds
    ⟨fun _ => (fun _ => .fin 1, fun _ => .fin (1 / 2 ^ 600)), .const (.fin (1 / 2 ^ 600)), fun x => x 0, .fin 2, fun _ => .ok true⟩
    false ⟨fun _ => .fin 0, fun _ => .fin 0⟩ (fun _ => 1) (fun _ => 1 / 2 ^ 600) (fun _ => 1 / 2 ^ 600) 1 2 rfl rfl
    (fun _ => rfl) rfl rfl (by decide +kernel) (by decide +kernel) V h1 (fun _ => by positivity) hV y
    (fun i => by fin_cases i; exact hy)
  refine this.trans_le ?_
  rw [Fin.sum_univ_one]
  decide +kernel

/-- The predicted decrease is larger than the largest double precision number. -/
def overflowSystem : System ℚ Unit Unit 1 where
  V := fun _ x => x 0
  lv := fun _ => .const 1
  lf := fun _ => .const 0
  closedLoop := fun _ _ _ => .uncertain ![-3 * 2 ^ 1022] ![3 * 2 ^ 1022]

/-- Two states of about `10 ^ 308`. -/
def overflowGrid : GridWorld ℚ 1 := ⟨![3 * 2 ^ 1022], ![7 * 2 ^ 1021], ![2]⟩

/-- **C119, refuted with overflow.** If the computed decrease is infinite the test can pass although the exact numbers fail it by far more than the rounding errors: here the decrease overflows to minus
infinity before the error bound is added, and `update_safe_set` puts a state into the safe set whose guaranteed decrease is smaller than the threshold asks for. All numbers are double precision
numbers. -/
theorem C119_overflow_refuted : ∃ k : Fin overflowGrid.nindex,
    (FltLyap.run ieeeDouble (finiteWorld overflowSystem overflowGrid (fun v => (List.finRange _).insertionSort fun i j => v i ≤ v j) fun t N => t / N)
      (FltLyap.new (finiteWorld overflowSystem overflowGrid (fun v => (List.finRange _).insertionSort fun i j => v i ≤ v j) fun t N => t / N) () (.fin (7 * 2 ^ 1021)) none false ())
      [.update 100 ⟨true, 1, .fin 1⟩ ()]).safeSet k = true ∧
    (∀ x ∈ [3 * 2 ^ 1022, 7 * 2 ^ 1021, (-3) * 2 ^ 1022], roundSubnormal x = x) ∧
    thresholdAt (overflowSystem.lv ()) (overflowSystem.lf ()) (gridState overflowGrid k) (7 * 2 ^ 1021) + 2 ^ 1000 +
        finiteMargin ((2 : ℚ) ^ (-(53 : ℕ) : ℤ)) ((2 : ℚ) ^ (-1075 : ℤ)) (overflowSystem.V ()) (overflowSystem.lv ()) (overflowSystem.lf ()) (gridState overflowGrid k)
          (overflowSystem.closedLoop () () (gridState overflowGrid k)) (7 * 2 ^ 1021) ≤
      vDecreaseBound (overflowSystem.V ()) (overflowSystem.lv ()) (gridState overflowGrid k) (overflowSystem.closedLoop () () (gridState overflowGrid k)) :=
  ⟨⟨0, by decide +kernel⟩, by decide +kernel, by decide +kernel, by decide +kernel⟩

end SafeLearning
