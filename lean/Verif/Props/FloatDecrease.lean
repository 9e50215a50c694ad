import Verif.Props.NonFiniteExact
import Verif.Props.FloatGrid
import Verif.Props.Decrease
set_option autoImplicit false

set_option linter.unusedSectionVars false

/-!
# C119: what a state certified with rounded arithmetic satisfies

The functions of the user return floating point numbers; those are the numbers `sys.V`, `sys.lv`,
`sys.lf` and `sys.closedLoop` here. All operations of `threshold`, `v_decrease_confidence` and
`v_decrease_bound` are rounded. Overflow is excluded.
-/

namespace SafeLearning

variable {K : Type} [Field K] [LinearOrder K] [IsStrictOrderedRing K]

/-- Floating point arithmetic without overflow and underflow: every operation is rounded with relative
error at most `u`. -/
structure _root_.Spec.RoundedArith (A : Flt.Arith K) (fl : K → K) (u : K) : Prop where
  rnd : ∀ x, A.rnd x = .fin (fl x)
  within : Spec.RoundsWithin fl u

/-- The size of the numbers that are compared for the state `x`: the change of the value, the error
bound and the threshold. -/
def _root_.Spec.checkSize {d : ℕ} (V : (Fin d → K) → K) (lv : LipArg K d) (lf : LipDyn K d)
    (x : Fin d → K) (p : Prediction K d) (tau : K) : K :=
  (match p with
    | .exact next => |V next - V x|
    | .uncertain mean error => |V mean - V x| + ∑ i, |lv.entry mean i * error i|) +
  |thresholdAt lv lf x tau|

/-- The effect of the rounding errors in dimension `d`. -/
def _root_.Spec.roundingMargin {d : ℕ} (u : K) (V : (Fin d → K) → K) (lv : LipArg K d)
    (lf : LipDyn K d) (x : Fin d → K) (p : Prediction K d) (tau : K) : K :=
  ((1 + u) ^ (d + 3) - 1) * Spec.checkSize V lv lf x p tau

/-! ## A calculus of rounding errors -/

/-- `a` is `b` after at most `m` roundings of numbers of size `s`. -/
def NearBy (u : K) (m : ℕ) (a b s : K) : Prop := |b| ≤ s ∧ |a - b| ≤ ((1 + u) ^ m - 1) * s

namespace NearBy

variable {u : K} {m m' : ℕ} {a b s a' b' s' : K}

theorem exact (u b : K) : NearBy u 0 b b |b| := ⟨le_rfl, by simp⟩

theorem gamma_nonneg (hu : 0 ≤ u) (m : ℕ) : 0 ≤ (1 + u) ^ m - 1 := by
  have := one_le_pow₀ (by linarith : (1 : K) ≤ 1 + u) (n := m)
  linarith

theorem size (h : NearBy u m a b s) : 0 ≤ s := (abs_nonneg b).trans h.1

theorem mono (hu : 0 ≤ u) (h : NearBy u m a b s) (hm : m ≤ m') : NearBy u m' a b s := by
  refine ⟨h.1, h.2.trans (mul_le_mul_of_nonneg_right ?_ h.size)⟩
  have := pow_le_pow_right₀ (by linarith : (1 : K) ≤ 1 + u) hm
  linarith

theorem abs_left (h : NearBy u m a b s) : |a| ≤ (1 + u) ^ m * s := by
  have h1 : |a| ≤ |a - b| + |b| := by
    have := abs_add_le (a - b) b
    rwa [sub_add_cancel] at this
  linarith [h.1, h.2]

theorem round {fl : K → K} (hfl : Spec.RoundsWithin fl u) (h : NearBy u m a b s) :
    NearBy u (m + 1) (fl a) b s := by
  refine ⟨h.1, ?_⟩
  have h1 : |fl a - b| ≤ |fl a - a| + |a - b| := by
    have := abs_add_le (fl a - a) (a - b)
    rwa [sub_add_sub_cancel] at this
  have h2 := mul_le_mul_of_nonneg_left h.abs_left hfl.nonneg
  have := hfl.err a
  rw [pow_succ]
  linarith [h.2]

theorem add (h : NearBy u m a b s) (h' : NearBy u m a' b' s') :
    NearBy u m (a + a') (b + b') (s + s') := by
  refine ⟨(abs_add_le _ _).trans (add_le_add h.1 h'.1), ?_⟩
  have h1 : |a + a' - (b + b')| ≤ |a - b| + |a' - b'| := by
    have := abs_add_le (a - b) (a' - b')
    rwa [show a - b + (a' - b') = a + a' - (b + b') by ring] at this
  linarith [h.2, h'.2]

theorem mul (h : NearBy u m a b s) (h' : NearBy u m' a' b' s') :
    NearBy u (m + m') (a * a') (b * b') (s * s') := by
  refine ⟨by rw [abs_mul]; exact mul_le_mul h.1 h'.1 (abs_nonneg _) h.size, ?_⟩
  have h1 : |a * a' - b * b'| ≤ |a| * |a' - b'| + |a - b| * |b'| := by
    have := abs_add_le (a * (a' - b')) ((a - b) * b')
    rwa [abs_mul, abs_mul, show a * (a' - b') + (a - b) * b' = a * a' - b * b' by ring] at this
  have h2 : |a| * |a' - b'| ≤ ((1 + u) ^ m * s) * (((1 + u) ^ m' - 1) * s') :=
    mul_le_mul h.abs_left h'.2 (abs_nonneg _) ((abs_nonneg a).trans h.abs_left)
  have h3 : |a - b| * |b'| ≤ (((1 + u) ^ m - 1) * s) * s' :=
    mul_le_mul h.2 h'.1 (abs_nonneg _) ((abs_nonneg _).trans h.2)
  have h4 : ((1 + u) ^ (m + m') - 1) * (s * s') =
      ((1 + u) ^ m * s) * (((1 + u) ^ m' - 1) * s') + (((1 + u) ^ m - 1) * s) * s' := by
    rw [pow_add]; ring
  rw [h4]
  linarith

theorem neg (h : NearBy u m a b s) : NearBy u m (-a) (-b) s := by
  refine ⟨by rw [abs_neg]; exact h.1, ?_⟩
  rw [show -a - -b = -(a - b) by ring, abs_neg]
  exact h.2

end NearBy

namespace FltLyap

open Flt Spec

variable {Prog Θ : Type} {d : ℕ} {A : Arith K} {fl : K → K} {u : K}

/-- Sums from left to right. -/
theorem sum_near (hA : RoundedArith A fl u) {m : ℕ} (l : List (K × K × K))
    (hl : ∀ q ∈ l, NearBy u m q.1 q.2.1 q.2.2) :
    ∀ (j : ℕ) (a b s : K), m ≤ j → NearBy u j a b s →
      ∃ r, (l.map fun q => fin q.1).foldl (add A) (fin a) = fin r ∧
        NearBy u (j + l.length) r (b + (l.map fun q => q.2.1).sum) (s + (l.map fun q => q.2.2).sum) := by
  induction l with
  | nil => intro j a b s _ h; exact ⟨a, rfl, by simpa using h⟩
  | cons q l ih =>
    intro j a b s hj h
    have h1 : add A (fin a) (fin q.1) = fin (fl (a + q.1)) := hA.rnd _
    have h2 := (h.add ((hl q (by simp)).mono hA.within.nonneg hj)).round hA.within
    obtain ⟨r, hr, hn⟩ := ih (fun q' hq' => hl q' (by simp [hq'])) (j + 1) _ _ _ (by omega) h2
    refine ⟨r, by rw [List.map_cons, List.foldl_cons, h1]; exact hr, ?_⟩
    simp only [List.map_cons, List.sum_cons, List.length_cons]
    rw [show j + (l.length + 1) = j + 1 + l.length by omega, ← add_assoc, ← add_assoc]
    exact hn

theorem sum_ofFn_near (hA : RoundedArith A fl u) {m : ℕ} (a b s : Fin d → K)
    (h : ∀ i, NearBy u m (a i) (b i) (s i)) :
    ∃ r, sum A (List.ofFn fun i => fin (a i)) = fin r ∧ NearBy u (m + d) r (∑ i, b i) (∑ i, s i) := by
  obtain ⟨r, hr, hn⟩ := sum_near hA (m := m) (List.ofFn fun i => (a i, b i, s i))
    (by intro q hq; rw [List.mem_ofFn] at hq; obtain ⟨i, rfl⟩ := hq; exact h i) m 0 0 0 le_rfl
    (by have := (NearBy.exact u 0).mono hA.within.nonneg (Nat.zero_le m); simpa using this)
  refine ⟨r, ?_, ?_⟩
  · unfold Flt.sum
    rw [← hr, List.map_ofFn]
    rfl
  · rw [List.map_ofFn, List.map_ofFn, List.sum_ofFn, List.sum_ofFn, List.length_ofFn, zero_add,
      zero_add] at hn
    exact hn

variable (sys : System K Prog Θ d) (g : GridWorld K d)
    (argsort : (Fin g.nindex → K) → List (Fin g.nindex)) (tauDiv : K → ℕ → K)

/-- The rounded upper bound on the change of the value. -/
theorem decrease_near (hA : RoundedArith A fl u) (p : Prog) (θ : Θ) (k : Fin g.nindex) :
    ∃ D, decreaseAt A (finiteWorld sys g argsort tauDiv) p θ k = fin D ∧
      NearBy u (d + 3) D
        (vDecreaseBound (sys.V θ) (sys.lv θ) (gridState g k) (sys.closedLoop p θ (gridState g k)))
        (match sys.closedLoop p θ (gridState g k) with
          | .exact next => |sys.V θ next - sys.V θ (gridState g k)|
          | .uncertain mean error => |sys.V θ mean - sys.V θ (gridState g k)| +
              ∑ i, |(sys.lv θ).entry mean i * error i|) := by
  have hu := hA.within.nonneg
  unfold decreaseAt decrease
  simp only [vDecreaseBound, vDecreaseConfidence]
  have hcl : (finiteWorld sys g argsort tauDiv).closedLoop p θ
      ((finiteWorld sys g argsort tauDiv).state k) =
      match sys.closedLoop p θ (gridState g k) with
        | .exact y => .exact fun i => .fin (y i)
        | .uncertain m e => .uncertain (fun i => .fin (m i)) fun i => .fin (e i) := rfl
  rw [hcl]
  have hs : ∀ y : Fin d → K, sub A ((finiteWorld sys g argsort tauDiv).V θ fun i => fin (y i))
        ((finiteWorld sys g argsort tauDiv).V θ ((finiteWorld sys g argsort tauDiv).state k)) =
        fin (fl (sys.V θ y - sys.V θ (gridState g k))) := by
    intro y; rw [sub_eq_add_neg]; exact hA.rnd _
  cases sys.closedLoop p θ (gridState g k) with
  | exact y =>
    simp only []
    rw [hs y]
    refine ⟨fl (fl (sys.V θ y - sys.V θ (gridState g k)) + 0), hA.rnd _, ?_⟩
    rw [add_zero, add_zero]
    exact (((NearBy.exact u _).round hA.within).round hA.within).mono hu (by omega)
  | uncertain mean error =>
    simp only []
    rw [hs mean]
    have hl : ∀ i, Flt.mul A (lipEntry ((finiteWorld sys g argsort tauDiv).lv θ)
        (fun i => fin (mean i)) i) (fin (error i)) = fin (fl ((sys.lv θ).entry mean i * error i)) := by
      intro i
      have : lipEntry ((finiteWorld sys g argsort tauDiv).lv θ) (fun i => fin (mean i)) i =
          fin ((sys.lv θ).entry mean i) := by
        simp only [finiteWorld]
        cases sys.lv θ <;> rfl
      rw [this]
      exact hA.rnd _
    obtain ⟨r, hr, hn⟩ := sum_ofFn_near hA (m := 1) (fun i => fl ((sys.lv θ).entry mean i * error i))
      (fun i => (sys.lv θ).entry mean i * error i) (fun i => |(sys.lv θ).entry mean i * error i|)
      (fun i => (NearBy.exact u _).round hA.within)
    simp only [hl]
    rw [hr]
    refine ⟨fl (fl (sys.V θ mean - sys.V θ (gridState g k)) + r), hA.rnd _, ?_⟩
    exact (((((NearBy.exact u _).round hA.within).mono hu (by omega : 0 + 1 ≤ 1 + d)).add hn).round
      hA.within).mono hu (by omega)

/-- The rounded threshold. -/
theorem threshold_near (hA : RoundedArith A fl u) (θ : Θ) (k : Fin g.nindex) (tau : K) :
    ∃ T, thresholdOf A (finiteWorld sys g argsort tauDiv) θ k (fin tau) = fin T ∧
      NearBy u (d + 3) T (thresholdAt (sys.lv θ) (sys.lf θ) (gridState g k) tau)
        |thresholdAt (sys.lv θ) (sys.lf θ) (gridState g k) tau| := by
  have hu := hA.within.nonneg
  -- the Lipschitz constant of the Lyapunov function
  have hnorm : ∃ N, lipNorm A ((finiteWorld sys g argsort tauDiv).lv θ)
      ((finiteWorld sys g argsort tauDiv).state k) = fin N ∧
      NearBy u d N ((sys.lv θ).forThreshold (gridState g k)) |(sys.lv θ).forThreshold (gridState g k)| := by
    simp only [finiteWorld]
    cases sys.lv θ with
    | const c => exact ⟨c, rfl, (NearBy.exact u c).mono hu (Nat.zero_le _)⟩
    | scalar f => exact ⟨f (gridState g k), rfl, (NearBy.exact u _).mono hu (Nat.zero_le _)⟩
    | vector f =>
      unfold lipNorm LipArg.forThreshold
      simp only []
      by_cases hd : 1 < d
      · rw [if_pos hd, if_pos hd]
        obtain ⟨r, hr, hn⟩ := sum_ofFn_near hA (m := 0) (fun i => |f (gridState g k) i|)
          (fun i => |f (gridState g k) i|) (fun i => |f (gridState g k) i|)
          (fun i => by have := NearBy.exact u |f (gridState g k) i|; rwa [abs_abs] at this)
        refine ⟨r, hr, ?_⟩
        rw [zero_add] at hn
        rwa [abs_of_nonneg (Finset.sum_nonneg fun i _ => abs_nonneg (f (gridState g k) i))]
      · rw [if_neg hd, if_neg hd]
        by_cases h0 : 0 < d
        · rw [dif_pos h0]
          obtain rfl : d = 1 := by omega
          refine ⟨f (gridState g k) 0, rfl, ?_⟩
          rw [Fin.sum_univ_one]
          exact (NearBy.exact u _).mono hu (Nat.zero_le _)
        · rw [dif_neg h0]
          obtain rfl : d = 0 := by omega
          refine ⟨0, rfl, ?_⟩
          simpa using NearBy.exact u 0
  obtain ⟨N, hN, hn⟩ := hnorm
  have hlf : lipDyn ((finiteWorld sys g argsort tauDiv).lf θ)
      ((finiteWorld sys g argsort tauDiv).state k) = fin ((sys.lf θ).at (gridState g k)) := by
    simp only [finiteWorld]
    cases sys.lf θ <;> rfl
  unfold thresholdOf threshold
  rw [hN, hlf]
  have h1 : Flt.add A (fin 1) (fin ((sys.lf θ).at (gridState g k))) =
      fin (fl (1 + (sys.lf θ).at (gridState g k))) := hA.rnd _
  rw [h1]
  have h2 : Flt.mul A (Flt.neg (fin N)) (fin (fl (1 + (sys.lf θ).at (gridState g k)))) =
      fin (fl (-N * fl (1 + (sys.lf θ).at (gridState g k)))) := hA.rnd _
  rw [h2]
  refine ⟨fl (fl (-N * fl (1 + (sys.lf θ).at (gridState g k))) * tau), hA.rnd _, ?_⟩
  have h3 := ((((hn.neg.mul ((NearBy.exact u (1 + (sys.lf θ).at (gridState g k))).round
    hA.within)).round hA.within).mul (NearBy.exact u tau)).round hA.within)
  unfold thresholdAt
  rw [abs_mul, abs_mul, abs_neg]
  exact h3.mono hu (by omega)

/-! ## The check -/

/-- **C119**, one comparison: if the rounded numbers pass the test of `update_safe_set`, the exact numbers
pass it up to the margin. -/
theorem C119_check_partial (hA : RoundedArith A fl u) (p : Prog) (θ : Θ) (k : Fin g.nindex) (tau : K)
    (h : lt (decreaseAt A (finiteWorld sys g argsort tauDiv) p θ k)
      (thresholdOf A (finiteWorld sys g argsort tauDiv) θ k (fin tau)) = true) :
    vDecreaseBound (sys.V θ) (sys.lv θ) (gridState g k) (sys.closedLoop p θ (gridState g k)) <
      thresholdAt (sys.lv θ) (sys.lf θ) (gridState g k) tau +
      roundingMargin u (sys.V θ) (sys.lv θ) (sys.lf θ) (gridState g k)
        (sys.closedLoop p θ (gridState g k)) tau := by
  obtain ⟨D, hD, h1⟩ := decrease_near sys g argsort tauDiv hA p θ k
  obtain ⟨T, hT, h2⟩ := threshold_near sys g argsort tauDiv hA θ k tau
  rw [hD, hT] at h
  have h3 : D < T := by simpa [lt] using h
  have h4 := (abs_le.mp h1.2).1
  have h5 := (abs_le.mp h2.2).2
  unfold roundingMargin checkSize
  rw [mul_add]
  linarith

/-- **C119**, the converse: if the exact numbers pass the test with the margin, the rounded numbers pass
it. -/
theorem C119_complete_partial (hA : RoundedArith A fl u) (p : Prog) (θ : Θ) (k : Fin g.nindex) (tau : K)
    (h : vDecreaseBound (sys.V θ) (sys.lv θ) (gridState g k) (sys.closedLoop p θ (gridState g k)) +
      roundingMargin u (sys.V θ) (sys.lv θ) (sys.lf θ) (gridState g k)
        (sys.closedLoop p θ (gridState g k)) tau <
      thresholdAt (sys.lv θ) (sys.lf θ) (gridState g k) tau) :
    lt (decreaseAt A (finiteWorld sys g argsort tauDiv) p θ k)
      (thresholdOf A (finiteWorld sys g argsort tauDiv) θ k (fin tau)) = true := by
  obtain ⟨D, hD, h1⟩ := decrease_near sys g argsort tauDiv hA p θ k
  obtain ⟨T, hT, h2⟩ := threshold_near sys g argsort tauDiv hA θ k tau
  rw [hD, hT]
  have h4 := (abs_le.mp h1.2).2
  have h5 := (abs_le.mp h2.2).1
  unfold roundingMargin checkSize at h
  rw [mul_add] at h
  have h3 : D < T := by linarith
  simpa [lt] using h3

/-! ## Histories -/

section History

variable [FloorRing K]

/-- What some call of the history has established about a grid state. -/
def _root_.Spec.CertifiedUpToRounding (u : K) (prog : Prog) (tau : K) (ops : List (Lyap.Op K Prog Θ))
    (k : Fin g.nindex) : Prop :=
  ∃ p t t' batch args θ, Lyap.Op.update batch args θ ∈ ops ∧
    (p = prog ∨ Lyap.Op.setProg p ∈ ops) ∧ (t = tau ∨ Lyap.Op.setTau t ∈ ops) ∧
    (t' = t ∨ ∃ N, 1 ≤ N ∧ N ≤ args.maxRefinement ∧ t' = tauDiv t N) ∧
    vDecreaseBound (sys.V θ) (sys.lv θ) (gridState g k) (sys.closedLoop p θ (gridState g k)) <
      thresholdAt (sys.lv θ) (sys.lf θ) (gridState g k) t' +
      roundingMargin u (sys.V θ) (sys.lv θ) (sys.lf θ) (gridState g k)
        (sys.closedLoop p θ (gridState g k)) t'

/-- Some call of `update_safe_set` in the history has established `Q` about the grid state `k`, for parameters, dynamics and a
discretisation constant that were set at some time. -/
def EstablishedBy {n : ℕ} (Q : Prog → Θ → Fin n → K → Prop) (prog : Prog) (tau : K) (ops : List (Lyap.Op K Prog Θ))
    (k : Fin n) : Prop :=
  ∃ p t t' batch args θ, Lyap.Op.update batch args θ ∈ ops ∧
    (p = prog ∨ Lyap.Op.setProg p ∈ ops) ∧ (t = tau ∨ Lyap.Op.setTau t ∈ ops) ∧
    (t' = t ∨ ∃ N, 1 ≤ N ∧ N ≤ args.maxRefinement ∧ t' = tauDiv t N) ∧ Q p θ k t'

/-- Histories in any arithmetic: what follows from a comparison that succeeds holds for all safe states that are not initial. -/
theorem history_established (Q : Prog → Θ → Fin g.nindex → K → Prop)
    (hQ : ∀ p θ k t, lt (decreaseAt A (finiteWorld sys g argsort tauDiv) p θ k)
      (thresholdOf A (finiteWorld sys g argsort tauDiv) θ k (fin t)) = true → Q p θ k t)
    (prog : Prog) (tau : K)
    (initial : Option (Fin g.nindex → Bool)) (adaptive : Bool) (θ₀ : Θ)
    (ops : List (Lyap.Op K Prog Θ)) (k : Fin g.nindex)
    (hk : (run A (finiteWorld sys g argsort tauDiv)
      (new (finiteWorld sys g argsort tauDiv) prog (fin tau) initial adaptive θ₀)
      (ops.map finiteOp)).safeSet k = true) :
    (∃ I, initial = some I ∧ I k = true) ∨ EstablishedBy tauDiv Q prog tau ops k := by
  set W := finiteWorld sys g argsort tauDiv with hWdef
  suffices H : ∀ (done rest : List (Lyap.Op K Prog Θ)) (s : Lyap (Flt K) Prog g.nindex),
      ops = done ++ rest → s.initial = initial →
      (∃ t, s.tau = fin t ∧ (t = tau ∨ Lyap.Op.setTau t ∈ ops)) →
      (s.prog = prog ∨ Lyap.Op.setProg s.prog ∈ ops) →
      (∀ G, s.graph = some G → (∃ t, G.tau = fin t ∧ (t = tau ∨ Lyap.Op.setTau t ∈ ops)) ∧
        (G.prog = prog ∨ Lyap.Op.setProg G.prog ∈ ops)) →
      (∀ j, s.safeSet j = true → (∃ I, initial = some I ∧ I j = true) ∨
        EstablishedBy tauDiv Q prog tau ops j) →
      ∀ j, (run A W s (rest.map finiteOp)).safeSet j = true → (∃ I, initial = some I ∧ I j = true) ∨
        EstablishedBy tauDiv Q prog tau ops j by
    refine H [] ops _ rfl rfl ⟨tau, rfl, Or.inl rfl⟩ (Or.inl rfl) (by simp [new]) ?_ k hk
    intro j hj
    left
    simp only [new] at hj
    cases initial with
    | none => cases hj
    | some I => exact ⟨I, rfl, hj⟩
  intro done rest
  induction rest generalizing done with
  | nil => intro s _ _ _ _ _ h j hj; exact h j hj
  | cons op rest ih =>
    intro s heq hinit hst hsp hsg hsafe j hj
    have hmem : op ∈ ops := by rw [heq]; simp
    have heq' : ops = (done ++ [op]) ++ rest := by rw [heq]; simp
    cases op with
    | updateValues θ => exact ih _ (step A W s (.updateValues θ)) heq' hinit hst hsp hsg hsafe j hj
    | setProg p => exact ih _ (step A W s (.setProg p)) heq' hinit hst (Or.inr hmem) hsg hsafe j hj
    | setTau t =>
      exact ih _ (step A W s (.setTau (fin t))) heq' hinit ⟨t, rfl, Or.inr hmem⟩ hsp hsg hsafe j hj
    | setAdaptive b => exact ih _ (step A W s (.setAdaptive b)) heq' hinit hst hsp hsg hsafe j hj
    | update batch args θ =>
      set fargs : Lyap.UpdateArgs (Flt K) :=
        ⟨args.canShrink, args.maxRefinement, .fin args.safetyFactor⟩ with hargs
      have hG : (∃ t, (graphFor s fargs.safetyFactor).tau = fin t ∧
            (t = tau ∨ Lyap.Op.setTau t ∈ ops)) ∧
          ((graphFor s fargs.safetyFactor).prog = prog ∨
            Lyap.Op.setProg (graphFor s fargs.safetyFactor).prog ∈ ops) := by
        unfold graphFor
        cases hg : s.graph with
        | none => exact ⟨hst, hsp⟩
        | some G => exact hsg G hg
      obtain ⟨h1, h2, h3, h4, h5, h6, h7⟩ := updateSafeSet_shape A W batch fargs s θ _ rfl
      refine ih _ (updateSafeSet A W batch fargs s θ).1 heq' (h2.trans hinit) (by rw [h4]; exact hst)
        (by rw [h3]; exact hsp) ?_ ?_ j hj
      · intro G' hG'
        rw [h1] at hG'
        cases hG'
        exact hG
      · have hIm : ∀ j, initialMem s j = true → ∃ I, initial = some I ∧ I j = true := by
          intro j hj
          unfold initialMem at hj
          rw [hinit] at hj
          cases initial with
          | none => cases hj
          | some I => exact ⟨I, rfl, hj⟩
        intro j hj
        obtain ⟨⟨t, ht, ht'⟩, hp⟩ := hG
        rcases h7 with ⟨h7, -⟩ | ⟨p, -, h7⟩
        · rw [h7] at hj; exact hsafe j hj
        · rcases h7 j hj with h | h | h | ⟨fed, N, ha, hN, hM, -, hb⟩
          · exact Or.inl (hIm j h)
          · unfold startFlag at h
            split_ifs at h
            · exact Or.inl (hIm j h)
            · exact hsafe j h
          · unfold negative at h
            rw [ht] at h
            exact Or.inr ⟨_, t, t, batch, args, θ, hmem, hp, ht', Or.inl rfl,
              hQ _ θ j t h⟩
          · unfold refinedNegative at hb
            rw [List.all_eq_true, ht] at hb
            exact Or.inr ⟨_, t, tauDiv t N, batch, args, θ, hmem, hp, ht', Or.inr ⟨N, hN, hM, rfl⟩,
              hQ _ θ j _ (hb j ha)⟩

/-- **C119**, histories: whatever is called on a new object, a state is safe at the end only if it is
initial or some earlier call of `update_safe_set` established the decrease condition there up to the
effect of rounding. -/
theorem C119_history_partial (hA : RoundedArith A fl u) (prog : Prog) (tau : K)
    (initial : Option (Fin g.nindex → Bool)) (adaptive : Bool) (θ₀ : Θ)
    (ops : List (Lyap.Op K Prog Θ)) (k : Fin g.nindex)
    (hk : (run A (finiteWorld sys g argsort tauDiv)
      (new (finiteWorld sys g argsort tauDiv) prog (fin tau) initial adaptive θ₀)
      (ops.map finiteOp)).safeSet k = true) :
    (∃ I, initial = some I ∧ I k = true) ∨ CertifiedUpToRounding sys g tauDiv u prog tau ops k :=
  history_established sys g argsort tauDiv (fun p θ k t =>
      vDecreaseBound (sys.V θ) (sys.lv θ) (gridState g k) (sys.closedLoop p θ (gridState g k)) <
        thresholdAt (sys.lv θ) (sys.lf θ) (gridState g k) t +
        roundingMargin u (sys.V θ) (sys.lv θ) (sys.lf θ) (gridState g k) (sys.closedLoop p θ (gridState g k)) t)
    (fun p θ k t h => C119_check_partial sys g argsort tauDiv hA p θ k t h) prog tau initial adaptive θ₀ ops k hk

end History

/-! ## The continuous state space -/

/-- **C119**, cells: the true closed loop `f` lies in the confidence region at the grid state `x`, and the
true Lyapunov function `V` and `f` have the Lipschitz constants that are given to the code. A state that
passes the exact test up to `margin`, with a discretisation constant `tau`, satisfies: from every
continuous state within `r` of it the value decreases strictly, provided the discretisation constant
given to the code is larger than `r` by enough to cover the margin and the error `η` of the computed
values of the Lyapunov function. -/
theorem C119_decrease_in_cell_partial (V Vc : (Fin d → K) → K) (Lv Lf tau r margin η : K)
    (f : (Fin d → K) → Fin d → K) (dist : (Fin d → K) → (Fin d → K) → K) (hLv : 0 ≤ Lv) (hLf : 0 ≤ Lf)
    (hV : ∀ y z, |V y - V z| ≤ Lv * dist y z) (hV1 : ∀ y z, |V y - V z| ≤ Lv * ∑ i, |y i - z i|)
    (hf : ∀ y z, dist (f y) (f z) ≤ Lf * dist y z) (x : Fin d → K) (p : Prediction K d)
    (hp : p.Contains (f x)) (hη : |Vc x - V x| ≤ η ∧ |Vc p.center - V p.center| ≤ η)
    (hdec : vDecreaseBound Vc (.const Lv) x p <
      thresholdAt (.const Lv) (.const Lf) x tau + margin)
    (hr : margin + 2 * η ≤ Lv * (1 + Lf) * (tau - r))
    (z : Fin d → K) (hz : dist z x ≤ r) : V (f z) < V z := by
  have h1 := C26_v_decrease_bound_constant V Lv hLv hV1 x (f x) p hp
  have h0 : vDecreaseBound V (.const Lv) x p ≤ vDecreaseBound Vc (.const Lv) x p + 2 * η := by
    obtain ⟨e1, e2⟩ := hη
    have e3 := (abs_le.mp e1).2
    have e4 := (abs_le.mp e2).1
    unfold vDecreaseBound vDecreaseConfidence
    cases p with
    | exact y =>
      simp only [Prediction.center] at e4
      simp only []
      linarith
    | uncertain m e =>
      simp only [Prediction.center] at e4
      simp only []
      linarith
  have h2 := (abs_le.mp (hV (f z) (f x))).2
  have h3 := (abs_le.mp (hV z x)).1
  have h4 := hf z x
  have h5 : Lv * dist (f z) (f x) ≤ Lv * (Lf * r) :=
    mul_le_mul_of_nonneg_left (h4.trans (mul_le_mul_of_nonneg_left hz hLf)) hLv
  have h6 : Lv * dist z x ≤ Lv * r := mul_le_mul_of_nonneg_left hz hLv
  have h7 : thresholdAt (.const Lv) (.const Lf) x tau = -(Lv * (1 + Lf) * tau) := by
    unfold thresholdAt LipArg.forThreshold LipDyn.at; simp only []; ring
  have h8 : Lv * (1 + Lf) * (tau - r) = Lv * (1 + Lf) * tau - Lv * (Lf * r) - Lv * r := by ring
  rw [h7] at hdec
  linarith

/-! ## Samples -/

/-- **C119**, `get_safe_sample`: if the candidate `q` is accepted in rounded arithmetic, every state `y`
inside the confidence region of its next state has a value below `c_max`, up to the effect of rounding,
for every function `V` that has the value `v` and the Lipschitz constants `l` at the predicted state. -/
theorem C119_sample_partial {n m : ℕ} (hA : RoundedArith A fl u) (S : FSample K n m) (positive : Bool)
    (q : Pair (Flt K) n m) (mean e l : Fin n → K) (v c : K)
    (hm : (S.dynamics q).1 = fun i => fin (mean i)) (he : (S.dynamics q).2 = fun i => fin (e i))
    (hl : ∀ i, lipEntry S.lv (fun i => fin (mean i)) i = fin (l i))
    (hv : S.V (fun i => fin (mean i)) = fin v) (hc : S.cMax = fin c)
    (h : accepted A S positive q = .ok true) (V : (Fin n → K) → K) (hV0 : V mean = v)
    (hl0 : ∀ i, 0 ≤ l i) (hV : ∀ y, |V y - V mean| ≤ ∑ i, l i * |y i - mean i|)
    (y : Fin n → K) (hy : ∀ i, |y i - mean i| ≤ e i) :
    V y < c + ((1 + u) ^ (n + 2) - 1) * (|v| + ∑ i, l i * e i) := by
  have hmaps : mapsInside A S q = true := by
    unfold accepted at h
    cases positive with
    | true => simpa [pure, Except.pure] using h
    | false =>
      cases hs : S.inSafeSet (S.dynamics q).1 with
      | error e => rw [hs] at h; simp [bind, Except.bind] at h
      | ok b =>
        rw [hs] at h
        simp only [bind, Except.bind, pure, Except.pure, Bool.false_eq_true, if_false, Except.ok.injEq,
          Bool.and_eq_true] at h
        exact h.1
  unfold mapsInside at hmaps
  have hle : ∀ i, 0 ≤ l i * e i := fun i => mul_nonneg (hl0 i) ((abs_nonneg _).trans (hy i))
  have hprod : ∀ i, Flt.mul A (fin (l i)) (fin (e i)) = fin (fl (l i * e i)) := fun i => hA.rnd _
  obtain ⟨r, hr, hn⟩ := sum_ofFn_near hA (m := 1) (fun i => fl (l i * e i)) (fun i => l i * e i)
    (fun i => l i * e i) (fun i => by
      have := (NearBy.exact u (l i * e i)).round hA.within
      rwa [abs_of_nonneg (hle i)] at this)
  rw [hm, he, hv, hc] at hmaps
  simp only [hl, hprod] at hmaps
  rw [hr] at hmaps
  have hadd : Flt.add A (fin v) (fin r) = fin (fl (v + r)) := hA.rnd _
  rw [hadd] at hmaps
  have hlt : fl (v + r) < c := by simpa [lt] using hmaps
  have hnear := ((((NearBy.exact u v).mono hA.within.nonneg (Nat.zero_le (1 + n))).add hn).round
    hA.within).2
  have h1 := (abs_le.mp hnear).1
  have h2 := (abs_le.mp (hV y)).2
  have h3 : ∑ i, l i * |y i - mean i| ≤ ∑ i, l i * e i :=
    Finset.sum_le_sum fun i _ => mul_le_mul_of_nonneg_left (hy i) (hl0 i)
  rw [show 1 + n + 1 = n + 2 by omega] at h1
  linarith

/-! ## A concrete case, and what rounding can do -/

/-- Double precision numbers without overflow. -/
def _root_.Spec.doubleArith : Arith ℚ :=
  ⟨fun x => .fin (roundBinary 53 x), fun _ => .pinf, fun
    | .fin x => ⌊x⌋₊
    | _ => 0⟩

theorem doubleArith_rounded : RoundedArith doubleArith (roundBinary 53) ((2 : ℚ) ^ (-(53 : ℕ) : ℤ)) :=
  ⟨fun _ => rfl, roundBinary_within 53 (by norm_num)⟩

/-- The predicted next state, for every state. -/
def lostMean : Fin 3 → ℚ := ![1 / 2 ^ 54, 0, 0]

/-- Its error bounds. -/
def lostError : Fin 3 → ℚ := ![1 - 1 / 2 ^ 53, 3 / 2 ^ 56, 3 / 2 ^ 56]

/-- The 1-norm as Lyapunov function and dynamics that jump to the same state from everywhere. -/
def lostSystem : System ℚ Unit Unit 3 where
  V _ x := |x 0| + |x 1| + |x 2|
  lv _ := .const 1
  lf _ := .const 0
  closedLoop _ _ _ := .uncertain lostMean lostError

/-- The grid on the cube between `(1, 0, 0)` and `(2, 1, 1)`. -/
def lostGrid : GridWorld ℚ 3 := ⟨![1, 0, 0], ![2, 1, 1], fun _ => 2⟩

/-- A stable sort. -/
def lostSort (v : Fin lostGrid.nindex → ℚ) : List (Fin lostGrid.nindex) :=
  (List.finRange lostGrid.nindex).insertionSort fun i j => v i ≤ v j

/-- **C119** fails without the margin. All inputs are double precision numbers, the Lyapunov function is
1-Lipschitz, the true dynamics are constant and inside the confidence region, and the discretisation
constant is positive. The arithmetic of double precision numbers certifies the grid state `(1, 0, 0)`
although the true dynamics increase the value there: the small error bounds of the second and the third
coordinate are lost in the sum. -/
theorem C119_unsound_refuted : ∃ (f : (Fin 3 → ℚ) → Fin 3 → ℚ) (k : Fin lostGrid.nindex),
    (∀ i, roundBinary 53 (lostMean i) = lostMean i ∧ roundBinary 53 (lostError i) = lostError i ∧
      roundBinary 53 (gridState lostGrid k i) = gridState lostGrid k i) ∧
    (∀ x y, |lostSystem.V () x - lostSystem.V () y| ≤ 1 * ∑ i, |x i - y i|) ∧
    (∀ x y, f x = f y) ∧ (∀ x, (lostSystem.closedLoop () () x).Contains (f x)) ∧
    (run doubleArith (finiteWorld lostSystem lostGrid lostSort fun t N => t / N)
      (new (finiteWorld lostSystem lostGrid lostSort fun t N => t / N) () (.fin (1 / 2 ^ 60)) none false ())
      [.update 100 ⟨true, 1, .fin 1⟩ ()]).safeSet k = true ∧
    lostSystem.V () (gridState lostGrid k) < lostSystem.V () (f (gridState lostGrid k)) := by
  refine ⟨fun _ i => lostMean i + lostError i, ⟨0, by decide +kernel⟩, by decide +kernel, ?_,
    fun _ _ => rfl, ?_, by decide +kernel, by decide +kernel⟩
  · intro x y
    simp only [lostSystem, Fin.sum_univ_three, one_mul]
    have h : ∀ a b : ℚ, |a| ≤ |b| + |a - b| ∧ |b| ≤ |a| + |a - b| := fun a b =>
      ⟨by have := abs_add_le b (a - b); rwa [add_sub_cancel] at this,
       by have := abs_add_le a (b - a); rwa [add_sub_cancel, abs_sub_comm b a] at this⟩
    rw [abs_le]
    constructor <;> linarith [h (x 0) (y 0), h (x 1) (y 1), h (x 2) (y 2), (h (x 0) (y 0)).1,
      (h (x 0) (y 0)).2, (h (x 1) (y 1)).1, (h (x 1) (y 1)).2, (h (x 2) (y 2)).1, (h (x 2) (y 2)).2]
  · intro x i
    simp only [add_sub_cancel_left]
    fin_cases i <;> norm_num [lostError, abs_of_nonneg]

/-- The history of the counterexample meets the hypotheses of `C119_history_partial`: the state passes the
exact test up to the margin. -/
example : CertifiedUpToRounding lostSystem lostGrid (fun t N => t / N) ((2 : ℚ) ^ (-(53 : ℕ) : ℤ)) ()
    (1 / 2 ^ 60) [.update 100 ⟨true, 1, 1⟩ ()] ⟨0, by decide +kernel⟩ :=
  (C119_history_partial lostSystem lostGrid lostSort (fun t N => t / N) doubleArith_rounded () (1 / 2 ^ 60) none
    false () [.update 100 ⟨true, 1, 1⟩ ()] _ (by decide +kernel)).resolve_left (by simp)

/-- An accepted sample: predicted next state 1 with error bound 1 / 10 and level 2. -/
example (y : Fin 1 → ℚ) (hy : |y 0 - 1| ≤ 1 / 10) :
    y 0 < 2 + ((1 + (2 : ℚ) ^ (-(53 : ℕ) : ℤ)) ^ 3 - 1) * (1 + 1 / 10) := by
  have := C119_sample_partial (n := 1) (m := 1) doubleArith_rounded
    ⟨fun _ => (fun _ => fin 1, fun _ => fin (1 / 10)), .const (fin 1), fun x => x 0, fin 2, fun _ => .ok true⟩
    false ⟨fun _ => fin 0, fun _ => fin 0⟩ (fun _ => 1) (fun _ => 1 / 10) (fun _ => 1) 1 2 rfl rfl
    (fun _ => rfl) rfl rfl (by decide +kernel) (fun x => x 0) rfl (by simp) (by simp) y
    (fun i => by fin_cases i; exact hy)
  simpa using this

/-- The margin is small: with the discretisation constant `1 / 1000` the next state `9 / 10` from `1` passes
the test in double precision, and the value decreases from every state within `1 / 1001` of `1`. -/
example (z : Fin 1 → ℚ) (hz : |z 0 - 1| ≤ 1 / 1001) : |(9 / 10 : ℚ) * z 0| < |z 0| := by
  have h : vDecreaseBound (fun x : Fin 1 → ℚ => |x 0|) (.const 1) ![1] (.exact ![9 / 10]) <
      thresholdAt (.const 1) (.const (9 / 10)) ![1] (1 / 1000) +
      roundingMargin ((2 : ℚ) ^ (-(53 : ℕ) : ℤ)) (fun x : Fin 1 → ℚ => |x 0|) (.const 1) (.const (9 / 10))
        ![1] (.exact ![9 / 10]) (1 / 1000) := by decide +kernel
  have hm : roundingMargin ((2 : ℚ) ^ (-(53 : ℕ) : ℤ)) (fun x : Fin 1 → ℚ => |x 0|) (.const 1)
      (.const (9 / 10)) ![1] (.exact ![9 / 10]) (1 / 1000) + 2 * 0 ≤
      1 * (1 + 9 / 10) * (1 / 1000 - 1 / 1001) := by decide +kernel
  refine C119_decrease_in_cell_partial (fun x : Fin 1 → ℚ => |x 0|) (fun x : Fin 1 → ℚ => |x 0|) 1 (9 / 10)
    (1 / 1000) (1 / 1001) _ 0 (fun x => ![9 / 10 * x 0]) (fun y z => |y 0 - z 0|) (by norm_num) (by norm_num)
    ?_ ?_ ?_ ![1] (.exact ![9 / 10]) ?_ (by simp) h hm z (by simpa using hz)
  · intro y z; rw [one_mul]; exact abs_abs_sub_abs_le _ _
  · intro y z; rw [one_mul, Fin.sum_univ_one]; exact abs_abs_sub_abs_le _ _
  · intro y z
    simp only [Matrix.cons_val_zero]
    rw [← mul_sub, abs_mul, abs_of_pos (by norm_num : (0 : ℚ) < 9 / 10)]
  · unfold Prediction.Contains
    simp

end FltLyap

end SafeLearning
