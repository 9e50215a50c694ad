import Verif.Props.FloatLinearRegion
set_option autoImplicit false

/-!
# C154, C155: quadratic functions and linear systems with underflow and overflow
-/

namespace SafeLearning

open Matrix Spec Flt FltLyap

variable {K : Type} [Field K] [LinearOrder K] [IsStrictOrderedRing K] {A : Arith K} {u ω : K} {d m n h a : ℕ}

theorem fused_near (hA : RoundsFinite A u ω) {X Y Z : Flt K} {b s c b' s' c' b'' s'' c'' : K} {k k' k'' : ℕ} (h1 : FNear u k X b s c) (h2 : FNear u k' Y b' s' c') (h3 : FNear u k'' Z b'' s'' c'')
    (hk : k' + k'' ≤ k) : FNear u (k + 1) (ieeeFused A X Y Z) (b + b' * b'') (s + s' * s'') (c + (s' * c'' + c' * s'' + c' * c'') + ω) := by
  intro r hr
  have hu := hA.nonneg
  cases X <;> cases Y <;> cases Z <;> simp only [ieeeFused, Flt.add, Flt.mul, timesInf, reduceCtorEq] at hr <;> try (split_ifs at hr <;> simp only [reduceCtorEq] at hr)
  exact ((h1 _ rfl).add (((h2 _ rfl).mul hu (h3 _ rfl)).mono hu hk le_rfl)).round hu hA.tiny (hA.err _ _ hr)

theorem SumOrder.ieeeEval_near (hA : RoundsFinite A u ω) {x y : Fin n → Flt K} {b s c b' s' c' : Fin n → K} {k k' : ℕ} (hx : ∀ i, FNear u k (x i) (b i) (s i) (c i))
    (hy : ∀ i, FNear u k' (y i) (b' i) (s' i) (c' i)) (t : SumOrder n) :
    FNear u (k + k' + 1 + t.height) (t.ieeeEval A x y) (t.entries.map fun i => b i * b' i).sum (t.entries.map fun i => s i * s' i).sum
      ((t.entries.map fun i => s i * c' i + c i * s' i + c i * c' i).sum + t.roundings * ω) := by
  induction t with
  | zero =>
    intro r hr
    obtain rfl := Flt.fin.inj hr
    refine ⟨by simp [entries], by simp [entries, roundings], by simp [entries, roundings]⟩
  | entry i => simpa [entries, ieeeEval, height, roundings] using FNear.mul hA (hx i) (hy i)
  | add l r hl hr =>
    have h1 := hl.mono hA.nonneg (show k + k' + 1 + l.height ≤ k + k' + 1 + max l.height r.height by omega) le_rfl
    have h2 := hr.mono hA.nonneg (show k + k' + 1 + r.height ≤ k + k' + 1 + max l.height r.height by omega) le_rfl
    have h3 := FNear.add hA h1 h2
    simp only [entries, ieeeEval, height, roundings, List.map_append, List.sum_append]
    refine h3.mono hA.nonneg (by omega) (le_of_eq ?_)
    push_cast
    ring
  | fused l i hl =>
    have h3 := fused_near hA hl (hx i) (hy i) (by omega)
    simp only [entries, ieeeEval, height, roundings, List.map_append, List.sum_append, List.map_cons, List.map_nil, List.sum_cons, List.sum_nil, add_zero]
    refine h3.mono hA.nonneg (by omega) (le_of_eq ?_)
    push_cast
    ring

theorem _root_.Spec.AddsAll.ieee_near (hA : RoundsFinite A u ω) {t : SumOrder n} (ht : AddsAll t h) (hta : t.roundings ≤ a) {x y : Fin n → Flt K} {b s c b' s' c' : Fin n → K} {k k' : ℕ}
    (hx : ∀ i, FNear u k (x i) (b i) (s i) (c i)) (hy : ∀ i, FNear u k' (y i) (b' i) (s' i) (c' i)) :
    FNear u (k + k' + 1 + h) (t.ieeeEval A x y) (∑ i, b i * b' i) (∑ i, s i * s' i) (∑ i, (s i * c' i + c i * s' i + c i * c' i) + a * ω) := by
  have e : ∀ c : Fin n → K, (t.entries.map c).sum = ∑ i, c i := by
    intro c
    rw [(ht.once.map c).sum_eq, ← List.ofFn_eq_map, List.sum_ofFn]
  have h1 := t.ieeeEval_near hA hx hy
  rw [e, e, e] at h1
  refine h1.mono hA.nonneg (Nat.add_le_add_left ht.height _) ?_
  have : (t.roundings : K) ≤ a := by exact_mod_cast hta
  have := mul_le_mul_of_nonneg_right this hA.tiny
  linarith

theorem ieeeDot_near (hA : RoundsFinite A u ω) {t : SumOrder n} (ht : AddsAll t h) (hta : t.roundings ≤ a) (x y : Fin n → K) :
    FNear u (h + 1) (ieeeDot A t (fun i => fin (x i)) fun i => fin (y i)) (∑ i, x i * y i) (∑ i, |x i| * |y i|) (a * ω) := by
  have h1 := ht.ieee_near hA hta (fun i => FNear.exact u (x i)) fun i => FNear.exact u (y i)
  refine h1.mono hA.nonneg (by omega) (le_of_eq ?_)
  simp

/-- **C154 (quadratic functions, underflow and overflow).** If the computed value is a finite number, it differs from `xᵀ P x` by at most the relative errors of the roundings and the absolute errors of the underflows, where `h` is the
largest number of additions in a row and `a` the largest number of roundings in a sum of products. -/
theorem C154_ieee_quadratic (hA : RoundsFinite A u ω) (order : Fin n → SumOrder n) (total : SumOrder n) (ho : ∀ j, AddsAll (order j) h) (ht : AddsAll total h)
    (hoa : ∀ j, (order j).roundings ≤ a) (hta : total.roundings ≤ a) (P : Matrix (Fin n) (Fin n) K) (x : Fin n → K) (v : K)
    (hv : ieeeQuadratic A order total P (fun i => fin (x i)) = fin v) :
    |v - x ⬝ᵥ (P *ᵥ x)| ≤ ((1 + u) ^ (2 * h + 2) - 1) * ∑ i, ∑ j, |x i| * |P i j| * |x j| + (1 + u) ^ (2 * h + 2) * (a * (1 + ∑ j, |x j|) * ω) := by
  have h1 := ht.ieee_near hA hta (fun j => ieeeDot_near hA (ho j) (hoa j) x fun i => P i j) fun j => FNear.exact u (x j)
  have h2 := (h1 v hv).2.2
  have e1 : ∑ j, (∑ i, x i * P i j) * x j = x ⬝ᵥ (P *ᵥ x) := C56_value P x
  have e2 : ∑ j, (∑ i, |x i| * |P i j|) * |x j| = ∑ i, ∑ j, |x i| * |P i j| * |x j| := by
    simp only [Finset.sum_mul]
    exact Finset.sum_comm
  have e3 : ∑ j, ((∑ i, |x i| * |P i j|) * 0 + a * ω * |x j| + a * ω * 0) + a * ω = a * (1 + ∑ j, |x j|) * ω := by
    simp only [mul_zero, zero_add, add_zero, Finset.sum_add_distrib, ← Finset.mul_sum, Finset.sum_const, Finset.card_univ, Fintype.card_fin, nsmul_eq_mul]
    ring
  rw [e1, e2, e3, show h + 1 + 0 + 1 + h = 2 * h + 2 by ring] at h2
  exact h2

theorem SumOrder.ieeeEval_finite {x y : Fin n → Flt K} (t : SumOrder n) (v : K) (hv : t.ieeeEval A x y = fin v) : ∀ i ∈ t.entries, (∃ r, x i = fin r) ∧ ∃ r, y i = fin r := by
  induction t generalizing v with
  | zero => simp [entries]
  | entry j =>
    simp only [entries, List.mem_singleton, forall_eq]
    simp only [ieeeEval] at hv
    generalize x j = X, y j = Y at hv
    cases X <;> cases Y <;> simp_all [Flt.mul, timesInf] <;> split_ifs at hv
  | add l r hl hr =>
    have : (∃ p, l.ieeeEval A x y = fin p) ∧ ∃ q, r.ieeeEval A x y = fin q := by
      simp only [ieeeEval] at hv
      generalize l.ieeeEval A x y = X, r.ieeeEval A x y = Y at hv
      cases X <;> cases Y <;> simp_all [Flt.add]
    obtain ⟨⟨p, hp⟩, q, hq⟩ := this
    intro i hi
    rcases List.mem_append.mp hi with h | h
    · exact hl p hp i h
    · exact hr q hq i h
  | fused l j hl =>
    have : (∃ p, l.ieeeEval A x y = fin p) ∧ (∃ r, x j = fin r) ∧ ∃ r, y j = fin r := by
      simp only [ieeeEval] at hv
      generalize l.ieeeEval A x y = X, x j = Y, y j = Z at hv
      cases X <;> cases Y <;> cases Z <;> simp_all [ieeeFused, Flt.add, Flt.mul, timesInf] <;> split_ifs at hv <;> simp_all
    obtain ⟨⟨p, hp⟩, h⟩ := this
    intro i hi
    rcases List.mem_append.mp hi with h' | h'
    · exact hl p hp i h'
    · rw [List.mem_singleton.mp h']
      exact h

theorem SumOrder.ieeeEval_nan {x y : Fin n → Flt K} (t : SumOrder n) (i : Fin n) (hi : i ∈ t.entries) (h : x i = nan ∨ y i = nan) : t.ieeeEval A x y = nan := by
  have hm : Flt.mul A (x i) (y i) = nan := by
    generalize x i = X, y i = Y at h
    cases X <;> cases Y <;> simp_all [Flt.mul]
  induction t with
  | zero => simp [entries] at hi
  | entry j =>
    rw [entries, List.mem_singleton] at hi
    rw [← hi]
    exact hm
  | add l r hl hr =>
    rcases List.mem_append.mp hi with h' | h'
    · simp only [ieeeEval, hl h']
      cases r.ieeeEval A x y <;> rfl
    · simp only [ieeeEval, hr h']
      cases l.ieeeEval A x y <;> rfl
  | fused l j hl =>
    rcases List.mem_append.mp hi with h' | h'
    · simp only [ieeeEval, hl h']
      generalize x j = Y, y j = Z
      cases Y <;> cases Z <;> simp [ieeeFused, Flt.add]
    · rw [List.mem_singleton.mp h'] at h
      simp only [ieeeEval]
      generalize l.ieeeEval A x y = X, x j = Y, y j = Z at h
      cases X <;> cases Y <;> cases Z <;> simp_all [ieeeFused, Flt.add, Flt.mul]

theorem _root_.Spec.AddsAll.mem {t : SumOrder n} (ht : AddsAll t h) (i : Fin n) : i ∈ t.entries := ht.once.mem_iff.mpr (List.mem_finRange i)

/-- **C154 (finite values).** A finite value of a quadratic function or linear system means that all entries of the state are finite numbers. -/
theorem C154_finite (P : Matrix (Fin n) (Fin n) K) (M : Matrix (Fin m) (Fin n) K) (order : Fin n → SumOrder n) (total : SumOrder n) (ht : AddsAll total h) (orderM : Fin m → SumOrder n)
    (hoM : ∀ i, AddsAll (orderM i) h) (x : Fin n → Flt K) (v : K) (hv : ieeeQuadratic A order total P x = fin v ∨ ∃ i, ieeeLinear A orderM M x i = fin v) : ∀ j, ∃ r, x j = fin r := by
  intro j
  rcases hv with hv | ⟨i, hv⟩
  · exact (total.ieeeEval_finite v hv j (ht.mem j)).2
  · exact ((orderM i).ieeeEval_finite v hv j ((hoM i).mem j)).1

/-- **C154 (NaN).** If an entry of the state is not a number, neither is the value of a quadratic function, nor any entry of the next state of a linear system, even if the matrices have zeros there. -/
theorem C154_nan (P : Matrix (Fin n) (Fin n) K) (M : Matrix (Fin m) (Fin n) K) (order : Fin n → SumOrder n) (total : SumOrder n) (ht : AddsAll total h) (orderM : Fin m → SumOrder n)
    (hoM : ∀ i, AddsAll (orderM i) h) (x : Fin n → Flt K) (j : Fin n) (hx : x j = nan) : ieeeQuadratic A order total P x = nan ∧ ∀ i, ieeeLinear A orderM M x i = nan :=
  ⟨total.ieeeEval_nan j (ht.mem j) (Or.inr hx), fun i => (orderM i).ieeeEval_nan j ((hoM i).mem j) (Or.inl hx)⟩

/-- In double precision, a fused multiplication and addition with a NaN in an entry that the matrix ignores. -/
example : ieeeLinear ieeeDouble (m := 1) (fun _ => .fused (.entry 1) 0) !![(1 : ℚ), 0] ![fin 3, nan] 0 = nan :=
  (C154_nan (h := 1) 0 _ (fun _ => .fused (.entry 1) 0) (.fused (.entry 1) 0) ⟨by decide, by decide⟩ _ (fun _ => ⟨by decide, by decide⟩) _ 1 rfl).2 0

/-- **C154 (refuted, underflow).** In IEEE 754 double precision the square of a representable non-zero state can be zero. -/
theorem C154_underflow_refuted : ∃ x : ℚ, x ≠ 0 ∧ ieeeDouble.rnd x = fin x ∧ ieeeQuadratic ieeeDouble (fun _ => .entry 0) (.entry 0) !![1] (fun _ : Fin 1 => fin x) = fin 0 :=
  ⟨1 / 2 ^ 600, by norm_num, by decide +kernel, by decide +kernel⟩

/-- **C154 (linear systems, underflow and overflow).** The same for linear systems. -/
theorem C154_ieee_linear (hA : RoundsFinite A u ω) (order : Fin m → SumOrder n) (ho : ∀ i, AddsAll (order i) h) (hoa : ∀ i, (order i).roundings ≤ a)
    (M : Matrix (Fin m) (Fin n) K) (x : Fin n → K) (i : Fin m) (v : K) (hv : ieeeLinear A order M (fun i => fin (x i)) i = fin v) :
    |v - (M *ᵥ x) i| ≤ ((1 + u) ^ (h + 1) - 1) * ∑ j, |M i j| * |x j| + (1 + u) ^ (h + 1) * (a * ω) := by
  have h2 := (ieeeDot_near hA (ho i) (hoa i) x (fun j => M i j) v hv).2.2
  have e1 : ∑ j, x j * M i j = (M *ᵥ x) i := by
    simp only [mulVec, dotProduct]
    exact Finset.sum_congr rfl fun j _ => mul_comm _ _
  have e2 : ∑ j, |x j| * |M i j| = ∑ j, |M i j| * |x j| := Finset.sum_congr rfl fun j _ => mul_comm _ _
  rw [e1, e2] at h2
  exact h2

/-- **C155 (saturation).** Unless the action is not a number, the saturated action is a finite number within the limits: an overflow saturates on the side where it happened. -/
theorem C155_saturation (lower upper : K) (hlu : lower ≤ upper) (a : Flt K) (ha : a ≠ nan) :
    ∃ y, ieeeClip lower upper a = fin y ∧ lower ≤ y ∧ y ≤ upper ∧ (a = pinf → y = upper) ∧ (a = ninf → y = lower) ∧ (∀ x, a = fin x → lower ≤ x → x ≤ upper → y = x) := by
  cases a with
  | nan => exact absurd rfl ha
  | pinf => exact ⟨upper, rfl, hlu, le_rfl, by simp, by simp, by simp⟩
  | ninf => exact ⟨min lower upper, rfl, by simp [hlu], by simp, by simp, by simp [hlu], by simp⟩
  | fin x =>
    refine ⟨min (max x lower) upper, rfl, by simp [hlu], by simp, by simp, by simp, ?_⟩
    intro x' hx h1 h2
    obtain rfl := Flt.fin.inj hx
    rw [max_eq_left h1, min_eq_left h2]

/-- **C155 (actions that are not numbers).** They are not hidden by the saturation. -/
theorem C155_saturation_nan (lower upper : K) (a : Flt K) : ieeeClip lower upper a = nan ↔ a = nan := by
  cases a <;> simp [ieeeClip]

/-- **C155 (states that are not finite).** A NaN in the state makes all entries of the next state NaN, and a finite entry of the next state means that the state was finite and the action was not NaN: saturation does not hide a wrong state. -/
theorem C155_state_finite (orderM : Fin d → SumOrder (d + m)) (orderK : Fin m → SumOrder d) (hoM : ∀ i, AddsAll (orderM i) h)
    (M : Matrix (Fin d) (Fin (d + m)) K) (gain : Matrix (Fin m) (Fin d) K) (lower upper : Fin m → K) (x : Fin d → Flt K) (i : Fin d) :
    ((∃ j, x j = nan) → ieeeSaturatedLoop A orderM orderK M gain lower upper x i = nan) ∧
    ∀ v, ieeeSaturatedLoop A orderM orderK M gain lower upper x i = fin v → (∀ j, ∃ r, x j = fin r) ∧ ∀ l, ieeeLinear A orderK gain x l ≠ nan := by
  refine ⟨fun ⟨j, hj⟩ => ?_, fun v hv => ⟨fun j => ?_, fun l hl => ?_⟩⟩
  · exact (orderM i).ieeeEval_nan (Fin.castAdd m j) ((hoM i).mem _) (Or.inl (by rw [Fin.append_left]; exact hj))
  · have := ((orderM i).ieeeEval_finite v hv (Fin.castAdd m j) ((hoM i).mem _)).1
    rwa [Fin.append_left] at this
  · have := ((orderM i).ieeeEval_finite v hv (Fin.natAdd d l) ((hoM i).mem _)).1
    rw [Fin.append_right, hl] at this
    simp [ieeeClip] at this

/-- A system with one state and one action in double precision, at a NaN. -/
example : ieeeSaturatedLoop ieeeDouble (d := 1) (m := 1) (fun _ => .fused (.entry 1) 0) (fun _ => .entry 0) !![(0 : ℚ), 1] !![1] (fun _ => -1) (fun _ => 1) ![nan] 0 = nan :=
  (C155_state_finite (h := 1) _ _ (fun _ => ⟨by decide, by decide⟩) _ _ _ _ _ 0).1 ⟨0, rfl⟩

/-- A gain of `2 ^ 600` in double precision: the action for `2 ^ 600` overflows, and is saturated at the upper limit. -/
example : ieeeClip (-1) 1 (Flt.mul ieeeDouble (fin ((2 : ℚ) ^ 600)) (fin (2 ^ 600))) = fin 1 := by decide +kernel

/-- A bound for the effects of rounding and underflow on one entry of the next state, where `b` is the computed action. -/
def _root_.Spec.loopErrorIEEE (u ω : K) (h a : ℕ) (M : Matrix (Fin d) (Fin (d + m)) K) (gain : Matrix (Fin m) (Fin d) K) (x : Fin d → K) (b : Fin m → K) (i : Fin d) : K :=
  loopError u h M gain x b i + (1 + u) ^ (h + 1) * ((a + a * ∑ l, |M i (Fin.natAdd d l)|) * ω)

/-- **C155 (next states, underflow and overflow).** If the computed action, before saturation, and the computed next state are finite, the next state is as close to the true one as the rounding errors and underflows of the two products of
matrices allow for. -/
theorem C155_ieee_next_state (hA : RoundsFinite A u ω) (orderM : Fin d → SumOrder (d + m)) (orderK : Fin m → SumOrder d) (hoM : ∀ i, AddsAll (orderM i) h) (hoK : ∀ i, AddsAll (orderK i) h)
    (haM : ∀ i, (orderM i).roundings ≤ a) (haK : ∀ i, (orderK i).roundings ≤ a)
    (M : Matrix (Fin d) (Fin (d + m)) K) (gain : Matrix (Fin m) (Fin d) K) (lower upper : Fin m → K) (x : Fin d → K) (b : Fin m → K)
    (hb : ∀ l, ieeeLinear A orderK gain (fun i => fin (x i)) l = fin (b l)) (i : Fin d) (v : K)
    (hv : ieeeSaturatedLoop A orderM orderK M gain lower upper (fun i => fin (x i)) i = fin v) :
    |saturatedLoop M gain lower upper x i - v| ≤ loopErrorIEEE u ω h a M gain x (fun l => min (max (b l) (lower l)) (upper l)) i := by
  obtain ⟨p, hp⟩ : ∃ p : Fin m → K, p = fun l => min (max (b l) (lower l)) (upper l) := ⟨_, rfl⟩
  obtain ⟨q, hq⟩ : ∃ q : Fin m → K, q = fun l => min (max ((gain *ᵥ x) l) (lower l)) (upper l) := ⟨_, rfl⟩
  have hin : (Fin.append (fun i => fin (x i)) fun l => ieeeClip (lower l) (upper l) (ieeeLinear A orderK gain (fun i => fin (x i)) l)) = fun j => fin (Fin.append x p j) := by
    funext j
    refine Fin.addCases (fun j => ?_) (fun l => ?_) j
    · rw [Fin.append_left, Fin.append_left]
    · rw [Fin.append_right, Fin.append_right, hb, hp]
      rfl
  have hv' : ieeeLinear A orderM M (fun j => fin (Fin.append x p j)) i = fin v := by
    rw [← hin]
    exact hv
  have h1 := C154_ieee_linear hA orderM hoM haM M (Fin.append x p) i v hv'
  have h2 : ∀ l, |p l - q l| ≤ ((1 + u) ^ (h + 1) - 1) * ∑ j, |gain l j| * |x j| + (1 + u) ^ (h + 1) * (a * ω) := by
    intro l
    rw [hp, hq]
    exact (clip_lipschitz_setup _ _ (lower l) (upper l)).trans (C154_ieee_linear hA orderK hoK haK gain x l _ (hb l))
  have h3 : |(M *ᵥ Fin.append x p) i - (M *ᵥ Fin.append x q) i| ≤ ((1 + u) ^ (h + 1) - 1) * ∑ l, |M i (Fin.natAdd d l)| * ∑ j, |gain l j| * |x j| +
      (1 + u) ^ (h + 1) * (a * ω) * ∑ l, |M i (Fin.natAdd d l)| := by
    have e : (M *ᵥ Fin.append x p) i - (M *ᵥ Fin.append x q) i = ∑ l, M i (Fin.natAdd d l) * (p l - q l) := by
      simp only [mulVec, dotProduct, Fin.sum_univ_add, Fin.append_left, Fin.append_right, mul_sub, Finset.sum_sub_distrib]
      ring
    rw [e, Finset.mul_sum, Finset.mul_sum, ← Finset.sum_add_distrib]
    refine (Finset.abs_sum_le_sum_abs _ _).trans (Finset.sum_le_sum fun l _ => ?_)
    rw [abs_mul]
    have := mul_le_mul_of_nonneg_left (h2 l) (abs_nonneg (M i (Fin.natAdd d l)))
    linarith
  have e2 : saturatedLoop M gain lower upper x i = (M *ᵥ Fin.append x q) i := by rw [hq]; rfl
  rw [e2, ← hp, abs_sub_comm]
  have h4 := abs_add_le (v - (M *ᵥ Fin.append x p) i) ((M *ᵥ Fin.append x p) i - (M *ᵥ Fin.append x q) i)
  rw [sub_add_sub_cancel] at h4
  unfold loopErrorIEEE loopError
  push_cast at h1
  have e5 : ((1 + u) ^ (h + 1) - 1) * (∑ j, |M i j| * |Fin.append x p j| + ∑ l, |M i (Fin.natAdd d l)| * ∑ j, |gain l j| * |x j|) +
      (1 + u) ^ (h + 1) * ((a + a * ∑ l, |M i (Fin.natAdd d l)|) * ω) =
      (((1 + u) ^ (h + 1) - 1) * ∑ j, |M i j| * |Fin.append x p j| + (1 + u) ^ (h + 1) * (a * ω)) +
      (((1 + u) ^ (h + 1) - 1) * ∑ l, |M i (Fin.natAdd d l)| * ∑ j, |gain l j| * |x j| + (1 + u) ^ (h + 1) * (a * ω) * ∑ l, |M i (Fin.natAdd d l)|) := by ring
  rw [e5]
  linarith

section

variable [FloorRing K] {Prog Θ : Type} (sys : System K Prog Θ d) (g : GridWorld K d)
    (argsort : (Fin g.nindex → K) → List (Fin g.nindex)) (tauDiv : K → ℕ → K)

/-- **C155 (region of attraction, underflow and overflow).** As `C155_region`, for arithmetic with underflow and overflow in all computations, as long as the numbers that are computed at the grid states are finite. -/
theorem C155_ieee_region (hA : RoundsFinite A u ω) (prog : Prog) (θ : Θ) (tau : K) (initial : Option (Fin g.nindex → Bool)) (θ₀ : Θ)
    (history : List (Lyap.Op K Prog Θ)) (hh : ∀ op ∈ history, op.IsMethod) (batch : ℕ) (args : Lyap.UpdateArgs (Flt K)) (hcs : args.canShrink = true)
    (order : Fin d → SumOrder d) (total : SumOrder d) (orderM : Fin d → SumOrder (d + m)) (orderK : Fin m → SumOrder d)
    (ho : ∀ j, AddsAll (order j) h) (ht : AddsAll total h) (hoM : ∀ i, AddsAll (orderM i) h) (hoK : ∀ i, AddsAll (orderK i) h)
    (hoa : ∀ j, (order j).roundings ≤ a) (hta : total.roundings ≤ a) (haM : ∀ i, (orderM i).roundings ≤ a) (haK : ∀ i, (orderK i).roundings ≤ a)
    (P : Matrix (Fin d) (Fin d) K) (M : Matrix (Fin d) (Fin (d + m)) K) (gain : Matrix (Fin m) (Fin d) K) (lower upper : Fin m → K)
    (hVc : ∀ x, sys.V θ x = number (ieeeQuadratic A order total P fun i => fin (x i)))
    (hloop : ∀ x, sys.closedLoop prog θ x = .exact fun i => number (ieeeSaturatedLoop A orderM orderK M gain lower upper (fun i => fin (x i)) i))
    (hfinite : ∀ j : Fin g.nindex, (∃ v, ieeeQuadratic A order total P (fun i => fin (gridState g j i)) = fin v) ∧
      (∀ l, ∃ b, ieeeLinear A orderK gain (fun i => fin (gridState g j i)) l = fin b) ∧
      (∀ i, ∃ y, ieeeSaturatedLoop A orderM orderK M gain lower upper (fun i => fin (gridState g j i)) i = fin y) ∧
      ∃ v, ieeeQuadratic A order total P (ieeeSaturatedLoop A orderM orderK M gain lower upper fun i => fin (gridState g j i)) = fin v)
    (Lv Lf r R κ η c : K) (h2 : ∀ i, 2 ≤ g.num i) (hlt : ∀ i, g.lo i < g.hi i)
    (hlv : sys.lv θ = .const Lv) (hlf : sys.lf θ = .const Lf) (hLv0 : 0 ≤ Lv) (hLf0 : 0 ≤ Lf)
    (hR : ∀ x, (∀ i, g.lo i ≤ x i ∧ x i ≤ g.hi i) → ∀ i, |x i| ≤ R ∧ |saturatedLoop M gain lower upper x i| ≤ R)
    (hRc : ∀ (j : Fin g.nindex) i, |number (ieeeSaturatedLoop A orderM orderK M gain lower upper (fun i => fin (gridState g j i)) i)| ≤ R)
    (hLv : ∀ i, R * ∑ j, (|P i j| + |P j i|) ≤ Lv)
    (hLf : ∀ y z, (∀ i, g.lo i ≤ y i ∧ y i ≤ g.hi i) → (∀ i, g.lo i ≤ z i ∧ z i ≤ g.hi i) →
      ∑ i, |saturatedLoop M gain lower upper y i - saturatedLoop M gain lower upper z i| ≤ Lf * ∑ i, |y i - z i|)
    (hrad : ∑ i, (g.hi i - g.lo i) / ((g.num i : K) - 1) / 2 ≤ r)
    (hκ : ∀ j : Fin g.nindex, ∑ i, loopErrorIEEE u ω h a M gain (gridState g j)
      (fun l => min (max (number (ieeeLinear A orderK gain (fun i => fin (gridState g j i)) l)) (lower l)) (upper l)) i ≤ κ)
    (hη : ((1 + u) ^ (2 * h + 2) - 1) * (R ^ 2 * ∑ i, ∑ j, |P i j|) + (1 + u) ^ (2 * h + 2) * (a * (1 + d * R) * ω) ≤ η)
    (hmargin : ∀ j : Fin g.nindex, sys.V θ (gridState g j) < c →
      finiteMargin u ω (sys.V θ) (.const Lv) (.const Lf) (gridState g j) (sys.closedLoop prog θ (gridState g j)) tau + 2 * η + Lv * κ ≤ Lv * (1 + Lf) * (tau - r)) :
    let W := finiteWorld sys g argsort tauDiv
    let s := run A W (new W prog (fin tau) initial false θ₀) (history.map finiteOp)
    let out := updateSafeSet A W batch args s θ
    let f := saturatedLoop M gain lower upper
    let V := fun x : Fin d → K => x ⬝ᵥ (P *ᵥ x)
    (∀ j : Fin g.nindex, sys.V θ (gridState g j) < c → (∃ D, decreaseAt A W prog θ j = fin D) ∧ ∃ T, thresholdOf A W θ j (fin tau) = fin T) →
    out.2 = .ok () → (∀ j : Fin g.nindex, sys.V θ (gridState g j) < c → out.1.safeSet j = true) →
    (∀ x, V x < c - Lv * r - η → ∀ i, g.lo i ≤ x i ∧ x i ≤ g.hi i) →
    ∃ ε, 0 < ε ∧ ∀ x₀, V x₀ < c - Lv * r - η →
      ∃ T, (∀ t < T, V (f^[t + 1] x₀) ≤ V (f^[t] x₀) - ε) ∧ (∀ t ≤ T, V (f^[t] x₀) < c - Lv * r - η) ∧
        ∃ j, InInitial initial j ∧ ∑ i, |f^[T] x₀ i - gridState g j i| ≤ r := by
  have hu := hA.nonneg
  have hω := hA.tiny
  have hquad : ∀ x : Fin d → K, (∀ i, |x i| ≤ R) → (∃ v, ieeeQuadratic A order total P (fun i => fin (x i)) = fin v) → |sys.V θ x - x ⬝ᵥ (P *ᵥ x)| ≤ η := by
    rintro x hx ⟨v, hv⟩
    rw [hVc, hv]
    refine (C154_ieee_quadratic hA order total ho ht hoa hta P x v hv).trans (le_trans (add_le_add ?_ ?_) hη)
    · refine mul_le_mul_of_nonneg_left (terms_le P x (R ^ 2) fun i j => ?_) (NearBy.gamma_nonneg hu _)
      rw [pow_two]
      exact mul_le_mul (hx i) (hx j) (abs_nonneg _) ((abs_nonneg _).trans (hx i))
    · have h1 : ∑ j, |x j| ≤ d * R := by
        refine (Finset.sum_le_sum fun j _ => hx j).trans (le_of_eq ?_)
        simp
      refine mul_le_mul_of_nonneg_left (mul_le_mul_of_nonneg_right (mul_le_mul_of_nonneg_left ?_ (by positivity)) hω) (by positivity)
      linarith
  have hgrid := gridState_within g h2 hlt
  have hnum : ∀ j : Fin g.nindex, (fun i => fin (number (ieeeSaturatedLoop A orderM orderK M gain lower upper (fun i => fin (gridState g j i)) i))) =
      ieeeSaturatedLoop A orderM orderK M gain lower upper (fun i => fin (gridState g j i)) := by
    intro j
    funext i
    obtain ⟨y, hy⟩ := (hfinite j).2.2.1 i
    rw [hy]
    rfl
  refine C144_local sys g argsort tauDiv hA prog θ tau initial θ₀ history hh batch args hcs (saturatedLoop M gain lower upper) (fun x => x ⬝ᵥ (P *ᵥ x)) Lv Lf r η κ c h2 hlt hlv hlf hLv0 hLf0
    (fun x => ∀ i, |x i| ≤ R) (fun x hx => ⟨fun i => (hR x hx i).1, fun i => (hR x hx i).2⟩) (fun j => ?_) (fun y z hy hz => quadratic_lipschitz_box P R Lv hLv y z hy hz) hLf hrad
    (fun j => ⟨fun i => number (ieeeSaturatedLoop A orderM orderK M gain lower upper (fun i => fin (gridState g j i)) i), ?_, hRc j, ?_⟩)
    (fun j => ⟨hquad _ (fun i => (hR _ (hgrid j) i).1) (hfinite j).1, ?_⟩) hmargin
  · rw [hloop]; exact hRc j
  · rw [hloop]; rfl
  · refine (Finset.sum_le_sum fun i _ => ?_).trans (hκ j)
    obtain ⟨y, hy⟩ := (hfinite j).2.2.1 i
    beta_reduce
    rw [hy]
    refine C155_ieee_next_state hA orderM orderK hoM hoK haM haK M gain lower upper (gridState g j) _ (fun l => ?_) i y hy
    obtain ⟨b, hb⟩ := (hfinite j).2.1 l
    rw [hb]
    rfl
  · rw [hloop]
    refine hquad _ (hRc j) ?_
    have := (hfinite j).2.2.2
    rwa [← hnum j] at this

end

/-! ## A concrete case -/

/-- The unstable line of `saturatedLineSystem` in IEEE 754 double precision, with underflow and overflow. -/
def ieeeLineSystem : System ℚ Unit Unit 1 where
  V := fun _ x => number (ieeeQuadratic ieeeDouble (fun _ => .entry 0) (.entry 0) !![1] fun i => fin (x i))
  lv := fun _ => .const 4
  lf := fun _ => .const (3 / 2)
  closedLoop := fun _ _ x => .exact fun i => number (ieeeSaturatedLoop (d := 1) (m := 1) ieeeDouble (fun _ => leftToRight2) (fun _ => .entry 0) saturatedLineMatrix saturatedLineGain (fun _ => -2)
    (fun _ => 2) (fun i => fin (x i)) i)

/-- All hypotheses of `C155_ieee_region` are met in IEEE 754 double precision: every trajectory of the unstable system with the saturated policy that starts with `x² < 15 / 4 - 10^-14` comes within `1 / 16` of the
initially safe states in `|x| ≤ 3 / 4`. -/
example := C155_ieee_region (h := 2) (a := 4) (m := 1) ieeeLineSystem saturatedLine (fun v => (List.finRange _).insertionSort fun i j => v i ≤ v j) (fun t k => t / k) ieeeDouble_rounds
  () () (65 / 1024) (some fun k => decide (10 ≤ k.val ∧ k.val ≤ 22)) () [.update 3 ⟨true, 1, 1⟩ (), .updateValues ()] (by simp [Lyap.Op.IsMethod]) 10 ⟨true, 1, .fin 1⟩ rfl
  (fun _ => .entry 0) (.entry 0) (fun _ => leftToRight2) (fun _ => .entry 0) (fun _ => ⟨by decide, by decide⟩) ⟨by decide, by decide⟩ (fun _ => leftToRight2_adds) (fun _ => ⟨by decide, by decide⟩)
  (by decide) (by decide) (by decide) (by decide)
  !![1] saturatedLineMatrix saturatedLineGain (fun _ => -2) (fun _ => 2) (fun _ => rfl) (fun _ => rfl)
  (by
    intro j
    refine ⟨Flt.exists_fin ?_, fun l => Flt.exists_fin ?_, fun i => Flt.exists_fin ?_, Flt.exists_fin ?_⟩
    · revert j; decide +kernel
    · revert l; revert j; decide +kernel
    · revert i; revert j; decide +kernel
    · revert j; decide +kernel)
  4 (3 / 2) (1 / 16) 2 (1 / 10 ^ 14) (1 / 10 ^ 14) 4 (by decide) (by decide) rfl rfl (by norm_num) (by norm_num)
  (by
    intro x hx i
    have hi : i = 0 := Subsingleton.elim _ _
    subst hi
    have h1 := hx 0
    simp only [saturatedLine, Matrix.cons_val_zero] at h1
    rw [saturated_line_loop]
    refine ⟨abs_le.mpr h1, ?_⟩
    have h2 := (saturated_line_slope _ _ h1.1).1
    have h3 := (saturated_line_slope _ _ h1.2).1
    norm_num at h2 h3
    rw [abs_le]
    norm_num
    constructor <;> linarith)
  (by decide +kernel) (by decide +kernel)
  (by
    intro y z _ _
    rw [Fin.sum_univ_one, Fin.sum_univ_one, saturated_line_loop, saturated_line_loop]
    rcases le_total (y 0) (z 0) with h | h
    · have := saturated_line_slope _ _ h
      rw [abs_sub_comm, abs_sub_comm (y 0), abs_of_nonneg (by linarith), abs_of_nonneg (by linarith)]
      linarith
    · have := saturated_line_slope _ _ h
      rw [abs_of_nonneg (by linarith), abs_of_nonneg (by linarith)]
      linarith)
  (by decide +kernel) (by decide +kernel) (by decide +kernel) (by decide +kernel)
  (by
    intro j _
    refine ⟨Flt.exists_fin ?_, Flt.exists_fin ?_⟩ <;> revert j <;> decide +kernel)
  (by decide +kernel) (by decide +kernel)
  (by
    intro x hx i
    have hi : i = 0 := Subsingleton.elim _ _
    subst hi
    have h1 : x ⬝ᵥ ((!![1] : Matrix (Fin 1) (Fin 1) ℚ) *ᵥ x) < 4 - 4 * (1 / 16) - 1 / 10 ^ 14 := hx
    simp [dotProduct, mulVec] at h1
    simp only [saturatedLine, Matrix.cons_val_zero]
    constructor <;> nlinarith)

end SafeLearning
