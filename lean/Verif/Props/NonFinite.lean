import Verif.Lemmas.NonFinite
import Verif.Spec.NonFinite
import Mathlib.Data.List.Sort
import Mathlib.Data.List.FinRange
set_option autoImplicit false

set_option linter.unusedSectionVars false

/-!
# C110: infinities and NaN never certify a state
-/

namespace SafeLearning.FltLyap

open Flt Spec

variable {K : Type} [Field K] [LinearOrder K] [IsStrictOrderedRing K] {Prog Θ : Type} {d n : ℕ}

section Arithmetic

variable (A : Arith K)

/-- Neither NaN nor `+inf`. -/
def Low (a : Flt K) : Prop := a ≠ nan ∧ a ≠ pinf

/-- Neither NaN nor `-inf`. -/
def High (a : Flt K) : Prop := a ≠ nan ∧ a ≠ ninf

theorem lt_low {a b : Flt K} (h : lt a b = true) : Low a ∧ High b := by
  cases a <;> cases b <;> simp_all [lt, Low, High]

theorem low_add {a b : Flt K} (h : Low (add A a b)) : Low a ∧ Low b := by
  cases a <;> cases b <;> simp_all [add, Low]

theorem low_neg {a : Flt K} (h : Low (neg a)) : High a := by
  cases a <;> simp_all [neg, Low, High]

theorem low_sum {l : List (Flt K)} : ∀ {z : Flt K}, Low (l.foldl (add A) z) →
    Low z ∧ ∀ a ∈ l, Low a := by
  induction l with
  | nil => intro z h; exact ⟨h, by simp⟩
  | cons b l ih =>
    intro z h
    obtain ⟨h1, h2⟩ := ih h
    obtain ⟨h3, h4⟩ := low_add A h1
    exact ⟨h3, by simpa using ⟨h4, h2⟩⟩

theorem low_mul {a b : Flt K} (ha : NonnegOrNaN a) (hb : NonnegOrNaN b) (h : Low (mul A a b)) :
    FiniteFlt a ∧ FiniteFlt b := by
  rcases ha with rfl | rfl | ⟨x, hx, rfl⟩ <;> rcases hb with rfl | rfl | ⟨y, hy, rfl⟩
  all_goals simp only [mul, Low, timesInf] at h
  all_goals first
    | exact absurd rfl h.1
    | exact absurd rfl h.2
    | exact ⟨⟨_, rfl⟩, ⟨_, rfl⟩⟩
    | skip
  · exfalso
    split_ifs at h with h1 h2
    · exact h.1 rfl
    · exact h.2 rfl
    · exact h2 (lt_of_le_of_ne hy (Ne.symm h1))
  · exfalso
    split_ifs at h with h1 h2
    · exact h.1 rfl
    · exact h.2 rfl
    · exact h2 (lt_of_le_of_ne hx (Ne.symm h1))

/-- Nonpositive, `-inf` or NaN. -/
def NonposOrNaN (a : Flt K) : Prop := ∃ b, NonnegOrNaN b ∧ a = neg b

theorem high_negmul {a b : Flt K} (ha : NonnegOrNaN a) (hb : NonnegOrNaN b)
    (h : High (mul A (neg a) b)) : FiniteFlt a ∧ FiniteFlt b := by
  rcases ha with rfl | rfl | ⟨x, hx, rfl⟩ <;> rcases hb with rfl | rfl | ⟨y, hy, rfl⟩
  all_goals simp only [mul, neg, High, timesInf] at h
  all_goals first
    | exact absurd rfl h.1
    | exact absurd rfl h.2
    | exact ⟨⟨_, rfl⟩, ⟨_, rfl⟩⟩
    | skip
  · exfalso
    split_ifs at h with h1 h2
    · exact h.1 rfl
    · linarith
    · exact h.2 rfl
  · exfalso
    split_ifs at h with h1 h2
    · exact h.1 rfl
    · linarith
    · exact h.2 rfl

theorem negmul_nonpos (hA : SignRounding A) {a b : Flt K} (ha : NonnegOrNaN a)
    (hb : NonnegOrNaN b) : NonposOrNaN (mul A (neg a) b) := by
  have hinf : ∀ x : K, 0 ≤ x → NonposOrNaN (timesInf (-x)) := by
    intro x hx
    unfold timesInf
    split_ifs with h1 h2
    · exact ⟨nan, Or.inl rfl, rfl⟩
    · linarith
    · exact ⟨pinf, Or.inr (Or.inl rfl), rfl⟩
  rcases ha with rfl | rfl | ⟨x, hx, rfl⟩ <;> rcases hb with rfl | rfl | ⟨y, hy, rfl⟩
  · exact ⟨nan, Or.inl rfl, rfl⟩
  · exact ⟨nan, Or.inl rfl, rfl⟩
  · exact ⟨nan, Or.inl rfl, rfl⟩
  · exact ⟨nan, Or.inl rfl, rfl⟩
  · exact ⟨pinf, Or.inr (Or.inl rfl), rfl⟩
  · exact hinf y hy
  · exact ⟨nan, Or.inl rfl, rfl⟩
  · exact hinf x hx
  · rcases hA.nonpos (-x * y) (by nlinarith) with h | ⟨z, hz, h⟩
    · exact ⟨pinf, Or.inr (Or.inl rfl), h⟩
    · exact ⟨fin (-z), Or.inr (Or.inr ⟨-z, by linarith, rfl⟩), by
        show A.rnd (-x * y) = fin (- -z); rw [h, neg_neg]⟩

theorem add_nonneg (hA : SignRounding A) {a b : Flt K} (ha : NonnegOrNaN a)
    (hb : NonnegOrNaN b) : NonnegOrNaN (add A a b) := by
  rcases ha with rfl | rfl | ⟨x, hx, rfl⟩ <;> rcases hb with rfl | rfl | ⟨y, hy, rfl⟩
  all_goals first
    | exact Or.inl rfl
    | exact Or.inr (Or.inl rfl)
    | skip
  rcases hA.nonneg (x + y) (by linarith) with h | ⟨z, hz, h⟩
  · exact Or.inr (Or.inl h)
  · exact Or.inr (Or.inr ⟨z, hz, h⟩)

theorem sum_nonneg (hA : SignRounding A) {l : List (Flt K)} : ∀ {z : Flt K}, NonnegOrNaN z →
    (∀ a ∈ l, NonnegOrNaN a) → NonnegOrNaN (l.foldl (add A) z) := by
  induction l with
  | nil => intro z h _; exact h
  | cons b l ih =>
    intro z h hl
    exact ih (add_nonneg A hA h (hl b (by simp))) fun a ha => hl a (by simp [ha])

omit [IsStrictOrderedRing K] in
theorem finite_low {a : Flt K} (h : FiniteFlt a) : Low a := by
  obtain ⟨x, rfl⟩ := h; simp [Low]

omit [IsStrictOrderedRing K] in
theorem finite_high {a : Flt K} (h : FiniteFlt a) : High a := by
  obtain ⟨x, rfl⟩ := h; simp [High]

omit [IsStrictOrderedRing K] in
theorem finite_of_low {a : Flt K} (h : NonnegOrNaN a) (hl : Low a) : FiniteFlt a := by
  rcases h with rfl | rfl | ⟨x, _, rfl⟩
  · exact absurd rfl hl.1
  · exact absurd rfl hl.2
  · exact ⟨x, rfl⟩

theorem abs_nonneg' (a : Flt K) : NonnegOrNaN (Flt.abs a) := by
  cases a with
  | nan => exact Or.inl rfl
  | ninf => exact Or.inr (Or.inl rfl)
  | fin x => exact Or.inr (Or.inr ⟨|x|, abs_nonneg x, rfl⟩)
  | pinf => exact Or.inr (Or.inl rfl)

theorem finite_of_abs {a : Flt K} (h : FiniteFlt (Flt.abs a)) : FiniteFlt a := by
  cases a with
  | fin x => exact ⟨x, rfl⟩
  | nan => obtain ⟨x, h⟩ := h; cases h
  | ninf => obtain ⟨x, h⟩ := h; cases h
  | pinf => obtain ⟨x, h⟩ := h; cases h

/-- The number used by the threshold is finite only if all entries are. -/
theorem lipNorm_finite (hA : SignRounding A) (l : LipArg (Flt K) d) (x : Fin d → Flt K)
    (hl : ∀ i, NonnegOrNaN (lipEntry l x i)) (hd : 0 < d) :
    NonnegOrNaN (lipNorm A l x) ∧
      (FiniteFlt (lipNorm A l x) → ∀ i, FiniteFlt (lipEntry l x i)) := by
  cases l with
  | const c => exact ⟨hl ⟨0, hd⟩, fun h _ => h⟩
  | scalar f => exact ⟨hl ⟨0, hd⟩, fun h _ => h⟩
  | vector f =>
    unfold lipNorm
    simp only []
    split_ifs with h1
    · refine ⟨sum_nonneg A hA (Or.inr (Or.inr ⟨0, le_refl _, rfl⟩)) ?_, ?_⟩
      · intro a ha
        obtain ⟨i, rfl⟩ := List.mem_ofFn.mp ha
        exact abs_nonneg' _
      · intro h i
        exact finite_of_abs (finite_of_low (abs_nonneg' _)
          ((low_sum A (finite_low h)).2 _ (List.mem_ofFn.mpr ⟨i, rfl⟩)))
    · refine ⟨hl ⟨0, hd⟩, fun h i => ?_⟩
      have : i = ⟨0, hd⟩ := by ext; simp; omega
      rw [this]; exact h

end Arithmetic

variable (A : Arith K) (W : FWorld K Prog Θ d n)

/-- A comparison that succeeds is between meaningful numbers. -/
theorem meaningful_of_lt (hd : 0 < d) (hA : SignRounding A) (hW : Bounds W) (p : Prog) (θ : Θ)
    (k : Fin n) (t : Flt K) (ht : NonnegOrNaN t)
    (h : lt (decreaseAt A W p θ k) (thresholdOf A W θ k t) = true) : MeaningfulAt W p θ k := by
  obtain ⟨hlow, hhigh⟩ := lt_low h
  obtain ⟨hn1, hn2⟩ := lipNorm_finite A hA (W.lv θ) (W.state k) (hW.lv θ (W.state k)) hd
  -- the threshold
  have hthr : FiniteFlt (lipNorm A (W.lv θ) (W.state k)) ∧
      FiniteFlt (add A (fin 1) (lipDyn (W.lf θ) (W.state k))) := by
    have hone : NonnegOrNaN (add A (fin 1) (lipDyn (W.lf θ) (W.state k))) :=
      add_nonneg A hA (Or.inr (Or.inr ⟨1, zero_le_one, rfl⟩)) (hW.lf θ _)
    unfold thresholdOf threshold at hhigh
    obtain ⟨m, hm, he⟩ := negmul_nonpos A hA hn1 hone
    rw [he] at hhigh
    obtain ⟨h1, -⟩ := high_negmul A hm ht hhigh
    have h2 : High (mul A (neg (lipNorm A (W.lv θ) (W.state k)))
        (add A (fin 1) (lipDyn (W.lf θ) (W.state k)))) := by
      rw [he]; obtain ⟨x, rfl⟩ := h1; simp [High, neg]
    exact high_negmul A hn1 hone h2
  have hlf : FiniteFlt (lipDyn (W.lf θ) (W.state k)) :=
    finite_of_low (hW.lf θ _) (low_add A (finite_low hthr.2)).2
  -- the decrease
  unfold decreaseAt decrease at hlow
  cases hp : W.closedLoop p θ (W.state k) with
  | exact y =>
    rw [hp] at hlow
    obtain ⟨h1, h2⟩ := low_add A (low_add A hlow).1
    exact ⟨low_neg h2, by rw [hp]; exact h1, hn2 hthr.1, hlf⟩
  | uncertain mean error =>
    rw [hp] at hlow
    obtain ⟨h0, h3⟩ := low_add A hlow
    obtain ⟨h1, h2⟩ := low_add A h0
    refine ⟨low_neg h2, ?_, hn2 hthr.1, hlf⟩
    rw [hp]
    refine ⟨h1, fun i => ?_⟩
    have := (low_sum A h3).2 _ (List.mem_ofFn.mpr ⟨i, rfl⟩)
    exact (low_mul A (hW.lv θ mean i) (hW.error p θ _ mean error hp i) this).symm

variable [FloorRing K]

/-- A state certified by a call has meaningful predictions. -/
theorem meaningful_of_call (hd : 0 < d) (hA : SignRounding A) (hW : Bounds W) (θ : Θ)
    (G : Graph (Flt K) Prog) (ht : NonnegOrNaN G.tau) (k : Fin n)
    (h : negative A W G θ k = true ∨
      ∃ fed N, k ∈ fed ∧ refinedNegative A W G θ fed k N = true) : MeaningfulAt W G.prog θ k := by
  rcases h with h | ⟨fed, N, hm, h⟩
  · exact meaningful_of_lt A W hd hA hW G.prog θ k G.tau ht h
  · unfold refinedNegative at h
    rw [List.all_eq_true] at h
    exact meaningful_of_lt A W hd hA hW G.prog θ k _ (hW.tauDiv _ N ht) (h k hm)

theorem fltMul_comm (a b : Flt K) : mul A a b = mul A b a := by
  cases a <;> cases b <;> simp only [mul]
  rw [mul_comm]

/-- The quotient of a number that is not positive by one that is not negative is not positive. -/
theorem clip_ratio (hA : SignRounding A) {a c : Flt K} (ha : NonposOrNaN a)
    (hc : c = nan ∨ c = pinf ∨ ∃ y, 0 < y ∧ c = fin y) :
    (match div A a c with
      | nan => fin 0
      | r => if lt r (fin 0) then fin 0 else r) = (fin 0 : Flt K) := by
  obtain ⟨b, hb, rfl⟩ := ha
  rcases hb with rfl | rfl | ⟨x, hx, rfl⟩ <;> rcases hc with rfl | rfl | ⟨y, hy, rfl⟩
  · rfl
  · rfl
  · rfl
  · rfl
  · rfl
  · simp only [neg, div, if_neg hy.ne', if_pos hy, lt, if_true]
  · rfl
  · simp only [neg, div, lt, lt_irrefl, decide_false, Bool.false_eq_true, if_false]
  · simp only [neg, div, if_neg hy.ne']
    rcases hA.nonpos (-x / y) (div_nonpos_of_nonpos_of_nonneg (by linarith) hy.le) with h | ⟨z, hz, h⟩
    · rw [h]; simp only [lt, if_true]
    · rw [h]
      rcases hz.lt_or_eq with hz | rfl
      · simp only [lt, hz, decide_true, if_true]
      · simp only [lt, lt_irrefl, decide_false, Bool.false_eq_true, if_false]

/-- **C110**, refinement: where the predicted change of the Lyapunov function is positive, infinite or NaN, no refinement is
requested (the requested number is the conversion of `0`, which is not in the range that the adaptive loop accepts). -/
theorem C110_increase_not_refined (hd : 0 < d) (hA : SignRounding A) (hW : Bounds W) (θ : Θ)
    (G : Graph (Flt K) Prog) (ht : NonnegOrNaN G.tau) (hs : NonnegOrNaN G.safetyFactor) (k : Fin n)
    (h : decreaseAt A W G.prog θ k = nan ∨ decreaseAt A W G.prog θ k = pinf ∨
      ∃ y, 0 < y ∧ decreaseAt A W G.prog θ k = fin y) : nReq A W G θ k = A.toInt (fin 0) := by
  have hneg : ∀ a b : Flt K, NonposOrNaN a → NonnegOrNaN b → NonposOrNaN (mul A a b) := by
    rintro a b ⟨c, hc, rfl⟩ hb
    exact negmul_nonpos A hA hc hb
  have h1 : NonnegOrNaN (add A (fin 1) (lipDyn (W.lf θ) (W.state k))) :=
    add_nonneg A hA (Or.inr (Or.inr ⟨1, zero_le_one, rfl⟩)) (hW.lf θ _)
  have h2 : NonposOrNaN (thresholdOf A W θ k G.tau) :=
    hneg _ _ (negmul_nonpos A hA (lipNorm_finite A hA (W.lv θ) (W.state k) (fun i => hW.lv θ _ i) hd).1 h1) ht
  have h3 : NonposOrNaN (mul A G.safetyFactor (thresholdOf A W θ k G.tau)) := by
    rw [fltMul_comm]
    exact hneg _ _ h2 hs
  have h4 := clip_ratio A hA h3 h
  unfold nReq
  simp only
  revert h4
  generalize div A (mul A G.safetyFactor (thresholdOf A W θ k G.tau)) (decreaseAt A W G.prog θ k) = r
  intro h4
  cases r with
  | nan => simp [lt, ceil]
  | ninf => simp [lt, ceil]
  | fin x =>
    simp only at h4
    simp only
    rw [h4]
    simp [ceil]
  | pinf => simp [lt] at h4

/-- **C110**: after a verification from scratch, with or without adaptive refinement, the predictions
at every safe state outside the initial set are meaningful. No NaN and no infinite bound has
certified anything. -/
theorem C110_safe_is_meaningful (hd : 0 < d) (hA : SignRounding A) (hW : Bounds W) (batch : ℕ)
    (args : Lyap.UpdateArgs (Flt K)) (hs : args.canShrink = true)
    (s : Lyap (Flt K) Prog n) (hg : s.graph = none) (ht : NonnegOrNaN s.tau) (θ : Θ)
    (hok : (updateSafeSet A W batch args s θ).2 = .ok ()) (k : Fin n)
    (hk : (updateSafeSet A W batch args s θ).1.safeSet k = true)
    (hi : initialMem s k = false) : MeaningfulAt W s.prog θ k := by
  obtain ⟨-, -, -, -, -, -, h | ⟨p, -, h⟩⟩ := updateSafeSet_shape A W batch args s θ _ rfl
  · exact absurd hok h.2
  · have hG : (graphFor s args.safetyFactor).prog = s.prog ∧
        (graphFor s args.safetyFactor).tau = s.tau := by
      unfold graphFor; rw [hg]; exact ⟨rfl, rfl⟩
    rw [← hG.1]
    refine meaningful_of_call A W hd hA hW θ _ (by rw [hG.2]; exact ht) k ?_
    rcases h k hk with h | h | h | ⟨fed, N, h1, -, -, -, h2⟩
    · rw [hi] at h; cases h
    · unfold startFlag at h; rw [if_pos hs, hi] at h; cases h
    · exact Or.inl h
    · exact Or.inr ⟨fed, N, h1, h2⟩

/-- **C110**, histories: whatever is called on a new object and whatever NaN or infinite values the
dynamics, the Lyapunov function and the constants take meanwhile, a state is safe at the end only if
it is initial or some earlier call of `update_safe_set` saw meaningful predictions there. -/
theorem C110_history (hd : 0 < d) (hA : SignRounding A) (hW : Bounds W) (prog : Prog) (tau : Flt K)
    (ht : NonnegOrNaN tau) (initial : Option (Fin n → Bool)) (adaptive : Bool) (θ₀ : Θ)
    (ops : List (Lyap.Op (Flt K) Prog Θ)) (htau : ∀ t, Lyap.Op.setTau t ∈ ops → NonnegOrNaN t)
    (k : Fin n) (hk : (run A W (new W prog tau initial adaptive θ₀) ops).safeSet k = true) :
    (∃ I, initial = some I ∧ I k = true) ∨
      ∃ p batch args θ, Lyap.Op.update batch args θ ∈ ops ∧
        (p = prog ∨ Lyap.Op.setProg p ∈ ops) ∧ MeaningfulAt W p θ k := by
  suffices H : ∀ (done rest : List (Lyap.Op (Flt K) Prog Θ)) (s : Lyap (Flt K) Prog n),
      ops = done ++ rest → s.initial = initial → NonnegOrNaN s.tau →
      (s.prog = prog ∨ Lyap.Op.setProg s.prog ∈ ops) →
      (∀ G, s.graph = some G → NonnegOrNaN G.tau ∧ (G.prog = prog ∨ Lyap.Op.setProg G.prog ∈ ops)) →
      (∀ j, s.safeSet j = true → (∃ I, initial = some I ∧ I j = true) ∨
        ∃ p batch args θ, Lyap.Op.update batch args θ ∈ ops ∧
          (p = prog ∨ Lyap.Op.setProg p ∈ ops) ∧ MeaningfulAt W p θ j) →
      ∀ j, (run A W s rest).safeSet j = true → (∃ I, initial = some I ∧ I j = true) ∨
        ∃ p batch args θ, Lyap.Op.update batch args θ ∈ ops ∧
          (p = prog ∨ Lyap.Op.setProg p ∈ ops) ∧ MeaningfulAt W p θ j by
    refine H [] ops _ rfl rfl ht (Or.inl rfl) (by simp [new]) ?_ k hk
    intro j hj
    left
    simp only [new] at hj
    cases initial with
    | none => cases hj
    | some I => exact ⟨I, rfl, hj⟩
  intro done rest
  induction rest generalizing done with
  | nil => intro s _ _ _ _ _ h j hj; exact h j hj
  | cons op rest ih =>
    intro s heq hinit hst hsp hsg hsafe j hj
    have hmem : op ∈ ops := by rw [heq]; simp
    have heq' : ops = (done ++ [op]) ++ rest := by rw [heq]; simp
    cases op with
    | updateValues θ => exact ih _ (step A W s (.updateValues θ)) heq' hinit hst hsp hsg hsafe j hj
    | setProg p => exact ih _ (step A W s (.setProg p)) heq' hinit hst (Or.inr hmem) hsg hsafe j hj
    | setTau t => exact ih _ (step A W s (.setTau t)) heq' hinit (htau t hmem) hsp hsg hsafe j hj
    | setAdaptive b => exact ih _ (step A W s (.setAdaptive b)) heq' hinit hst hsp hsg hsafe j hj
    | update batch args θ =>
      have hG : NonnegOrNaN (graphFor s args.safetyFactor).tau ∧
          ((graphFor s args.safetyFactor).prog = prog ∨
            Lyap.Op.setProg (graphFor s args.safetyFactor).prog ∈ ops) := by
        unfold graphFor
        cases hg : s.graph with
        | none => exact ⟨hst, hsp⟩
        | some G => exact hsg G hg
      obtain ⟨h1, h2, h3, h4, h5, h6, h7⟩ := updateSafeSet_shape A W batch args s θ _ rfl
      refine ih _ (updateSafeSet A W batch args s θ).1 heq' (h2.trans hinit) (by rw [h4]; exact hst)
        (by rw [h3]; exact hsp) ?_ ?_ j hj
      · intro G' hG'
        rw [h1] at hG'
        cases hG'
        exact hG
      · have hIm : ∀ j, initialMem s j = true → ∃ I, initial = some I ∧ I j = true := by
          intro j hj
          unfold initialMem at hj
          rw [hinit] at hj
          cases initial with
          | none => cases hj
          | some I => exact ⟨I, rfl, hj⟩
        intro j hj
        rcases h7 with ⟨h7, -⟩ | ⟨p, -, h7⟩
        · rw [h7] at hj; exact hsafe j hj
        · have hcert : (negative A W (graphFor s args.safetyFactor) θ j = true ∨
              ∃ fed N, j ∈ fed ∧ refinedNegative A W (graphFor s args.safetyFactor) θ fed j N = true) →
              MeaningfulAt W (graphFor s args.safetyFactor).prog θ j :=
            meaningful_of_call A W hd hA hW θ _ hG.1 j
          rcases h7 j hj with h | h | h | ⟨fed, N, ha, -, -, -, hb⟩
          · exact Or.inl (hIm j h)
          · unfold startFlag at h
            split_ifs at h
            · exact Or.inl (hIm j h)
            · exact hsafe j h
          · exact Or.inr ⟨_, batch, args, θ, hmem, hG.2, hcert (Or.inl h)⟩
          · exact Or.inr ⟨_, batch, args, θ, hmem, hG.2, hcert (Or.inr ⟨fed, N, ha, hb⟩)⟩

/-- **C110**, level sets: after a verification from scratch that certified the state `k`, every state
with a smaller value is safe. If the value of `k` is NaN, every state whose value is a number is. -/
theorem C110_level_set (hS : NaNLastSort W) (batch : ℕ) (args : Lyap.UpdateArgs (Flt K))
    (hs : args.canShrink = true) (s : Lyap (Flt K) Prog n) (θ : Θ)
    (hok : (updateSafeSet A W batch args s θ).2 = .ok ()) (k : Fin n)
    (hk : (updateSafeSet A W batch args s θ).1.safeSet k = true)
    (hi : initialMem s k = false) (i : Fin n)
    (h : lt (s.values i) (s.values k) = true ∨ (s.values k = .nan ∧ s.values i ≠ .nan)) :
    (updateSafeSet A W batch args s θ).1.safeSet i = true := by
  obtain ⟨-, -, -, -, -, -, h' | ⟨p, h7, -⟩⟩ := updateSafeSet_shape A W batch args s θ _ rfl
  · exact absurd hok h'.2
  · rcases (h7 k).mp hk with h1 | h1 | ⟨-, -, h1⟩
    · rw [hi] at h1; cases h1
    · refine (h7 i).mpr (Or.inr (Or.inl ?_))
      by_contra hno
      have hi' : i ∈ (W.argsort s.values).drop p := by
        have := hS.complete s.values i
        rw [← List.take_append_drop p (W.argsort s.values), List.mem_append] at this
        exact this.resolve_left hno
      have hpw := hS.sorted s.values
      rw [← List.take_append_drop p (W.argsort s.values), List.pairwise_append] at hpw
      obtain ⟨h2, h3⟩ := hpw.2.2 k h1 i hi'
      rcases h with h | ⟨h4, h5⟩
      · rw [h2] at h; cases h
      · exact h5 (h3 h4)
    · unfold startFlag at h1; rw [if_pos hs, hi] at h1; cases h1

/-! ## A concrete case -/

/-- Rounding to exact numbers with overflow above `1000`. -/
def overflowArith : Arith ℚ where
  rnd x := if 1000 < x then pinf else if x < -1000 then ninf else fin x
  divZero := fun a => if lt a (fin 0) then ninf else pinf
  toInt := fun a => match a with
    | fin x => ⌈x⌉.toNat
    | _ => 0

theorem overflowArith_sign : SignRounding overflowArith where
  nonneg x hx := by
    unfold overflowArith
    simp only []
    split_ifs with h1 h2
    · exact Or.inl rfl
    · linarith
    · exact Or.inr ⟨x, hx, rfl⟩
  nonpos x hx := by
    unfold overflowArith
    simp only []
    split_ifs with h1 h2
    · linarith
    · exact Or.inl rfl
    · exact Or.inr ⟨x, hx, rfl⟩

/-- Ascending, NaN last. -/
def nanLast (a b : Flt ℚ) : Prop := lt b a = false ∧ (a = nan → b = nan)

instance (a b : Flt ℚ) : Decidable (nanLast a b) := by unfold nanLast; infer_instance

theorem nanLast_total (a b : Flt ℚ) : nanLast a b ∨ nanLast b a := by
  unfold nanLast
  cases a <;> cases b <;> simp [lt]
  exact le_total _ _

theorem nanLast_trans {a b c : Flt ℚ} (h1 : nanLast a b) (h2 : nanLast b c) : nanLast a c := by
  unfold nanLast at *
  cases a <;> cases b <;> cases c <;> simp_all [lt]
  exact le_trans h1 h2

/-- Four states `1`, `2`, `3`, NaN of a one-dimensional system with `V(x) = x`: the first moves to `0`,
the second has an infinite error bound, the third is predicted to be NaN and the fourth moves to `0`.
-/
def nanWorld : FWorld ℚ Unit Unit 1 4 where
  state k := fun _ => if k.val = 3 then nan else fin (k.val + 1)
  V _ x := x 0
  lv _ := .const (fin 1)
  lf _ := .const (fin 0)
  closedLoop _ _ x :=
    if x 0 = fin 2 then .uncertain (fun _ => fin 0) (fun _ => pinf)
    else if x 0 = fin 3 then .exact fun _ => nan
    else .exact fun _ => fin 0
  tauDiv t _ := t
  argsort v := (List.finRange 4).insertionSort fun i j => nanLast (v i) (v j)

theorem nanWorld_bounds : Bounds nanWorld where
  error p θ x mean error h i := by
    simp only [nanWorld] at h
    split_ifs at h
    cases h
    exact Or.inr (Or.inl rfl)
  lv θ x i := Or.inr (Or.inr ⟨1, by norm_num, rfl⟩)
  lf θ x := Or.inr (Or.inr ⟨0, le_refl _, rfl⟩)
  tauDiv t N h := h

theorem nanWorld_sort : NaNLastSort nanWorld where
  nodup v := (List.perm_insertionSort _ _).nodup_iff.mpr (List.nodup_finRange 4)
  complete v i := by
    simp only [nanWorld, List.mem_insertionSort]; exact List.mem_finRange i
  sorted v := by
    have : Std.Total fun i j : Fin 4 => nanLast (v i) (v j) := ⟨fun i j => nanLast_total _ _⟩
    have : IsTrans (Fin 4) fun i j => nanLast (v i) (v j) := ⟨fun i j k => nanLast_trans⟩
    exact List.pairwise_insertionSort (fun i j => nanLast (v i) (v j)) _

/-- The object of the example, without an initial safe set. -/
def nanStart : Lyap (Flt ℚ) Unit 4 := new nanWorld () (fin (1 / 2)) none false ()

/-- Only the state with meaningful predictions becomes safe. -/
example : (updateSafeSet overflowArith nanWorld 2 ⟨true, 1, fin 1⟩ nanStart ()).2 = .ok () ∧
    List.ofFn (updateSafeSet overflowArith nanWorld 2 ⟨true, 1, fin 1⟩ nanStart ()).1.safeSet =
      [true, false, false, false] := by
  decide +kernel

example : MeaningfulAt nanWorld () () 0 :=
  C110_safe_is_meaningful overflowArith nanWorld (by decide) overflowArith_sign nanWorld_bounds 2
    ⟨true, 1, fin 1⟩ rfl nanStart rfl (Or.inr (Or.inr ⟨1 / 2, by norm_num, rfl⟩)) ()
    (by decide +kernel) 0 (by decide +kernel) (by decide +kernel)

/-- No refinement is requested for the second state, whose error bound is infinite. -/
example : nReq overflowArith nanWorld ⟨(), fin (1 / 2), fin 1, true⟩ () 1 = overflowArith.toInt (fin 0) :=
  C110_increase_not_refined overflowArith nanWorld (by decide) overflowArith_sign nanWorld_bounds ()
    ⟨(), fin (1 / 2), fin 1, true⟩ (Or.inr (Or.inr ⟨1 / 2, by norm_num, rfl⟩))
    (Or.inr (Or.inr ⟨1, by norm_num, rfl⟩)) 1 (Or.inr (Or.inl (by decide +kernel)))

/-- The second state is unsafe only because of its infinite error bound. -/
example : ¬ MeaningfulAt nanWorld () () 1 := by
  intro h
  have := h.next
  have he : nanWorld.closedLoop () () (nanWorld.state 1) =
      .uncertain (fun _ => fin 0) (fun _ => pinf) := by
    simp only [nanWorld]
    rw [if_pos]
    simp; norm_num
  rw [he] at this
  obtain ⟨x, hx⟩ := (this.2 0).1
  cases hx

/-- **C23** with floating point values: `c_max` is not protected from NaN. If no state is certified, the value read for
`c_max` is the last one in the value order, which is NaN if the Lyapunov function is NaN anywhere. -/
theorem C23_c_max_refuted_nan :
    ¬ ∀ (θ : Unit) (tau : Flt ℚ), NonnegOrNaN tau →
      (updateSafeSet overflowArith nanWorld 2 ⟨true, 1, fin 1⟩
        (new nanWorld () tau none false ()) θ).2 = .ok () →
      (updateSafeSet overflowArith nanWorld 2 ⟨true, 1, fin 1⟩
        (new nanWorld () tau none false ()) θ).1.cMax ≠ nan := by
  intro h
  exact h () (fin 2) (Or.inr (Or.inr ⟨2, by norm_num, rfl⟩)) (by decide +kernel) (by decide +kernel)

end SafeLearning.FltLyap
