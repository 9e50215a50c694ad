import Verif.Props.IEEE
import Verif.Props.SafeSet
import Verif.Lemmas.NonFiniteLevel
set_option autoImplicit false

/-!
# C144: the region of attraction, with `update_safe_set` in floating point arithmetic
-/

namespace SafeLearning

namespace FltLyap

open Flt Spec

/-- Finite numbers, as a test. -/
theorem _root_.SafeLearning.Flt.exists_fin {K : Type} {x : Flt K} (h : (match x with | .fin _ => true | _ => false) = true) : ∃ a, x = .fin a := by
  cases x <;> simp_all

/-- The grid states are between the limits of the grid. -/
theorem _root_.SafeLearning.gridState_within {K : Type} [Field K] [LinearOrder K] [IsStrictOrderedRing K] {d : ℕ} (g : GridWorld K d) (h2 : ∀ i, 2 ≤ g.num i) (hlt : ∀ i, g.lo i < g.hi i)
    (j : Fin g.nindex) (i : Fin d) : g.lo i ≤ gridState g j i ∧ gridState g j i ≤ g.hi i := by
  have hg : g.WF := ⟨h2, hlt⟩
  have h3 := unravel_lt g.num j.val j.isLt i
  have h1 := hg.unit_mul i
  have hu := hg.unit_pos i
  have h4 : ((unravel g.num j.val i : ℕ) : K) ≤ (g.num i : K) - 1 := by
    have : ((unravel g.num j.val i + 1 : ℕ) : K) ≤ g.num i := by exact_mod_cast h3
    push_cast at this
    linarith
  unfold gridState GridWorld.ijkToState
  constructor
  · have : (0 : K) ≤ (unravel g.num j.val i : ℕ) * g.unit i := by positivity
    linarith
  · nlinarith

variable {K : Type} [Field K] [LinearOrder K] [IsStrictOrderedRing K] {Prog Θ : Type} {d : ℕ} {A : Arith K} {u ω : K}

/-- A method call leaves the settings of the object as they are. -/
theorem run_settings [FloorRing K] {n : ℕ} (A : Arith K) (W : FWorld K Prog Θ d n) (prog : Prog) (tau : Flt K) (initial : Option (Fin n → Bool)) (adaptive : Bool)
    (history : List (Lyap.Op K Prog Θ)) (hh : ∀ op ∈ history, op.IsMethod) (s : Lyap (Flt K) Prog n)
    (h : s.prog = prog ∧ s.tau = tau ∧ s.initial = initial ∧ s.adaptive = adaptive ∧ (∀ G, s.graph = some G → G.prog = prog ∧ G.tau = tau) ∧ ∀ G, s.graph = some G → G.adaptive = adaptive) :
    let r := run A W s (history.map finiteOp)
    r.prog = prog ∧ r.tau = tau ∧ r.initial = initial ∧ r.adaptive = adaptive ∧ (∀ G, r.graph = some G → G.prog = prog ∧ G.tau = tau) ∧ ∀ G, r.graph = some G → G.adaptive = adaptive := by
  induction history generalizing s with
  | nil => exact h
  | cons op history ih =>
    have h0 := hh op (by simp)
    refine ih (fun o ho => hh o (by simp [ho])) (step A W s (finiteOp op)) ?_
    cases op with
    | updateValues θ => exact h
    | setProg p => exact h0.elim
    | setTau t => exact h0.elim
    | setAdaptive b => exact h0.elim
    | update batch args θ =>
      obtain ⟨h1, h2, h3, h4, -, h6, -⟩ := updateSafeSet_shape A W batch ⟨args.canShrink, args.maxRefinement, .fin args.safetyFactor⟩ s θ _ rfl
      refine ⟨h3.trans h.1, h4.trans h.2.1, h2.trans h.2.2.1, h6.trans h.2.2.2.1, fun G hG => ?_, fun G hG => ?_⟩ <;>
        obtain rfl := Option.some.inj (h1.symm.trans hG) <;> unfold graphFor
      · cases hg : s.graph with
        | none => exact ⟨h.1, h.2.1⟩
        | some G => exact h.2.2.2.2.1 G hg
      · cases hg : s.graph with
        | none => exact h.2.2.2.1
        | some G => exact h.2.2.2.2.2 G hg

variable [FloorRing K] (sys : System K Prog Θ d) (g : GridWorld K d)
    (argsort : (Fin g.nindex → K) → List (Fin g.nindex)) (tauDiv : K → ℕ → K)

/-- **C144 (certified states).** After any history of method calls, a call of `update_safe_set(can_shrink=True)` in floating point arithmetic that returns leaves only states in the safe set that are
initially safe or that satisfy the decrease condition now, up to the effect of rounding, as far as the numbers that it compares are finite. -/
theorem C144_certified (hA : RoundsFinite A u ω) (prog : Prog) (θ : Θ) (tau : K) (initial : Option (Fin g.nindex → Bool)) (θ₀ : Θ)
    (history : List (Lyap.Op K Prog Θ)) (hh : ∀ op ∈ history, op.IsMethod) (batch : ℕ) (args : Lyap.UpdateArgs (Flt K)) (hcs : args.canShrink = true) :
    let W := finiteWorld sys g argsort tauDiv
    let s := run A W (new W prog (fin tau) initial false θ₀) (history.map finiteOp)
    let r := updateSafeSet A W batch args s θ
    r.2 = .ok () → ∀ j D T, decreaseAt A W prog θ j = fin D → thresholdOf A W θ j (fin tau) = fin T → r.1.safeSet j = true → InInitial initial j ∨
      vDecreaseBound (sys.V θ) (sys.lv θ) (gridState g j) (sys.closedLoop prog θ (gridState g j)) <
        thresholdAt (sys.lv θ) (sys.lf θ) (gridState g j) tau + finiteMargin u ω (sys.V θ) (sys.lv θ) (sys.lf θ) (gridState g j) (sys.closedLoop prog θ (gridState g j)) tau := by
  intro W s r hok j D T hD hT hj
  obtain ⟨hp, ht, hi, ha, hG, -⟩ := run_settings A W prog (fin tau) initial false history hh (new W prog (fin tau) initial false θ₀)
    ⟨rfl, rfl, rfl, rfl, by simp [new], by simp [new]⟩
  have hG' : (graphFor s args.safetyFactor).prog = prog ∧ (graphFor s args.safetyFactor).tau = fin tau := by
    unfold graphFor
    cases hg : s.graph with
    | none => exact ⟨hp, ht⟩
    | some G => exact hG G hg
  have hIm : ∀ j, initialMem s j = true → InInitial initial j := by
    intro j hj
    unfold initialMem at hj
    rw [show s.initial = initial from hi] at hj
    unfold InInitial
    cases initial with
    | none => cases hj
    | some I => exact ⟨I, rfl, hj⟩
  obtain ⟨-, -, -, -, -, -, h7⟩ := updateSafeSet_shape A W batch args s θ _ rfl
  rcases h7 with ⟨-, h7⟩ | ⟨p, -, h7⟩
  · exact absurd hok h7
  · rcases h7 j hj with h | h | h | ⟨fed, N, -, -, -, h, -⟩
    · exact Or.inl (hIm j h)
    · unfold startFlag at h
      rw [hcs] at h
      exact Or.inl (hIm j h)
    · unfold negative at h
      rw [hG'.1, hG'.2] at h
      exact Or.inr (C119_check_finite_partial sys g argsort tauDiv hA prog θ j tau D T hD hT h)
    · rw [show s.adaptive = false from ha] at h
      cases h

/-- **C144 (the level set).** After any history of method calls, `update_safe_set(can_shrink=True)` without adaptive refinement in floating point arithmetic returns, and the safe set is the initial set
together with a largest level set of the stored values on which all states are initially safe or pass the test with the rounded numbers. -/
theorem C144_level_set (hsort : ∀ v, (argsort v).Pairwise fun i j => v i ≤ v j) (hall : ∀ v j, j ∈ argsort v) (hn : 0 < g.nindex)
    (prog : Prog) (θ : Θ) (tau : K) (initial : Option (Fin g.nindex → Bool)) (θ₀ : Θ)
    (history : List (Lyap.Op K Prog Θ)) (hh : ∀ op ∈ history, op.IsMethod) (batch : ℕ) (hb : 0 < batch) (args : Lyap.UpdateArgs (Flt K)) (hcs : args.canShrink = true) :
    let W := finiteWorld sys g argsort tauDiv
    let s := run A W (new W prog (fin tau) initial false θ₀) (history.map finiteOp)
    let r := updateSafeSet A W batch args s θ
    r.2 = .ok () ∧ ∃ P, Spec.IsLargestLevelSet (fun j => number (s.values j))
        (fun j => InInitial initial j ∨ lt (decreaseAt A W prog θ j) (thresholdOf A W θ j (fin tau)) = true) P ∧
      ∀ j, r.1.safeSet j = true ↔ InInitial initial j ∨ j ∈ P := by
  intro W s r
  obtain ⟨hp, ht, hi, ha, hG, hGa⟩ := run_settings A W prog (fin tau) initial false history hh (new W prog (fin tau) initial false θ₀)
    ⟨rfl, rfl, rfl, rfl, by simp [new], by simp [new]⟩
  have hG' : (graphFor s args.safetyFactor).prog = prog ∧ (graphFor s args.safetyFactor).tau = fin tau := by
    unfold graphFor
    cases hg : s.graph with
    | none => exact ⟨hp, ht⟩
    | some G => exact hG G hg
  have hIm : ∀ j, initialMem s j = true ↔ InInitial initial j := by
    intro j
    unfold initialMem InInitial
    rw [show s.initial = initial from hi]
    cases initial <;> simp
  have ha' : s.adaptive = false := ha
  obtain ⟨h1, h2⟩ := updateSafeSet_level A W hn batch hb args hcs s θ (fun j => hall _ j) (by rw [ha']; simp)
    (fun G h => by rw [ha']; exact hGa G h)
  refine ⟨h1, {j | j ∈ (W.argsort s.values).takeWhile fun j => initialMem s j || negative A W (graphFor s args.safetyFactor) θ j}, ?_, fun j => by rw [h2 j, hIm j]; rfl⟩
  have := Lyap.isLargestLevelSet_takeWhile (fun j => number (s.values j)) (W.argsort s.values)
    (fun j => initialMem s j || negative A W (graphFor s args.safetyFactor) θ j) (hsort _) (hall _)
  convert this using 2
  rename_i j
  rw [Bool.or_eq_true, hIm j]
  unfold negative
  rw [hG'.1, hG'.2]

/-- **C144 (completeness).** If all grid states with a stored value below `c` are initially safe or satisfy the decrease condition with a margin for the effect of rounding, and the rounded numbers
at these states are finite, all of them are in the safe set. -/
theorem C144_complete (hA : RoundsFinite A u ω) (hsort : ∀ v, (argsort v).Pairwise fun i j => v i ≤ v j) (hall : ∀ v j, j ∈ argsort v) (hn : 0 < g.nindex)
    (prog : Prog) (θ : Θ) (tau : K) (initial : Option (Fin g.nindex → Bool)) (θ₀ : Θ)
    (history : List (Lyap.Op K Prog Θ)) (hh : ∀ op ∈ history, op.IsMethod) (batch : ℕ) (hb : 0 < batch) (args : Lyap.UpdateArgs (Flt K)) (hcs : args.canShrink = true) (c : K) :
    let W := finiteWorld sys g argsort tauDiv
    let s := run A W (new W prog (fin tau) initial false θ₀) (history.map finiteOp)
    let r := updateSafeSet A W batch args s θ
    (∀ j : Fin g.nindex, number (s.values j) < c → InInitial initial j ∨
      ((∃ D, decreaseAt A W prog θ j = fin D) ∧ ∃ T, thresholdOf A W θ j (fin tau) = fin T) ∧
      vDecreaseBound (sys.V θ) (sys.lv θ) (gridState g j) (sys.closedLoop prog θ (gridState g j)) +
        finiteMargin u ω (sys.V θ) (sys.lv θ) (sys.lf θ) (gridState g j) (sys.closedLoop prog θ (gridState g j)) tau <
      thresholdAt (sys.lv θ) (sys.lf θ) (gridState g j) tau) →
    r.2 = .ok () ∧ ∀ j, number (s.values j) < c → r.1.safeSet j = true := by
  intro W s r hc
  obtain ⟨h1, P, hP, h2⟩ := C144_level_set (A := A) sys g argsort tauDiv hsort hall hn prog θ tau initial θ₀ history hh batch hb args hcs
  refine ⟨h1, fun j hj => (h2 j).mpr (Or.inr ?_)⟩
  rcases hP.maximal with h | ⟨b, hb, hbad, -, hmin⟩
  · exact h j
  · by_contra hjP
    apply hbad
    rcases hc b (lt_of_le_of_lt (hmin j hjP) hj) with h | ⟨⟨⟨D, hD⟩, T, hT⟩, h⟩
    · exact Or.inl h
    · exact Or.inr (C119_complete_finite_partial sys g argsort tauDiv hA prog θ b tau D T hD hT h)

/-- **C144 (local constants).** As `C144_region`, but the Lyapunov function has its Lipschitz constant only on a set `S` that contains the grid, the next states and the centres of the predictions, the closed
loop has its Lipschitz constant only on the grid, and the true next states may be outside the error bounds by `κ`. `update_safe_set` runs in floating point arithmetic with underflow and overflow, the numbers that it compares are finite, the computed values of the Lyapunov function differ from those of the true
function `V` by at most `η`, the true next states are inside the error bounds, and the discretisation constant given to the code is larger than the radius `r` of the grid by enough to cover the
errors. If all grid states with a computed value below `c` are in the safe set, every trajectory of the true closed loop that starts with a value below `c - Lv r - η` stays below this level, with a
value that decreases by a fixed amount in each step, until it is within `r` of an initially safe grid state. -/
theorem C144_local (hA : RoundsFinite A u ω) (prog : Prog) (θ : Θ) (tau : K) (initial : Option (Fin g.nindex → Bool)) (θ₀ : Θ)
    (history : List (Lyap.Op K Prog Θ)) (hh : ∀ op ∈ history, op.IsMethod) (batch : ℕ) (args : Lyap.UpdateArgs (Flt K)) (hcs : args.canShrink = true)
    (f : (Fin d → K) → Fin d → K) (V : (Fin d → K) → K) (Lv Lf r η κ c : K) (h2 : ∀ i, 2 ≤ g.num i) (hlt : ∀ i, g.lo i < g.hi i)
    (hlv : sys.lv θ = .const Lv) (hlf : sys.lf θ = .const Lf) (hLv : 0 ≤ Lv) (hLf : 0 ≤ Lf)
    (S : (Fin d → K) → Prop) (hS : ∀ x, (∀ i, g.lo i ≤ x i ∧ x i ≤ g.hi i) → S x ∧ S (f x)) (hcenter : ∀ j : Fin g.nindex, S (sys.closedLoop prog θ (gridState g j)).center)
    (hV : ∀ y z, S y → S z → |V y - V z| ≤ Lv * ∑ i, |y i - z i|)
    (hf : ∀ y z, (∀ i, g.lo i ≤ y i ∧ y i ≤ g.hi i) → (∀ i, g.lo i ≤ z i ∧ z i ≤ g.hi i) → ∑ i, |f y i - f z i| ≤ Lf * ∑ i, |y i - z i|)
    (hr : ∑ i, (g.hi i - g.lo i) / ((g.num i : K) - 1) / 2 ≤ r)
    (hmodel : ∀ j : Fin g.nindex, ∃ y, (sys.closedLoop prog θ (gridState g j)).Contains y ∧ S y ∧ ∑ i, |f (gridState g j) i - y i| ≤ κ)
    (hη : ∀ j : Fin g.nindex, |sys.V θ (gridState g j) - V (gridState g j)| ≤ η ∧
      |sys.V θ (sys.closedLoop prog θ (gridState g j)).center - V (sys.closedLoop prog θ (gridState g j)).center| ≤ η)
    (hmargin : ∀ j : Fin g.nindex, sys.V θ (gridState g j) < c →
      finiteMargin u ω (sys.V θ) (.const Lv) (.const Lf) (gridState g j) (sys.closedLoop prog θ (gridState g j)) tau + 2 * η + Lv * κ ≤ Lv * (1 + Lf) * (tau - r)) :
    let W := finiteWorld sys g argsort tauDiv
    let s := run A W (new W prog (fin tau) initial false θ₀) (history.map finiteOp)
    let out := updateSafeSet A W batch args s θ
    (∀ j : Fin g.nindex, sys.V θ (gridState g j) < c → (∃ D, decreaseAt A W prog θ j = fin D) ∧ ∃ T, thresholdOf A W θ j (fin tau) = fin T) →
    out.2 = .ok () → (∀ j : Fin g.nindex, sys.V θ (gridState g j) < c → out.1.safeSet j = true) →
    (∀ x, V x < c - Lv * r - η → ∀ i, g.lo i ≤ x i ∧ x i ≤ g.hi i) →
    ∃ ε, 0 < ε ∧ ∀ x₀, V x₀ < c - Lv * r - η →
      ∃ T, (∀ t < T, V (f^[t + 1] x₀) ≤ V (f^[t] x₀) - ε) ∧ (∀ t ≤ T, V (f^[t] x₀) < c - Lv * r - η) ∧
        ∃ j, InInitial initial j ∧ ∑ i, |f^[T] x₀ i - gridState g j i| ≤ r := by
  intro W s out hfin hok hc hbox
  have hgrid : ∀ (j : Fin g.nindex) i, g.lo i ≤ gridState g j i ∧ gridState g j i ≤ g.hi i := gridState_within g h2 hlt
  have hcert := C144_certified sys g argsort tauDiv hA prog θ tau initial θ₀ history hh batch args hcs hok
  rw [hlv, hlf] at hcert
  obtain ⟨m, hm⟩ : ∃ m : Fin g.nindex → K, m = fun j : Fin g.nindex => thresholdAt (.const Lv) (.const Lf) (gridState g j) tau +
    finiteMargin u ω (sys.V θ) (.const Lv) (.const Lf) (gridState g j) (sys.closedLoop prog θ (gridState g j)) tau -
    vDecreaseBound (sys.V θ) (.const Lv) (gridState g j) (sys.closedLoop prog θ (gridState g j)) := ⟨_, rfl⟩
  obtain ⟨ε, hε, hmin⟩ := exists_margin m
  refine ⟨ε, hε, ?_⟩
  have hn : 0 < g.nindex := by
    unfold GridWorld.nindex shapeProd
    exact Finset.prod_pos fun i _ => by have := h2 i; omega
  -- a lower bound of `V`
  obtain ⟨k₀, -, hk₀⟩ := Finset.exists_min_image (Finset.univ : Finset (Fin g.nindex)) (fun k => V (gridState g k)) ⟨⟨0, hn⟩, Finset.mem_univ _⟩
  obtain ⟨B, hB⟩ : ∃ B, B = V (gridState g k₀) - Lv * r := ⟨_, rfl⟩
  have hlow : ∀ x, V x < c - Lv * r - η → B ≤ V x := by
    intro x hx
    obtain ⟨k, hk⟩ := exists_near_grid g h2 hlt r hr x (hbox x hx)
    have h1 := (abs_le.mp (hV x (gridState g k) (hS x (hbox x hx)).1 (hS _ (hgrid k)).1)).1
    have h3 := mul_le_mul_of_nonneg_left hk hLv
    have h4 := hk₀ k (Finset.mem_univ _)
    linarith
  have hstep : ∀ x, V x < c - Lv * r - η → (∃ j, InInitial initial j ∧ ∑ i, |x i - gridState g j i| ≤ r) ∨ V (f x) ≤ V x - ε := by
    intro x hx
    obtain ⟨j, hj⟩ := exists_near_grid g h2 hlt r hr x (hbox x hx)
    have hlr := mul_le_mul_of_nonneg_left hj hLv
    have hVj := abs_le.mp (hV x (gridState g j) (hS x (hbox x hx)).1 (hS _ (hgrid j)).1)
    have hjc : sys.V θ (gridState g j) < c := by
      have h1 := (abs_le.mp (hη j).1).2
      linarith [hVj.1]
    obtain ⟨⟨D, hD⟩, T, hT⟩ := hfin j hjc
    rcases hcert j D T hD hT (hc j hjc) with h | h
    · exact Or.inl ⟨j, h, hj⟩
    · refine Or.inr ?_
      have hmj : ε ≤ m j := hmin j (by rw [hm]; linarith)
      rw [hm] at hmj
      have hb : V (f (gridState g j)) - V (gridState g j) ≤ vDecreaseBound V (.const Lv) (gridState g j) (sys.closedLoop prog θ (gridState g j)) + Lv * κ := by
        obtain ⟨y', h1, hy', hκ⟩ := hmodel j
        have h3 := hcenter j
        have h6 := (abs_le.mp (hV (f (gridState g j)) y' (hS _ (hgrid j)).2 hy')).2
        have h10 := mul_le_mul_of_nonneg_left hκ hLv
        cases hp : sys.closedLoop prog θ (gridState g j) with
        | exact y =>
          rw [hp] at h1
          have h1 : y' = y := h1
          simp only [vDecreaseBound, vDecreaseConfidence]
          rw [← h1]
          linarith
        | uncertain y e =>
          rw [hp] at h1 h3
          have h1 : ∀ i, |y' i - y i| ≤ e i := h1
          have h4 := (abs_le.mp (hV y' y hy' h3)).2
          have h5 := mul_le_mul_of_nonneg_left (Finset.sum_le_sum fun i (_ : i ∈ Finset.univ) => h1 i) hLv
          rw [Finset.mul_sum (f := e)] at h5
          simp only [vDecreaseBound, vDecreaseConfidence, LipArg.entry]
          linarith
      have hbb : vDecreaseBound V (.const Lv) (gridState g j) (sys.closedLoop prog θ (gridState g j)) ≤
          vDecreaseBound (sys.V θ) (.const Lv) (gridState g j) (sys.closedLoop prog θ (gridState g j)) + 2 * η := by
        obtain ⟨e1, e2⟩ := hη j
        have e1 := abs_le.mp e1
        have e2 := abs_le.mp e2
        cases hp : sys.closedLoop prog θ (gridState g j) with
        | exact y =>
          rw [hp] at e2
          simp only [vDecreaseBound, vDecreaseConfidence, Prediction.center] at e2 ⊢
          linarith
        | uncertain y e =>
          rw [hp] at e2
          simp only [vDecreaseBound, vDecreaseConfidence, Prediction.center, LipArg.entry] at e2 ⊢
          linarith
      have h3 := (abs_le.mp (hV (f x) (f (gridState g j)) (hS x (hbox x hx)).2 (hS _ (hgrid j)).2)).2
      have h4 := mul_le_mul_of_nonneg_left ((hf x (gridState g j) (hbox x hx) (hgrid j)).trans (mul_le_mul_of_nonneg_left hj hLf)) hLv
      have h7 : thresholdAt (.const Lv) (.const Lf) (gridState g j) tau = -(Lv * (1 + Lf) * tau) := by
        unfold thresholdAt LipArg.forThreshold LipDyn.at; simp only []; ring
      have h8 : Lv * (1 + Lf) * (tau - r) = Lv * (1 + Lf) * tau - Lv * (Lf * r) - Lv * r := by ring
      have h9 := hmargin j hjc
      simp only [h7] at hmj
      linarith [hVj.1]
  have key : ∀ (N : ℕ) x, V x < c - Lv * r - η → V x < B + N * ε →
      ∃ T, (∀ t < T, V (f^[t + 1] x) ≤ V (f^[t] x) - ε) ∧ (∀ t ≤ T, V (f^[t] x) < c - Lv * r - η) ∧
        ∃ j, InInitial initial j ∧ ∑ i, |f^[T] x i - gridState g j i| ≤ r := by
    intro N
    induction N with
    | zero =>
      intro x hx hx2
      have := hlow x hx
      simp only [Nat.cast_zero, zero_mul, add_zero] at hx2
      exact absurd this (not_le.mpr hx2)
    | succ N ih =>
      intro x hx hx2
      rcases hstep x hx with h | h
      · refine ⟨0, fun t ht => absurd ht (Nat.not_lt_zero t), fun t ht => ?_, h⟩
        rw [Nat.le_zero.mp ht]; exact hx
      · have hx3 : V (f x) < c - Lv * r - η := by linarith
        obtain ⟨T, h1, h3, h4⟩ := ih (f x) hx3 (by push_cast at hx2; linarith)
        refine ⟨T + 1, fun t ht => ?_, fun t ht => ?_, h4⟩
        · rcases t with _ | t
          · exact h
          · exact h1 t (by omega)
        · rcases t with _ | t
          · exact hx
          · exact h3 t (by omega)
  intro x hx
  obtain ⟨N, hN⟩ := exists_nat_gt ((V x - B) / ε)
  exact key N x hx (by rw [div_lt_iff₀ hε] at hN; linarith)

/-- **C144.** The region of attraction, with rounding everywhere. `update_safe_set` runs in floating point arithmetic with underflow and overflow, the numbers that it compares are finite, the computed values of the Lyapunov function differ from those of the true
function `V` by at most `η`, the true next states are inside the error bounds, and the discretisation constant given to the code is larger than the radius `r` of the grid by enough to cover the
errors. If all grid states with a computed value below `c` are in the safe set, every trajectory of the true closed loop that starts with a value below `c - Lv r - η` stays below this level, with a
value that decreases by a fixed amount in each step, until it is within `r` of an initially safe grid state. -/
theorem C144_region (hA : RoundsFinite A u ω) (prog : Prog) (θ : Θ) (tau : K) (initial : Option (Fin g.nindex → Bool)) (θ₀ : Θ)
    (history : List (Lyap.Op K Prog Θ)) (hh : ∀ op ∈ history, op.IsMethod) (batch : ℕ) (args : Lyap.UpdateArgs (Flt K)) (hcs : args.canShrink = true)
    (f : (Fin d → K) → Fin d → K) (V : (Fin d → K) → K) (Lv Lf r η c : K) (h2 : ∀ i, 2 ≤ g.num i) (hlt : ∀ i, g.lo i < g.hi i)
    (hlv : sys.lv θ = .const Lv) (hlf : sys.lf θ = .const Lf) (hLv : 0 ≤ Lv) (hLf : 0 ≤ Lf)
    (hV : ∀ y z, |V y - V z| ≤ Lv * ∑ i, |y i - z i|) (hf : ∀ y z, ∑ i, |f y i - f z i| ≤ Lf * ∑ i, |y i - z i|)
    (hr : ∑ i, (g.hi i - g.lo i) / ((g.num i : K) - 1) / 2 ≤ r)
    (hmodel : ∀ j : Fin g.nindex, (sys.closedLoop prog θ (gridState g j)).Contains (f (gridState g j)))
    (hη : ∀ j : Fin g.nindex, |sys.V θ (gridState g j) - V (gridState g j)| ≤ η ∧
      |sys.V θ (sys.closedLoop prog θ (gridState g j)).center - V (sys.closedLoop prog θ (gridState g j)).center| ≤ η)
    (hmargin : ∀ j : Fin g.nindex, sys.V θ (gridState g j) < c →
      finiteMargin u ω (sys.V θ) (.const Lv) (.const Lf) (gridState g j) (sys.closedLoop prog θ (gridState g j)) tau + 2 * η ≤ Lv * (1 + Lf) * (tau - r)) :
    let W := finiteWorld sys g argsort tauDiv
    let s := run A W (new W prog (fin tau) initial false θ₀) (history.map finiteOp)
    let out := updateSafeSet A W batch args s θ
    (∀ j : Fin g.nindex, sys.V θ (gridState g j) < c → (∃ D, decreaseAt A W prog θ j = fin D) ∧ ∃ T, thresholdOf A W θ j (fin tau) = fin T) →
    out.2 = .ok () → (∀ j : Fin g.nindex, sys.V θ (gridState g j) < c → out.1.safeSet j = true) →
    (∀ x, V x < c - Lv * r - η → ∀ i, g.lo i ≤ x i ∧ x i ≤ g.hi i) →
    ∃ ε, 0 < ε ∧ ∀ x₀, V x₀ < c - Lv * r - η →
      ∃ T, (∀ t < T, V (f^[t + 1] x₀) ≤ V (f^[t] x₀) - ε) ∧ (∀ t ≤ T, V (f^[t] x₀) < c - Lv * r - η) ∧
        ∃ j, InInitial initial j ∧ ∑ i, |f^[T] x₀ i - gridState g j i| ≤ r := by
  exact C144_local sys g argsort tauDiv hA prog θ tau initial θ₀ history hh batch args hcs f V Lv Lf r η 0 c h2 hlt hlv hlf hLv hLf (fun _ => True) (fun _ _ => ⟨trivial, trivial⟩) (fun _ => trivial)
    (fun y z _ _ => hV y z) (fun y z _ _ => hf y z) hr (fun j => ⟨f (gridState g j), hmodel j, trivial, by simp⟩) hη (fun j hj => by rw [mul_zero, add_zero]; exact hmargin j hj)

/-- All hypotheses of `C144_region` are met in IEEE 754 double precision: on the line from -2 to 2 with five states, with the closed loop `x / 10` that is known up to an error of `1 / 20` and the
discretisation constant `51 / 100`, every trajectory that starts in `|x| < 2` comes within `1 / 2` of the origin. -/
example := C144_region exampleSystem exampleLine (fun v => (List.finRange _).insertionSort fun i j => v i ≤ v j) (fun t k => t / k) ieeeDouble_rounds
  () () (51 / 100) (some fun k => decide (k.val = 2)) () [.update 3 ⟨true, 1, 1⟩ (), .updateValues ()] (by simp [Lyap.Op.IsMethod]) 3 ⟨true, 1, .fin 1⟩ rfl
  (fun x => ![x 0 / 10]) (fun x => |x 0|) 1 (1 / 10) (1 / 2) 0 (5 / 2) exampleAssumptions.two_le exampleAssumptions.lt rfl rfl (by norm_num) (by norm_num)
  exampleAssumptions.V_lipschitz exampleAssumptions.f_lipschitz exampleAssumptions.tau_le exampleAssumptions.model
  (by intro j; simp [exampleSystem]) (by decide +kernel)
  (by
    intro j _
    refine ⟨Flt.exists_fin ?_, Flt.exists_fin ?_⟩ <;> revert j <;> decide +kernel)
  (by decide +kernel) (by decide +kernel)
  (by
    intro x hx i
    have h1 : |x 0| < 5 / 2 - 1 * (1 / 2) - 0 := hx
    have h2 := abs_lt.mp h1
    have hi : i = 0 := Subsingleton.elim _ _
    subst hi
    simp only [exampleLine, Matrix.cons_val_zero]
    constructor <;> linarith)

/-- The hypotheses of `C144_complete` are met in IEEE 754 double precision: on the same line, all states with a value below `5 / 2` satisfy the decrease condition with the margin, except for the origin,
which is initially safe. -/
example := C144_complete exampleSystem exampleLine (fun v => (List.finRange _).insertionSort fun i j => v i ≤ v j) (fun t k => t / k) ieeeDouble_rounds
  (fun v => (sortContract_insertionSort (exampleSystem.world exampleLine (fun v => (List.finRange _).insertionSort fun i j => v i ≤ v j) (fun t k => t / k)) rfl).sorted v)
  (fun v j => by simp [List.mem_insertionSort])
  (by decide) () () (51 / 100) (some fun k => decide (k.val = 2)) () [.update 3 ⟨true, 1, 1⟩ (), .updateValues ()] (by simp [Lyap.Op.IsMethod]) 3 (by norm_num) ⟨true, 1, .fin 1⟩ rfl (5 / 2)
  (by
    intro j _
    by_cases hj : j.val = 2
    · exact Or.inl ⟨_, rfl, by simpa using hj⟩
    · refine Or.inr ⟨⟨Flt.exists_fin ?_, Flt.exists_fin ?_⟩, ?_⟩ <;> revert j <;> decide +kernel)

end FltLyap

end SafeLearning
