import Verif.Props.FloatEvaluation
import Verif.Props.ValueAccuracy
import Verif.Model.FloatValueIteration
set_option autoImplicit false

/-!
# C128: value iteration in floating point arithmetic
-/

namespace SafeLearning

set_option linter.unusedSectionVars false

open Spec

variable {K : Type} [Field K] [LinearOrder K] [IsStrictOrderedRing K] [FloorRing K] {d m : ℕ}
variable {g : GridWorld K d} {D : Delaunay K d} {eps u δ er ef : K} {project : Bool} {t : Tri K d} {fl : K → K}
variable {P : PolicyIteration K d m} {pp : List (Fin m → K)} {act : (Fin d → K) → Fin m → K}
variable {r : (Fin d → K) → K} {next : (Fin d → K) → Fin d → K}

/-! ## Specification -/

/-- Bound of the distance of a grid point to the computed one. -/
def _root_.Spec.gridRounding (lo hi : Fin d → K) (u : K) : K := ∑ i, u * (|lo i| + 5 * (hi i - lo i))

/-- The factor by which one run of `value_iteration` can amplify an error, for weights with a total of at most `c` and an error `κ` of
the values for parameters in `[-1, 1]`. -/
def _root_.Spec.floatContraction (γ u c κ : K) : K := (1 + u) ^ 2 * γ * (c + κ)

/-- The error that one run of `value_iteration` can add: `Lρ` is the error of the interpolation, `V` a bound of the values,
`er` and `ef` the errors of the reward and of the next state, and `Lp` the change of the values due to the rounding of grid points. -/
def _root_.Spec.floatOffset (γ u κ Lρ Lf Lp V er : K) : K :=
  (1 + u) ^ 2 * γ * (Lρ + Lf + V * κ) + (1 + u) * (er + u * (γ * V)) + u * V + Lp

/-- The value function is a triangulation on a valid grid in floating point arithmetic with computed inverses, the policy (with parameters
`pp`) returns the action `act x` at every computed grid point `x`, where the computed reward is within `er` of `r x` and the computed next
state within `ef` of `next x`, clipped to the domain. -/
structure FloatRLSetup (P : PolicyIteration K d m) (g : GridWorld K d) (D : Delaunay K d) (fl : K → K) (u eps δ : K) (project : Bool)
    (t : Tri K d) (pp : List (Fin m → K)) (act : (Fin d → K) → Fin m → K) (r : (Fin d → K) → K) (next : (Fin d → K) → Fin d → K)
    (er ef : K) : Prop where
  tri : FloatTriSetup g D fl u eps
  new : Tri.new g D project = .ok t
  inverses : ∃ hs, P.valueFunction = withInverses t hs ∧ InverseWithin g.unit δ t.hyperplanes hs
  delta : 0 ≤ δ
  gamma : 0 ≤ P.gamma
  er_nonneg : 0 ≤ er
  ef_nonneg : 0 ≤ ef
  policy : ∀ x ∈ g.flAllPoints fl, P.policy pp x = .ok (act x)
  reward : ∀ x ∈ g.flAllPoints fl, |P.reward x (act x) - r x| ≤ er
  inBox : ∀ x ∈ g.flAllPoints fl, InBox g.lo g.hi (P.dynamics x (act x)).nextMean
  next : ∀ x ∈ g.flAllPoints fl, dist1 (P.dynamics x (act x)).nextMean (clipBox g.lo g.hi (next x)) ≤ ef

/-! ## Grid points -/

theorem flAllPoints_getElem (S : FloatTriSetup g D fl u eps) {k : ℕ} {p : Fin d → K} (hp : IsGridPoint g.lo g.hi g.num k p) :
    ∃ q, (g.flAllPoints fl)[k]? = some q ∧ InBox g.lo g.hi q ∧ dist1 q p ≤ Spec.gridRounding g.lo g.hi u := by
  have hg := S.wf
  have hu0 := S.rounds.nonneg
  obtain ⟨a, ha, rfl, hpa⟩ := hp
  have hk : ravel g.num a < shapeProd g.num := ravel_lt _ _ ha
  rw [Spec.rowMajor, ← ravel_eq_sum]
  have hall : g.flAllPoints fl = (List.range (shapeProd g.num)).map fun k j => GridWorld.flPoint g fl j (unravel g.num k j) := by
    unfold GridWorld.flAllPoints GridWorld.flDiscretePoints
    exact meshIJ_eq g.num fun j m => if m + 1 = g.num j then g.hi j
      else fl (fl ((m : K) * g.flUnit fl j) + g.lo j)
  refine ⟨fun j => GridWorld.flPoint g fl j (a j), ?_, fun i => ?_, ?_⟩
  · rw [hall, List.getElem?_map, List.getElem?_range hk]
    simp only [Option.map_some, unravel_ravel _ _ ha]
  · show g.lo i ≤ GridWorld.flPoint g fl i (a i) ∧ GridWorld.flPoint g fl i (a i) ≤ g.hi i
    have hU := hg.unit_pos i
    have hc := abs_lt.mp (GridWorld.flPoint_close hg S.rounds S.coarse i (a i) (ha i))
    have hW := hg.unit_mul i
    constructor
    · rcases Nat.eq_zero_or_pos (a i) with h0 | h0
      · have h2 := S.two_le i
        have h00 : fl 0 = 0 := by
          obtain ⟨δ, -, e⟩ := S.rounds.factor 0
          rw [e, zero_mul]
        have : GridWorld.flPoint g fl i (a i) = g.lo i := by
          unfold GridWorld.flPoint
          rw [h0, if_neg (by omega), Nat.cast_zero, zero_mul, h00, zero_add, S.lo_fl]
        rw [this]
      · have : (1 : K) ≤ (a i : K) := by exact_mod_cast h0
        have := mul_le_mul_of_nonneg_right this hU.le
        linarith [hc.1]
    · by_cases hl : a i + 1 = g.num i
      · unfold GridWorld.flPoint
        rw [if_pos hl]
      · have h3 : ((a i + 2 : ℕ) : K) ≤ g.num i := by
          have := ha i
          exact_mod_cast (show a i + 2 ≤ g.num i by omega)
        push_cast at h3
        have h4 : ((a i : K) + 1) * g.unit i ≤ g.hi i - g.lo i := by
          rw [← hW]
          exact mul_le_mul_of_nonneg_right (by linarith) hU.le
        linarith [hc.2]
  · unfold dist1 Spec.gridRounding
    refine Finset.sum_le_sum fun i _ => ?_
    have hU := hg.unit_pos i
    have hpi : p i = (a i : K) * g.unit i + g.lo i := by
      rw [hpa i]
      unfold axisPoint GridWorld.unit
      ring
    rw [hpi]
    exact flPoint_within hg S.rounds i (a i) (ha i)

theorem flAllPoints_length (g : GridWorld K d) (fl : K → K) : (g.flAllPoints fl).length = ∏ i, g.num i := by
  have hall : g.flAllPoints fl = (List.range (shapeProd g.num)).map fun k j => GridWorld.flPoint g fl j (unravel g.num k j) := by
    unfold GridWorld.flAllPoints GridWorld.flDiscretePoints
    exact meshIJ_eq g.num fun j m => if m + 1 = g.num j then g.hi j
      else fl (fl ((m : K) * g.flUnit fl j) + g.lo j)
  rw [hall, List.length_map, List.length_range]
  rfl

theorem mapM_exists {α β : Type} {f : α → Except PyErr β} : ∀ {l : List α}, (∀ a ∈ l, ∃ b, f a = .ok b) →
    ∃ r : List β, l.mapM f = .ok r ∧ r.length = l.length ∧ ∀ (k : ℕ) (a : α), l[k]? = some a → ∃ b, r[k]? = some b ∧ f a = .ok b
  | [], _ => ⟨[], rfl, rfl, fun k a h => by simp at h⟩
  | x :: l, h => by
    obtain ⟨b, hb⟩ := h x (by simp)
    obtain ⟨r, h1, h2, h3⟩ := mapM_exists (l := l) fun a ha => h a (List.mem_cons_of_mem _ ha)
    refine ⟨b :: r, ?_, by simp [h2], fun k a hk => ?_⟩
    · rw [List.mapM_cons, hb, h1]
      rfl
    · cases k with
      | zero =>
        rw [List.getElem?_cons_zero] at hk
        cases hk
        exact ⟨b, by simp, hb⟩
      | succ k =>
        rw [List.getElem?_cons_succ] at hk ⊢
        exact h3 k a hk

/-! ## One run -/

/-- The values at the grid points are within `A` of the function `J`. -/
def Close (g : GridWorld K d) (J : (Fin d → K) → K) (A : K) (values : List (Fin 1 → K)) : Prop :=
  values.length = ∏ i, g.num i ∧ ∀ k p, IsGridPoint g.lo g.hi g.num k p → ∃ v : Fin 1 → K, values[k]? = some v ∧ |v 0 - J p| ≤ A

theorem evaluationError_nonneg (hlt : ∀ i, g.lo i < g.hi i) (h2 : ∀ i, 2 ≤ g.num i) (hu : 0 ≤ u) (hδ : 0 ≤ δ) {c : K} (hc : 0 ≤ c) :
    0 ≤ Spec.evaluationError g.lo g.hi g.num u δ c := by
  have hq := growth_nonneg hu (d + 2)
  have hg : g.WF := ⟨h2, hlt⟩
  have hW : 0 ≤ Spec.weightError g.lo g.hi g.num u δ := by
    refine Finset.sum_nonneg fun i _ => ?_
    have h1 := abs_nonneg (g.lo i)
    have h3 := hlt i
    have hU : 0 < (g.hi i - g.lo i) / ((g.num i : K) - 1) := hg.unit_pos i
    have h4 : 0 ≤ u * (|g.lo i| + 5 * (g.hi i - g.lo i)) / ((g.hi i - g.lo i) / ((g.num i : K) - 1)) :=
      div_nonneg (mul_nonneg hu (by linarith)) hU.le
    have h5 : (0 : K) ≤ d.factorial := Nat.cast_nonneg _
    have h6 := mul_nonneg (show 0 ≤ (1 + u) ^ (d + 2) by linarith) h4
    have h7 : 0 ≤ ((1 + u) ^ (d + 2) - 1) * (3 / 2) := by linarith
    exact add_nonneg (mul_nonneg (by linarith) (by linarith)) (by linarith)
  have hd : (0 : K) ≤ d := Nat.cast_nonneg _
  unfold Spec.evaluationError
  exact add_nonneg (mul_nonneg hq hc) (mul_nonneg (by linarith) (add_nonneg (mul_nonneg hq hc)
    (mul_nonneg (by linarith) (mul_nonneg hd hW))))

theorem fl_step (S : FloatRLSetup P g D fl u eps δ project t pp act r next er ef) {c ρ L V A : K}
    (hloc : ∀ x ∈ g.flAllPoints fl, ∃ k s R, Located g D t fl eps (P.dynamics x (act x)).nextMean c ρ k s R) (hL : 0 ≤ L)
    {J : (Fin d → K) → K} (hJ : LipschitzOn1 g.lo g.hi L J) (hV : ∀ x, InBox g.lo g.hi x → |J x| ≤ V)
    (hT : LipschitzOn1 g.lo g.hi L fun x => r x + P.gamma * J (clippedLoop g.lo g.hi next x))
    (hTV : ∀ x, InBox g.lo g.hi x → |r x + P.gamma * J (clippedLoop g.lo g.hi next x)| ≤ V)
    {values : List (Fin 1 → K)} (hv : Close g J A values) :
    ∃ values', P.flValueIteration fl eps ⟨values, pp⟩ = .ok ⟨values', pp⟩ ∧
      Close g (fun x => r x + P.gamma * J (clippedLoop g.lo g.hi next x))
        (Spec.floatContraction P.gamma u c (Spec.evaluationError g.lo g.hi g.num u δ c) * A +
          Spec.floatOffset P.gamma u (Spec.evaluationError g.lo g.hi g.num u δ c) (L * ρ) (L * ef)
            (L * Spec.gridRounding g.lo g.hi u) V er) values' := by
  have hg := S.tri.wf
  have hr := S.tri.rounds
  have hu := hr.nonneg
  have hγ := S.gamma
  obtain ⟨hs, hval, hH⟩ := S.inverses
  set κ := Spec.evaluationError g.lo g.hi g.num u δ c with hκ
  have hdisc : P.valueFunction.disc = g := by
    rw [hval]
    exact (S.tri.good S.new).disc
  -- one state
  have hone : ∀ x ∈ g.flAllPoints fl, InBox g.lo g.hi x → ∃ y, P.flFutureValue fl eps ⟨values, pp⟩ x = .ok y ∧
      |y - (r x + P.gamma * J (clippedLoop g.lo g.hi next x))| ≤
        (1 + u) * (er + ((1 + u) * (P.gamma * (L * ρ + c * A + (V + A) * κ + L * ef)) + u * (P.gamma * V))) + u * V := by
    intro x hx hxb
    obtain ⟨k, s, R, h⟩ := hloc x hx
    obtain ⟨y, e1, e2⟩ := evaluate_of_located (o := 1) S.tri S.new S.delta hH (fun x _ => J x) L hL (fun _ => hJ) values A (V + A)
      (fun k p hp => by
        obtain ⟨v, h1, h2⟩ := hv.2 k p hp
        refine ⟨v, h1, fun l => ?_⟩
        rw [Subsingleton.elim l 0]
        refine ⟨h2, ?_⟩
        have h3 := hV p (inBox_gridPoint hg hp)
        have h4 := abs_add_le (v 0 - J p) (J p)
        rw [sub_add_cancel] at h4
        linarith) _ (S.inBox x hx) h
    have e2 := e2 0
    rw [← hκ] at e2
    have hcl : InBox g.lo g.hi (clippedLoop g.lo g.hi next x) := inBox_clipBox S.tri.lt (next x)
    have e3 : |J (P.dynamics x (act x)).nextMean - J (clippedLoop g.lo g.hi next x)| ≤ L * ef :=
      (hJ _ _ (S.inBox x hx) hcl).trans (mul_le_mul_of_nonneg_left (S.next x hx) hL)
    have e4 : |y 0 - J (clippedLoop g.lo g.hi next x)| ≤ L * ρ + c * A + (V + A) * κ + L * ef := by
      have := abs_add_le (y 0 - J (P.dynamics x (act x)).nextMean) (J (P.dynamics x (act x)).nextMean - J (clippedLoop g.lo g.hi next x))
      rw [sub_add_sub_cancel] at this
      linarith
    refine ⟨fl (P.reward x (act x) + fl (P.gamma * y 0)), ?_, ?_⟩
    · unfold PolicyIteration.flFutureValue
      simp only [S.policy x hx, bind, Except.bind]
      rw [hval, e1]
      rfl
    · have f1 : |P.gamma * y 0 - P.gamma * J (clippedLoop g.lo g.hi next x)| ≤
          P.gamma * (L * ρ + c * A + (V + A) * κ + L * ef) := by
        rw [← mul_sub, abs_mul, abs_of_nonneg hγ]
        exact mul_le_mul_of_nonneg_left e4 hγ
      have f2 := fl_err_of hr f1
      rw [abs_mul, abs_of_nonneg hγ] at f2
      have f3 := mul_le_mul_of_nonneg_left (mul_le_mul_of_nonneg_left (hV _ hcl) hγ) hu
      have f4 : |P.reward x (act x) + fl (P.gamma * y 0) - (r x + P.gamma * J (clippedLoop g.lo g.hi next x))| ≤
          er + ((1 + u) * (P.gamma * (L * ρ + c * A + (V + A) * κ + L * ef)) + u * (P.gamma * V)) := by
        have a := abs_add_le (P.reward x (act x) - r x) (fl (P.gamma * y 0) - P.gamma * J (clippedLoop g.lo g.hi next x))
        rw [show P.reward x (act x) - r x + (fl (P.gamma * y 0) - P.gamma * J (clippedLoop g.lo g.hi next x)) =
          P.reward x (act x) + fl (P.gamma * y 0) - (r x + P.gamma * J (clippedLoop g.lo g.hi next x)) by ring] at a
        have := S.reward x hx
        linarith
      refine (fl_err_of hr f4).trans (add_le_add le_rfl (mul_le_mul_of_nonneg_left (hTV x hxb) hu))
  -- all states
  have hbox : ∀ x ∈ g.flAllPoints fl, InBox g.lo g.hi x := by
    intro x hx
    obtain ⟨k, hk, rfl⟩ := List.getElem_of_mem hx
    have hk' := hk
    rw [flAllPoints_length g fl] at hk'
    obtain ⟨q, h1, h2, -⟩ := flAllPoints_getElem S.tri (isGridPoint_pointAt g ⟨k, hk'⟩)
    simp only at h1
    rw [List.getElem?_eq_getElem hk] at h1
    cases h1
    exact h2
  obtain ⟨ys, h1, h2, h3⟩ := mapM_exists (l := g.flAllPoints fl) (f := P.flFutureValue fl eps ⟨values, pp⟩)
    fun x hx => (hone x hx (hbox x hx)).imp fun _ h => h.1
  have hlen : ys.length = ∏ i, g.num i := h2.trans (flAllPoints_length g fl)
  refine ⟨ys.map fun v _ => v, ?_, by rw [List.length_map, hlen], fun k p hp => ?_⟩
  · unfold PolicyIteration.flValueIteration PolicyIteration.flStateSpace
    rw [hdisc, h1]
    simp only [bind, Except.bind, PolicyIteration.assignValue]
    rw [if_pos (hlen.trans hv.1.symm)]
  · obtain ⟨q, q1, q2, q3⟩ := flAllPoints_getElem S.tri hp
    obtain ⟨b, b1, b2⟩ := h3 k q q1
    refine ⟨fun _ => b, by rw [List.getElem?_map, b1]; rfl, ?_⟩
    obtain ⟨y, y1, y2⟩ := hone q (List.mem_of_getElem? q1) q2
    rw [b2] at y1
    cases y1
    have z1 := hT q p q2 (inBox_gridPoint hg hp)
    have z2 := mul_le_mul_of_nonneg_left q3 hL
    have z3 := abs_add_le (b - (r q + P.gamma * J (clippedLoop g.lo g.hi next q)))
      (r q + P.gamma * J (clippedLoop g.lo g.hi next q) - (r p + P.gamma * J (clippedLoop g.lo g.hi next p)))
    rw [sub_add_sub_cancel] at z3
    refine z3.trans ?_
    have z4 : (1 + u) * (er + ((1 + u) * (P.gamma * (L * ρ + c * A + (V + A) * κ + L * ef)) + u * (P.gamma * V))) + u * V +
        L * Spec.gridRounding g.lo g.hi u =
        Spec.floatContraction P.gamma u c κ * A +
          Spec.floatOffset P.gamma u κ (L * ρ) (L * ef) (L * Spec.gridRounding g.lo g.hi u) V er := by
      unfold Spec.floatContraction Spec.floatOffset
      ring
    rw [← z4]
    exact add_le_add y2 (z1.trans z2)

/-! ## Many runs -/

theorem fl_iterate (S : FloatRLSetup P g D fl u eps δ project t pp act r next er ef) {c ρ L Lr Lf V a b : K}
    (hloc : ∀ x ∈ g.flAllPoints fl, ∃ k s R, Located g D t fl eps (P.dynamics x (act x)).nextMean c ρ k s R) (hL : 0 ≤ L)
    (hle : Lr + P.gamma * Lf * L ≤ L) (hr : LipschitzOn1 g.lo g.hi Lr r) (hf : LipschitzMapOn1 g.lo g.hi Lf next)
    (hV : ∀ x, InBox g.lo g.hi x → |r x| + P.gamma * V ≤ V)
    (ha : a = Spec.floatContraction P.gamma u c (Spec.evaluationError g.lo g.hi g.num u δ c)) (ha1 : a < 1)
    (hb : b = Spec.floatOffset P.gamma u (Spec.evaluationError g.lo g.hi g.num u δ c) (L * ρ) (L * ef)
            (L * Spec.gridRounding g.lo g.hi u) V er) (n : ℕ) :
    ∀ (J : (Fin d → K) → K), LipschitzOn1 g.lo g.hi L J → (∀ x, InBox g.lo g.hi x → |J x| ≤ V) →
    ∀ (A : K) (values : List (Fin 1 → K)), Close g J (A + b / (1 - a)) values →
    ∃ values', P.flIterate fl eps n ⟨values, pp⟩ = .ok ⟨values', pp⟩ ∧
      Close g (returnWithTerminal P.gamma r (clippedLoop g.lo g.hi next) J n) (a ^ n * A + b / (1 - a)) values' := by
  have hpos : 0 < 1 - a := by linarith
  set E := b / (1 - a) with hE
  have hEeq : a * E + b = E := by
    have : b = (1 - a) * E := by rw [hE]; field_simp
    rw [this]; ring
  induction n with
  | zero =>
    intro J _ _ A values hv
    refine ⟨values, rfl, ?_⟩
    rw [pow_zero, one_mul]
    refine ⟨hv.1, fun k p hp => ?_⟩
    simpa [returnWithTerminal] using hv.2 k p hp
  | succ n ih =>
    intro J hJ hJV A values hv
    have hT := lipschitz_step S.tri.lt S.gamma hL hle hr hf hJ
    have hTV : ∀ x, InBox g.lo g.hi x → |r x + P.gamma * J (clippedLoop g.lo g.hi next x)| ≤ V := by
      intro x hx
      have h1 := hV x hx
      have h2 := mul_le_mul_of_nonneg_left (hJV (clippedLoop g.lo g.hi next x) (inBox_clipBox S.tri.lt (next x))) S.gamma
      have h3 := abs_add_le (r x) (P.gamma * J (clippedLoop g.lo g.hi next x))
      rw [abs_mul, abs_of_nonneg S.gamma] at h3
      linarith
    obtain ⟨values', e1, e2⟩ := fl_step S hloc hL hJ hJV hT hTV hv
    rw [← ha, ← hb] at e2
    have e3 : a * (A + E) + b = a * A + E := by linear_combination hEeq
    rw [e3] at e2
    obtain ⟨values'', e4, e5⟩ := ih _ hT hTV (a * A) values' e2
    refine ⟨values'', ?_, e5.1, fun k p hp => ?_⟩
    · unfold PolicyIteration.flIterate
      rw [e1]
      exact e4
    · rw [returnWithTerminal_succ, pow_succ, mul_assoc]
      exact e5.2 k p hp

theorem floatOffset_nonneg {γ κ Lρ Lf Lp V : K} (hγ : 0 ≤ γ) (hu : 0 ≤ u) (hκ : 0 ≤ κ) (h1 : 0 ≤ Lρ) (h2 : 0 ≤ Lf) (h3 : 0 ≤ Lp)
    (hV : 0 ≤ V) (her : 0 ≤ er) : 0 ≤ Spec.floatOffset γ u κ Lρ Lf Lp V er := by
  unfold Spec.floatOffset
  have a1 : 0 ≤ (1 + u) ^ 2 * γ * (Lρ + Lf + V * κ) :=
    mul_nonneg (mul_nonneg (sq_nonneg _) hγ) (add_nonneg (add_nonneg h1 h2) (mul_nonneg hV hκ))
  have a2 : 0 ≤ (1 + u) * (er + u * (γ * V)) := mul_nonneg (by linarith) (add_nonneg her (mul_nonneg hu (mul_nonneg hγ hV)))
  have a3 := mul_nonneg hu hV
  linarith

/-- From the values at the start to the values after `n` runs. -/
theorem fl_value_iteration (S : FloatRLSetup P g D fl u eps δ project t pp act r next er ef) {c ρ L Lr Lf V : K} (hc : 0 ≤ c) (hρ : 0 ≤ ρ)
    (hloc : ∀ x ∈ g.flAllPoints fl, ∃ k s R, Located g D t fl eps (P.dynamics x (act x)).nextMean c ρ k s R) (hL : 0 ≤ L)
    (hle : Lr + P.gamma * Lf * L ≤ L) (hr : LipschitzOn1 g.lo g.hi Lr r) (hf : LipschitzMapOn1 g.lo g.hi Lf next)
    (hV : ∀ x, InBox g.lo g.hi x → |r x| + P.gamma * V ≤ V)
    (hγ : Spec.floatContraction P.gamma u c (Spec.evaluationError g.lo g.hi g.num u δ c) < 1)
    (J : (Fin d → K) → K) (hJ : LipschitzOn1 g.lo g.hi L J) (hJV : ∀ x, InBox g.lo g.hi x → |J x| ≤ V) (n : ℕ) (vars : Vars K m)
    (hp : vars.policy = pp) (hlen : vars.value.length = ∏ i, g.num i) (B : K)
    (hstart : ∀ k x v, IsGridPoint g.lo g.hi g.num k x → vars.value[k]? = some v → |v 0 - J x| ≤ B) :
    ∃ out, P.flIterate fl eps n vars = .ok out ∧ out.policy = pp ∧ out.value.length = ∏ i, g.num i ∧
      ∀ k x v, IsGridPoint g.lo g.hi g.num k x → out.value[k]? = some v →
        |v 0 - returnWithTerminal P.gamma r (clippedLoop g.lo g.hi next) J n x| ≤
        Spec.floatContraction P.gamma u c (Spec.evaluationError g.lo g.hi g.num u δ c) ^ n * B +
          Spec.floatOffset P.gamma u (Spec.evaluationError g.lo g.hi g.num u δ c) (L * ρ) (L * ef)
            (L * Spec.gridRounding g.lo g.hi u) V er /
          (1 - Spec.floatContraction P.gamma u c (Spec.evaluationError g.lo g.hi g.num u δ c)) := by
  have hu := S.tri.rounds.nonneg
  obtain ⟨value, policy⟩ := vars
  simp only at hp hlen hstart
  subst hp
  have hκ := evaluationError_nonneg S.tri.lt S.tri.two_le hu S.delta hc
  have hV0 : 0 ≤ V := (abs_nonneg _).trans (hJV g.lo fun i => ⟨le_rfl, (S.tri.lt i).le⟩)
  have hgr : 0 ≤ Spec.gridRounding g.lo g.hi u := Finset.sum_nonneg fun i _ =>
    mul_nonneg hu (by have := abs_nonneg (g.lo i); have := S.tri.lt i; linarith)
  have hb := floatOffset_nonneg S.gamma hu hκ (mul_nonneg hL hρ) (mul_nonneg hL S.ef_nonneg) (mul_nonneg hL hgr) hV0 S.er_nonneg
  have hE := div_nonneg hb (sub_pos.mpr hγ).le
  have hclose : Close g J (B + Spec.floatOffset P.gamma u (Spec.evaluationError g.lo g.hi g.num u δ c) (L * ρ) (L * ef)
            (L * Spec.gridRounding g.lo g.hi u) V er /
          (1 - Spec.floatContraction P.gamma u c (Spec.evaluationError g.lo g.hi g.num u δ c))) value := by
    refine ⟨hlen, fun k p hp => ?_⟩
    obtain ⟨i, rfl, -⟩ := pointAt_of_isGridPoint hp
    have hi : i.1 < value.length := hlen ▸ i.2
    refine ⟨value[i.1], List.getElem?_eq_getElem hi, ?_⟩
    have := hstart i.1 p _ hp (List.getElem?_eq_getElem hi)
    linarith
  obtain ⟨values', e1, e2⟩ := fl_iterate S hloc hL hle hr hf hV rfl hγ rfl n J hJ hJV B value hclose
  refine ⟨_, e1, rfl, e2.1, fun k x v hx hv => ?_⟩
  obtain ⟨v', f1, f2⟩ := e2.2 k x hx
  simp only at hv
  rw [hv] at f1
  cases f1
  exact f2

theorem locationDefect_nonneg (hg : g.WF) (hu : 0 ≤ u) : 0 ≤ Spec.locationDefect g.lo g.hi g.num u := by
  unfold Spec.locationDefect
  have hd : (0 : K) ≤ 2 * d := by positivity
  refine mul_nonneg hd (Finset.sum_nonneg fun i _ => ?_)
  have hW := sub_pos.mpr (hg.lt i)
  have hU : 0 < (g.hi i - g.lo i) / ((g.num i : K) - 1) := hg.unit_pos i
  exact mul_nonneg (mul_nonneg (by linarith) hW.le) (div_nonneg (Nat.cast_nonneg _) hU.le)

/-- **C128 (value iteration).** Every operation rounds with unit `u`, the inverses have an error of at most `δ`, the computed reward
one of at most `er` and the computed next states one of at most `ef`. The real closed loop is `Lf`-Lipschitz and its reward `Lr`-Lipschitz on the domain,
`Lr + gamma * Lf * L ≤ L`, returns are bounded by `V`, and the initial values are within `B` of an `L`-Lipschitz function `J` at the grid
points. After `n` runs of `value_iteration` the computed value of every grid point is within `a ^ n * B + b / (1 - a)` of the
return of the real closed loop: the discounted rewards of `n` steps plus `gamma ^ n * J` of the state that is reached.
Without errors `a = gamma` and `b = gamma * L * sum(unit_maxes) / 2` (`C128_bounds_without_rounding`). Missing: closed loops with computed next states on grid lines, see
`C128_divergence_refuted`. -/
theorem C128_value_iteration_partial (S : FloatRLSetup P g D fl u eps δ project t pp act r next er ef)
    (haway : ∀ x ∈ g.flAllPoints fl, AwayFromGridLines g.lo g.hi g.num u eps (P.dynamics x (act x)).nextMean)
    {L Lr Lf V a b c κ : K} (hL : 0 ≤ L)
    (hle : Lr + P.gamma * Lf * L ≤ L) (hr : LipschitzOn1 g.lo g.hi Lr r) (hf : LipschitzMapOn1 g.lo g.hi Lf next)
    (hV : ∀ x, InBox g.lo g.hi x → |r x| + P.gamma * V ≤ V)
    (hc : c = 1 + Spec.locationDefect g.lo g.hi g.num u) (hκ : κ = Spec.evaluationError g.lo g.hi g.num u δ c)
    (ha : a = Spec.floatContraction P.gamma u c κ) (ha1 : a < 1)
    (hb : b = Spec.floatOffset P.gamma u κ (L * (coverRadius g.lo g.hi g.num * (1 + 2 * Spec.locationDefect g.lo g.hi g.num u)))
      (L * ef) (L * Spec.gridRounding g.lo g.hi u) V er)
    (J : (Fin d → K) → K) (hJ : LipschitzOn1 g.lo g.hi L J) (hJV : ∀ x, InBox g.lo g.hi x → |J x| ≤ V) (n : ℕ) (vars : Vars K m)
    (hp : vars.policy = pp) (hlen : vars.value.length = ∏ i, g.num i) (B : K)
    (hstart : ∀ k x v, IsGridPoint g.lo g.hi g.num k x → vars.value[k]? = some v → |v 0 - J x| ≤ B) :
    ∃ out, P.flIterate fl eps n vars = .ok out ∧ out.policy = pp ∧ out.value.length = ∏ i, g.num i ∧
      ∀ k x v, IsGridPoint g.lo g.hi g.num k x → out.value[k]? = some v →
        |v 0 - returnWithTerminal P.gamma r (clippedLoop g.lo g.hi next) J n x| ≤ a ^ n * B + b / (1 - a) := by
  have hg := S.tri.wf
  have h0 := locationDefect_nonneg hg S.tri.rounds.nonneg
  subst hb ha hκ hc
  exact fl_value_iteration S (by linarith) (mul_nonneg (coverRadius_nonneg hg) (by linarith))
    (fun x hx => located_away S.tri S.new _ (S.inBox x hx) (haway x hx)) hL hle hr hf hV ha1 J hJ hJV n vars hp hlen B hstart

/-- **C128 (one dimension).** In one dimension the same holds for all computed next states, also for those on grid points. -/
theorem C128_line {g : GridWorld K 1} {D : Delaunay K 1} {t : Tri K 1} {P : PolicyIteration K 1 m}
    {act : (Fin 1 → K) → Fin m → K} {r : (Fin 1 → K) → K} {next : (Fin 1 → K) → Fin 1 → K}
    (S : FloatRLSetup P g D fl u eps δ project t pp act r next er ef)
    {L Lr Lf V a b c κ : K} (hL : 0 ≤ L)
    (hle : Lr + P.gamma * Lf * L ≤ L) (hr : LipschitzOn1 g.lo g.hi Lr r) (hf : LipschitzMapOn1 g.lo g.hi Lf next)
    (hV : ∀ x, InBox g.lo g.hi x → |r x| + P.gamma * V ≤ V)
    (hc : c = 1 + Spec.lineDefect g.lo g.hi g.num u) (hκ : κ = Spec.evaluationError g.lo g.hi g.num u δ c)
    (ha : a = Spec.floatContraction P.gamma u c κ) (ha1 : a < 1)
    (hb : b = Spec.floatOffset P.gamma u κ (L * (coverRadius g.lo g.hi g.num * (1 + 2 * Spec.lineDefect g.lo g.hi g.num u)))
      (L * ef) (L * Spec.gridRounding g.lo g.hi u) V er)
    (J : (Fin 1 → K) → K) (hJ : LipschitzOn1 g.lo g.hi L J) (hJV : ∀ x, InBox g.lo g.hi x → |J x| ≤ V) (n : ℕ) (vars : Vars K m)
    (hp : vars.policy = pp) (hlen : vars.value.length = ∏ i, g.num i) (B : K)
    (hstart : ∀ k x v, IsGridPoint g.lo g.hi g.num k x → vars.value[k]? = some v → |v 0 - J x| ≤ B) :
    ∃ out, P.flIterate fl eps n vars = .ok out ∧ out.policy = pp ∧ out.value.length = ∏ i, g.num i ∧
      ∀ k x v, IsGridPoint g.lo g.hi g.num k x → out.value[k]? = some v →
        |v 0 - returnWithTerminal P.gamma r (clippedLoop g.lo g.hi next) J n x| ≤ a ^ n * B + b / (1 - a) := by
  have hg := S.tri.wf
  have h0 : 0 ≤ Spec.lineDefect g.lo g.hi g.num u := by
    unfold Spec.lineDefect
    have hU : 0 < (g.hi 0 - g.lo 0) / ((g.num 0 : K) - 1) := hg.unit_pos 0
    have h1 := S.tri.lt 0
    have h2 := abs_nonneg (g.lo 0)
    have := div_nonneg (mul_nonneg S.tri.rounds.nonneg (show 0 ≤ |g.lo 0| + 5 * (g.hi 0 - g.lo 0) by linarith)) hU.le
    linarith
  subst hb ha hκ hc
  exact fl_value_iteration S (by linarith) (mul_nonneg (coverRadius_nonneg hg) (by linarith))
    (fun x hx => located_line S.tri S.new _ (S.inBox x hx)) hL hle hr hf hV ha1 J hJ hJV n vars hp hlen B hstart

/-- **C128 (small discount factors).** If the discount factor is small compared with a constant of the dimension, the same holds for all closed loops, also for those with
computed next states on grid lines, where the wrong simplex may be found. -/
theorem C128_small_discount (S : FloatRLSetup P g D fl u eps δ project t pp act r next er ef)
    {L Lr Lf V a b c κ : K} (hL : 0 ≤ L)
    (hle : Lr + P.gamma * Lf * L ≤ L) (hr : LipschitzOn1 g.lo g.hi Lr r) (hf : LipschitzMapOn1 g.lo g.hi Lf next)
    (hV : ∀ x, InBox g.lo g.hi x → |r x| + P.gamma * V ≤ V)
    (hc : c = 1 + 3 * d * d * d.factorial) (hκ : κ = Spec.evaluationError g.lo g.hi g.num u δ c)
    (ha : a = Spec.floatContraction P.gamma u c κ) (ha1 : a < 1)
    (hb : b = Spec.floatOffset P.gamma u κ (L * (3 * c * coverRadius g.lo g.hi g.num))
      (L * ef) (L * Spec.gridRounding g.lo g.hi u) V er)
    (J : (Fin d → K) → K) (hJ : LipschitzOn1 g.lo g.hi L J) (hJV : ∀ x, InBox g.lo g.hi x → |J x| ≤ V) (n : ℕ) (vars : Vars K m)
    (hp : vars.policy = pp) (hlen : vars.value.length = ∏ i, g.num i) (B : K)
    (hstart : ∀ k x v, IsGridPoint g.lo g.hi g.num k x → vars.value[k]? = some v → |v 0 - J x| ≤ B) :
    ∃ out, P.flIterate fl eps n vars = .ok out ∧ out.policy = pp ∧ out.value.length = ∏ i, g.num i ∧
      ∀ k x v, IsGridPoint g.lo g.hi g.num k x → out.value[k]? = some v →
        |v 0 - returnWithTerminal P.gamma r (clippedLoop g.lo g.hi next) J n x| ≤ a ^ n * B + b / (1 - a) := by
  have hg := S.tri.wf
  have h0 : (0 : K) ≤ 1 + 3 * d * d * d.factorial := by positivity
  subst hb ha hκ hc
  exact fl_value_iteration S h0 (mul_nonneg (by linarith) (coverRadius_nonneg hg))
    (fun x hx => by
      obtain ⟨k, s, R, h, -⟩ := located_every S.tri S.new _ (S.inBox x hx)
      exact ⟨k, s, R, h⟩) hL hle hr hf hV ha1 J hJ hJV n vars hp hlen B hstart

/-- **C128 (no rounding).** Without rounding, the runs are those of the exact model (C26, C121), for policies that return an action at every grid point. -/
theorem C128_without_rounding (h2 : ∀ i, 2 ≤ P.valueFunction.disc.num i)
    (hpol : ∀ pp, ∀ x ∈ P.stateSpace, ∃ a, P.policy pp x = .ok a) (n : ℕ) (vars : Vars K m) :
    P.flIterate id eps n vars = P.iterate eps n vars := by
  have hs : P.flStateSpace id = P.stateSpace := by
    unfold PolicyIteration.flStateSpace PolicyIteration.stateSpace GridWorld.flAllPoints GridWorld.allPoints
    congr 1
    funext i
    unfold GridWorld.flDiscretePoints GridWorld.discretePoints linspace
    refine List.map_congr_left fun k _ => ?_
    have : 1 < P.valueFunction.disc.num i := h2 i
    simp only [this, and_true]
    rfl
  have hstep : ∀ vars, P.flValueIteration id eps vars = P.valueIteration eps vars := by
    intro vars
    unfold PolicyIteration.flValueIteration PolicyIteration.valueIteration PolicyIteration.futureValues
    rw [hs]
    have key : ∀ l : List (Fin d → K), (∀ x ∈ l, ∃ a, P.policy vars.policy x = .ok a) →
        ∃ as, l.mapM (P.policy vars.policy) = .ok as ∧ as.length = l.length ∧
          l.mapM (P.flFutureValue id eps vars) = (l.zip as).mapM fun sa => P.futureValue eps vars none 1 sa.1 sa.2 := by
      intro l
      induction l with
      | nil => intro _; exact ⟨[], rfl, rfl, rfl⟩
      | cons x l ih =>
        intro h
        obtain ⟨a, ha⟩ := h x (by simp)
        obtain ⟨as, e1, e2, e3⟩ := ih fun y hy => h y (List.mem_cons_of_mem _ hy)
        refine ⟨a :: as, ?_, by simp [e2], ?_⟩
        · rw [List.mapM_cons, ha, e1]
          rfl
        · rw [List.mapM_cons, List.zip_cons_cons, List.mapM_cons, e3]
          congr 1
          unfold PolicyIteration.flFutureValue PolicyIteration.futureValue
          simp only [ha, bind, Except.bind]
          rw [(C123_without_rounding h2 vars.value _).2, C17_tf_agrees]
          rfl
    obtain ⟨as, e1, e2, e3⟩ := key P.stateSpace (hpol vars.policy)
    simp only [Option.getD_none, e1, e2, e3, bind, Except.bind, ne_eq, not_true_eq_false, if_false]
  induction n generalizing vars with
  | zero => rfl
  | succ n ih =>
    unfold PolicyIteration.flIterate PolicyIteration.iterate
    rw [hstep]
    cases P.valueIteration eps vars with
    | error e => rfl
    | ok v => exact ih v

/-- **C128 (bounds).** Without rounding and errors, the factor is `gamma` and the bound is the one of C121. -/
theorem C128_bounds_without_rounding (lo hi : Fin d → K) (num : Fin d → ℕ) (γ L V : K) :
    Spec.floatContraction γ 0 (1 + Spec.locationDefect lo hi num 0)
      (Spec.evaluationError lo hi num 0 0 (1 + Spec.locationDefect lo hi num 0)) = γ ∧
    Spec.floatOffset γ 0 (Spec.evaluationError lo hi num 0 0 (1 + Spec.locationDefect lo hi num 0))
      (L * (coverRadius lo hi num * (1 + 2 * Spec.locationDefect lo hi num 0))) (L * 0) (L * Spec.gridRounding lo hi 0) V 0 =
      γ * L * coverRadius lo hi num := by
  rw [evaluationError_zero]
  have h : Spec.locationDefect lo hi num 0 = 0 := by simp [Spec.locationDefect]
  rw [h]
  constructor
  · simp [Spec.floatContraction]
  · simp [Spec.floatOffset, Spec.gridRounding]
    ring

/-! ## Closed loops with next states on grid lines -/

/-- The closed loop `x ↦ (16 - x₁ - x₂, 16 - x₁ - x₂)` without rewards and with discount factor `3 / 4`, on the three by three points between `0`
and `8`; the value function projects to the domain. -/
def affineLoop : PolicyIteration ℚ 2 1 where
  policy _ _ := .ok 0
  policyGrid := wideGrid
  dynamics x _ := .exact fun _ => 16 - x 0 - x 1
  reward _ _ := 0
  valueFunction := Conformance.triTwo wideGrid true
  gamma := 3 / 4

/-- Initial values. -/
def affineStart : List (Fin 1 → ℚ) := [![0], ![0], ![0], ![0], ![-2], ![1], ![0], ![1], ![0]]

theorem flEvaluate_of_weights {K : Type} [Field K] [LinearOrder K] [IsStrictOrderedRing K] [FloorRing K] {d o : ℕ} {t : Tri K d}
    {fl : K → K} {eps : K} {x : Fin d → K} {w : Fin (d + 1) → K}
    {s : Fin (d + 1) → ℕ} (h : t.flGetWeights fl fl eps x = .ok (w, s)) {params : List (Fin o → K)} {val : Fin (d + 1) → Fin o → K}
    (hval : ∀ j, params[s j]? = some (val j)) :
    t.flEvaluate fl fl eps params x = .ok fun l => flSum fl (List.ofFn fun j => fl (w j * val j l)) := by
  unfold Tri.flEvaluate
  rw [h]
  simp only [bind, Except.bind]
  rw [traverseFin_ok (g := val) fun j => rowAt_ok (hval j)]
  rfl

/-- A number that is at least `c` in the direction `σ` is still at least `(1 - u) * c` after rounding. -/
theorem fl_lower (hr : RoundsWithin fl u) {σ x c : K} (hσ : σ = 1 ∨ σ = -1) (hc : 0 ≤ c) (h : c ≤ σ * x) : (1 - u) * c ≤ σ * fl x := by
  have h1 := abs_le.mp (hr.err x)
  have hu := hr.nonneg
  have hu1 := hr.small
  have h3 : (1 - u) * c ≤ (1 - u) * (σ * x) := mul_le_mul_of_nonneg_left h (by linarith)
  rcases hσ with rfl | rfl
  · rw [one_mul] at h h3 ⊢
    rw [abs_of_nonneg (by linarith)] at h1
    linarith [h1.1]
  · rw [abs_of_nonpos (by linarith)] at h1
    linarith [h1.2]

/-- Lower bound of an entry of the new values. -/
theorem fl_update_lower (hr : RoundsWithin fl u) {σ w0 w1 w2 y0 y1 y2 c0 c1 c2 γ : K} (hσ : σ = 1 ∨ σ = -1) (hγ : 0 ≤ γ)
    (h0 : 0 ≤ c0) (h1 : 0 ≤ c1) (h2 : 0 ≤ c2) (e0 : c0 ≤ σ * (w0 * y0)) (e1 : c1 ≤ σ * (w1 * y1)) (e2 : c2 ≤ σ * (w2 * y2)) :
    (1 - u) ^ 6 * (γ * (c0 + c1 + c2)) ≤
      σ * fl (0 + fl (γ * fl (fl (fl (0 + fl (w0 * y0)) + fl (w1 * y1)) + fl (w2 * y2)))) := by
  have hu1 := hr.small
  have hu := hr.nonneg
  have hp : 0 ≤ 1 - u := by linarith
  have hq : 1 - u ≤ 1 := by linarith
  have a0 := fl_lower hr hσ h0 e0
  have a1 := fl_lower hr hσ h1 e1
  have a2 := fl_lower hr hσ h2 e2
  have b0 : (1 - u) * ((1 - u) * c0) ≤ σ * fl (0 + fl (w0 * y0)) :=
    fl_lower hr hσ (mul_nonneg hp h0) (by rw [zero_add]; exact a0)
  have n1 := mul_nonneg hp h1
  have n2 := mul_nonneg hp h2
  have b1 : (1 - u) * ((1 - u) * ((1 - u) * c0) + (1 - u) * c1) ≤ σ * fl (fl (0 + fl (w0 * y0)) + fl (w1 * y1)) :=
    fl_lower hr hσ (add_nonneg (mul_nonneg hp (mul_nonneg hp h0)) n1) (by rw [mul_add]; exact add_le_add b0 a1)
  have m1 : 0 ≤ (1 - u) * ((1 - u) * ((1 - u) * c0) + (1 - u) * c1) :=
    mul_nonneg hp (add_nonneg (mul_nonneg hp (mul_nonneg hp h0)) n1)
  have b2 : (1 - u) * ((1 - u) * ((1 - u) * ((1 - u) * c0) + (1 - u) * c1) + (1 - u) * c2) ≤
      σ * fl (fl (fl (0 + fl (w0 * y0)) + fl (w1 * y1)) + fl (w2 * y2)) :=
    fl_lower hr hσ (add_nonneg m1 n2) (by rw [mul_add σ]; exact add_le_add b1 a2)
  set X := fl (fl (fl (0 + fl (w0 * y0)) + fl (w1 * y1)) + fl (w2 * y2)) with hX
  have low : (1 - u) ^ 4 * (c0 + c1 + c2) ≤ σ * X := by
    refine le_trans ?_ b2
    have q1 : (1 - u) ^ 4 * c1 ≤ (1 - u) ^ 3 * c1 :=
      mul_le_mul_of_nonneg_right (pow_le_pow_of_le_one hp hq (by norm_num)) h1
    have q2 : (1 - u) ^ 4 * c2 ≤ (1 - u) ^ 2 * c2 :=
      mul_le_mul_of_nonneg_right (pow_le_pow_of_le_one hp hq (by norm_num)) h2
    calc (1 - u) ^ 4 * (c0 + c1 + c2) = (1 - u) ^ 4 * c0 + (1 - u) ^ 4 * c1 + (1 - u) ^ 4 * c2 := by ring
      _ ≤ (1 - u) ^ 4 * c0 + (1 - u) ^ 3 * c1 + (1 - u) ^ 2 * c2 := by linarith
      _ = _ := by ring
  have hl : 0 ≤ (1 - u) ^ 4 * (c0 + c1 + c2) := mul_nonneg (pow_nonneg hp _) (by linarith)
  have d1 : (1 - u) * (γ * ((1 - u) ^ 4 * (c0 + c1 + c2))) ≤ σ * fl (γ * X) :=
    fl_lower hr hσ (mul_nonneg hγ hl) (by
      rw [show σ * (γ * X) = γ * (σ * X) by ring]
      exact mul_le_mul_of_nonneg_left low hγ)
  have d2 := fl_lower (x := 0 + fl (γ * X)) hr hσ (mul_nonneg hp (mul_nonneg hγ hl)) (by rw [zero_add]; exact d1)
  calc _ = (1 - u) * ((1 - u) * (γ * ((1 - u) ^ 4 * (c0 + c1 + c2)))) := by ring
    _ ≤ _ := d2

theorem flSum_three (f : Fin 3 → K) : flSum fl (List.ofFn f) = fl (fl (fl (0 + f 0) + f 1) + f 2) := by
  rw [List.ofFn_succ, List.ofFn_succ, List.ofFn_succ, List.ofFn_zero]
  rfl

theorem affine_states : affineLoop.flStateSpace (roundBinary 53) =
    [![0, 0], ![0, 4], ![0, 8], ![4, 0], ![4, 4], ![4, 8], ![8, 0], ![8, 4], ![8, 8]] := by decide +kernel

/-- The weights of the next states of the nine points in double precision. -/
theorem affine_weights (x : Fin 2 → ℚ) (hx : x ∈ affineLoop.flStateSpace (roundBinary 53)) :
    affineLoop.valueFunction.flGetWeights (roundBinary 53) (roundBinary 53) doubleEps (affineLoop.dynamics x 0).nextMean =
      .ok (if x 0 + x 1 ≤ 8 then (![-1, 1, 1], ![4, 7, 5]) else if x 0 + x 1 ≤ 12 then (![1, 0, 0], ![4, 7, 5]) else
        (![1, 0, 0], ![0, 3, 1])) := by
  rw [affine_states] at hx
  simp only [List.mem_cons, List.not_mem_nil, or_false] at hx
  rcases hx with rfl | rfl | rfl | rfl | rfl | rfl | rfl | rfl | rfl <;>
    exact eq_of_returns (by decide +kernel)

theorem affine_future {values : List (Fin 1 → ℚ)} (hlen : values.length = 9) (x : Fin 2 → ℚ)
    (hx : x ∈ affineLoop.flStateSpace (roundBinary 53)) :
    ∃ (w : Fin 3 → ℚ) (s : Fin 3 → ℕ) (hs : ∀ j, s j < values.length),
      (if x 0 + x 1 ≤ 8 then (![-1, 1, 1], ![4, 7, 5]) else if x 0 + x 1 ≤ 12 then (![1, 0, 0], ![4, 7, 5]) else
        (![1, 0, 0], ![0, 3, 1])) = (w, s) ∧
      affineLoop.flFutureValue (roundBinary 53) doubleEps ⟨values, []⟩ x = .ok (roundBinary 53 (0 + roundBinary 53 (3 / 4 *
        roundBinary 53 (roundBinary 53 (roundBinary 53 (0 + roundBinary 53 (w 0 * (values[s 0]'(hs 0)) 0)) +
          roundBinary 53 (w 1 * (values[s 1]'(hs 1)) 0)) + roundBinary 53 (w 2 * (values[s 2]'(hs 2)) 0))))) := by
  have hw := affine_weights x hx
  have hlt : ∀ j, (if x 0 + x 1 ≤ 8 then (![-1, 1, 1], ![4, 7, 5]) else if x 0 + x 1 ≤ 12 then (![1, 0, 0], ![4, 7, 5]) else
        ((![1, 0, 0], ![0, 3, 1]) : (Fin 3 → ℚ) × (Fin 3 → ℕ))).2 j < values.length := by
    intro j
    rw [hlen]
    split_ifs <;> fin_cases j <;> simp
  refine ⟨_, _, hlt, Prod.mk.eta.symm, ?_⟩
  unfold PolicyIteration.flFutureValue
  have hpol : affineLoop.policy [] x = .ok 0 := rfl
  simp only [hpol, bind, Except.bind]
  rw [flEvaluate_of_weights (val := fun j => values[_]'(hlt j)) hw fun j => List.getElem?_eq_getElem (hlt j)]
  simp only [flSum_three]
  rfl

/-- The values at the points `(4, 4)`, `(4, 8)` and `(8, 4)` are large, with different signs. -/
def Growing (σ G : ℚ) (values : List (Fin 1 → ℚ)) : Prop :=
  values.length = 9 ∧ ∃ a b c : Fin 1 → ℚ, values[4]? = some a ∧ values[5]? = some b ∧ values[7]? = some c ∧
    G ≤ -σ * a 0 ∧ G / 2 ≤ σ * b 0 ∧ G / 2 ≤ σ * c 0

theorem growing_step {σ G : ℚ} (hσ : σ = 1 ∨ σ = -1) (hG : 0 ≤ G) {values : List (Fin 1 → ℚ)} (h : Growing σ G values) :
    ∃ values', affineLoop.flValueIteration (roundBinary 53) doubleEps ⟨values, []⟩ = .ok ⟨values', []⟩ ∧
      Growing (-σ) (7 / 5 * G) values' := by
  obtain ⟨hlen, a, b, c, ha, hb, hc, ga, gb, gc⟩ := h
  have hσ' : -σ = 1 ∨ -σ = -1 := by rcases hσ with rfl | rfl <;> simp
  have hr := roundBinary_within 53 (by norm_num)
  obtain ⟨ys, h1, h2, h3⟩ := mapM_exists (l := affineLoop.flStateSpace (roundBinary 53))
    (f := affineLoop.flFutureValue (roundBinary 53) doubleEps ⟨values, []⟩)
    fun x hx => by
      obtain ⟨w, s, hs, -, e⟩ := affine_future hlen x hx
      exact ⟨_, e⟩
  have hys : ys.length = 9 := by rw [h2, affine_states]; rfl
  have hu : (7 / 5 : ℚ) ≤ (1 - (2 : ℚ) ^ (-((53 : ℕ) : ℤ))) ^ 6 * (3 / 4 * 2) := by norm_num
  have hu0 : (0 : ℚ) ≤ (1 - (2 : ℚ) ^ (-((53 : ℕ) : ℤ))) ^ 6 * (3 / 4) := by norm_num
  have va : ∀ h, (values[4]'h) 0 = a 0 := fun h => by
    rw [List.getElem?_eq_getElem h] at ha; rw [Option.some.inj ha]
  have vb : ∀ h, (values[5]'h) 0 = b 0 := fun h => by
    rw [List.getElem?_eq_getElem h] at hb; rw [Option.some.inj hb]
  have vc : ∀ h, (values[7]'h) 0 = c 0 := fun h => by
    rw [List.getElem?_eq_getElem h] at hc; rw [Option.some.inj hc]
  -- a state that moves to `(8, 8)`
  obtain ⟨a', p1, p2⟩ := h3 4 ![4, 4] (by rw [affine_states]; rfl)
  obtain ⟨b', q1, q2⟩ := h3 5 ![4, 8] (by rw [affine_states]; rfl)
  obtain ⟨c', r1, r2⟩ := h3 7 ![8, 4] (by rw [affine_states]; rfl)
  have la : 7 / 5 * G ≤ σ * a' := by
    obtain ⟨w, s, hs, e1, e2⟩ := affine_future hlen ![4, 4] (by rw [affine_states]; simp)
    rw [if_pos (by norm_num)] at e1
    cases e1
    rw [p2] at e2
    cases e2
    have := fl_update_lower (γ := 3 / 4) (w0 := -1) (w1 := 1) (w2 := 1) (y0 := a 0) (y1 := c 0) (y2 := b 0) (c0 := G) (c1 := G / 2)
      (c2 := G / 2) hr hσ (by norm_num) hG (by linarith) (by linarith) (by linarith) (by linarith) (by linarith)
    have e := mul_le_mul_of_nonneg_right hu hG
    refine le_trans (by linarith) (this.trans (le_of_eq ?_))
    rw [← va (by omega), ← vb (by omega), ← vc (by omega)]
    rfl
  have lb : ∀ y x, (x = ![4, 8] ∨ x = ![8, 4]) → affineLoop.flFutureValue (roundBinary 53) doubleEps ⟨values, []⟩ x = .ok y →
      7 / 5 * G / 2 ≤ -σ * y := by
    intro y x hx hy
    obtain ⟨w, s, hs, e1, e2⟩ := affine_future hlen x (by rw [affine_states]; rcases hx with rfl | rfl <;> simp)
    rw [if_neg (by rcases hx with rfl | rfl <;> norm_num), if_pos (by rcases hx with rfl | rfl <;> norm_num)] at e1
    cases e1
    rw [hy] at e2
    cases e2
    have := fl_update_lower (γ := 3 / 4) (w0 := 1) (w1 := 0) (w2 := 0) (y0 := a 0) (y1 := c 0) (y2 := b 0) (c0 := G) (c1 := 0)
      (c2 := 0) hr hσ' (by norm_num) hG le_rfl le_rfl (by linarith) (by simp) (by simp)
    have e := mul_le_mul_of_nonneg_right hu hG
    refine le_trans (by linarith) (this.trans (le_of_eq ?_))
    rw [← va (by omega), ← vb (by omega), ← vc (by omega)]
    rfl
  refine ⟨ys.map fun v _ => v, ?_, by rw [List.length_map, hys], fun _ => a', fun _ => b', fun _ => c', ?_, ?_, ?_, ?_, ?_, ?_⟩
  · unfold PolicyIteration.flValueIteration
    rw [h1]
    simp only [bind, Except.bind, PolicyIteration.assignValue]
    rw [if_pos (hys.trans hlen.symm)]
  · rw [List.getElem?_map, p1]; rfl
  · rw [List.getElem?_map, q1]; rfl
  · rw [List.getElem?_map, r1]; rfl
  · rw [neg_neg]; exact la
  · exact lb _ _ (Or.inl rfl) q2
  · exact lb _ _ (Or.inr rfl) r2

theorem growing_iterate (n : ℕ) : ∀ (σ G : ℚ), (σ = 1 ∨ σ = -1) → 0 ≤ G → ∀ values, Growing σ G values →
    ∃ values', affineLoop.flIterate (roundBinary 53) doubleEps n ⟨values, []⟩ = .ok ⟨values', []⟩ ∧
      ∃ σ', (σ' = 1 ∨ σ' = -1) ∧ Growing σ' ((7 / 5) ^ n * G) values' := by
  induction n with
  | zero =>
    intro σ G hσ _ values h
    exact ⟨values, rfl, σ, hσ, by simpa using h⟩
  | succ n ih =>
    intro σ G hσ hG values h
    obtain ⟨v1, e1, h1⟩ := growing_step hσ hG h
    obtain ⟨v2, e2, σ', hσ', h2⟩ := ih (-σ) (7 / 5 * G) (by rcases hσ with rfl | rfl <;> simp) (by linarith) v1 h1
    refine ⟨v2, ?_, σ', hσ', ?_⟩
    · unfold PolicyIteration.flIterate
      rw [e1]
      exact e2
    · rw [pow_succ, mul_assoc]
      exact h2

/-- **C128 (refuted).** Value iteration does not converge in double precision: on three by three points between `0` and `8`, with the affine closed
loop `affineLoop` and without rewards, the computed value of the point `(4, 4)` after `n` runs is at least
`2 * (7 / 5) ^ n`, although the discount factor is `3 / 4`. In exact arithmetic the values are at most `2 * (4 / 5) ^ n`,
and the return is zero. The value at the upper corner `(8, 8)`, where the wrong simplex is found, is a combination of the others with weights `-1`, `1`
and `1`. -/
theorem C128_divergence_refuted :
    Tri.new wideGrid (delaunay2D wideGrid.unit) true = .ok affineLoop.valueFunction ∧
    (∀ n, ∃ out, affineLoop.flIterate (roundBinary 53) doubleEps n ⟨affineStart, []⟩ = .ok out ∧
      ∃ v, out.value[4]? = some v ∧ 2 * (7 / 5) ^ n ≤ |v 0|) ∧
    (∀ n, ∃ out, affineLoop.iterate doubleEps n ⟨affineStart, []⟩ = .ok out ∧ out.value.length = 9 ∧
      ∀ k x v, IsGridPoint wideGrid.lo wideGrid.hi wideGrid.num k x → out.value[k]? = some v → |v 0| ≤ 2 * (4 / 5) ^ n) := by
  have hnew : Tri.new wideGrid (delaunay2D wideGrid.unit) true = .ok affineLoop.valueFunction :=
    Conformance.new_of_check (t := Conformance.triTwo wideGrid true) (by decide +kernel)
  refine ⟨hnew, fun n => ?_, fun n => ?_⟩
  · obtain ⟨values, e, σ, hσ, -, a, b, c, ha, -, -, h, -⟩ := growing_iterate n 1 2 (Or.inl rfl) (by norm_num) affineStart
      ⟨rfl, _, _, _, rfl, rfl, rfl, by norm_num, by norm_num, by norm_num⟩
    refine ⟨_, e, a, ha, ?_⟩
    rcases hσ with rfl | rfl
    · have := neg_abs_le (a 0)
      linarith
    · have := le_abs_self (a 0)
      linarith
  · have S : RLSetup affineLoop wideGrid (delaunay2D wideGrid.unit) doubleEps true [] fun _ => 0 :=
      ⟨triSetup_two (by decide +kernel) (by decide +kernel) (by decide +kernel) (by decide +kernel), hnew, by norm_num [affineLoop], fun _ _ => rfl,
        fun _ _ => Or.inl rfl⟩
    have hbd : affineLoop.gamma * (1 + Spec.boundaryDefect wideGrid.lo wideGrid.hi wideGrid.num doubleEps) ≤ 4 / 5 := by
      unfold Spec.boundaryDefect
      decide +kernel
    have hbd0 : 0 ≤ affineLoop.gamma * (1 + Spec.boundaryDefect wideGrid.lo wideGrid.hi wideGrid.num doubleEps) := by
      unfold Spec.boundaryDefect
      decide +kernel
    obtain ⟨out, e1, -, e2, e3⟩ := C121_value_iteration_boundary S (by linarith) (Lr := 0) (Lf := 2) (L := 0) le_rfl (by simp)
      (fun x y _ _ => by simp [affineLoop]) (fun x y _ _ => by
        unfold dist1
        simp only [affineLoop, Prediction.nextMean, Fin.sum_univ_two]
        have h1 := abs_add_le (x 0 - y 0) (x 1 - y 1)
        rw [show 16 - x 0 - x 1 - (16 - y 0 - y 1) = -(x 0 - y 0 + (x 1 - y 1)) by ring, abs_neg]
        linarith) (fun _ => 0) (fun _ _ _ _ => by simp) n ⟨affineStart, []⟩ rfl (by decide +kernel) 2 (by norm_num)
      (fun k x v _ hv => by
        simp only [sub_zero]
        have hm := List.mem_of_getElem? hv
        simp only [affineStart, List.mem_cons, List.not_mem_nil, or_false] at hm
        rcases hm with rfl | rfl | rfl | rfl | rfl | rfl | rfl | rfl | rfl <;> norm_num)
    refine ⟨out, e1, e2.trans (by decide +kernel), fun k x v hx hv => ?_⟩
    have := e3 k x v hx hv
    have hret : returnWithTerminal affineLoop.gamma (fun x => affineLoop.reward x 0)
        (Spec.clippedLoop wideGrid.lo wideGrid.hi fun x => (affineLoop.dynamics x 0).nextMean) (fun _ => 0) n x = 0 := by
      simp [returnWithTerminal, affineLoop]
    rw [hret, sub_zero, mul_zero, zero_mul, zero_div, add_zero] at this
    have h2 := mul_le_mul_of_nonneg_right (pow_le_pow_left₀ hbd0 hbd n) (show (0 : ℚ) ≤ 2 by norm_num)
    linarith

/-! ## Examples -/

/-- The closed loop `x ↦ x / 2 + 0.27` in both coordinates, with the distance to the centre as costs, on eleven by eleven points between `0` and `1`; the
results of the reward and of the dynamics are rounded. -/
def halfLoop (hs : List (Matrix (Fin 2) (Fin 2) ℚ)) : PolicyIteration ℚ 2 1 where
  policy _ _ := .ok 0
  policyGrid := tenthGrid
  dynamics x _ := .exact fun i => roundBinary 53 (x i / 2 + 27 / 100)
  reward x _ := roundBinary 53 (-dist1 x ![1 / 2, 1 / 2])
  valueFunction := withInverses tenthTri hs
  gamma := 1 / 2

/-- After any number of runs from zero, the computed values are within `2 / 15`, up to rounding, of the sums of the discounted rewards of the
real closed loop. -/
example (hs : List (Matrix (Fin 2) (Fin 2) ℚ)) (hH : InverseWithin tenthGrid.unit (1 / 2 ^ 50) tenthTri.hyperplanes hs) (n : ℕ) :
    ∃ out, (halfLoop hs).flIterate (roundBinary 53) doubleEps n ⟨List.replicate 121 ![0], []⟩ = .ok out ∧ out.value.length = 121 ∧
      ∀ k x v, IsGridPoint tenthGrid.lo tenthGrid.hi tenthGrid.num k x → out.value[k]? = some v →
        |v 0 - returnWithTerminal (1 / 2) (fun x => -dist1 x ![1 / 2, 1 / 2])
          (clippedLoop tenthGrid.lo tenthGrid.hi fun x i => x i / 2 + 27 / 100) (fun _ => 0) n x| ≤ 2 / 15 + 1 / 10 ^ 10 := by
  have hbox : ∀ p : Fin 2 → ℚ, InBox tenthGrid.lo tenthGrid.hi p → |-dist1 p ![1 / 2, 1 / 2]| ≤ 1 := by
    intro p hp
    have h0 := hp 0
    have h1 := hp 1
    simp only [tenthGrid, Matrix.cons_val_zero, Matrix.cons_val_one] at h0 h1
    have a0 : |p 0 - 1 / 2| ≤ 1 / 2 := by rw [abs_le]; constructor <;> linarith [h0.1, h0.2]
    have a1 : |p 1 - 1 / 2| ≤ 1 / 2 := by rw [abs_le]; constructor <;> linarith [h1.1, h1.2]
    have e : dist1 p ![1 / 2, 1 / 2] = |p 0 - 1 / 2| + |p 1 - 1 / 2| := by
      unfold dist1
      rw [Fin.sum_univ_two]
      rfl
    rw [abs_neg, e, abs_of_nonneg (add_nonneg (abs_nonneg _) (abs_nonneg _))]
    linarith
  have S : FloatRLSetup (halfLoop hs) tenthGrid (delaunay2D (tenthGrid.flUnit (roundBinary 53))) (roundBinary 53)
      ((2 : ℚ) ^ (-((53 : ℕ) : ℤ))) doubleEps (1 / 2 ^ 50) false tenthTri [] (fun _ => 0) (fun x => -dist1 x ![1 / 2, 1 / 2])
      (fun x i => x i / 2 + 27 / 100) (1 / 2 ^ 50) (1 / 2 ^ 50) :=
    { tri := tenthGrid_setup
      new := tenthTri_new
      inverses := ⟨hs, rfl, hH⟩
      delta := by norm_num
      gamma := by norm_num [halfLoop]
      er_nonneg := by norm_num
      ef_nonneg := by norm_num
      policy := fun _ _ => rfl
      reward := by
        show ∀ x ∈ tenthGrid.flAllPoints (roundBinary 53),
          |roundBinary 53 (-dist1 x ![1 / 2, 1 / 2]) - -dist1 x ![1 / 2, 1 / 2]| ≤ 1 / 2 ^ 50
        decide +kernel
      inBox := by
        show ∀ x ∈ tenthGrid.flAllPoints (roundBinary 53),
          InBox tenthGrid.lo tenthGrid.hi fun i => roundBinary 53 (x i / 2 + 27 / 100)
        unfold InBox
        decide +kernel
      next := by
        show ∀ x ∈ tenthGrid.flAllPoints (roundBinary 53),
          dist1 (fun i => roundBinary 53 (x i / 2 + 27 / 100)) (clipBox tenthGrid.lo tenthGrid.hi fun i => x i / 2 + 27 / 100) ≤ 1 / 2 ^ 50
        decide +kernel }
  obtain ⟨out, e1, -, e2, e3⟩ := C128_value_iteration_partial S (L := 4 / 3) (Lr := 1) (Lf := 1 / 2) (V := 2)
    (by
      show ∀ x ∈ tenthGrid.flAllPoints (roundBinary 53),
          AwayFromGridLines tenthGrid.lo tenthGrid.hi tenthGrid.num _ doubleEps fun i => roundBinary 53 (x i / 2 + 27 / 100)
      unfold AwayFromGridLines locationMargin axisPoint
      decide +kernel)
    (by norm_num) (by norm_num [halfLoop])
    (fun x y hx hy => by
      have := lipschitz_dist1 tenthGrid.lo tenthGrid.hi ![1 / 2, 1 / 2] x y hx hy
      rwa [← abs_neg, neg_sub_neg, neg_sub])
    (fun x y _ _ => by
      unfold dist1
      rw [Finset.mul_sum]
      refine Finset.sum_le_sum fun i _ => le_of_eq ?_
      show |x i / 2 + 27 / 100 - (y i / 2 + 27 / 100)| = 1 / 2 * |x i - y i|
      rw [show x i / 2 + 27 / 100 - (y i / 2 + 27 / 100) = 1 / 2 * (x i - y i) by ring, abs_mul]
      norm_num)
    (fun x hx => by have := hbox x hx; norm_num [halfLoop] at this ⊢; linarith) rfl rfl rfl
    (by
      show Spec.floatContraction (1 / 2) _ _ _ < 1
      unfold Spec.floatContraction Spec.evaluationError Spec.weightError Spec.locationDefect
      decide +kernel) rfl
    (fun _ => 0) (fun _ _ _ _ => by simp only [sub_self, abs_zero]; exact mul_nonneg (by norm_num) (dist1_nonneg _ _)) (fun _ _ => by norm_num) n
    ⟨List.replicate 121 ![0], []⟩ rfl (by simp [tenthGrid]) 0
    (fun k x v _ hv => by
      have := List.eq_of_mem_replicate (List.mem_of_getElem? hv)
      subst this
      simp)
  refine ⟨out, e1, e2.trans (by decide +kernel), fun k x v hx hv => (e3 k x v hx hv).trans ?_⟩
  rw [mul_zero, zero_add]
  show Spec.floatOffset (1 / 2) _ _ _ _ _ _ _ / (1 - Spec.floatContraction (1 / 2) _ _ _) ≤ _
  unfold Spec.floatContraction Spec.floatOffset Spec.evaluationError Spec.weightError Spec.locationDefect coverRadius Spec.gridRounding
  decide +kernel

/-- On this closed loop the runs without rounding are those of the exact model. -/
example (hs : List (Matrix (Fin 2) (Fin 2) ℚ)) (n : ℕ) (vars : Vars ℚ 1) :
    (halfLoop hs).flIterate id doubleEps n vars = (halfLoop hs).iterate doubleEps n vars :=
  C128_without_rounding (fun i => tenthGrid_setup.two_le i) (fun _ _ _ => ⟨0, rfl⟩) n vars

/-- The closed loop `x ↦ 1 - x` on eleven points between `0` and `1`: the next states are grid points. -/
def mirrorLoop (hs : List (Matrix (Fin 1) (Fin 1) ℚ)) : PolicyIteration ℚ 1 1 where
  policy _ _ := .ok 0
  policyGrid := tenthLine
  dynamics x _ := .exact fun i => roundBinary 53 (1 - x i)
  reward x _ := -(x 0)
  valueFunction := withInverses tenthLineTri hs
  gamma := 1 / 2

example (hs : List (Matrix (Fin 1) (Fin 1) ℚ)) (hH : InverseWithin tenthLine.unit (1 / 2 ^ 50) tenthLineTri.hyperplanes hs) (n : ℕ) :
    ∃ out, (mirrorLoop hs).flIterate (roundBinary 53) doubleEps n ⟨List.replicate 11 ![0], []⟩ = .ok out ∧ out.value.length = 11 ∧
      ∀ k x v, IsGridPoint tenthLine.lo tenthLine.hi tenthLine.num k x → out.value[k]? = some v →
        |v 0 - returnWithTerminal (1 / 2) (fun x => -(x 0))
          (clippedLoop tenthLine.lo tenthLine.hi fun x i => 1 - x i) (fun _ => 0) n x| ≤ 1 / 10 + 1 / 10 ^ 10 := by
  have S : FloatRLSetup (mirrorLoop hs) tenthLine (delaunay1D 0 (tenthLine.flUnit (roundBinary 53) 0)) (roundBinary 53)
      ((2 : ℚ) ^ (-((53 : ℕ) : ℤ))) doubleEps (1 / 2 ^ 50) true tenthLineTri [] (fun _ => 0) (fun x => -(x 0))
      (fun x i => 1 - x i) 0 (1 / 2 ^ 50) :=
    { tri := tenthLine_setup
      new := tenthLineTri_new
      inverses := ⟨hs, rfl, hH⟩
      delta := by norm_num
      gamma := by norm_num [mirrorLoop]
      er_nonneg := le_rfl
      ef_nonneg := by norm_num
      policy := fun _ _ => rfl
      reward := fun x _ => by simp [mirrorLoop]
      inBox := by
        show ∀ x ∈ tenthLine.flAllPoints (roundBinary 53), InBox tenthLine.lo tenthLine.hi fun i => roundBinary 53 (1 - x i)
        unfold InBox
        decide +kernel
      next := by
        show ∀ x ∈ tenthLine.flAllPoints (roundBinary 53),
          dist1 (fun i => roundBinary 53 (1 - x i)) (clipBox tenthLine.lo tenthLine.hi fun i => 1 - x i) ≤ 1 / 2 ^ 50
        decide +kernel }
  obtain ⟨out, e1, -, e2, e3⟩ := C128_line S (L := 2) (Lr := 1) (Lf := 1) (V := 2)
    (by norm_num) (by norm_num [mirrorLoop])
    (fun x y hx hy => by
      unfold dist1
      rw [Fin.sum_univ_one, one_mul, neg_sub_neg, abs_sub_comm])
    (fun x y _ _ => by
      unfold dist1
      rw [Fin.sum_univ_one, Fin.sum_univ_one, one_mul, sub_sub_sub_cancel_left, abs_sub_comm])
    (fun x hx => by
      have h0 := hx 0
      simp only [tenthLine, Matrix.cons_val_fin_one] at h0
      rw [abs_neg, abs_of_nonneg h0.1]
      norm_num [mirrorLoop]
      linarith [h0.2]) rfl rfl rfl
    (by
      show Spec.floatContraction (1 / 2) _ _ _ < 1
      unfold Spec.floatContraction Spec.evaluationError Spec.weightError Spec.lineDefect
      decide +kernel) rfl
    (fun _ => 0) (fun _ _ _ _ => by simp only [sub_self, abs_zero]; exact mul_nonneg (by norm_num) (dist1_nonneg _ _)) (fun _ _ => by norm_num) n
    ⟨List.replicate 11 ![0], []⟩ rfl (by simp [tenthLine]) 0
    (fun k x v _ hv => by
      have := List.eq_of_mem_replicate (List.mem_of_getElem? hv)
      subst this
      simp)
  refine ⟨out, e1, e2.trans (by decide +kernel), fun k x v hx hv => (e3 k x v hx hv).trans ?_⟩
  rw [mul_zero, zero_add]
  show Spec.floatOffset (1 / 2) _ _ _ _ _ _ _ / (1 - Spec.floatContraction (1 / 2) _ _ _) ≤ _
  unfold Spec.floatContraction Spec.floatOffset Spec.evaluationError Spec.weightError Spec.lineDefect coverRadius Spec.gridRounding
  decide +kernel

/-- The closed loop `x ↦ (8 - (x₁ + x₂) / 2, 8 - (x₁ + x₂) / 2)` without rewards, with discount factor `1 / 100`. From `(0, 0)` it moves to the corner `(8, 8)`, where the wrong simplex is found. -/
def cornerLoop : PolicyIteration ℚ 2 1 :=
  { affineLoop with dynamics := fun x _ => .exact fun _ => 8 - (x 0 + x 1) / 2, gamma := 1 / 100 }

example (n : ℕ) : ∃ out, cornerLoop.flIterate (roundBinary 53) doubleEps n ⟨affineStart, []⟩ = .ok out ∧
    ∀ k x v, IsGridPoint wideGrid.lo wideGrid.hi wideGrid.num k x → out.value[k]? = some v → |v 0| ≤ (1 / 3) ^ n * 2 := by
  have hnew : Tri.new wideGrid (delaunay2D wideGrid.unit) true = .ok cornerLoop.valueFunction :=
    Conformance.new_of_check (t := Conformance.triTwo wideGrid true) (by decide +kernel)
  have S : FloatRLSetup cornerLoop wideGrid (delaunay2D wideGrid.unit) (roundBinary 53) ((2 : ℚ) ^ (-((53 : ℕ) : ℤ))) doubleEps 0 true
      cornerLoop.valueFunction [] (fun _ => 0) (fun _ => 0) (fun x _ => 8 - (x 0 + x 1) / 2) 0 0 :=
    { tri := wideGrid_setup
      new := hnew
      inverses := ⟨_, rfl, fun _ H h => ⟨H, h, fun i j => by simp⟩⟩
      delta := le_rfl
      gamma := by norm_num [cornerLoop]
      er_nonneg := le_rfl
      ef_nonneg := le_rfl
      policy := fun _ _ => rfl
      reward := fun x _ => by simp [cornerLoop, affineLoop]
      inBox := by
        show ∀ x ∈ wideGrid.flAllPoints (roundBinary 53), InBox wideGrid.lo wideGrid.hi fun _ => 8 - (x 0 + x 1) / 2
        unfold InBox
        decide +kernel
      next := by
        show ∀ x ∈ wideGrid.flAllPoints (roundBinary 53),
          dist1 (fun _ => 8 - (x 0 + x 1) / 2) (clipBox wideGrid.lo wideGrid.hi fun _ => 8 - (x 0 + x 1) / 2) ≤ 0
        decide +kernel }
  obtain ⟨out, e1, -, -, e3⟩ := C128_small_discount S (L := 0) (Lr := 0) (Lf := 1) (V := 0) le_rfl (by simp)
    (fun x y _ _ => by simp)
    (fun x y _ _ => by
      unfold dist1
      simp only [Fin.sum_univ_two]
      have h1 := abs_add_le (x 0 - y 0) (x 1 - y 1)
      rw [show 8 - (x 0 + x 1) / 2 - (8 - (y 0 + y 1) / 2) = -(1 / 2 * (x 0 - y 0 + (x 1 - y 1))) by ring, abs_neg, abs_mul,
        abs_of_nonneg (show (0 : ℚ) ≤ 1 / 2 by norm_num)]
      linarith) (fun x _ => by simp) rfl rfl rfl
    (by
      show Spec.floatContraction (1 / 100) _ _ _ < 1
      unfold Spec.floatContraction Spec.evaluationError Spec.weightError
      decide +kernel) rfl (fun _ => 0) (fun _ _ _ _ => by simp) (fun _ _ => by simp) n ⟨affineStart, []⟩ rfl (by decide +kernel) 2
    (fun k x v _ hv => by
      simp only [sub_zero]
      have hm := List.mem_of_getElem? hv
      simp only [affineStart, List.mem_cons, List.not_mem_nil, or_false] at hm
      rcases hm with rfl | rfl | rfl | rfl | rfl | rfl | rfl | rfl | rfl <;> norm_num)
  refine ⟨out, e1, fun k x v hx hv => ?_⟩
  have h := e3 k x v hx hv
  have hret : returnWithTerminal cornerLoop.gamma (fun _ => 0)
      (Spec.clippedLoop wideGrid.lo wideGrid.hi fun x _ => 8 - (x 0 + x 1) / 2) (fun _ => 0) n x = 0 := by
    simp [returnWithTerminal]
  have hoff : ∀ κ : ℚ, Spec.floatOffset cornerLoop.gamma ((2 : ℚ) ^ (-((53 : ℕ) : ℤ))) κ
      (0 * (3 * (1 + 3 * (2 : ℕ) * (2 : ℕ) * (Nat.factorial 2 : ℕ)) * coverRadius wideGrid.lo wideGrid.hi wideGrid.num)) (0 * 0)
      (0 * Spec.gridRounding wideGrid.lo wideGrid.hi ((2 : ℚ) ^ (-((53 : ℕ) : ℤ)))) 0 0 = 0 := fun κ => by
    simp [Spec.floatOffset]
  rw [hret, sub_zero, hoff, zero_div, add_zero] at h
  refine h.trans (mul_le_mul_of_nonneg_right (pow_le_pow_left₀ ?_ ?_ n) (by norm_num))
  · show 0 ≤ Spec.floatContraction (1 / 100) _ _ _
    unfold Spec.floatContraction Spec.evaluationError Spec.weightError
    decide +kernel
  · show Spec.floatContraction (1 / 100) _ _ _ ≤ 1 / 3
    unfold Spec.floatContraction Spec.evaluationError Spec.weightError
    decide +kernel

end SafeLearning
