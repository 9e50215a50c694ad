import Verif.Props.InterpolationError
import Verif.Props.PolicyTermination
import Verif.Props.ValueExamples
import Mathlib.Logic.Function.Iterate
import Mathlib.Tactic.FieldSimp
set_option autoImplicit false

/-!
# C121 and C122: how well the values on the grid approximate the returns of the closed loop

The value function is a triangulation on a grid, the closed loop moves in a continuous state space.  The theorems compare
the two.  A state that leaves the domain counts as the state clipped to the domain, as in a value function with `project`;
for a closed loop that stays in the domain this is the closed loop itself (`clipped_eq`).
-/

namespace SafeLearning

set_option linter.unusedSectionVars false

open Spec

variable {K : Type} [Field K] [LinearOrder K] [IsStrictOrderedRing K] [FloorRing K] {d m : ℕ}
variable {g : GridWorld K d} {D : Delaunay K d} {eps : K} {project : Bool}
variable {P : PolicyIteration K d m} {pp : List (Fin m → K)} {act : (Fin d → K) → Fin m → K}

/-- The next state, clipped to the domain. -/
def _root_.Spec.clippedLoop (lo hi : Fin d → K) (next : (Fin d → K) → Fin d → K) (x : Fin d → K) :
    Fin d → K := clipBox lo hi (next x)

/-- A closed loop that stays in the domain is not changed by clipping. -/
theorem clipped_eq {lo hi : Fin d → K} {next : (Fin d → K) → Fin d → K}
    (h : ∀ x, InBox lo hi x → InBox lo hi (next x)) (n : ℕ) (x : Fin d → K) (hx : InBox lo hi x) :
    (Spec.clippedLoop lo hi next)^[n] x = next^[n] x ∧ InBox lo hi (next^[n] x) := by
  induction n generalizing x with
  | zero => exact ⟨rfl, hx⟩
  | succ n ih =>
    have e : Spec.clippedLoop lo hi next x = next x := clipBox_of_inBox (h x hx)
    rw [Function.iterate_succ_apply, Function.iterate_succ_apply, e]
    exact ih _ (h x hx)

/-- A closed loop is `Lf`-Lipschitz on the domain. -/
def _root_.Spec.LipschitzMapOn1 (lo hi : Fin d → K) (Lf : K) (next : (Fin d → K) → Fin d → K) : Prop :=
  ∀ x y, InBox lo hi x → InBox lo hi y → dist1 (next x) (next y) ≤ Lf * dist1 x y

theorem dist1_clip_le (hlt : ∀ i, g.lo i < g.hi i) (x y : Fin d → K) :
    dist1 (clipBox g.lo g.hi x) (clipBox g.lo g.hi y) ≤ dist1 x y := by
  unfold dist1
  refine Finset.sum_le_sum fun i _ => ?_
  have := hlt i
  unfold clipBox
  rw [abs_le]
  have h1 := le_abs_self (x i - y i)
  have h2 := neg_abs_le (x i - y i)
  have h3 := abs_nonneg (x i - y i)
  split_ifs <;> constructor <;> linarith

theorem dist1_nonneg (x y : Fin d → K) : 0 ≤ dist1 x y := Finset.sum_nonneg fun _ _ => abs_nonneg _

/-- One step of the return. -/
theorem returnWithTerminal_succ (γ : K) (r J : (Fin d → K) → K) (next : (Fin d → K) → Fin d → K) (n : ℕ)
    (x : Fin d → K) :
    returnWithTerminal γ r next J (n + 1) x = returnWithTerminal γ r next (fun x => r x + γ * J (next x)) n x := by
  unfold returnWithTerminal
  rw [Finset.sum_range_succ, Function.iterate_succ_apply']
  ring

/-- The Bellman operator keeps the Lipschitz constant. -/
theorem lipschitz_step (hlt : ∀ i, g.lo i < g.hi i) {γ Lr Lf L : K} (hγ : 0 ≤ γ) (hL : 0 ≤ L)
    (hle : Lr + γ * Lf * L ≤ L) {r J : (Fin d → K) → K} {next : (Fin d → K) → Fin d → K}
    (hr : LipschitzOn1 g.lo g.hi Lr r) (hf : Spec.LipschitzMapOn1 g.lo g.hi Lf next)
    (hJ : LipschitzOn1 g.lo g.hi L J) :
    LipschitzOn1 g.lo g.hi L fun x => r x + γ * J (Spec.clippedLoop g.lo g.hi next x) := by
  intro x y hx hy
  have h1 := hr x y hx hy
  have h2 := hJ _ _ (inBox_clipBox hlt (next x)) (inBox_clipBox hlt (next y))
  have h3 := (dist1_clip_le hlt (next x) (next y)).trans (hf x y hx hy)
  have h4 : L * dist1 (clipBox g.lo g.hi (next x)) (clipBox g.lo g.hi (next y)) ≤ L * (Lf * dist1 x y) :=
    mul_le_mul_of_nonneg_left h3 hL
  have h5 := mul_le_mul_of_nonneg_left (h2.trans h4) hγ
  have h6 : |γ * (J (Spec.clippedLoop g.lo g.hi next x) - J (Spec.clippedLoop g.lo g.hi next y))| ≤
      γ * (L * (Lf * dist1 x y)) := by
    rw [abs_mul, abs_of_nonneg hγ]
    exact h5
  have h7 := abs_add_le (r x - r y)
    (γ * (J (Spec.clippedLoop g.lo g.hi next x) - J (Spec.clippedLoop g.lo g.hi next y)))
  have h8 := mul_le_mul_of_nonneg_right hle (dist1_nonneg x y)
  calc |r x + γ * J (Spec.clippedLoop g.lo g.hi next x) -
        (r y + γ * J (Spec.clippedLoop g.lo g.hi next y))| =
      |(r x - r y) + γ * (J (Spec.clippedLoop g.lo g.hi next x) -
        J (Spec.clippedLoop g.lo g.hi next y))| := by congr 1; ring
    _ ≤ L * dist1 x y := by
      have e : (Lr + γ * Lf * L) * dist1 x y = Lr * dist1 x y + γ * (L * (Lf * dist1 x y)) := by ring
      linarith

/-- The factor by which the weights of a point can amplify an error, and the error of the interpolation. -/
structure RowBound (P : PolicyIteration K d m) (g : GridWorld K d) (eps : K) (project : Bool)
    (act : (Fin d → K) → Fin m → K) (c ρ : K) : Prop where
  one_le : 1 ≤ c
  rho : 0 ≤ ρ
  row : (∀ x ∈ g.allPoints, ConvexRegion g eps project (P.dynamics x (act x)).nextMean) ∧
      c = 1 ∧ ρ = coverRadius g.lo g.hi g.num ∨
    c = 1 + Spec.boundaryDefect g.lo g.hi g.num eps ∧
      ρ = coverRadius g.lo g.hi g.num * (1 + 2 * Spec.boundaryDefect g.lo g.hi g.num eps)

theorem coverRadius_nonneg (hg : g.WF) : 0 ≤ coverRadius g.lo g.hi g.num := by
  unfold coverRadius
  exact div_nonneg (Finset.sum_nonneg fun i _ => (hg.unit_pos i).le) (by norm_num)

theorem rowBound_convex (hg : g.WF)
    (hr : ∀ x ∈ g.allPoints, ConvexRegion g eps project (P.dynamics x (act x)).nextMean) :
    RowBound P g eps project act 1 (coverRadius g.lo g.hi g.num) :=
  ⟨le_refl _, coverRadius_nonneg hg, Or.inl ⟨hr, rfl, rfl⟩⟩

theorem rowBound_boundary (S : TriSetup g D eps) :
    RowBound P g eps project act (1 + Spec.boundaryDefect g.lo g.hi g.num eps)
      (coverRadius g.lo g.hi g.num * (1 + 2 * Spec.boundaryDefect g.lo g.hi g.num eps)) := by
  have h := boundaryDefect_nonneg S.wf S.eps_pos.le
  exact ⟨by linarith, mul_nonneg (coverRadius_nonneg S.wf) (by linarith), Or.inr ⟨rfl, rfl⟩⟩

theorem isGridPoint_pointAt (g : GridWorld K d) (i : Fin (nParams g)) :
    IsGridPoint g.lo g.hi g.num i.1 (pointAt g i) :=
  ((GridWorld.C03_all_points_enumerates g).2 i.1 _).2

theorem pointAt_of_isGridPoint {k : ℕ} {x : Fin d → K} (hx : IsGridPoint g.lo g.hi g.num k x) :
    ∃ i : Fin (nParams g), i.1 = k ∧ pointAt g i = x := by
  have hk : k < ∏ i, g.num i := by
    obtain ⟨a, ha, rfl, _⟩ := hx
    rw [Spec.rowMajor, ← ravel_eq_sum]
    exact ravel_lt _ _ ha
  exact ⟨⟨k, hk⟩, rfl, IsGridPoint.unique (isGridPoint_pointAt g ⟨k, hk⟩) hx⟩

/-- The parameters that are the values of `F` at the grid points. -/
theorem samples_toParams (g : GridWorld K d) (F : (Fin d → K) → K) (k : ℕ) (p : Fin d → K)
    (hp : IsGridPoint g.lo g.hi g.num k p) :
    (toParams fun i : Fin (nParams g) => F (pointAt g i))[k]? = some fun _ => F p := by
  obtain ⟨i, rfl, rfl⟩ := pointAt_of_isGridPoint hp
  exact toParams_getElem? _ _ i.2

/-- The value at a next state, when the values at the grid points are within `B` of `F`. -/
theorem row_error (S : RLSetup P g D eps project pp act) {c ρ : K}
    (hc : RowBound P g eps project act c ρ) {W : Fin (nParams g) → Fin (nParams g) → K}
    (h1 : ∀ i, ∑ j, W i j = 1)
    (h2 : ∀ i, ∑ j, |W i j| ≤ 1 + Spec.boundaryDefect g.lo g.hi g.num eps)
    (h3 : ∀ i, ConvexRegion g eps project (P.dynamics (pointAt g i) (act (pointAt g i))).nextMean →
        ∀ j, 0 ≤ W i j)
    (h4 : ∀ i θ, P.valueFunction.tfEvaluate eps (toParams θ)
        (P.dynamics (pointAt g i) (act (pointAt g i))).nextMean = .ok fun _ => ∑ j, W i j * θ j)
    {F : (Fin d → K) → K} {L B : K} (hL : 0 ≤ L) (hB : 0 ≤ B) (hF : LipschitzOn1 g.lo g.hi L F)
    {θ : Fin (nParams g) → K} (hθ : ∀ i, |θ i - F (pointAt g i)| ≤ B) (i : Fin (nParams g)) :
    |∑ j, W i j * θ j - F (Spec.clippedLoop g.lo g.hi
        (fun x => (P.dynamics x (act x)).nextMean) (pointAt g i))| ≤ c * B + L * ρ := by
  have hm := pointAt_mem g i
  obtain ⟨y, e1, e2⟩ := interpolation_error S.tri S.new (fun x (_ : Fin 1) => F x) L hL (fun _ => hF)
    (toParams fun i => F (pointAt g i)) (samples_toParams g F)
    (P.dynamics (pointAt g i) (act (pointAt g i))).nextMean (S.next _ hm)
  rw [← C17_tf_agrees, h4] at e1
  cases e1
  obtain ⟨e3, e4⟩ := e2 0
  have hw : ∑ j, |W i j| ≤ c := by
    rcases hc.row with ⟨hr, hc1, -⟩ | ⟨hc1, -⟩
    · rw [hc1, ← h1 i]
      exact le_of_eq (Finset.sum_congr rfl fun j _ => abs_of_nonneg (h3 i (hr _ hm) j))
    · rw [hc1]
      exact h2 i
  have hρ : |∑ j, W i j * F (pointAt g j) - F (Spec.clippedLoop g.lo g.hi
        (fun x => (P.dynamics x (act x)).nextMean) (pointAt g i))| ≤ L * ρ := by
    rcases hc.row with ⟨hr, -, hρ⟩ | ⟨-, hρ⟩
    · rw [hρ]
      exact e4 (hr _ hm)
    · rw [hρ, ← mul_assoc]
      exact e3
  have hd := weighted_diff (W i) θ (fun j => F (pointAt g j)) hB hw hθ
  have := abs_add_le (∑ j, W i j * θ j - ∑ j, W i j * F (pointAt g j))
    (∑ j, W i j * F (pointAt g j) - F (Spec.clippedLoop g.lo g.hi
        (fun x => (P.dynamics x (act x)).nextMean) (pointAt g i)))
  rw [sub_add_sub_cancel] at this
  linarith

/-- Value iteration from approximate values of `J`. -/
theorem iterate_error (S : RLSetup P g D eps project pp act) {c ρ : K}
    (hc : RowBound P g eps project act c ρ) (hγc : P.gamma * c < 1) {Lr Lf L : K} (hL : 0 ≤ L)
    (hle : Lr + P.gamma * Lf * L ≤ L)
    (hr : LipschitzOn1 g.lo g.hi Lr fun x => P.reward x (act x))
    (hf : Spec.LipschitzMapOn1 g.lo g.hi Lf fun x => (P.dynamics x (act x)).nextMean)
    (n : ℕ) (J : (Fin d → K) → K) (hJ : LipschitzOn1 g.lo g.hi L J) (θ : Fin (nParams g) → K) (B : K)
    (hB : 0 ≤ B) (hθ : ∀ i, |θ i - J (pointAt g i)| ≤ B) :
    ∃ η : Fin (nParams g) → K, P.iterate eps n ⟨toParams θ, pp⟩ = .ok ⟨toParams η, pp⟩ ∧
      ∀ i, |η i - returnWithTerminal P.gamma (fun x => P.reward x (act x))
        (Spec.clippedLoop g.lo g.hi fun x => (P.dynamics x (act x)).nextMean) J n (pointAt g i)| ≤
          (P.gamma * c) ^ n * B + P.gamma * L * ρ / (1 - P.gamma * c) := by
  obtain ⟨W, h1, h2, h3, h4, h5⟩ := valueIteration_eq S
  have hρ := hc.rho
  have hc0 : 0 ≤ P.gamma * c := mul_nonneg S.gamma (by linarith [hc.one_le])
  have hpos : 0 < 1 - P.gamma * c := by linarith
  set E := P.gamma * L * ρ / (1 - P.gamma * c) with hE
  have hEeq : P.gamma * L * ρ = (1 - P.gamma * c) * E := by
    rw [hE]; field_simp
  have hE0 : 0 ≤ E := div_nonneg (mul_nonneg (mul_nonneg S.gamma hL) hρ) hpos.le
  -- the error minus its limit contracts
  suffices h : ∀ (n : ℕ) (J : (Fin d → K) → K), LipschitzOn1 g.lo g.hi L J →
      ∀ (θ : Fin (nParams g) → K) (A : K), 0 ≤ A → (∀ i, |θ i - J (pointAt g i)| ≤ A + E) →
      ∃ η : Fin (nParams g) → K, P.iterate eps n ⟨toParams θ, pp⟩ = .ok ⟨toParams η, pp⟩ ∧
      ∀ i, |η i - returnWithTerminal P.gamma (fun x => P.reward x (act x))
        (Spec.clippedLoop g.lo g.hi fun x => (P.dynamics x (act x)).nextMean) J n (pointAt g i)| ≤
          (P.gamma * c) ^ n * A + E from
    h n J hJ θ B hB fun i => (hθ i).trans (by linarith)
  intro n
  induction n with
  | zero =>
    intro J _ θ A _ hθ
    refine ⟨θ, rfl, fun i => ?_⟩
    simpa [returnWithTerminal] using hθ i
  | succ n ih =>
    intro J hJ θ A hA hθ
    have hstep : ∀ i, |P.reward (pointAt g i) (act (pointAt g i)) + P.gamma * ∑ j, W i j * θ j -
        (P.reward (pointAt g i) (act (pointAt g i)) + P.gamma * J (Spec.clippedLoop g.lo g.hi
          (fun x => (P.dynamics x (act x)).nextMean) (pointAt g i)))| ≤ P.gamma * c * A + E := by
      intro i
      have := row_error S hc h1 h2 h3 h4 hL (by linarith : 0 ≤ A + E) hJ hθ i
      rw [show ∀ a b c e : K, a + e * b - (a + e * c) = e * (b - c) from fun a b c e => by ring,
        abs_mul, abs_of_nonneg S.gamma]
      refine (mul_le_mul_of_nonneg_left this S.gamma).trans (le_of_eq ?_)
      linear_combination hEeq
    obtain ⟨η, e1, e2⟩ := ih _ (lipschitz_step S.tri.lt S.gamma hL hle hr hf hJ) _
      (P.gamma * c * A) (mul_nonneg hc0 hA) hstep
    refine ⟨η, ?_, fun i => ?_⟩
    · unfold PolicyIteration.iterate
      rw [h5]
      exact e1
    · rw [returnWithTerminal_succ, pow_succ, mul_assoc]
      exact e2 i

/-! ## C121 -/

/-- **C121 (value iteration).** The closed loop is `Lf`-Lipschitz and the reward along it `Lr`-Lipschitz on the domain,
`Lr + gamma * Lf * L ≤ L`, and the initial values are within `B` of an `L`-Lipschitz function `J` at the grid points. After
`n` runs of `value_iteration` the value of every grid point is within `gamma ^ n * B + gamma * L * τ / (1 - gamma)` of the
return of the real closed loop: the discounted rewards of `n` steps plus `gamma ^ n * J` of the state that is reached.
`τ = sum(unit_maxes) / 2`. No next state of a grid point is in the boundary strip, or the domain is one-dimensional. -/
theorem C121_value_iteration (S : RLSetup P g D eps project pp act)
    (hconv : ∀ x ∈ g.allPoints, ConvexRegion g eps project (P.dynamics x (act x)).nextMean)
    (hγ : P.gamma < 1) {Lr Lf L : K} (hL : 0 ≤ L) (hle : Lr + P.gamma * Lf * L ≤ L)
    (hr : LipschitzOn1 g.lo g.hi Lr fun x => P.reward x (act x))
    (hf : Spec.LipschitzMapOn1 g.lo g.hi Lf fun x => (P.dynamics x (act x)).nextMean)
    (J : (Fin d → K) → K) (hJ : LipschitzOn1 g.lo g.hi L J) (n : ℕ) (vars : Vars K m)
    (hp : vars.policy = pp) (hlen : vars.value.length = ∏ i, g.num i) (B : K) (hB : 0 ≤ B)
    (hstart : ∀ k x v, IsGridPoint g.lo g.hi g.num k x → vars.value[k]? = some v → |v 0 - J x| ≤ B) :
    ∃ out, P.iterate eps n vars = .ok out ∧ out.policy = pp ∧ out.value.length = ∏ i, g.num i ∧
      ∀ k x v, IsGridPoint g.lo g.hi g.num k x → out.value[k]? = some v →
        |v 0 - returnWithTerminal P.gamma (fun x => P.reward x (act x))
          (Spec.clippedLoop g.lo g.hi fun x => (P.dynamics x (act x)).nextMean) J n x| ≤
        P.gamma ^ n * B + P.gamma * L * coverRadius g.lo g.hi g.num / (1 - P.gamma) := by
  obtain ⟨value, policy⟩ := vars
  simp only at hp hlen hstart
  subst hp
  obtain ⟨θ, rfl⟩ := toParams_surj value hlen
  obtain ⟨η, e1, e2⟩ := iterate_error S (rowBound_convex S.tri.wf hconv) (by linarith) hL hle hr hf n J hJ
    θ B hB (fun i => hstart i.1 _ _ (isGridPoint_pointAt g i) (toParams_getElem? θ i.1 i.2))
  refine ⟨_, e1, rfl, toParams_length _, fun k x v hx hv => ?_⟩
  obtain ⟨i, rfl, rfl⟩ := pointAt_of_isGridPoint hx
  rw [toParams_getElem? _ _ i.2] at hv
  cases hv
  have := e2 i
  rwa [mul_one] at this

/-- **C121 (value iteration, all next states).** The same for all next states, with `gamma * (1 + boundaryDefect)` in place of
the contraction factor `gamma` and `1 + 2 * boundaryDefect` times the discretisation constant. -/
theorem C121_value_iteration_boundary (S : RLSetup P g D eps project pp act)
    (hγ : P.gamma * (1 + Spec.boundaryDefect g.lo g.hi g.num eps) < 1)
    {Lr Lf L : K} (hL : 0 ≤ L) (hle : Lr + P.gamma * Lf * L ≤ L)
    (hr : LipschitzOn1 g.lo g.hi Lr fun x => P.reward x (act x))
    (hf : Spec.LipschitzMapOn1 g.lo g.hi Lf fun x => (P.dynamics x (act x)).nextMean)
    (J : (Fin d → K) → K) (hJ : LipschitzOn1 g.lo g.hi L J) (n : ℕ) (vars : Vars K m)
    (hp : vars.policy = pp) (hlen : vars.value.length = ∏ i, g.num i) (B : K) (hB : 0 ≤ B)
    (hstart : ∀ k x v, IsGridPoint g.lo g.hi g.num k x → vars.value[k]? = some v → |v 0 - J x| ≤ B) :
    ∃ out, P.iterate eps n vars = .ok out ∧ out.policy = pp ∧ out.value.length = ∏ i, g.num i ∧
      ∀ k x v, IsGridPoint g.lo g.hi g.num k x → out.value[k]? = some v →
        |v 0 - returnWithTerminal P.gamma (fun x => P.reward x (act x))
          (Spec.clippedLoop g.lo g.hi fun x => (P.dynamics x (act x)).nextMean) J n x| ≤
        (P.gamma * (1 + Spec.boundaryDefect g.lo g.hi g.num eps)) ^ n * B +
          P.gamma * L * (coverRadius g.lo g.hi g.num *
            (1 + 2 * Spec.boundaryDefect g.lo g.hi g.num eps)) /
          (1 - P.gamma * (1 + Spec.boundaryDefect g.lo g.hi g.num eps)) := by
  obtain ⟨value, policy⟩ := vars
  simp only at hp hlen hstart
  subst hp
  obtain ⟨θ, rfl⟩ := toParams_surj value hlen
  obtain ⟨η, e1, e2⟩ := iterate_error S (rowBound_boundary S.tri) hγ hL hle hr hf n J hJ
    θ B hB (fun i => hstart i.1 _ _ (isGridPoint_pointAt g i) (toParams_getElem? θ i.1 i.2))
  refine ⟨_, e1, rfl, toParams_length _, fun k x v hx hv => ?_⟩
  obtain ⟨i, rfl, rfl⟩ := pointAt_of_isGridPoint hx
  rw [toParams_getElem? _ _ i.2] at hv
  cases hv
  exact e2 i

/-- **C121 (solution of the Bellman equation).** The solution `θ` of the Bellman equation on the grid, which is what
`optimize_value_function` returns, is within `gamma * L * τ / (1 - gamma)` of every `L`-Lipschitz function `J` that satisfies
the Bellman equation `J(x) = reward + gamma * J(next state)` of the real closed loop at the grid points; and the value function
with parameters `θ` is within `L * τ / (1 - gamma)` of `J` at every point at least `2 * _EPS` inside of the domain (in one
dimension, everywhere in the domain). -/
theorem C121_fixed_point (S : RLSetup P g D eps project pp act)
    (hconv : ∀ x ∈ g.allPoints, ConvexRegion g eps project (P.dynamics x (act x)).nextMean)
    (hγ : P.gamma < 1) {L : K} (hL : 0 ≤ L) (J : (Fin d → K) → K) (hJ : LipschitzOn1 g.lo g.hi L J)
    (hbell : ∀ k x, IsGridPoint g.lo g.hi g.num k x → J x = P.reward x (act x) +
      P.gamma * J (Spec.clippedLoop g.lo g.hi (fun x => (P.dynamics x (act x)).nextMean) x))
    (θ : List (Fin 1 → K)) (hθ : Bellman P g eps act θ) :
    (∀ k x v, IsGridPoint g.lo g.hi g.num k x → θ[k]? = some v →
      |v 0 - J x| ≤ P.gamma * L * coverRadius g.lo g.hi g.num / (1 - P.gamma)) ∧
    ∀ x, InsideBy (2 * eps) g.lo g.hi x ∨ (d = 1 ∧ InBox g.lo g.hi x) →
      ∃ y, P.valueFunction.evaluate eps θ x = .ok y ∧
        |y 0 - J x| ≤ L * coverRadius g.lo g.hi g.num / (1 - P.gamma) := by
  have hg := S.tri.wf
  have hc := rowBound_convex hg hconv
  obtain ⟨W, h1, h2, h3, h4, h5⟩ := valueIteration_eq S
  obtain ⟨η, rfl⟩ := toParams_surj θ hθ.1
  have hpos : 0 < 1 - P.gamma := by linarith
  have hρ := coverRadius_nonneg hg
  set τ := coverRadius g.lo g.hi g.num
  set E := P.gamma * L * τ / (1 - P.gamma) with hE
  have hEeq : P.gamma * L * τ = (1 - P.gamma) * E := by rw [hE]; field_simp
  have hE0 : 0 ≤ E := div_nonneg (mul_nonneg (mul_nonneg S.gamma hL) hρ) hpos.le
  have hgrid : ∀ i, |η i - J (pointAt g i)| ≤ E := by
    intro i
    obtain ⟨k, -, hk⟩ := Finset.exists_max_image Finset.univ (fun i => |η i - J (pointAt g i)|)
      ⟨i, Finset.mem_univ i⟩
    refine (hk i (Finset.mem_univ i)).trans ?_
    have hrow := row_error S hc h1 h2 h3 h4 hL (abs_nonneg (η k - J (pointAt g k))) hJ
      (fun j => hk j (Finset.mem_univ j)) k
    obtain ⟨e, he1, he2⟩ := bellman_at hθ k
    rw [← C17_tf_agrees, h4 k η] at he1
    cases he1
    have hb := hbell _ _ (isGridPoint_pointAt g k)
    have heq : |η k - J (pointAt g k)| = P.gamma * |∑ j, W k j * η j - J (Spec.clippedLoop g.lo g.hi
        (fun x => (P.dynamics x (act x)).nextMean) (pointAt g k))| := by
      have e : η k - J (pointAt g k) = P.gamma * (∑ j, W k j * η j - J (Spec.clippedLoop g.lo g.hi
          (fun x => (P.dynamics x (act x)).nextMean) (pointAt g k))) := by
        rw [he2]
        linear_combination -hb
      rw [e, abs_mul, abs_of_nonneg S.gamma]
    have h6 := mul_le_mul_of_nonneg_left hrow S.gamma
    rw [← heq] at h6
    by_contra hn
    push Not at hn
    nlinarith
  refine ⟨fun k x v hx hv => ?_, fun x hx => ?_⟩
  · obtain ⟨i, rfl, rfl⟩ := pointAt_of_isGridPoint hx
    rw [toParams_getElem? _ _ i.2] at hv
    cases hv
    exact hgrid i
  · have hin : InBox g.lo g.hi x := by
      rcases hx with h | ⟨-, h⟩
      · intro i
        have := h i
        have := S.tri.eps_pos
        constructor <;> linarith
      · exact h
    have hreg : ConvexRegion g eps project x := hx.imp id fun h => ⟨h.1, Or.inr h.2⟩
    obtain ⟨w, w1, w2, w3, w4⟩ := exists_row S.tri S.new x (Or.inr hin)
    refine ⟨_, (C17_tf_agrees _ _ _).symm.trans (w4 η), ?_⟩
    obtain ⟨y, e1, e2⟩ := interpolation_error S.tri S.new (fun x (_ : Fin 1) => J x) L hL (fun _ => hJ)
      (toParams fun i => J (pointAt g i)) (samples_toParams g J) x (Or.inr hin)
    rw [← C17_tf_agrees, w4] at e1
    cases e1
    have e3 := (e2 0).2 hreg
    rw [clipBox_of_inBox hin] at e3
    have hw : ∑ j, |w j| ≤ 1 := by
      rw [← w1]
      exact le_of_eq (Finset.sum_congr rfl fun j _ => abs_of_nonneg (w3 hreg j))
    have hd := weighted_diff w η (fun j => J (pointAt g j)) hE0 hw hgrid
    have h7 := abs_add_le (∑ j, w j * η j - ∑ j, w j * J (pointAt g j))
      (∑ j, w j * J (pointAt g j) - J x)
    rw [sub_add_sub_cancel] at h7
    have h8 : L * τ / (1 - P.gamma) = E + L * τ := by
      rw [hE]
      field_simp
      ring
    rw [h8]
    linarith

/-! ## C122 -/

/-- **C122.** Policy iteration has stopped: the values solve the Bellman equation of the policy `act'` that
`discrete_policy_optimization` returns. Then the return of the real closed loop of `act'` over `n` steps from any grid point is,
up to the discretisation error, at least that of every other policy `act''` with available actions: the difference is at most
`gamma * (L' + L'') * τ / (1 - gamma) + 2 * gamma ^ n * B`, where `B` bounds the values, `τ = sum(unit_maxes) / 2`, and `L'`, `L''`
are the Lipschitz constants of the returns. -/
theorem C122_near_optimal {act' act'' : (Fin d → K) → Fin m → K} {vars out : Vars K m}
    {actionSpace : List (Fin m → K)} {constraint : Option (List (Fin m → K) → List K)}
    {pp' pp'' : List (Fin m → K)} (S' : RLSetup P g D eps project pp' act')
    (S'' : RLSetup P g D eps project pp'' act'') (hγ : P.gamma < 1)
    (hr' : ∀ x ∈ g.allPoints, ConvexRegion g eps project (P.dynamics x (act' x)).nextMean)
    (hr'' : ∀ x ∈ g.allPoints, ConvexRegion g eps project (P.dynamics x (act'' x)).nextMean)
    (hgrid : P.policyGrid = g)
    (ho : P.discretePolicyOptimization eps vars actionSpace constraint = .ok out)
    (hparam : ∀ (s : ℕ) x, g.allPoints[s]? = some x → out.policy[s]? = some (act' x))
    (hsol : Bellman P g eps act' vars.value)
    (hav : Spec.Available constraint actionSpace g.allPoints act'')
    {Lr' Lf' L' Lr'' Lf'' L'' B : K} (hL' : 0 ≤ L') (hL'' : 0 ≤ L'')
    (hle' : Lr' + P.gamma * Lf' * L' ≤ L') (hle'' : Lr'' + P.gamma * Lf'' * L'' ≤ L'')
    (hrew' : LipschitzOn1 g.lo g.hi Lr' fun x => P.reward x (act' x))
    (hrew'' : LipschitzOn1 g.lo g.hi Lr'' fun x => P.reward x (act'' x))
    (hf' : Spec.LipschitzMapOn1 g.lo g.hi Lf' fun x => (P.dynamics x (act' x)).nextMean)
    (hf'' : Spec.LipschitzMapOn1 g.lo g.hi Lf'' fun x => (P.dynamics x (act'' x)).nextMean)
    (hB : 0 ≤ B) (hB' : ∀ (k : ℕ) v, vars.value[k]? = some v → |v 0| ≤ B)
    (θ'' : List (Fin 1 → K)) (hother : Bellman P g eps act'' θ'')
    (hB'' : ∀ (k : ℕ) v, θ''[k]? = some v → |v 0| ≤ B)
    (n k : ℕ) (x : Fin d → K) (hx : IsGridPoint g.lo g.hi g.num k x) :
    returnWithTerminal P.gamma (fun x => P.reward x (act'' x))
        (Spec.clippedLoop g.lo g.hi fun x => (P.dynamics x (act'' x)).nextMean) (fun _ => 0) n x ≤
      returnWithTerminal P.gamma (fun x => P.reward x (act' x))
        (Spec.clippedLoop g.lo g.hi fun x => (P.dynamics x (act' x)).nextMean) (fun _ => 0) n x +
      (P.gamma * (L' + L'') * coverRadius g.lo g.hi g.num / (1 - P.gamma) + 2 * P.gamma ^ n * B) := by
  have hbelow := C64_optimal_partial S'' hγ hr'' hgrid ho hparam hsol hav θ'' hother
  -- the values do not change under value iteration
  have hfix : ∀ {pp : List (Fin m → K)} {act : (Fin d → K) → Fin m → K},
      RLSetup P g D eps project pp act → ∀ θ, Bellman P g eps act θ → ∀ n,
        P.iterate eps n ⟨θ, pp⟩ = .ok ⟨θ, pp⟩ := by
    intro pp act S θ hθ n
    induction n with
    | zero => rfl
    | succ n ih =>
      unfold PolicyIteration.iterate
      rw [((bellman_iff S _).mp hθ).2]
      exact ih
  have hzero : ∀ L : K, 0 ≤ L → LipschitzOn1 g.lo g.hi L fun _ : Fin d → K => (0 : K) :=
    fun L hL x y _ _ => by simpa using mul_nonneg hL (dist1_nonneg x y)
  obtain ⟨o', e1, -, -, e2⟩ := C121_value_iteration S' hr' hγ hL' hle' hrew' hf' (fun _ => 0) (hzero _ hL') n
    ⟨vars.value, pp'⟩ rfl hsol.1 B hB (fun k x v _ hv => by simpa using hB' k v hv)
  obtain ⟨o'', e1', -, -, e2'⟩ := C121_value_iteration S'' hr'' hγ hL'' hle'' hrew'' hf'' (fun _ => 0)
    (hzero _ hL'') n ⟨θ'', pp''⟩ rfl hother.1 B hB (fun k x v _ hv => by simpa using hB'' k v hv)
  rw [hfix S' _ hsol] at e1
  rw [hfix S'' _ hother] at e1'
  cases e1
  cases e1'
  obtain ⟨i, rfl, rfl⟩ := pointAt_of_isGridPoint hx
  obtain ⟨η, hη⟩ := toParams_surj vars.value hsol.1
  obtain ⟨ζ, hζ⟩ := toParams_surj θ'' hother.1
  have g1 := e2 i.1 _ _ hx (by rw [hη]; exact toParams_getElem? η _ i.2)
  have g2 := e2' i.1 _ _ hx (by rw [hζ]; exact toParams_getElem? ζ _ i.2)
  rw [hη, hζ, below_toParams] at hbelow
  have g3 := hbelow i
  have g4 := (abs_le.mp g1).2
  have g5 := (abs_le.mp g2).1
  have hsplit : P.gamma * (L' + L'') * coverRadius g.lo g.hi g.num / (1 - P.gamma) =
      P.gamma * L' * coverRadius g.lo g.hi g.num / (1 - P.gamma) +
      P.gamma * L'' * coverRadius g.lo g.hi g.num / (1 - P.gamma) := by
    rw [← add_div]; congr 1; ring
  rw [hsplit]
  linarith

/-! ## Cases that meet the hypotheses -/

/-- `lineIteration` (reward `-x ^ 2`, steps to the left by one half): from zero, the values after `n` iterations are within
`180` of the `n`-step return for all `n`. -/
example : ∃ t, Tri.new lineGrid (delaunay1D 0 (lineGrid.unit 0)) true = .ok t ∧
    ∀ n, ∃ out, (lineIteration t).iterate (1 / 1000) n ⟨[![0], ![0], ![0]], [![-1 / 2]]⟩ = .ok out ∧
      ∀ k x v, IsGridPoint lineGrid.lo lineGrid.hi lineGrid.num k x → out.value[k]? = some v →
        |v 0 - returnWithTerminal (9 / 10) (fun x => -(x 0) ^ 2)
          (Spec.clippedLoop lineGrid.lo lineGrid.hi fun x i => x i + ![-1 / 2] i) (fun _ => 0) n x| ≤ 180 := by
  obtain ⟨t, ht⟩ := C09_construction lineSetup true
  refine ⟨t, ht, fun n => ?_⟩
  have S := lineRL ht
  obtain ⟨out, h1, -, -, h2⟩ := C121_value_iteration S (fun _ _ => Or.inr ⟨rfl, Or.inl rfl⟩)
    (by norm_num [lineIteration]) (Lr := 4) (Lf := 1) (L := 40) (by norm_num) (by norm_num [lineIteration])
    (fun x y hx hy => by
      have hx0 := hx 0
      have hy0 := hy 0
      simp only [lineGrid, Matrix.cons_val_fin_one] at hx0 hy0
      simp only [lineIteration, dist1, Fin.sum_univ_one]
      rw [show -(x 0) ^ 2 - -(y 0) ^ 2 = -(x 0 + y 0) * (x 0 - y 0) by ring, abs_mul, abs_neg]
      refine mul_le_mul_of_nonneg_right ?_ (abs_nonneg _)
      rw [abs_le]
      constructor <;> linarith)
    (fun x y _ _ => by simp [lineIteration, dist1, Prediction.nextMean])
    (fun _ => 0) (fun x y _ _ => by simpa using mul_nonneg (by norm_num : (0 : ℚ) ≤ 40) (dist1_nonneg x y)) n
    ⟨[![0], ![0], ![0]], [![-1 / 2]]⟩ rfl (by decide +kernel) 0 le_rfl
    (fun k x v _ hv => by
      have : v ∈ ([![0], ![0], ![0]] : List (Fin 1 → ℚ)) := List.mem_of_getElem? hv
      simp only [List.mem_cons, List.not_mem_nil, or_false, or_self] at this
      subst this
      simp)
  refine ⟨out, h1, fun k x v hx hv => (h2 k x v hx hv).trans (le_of_eq ?_)⟩
  have hr : coverRadius lineGrid.lo lineGrid.hi lineGrid.num = 1 / 2 := by decide +kernel
  rw [hr]
  norm_num [lineIteration]

/-- The values of the policy that always moves right in `lineControl`. -/
def rightValues : List (Fin 1 → ℚ) := toParams fun _ : Fin (nParams lineGrid) => 10

theorem lineFuture {t : Tri ℚ 1} (ht : Tri.new lineGrid (delaunay1D 0 (lineGrid.unit 0)) true = .ok t)
    (c : ℚ) (y : Fin 1 → ℚ) :
    (lineControl t 1).valueFunction.tfEvaluate (1 / 1000)
      (toParams fun _ : Fin (nParams lineGrid) => c) y = .ok fun _ => c := by
  obtain ⟨w, w1, -, -, hw⟩ := exists_row lineSetup ht y (Or.inl rfl)
  refine (hw fun _ => c).trans ?_
  rw [← Finset.sum_mul, w1, one_mul]

/-- C122 for `lineControl`, where the reward is the action: the optimisation keeps the policy that always moves right, and the
return of the policy that never moves is not larger, up to `20 * (9 / 10) ^ n`. -/
example {t : Tri ℚ 1} (ht : Tri.new lineGrid (delaunay1D 0 (lineGrid.unit 0)) true = .ok t)
    (n k : ℕ) (x : Fin 1 → ℚ) (hx : IsGridPoint lineGrid.lo lineGrid.hi lineGrid.num k x) :
    ∃ out, (lineControl t 1).discretePolicyOptimization (1 / 1000) ⟨rightValues, [1, 1, 1]⟩ lineActions
        none = .ok out ∧ (∀ a ∈ out.policy, a = 1) ∧
    returnWithTerminal (9 / 10) (fun _ => 0)
        (Spec.clippedLoop lineGrid.lo lineGrid.hi fun x => x) (fun _ => 0) n x ≤
      returnWithTerminal (9 / 10) (fun _ => 1)
        (Spec.clippedLoop lineGrid.lo lineGrid.hi fun x i => x i + 1) (fun _ => 0) n x +
        20 * (9 / 10) ^ n := by
  have hfut : ∀ (x a : Fin 1 → ℚ), (lineControl t 1).futureValue (1 / 1000) ⟨rightValues, [1, 1, 1]⟩ none 1
      x a = .ok (a 0 + 9) := by
    intro x a
    rw [futureValue_none x a (lineFuture ht 10 _)]
    norm_num [lineControl]
  obtain ⟨out, ho⟩ := C63_defined (P := lineControl t 1) (eps := 1 / 1000) ⟨rightValues, [1, 1, 1]⟩
    lineActions (by simp [lineActions]) none (fun _ h => by cases h)
    (fun x _ a _ => ⟨_, hfut x a⟩) line_points.symm
  obtain ⟨-, -, -, -, -, e1, e2⟩ := policyOptimization_inv ho
  have hl : out.policy.length = 3 := e2
  have hright : ∀ a ∈ out.policy, a = 1 := by
    intro a ha
    obtain ⟨s, hs⟩ := List.mem_iff_getElem?.mp ha
    have hs3 : s < lineGrid.allPoints.length := by
      rw [line_points, ← hl]
      exact (List.getElem?_eq_some_iff.mp hs).1
    obtain ⟨-, i, b, v, h1, h2, h3, h4⟩ := C63_best_safe_action_partial ho s _
      (List.getElem?_eq_getElem hs3)
    rw [hs] at h1
    cases h1
    rw [hfut] at h3
    cases h3
    obtain ⟨-, w1, hw1, hle1, -⟩ := h4 1 (fun _ => 1) rfl (fun _ h => by cases h)
    rw [hfut] at hw1
    cases hw1
    have hab : a = (fun _ => 0) ∨ a = fun _ => 1 := by
      have := List.mem_of_getElem? h2
      simpa [lineActions] using this
    rcases hab with rfl | rfl
    · exfalso
      norm_num at hle1
    · rfl
  have hset : ∀ (b : Fin 1 → ℚ), RLSetup (lineControl t 1) lineGrid (delaunay1D 0 (lineGrid.unit 0)) (1 / 1000)
      true [b, b, b] (fun _ => b) := by
    intro b
    refine ⟨lineSetup, ht, by norm_num [lineControl], fun x hx => ?_, fun _ _ => Or.inl rfl⟩
    obtain ⟨s, hsx⟩ := List.mem_iff_getElem?.mp hx
    obtain ⟨a, e1, e2⟩ := policy_interpolates_tri lineSetup ht (by decide +kernel) [b, b, b]
      (by simp [lineGrid]) s x hsx
    have : a ∈ [b, b, b] := List.mem_of_getElem? e1
    simp only [List.mem_cons, List.not_mem_nil, or_false, or_self] at this
    subst this
    exact e2
  have hbell : ∀ c : ℚ, Bellman (lineControl t 1) lineGrid (1 / 1000) (fun _ _ => c)
      (toParams fun _ : Fin (nParams lineGrid) => 10 * c) := by
    intro c
    refine ⟨toParams_length _, fun k x hx => ?_⟩
    obtain ⟨i, rfl, rfl⟩ := pointAt_of_isGridPoint hx
    refine ⟨_, _, toParams_getElem? _ _ i.2, (C17_tf_agrees _ _ _).symm.trans (lineFuture ht _ _), ?_⟩
    simp only [lineControl]
    ring
  have hmem : ∀ (c : ℚ) (k : ℕ) v, (toParams fun _ : Fin (nParams lineGrid) => c)[k]? = some v → v 0 = c := by
    intro c k v hv
    have := List.mem_of_getElem? hv
    simp only [toParams, List.mem_ofFn] at this
    obtain ⟨_, rfl⟩ := this
    rfl
  have hlip : ∀ c : ℚ, LipschitzOn1 lineGrid.lo lineGrid.hi 0 fun _ : Fin 1 → ℚ => c := fun c x y _ _ => by simp
  have hmap : ∀ b : Fin 1 → ℚ, Spec.LipschitzMapOn1 lineGrid.lo lineGrid.hi 1 fun x => ((lineControl t 1).dynamics
      x b).nextMean := fun b x y _ _ => by simp [lineControl, dist1, Prediction.nextMean]
  refine ⟨out, ho, hright, ?_⟩
  have h := C122_near_optimal (act' := fun _ _ => 1) (act'' := fun _ _ => 0) (hset fun _ => 1) (hset fun _ => 0)
    (by norm_num [lineControl])
    (fun _ _ => Or.inr ⟨rfl, Or.inl rfl⟩) (fun _ _ => Or.inr ⟨rfl, Or.inl rfl⟩) rfl ho
    (fun s x hs => by
      have hs3 : s < out.policy.length := by
        rw [hl, ← line_points]
        exact (List.getElem?_eq_some_iff.mp hs).1
      rw [List.getElem?_eq_getElem hs3]
      exact congrArg some (hright _ (List.getElem_mem hs3)))
    (by have := hbell 1; rw [mul_one] at this; exact this)
    (fun s x hs => ⟨by simp [lineActions], fun _ h => by cases h⟩)
    (Lr' := 0) (Lf' := 1) (L' := 0) (Lr'' := 0) (Lf'' := 1) (L'' := 0) (B := 10) le_rfl le_rfl (by norm_num)
    (by norm_num) (hlip _) (hlip _) (hmap _) (hmap _) (by norm_num)
    (fun k v hv => by rw [hmem 10 k v hv]; norm_num)
    (toParams fun _ => 10 * 0) (hbell 0) (fun k v hv => by rw [hmem _ k v hv]; norm_num) n k x hx
  simp only [lineControl, Prediction.nextMean] at h
  norm_num at h ⊢
  linarith

end SafeLearning
