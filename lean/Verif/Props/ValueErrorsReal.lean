import Verif.Props.ValueErrors
import Verif.Props.ValueAccuracy
import Verif.Props.ValueRange
import Verif.Lemmas.ModifiedPolicyIteration
set_option autoImplicit false

/-!
# C148: the policies of every round of policy iteration with inaccurate solvers, applied to the real closed loop
-/

namespace SafeLearning

set_option linter.unusedSectionVars false

open Spec PolicyIteration

section

variable {K : Type} [Field K] [LinearOrder K] [IsStrictOrderedRing K] [FloorRing K] {d m : ℕ}
variable {g : GridWorld K d} {D Dp : Delaunay K d} {eps : K} {project pproj : Bool} {tp : Tri K d}
variable {P : PolicyIteration K d m}
variable {actionSpace : List (Fin m → K)}

/-- Whatever describes the policy with available parameters at all grid points fits the results on values. -/
theorem ControlSetup.setup_of_policy (C : ControlSetup P g D Dp eps project pproj tp actionSpace)
    {constraint : Option (List (Fin m → K) → List K)} {params : List (Fin m → K)}
    (hlen : params.length = ∏ i, g.num i) (hav : Spec.AvailableParams constraint actionSpace params)
    {act : (Fin d → K) → Fin m → K} (hact : ∀ x ∈ g.allPoints, P.policy params x = .ok (act x)) :
    RLSetup P g D eps project params act ∧
      (∀ (s : ℕ) x, g.allPoints[s]? = some x → params[s]? = some (act x)) ∧
      (∀ x ∈ g.allPoints, act x ∈ actionSpace) ∧
      ∀ x ∈ g.allPoints, ConvexRegion g eps project (P.dynamics x (act x)).nextMean := by
  obtain ⟨a, S, hp, hA, hr⟩ := C.setup hlen hav
  have hagree : ∀ x ∈ g.allPoints, a x = act x := fun x hx =>
    Except.ok.inj ((S.policy x hx).symm.trans (hact x hx))
  refine ⟨⟨S.tri, S.new, S.gamma, hact, fun x hx => ?_⟩, fun s x hs => ?_, fun x hx => ?_, fun x hx => ?_⟩
  · rw [← hagree x hx]; exact S.next x hx
  · rw [← hagree x (List.mem_of_getElem? hs)]; exact hp s x hs
  · obtain ⟨s, hs⟩ := List.mem_iff_getElem?.mp hx
    rw [← hagree x hx]
    exact (hA s x hs).1
  · rw [← hagree x hx]; exact hr x hx

/-- The Bellman equation only involves the actions at the grid points. -/
theorem bellman_congr {act act' : (Fin d → K) → Fin m → K} {θ : List (Fin 1 → K)}
    (h : ∀ x ∈ g.allPoints, act x = act' x) (hθ : Bellman P g eps act θ) : Bellman P g eps act' θ := by
  refine ⟨hθ.1, fun k x hx => ?_⟩
  obtain ⟨v, e, h1, h2, h3⟩ := hθ.2 k x hx
  have hm : x ∈ g.allPoints := by
    obtain ⟨i, rfl, rfl⟩ := pointAt_of_isGridPoint hx
    exact pointAt_mem g i
  exact ⟨v, e, h1, by simpa only [h x hm] using h2, by simpa only [h x hm] using h3⟩

/-- The solution of the Bellman equation is close to the return of the real closed loop. -/
theorem bellman_return {pp : List (Fin m → K)} {act : (Fin d → K) → Fin m → K}
    (S : RLSetup P g D eps project pp act) (hγ : P.gamma < 1)
    (hr : ∀ x ∈ g.allPoints, ConvexRegion g eps project (P.dynamics x (act x)).nextMean)
    {Lr Lf L B : K} (hL : 0 ≤ L) (hle : Lr + P.gamma * Lf * L ≤ L)
    (hrew : LipschitzOn1 g.lo g.hi Lr fun x => P.reward x (act x))
    (hf : Spec.LipschitzMapOn1 g.lo g.hi Lf fun x => (P.dynamics x (act x)).nextMean)
    (hB : 0 ≤ B) (θ : List (Fin 1 → K)) (hθ : Bellman P g eps act θ)
    (hB' : ∀ (k : ℕ) v, θ[k]? = some v → |v 0| ≤ B)
    (n k : ℕ) (x : Fin d → K) (v : Fin 1 → K) (hx : IsGridPoint g.lo g.hi g.num k x) (hv : θ[k]? = some v) :
    |v 0 - returnWithTerminal P.gamma (fun x => P.reward x (act x))
        (Spec.clippedLoop g.lo g.hi fun x => (P.dynamics x (act x)).nextMean) (fun _ => 0) n x| ≤
      P.gamma * L * coverRadius g.lo g.hi g.num / (1 - P.gamma) + P.gamma ^ n * B := by
  have hfix : ∀ n, P.iterate eps n ⟨θ, pp⟩ = .ok ⟨θ, pp⟩ := by
    intro n
    induction n with
    | zero => rfl
    | succ n ih =>
      unfold PolicyIteration.iterate
      rw [((bellman_iff S _).mp hθ).2]
      exact ih
  have hzero : LipschitzOn1 g.lo g.hi L fun _ : Fin d → K => (0 : K) :=
    fun x y _ _ => by simpa using mul_nonneg hL (dist1_nonneg x y)
  obtain ⟨o, e1, -, -, e2⟩ := C121_value_iteration S hr hγ hL hle hrew hf (fun _ => 0) hzero n
    ⟨θ, pp⟩ rfl hθ.1 B hB (fun k x v _ hv => by simpa using hB' k v hv)
  rw [hfix] at e1
  cases e1
  have := e2 k x v hx hv
  linarith

/-- **C148.** Policy iteration whose linear programs are solved up to the tolerances `ε` and `η`: `before N` are the values and
the policy before round `N`. The rewards at the grid points are at most `(1 - gamma) * B` in size. `act'` is the policy of round
`N`, `act''` that of any parameters with available actions, both evaluated everywhere in the domain. Then, from every grid
point and over every horizon `n`, the return of the real closed loop of `act'` is at most
`2 * gamma ^ N * B` (rounds) `+ 2 * gamma * δ / (1 - gamma) ^ 2` (solver) `+ gamma * (L' + L'') * τ / (1 - gamma)` (grid)
`+ 2 * gamma ^ n * B` (horizon) below that of `act''`. -/
theorem C148_rounds (C : ControlSetup P g D Dp eps project pproj tp actionSpace)
    {ε η : K} (hε : 0 ≤ ε) (hη : 0 ≤ η)
    (solve : Program K → Status × List K) (hs : InaccurateSolver ε η solve)
    (constraint : Option (List (Fin m → K) → List K))
    (before solved : ℕ → Vars K m)
    (hlenv : (before 0).value.length = ∏ i, g.num i) (hlenp : (before 0).policy.length = ∏ i, g.num i)
    (hav : Spec.AvailableParams constraint actionSpace (before 0).policy)
    (hvalue : ∀ n, P.optimizeValueFunction eps solve (before n) = .ok (solved n))
    (hpolicy : ∀ n, P.discretePolicyOptimization eps (solved n) actionSpace constraint =
      .ok (before (n + 1)))
    (δ : K) (hδ : δ = η + (∏ i, g.num i : ℕ) * (ε / (1 - P.gamma)))
    {B : K} (hB : ∀ x ∈ g.allPoints, ∀ a ∈ actionSpace, |P.reward x a| ≤ (1 - P.gamma) * B)
    (N : ℕ) (params : List (Fin m → K)) (hlen'' : params.length = ∏ i, g.num i)
    (hav'' : Spec.AvailableParams constraint actionSpace params)
    (act' act'' : (Fin d → K) → Fin m → K)
    (hact' : ∀ x, InBox g.lo g.hi x → P.policy (before N).policy x = .ok (act' x))
    (hact'' : ∀ x, InBox g.lo g.hi x → P.policy params x = .ok (act'' x))
    {Lr' Lf' L' Lr'' Lf'' L'' : K} (hL' : 0 ≤ L') (hL'' : 0 ≤ L'')
    (hle' : Lr' + P.gamma * Lf' * L' ≤ L') (hle'' : Lr'' + P.gamma * Lf'' * L'' ≤ L'')
    (hrew' : LipschitzOn1 g.lo g.hi Lr' fun x => P.reward x (act' x))
    (hrew'' : LipschitzOn1 g.lo g.hi Lr'' fun x => P.reward x (act'' x))
    (hf' : Spec.LipschitzMapOn1 g.lo g.hi Lf' fun x => (P.dynamics x (act' x)).nextMean)
    (hf'' : Spec.LipschitzMapOn1 g.lo g.hi Lf'' fun x => (P.dynamics x (act'' x)).nextMean)
    (n k : ℕ) (x : Fin d → K) (hx : IsGridPoint g.lo g.hi g.num k x) :
    returnWithTerminal P.gamma (fun x => P.reward x (act'' x))
        (Spec.clippedLoop g.lo g.hi fun x => (P.dynamics x (act'' x)).nextMean) (fun _ => 0) n x ≤
      returnWithTerminal P.gamma (fun x => P.reward x (act' x))
        (Spec.clippedLoop g.lo g.hi fun x => (P.dynamics x (act' x)).nextMean) (fun _ => 0) n x +
      (2 * P.gamma ^ N * B + 2 * P.gamma * δ / (1 - P.gamma) ^ 2 +
        P.gamma * (L' + L'') * coverRadius g.lo g.hi g.num / (1 - P.gamma) + 2 * P.gamma ^ n * B) := by
  have hγ := C.gamma_lt
  have hpos : 0 < 1 - P.gamma := by linarith
  obtain ⟨act, θ, hAll, hp, hθ, -, hmain⟩ := C146_rounds C hε hη solve hs constraint before solved hlenv hlenp
    hav hvalue hpolicy δ hδ
  have hin : ∀ x ∈ g.allPoints, InBox g.lo g.hi x := fun x hx => by
    obtain ⟨s, hs⟩ := List.mem_iff_getElem?.mp hx
    have hs' := (List.getElem?_eq_some_iff.mp hs).1
    rw [(GridWorld.C03_all_points_enumerates g).1] at hs'
    have := inBox_gridPoint C.valueTri.wf (isGridPoint_pointAt g ⟨s, hs'⟩)
    rwa [show pointAt g ⟨s, hs'⟩ = x from (List.getElem?_eq_some_iff.mp hs).2] at this
  have hinv : ∀ n, (before n).value.length = ∏ i, g.num i ∧ (before n).policy.length = ∏ i, g.num i := by
    intro n
    induction n with
    | zero => exact ⟨hlenv, hlenp⟩
    | succ n ih =>
      obtain ⟨i1, i2⟩ := ih
      obtain ⟨a, S, -, -, hr⟩ := C.setup i2 (hAll n)
      obtain ⟨t, ht⟩ := bellman_exists_convex S hγ hr
      obtain ⟨e1, e2, -, -⟩ := C146_inaccurate_solver S hγ hr hε hη solve hs _ _ rfl i1 (hvalue n) t ht
      obtain ⟨e3, e4, -⟩ := C.available (by rw [e1]; exact i2) (by rw [e1]; exact hAll n) (hpolicy n)
      exact ⟨by rw [e3]; exact e2, e4⟩
  -- values are bounded
  have hrange : ∀ (params : List (Fin m → K)) (a : (Fin d → K) → Fin m → K) (t : List (Fin 1 → K)),
      params.length = ∏ i, g.num i → Spec.AvailableParams constraint actionSpace params →
      (∀ x ∈ g.allPoints, P.policy params x = .ok (a x)) → Bellman P g eps a t → InRange (-B) B t := by
    intro ps a t hl ha hact ht
    obtain ⟨S, -, hm, hr⟩ := C.setup_of_policy hl ha hact
    refine C106_solution_partial S hγ hr (-B) B (fun x hx => ?_) t ht
    have := abs_le.mp (hB x hx (a x) (hm x hx))
    constructor <;> linarith [this.1, this.2]
  -- the policies of the rounds at the grid points
  have hround : ∀ N, ∀ x ∈ g.allPoints, P.policy (before N).policy x = .ok (act N x) := by
    intro N x hx
    obtain ⟨a, S, hpa, -, -⟩ := C.setup (hinv N).2 (hAll N)
    obtain ⟨s, hs⟩ := List.mem_iff_getElem?.mp hx
    rw [S.policy x hx, Option.some.inj ((hpa s x hs).symm.trans (hp N s x hs))]
  obtain ⟨S', -, -, hr'⟩ := C.setup_of_policy (hinv N).2 (hAll N) fun x hx => hact' x (hin x hx)
  obtain ⟨S'', hp'', -, hr''⟩ := C.setup_of_policy hlen'' hav'' fun x hx => hact'' x (hin x hx)
  have hθ' : Bellman P g eps act' (θ N) := bellman_congr (fun x hx =>
    Except.ok.inj ((hround N x hx).symm.trans (hact' x (hin x hx)))) (hθ N)
  obtain ⟨θ'', hθ''⟩ := bellman_exists_convex S'' hγ hr''
  have r0 := hrange _ _ _ (hinv 0).2 (hAll 0) (hround 0) (hθ 0)
  have r' := hrange _ _ _ (hinv N).2 (hAll N) (hround N) (hθ N)
  have r'' := hrange _ _ _ hlen'' hav'' (fun x hx => hact'' x (hin x hx)) hθ''
  have habs : ∀ {t : List (Fin 1 → K)}, InRange (-B) B t → ∀ (k : ℕ) v, t[k]? = some v → |v 0| ≤ B :=
    fun ht k v hv => abs_le.mpr (ht v (List.mem_of_getElem? hv))
  have hbelow := hmain params act'' θ'' (2 * B) hlen'' hav'' hp'' hθ''
    (fun k v w hv hw => by
      have h1 := r'' v (List.mem_of_getElem? hv)
      have h2 := r0 w (List.mem_of_getElem? hw)
      linarith [h1.2, h2.1]) N
  obtain ⟨i, rfl, rfl⟩ := pointAt_of_isGridPoint hx
  have hget : ∀ {a : (Fin d → K) → Fin m → K} {t : List (Fin 1 → K)}, Bellman P g eps a t →
      ∃ v, t[i.1]? = some v := fun ht => ⟨_, List.getElem?_eq_getElem (by rw [ht.1]; exact i.2)⟩
  obtain ⟨v', hv'⟩ := hget hθ'
  obtain ⟨v'', hv''⟩ := hget hθ''
  have hB0 : 0 ≤ B := (abs_nonneg _).trans (habs r' _ _ hv')
  have g1 := bellman_return S' hγ hr' hL' hle' hrew' hf' hB0 _ hθ' (habs r') n i.1 _ v' hx hv'
  have g2 := bellman_return S'' hγ hr'' hL'' hle'' hrew'' hf'' hB0 _ hθ'' (habs r'') n i.1 _ v'' hx hv''
  have g3 := hbelow i.1 v'' v' hv'' hv'
  have g4 := (abs_le.mp g1).2
  have g5 := (abs_le.mp g2).1
  have hsplit : P.gamma * (L' + L'') * coverRadius g.lo g.hi g.num / (1 - P.gamma) =
      P.gamma * L' * coverRadius g.lo g.hi g.num / (1 - P.gamma) +
      P.gamma * L'' * coverRadius g.lo g.hi g.num / (1 - P.gamma) := by
    rw [← add_div]; congr 1; ring
  rw [hsplit]
  linarith


/-- **C148 (everywhere).** From every state in the domain, not only from grid points: the part of the bound that comes from the
grid is then `(L' + L'') * τ / (1 - gamma)`. -/
theorem C148_everywhere (C : ControlSetup P g D Dp eps project pproj tp actionSpace)
    {ε η : K} (hε : 0 ≤ ε) (hη : 0 ≤ η)
    (solve : Program K → Status × List K) (hs : InaccurateSolver ε η solve)
    (constraint : Option (List (Fin m → K) → List K))
    (before solved : ℕ → Vars K m)
    (hlenv : (before 0).value.length = ∏ i, g.num i) (hlenp : (before 0).policy.length = ∏ i, g.num i)
    (hav : Spec.AvailableParams constraint actionSpace (before 0).policy)
    (hvalue : ∀ n, P.optimizeValueFunction eps solve (before n) = .ok (solved n))
    (hpolicy : ∀ n, P.discretePolicyOptimization eps (solved n) actionSpace constraint =
      .ok (before (n + 1)))
    (δ : K) (hδ : δ = η + (∏ i, g.num i : ℕ) * (ε / (1 - P.gamma)))
    {B : K} (hB : ∀ x ∈ g.allPoints, ∀ a ∈ actionSpace, |P.reward x a| ≤ (1 - P.gamma) * B)
    (N : ℕ) (params : List (Fin m → K)) (hlen'' : params.length = ∏ i, g.num i)
    (hav'' : Spec.AvailableParams constraint actionSpace params)
    (act' act'' : (Fin d → K) → Fin m → K)
    (hact' : ∀ x, InBox g.lo g.hi x → P.policy (before N).policy x = .ok (act' x))
    (hact'' : ∀ x, InBox g.lo g.hi x → P.policy params x = .ok (act'' x))
    {Lr' Lf' L' Lr'' Lf'' L'' : K} (hL' : 0 ≤ L') (hL'' : 0 ≤ L'')
    (hle' : Lr' + P.gamma * Lf' * L' ≤ L') (hle'' : Lr'' + P.gamma * Lf'' * L'' ≤ L'')
    (hrew' : LipschitzOn1 g.lo g.hi Lr' fun x => P.reward x (act' x))
    (hrew'' : LipschitzOn1 g.lo g.hi Lr'' fun x => P.reward x (act'' x))
    (hf' : Spec.LipschitzMapOn1 g.lo g.hi Lf' fun x => (P.dynamics x (act' x)).nextMean)
    (hf'' : Spec.LipschitzMapOn1 g.lo g.hi Lf'' fun x => (P.dynamics x (act'' x)).nextMean)
    (n : ℕ) (x : Fin d → K) (hx : InBox g.lo g.hi x) :
    returnWithTerminal P.gamma (fun x => P.reward x (act'' x))
        (Spec.clippedLoop g.lo g.hi fun x => (P.dynamics x (act'' x)).nextMean) (fun _ => 0) n x ≤
      returnWithTerminal P.gamma (fun x => P.reward x (act' x))
        (Spec.clippedLoop g.lo g.hi fun x => (P.dynamics x (act' x)).nextMean) (fun _ => 0) n x +
      (2 * P.gamma ^ N * B + 2 * P.gamma * δ / (1 - P.gamma) ^ 2 +
        (L' + L'') * coverRadius g.lo g.hi g.num / (1 - P.gamma) + 2 * P.gamma ^ n * B) := by
  have hg := C.valueTri.wf
  obtain ⟨k, p, -, -, -, hp, -, hnear⟩ := GridWorld.C02_state_to_index_nearest g C.valueTri.two_le C.valueTri.lt x
  have hpin := inBox_gridPoint hg hp
  have hdist : dist1 x p ≤ coverRadius g.lo g.hi g.num := by
    unfold dist1 coverRadius
    rw [Finset.sum_div]
    exact Finset.sum_le_sum fun i _ => hnear i (hx i).1 (hx i).2
  have hmain := C148_rounds C hε hη solve hs constraint before solved hlenv hlenp hav hvalue hpolicy δ hδ hB N params
    hlen'' hav'' act' act'' hact' hact'' hL' hL'' hle' hle'' hrew' hrew'' hf' hf'' n k p hp
  have hzero : ∀ L : K, 0 ≤ L → LipschitzOn1 g.lo g.hi L fun _ : Fin d → K => (0 : K) :=
    fun L hL x y _ _ => by simpa using mul_nonneg hL (dist1_nonneg x y)
  have h1 := abs_le.mp (return_lipschitz C.valueTri.lt C.gamma_nonneg hL' hle' hrew' hf' n _ (hzero _ hL') x p hx hpin)
  have h2 := abs_le.mp (return_lipschitz C.valueTri.lt C.gamma_nonneg hL'' hle'' hrew'' hf'' n _ (hzero _ hL'') x p hx
    hpin)
  have h3 := mul_le_mul_of_nonneg_left hdist hL'
  have h4 := mul_le_mul_of_nonneg_left hdist hL''
  have hpos : 0 < 1 - P.gamma := by linarith [C.gamma_lt]
  have e : (L' + L'') * coverRadius g.lo g.hi g.num / (1 - P.gamma) =
      P.gamma * (L' + L'') * coverRadius g.lo g.hi g.num / (1 - P.gamma) +
        (L' * coverRadius g.lo g.hi g.num + L'' * coverRadius g.lo g.hi g.num) := by
    field_simp
    ring
  rw [e]
  linarith [h1.1, h2.2]

end

/-! ## A case that meets the hypotheses -/

/-- Constant parameters on `lineGrid`. -/
def lineConst (c : ℚ) : List (Fin 1 → ℚ) := List.replicate 3 fun _ => c

theorem lineConst_eq (c : ℚ) : (toParams fun _ : Fin (nParams lineGrid) => c) = lineConst c := by
  have hn : nParams lineGrid = 3 := by decide +kernel
  have : (toParams fun _ : Fin (nParams lineGrid) => c) = List.replicate (nParams lineGrid) fun _ => c := by
    unfold toParams
    exact List.ofFn_const _ _
  rw [this, hn]
  rfl

theorem lineConst_eval {t : Tri ℚ 1} (ht : Tri.new lineGrid (delaunay1D 0 (lineGrid.unit 0)) true = .ok t)
    (c : ℚ) (x : Fin 1 → ℚ) : t.tfEvaluate (1 / 1000) (lineConst c) x = .ok fun _ => c := by
  rw [← lineConst_eq]
  exact lineFuture ht c x

theorem lineConst_length (c : ℚ) : (lineConst c).length = ∏ i, lineGrid.num i := by
  have hn : ∏ i, lineGrid.num i = 3 := by decide +kernel
  rw [hn]
  rfl

theorem lineConst_available {c : ℚ} (hc : (fun _ => c) ∈ lineActions) :
    Spec.AvailableParams none lineActions (lineConst c) := fun s a ha => by
  have : a = fun _ => c := List.eq_of_mem_replicate (List.mem_of_getElem? ha)
  subst this
  exact ⟨hc, fun _ h => by cases h⟩

theorem lineConst_bellman {t : Tri ℚ 1} (ht : Tri.new lineGrid (delaunay1D 0 (lineGrid.unit 0)) true = .ok t)
    (c : ℚ) : Bellman (lineControl t 1) lineGrid (1 / 1000) (fun _ _ => c) (lineConst (10 * c)) := by
  rw [← lineConst_eq]
  refine ⟨toParams_length _, fun k x hx => ?_⟩
  obtain ⟨i, rfl, rfl⟩ := pointAt_of_isGridPoint hx
  refine ⟨_, _, toParams_getElem? _ _ i.2, (C17_tf_agrees _ _ _).symm.trans (lineFuture ht _ _), ?_⟩
  simp only [lineControl]
  ring

/-- With constant values the policy moves right. -/
theorem lineConst_improve {t : Tri ℚ 1} (ht : Tri.new lineGrid (delaunay1D 0 (lineGrid.unit 0)) true = .ok t)
    (c b : ℚ) : (lineControl t 1).discretePolicyOptimization (1 / 1000) ⟨lineConst c, lineConst b⟩ lineActions none =
      .ok ⟨lineConst c, lineConst 1⟩ := by
  have hfut : ∀ (x a : Fin 1 → ℚ), (lineControl t 1).futureValue (1 / 1000) ⟨lineConst c, lineConst b⟩ none 1
      x a = .ok (a 0 + 9 / 10 * c) := by
    intro x a
    have := futureValue_none (P := lineControl t 1) (eps := 1 / 1000) (vars := ⟨lineConst c, lineConst b⟩) x a
      (lineConst_eval ht c _) 1
    rw [this]
    simp only [lineControl, one_mul]
  obtain ⟨out, ho⟩ := C63_defined (P := lineControl t 1) (eps := 1 / 1000) ⟨lineConst c, lineConst b⟩
    lineActions (by simp [lineActions]) none (fun _ h => by cases h)
    (fun x _ a _ => ⟨_, hfut x a⟩) line_points.symm
  obtain ⟨-, -, -, -, -, e1, e2⟩ := policyOptimization_inv ho
  have hl : out.policy.length = 3 := e2
  have hright : ∀ a ∈ out.policy, a = fun _ => 1 := by
    intro a ha
    obtain ⟨s, hs⟩ := List.mem_iff_getElem?.mp ha
    have hs3 : s < lineGrid.allPoints.length := by
      rw [line_points, ← hl]
      exact (List.getElem?_eq_some_iff.mp hs).1
    obtain ⟨-, i, b, v, h1, h2, h3, h4⟩ := C63_best_safe_action_partial ho s _
      (List.getElem?_eq_getElem hs3)
    rw [hs] at h1
    cases h1
    rw [hfut] at h3
    cases h3
    obtain ⟨-, w1, hw1, hle1, -⟩ := h4 1 (fun _ => 1) rfl (fun _ h => by cases h)
    rw [hfut] at hw1
    cases hw1
    have hab : a = (fun _ => 0) ∨ a = fun _ => 1 := by
      have := List.mem_of_getElem? h2
      simpa [lineActions] using this
    rcases hab with rfl | rfl
    · exfalso
      norm_num at hle1
    · rfl
  rw [ho]
  obtain ⟨v, p⟩ := out
  simp only at e1 hl hright
  rw [e1, List.eq_replicate_of_mem hright, hl]
  rfl

/-- `lineControl` with a solver that violates the constraints by `1 / 100`: its values exceed the solution by `1 / 10`, and in every round
the policy moves right. It is compared with the policy that stays where it is. -/
example {t : Tri ℚ 1} (ht : Tri.new lineGrid (delaunay1D 0 (lineGrid.unit 0)) true = .ok t) :
    ∃ solve, InaccurateSolver (1 / 100) 0 solve ∧ ∃ before solved : ℕ → Vars ℚ 1,
      (∀ n, (lineControl t 1).optimizeValueFunction (1 / 1000) solve (before n) = .ok (solved n)) ∧
      (∀ n, (lineControl t 1).discretePolicyOptimization (1 / 1000) (solved n) lineActions none =
        .ok (before (n + 1))) ∧
      (∀ n, solved n = ⟨lineConst (101 / 10), lineConst 1⟩) ∧
      ∀ N n x, InBox lineGrid.lo lineGrid.hi x →
        returnWithTerminal (9 / 10) (fun _ => 0)
            (Spec.clippedLoop lineGrid.lo lineGrid.hi fun x => x) (fun _ => 0) n x ≤
          returnWithTerminal (9 / 10) (fun _ => 1)
            (Spec.clippedLoop lineGrid.lo lineGrid.hi fun x i => x i + 1) (fun _ => 0) n x +
            (20 * (9 / 10) ^ N + 54 + 20 * (9 / 10) ^ n) := by
  have C := lineControlSetup ht
  have h1m : (fun _ => 1 : Fin 1 → ℚ) ∈ lineActions := by simp [lineActions]
  have h0m : (fun _ => 0 : Fin 1 → ℚ) ∈ lineActions := by simp [lineActions]
  have heval : ∀ (c : ℚ) x, (lineControl t 1).policy (lineConst c) x = .ok fun _ => c := fun c x =>
    lineConst_eval ht c x
  obtain ⟨S, -, -, hr⟩ := C.setup_of_policy (lineConst_length 1) (lineConst_available h1m) (act := fun _ _ => 1)
    fun x _ => heval 1 x
  obtain ⟨solve, out, hs, h1, h2⟩ := C146_tight (ε := 1 / 100) S C.gamma_lt hr (by norm_num)
    ⟨lineConst (101 / 10), lineConst 1⟩ rfl (lineConst_length _) _ (lineConst_bellman ht 1)
  have hout : out = ⟨lineConst (101 / 10), lineConst 1⟩ := by
    have h3 := (C146_inaccurate_solver S C.gamma_lt hr (by norm_num) le_rfl solve hs _ out rfl (lineConst_length _) h1 _
      (lineConst_bellman ht 1)).1
    obtain ⟨v, p⟩ := out
    simp only at h2 h3
    rw [h2, h3]
    norm_num [lineConst, lineControl]
  subst hout
  refine ⟨solve, hs, fun _ => ⟨lineConst (101 / 10), lineConst 1⟩, fun _ => ⟨lineConst (101 / 10), lineConst 1⟩,
    fun _ => h1, fun _ => lineConst_improve ht _ _, fun _ => rfl, fun N n x hx => ?_⟩
  have hlip : ∀ c : ℚ, LipschitzOn1 lineGrid.lo lineGrid.hi 0 fun _ : Fin 1 → ℚ => c := fun c x y _ _ => by simp
  have hmap : ∀ b : Fin 1 → ℚ, Spec.LipschitzMapOn1 lineGrid.lo lineGrid.hi 1 fun x => ((lineControl t 1).dynamics
      x b).nextMean := fun b x y _ _ => by simp [lineControl, dist1, Prediction.nextMean]
  have h := C148_everywhere C (by norm_num) le_rfl solve hs none (fun _ => ⟨lineConst (101 / 10), lineConst 1⟩)
    (fun _ => ⟨lineConst (101 / 10), lineConst 1⟩) (lineConst_length _) (lineConst_length _) (lineConst_available h1m)
    (fun _ => h1) (fun _ => lineConst_improve ht _ _) (3 / 10)
    (by
      have hn : ∏ i, lineGrid.num i = 3 := by decide +kernel
      rw [hn]
      norm_num [lineControl])
    (B := 10) (fun x _ a ha => by
      have : a = (fun _ => 0) ∨ a = fun _ => 1 := by simpa [lineActions] using ha
      rcases this with rfl | rfl <;> norm_num [lineControl])
    N (lineConst 0) (lineConst_length 0) (lineConst_available h0m) (fun _ _ => 1) (fun _ _ => 0)
    (fun x _ => heval 1 x) (fun x _ => heval 0 x) (Lr' := 0) (Lf' := 1) (L' := 0) (Lr'' := 0) (Lf'' := 1) (L'' := 0)
    le_rfl le_rfl (by norm_num) (by norm_num) (hlip _) (hlip _) (hmap _) (hmap _) n x hx
  simp only [lineControl, Prediction.nextMean] at h
  norm_num at h ⊢
  linarith

end SafeLearning
