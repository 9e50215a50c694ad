import Verif.Lemmas.SafeSetRefined
import Verif.Model.Decrease
import Verif.Props.SafeSet
import Verif.Props.Grid
set_option autoImplicit false

/-! # Properties C28 - C30: adaptive refinement, arguments of `update_safe_set`, `is_safe` -/

set_option linter.unusedSectionVars false

namespace SafeLearning

variable {K : Type} [Field K] [LinearOrder K] [IsStrictOrderedRing K] [FloorRing K]

namespace Lyap

variable {Prog Θ : Type} {n : ℕ}

/-! ## C28 -/

/-- **C28** (partial: the refined points are not checked, see the refutation below). After any
history of method calls, a state that is safe after a call with or without adaptive refinement is
initially safe, satisfies the decrease condition for `tau`, was safe before (`can_shrink=False`), or
there is a refinement `N` between 1 and `max_refinement` such that the decrease at the *grid state*
is below the threshold for the discretization constant `tau / N` (as computed by the division
`tauDiv`). Missing: the decrease condition at the points of the refined cell. -/
theorem C28_refined_state_partial (W : World K Prog Θ n)
    (prog : Prog) (tau : K) (initial : Option (Fin n → Bool)) (adaptive : Bool) (θ₀ : Θ)
    (history : List (Op K Prog Θ)) (hh : ∀ op ∈ history, op.IsMethod)
    (batch : ℕ) (args : UpdateArgs K) (θ : Θ) :
    let s := run W (new W prog tau initial adaptive θ₀) history
    let r := updateSafeSet W batch args s θ
    r.2 = .ok () → ∀ j, r.1.safeSet j = true →
      InInitial initial j ∨ W.decrease prog θ j < W.threshold θ j tau ∨
      (args.canShrink = false ∧ s.safeSet j = true) ∨
      (adaptive = true ∧ ∃ N, 1 ≤ N ∧ N ≤ args.maxRefinement ∧
        W.decrease prog θ j < W.threshold θ j (W.tauDiv tau N)) := by
  intro s r hok j hj
  have hcon : s.Consistent prog tau initial adaptive :=
    consistent_run W _ history hh (consistent_new W prog tau initial adaptive θ₀)
  have hG := hcon.graphFor args.safetyFactor
  rcases updateSafeSet_reason W s θ batch args hok j hj with h | h | h | ⟨N, h⟩
  · unfold startFlag at h
    cases hc : args.canShrink with
    | true =>
      rw [hc, if_pos rfl, initialMem_iff, hcon.hinitial] at h
      exact Or.inl h
    | false =>
      rw [hc] at h
      exact Or.inr (Or.inr (Or.inl ⟨rfl, by simpa using h⟩))
  · rw [initialMem_iff, hcon.hinitial] at h
    exact Or.inl h
  · unfold negative at h
    rw [hG.1, hG.2.1, decide_eq_true_eq] at h
    exact Or.inr (Or.inl h)
  · obtain ⟨h1, h2, h3, h4, h5, -⟩ := h
    rw [hG.1, hG.2.1] at h5
    rw [hcon.hadaptive] at h1
    exact Or.inr (Or.inr (Or.inr ⟨h1, N, h3, h4, h5⟩))

/-- A one-dimensional grid with the states 0, 1, 2. -/
def lineGrid : GridWorld ℚ 1 where
  lo := ![0]
  hi := ![2]
  num := ![3]

/-- A deterministic system on the line: `V(x) = |x|`, `L_v = 1`, `L_f = 0`; the closed loop maps `0`
to `0`. With these numbers the decrease at `x` is `|f x| - |x|` and the threshold is `-tau`. -/
def lineSystem (f : ℚ → ℚ) (V : ℚ → ℚ) : System ℚ Unit Unit 1 where
  V := fun _ x => V (x 0)
  lv := fun _ => .const 1
  lf := fun _ => .const 0
  closedLoop := fun _ _ x => .exact fun _ => f (x 0)

/-- The world of `lineSystem`, with a stable sort. -/
def lineWorld (f V : ℚ → ℚ) : World ℚ Unit Unit lineGrid.nindex :=
  (lineSystem f V).world lineGrid
    (fun v => (List.finRange _).insertionSort fun i j => v i ≤ v j) fun t k => t / k

/-- **C28** is false: the adaptive check accepts the state 0 with refinement 2 although the decrease
condition with `tau / 2` fails at *every* point of the refined cell, because `refined_safety_check`
compares the decrease at the grid state, not at the refined points. (`max_refinement = 2`,
`tau = 1`.) -/
theorem C28_refined_points_refuted :
    ∃ (f V : ℚ → ℚ),
      let W := lineWorld f V
      let s := new W () 1 (some fun _ => false) true ()
      let r := updateSafeSet W 10 ⟨true, 2, 1⟩ s ()
      r.2 = .ok () ∧ ∃ j : Fin lineGrid.nindex, r.1.safeSet j = true ∧ r.1.refinement j = 2 ∧
        refinedPoints lineGrid (gridState lineGrid j) 2 ≠ [] ∧
        ∀ y ∈ refinedPoints lineGrid (gridState lineGrid j) 2,
          ¬ vDecreaseBound ((lineSystem f V).V ()) ((lineSystem f V).lv ()) y
              ((lineSystem f V).closedLoop () () y) <
            thresholdAt ((lineSystem f V).lv ()) ((lineSystem f V).lf ()) y (1 / 2) := by
  refine ⟨fun x => if x = 0 then -3/4 else x, fun x => x, ?_, ⟨0, by decide +kernel⟩, ?_, ?_, ?_, ?_⟩
  · decide +kernel
  · decide +kernel
  · decide +kernel
  · decide +kernel
  · decide +kernel

/-- A call with refinement that certifies a state meets the hypotheses of the partial theorem. -/
example : let W := lineWorld (fun x => if x = 0 then -3/4 else x) fun x => x
    let r := updateSafeSet W 10 ⟨true, 2, 1⟩ (new W () 1 (some fun _ => false) true ()) ()
    r.2 = .ok () ∧ ∃ j, r.1.safeSet j = true ∧
      ¬ W.decrease () () j < W.threshold () j 1 := by
  refine ⟨by decide +kernel, ⟨0, by decide +kernel⟩, by decide +kernel, by decide +kernel⟩

/-- Adaptive refinement without an initial safe set raises `TypeError` as soon as a state is not
certified (safe_learning/lyapunov.py:548). -/
theorem C28_adaptive_needs_initial_set :
    (updateSafeSet (lineWorld (fun x => x) fun x => x) 10 ⟨true, 2, 1⟩
      (new (lineWorld (fun x => x) fun x => x) () 1 none true ()) ()).2 = .error .typeError := by
  decide +kernel

/-! ## C29 -/

theorem batchLoop_attr (W : World K Prog Θ n) (G : Graph K Prog) (s : Lyap K Prog n) (θ : Θ) (m : ℕ)
    (p : Prog) (t : K) (bs : List (ℕ × List (Row n))) :
    ∀ acc last, batchLoop W G { s with prog := p, tau := t } θ m acc last bs =
      batchLoop W G s θ m acc last bs := by
  induction bs with
  | nil => intro acc last; rfl
  | cons b bs ih =>
    intro acc last
    rw [batchLoop, batchLoop]
    have : batchStep W G { s with prog := p, tau := t } θ m b.2 = batchStep W G s θ m b.2 := rfl
    rw [this]
    cases batchStep W G s θ m b.2 with
    | error e => rfl
    | ok res =>
      simp only []
      split_ifs
      · rfl
      · exact ih _ _

theorem finish_attr (W : World K Prog Θ n) (s : Lyap K Prog n) (p : Prog) (t : K)
    (rows : List (Row n)) (last : Option (ℕ × ℕ × ℕ)) :
    finish W { s with prog := p, tau := t } rows last =
      (s.finish W rows last).map fun s' => { s' with prog := p, tau := t } := by
  unfold finish
  cases last with
  | none => rfl
  | some x =>
    obtain ⟨i, b, rb⟩ := x
    simp only []
    cases pyGet? (W.argsort s.values) ((i : ℤ) + b + rb - 1) with
    | none => rfl
    | some top => rfl

/-- Once a graph is stored, the current `policy`, `dynamics` and `tau` are irrelevant. -/
theorem update_attr (W : World K Prog Θ n) (s : Lyap K Prog n) (hg : s.graph ≠ none)
    (batch : ℕ) (args : UpdateArgs K) (θ : Θ) (p : Prog) (t : K) :
    (updateSafeSet W batch args { s with prog := p, tau := t } θ).2 =
      (updateSafeSet W batch args s θ).2 ∧
    (updateSafeSet W batch args { s with prog := p, tau := t } θ).1 =
      { (updateSafeSet W batch args s θ).1 with prog := p, tau := t } := by
  obtain ⟨G, hG⟩ := Option.ne_none_iff_exists'.mp hg
  have h1 : graphFor { s with prog := p, tau := t } args.safetyFactor = G := by
    unfold graphFor; simp only [hG]
  have h2 : graphFor s args.safetyFactor = G := by
    unfold graphFor; simp only [hG]
  unfold updateSafeSet
  simp only [h1, h2]
  split_ifs with hne
  · exact ⟨rfl, rfl⟩
  · have e := batchLoop_attr W G { s with graph := some G } θ args.maxRefinement p t
      (batchify (startRows W { s with graph := some G } args.canShrink) batch) [] none
    have e2 : startRows W { s with prog := p, tau := t, graph := some G } args.canShrink =
        startRows W { s with graph := some G } args.canShrink := rfl
    simp only [] at e
    rw [e2, e]
    cases batchLoop W G { s with graph := some G } θ args.maxRefinement [] none
        (batchify (startRows W { s with graph := some G } args.canShrink) batch) with
    | error e => exact ⟨rfl, rfl⟩
    | ok out =>
      obtain ⟨rows, last⟩ := out
      simp only []
      have e3 := finish_attr W { s with graph := some G } p t rows last
      simp only [] at e3
      rw [e3]
      cases finish W { s with graph := some G } rows last with
      | error e => exact ⟨rfl, rfl⟩
      | ok s' => exact ⟨rfl, rfl⟩

/-- **C29** is false: once `update_safe_set` was called, assigning a new policy, dynamics or `tau`
has no effect on the exception, safe set, refinement and `c_max` of later calls. -/
theorem C29_later_assignments_ignored (W : World K Prog Θ n) (s : Lyap K Prog n)
    (batch₁ batch₂ : ℕ) (args₁ args₂ : UpdateArgs K) (θ₁ θ₂ : Θ) (p : Prog) (t : K) :
    let s' := (updateSafeSet W batch₁ args₁ s θ₁).1
    let r := updateSafeSet W batch₂ args₂ s' θ₂
    let r' := updateSafeSet W batch₂ args₂ { s' with prog := p, tau := t } θ₂
    r'.2 = r.2 ∧ r'.1.safeSet = r.1.safeSet ∧ r'.1.refinement = r.1.refinement ∧
      r'.1.cMax = r.1.cMax := by
  intro s' r r'
  have hg : s'.graph ≠ none := by
    rw [(update_fields W batch₁ args₁ s θ₁).2.2.2.2.2.1]; simp
  obtain ⟨h1, h2⟩ := update_attr W s' hg batch₂ args₂ θ₂ p t
  exact ⟨h1, by rw [h2], by rw [h2], by rw [h2]⟩

/-- The condition `decrease < -tau` holds for `tau = 1` but not for `tau = 3`. -/
def tauWorld : World ℚ Unit Unit 4 :=
  tableWorld (fun _ _ _ => -2) (fun _ _ t => -t) (fun _ j => j.val)

/-- **C29** refuted: two objects with the same attributes at the time of the call, `tau = 3`. For the
one on which `update_safe_set` was called with `tau = 1` before, all states are declared safe; for
the other none is, and none satisfies the decrease condition. -/
theorem C29_arguments_take_effect_refuted :
    ∃ (W : World ℚ Unit Unit 4) (_ : W.SortContract),
      let fresh := new W () 3 none false ()
      let used := run W (new W () 1 none false ()) [.update 10 ⟨true, 1, 1⟩ (), .setTau 3]
      used.tau = fresh.tau ∧ used.values = fresh.values ∧ used.initial = fresh.initial ∧
      used.adaptive = fresh.adaptive ∧
      (∀ j, (updateSafeSet W 10 ⟨true, 1, 1⟩ fresh ()).1.safeSet j = false) ∧
      (∀ j, (updateSafeSet W 10 ⟨true, 1, 1⟩ used ()).1.safeSet j = true) ∧
      ∀ j, ¬ W.decrease () () j < W.threshold () j 3 := by
  refine ⟨tauWorld, tableWorld_sort _ _ _, ?_⟩
  decide +kernel

/-- Changing `adaptive` after the first call makes every later call raise `ValueError`. -/
theorem C29_adaptive_change_raises (W : World K Prog Θ n) (s : Lyap K Prog n)
    (hs : ∀ G, s.graph = some G → G.adaptive = s.adaptive)
    (batch₁ batch₂ : ℕ) (args₁ args₂ : UpdateArgs K) (θ₁ θ₂ : Θ) :
    let s' := (updateSafeSet W batch₁ args₁ s θ₁).1
    (updateSafeSet W batch₂ args₂ { s' with adaptive := !s'.adaptive } θ₂).2 = .error .valueError := by
  intro s'
  obtain ⟨-, -, h3, -, -, h6, -⟩ := update_fields W batch₁ args₁ s θ₁
  have hG : (s.graphFor args₁.safetyFactor).adaptive = s.adaptive := by
    unfold graphFor
    cases h : s.graph with
    | none => rfl
    | some G => exact hs G h
  have h1 : graphFor { s' with adaptive := !s'.adaptive } args₂.safetyFactor =
      s.graphFor args₁.safetyFactor := by
    change (match s'.graph with | some G => G | none => _) = _
    rw [h6]
  unfold updateSafeSet
  simp only [h1]
  rw [if_pos]
  rw [hG]
  rw [h3]
  cases s.adaptive <;> decide

/-- **C29** (partial: no attribute is reassigned and no adaptive refinement). After any history of
method calls with any arguments, a call of `update_safe_set(can_shrink=True)` gives the same safe
set, refinement and `c_max` as on a new object with the same attributes, provided the values are up
to date. So the history has no influence and the current arguments decide. Missing: reassigned
attributes and, in the adaptive case, the argument `safety_factor`. -/
theorem C29_arguments_take_effect_partial (W : World K Prog Θ n) (hW : W.SortContract) (hn : 0 < n)
    (prog : Prog) (tau : K) (initial : Option (Fin n → Bool)) (adaptive : Bool) (θ₀ : Θ)
    (history : List (Op K Prog Θ)) (hh : ∀ op ∈ history, op.IsMethod)
    (batch : ℕ) (hb : 0 < batch) (args : UpdateArgs K) (hc : args.canShrink = true) (θ : Θ)
    (hna : ¬(adaptive = true ∧ 1 < args.maxRefinement)) :
    let s := run W (new W prog tau initial adaptive θ₀) history
    let r := updateSafeSet W batch args s θ
    let r' := updateSafeSet W batch args (new W prog tau initial adaptive θ) θ
    s.values = W.lyapunov θ →
    r.1.safeSet = r'.1.safeSet ∧ r.1.refinement = r'.1.refinement ∧ r.1.cMax = r'.1.cMax := by
  intro s r r' hv
  exact call_congr W hW hn s _
    (consistent_run W _ history hh (consistent_new W prog tau initial adaptive θ₀))
    (consistent_new W prog tau initial adaptive θ) batch hb args hc θ hna hv

example := C29_arguments_take_effect_partial (levelWorld exampleDec) (tableWorld_sort _ _ _)
  (by decide) () 1 (some ![true, false, false, false]) false () exampleHistory exampleHistory_methods
  2 (by decide) ⟨true, 1, 1⟩ rfl () (by simp) (by decide +kernel)

example := C29_adaptive_change_raises (levelWorld exampleDec) (new (levelWorld exampleDec) () 1 none
  false ()) (fun G h => by cases h) 2 2 ⟨true, 1, 1⟩ ⟨true, 1, 1⟩ () ()

/-! ## C30 -/

/-- **C30** `is_safe(x)` of a state `x` of the right dimension succeeds and is the entry of the safe
set at the index of a closest grid point `p`: in every dimension no point of the axis is closer. -/
theorem C30_is_safe_nearest {d : ℕ} (g : GridWorld K d) (h2 : ∀ i, 2 ≤ g.num i)
    (hlt : ∀ i, g.lo i < g.hi i) (s : Lyap K Prog g.nindex) (x : Fin d → K) :
    ∃ (k : ℕ) (hk : k < g.nindex) (p : Fin d → K), g.indexToState k = .ok p ∧
      Spec.IsGridPoint g.lo g.hi g.num k p ∧
      (∀ i j, j < g.num i → |x i - p i| ≤ |x i - Spec.axisPoint (g.lo i) (g.hi i) (g.num i) j|) ∧
      isSafe g s (List.ofFn x) = .ok (s.safeSet ⟨k, hk⟩) := by
  obtain ⟨k, p, h1, h3, h4, h5, h6, -⟩ := GridWorld.C02_state_to_index_nearest g h2 hlt x
  refine ⟨k, h3, p, h4, h5, h6, ?_⟩
  have h3' : k < g.nindex := h3
  unfold isSafe
  rw [h1]
  simp only [bind, Except.bind, dif_pos h3']

/-- **C30** a grid point is safe exactly if its entry of the safe set is true. -/
theorem C30_is_safe_grid_point {d : ℕ} (g : GridWorld K d) (h2 : ∀ i, 2 ≤ g.num i)
    (hlt : ∀ i, g.lo i < g.hi i) (s : Lyap K Prog g.nindex) (k : ℕ) (hk : k < g.nindex)
    (p : Fin d → K) (hp : Spec.IsGridPoint g.lo g.hi g.num k p) :
    isSafe g s (List.ofFn p) = .ok (s.safeSet ⟨k, hk⟩) := by
  have h1 := GridWorld.C01_index_roundtrip_robust g h2 hlt k p p hp (by
    intro i
    have h3 : (0 : K) < g.hi i - g.lo i := by linarith [hlt i]
    have h4 : (1 : K) < g.num i := by exact_mod_cast h2 i
    have h5 : (0 : K) < (g.num i : K) - 1 := by linarith
    rw [sub_self, abs_zero]
    positivity)
  unfold isSafe
  rw [h1]
  simp only [bind, Except.bind, dif_pos hk]

example := C30_is_safe_nearest GridWorld.exampleGrid GridWorld.exampleGrid_two_le
  GridWorld.exampleGrid_lt (Lyap.mk () 0 false none (fun k => decide (k.val = 4)) (fun _ => 0)
    (fun _ => 0) 0 none : Lyap ℚ Unit _) ![1/5, 3]

end Lyap

end SafeLearning
