import Verif.Model.Configuration
import Mathlib.Tactic.Common
set_option autoImplicit false

/-!
# Property C131: the floating point type can be configured
-/

namespace SafeLearning

/-! ## Specification -/

/-- What the attribute `config.dtype` is for: after any history, a user sets it to `t`, constructs an object (`make` are the steps, `index` tells where it is) and evaluates
it on tensors of type `t`; the values are of type `t`. -/
def _root_.Spec.FollowsConfiguration (make : ConfigSession → List ConfigStep)
    (evaluate : ConfigSession → ConfigSession → DType → Except TensorError DType) : Prop :=
  ∀ (history : List ConfigStep) (t : DType),
    let s := (ConfigSession.start.run history).step (.setDType t)
    evaluate s (s.run (make s)) t = .ok t

namespace ConfigSession

/-! ## Objects keep their types -/

theorem run_append (s : ConfigSession) (a b : List ConfigStep) : s.run (a ++ b) = (s.run a).run b :=
  List.foldl_append ..

theorem step_keeps (s : ConfigSession) (c : ConfigStep) :
    (∀ (k : ℕ) t, s.matrices[k]? = some t → (s.step c).matrices[k]? = some t) ∧
    (∀ (k : ℕ) t, s.triangulations[k]? = some t → (s.step c).triangulations[k]? = some t) ∧
    (∀ (k : ℕ) g, s.grids[k]? = some g → ∃ g', (s.step c).grids[k]? = some g' ∧ g'.dtype = g.dtype ∧
      ∀ t, g.allPoints = some t → g'.allPoints = some t) ∧
    ∀ (k : ℕ) t, s.networks[k]? = some (some t) → (s.step c).networks[k]? = some (some t) := by
  have app : ∀ {α : Type} (l : List α) (a : α) (k : ℕ) (t : α), l[k]? = some t → (l ++ [a])[k]? = some t := by
    intro α l a k t h
    rw [List.getElem?_append_left (List.getElem?_eq_some_iff.mp h).1]
    exact h
  have triv : ∀ (k : ℕ) g, s.grids[k]? = some g → ∃ g', s.grids[k]? = some g' ∧ g'.dtype = g.dtype ∧
      ∀ t, g.allPoints = some t → g'.allPoints = some t := fun k g h => ⟨g, h, rfl, fun _ h => h⟩
  cases c with
  | setDType t => exact ⟨fun _ _ h => h, fun _ _ h => h, triv, fun _ _ h => h⟩
  | makeGrid =>
    exact ⟨fun _ _ h => h, fun _ _ h => h, fun k g h => ⟨g, app _ _ k g h, rfl, fun _ h => h⟩, fun _ _ h => h⟩
  | makeTriangulation g p => exact ⟨fun _ _ h => h, fun k t h => app _ _ k t h, triv, fun _ _ h => h⟩
  | makeMatrix => exact ⟨fun k t h => app _ _ k t h, fun _ _ h => h, triv, fun _ _ h => h⟩
  | makeNetwork => exact ⟨fun _ _ h => h, fun _ _ h => h, triv, fun k t h => app _ _ k _ h⟩
  | readAllPoints i =>
    refine ⟨fun _ _ h => h, fun _ _ h => h, fun k g h => ?_, fun _ _ h => h⟩
    simp only [step, List.getElem?_modify, h, Option.map_eq_map, Option.map_some]
    by_cases hik : i = k
    · refine ⟨_, rfl, by simp [hik], fun t ht => by simp [hik, allPoints, ht]⟩
    · exact ⟨g, by simp [hik], rfl, fun _ h => h⟩
  | evaluateNetwork i p =>
    refine ⟨fun _ _ h => h, fun _ _ h => h, triv, fun k t h => ?_⟩
    simp only [step, List.getElem?_modify, h, Option.map_eq_map, Option.map_some]
    by_cases hik : i = k <;> simp [hik]

/-- Types of existing objects never change. -/
theorem run_keeps (c : List ConfigStep) : ∀ s : ConfigSession,
    (∀ (k : ℕ) t, s.matrices[k]? = some t → (s.run c).matrices[k]? = some t) ∧
    (∀ (k : ℕ) t, s.triangulations[k]? = some t → (s.run c).triangulations[k]? = some t) ∧
    (∀ (k : ℕ) g, s.grids[k]? = some g → ∃ g', (s.run c).grids[k]? = some g' ∧ g'.dtype = g.dtype ∧
      ∀ t, g.allPoints = some t → g'.allPoints = some t) ∧
    ∀ (k : ℕ) t, s.networks[k]? = some (some t) → (s.run c).networks[k]? = some (some t) := by
  induction c with
  | nil => exact fun s => ⟨fun _ _ h => h, fun _ _ h => h, fun k g h => ⟨g, h, rfl, fun _ h => h⟩, fun _ _ h => h⟩
  | cons a c ih =>
    intro s
    obtain ⟨h1, h2, h3, h4⟩ := step_keeps s a
    obtain ⟨i1, i2, i3, i4⟩ := ih (s.step a)
    refine ⟨fun k t h => i1 k t (h1 k t h), fun k t h => i2 k t (h2 k t h), fun k g h => ?_, fun k t h => i4 k t (h4 k t h)⟩
    obtain ⟨g', e1, e2, e3⟩ := h3 k g h
    obtain ⟨g'', f1, f2, f3⟩ := i3 k g' e1
    exact ⟨g'', f1, f2.trans e2, fun t ht => f3 t (e3 t ht)⟩

/-! ## C131 -/

/-- **C131, quadratic functions and linear systems.** They follow the configuration. -/
theorem C131_matrix : Spec.FollowsConfiguration (fun _ => [.makeMatrix])
    (fun before after t => after.evalMatrix before.matrices.length (.tensor t)) := by
  intro history t s
  simp [s, run, step, evalMatrix, PointsDT.dtype]

/-- **C131, quadratic functions and linear systems, later.** The type of a function is the one that was configured when it was constructed. Whatever is done afterwards,
arrays and tensors of this type are accepted, all others raise `TypeError`. -/
theorem C131_matrix_later (history later : List ConfigStep) (t : DType) (p : PointsDT) :
    let s := (start.run history).step (.setDType t)
    ((s.step .makeMatrix).run later).evalMatrix s.matrices.length p =
      if p = .tensor t ∨ p = .array t then .ok t else .error .typeError := by
  intro s
  have h := (run_keeps later (s.step .makeMatrix)).1 s.matrices.length t (by simp [s, step])
  unfold evalMatrix
  rw [h]
  cases p with
  | tensor q => by_cases h : q = t <;> simp [PointsDT.dtype, h]
  | array q => by_cases h : q = t <;> simp [PointsDT.dtype, h]

/-- **C131, refuted** for triangulations: they do not follow the configuration, also on a new grid. -/
theorem C131_triangulation_refuted (project : Bool) :
    ¬ Spec.FollowsConfiguration (fun s => [.makeGrid, .makeTriangulation s.grids.length project])
      (fun before after t => after.evalTriangulation before.triangulations.length (.tensor t)) := by
  intro h
  have := h [] .float32
  revert this
  cases project <;> decide

/-- **C131, refuted** for triangulations, for all histories: a triangulation that was constructed while `config.dtype` was `tf.float32` never evaluates, on
no tensor or array, on no grid and whatever is done later, not even after the type was set back. -/
theorem C131_triangulation_never_refuted (history later : List ConfigStep) (grid : ℕ) (project : Bool) (p : PointsDT) :
    let s := (start.run history).step (.setDType .float32)
    ∃ e, ((s.step (.makeTriangulation grid project)).run later).evalTriangulation s.triangulations.length p = .error e := by
  intro s
  have h := (run_keeps later (s.step (.makeTriangulation grid project))).2.1 s.triangulations.length
    ⟨grid, .float32, .float32, project⟩ (by simp [s, step])
  unfold evalTriangulation
  rw [h]
  simp only
  cases hg : ((s.step (.makeTriangulation grid project)).run later).grids[grid]? with
  | none => exact ⟨_, rfl⟩
  | some g =>
    simp only
    cases ho : offsetDType project p with
    | error e => exact ⟨e, rfl⟩
    | ok w =>
      have hw : w = .float64 := by
        unfold offsetDType decoratorDType initialDType at ho
        split at ho
        · cases ho; rfl
        · split at ho
          · cases ho; rfl
          · cases ho
      rw [hw]
      exact ⟨.valueError, by simp⟩

/-- **C131, triangulations** (partial: only the default type). A triangulation on a grid, both constructed while the default type was configured, evaluates on all tensors of this
type, and its gradient is defined. Arrays of the other type are accepted if points are not projected. All this holds whatever is done before, between and after the constructions. Missing: the other type, see
`C131_triangulation_refuted`. -/
theorem C131_triangulation_partial (history between later : List ConfigStep) (project : Bool) :
    let s₁ := (start.run history).step (.setDType .float64)
    let s₂ := ((s₁.step .makeGrid).run between).step (.setDType .float64)
    let s₃ := (s₂.step (.makeTriangulation s₁.grids.length project)).run later
    s₃.evalTriangulation s₂.triangulations.length (.tensor .float64) = .ok .float64 ∧
    s₃.evalTriangulation s₂.triangulations.length (.array .float64) = .ok .float64 ∧
    s₃.evalTriangulation s₂.triangulations.length (.array .float32) =
      (if project then .error .valueError else .ok .float64) ∧
    s₃.gradTriangulation s₂.triangulations.length = .ok .float64 := by
  intro s₁ s₂ s₃
  have ht := (run_keeps later (s₂.step (.makeTriangulation s₁.grids.length project))).2.1 s₂.triangulations.length
    ⟨s₁.grids.length, .float64, .float64, project⟩ (by simp [s₂, step])
  obtain ⟨g, hg, hgd, -⟩ := (run_keeps (between ++ [.setDType .float64, .makeTriangulation s₁.grids.length project] ++ later)
    (s₁.step .makeGrid)).2.2.1 s₁.grids.length ⟨.float64, none⟩ (by simp [s₁, step])
  have hs : (s₁.step .makeGrid).run (between ++ [.setDType .float64, .makeTriangulation s₁.grids.length project] ++ later) = s₃ := by
    rw [run_append, run_append]
    rfl
  rw [hs] at hg
  have hp : ∀ t : DType, t.promote .float64 = .float64 := fun t => by cases t <;> rfl
  refine ⟨?_, ?_, ?_, ?_⟩
  · unfold evalTriangulation
    rw [show s₃.triangulations[s₂.triangulations.length]? = _ from ht]
    simp only [hg, indexToState, hgd, hp]
    cases project <;> rfl
  · unfold evalTriangulation
    rw [show s₃.triangulations[s₂.triangulations.length]? = _ from ht]
    simp only [hg, indexToState, hgd, hp]
    cases project <;> rfl
  · unfold evalTriangulation
    rw [show s₃.triangulations[s₂.triangulations.length]? = _ from ht]
    simp only [hg, indexToState, hgd, hp]
    cases project <;> rfl
  · unfold gradTriangulation
    rw [show s₃.triangulations[s₂.triangulations.length]? = _ from ht]
    simp only [hp]
    decide

/-- **C131, refuted** for triangulations on a grid of the other type: whether the evaluation succeeds depends on the type that is configured when the graph is
run. The grid was constructed in single precision, the triangulation in double precision. -/
theorem C131_running_graph_refuted :
    let s := start.run [.setDType .float32, .makeGrid, .setDType .float64, .makeTriangulation 0 false]
    s.evalTriangulation 0 (.tensor .float64) = .ok .float64 ∧
    (s.step (.setDType .float32)).evalTriangulation 0 (.tensor .float64) = .error .invalidArgument := by decide

/-- **C131, `all_points`.** Its type is the one that was configured at the first access, whatever is done later. In particular the points of a grid that was constructed for one type can have the
other one. -/
theorem C131_all_points (history later : List ConfigStep) (t : DType) (k : ℕ) (g : GridDT)
    (hg : (start.run history).grids[k]? = some g) (hn : g.allPoints = none) :
    let s := (((start.run history).step (.setDType t)).step (.readAllPoints k)).run later
    ∃ g', s.grids[k]? = some g' ∧ s.allPoints g' = t ∧ g'.dtype = g.dtype := by
  intro s
  obtain ⟨g', h1, h2, h3⟩ := (run_keeps later (((start.run history).step (.setDType t)).step (.readAllPoints k))).2.2.1 k
    { g with allPoints := some t } (by simp [step, hg, allPoints, hn])
  exact ⟨g', h1, by unfold allPoints; rw [h3 t rfl], h2⟩

/-- **C131, neural networks.** The type of a network is the type of the points of its first evaluation; from then on points of the other type raise `ValueError`, and the
Lipschitz constant can be computed exactly while this type is configured. -/
theorem C131_network (history later : List ConfigStep) (p : DType) :
    let s := start.run history
    let s' := ((s.step .makeNetwork).step (.evaluateNetwork s.networks.length p)).run later
    s'.networks[s.networks.length]? = some (some p) ∧
    (∀ q, evalNetwork (some p) q = if q = p then .ok p else .error .valueError) ∧
    ∀ t, (s'.step (.setDType t)).networkLipschitz s.networks.length =
      if t = p then .ok p else .error .valueError := by
  intro s s'
  have h := (run_keeps later ((s.step .makeNetwork).step (.evaluateNetwork s.networks.length p))).2.2.2 s.networks.length p
    (by simp [step])
  refine ⟨h, fun q => by unfold evalNetwork; simp [eq_comm], fun t => ?_⟩
  unfold networkLipschitz
  rw [show (s'.step (.setDType t)).networks[s.networks.length]? = _ from h]
  rfl

/-- A session in which functions of both types are used. -/
example : let s := start.run [.setDType .float32, .makeMatrix, .setDType .float64, .makeMatrix, .makeGrid, .makeTriangulation 0 true]
    s.evalMatrix 0 (.tensor .float32) = .ok .float32 ∧ s.evalMatrix 1 (.array .float64) = .ok .float64 ∧
    s.evalMatrix 0 (.array .float64) = .error .typeError ∧ s.evalTriangulation 0 (.array .float64) = .ok .float64 ∧
    s.evalTriangulation 0 (.array .float32) = .error .valueError := by decide

end ConfigSession

end SafeLearning
