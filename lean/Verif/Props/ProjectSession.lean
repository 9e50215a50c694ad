import Verif.Model.ProjectSession
import Verif.Props.PolicySession
set_option autoImplicit false

/-!
# C95: the attribute `project` of a triangulation
-/

namespace SafeLearning

open Spec

variable {K : Type} [Field K] [LinearOrder K] [IsStrictOrderedRing K] [FloorRing K] {d o : ℕ}

/-- The value of `f.project` after a program: the last value assigned to it, or the one of the constructor. -/
def _root_.Spec.lastProject (initial : Bool) (cs : List ProjectCommand) : Bool :=
  cs.foldl (fun p c => match c with | .set v => v | _ => p) initial

/-- A user reads the documentation "whether to project points onto the limits" as follows. Every tensor that was made by
calling `f` or its saturation has the values of a triangulation constructed with the value that `f.project` has when
the tensor is evaluated. -/
def _root_.Spec.TensorsFollowProject (g : GridWorld K d) (D : Delaunay K d) (eps : K) (initial : Bool)
    (cs : List ProjectCommand) (lastValue : Bool) : Prop :=
  ∀ s t, ProjectSession.new g D initial = .ok s → Tri.new g D lastValue = .ok t →
    ∀ (k : ℕ) (q : ProjectTensor), (s.run cs).tensors[k]? = some q →
    ∀ (params : List (Fin 1 → K)) (lower upper : Fin 1 → K) (x : Fin d → K),
      (s.run cs).evalTensor eps params lower upper k x =
        if q.saturated then t.saturatedEvaluate eps params lower upper x else t.tfEvaluate eps params x

theorem triNew_set {g : GridWorld K d} {D : Delaunay K d} {p : Bool} {t : Tri K d}
    (h : Tri.new g D p = .ok t) (q : Bool) : Tri.new g D q = .ok { t with project := q } ∧ t.project = p := by
  unfold Tri.new at h ⊢
  cases h1 : indexMapping g with
  | error e => simp only [h1, bind, Except.bind] at h; cases h
  | ok mp =>
    simp only [h1, bind, Except.bind] at h ⊢
    split at h
    · cases h
    · rename_i hyper hh
      cases h
      exact ⟨rfl, rfl⟩

/-- The state after a program. -/
theorem projectSession_inv {g : GridWorld K d} {D : Delaunay K d} {p0 : Bool} {s0 : ProjectSession K d}
    (h : ProjectSession.new g D p0 = .ok s0) (cs : List ProjectCommand) :
    Tri.new g D (Spec.lastProject p0 cs) = .ok (s0.run cs).tri ∧
      (s0.run cs).project = Spec.lastProject p0 cs := by
  have h0 : Tri.new g D p0 = .ok s0.tri := by
    unfold ProjectSession.new at h
    cases ht : Tri.new g D p0 with
    | error e => simp only [ht, bind, Except.bind] at h; cases h
    | ok t => simp only [ht, bind, Except.bind] at h; cases h; rfl
  have key : ∀ (cs : List ProjectCommand) (s : ProjectSession K d) (p : Bool), Tri.new g D p = .ok s.tri →
      Tri.new g D (Spec.lastProject p cs) = .ok (s.run cs).tri := by
    intro cs
    induction cs with
    | nil => intro s p hs; exact hs
    | cons c cs ih =>
      intro s p hs
      cases c with
      | set v => exact ih (s.step (.set v)) v (triNew_set hs v).1
      | setSaturation v => exact ih (s.step (.setSaturation v)) p hs
      | call => exact ih (s.step .call) p hs
      | callSaturation => exact ih (s.step .callSaturation) p hs
  have h1 := key cs s0 p0 h0
  exact ⟨h1, (triNew_set h1 true).2⟩

theorem projectSession_run_append (s : ProjectSession K d) (cs cs' : List ProjectCommand) :
    s.run (cs ++ cs') = (s.run cs).run cs' := List.foldl_append ..

/-- **C95 (new calls).** After any program, a call of the triangulation or of its saturation gives a tensor with the values of a
triangulation that was constructed with the last assigned value of `project`, and `f.project` returns that value. Missing:
tensors made before the assignment (`C95_earlier_tensor_refuted`), assignments to the saturation (`C95_saturation_refuted`). -/
theorem C95_new_call_partial {g : GridWorld K d} {D : Delaunay K d} {eps : K} {p0 : Bool} {s0 : ProjectSession K d}
    (h : ProjectSession.new g D p0 = .ok s0) (cs : List ProjectCommand) :
    (s0.run cs).project = Spec.lastProject p0 cs ∧
    ∃ t, Tri.new g D (Spec.lastProject p0 cs) = .ok t ∧
      ∀ (params : List (Fin o → K)) (lower upper : Fin o → K) (x : Fin d → K),
        ((s0.run cs).step .call).evalTensor eps params lower upper (s0.run cs).tensors.length x =
          t.tfEvaluate eps params x ∧
        ((s0.run cs).step .callSaturation).evalTensor eps params lower upper (s0.run cs).tensors.length x =
          t.saturatedEvaluate eps params lower upper x := by
  obtain ⟨h1, h2⟩ := projectSession_inv h cs
  refine ⟨h2, _, h1, fun params lower upper x => ?_⟩
  constructor <;> simp [ProjectSession.step, ProjectSession.evalTensor]

/-- **C95 (existing tensors).** Nothing that happens later changes the value of a tensor: its values are those of a triangulation
constructed with the value of `project` at the time of the call. -/
theorem C95_existing_tensor_partial {g : GridWorld K d} {D : Delaunay K d} {eps : K} {p0 : Bool}
    {s0 : ProjectSession K d} (h : ProjectSession.new g D p0 = .ok s0) (before after : List ProjectCommand)
    (saturated : Bool) :
    ∃ t, Tri.new g D (Spec.lastProject p0 before) = .ok t ∧
      ∀ (params : List (Fin o → K)) (lower upper : Fin o → K) (x : Fin d → K),
        (s0.run (before ++ (if saturated then ProjectCommand.callSaturation else .call) :: after)).evalTensor eps params
          lower upper (s0.run before).tensors.length x =
        if saturated then t.saturatedEvaluate eps params lower upper x else t.tfEvaluate eps params x := by
  obtain ⟨h1, h2⟩ := projectSession_inv h before
  refine ⟨_, h1, fun params lower upper x => ?_⟩
  have hlast : (s0.run before).tri.project = Spec.lastProject p0 before := h2
  set c := (if saturated then ProjectCommand.callSaturation else .call) with hc
  have hrun : s0.run (before ++ c :: after) = ((s0.run before).step c).run after := by
    rw [projectSession_run_append]
    rfl
  have hstep : ((s0.run before).step c).tensors = (s0.run before).tensors ++ [⟨(s0.run before).tri.project, saturated⟩] ∧
      ((s0.run before).step c).tri = (s0.run before).tri := by
    rw [hc]
    cases saturated <;> exact ⟨rfl, rfl⟩
  have key : ∀ (cs : List ProjectCommand) (s : ProjectSession K d) (k : ℕ) (q : ProjectTensor), s.tensors[k]? = some q →
      (s.run cs).tensors[k]? = some q ∧
        ∀ p, ({ (s.run cs).tri with project := p } : Tri K d) = { s.tri with project := p } := by
    intro cs
    induction cs with
    | nil => intro s k q hq; exact ⟨hq, fun p => rfl⟩
    | cons c cs ih =>
      intro s k q hq
      have hs : (s.step c).tensors[k]? = some q ∧
          ∀ p, ({ (s.step c).tri with project := p } : Tri K d) = { s.tri with project := p } := by
        have hlt := (List.getElem?_eq_some_iff.mp hq).1
        cases c with
        | set v => exact ⟨hq, fun p => rfl⟩
        | setSaturation v => exact ⟨hq, fun p => rfl⟩
        | call => exact ⟨by simp only [ProjectSession.step]; rw [List.getElem?_append_left hlt]; exact hq, fun p => rfl⟩
        | callSaturation =>
          exact ⟨by simp only [ProjectSession.step]; rw [List.getElem?_append_left hlt]; exact hq, fun p => rfl⟩
      obtain ⟨e1, e2⟩ := ih (s.step c) k q hs.1
      exact ⟨e1, fun p => (e2 p).trans (hs.2 p)⟩
  obtain ⟨k1, k2⟩ := key after ((s0.run before).step c) (s0.run before).tensors.length
    ⟨(s0.run before).tri.project, saturated⟩ (by rw [hstep.1]; simp)
  rw [hrun]
  unfold ProjectSession.evalTensor
  rw [k1]
  simp only [k2, hstep.2]

/-! ## The line -/

/-- The parameters of the identity on the grid of three points. -/
def identityParams : List (Fin 1 → ℚ) := [![0], ![1], ![2]]

theorem line_identity {project : Bool} {t : Tri ℚ 1}
    (ht : Tri.new lineGrid (delaunay1D 0 (lineGrid.unit 0)) project = .ok t) (x : Fin 1 → ℚ) :
    t.tfEvaluate (1 / 1000) identityParams x =
      .ok fun _ => (if project then Spec.clipBox lineGrid.lo lineGrid.hi x else x) 0 := by
  rw [C17_tf_agrees]
  have := C10_affine_exact lineSetup ht (fun _ _ => 1) (fun _ => 0) identityParams (by decide +kernel)
    (fun k p hp => by
      obtain ⟨m, hm, rfl, hx⟩ := hp
      have h3 : m 0 < 3 := hm 0
      have hp0 : p 0 = (m 0 : ℚ) := by rw [hx 0]; simp [lineGrid, axisPoint]; norm_num
      have hr : Spec.rowMajor lineGrid.num m = m 0 := by simp [Spec.rowMajor]
      rw [hr]
      simp only [Fin.sum_univ_one, hp0]
      generalize m 0 = n at *
      interval_cases n <;> simp [identityParams] <;> funext i <;> fin_cases i <;> simp) x
  simpa using this

theorem lineSession (project : Bool) : ∃ t,
    Tri.new lineGrid (delaunay1D 0 (lineGrid.unit 0)) project = .ok t ∧
    ProjectSession.new lineGrid (delaunay1D 0 (lineGrid.unit 0)) project = .ok ⟨t, project, []⟩ := by
  obtain ⟨t, ht⟩ := C09_construction lineSetup project
  refine ⟨t, ht, ?_⟩
  unfold ProjectSession.new
  simp only [ht, bind, Except.bind, (triNew_set ht true).2]
  rfl

/-- **C95 refuted** for tensors that exist already: `f.project = True` after the call does not change the tensor. -/
theorem C95_earlier_tensor_refuted :
    ¬ Spec.TensorsFollowProject lineGrid (delaunay1D 0 (lineGrid.unit 0)) (1 / 1000) false [.call, .set true] true := by
  intro h
  obtain ⟨t, ht, hs⟩ := lineSession false
  have ht' := (triNew_set ht true).1
  have h1 := h _ _ hs ht' 0 ⟨false, false⟩ (by
    simp [ProjectSession.run, ProjectSession.step, (triNew_set ht true).2]) identityParams 0 0 ![3]
  have h2 : t.tfEvaluate (1 / 1000) identityParams ![3] =
      ({ t with project := true } : Tri ℚ 1).tfEvaluate (1 / 1000) identityParams ![3] := by
    have hp : t.project = false := (triNew_set ht true).2
    have : ({ t with project := false } : Tri ℚ 1) = t := by rw [← hp]
    simpa [ProjectSession.run, ProjectSession.step, ProjectSession.evalTensor, hp, this] using h1
  rw [line_identity ht, line_identity ht'] at h2
  have := congrFun (Except.ok.inj h2) 0
  revert this
  decide +kernel

/-- **C95 refuted** for the saturation: `s.project = True` is accepted, `s.project` returns it, and a call of `s` afterwards does
not project. -/
theorem C95_saturation_refuted :
    ¬ Spec.TensorsFollowProject lineGrid (delaunay1D 0 (lineGrid.unit 0)) (1 / 1000) false
      [.setSaturation true, .callSaturation] true := by
  intro h
  obtain ⟨t, ht, hs⟩ := lineSession false
  have ht' := (triNew_set ht true).1
  have hp : t.project = false := (triNew_set ht true).2
  have h1 := h _ _ hs ht' 0 ⟨false, true⟩ (by
    simp [ProjectSession.run, ProjectSession.step, hp]) identityParams ![0] ![10] ![3]
  have h2 : t.saturatedEvaluate (1 / 1000) identityParams ![0] ![10] ![3] =
      ({ t with project := true } : Tri ℚ 1).saturatedEvaluate (1 / 1000) identityParams ![0] ![10] ![3] := by
    have : ({ t with project := false } : Tri ℚ 1) = t := by rw [← hp]
    simpa [ProjectSession.run, ProjectSession.step, ProjectSession.evalTensor, hp, this] using h1
  unfold Tri.saturatedEvaluate at h2
  rw [line_identity ht, line_identity ht'] at h2
  have := congrFun (Except.ok.inj h2) 0
  revert this
  decide +kernel

/-- C95 for a concrete program: after switching the projection on and off, the tensors of the calls extrapolate, project and extrapolate. -/
example : ∃ s, ProjectSession.new lineGrid (delaunay1D 0 (lineGrid.unit 0)) false = .ok s ∧
    (s.run [.call, .set true, .callSaturation, .set false, .call]).project = false ∧
    ∀ k, (s.run [.call, .set true, .callSaturation, .set false, .call]).evalTensor (1 / 1000) identityParams
      ![0] ![10] k ![3] = if k = 0 ∨ k = 2 then .ok ![3] else if k = 1 then .ok ![2] else .error .indexError := by
  obtain ⟨t, ht, hs⟩ := lineSession false
  have hp : t.project = false := (triNew_set ht true).2
  have e0 : t.tfEvaluate (1 / 1000) identityParams ![3] = .ok ![3] := by
    rw [line_identity ht]; congr 1; decide +kernel
  have e1 : ({ t with project := true } : Tri ℚ 1).tfEvaluate (1 / 1000) identityParams ![3] = .ok ![2] := by
    rw [line_identity (triNew_set ht true).1]; congr 1; decide +kernel
  have ht0 : ({ t with project := false } : Tri ℚ 1) = t := by rw [← hp]
  refine ⟨_, hs, rfl, fun k => ?_⟩
  match k with
  | 0 => exact e0
  | 1 =>
    show ({ t with project := true } : Tri ℚ 1).saturatedEvaluate (1 / 1000) identityParams ![0] ![10] ![3] = .ok ![2]
    unfold Tri.saturatedEvaluate
    rw [e1]
    show Except.ok _ = _
    congr 1
    decide +kernel
  | 2 =>
    show ({ t with project := false } : Tri ℚ 1).tfEvaluate (1 / 1000) identityParams ![3] = .ok ![3]
    rw [ht0, e0]
  | k + 3 => simp [ProjectSession.run, ProjectSession.step, ProjectSession.evalTensor]

end SafeLearning
