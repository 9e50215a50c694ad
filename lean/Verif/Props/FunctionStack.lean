import Verif.Props.GaussianProcess
import Verif.Props.Inputs
set_option autoImplicit false

/-!
# C52: FunctionStack
-/

namespace SafeLearning

open Spec

/-- **C52 (evaluation).** If every function returns means and errors with one row per point, then row `r` of the stacked means consists of
the rows `r` of the means of the functions, in the order of the functions, and the same holds for the errors. -/
theorem C52_evaluate (funs : List UncertainEval) (hne : funs ≠ []) (points : List (List ℝ))
    (outs : List (List (List ℝ) × List (List ℝ)))
    (h : funs.map (fun f => f points) = outs.map Except.ok)
    (hrows : ∀ r ∈ outs, r.1.length = points.length ∧ r.2.length = points.length) :
    stackEvaluate funs points =
      .ok (joinColumns points.length (outs.map Prod.fst), joinColumns points.length (outs.map Prod.snd)) := by
  have hm : funs.mapM (fun f => f points) = .ok outs := by
    clear hne hrows
    induction funs generalizing outs with
    | nil => cases outs with
      | nil => rfl
      | cons => simp at h
    | cons f fs ih =>
      cases outs with
      | nil => simp at h
      | cons r rs =>
        simp only [List.map_cons, List.cons.injEq] at h
        rw [List.mapM_cons, h.1, ih rs h.2]
        rfl
  have hne' : outs ≠ [] := by
    rintro rfl
    simp at h
    exact hne h
  unfold stackEvaluate
  rw [hm]
  simp only [bind, Except.bind]
  rw [hstack_eq points.length (outs.map Prod.fst) (by simpa using hne') (by
      intro m hm'
      obtain ⟨r, hr, rfl⟩ := List.mem_map.mp hm'
      exact (hrows r hr).1),
    hstack_eq points.length (outs.map Prod.snd) (by simpa using hne') (by
      intro m hm'
      obtain ⟨r, hr, rfl⟩ := List.mem_map.mp hm'
      exact (hrows r hr).2)]
  rfl

/-- **C52 (errors).** If some function fails then so does the stack. -/
theorem C52_evaluate_fails (funs : List UncertainEval) (points : List (List ℝ)) (f : UncertainEval)
    (hf : f ∈ funs) (e : PyErr) (he : f points = .error e) : ∃ e', stackEvaluate funs points = .error e' := by
  have : ∃ e', funs.mapM (fun f => f points) = .error e' := by
    induction funs with
    | nil => simp at hf
    | cons g gs ih =>
      rw [List.mapM_cons]
      cases hg : g points with
      | error e' => exact ⟨e', rfl⟩
      | ok r =>
        rcases List.mem_cons.mp hf with rfl | hf
        · rw [he] at hg; simp at hg
        · obtain ⟨e', h⟩ := ih hf
          rw [h]
          exact ⟨e', rfl⟩
  obtain ⟨e', h⟩ := this
  exact ⟨e', by unfold stackEvaluate; rw [h]; rfl⟩

example : stackEvaluate [fun pts => .ok (pts.map fun _ => [1], pts.map fun _ => [10]),
      fun pts => .ok (pts.map fun _ => [2], pts.map fun _ => [20]),
      fun pts => .ok (pts.map fun _ => [3], pts.map fun _ => [30])] [[0], [1]] =
    .ok ([[1, 2, 3], [1, 2, 3]], [[10, 20, 30], [10, 20, 30]]) := by
  have := C52_evaluate [fun pts => .ok (pts.map fun _ => [1], pts.map fun _ => [10]),
      fun pts => .ok (pts.map fun _ => [2], pts.map fun _ => [20]),
      fun pts => .ok (pts.map fun _ => [3], pts.map fun _ => [30])] (by simp) [[0], [1]]
    [([[1], [1]], [[10], [10]]), ([[2], [2]], [[20], [20]]), ([[3], [3]], [[30], [30]])] (by simp) (by simp)
  simpa [joinColumns, List.range_succ] using this

/-! ## add_data_point -/

/-- The full property for `add_data_point(x, y)` of a stack: it returns, and the `i`-th function has been given the points `x` with column `i` of `y`. -/
def _root_.Spec.TrainsSeparately (fs : List (GPModel 1 × GPState 1)) (x y : List (List ℝ))
    (result : List (GPState 1) × Except PyErr Unit) : Prop :=
  result.2 = .ok () ∧ result.1.length = fs.length ∧
  ∀ (i : ℕ) (f : GPModel 1 × GPState 1) (s' : GPState 1), fs[i]? = some f → result.1[i]? = some s' →
    f.1.addDataPoint f.2 (.matrix x) (.matrix (y.map fun r => [r.getD i 0])) = (s', .ok ())

theorem addDataPoint_rows {o : ℕ} (gp : GPModel o) (s : GPState o) {x y x' y' : Arr ℝ} (hx : x.rows = x'.rows)
    (hy : y.rows = y'.rows) : gp.addDataPoint s x y = gp.addDataPoint s x' y' := by
  unfold GPModel.addDataPoint
  rw [hx, hy]

theorem stackAddLoop_ok (x : List (List ℝ)) : ∀ (fs : List (GPModel 1 × GPState 1)) (r : List ℝ),
    r.length = fs.length →
    (∀ (i : ℕ) (f : GPModel 1 × GPState 1), fs[i]? = some f →
      (f.1.addDataPoint f.2 (.matrix x) (.matrix [[r.getD i 0]])).2 = .ok ()) →
    (stackAddLoop (.matrix x) fs (r.map .scalar)).2 = .ok () ∧
    (stackAddLoop (.matrix x) fs (r.map .scalar)).1.length = fs.length ∧
    ∀ (i : ℕ) (f : GPModel 1 × GPState 1) (s' : GPState 1), fs[i]? = some f →
      (stackAddLoop (.matrix x) fs (r.map .scalar)).1[i]? = some s' →
      f.1.addDataPoint f.2 (.matrix x) (.matrix [[r.getD i 0]]) = (s', .ok ())
  | [], r, _, _ => by
    refine ⟨rfl, rfl, fun i f s' h => by simp at h⟩
  | (gp, s) :: fs, [], h, _ => by simp at h
  | (gp, s) :: fs, a :: r, hl, h => by
    have h0 := h 0 (gp, s) rfl
    simp only [List.getD_cons_zero] at h0
    have hrow : gp.addDataPoint s (.matrix x) (.scalar a) = gp.addDataPoint s (.matrix x) (.matrix [[a]]) :=
      addDataPoint_rows gp s rfl rfl
    obtain ⟨ih1, ih2, ih3⟩ := stackAddLoop_ok x fs r (by simpa using hl) fun i f hf => by
      have := h (i + 1) f (by simpa using hf)
      simpa using this
    rw [← hrow] at h0
    have hstep : stackAddLoop (.matrix x) ((gp, s) :: fs) ((a :: r).map .scalar) =
        ((gp.addDataPoint s (.matrix x) (.scalar a)).1 :: (stackAddLoop (.matrix x) fs (r.map .scalar)).1,
          (stackAddLoop (.matrix x) fs (r.map .scalar)).2) := by
      rw [List.map_cons, stackAddLoop]
      split
      · rename_i s' e he
        rw [he] at h0
        simp at h0
      · rename_i s' he
        rw [he]
    rw [hstep]
    refine ⟨ih1, by simpa using ih2, ?_⟩
    intro i f s' hf hs'
    cases i with
    | zero =>
      simp only [List.getElem?_cons_zero, Option.some.injEq] at hf hs'
      subst hf hs'
      dsimp only
      rw [List.getD_cons_zero, ← hrow, ← h0]
    | succ i =>
      simp only [List.getElem?_cons_succ] at hf hs'
      have := ih3 i f s' hf hs'
      simpa using this

/-- **C52 (add_data_point), partial.** With at least two functions and one row of measurements, the `i`-th function is given the new point with the
`i`-th measurement, if each function accepts it. Missing: one function, and several rows, for which the call raises
(`C52_single_refuted`, `C52_rows_refuted`). -/
theorem C52_add_data_point_partial (fs : List (GPModel 1 × GPState 1)) (h2 : 2 ≤ fs.length)
    (x : List (List ℝ)) (r : List ℝ) (hr : r.length = fs.length)
    (hacc : ∀ (i : ℕ) (f : GPModel 1 × GPState 1), fs[i]? = some f →
      (f.1.addDataPoint f.2 (.matrix x) (.matrix [[r.getD i 0]])).2 = .ok ()) :
    TrainsSeparately fs x [r] (stackAddDataPoint fs (.matrix x) [r]) := by
  have hs : squeezeItems [r] = .ok (r.map .scalar) := by
    match r, hr with
    | [], _ => rfl
    | [a], hr => simp at hr; omega
    | a :: b :: r, _ => rfl
  unfold stackAddDataPoint
  rw [hs]
  exact stackAddLoop_ok x fs r hr hacc

/-- **C52 (one function), refuted.** A stack of one function never accepts a measurement: `y.squeeze()` is not iterable. -/
theorem C52_single_refuted (gp : GPModel 1) (s : GPState 1) (x : List (List ℝ)) (v : ℝ) :
    stackAddDataPoint [(gp, s)] (.matrix x) [[v]] = ([s], .error .typeError) ∧
    ¬ TrainsSeparately [(gp, s)] x [[v]] (stackAddDataPoint [(gp, s)] (.matrix x) [[v]]) := by
  have h : stackAddDataPoint [(gp, s)] (.matrix x) [[v]] = ([s], .error .typeError) := rfl
  refine ⟨h, fun ht => ?_⟩
  have := ht.1
  rw [h] at this
  simp at this

/-- **C52 (a column).** A column of measurements is treated like a row: `y.squeeze()` does not distinguish several measurements of one function from one measurement of several functions. -/
theorem C52_column (fs : List (GPModel 1 × GPState 1)) (x : Arr ℝ) (c : List ℝ) (h : c ≠ []) :
    stackAddDataPoint fs x (c.map fun v => [v]) = stackAddDataPoint fs x [c] := by
  have hs : squeezeItems (c.map fun v => [v]) = squeezeItems [c] := by
    match c, h with
    | [a], _ => rfl
    | a :: b :: c, _ =>
      have h1 : squeezeItems [a :: b :: c] = .ok ((a :: b :: c).map .scalar) := rfl
      rw [h1]
      simp [squeezeItems]
  unfold stackAddDataPoint
  rw [hs]

/-- **C52 (several rows), refuted.** Two or more rows of two or more measurements always raise, although the docstring asks for one
measurement per row; the first function has then lost its consistency: it has got the new points, but no measurements. -/
theorem C52_rows_refuted (gp : GPModel 1) (s : GPState 1) (fs : List (GPModel 1 × GPState 1))
    (x : List (List ℝ)) (hx : ∀ r ∈ x, r.length = gp.xdim) (y₁ y₂ : List ℝ) (ys : List (List ℝ))
    (h1 : 2 ≤ y₁.length) :
    ∃ states, stackAddDataPoint ((gp, s) :: fs) (.matrix x) (y₁ :: y₂ :: ys) = (states, .error .valueError) ∧
      (∃ s', states.head? = some s' ∧ s'.data.X = s.data.X ++ x ∧ s'.data.Y = s.data.Y) ∧
      ¬ TrainsSeparately ((gp, s) :: fs) x (y₁ :: y₂ :: ys)
        (stackAddDataPoint ((gp, s) :: fs) (.matrix x) (y₁ :: y₂ :: ys)) := by
  have hs : squeezeItems (y₁ :: y₂ :: ys) = .ok ((y₁ :: y₂ :: ys).map .vector) := by
    rw [squeezeItems]
    · rw [if_neg]
      intro h
      have := h y₁ List.mem_cons_self
      omega
    · simp
    · simp
  have hadd : gp.addDataPoint s (.matrix x) (.vector y₁) =
      ({ s with data := { s.data with X := s.data.X ++ x } }, .error .valueError) := by
    unfold GPModel.addDataPoint vstack
    have e1 : (Arr.matrix x).rows = x := rfl
    have e2 : (Arr.vector y₁).rows = [y₁] := rfl
    rw [e1, e2, if_pos hx]
    dsimp only
    rw [if_neg (by simp; omega)]
  have hcall : stackAddDataPoint ((gp, s) :: fs) (.matrix x) (y₁ :: y₂ :: ys) =
      ({ s with data := { s.data with X := s.data.X ++ x } } :: fs.map Prod.snd, .error .valueError) := by
    unfold stackAddDataPoint
    rw [hs]
    dsimp only
    rw [List.map_cons, stackAddLoop, hadd]
  refine ⟨_, hcall, ⟨_, rfl, rfl, rfl⟩, fun ht => ?_⟩
  have := ht.1
  rw [hcall] at this
  simp at this

/-- **C52 (parameters), refuted.** The parameters of a stack (which has at least one function) cannot be read: adding a list to 0 raises. -/
theorem C52_parameters_refuted {α : Type} (p : List α) (ps : List (List α)) :
    stackParameters (p :: ps) = .error .typeError ∧
    stackParameters (p :: ps) ≠ .ok (.list (p :: ps).flatten) := by
  have : stackParameters (p :: ps) = .error .typeError := rfl
  exact ⟨this, by rw [this]; simp⟩

/-- **C52 (parameters).** The parameters of a stack of no functions are the number 0, not a list. -/
theorem C52_parameters_empty {α : Type} : stackParameters ([] : List (List α)) = .ok (.int 0) := rfl

example : ∃ s, exampleGP.init [[1]] [[5]] = .ok s ∧
    TrainsSeparately [(exampleGP, s), (exampleGP, s)] [[2]] [[7, 8]]
      (stackAddDataPoint [(exampleGP, s), (exampleGP, s)] (.matrix [[2]]) [[7, 8]]) := by
  have hn : (0 : ℝ) < exampleGP.noise := by norm_num [exampleGP]
  have hsc : exampleGP.scale ≠ 0 := by norm_num [exampleGP]
  obtain ⟨s, hs⟩ := C53_defined exampleGP linearKernel_isKernel hn hsc [[1]] [[5]] rfl
  have key : ∀ v : ℝ, (exampleGP.addDataPoint s (.matrix [[2]]) (.matrix [[v]])).2 = .ok () := by
    intro v
    obtain ⟨t, ht⟩ := C54_accepts exampleGP linearKernel_isKernel hn hsc [[1]] [[5]] rfl s hs
      [(.matrix [[2]], .matrix [[v]])] (by simp [Arr.rows, exampleGP])
    unfold addHistory at ht
    split at ht
    · rename_i s' h; rw [h]
    · simp at ht
  refine ⟨s, hs, C52_add_data_point_partial _ (by simp) _ _ (by simp) fun i f hf => ?_⟩
  match i, hf with
  | 0, hf => simp at hf; subst hf; exact key _
  | 1, hf => simp at hf; subst hf; exact key _
  | i + 2, hf => simp at hf

end SafeLearning
