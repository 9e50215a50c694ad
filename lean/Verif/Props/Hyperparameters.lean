import Verif.Props.GaussianProcess
import Verif.Props.FunctionStack
set_option autoImplicit false

/-!
# C85, C86: changes of hyperparameters, and the mean function of a Gaussian process
-/

namespace SafeLearning

open Matrix Spec

variable {o : ℕ}

/-- What a user does with a Gaussian process between two evaluations. -/
inductive GPOp (o : ℕ) where
  | setHyperparameters (kern : List ℝ → List ℝ → ℝ) (mean : List ℝ → Fin o → ℝ) (noise : ℝ)
  | addDataPoint (x y : Arr ℝ)
  | updateFeedDict

/-- One operation; calls that raise end the history. -/
noncomputable def GPOp.run (s : GPSession o) : GPOp o → Except PyErr (GPSession o)
  | .setHyperparameters kern mean noise => .ok (s.setHyperparameters kern mean noise)
  | .addDataPoint x y =>
    match s.addDataPoint x y with
    | (t, .ok ()) => .ok t
    | (_, .error e) => .error e
  | .updateFeedDict => .ok s.updateFeedDict

/-- A history of operations that all return. -/
noncomputable def GPOp.runAll (s : GPSession o) : List (GPOp o) → Except PyErr (GPSession o)
  | [] => .ok s
  | op :: rest => do
    let t ← op.run s
    runAll t rest

/-- The inputs (first component) and measurements (second component) added by a history. -/
def GPOp.added (o : ℕ) : List (GPOp o) → List (List ℝ) × List (List ℝ)
  | [] => ([], [])
  | .addDataPoint x y :: rest => (x.rows ++ (added o rest).1, y.rows ++ (added o rest).2)
  | _ :: rest => added o rest

/-- The hyperparameters (kernel, mean function, noise variance) of the wrapped model after a history that starts with `h`. -/
def _root_.Spec.currentHyper (o : ℕ) (h : (List ℝ → List ℝ → ℝ) × (List ℝ → Fin o → ℝ) × ℝ) :
    List (GPOp o) → (List ℝ → List ℝ → ℝ) × (List ℝ → Fin o → ℝ) × ℝ
  | [] => h
  | .setHyperparameters k m n :: rest => currentHyper o (k, m, n) rest
  | _ :: rest => currentHyper o h rest

/-- The hyperparameters that were current when data were added for the last time (or at the construction): `fed` at the start of the history,
the hyperparameters of the model being `h`. -/
def _root_.Spec.hyperAtLastUpdate (o : ℕ) (h fed : (List ℝ → List ℝ → ℝ) × (List ℝ → Fin o → ℝ) × ℝ) :
    List (GPOp o) → (List ℝ → List ℝ → ℝ) × (List ℝ → Fin o → ℝ) × ℝ
  | [] => fed
  | .setHyperparameters k m n :: rest => hyperAtLastUpdate o (k, m, n) fed rest
  | .addDataPoint _ _ :: rest => hyperAtLastUpdate o h h rest
  | .updateFeedDict :: rest => hyperAtLastUpdate o h fed rest

/-- `evaluation` is the exact posterior for hyperparameters `h` and the data `X`, `Y`, at the points. -/
def _root_.Spec.IsPosterior {o : ℕ} (h : (List ℝ → List ℝ → ℝ) × (List ℝ → Fin o → ℝ) × ℝ) (beta : ℝ)
    (X : List (List ℝ)) (Y : List (List ℝ)) (pts : List (List ℝ))
    (evaluation : Matrix (Fin pts.length) (Fin o) ℝ × Matrix (Fin pts.length) (Fin o) ℝ) : Prop :=
  ∀ i l, evaluation.1 i l = posteriorMean h.1 (fun x => h.2.1 x l) h.2.2 X.get
      (fun n => (Y.getD n []).getD l 0) (pts.get i) ∧
    evaluation.2 i l = beta * Real.sqrt (posteriorCov h.1 h.2.2 X.get (pts.get i) (pts.get i))

/-- The full claim of C85: after every history the predictions are the posterior for the current hyperparameters. -/
def _root_.Spec.HyperparametersTakeEffect {o : ℕ} (gp : GPModel o) (X Y : List (List ℝ)) : Prop :=
  ∀ (s : GPSession o) (ops : List (GPOp o)) (t : GPSession o) (beta : ℝ) (pts : List (List ℝ)),
    GPSession.new gp X Y = .ok s → GPOp.runAll s ops = .ok t →
    ∃ e, t.evaluate beta pts = .ok e ∧
      IsPosterior (currentHyper o (gp.kern, gp.mean, gp.noise) ops) beta
        (X ++ (GPOp.added o ops).1) (Y ++ (GPOp.added o ops).2) pts e

theorem GPSession.new_inv {gp : GPModel o} {X Y : List (List ℝ)} {s : GPSession o}
    (h : GPSession.new gp X Y = .ok s) : gp.init X Y = .ok s.state ∧ s.model = gp ∧ s.fed = gp := by
  unfold GPSession.new at h
  cases hi : gp.init X Y with
  | error e => simp [hi, bind, Except.bind] at h
  | ok st =>
    simp only [hi, bind, Except.bind, pure, Except.pure, Except.ok.injEq] at h
    subst h
    exact ⟨rfl, rfl, rfl⟩

/-- The invariant: the state is the one of a process built from all the data with the hyperparameters that are fed. -/
theorem history_invariant {X Y : List (List ℝ)} {s t : GPSession o} {ops : List (GPOp o)}
    (hs : s.fed.init X Y = .ok s.state) (hsc : s.fed.scale = s.model.scale)
    (hops : ∀ op ∈ ops, op ≠ .updateFeedDict) (ht : GPOp.runAll s ops = .ok t) :
    t.fed.init (X ++ (GPOp.added o ops).1) (Y ++ (GPOp.added o ops).2) = .ok t.state ∧
    t.fed.scale = s.fed.scale ∧
    (t.fed.kern, t.fed.mean, t.fed.noise) = hyperAtLastUpdate o
      (s.model.kern, s.model.mean, s.model.noise) (s.fed.kern, s.fed.mean, s.fed.noise) ops ∧
    (t.model.kern, t.model.mean, t.model.noise) = currentHyper o
      (s.model.kern, s.model.mean, s.model.noise) ops := by
  induction ops generalizing X Y s with
  | nil =>
    simp only [GPOp.runAll, Except.ok.injEq] at ht
    subst ht
    simp [GPOp.added, hyperAtLastUpdate, currentHyper, hs]
  | cons op rest ih =>
    have hrest : ∀ op ∈ rest, op ≠ .updateFeedDict := fun op h => hops op (List.mem_cons_of_mem _ h)
    unfold GPOp.runAll at ht
    cases op with
    | setHyperparameters k m n =>
      simp only [GPOp.run, bind, Except.bind] at ht
      have := ih (s := s.setHyperparameters k m n) hs hsc hrest ht
      simpa [GPOp.added, hyperAtLastUpdate, currentHyper, GPSession.setHyperparameters] using this
    | addDataPoint x y =>
      simp only [GPOp.run, bind, Except.bind] at ht
      cases hadd : s.model.addDataPoint s.state x y with
      | mk u r =>
        cases r with
        | error e => simp [GPSession.addDataPoint, hadd] at ht
        | ok v =>
          simp only [GPSession.addDataPoint, hadd] at ht
          obtain ⟨hX, hY, _⟩ := init_data hs
          have h1 := addDataPoint_inv hadd
          rw [hX, hY] at h1
          obtain ⟨i1, i2, i3, i4⟩ := ih (s := { s with fed := s.model, state := u }) h1 rfl hrest ht
          refine ⟨?_, by rw [i2, hsc], by simpa [hyperAtLastUpdate] using i3,
            by simpa [currentHyper] using i4⟩
          simpa [GPOp.added, List.append_assoc] using i1
    | updateFeedDict => exact absurd rfl (hops _ List.mem_cons_self)

/-- Rows are added in pairs. -/
def GPOp.Paired : GPOp o → Prop
  | .addDataPoint x y => y.rows.length = x.rows.length
  | _ => True

theorem added_length {ops : List (GPOp o)} (h : ∀ op ∈ ops, op.Paired) :
    (GPOp.added o ops).2.length = (GPOp.added o ops).1.length := by
  induction ops with
  | nil => rfl
  | cons op rest ih =>
    have h1 := h op List.mem_cons_self
    have h2 := ih fun op ho => h op (List.mem_cons_of_mem _ ho)
    cases op <;> simp_all [GPOp.added, GPOp.Paired]

/-- **C85 (partial).** In every history of assignments of hyperparameters and `add_data_point` calls, the predictions are the
exact posterior, with all the data, for the hyperparameters that were current when data were added for the last time (at the construction, if no data were
added). Missing: they are not the current ones if hyperparameters were changed after that (`C85_stale_refuted`), and explicit calls of
`update_feed_dict` (`C85_mixed_refuted`). -/
theorem C85_posterior_at_last_update_partial (gp : GPModel o) (hsc : gp.scale ≠ 0) (X Y : List (List ℝ))
    (hl : Y.length = X.length) (s : GPSession o) (h : GPSession.new gp X Y = .ok s) (ops : List (GPOp o))
    (hops : ∀ op ∈ ops, op ≠ .updateFeedDict ∧ op.Paired) (t : GPSession o) (ht : GPOp.runAll s ops = .ok t)
    (beta : ℝ) (pts : List (List ℝ)) :
    ∃ e, t.evaluate beta pts = .ok e ∧
      IsPosterior (hyperAtLastUpdate o (gp.kern, gp.mean, gp.noise) (gp.kern, gp.mean, gp.noise) ops) beta
        (X ++ (GPOp.added o ops).1) (Y ++ (GPOp.added o ops).2) pts e := by
  obtain ⟨h1, h2, h3⟩ := GPSession.new_inv h
  obtain ⟨i1, i2, i3, i4⟩ := history_invariant (X := X) (Y := Y) (by rw [h3]; exact h1) (by rw [h2, h3])
    (fun op ho => (hops op ho).1) ht
  obtain ⟨m, er, he, hi⟩ := C53_posterior t.fed (by rw [i2, h3]; exact hsc) beta _ _ pts
    (by rw [List.length_append, List.length_append, hl, added_length fun op ho => (hops op ho).2]) _ i1
  refine ⟨(m, er), he, fun i l => ?_⟩
  rw [h2, h3] at i3
  rw [← i3]
  exact hi i l

/-- **C85 (partial, after data).** Directly after a successful `add_data_point` the predictions are the posterior for the current
hyperparameters, whatever was changed before. -/
theorem C85_after_data_partial (gp : GPModel o) (hsc : gp.scale ≠ 0) (X Y : List (List ℝ))
    (hl : Y.length = X.length) (s : GPSession o) (h : GPSession.new gp X Y = .ok s) (ops : List (GPOp o))
    (hops : ∀ op ∈ ops, op ≠ .updateFeedDict ∧ op.Paired) (x y : Arr ℝ) (hxy : y.rows.length = x.rows.length)
    (t : GPSession o) (ht : GPOp.runAll s (ops ++ [.addDataPoint x y]) = .ok t)
    (beta : ℝ) (pts : List (List ℝ)) :
    ∃ e, t.evaluate beta pts = .ok e ∧
      IsPosterior (currentHyper o (gp.kern, gp.mean, gp.noise) ops) beta
        (X ++ (GPOp.added o (ops ++ [.addDataPoint x y])).1)
        (Y ++ (GPOp.added o (ops ++ [.addDataPoint x y])).2) pts e := by
  have := C85_posterior_at_last_update_partial gp hsc X Y hl s h (ops ++ [.addDataPoint x y]) (by
    intro op ho
    rw [List.mem_append, List.mem_singleton] at ho
    rcases ho with ho | rfl
    · exact hops op ho
    · exact ⟨by simp, hxy⟩) t ht beta pts
  have e : ∀ (h fed : (List ℝ → List ℝ → ℝ) × (List ℝ → Fin o → ℝ) × ℝ),
      hyperAtLastUpdate o h fed (ops ++ [.addDataPoint x y]) = currentHyper o h ops := by
    clear this ht hops
    induction ops with
    | nil => intro h fed; rfl
    | cons op rest ih =>
      intro h fed
      cases op <;> simp [hyperAtLastUpdate, currentHyper, ih]
  rwa [e] at this

/-! ## Refutations -/

/-- The constant kernel with variance `v`, zero mean, noise 1 and scale 1. -/
noncomputable def constantGP (v : ℝ) : GPModel 1 where
  kern _ _ := v
  mean _ _ := 0
  noise := 1
  scale := 1
  xdim := 1

theorem constantKernel_isKernel {v : ℝ} (hv : 0 ≤ v) : IsKernel (constantGP v).kern where
  symm _ _ := rfl
  nonneg n X c := by
    have : ∑ i, ∑ j, c i * c j * v = (∑ i, c i) ^ 2 * v := by
      rw [sq, Finset.sum_mul_sum, Finset.sum_mul]
      exact Finset.sum_congr rfl fun i _ => by rw [Finset.sum_mul]
    show 0 ≤ ∑ i, ∑ j, c i * c j * v
    rw [this]
    positivity

theorem constantGP_new (v : ℝ) (hv : 0 ≤ v) :
    ∃ s, GPSession.new (constantGP v) [[0]] [[1]] = .ok s := by
  obtain ⟨s, hs⟩ := C53_defined (constantGP v) (constantKernel_isKernel hv) (by norm_num [constantGP])
    (by norm_num [constantGP]) [[0]] [[1]] rfl
  exact ⟨_, by unfold GPSession.new; rw [hs]; rfl⟩

theorem constant_gram (v : ℝ) : noisyGram (constantGP v).kern 1 ([[0]] : List (List ℝ)).get =
    Matrix.of fun _ _ => v + 1 := by
  ext i j
  have hi : i = j := Subsingleton.elim (α := Fin 1) i j
  subst hi
  simp [noisyGram, constantGP]

theorem inv_one_by_one (c : ℝ) :
    (Matrix.of fun _ _ => c : Matrix (Fin ([[0]] : List (List ℝ)).length) (Fin ([[0]] : List (List ℝ)).length) ℝ)⁻¹ =
      Matrix.of fun _ _ => c⁻¹ := by
  by_cases hc : c = 0
  · subst hc
    have : (Matrix.of fun _ _ => 0 : Matrix (Fin ([[0]] : List (List ℝ)).length) (Fin ([[0]] : List (List ℝ)).length) ℝ) = 0 := rfl
    rw [this, Matrix.inv_zero]
    ext i j
    simp
  · apply Matrix.inv_eq_left_inv
    ext i j
    have hi : i = j := Subsingleton.elim (α := Fin 1) i j
    subst hi
    simp [Matrix.mul_apply, hc]

theorem constant_posteriorMean (v : ℝ) (x : List ℝ) :
    posteriorMean (constantGP v).kern (fun _ => 0) 1 ([[0]] : List (List ℝ)).get
      (fun n => (([[1]] : List (List ℝ)).getD n []).getD 0 0) x = v / (v + 1) := by
  unfold posteriorMean
  rw [constant_gram, inv_one_by_one]
  simp [constantGP, dotProduct, Matrix.mulVec]
  rfl

/-- **C85 refuted: stale predictions.** After changing the variance of the kernel from 1 to 4, the predicted mean is still
that of variance 1. -/
theorem C85_stale_refuted : ¬ HyperparametersTakeEffect (constantGP 1) [[0]] [[1]] := by
  intro H
  obtain ⟨s, hs⟩ := constantGP_new 1 zero_le_one
  let op : GPOp 1 := .setHyperparameters (constantGP 4).kern (fun _ _ => 0) 1
  have ht : GPOp.runAll s [op] = .ok (s.setHyperparameters (constantGP 4).kern (fun _ _ => 0) 1) := rfl
  obtain ⟨e, he, hp⟩ := H s [op] _ 2 [[0]] hs ht
  obtain ⟨e', he', hp'⟩ := C85_posterior_at_last_update_partial (constantGP 1) (by norm_num [constantGP]) [[0]] [[1]]
    rfl s hs [op] (by simp [op, GPOp.Paired]) _ ht 2 [[0]]
  rw [he] at he'
  cases he'
  have h1 := (hp 0 0).1
  have h2 := (hp' 0 0).1
  simp only [op, currentHyper, hyperAtLastUpdate, GPOp.added, List.append_nil] at h1 h2
  have e1 := constant_posteriorMean 4 [0]
  have e2 := constant_posteriorMean 1 [0]
  have h1' : e.1 0 0 = 4 / (4 + 1) := h1.trans e1
  have h2' : e.1 0 0 = 1 / (1 + 1) := h2.trans e2
  rw [h1'] at h2'
  norm_num at h2'

/-- **C85 refuted: mixed predictions.** If `update_feed_dict` is called after the variance of the kernel was changed from 1 to 4, the new kernel
is combined with the old factorisation: at the data point the predicted variance is -4 and the mean is 2, for a single measurement of 1. -/
theorem C85_mixed_refuted : ∃ s t : GPSession 1, GPSession.new (constantGP 1) [[0]] [[1]] = .ok s ∧
    GPOp.runAll s [.setHyperparameters (constantGP 4).kern (fun _ _ => 0) 1, .updateFeedDict] = .ok t ∧
    ∃ p, t.fed.buildPredict t.state.feed [[0]] = .ok p ∧ p.mean 0 0 = 2 ∧ p.var 0 0 = -4 := by
  obtain ⟨s, hs⟩ := constantGP_new 1 zero_le_one
  obtain ⟨h1, h2, h3⟩ := GPSession.new_inv hs
  obtain ⟨c, hc, hst⟩ := init_inv h1
  obtain ⟨_, L, hL, hc'⟩ := computeCache_inv hc
  refine ⟨s, _, hs, rfl, ?_⟩
  have hLL : L 0 0 * L 0 0 = 2 := by
    have := congrFun (congrFun hL.mul 0) 0
    rw [Matrix.mul_apply] at this
    simp only [Matrix.transpose_apply] at this
    have e : ∑ j, L 0 j * L 0 j = L 0 0 * L 0 0 := by
      exact Fintype.sum_eq_single (0 : Fin 1) fun x hx => absurd (Subsingleton.elim (α := Fin 1) x 0) hx
    rw [e] at this
    rw [this]
    norm_num [noisyGram, constantGP]
  have hL0 : L 0 0 ≠ 0 := (hL.pos 0).ne'
  have hsolve : ∀ {m : ℕ} (B : Matrix (Fin ([[0]] : List (List ℝ)).length) (Fin m) ℝ) (j : Fin m),
      triangularSolve L B 0 j = B 0 j / L 0 0 := by
    intro m B j
    show forwardSubst (n := 1) L (fun k => B k j) 0 = _
    rw [forwardSubst]
    show Fin.snoc (α := fun _ => ℝ) _ _ (Fin.last 0) = _
    rw [Fin.snoc_last]
    simp
  obtain ⟨model, fed, state⟩ := s
  dsimp only at h2 h3 hst
  subst h2 h3 hst hc'
  refine ⟨_, if_pos rfl, ?_, ?_⟩
  · have e : ∀ (a b : Fin 1 → ℝ), a 0 = 4 / L 0 0 → b 0 = 1 / L 0 0 →
        ((∑ j, a j * b j) + 1 * 0) / 1 = 2 := by
      intro a b ha hb
      rw [Fin.sum_univ_one, ha, hb, div_mul_div_comm, hLL]
      norm_num
    refine e (fun k => triangularSolve L _ k 0) (fun k => triangularSolve L _ k 0) ?_ ?_
    · refine (hsolve _ 0).trans ?_
      show (1 ^ 2 * 4 : ℝ) / L 0 0 = 4 / L 0 0
      norm_num
    · refine (hsolve _ 0).trans ?_
      norm_num [GPModel.target, constantGP, entryOf]
  · have e : ∀ a : Fin 1 → ℝ, a 0 = 4 / L 0 0 → (1 ^ 2 * 4 - ∑ k, a k ^ 2) / 1 ^ 2 = (-4 : ℝ) := by
      intro a ha
      rw [Fin.sum_univ_one, ha, div_pow, sq (L 0 0), hLL]
      norm_num
    refine e (fun k => triangularSolve L _ k 0) ?_
    refine (hsolve _ 0).trans ?_
    show (1 ^ 2 * 4 : ℝ) / L 0 0 = 4 / L 0 0
    norm_num

/-- Arguments as the documentation asks for: kernels and positive noise, and as many rows of measurements as of inputs. -/
def GPOp.Valid (d : ℕ) : GPOp o → Prop
  | .setHyperparameters k _ n => IsKernel k ∧ 0 < n
  | .addDataPoint x y => y.rows.length = x.rows.length ∧ (∀ r ∈ x.rows, r.length = d) ∧ ∀ r ∈ y.rows, r.length = o
  | .updateFeedDict => True

theorem runAll_ok (d : ℕ) (s : GPSession o) (hd : s.model.xdim = d) (hk : IsKernel s.model.kern)
    (hn : 0 < s.model.noise) (hsc : s.model.scale ≠ 0) (hl : s.state.data.Y.length = s.state.data.X.length)
    (ops : List (GPOp o)) (hops : ∀ op ∈ ops, op.Valid d) : ∃ t, GPOp.runAll s ops = .ok t := by
  induction ops generalizing s with
  | nil => exact ⟨s, rfl⟩
  | cons op rest ih =>
    have h1 := hops op List.mem_cons_self
    have h2 : ∀ op ∈ rest, op.Valid d := fun op ho => hops op (List.mem_cons_of_mem _ ho)
    unfold GPOp.runAll
    cases op with
    | setHyperparameters k m n =>
      simp only [GPOp.run, bind, Except.bind]
      exact ih (s.setHyperparameters k m n) hd h1.1 h1.2 hsc hl h2
    | updateFeedDict =>
      simp only [GPOp.run, bind, Except.bind]
      exact ih s.updateFeedDict hd hk hn hsc hl h2
    | addDataPoint x y =>
      obtain ⟨h3, h4, h5⟩ := h1
      have hl' : (s.state.data.Y ++ y.rows).length = (s.state.data.X ++ x.rows).length := by
        simp only [List.length_append]; omega
      obtain ⟨cache, hcache⟩ := computeCache_ok hk hn hsc hl'
      have hadd : s.model.addDataPoint s.state x y =
          (⟨⟨s.state.data.X ++ x.rows, s.state.data.Y ++ y.rows, cache⟩,
            ⟨s.state.data.X ++ x.rows, s.state.data.Y ++ y.rows, cache⟩⟩, .ok ()) := by
        unfold GPModel.addDataPoint vstack
        rw [hd, if_pos h4, if_pos h5]
        simp [hcache]
      simp only [GPOp.run, bind, Except.bind, GPSession.addDataPoint, hadd]
      exact ih _ hd hk hn hsc hl' h2

/-- **C85 (no errors).** No call of a history raises if the arguments are as documented: the kernels are symmetric and positive semi-definite, the
noise is positive, and data have the widths of the first data and as many measurements as inputs. -/
theorem C85_defined (gp : GPModel o) (hk : IsKernel gp.kern) (hn : 0 < gp.noise) (hsc : gp.scale ≠ 0)
    (X Y : List (List ℝ)) (hl : Y.length = X.length) (ops : List (GPOp o))
    (hops : ∀ op ∈ ops, op.Valid gp.xdim) :
    ∃ s t, GPSession.new gp X Y = .ok s ∧ GPOp.runAll s ops = .ok t := by
  obtain ⟨st, hst⟩ := C53_defined gp hk hn hsc X Y hl
  have hnew : GPSession.new gp X Y = .ok ⟨gp, gp, st⟩ := by
    unfold GPSession.new
    rw [hst]
    rfl
  obtain ⟨hX, hY, _⟩ := init_data hst
  obtain ⟨t, ht⟩ := runAll_ok gp.xdim ⟨gp, gp, st⟩ rfl hk hn hsc (by rw [hX, hY]; exact hl) ops hops
  exact ⟨_, t, hnew, ht⟩

/-- The hypotheses are met by a history in which data are added, the kernel is changed and further data are added. -/
example : ∃ s t : GPSession 1, GPSession.new (constantGP 1) [[0]] [[1]] = .ok s ∧
    GPOp.runAll s [.addDataPoint (.vector [5]) (.scalar 2), .setHyperparameters (constantGP 4).kern (fun _ _ => 0) 1,
      .addDataPoint (.matrix [[2], [3]]) (.matrix [[3], [4]])] = .ok t := by
  refine C85_defined (constantGP 1) (constantKernel_isKernel zero_le_one) (by norm_num [constantGP])
    (by norm_num [constantGP]) [[0]] [[1]] rfl _ ?_
  intro op ho
  simp only [List.mem_cons, List.not_mem_nil, or_false] at ho
  rcases ho with rfl | rfl | rfl
  · simp [GPOp.Valid, Arr.rows, constantGP]
  · exact ⟨constantKernel_isKernel (v := 4) (by norm_num), one_pos⟩
  · simp [GPOp.Valid, Arr.rows, constantGP]

/-! ## C86 -/

/-- **C86.** The function returned by `to_mean_function()` returns the means of the uncertain function, and raises exactly when that does. -/
theorem C86_mean {P : Type} {R E : P → Type} (f : (points : P) → Except PyErr (R points × E points)) (points : P) :
    (∀ m, toMeanFunction f points = .ok m ↔ ∃ e, f points = .ok (m, e)) ∧
    ∀ e, toMeanFunction f points = .error e ↔ f points = .error e := by
  unfold toMeanFunction
  cases h : f points with
  | error e' => simp [bind, Except.bind]
  | ok v =>
    obtain ⟨m, e⟩ := v
    simp [bind, Except.bind, pure, Except.pure]

/-- **C86 (follows the data).** A mean function taken from a Gaussian process at any time returns the posterior mean for all the data that the process
has when it is evaluated, also for data added after it was created. -/
theorem C86_follows_data (gp : GPModel o) (hsc : gp.scale ≠ 0) (X Y : List (List ℝ))
    (hl : Y.length = X.length) (s : GPSession o) (h : GPSession.new gp X Y = .ok s)
    (data : List (Arr ℝ × Arr ℝ)) (hdata : ∀ d ∈ data, d.2.rows.length = d.1.rows.length) (t : GPSession o)
    (ht : GPOp.runAll s (data.map fun d => .addDataPoint d.1 d.2) = .ok t) (beta : ℝ) (pts : List (List ℝ)) :
    ∃ m, toMeanFunction (t.evaluate beta) pts = .ok m ∧ ∀ i l,
      m i l = posteriorMean gp.kern (fun x => gp.mean x l) gp.noise
        (X ++ data.flatMap fun d => d.1.rows).get
        (fun n => ((Y ++ data.flatMap fun d => d.2.rows).getD n []).getD l 0) (pts.get i) := by
  obtain ⟨e, he, hp⟩ := C85_posterior_at_last_update_partial gp hsc X Y hl s h _ (by
    intro op ho
    obtain ⟨d, hd, rfl⟩ := List.mem_map.mp ho
    exact ⟨by simp, hdata d hd⟩) t ht beta pts
  have h1 : ∀ data : List (Arr ℝ × Arr ℝ), GPOp.added o (data.map fun d => .addDataPoint d.1 d.2) =
      (data.flatMap fun d => d.1.rows, data.flatMap fun d => d.2.rows) := by
    intro data
    induction data with
    | nil => rfl
    | cons d rest ih => simp [GPOp.added, ih]
  have h2 : ∀ (data : List (Arr ℝ × Arr ℝ)) (g : (List ℝ → List ℝ → ℝ) × (List ℝ → Fin o → ℝ) × ℝ),
      hyperAtLastUpdate o g g (data.map fun d => .addDataPoint d.1 d.2) = g := by
    intro data g
    induction data with
    | nil => rfl
    | cons d rest ih => simp [hyperAtLastUpdate, ih]
  rw [h2, h1] at hp
  exact ⟨e.1, ((C86_mean _ _).1 _).mpr ⟨e.2, he⟩, fun i l => (hp i l).1⟩

/-- **C86 (stack).** The mean function of a stack of functions has the means of the components as its columns. -/
theorem C86_stack (funs : List UncertainEval) (hne : funs ≠ []) (points : List (List ℝ))
    (outs : List (List (List ℝ) × List (List ℝ)))
    (h : funs.map (fun f => f points) = outs.map Except.ok)
    (hrows : ∀ r ∈ outs, r.1.length = points.length ∧ r.2.length = points.length) :
    toMeanFunction (stackEvaluate funs) points = .ok (joinColumns points.length (outs.map Prod.fst)) :=
  ((C86_mean _ _).1 _).mpr ⟨_, C52_evaluate funs hne points outs h hrows⟩

/-- The mean function of a stack of a constant function and the identity, with different errors. -/
example : toMeanFunction (stackEvaluate [fun p => .ok (p.map fun _ => [2], p.map fun _ => [1]),
    fun p => .ok (p, p.map fun _ => [3])]) [[5], [6]] = .ok [[2, 5], [2, 6]] := by
  rw [C86_stack _ (by simp) _ [([[2], [2]], [[1], [1]]), ([[5], [6]], [[3], [3]])] (by simp) (by simp)]
  rfl

end SafeLearning
