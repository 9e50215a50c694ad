import Verif.Lemmas.GaussianProcess
import Mathlib.Tactic.NormNum
set_option autoImplicit false

/-!
# C53, C54, C55, C77: Gaussian process predictions, their cache, uncertainty and rejected data
-/

namespace SafeLearning

set_option linter.unusedSectionVars false

open Matrix Spec

variable {o : ℕ}

/-! ## The cache -/

theorem scaledKernel_eq (gp : GPModel o) (X : List (List ℝ)) :
    gp.scaledKernel X = gp.scale ^ 2 • noisyGram gp.kern gp.noise X.get := by
  ext i j
  simp [GPModel.scaledKernel, noisyGram, Matrix.one_apply]
  ring

theorem PD.smul {n : ℕ} {A : Matrix (Fin n) (Fin n) ℝ} (h : PD A) {c : ℝ} (hc : 0 < c) : PD (c • A) where
  symm i j := by simp [h.symm i j]
  pos x hx := by
    rw [Matrix.smul_mulVec, dotProduct_smul, smul_eq_mul]
    exact mul_pos hc (h.pos x hx)

/-- What a successful cache computation returns. -/
theorem computeCache_inv {gp : GPModel o} {X Y : List (List ℝ)} {c : GPCache o}
    (h : gp.computeCache X Y = .ok c) :
    (Y.length = X.length ∨ Y.length = 1) ∧
    ∃ L : Matrix (Fin X.length) (Fin X.length) ℝ,
      IsCholesky (gp.scale ^ 2 • noisyGram gp.kern gp.noise X.get) L ∧
      c = { n := X.length, chol := L, alpha := triangularSolve L (gp.target X Y) } := by
  unfold GPModel.computeCache at h
  split_ifs at h with hl
  · refine ⟨hl, ?_⟩
    cases hL : cholesky (gp.scaledKernel X) with
    | error e => simp [hL, bind, Except.bind] at h
    | ok L =>
      refine ⟨L, scaledKernel_eq gp X ▸ cholesky_inv hL, ?_⟩
      simpa [hL, bind, Except.bind, pure, Except.pure] using h.symm

/-- The cache is computed whenever the numbers of rows agree, for a kernel, positive noise and non-zero scale. -/
theorem computeCache_ok {gp : GPModel o} (hk : IsKernel gp.kern) (hn : 0 < gp.noise)
    (hs : gp.scale ≠ 0) {X Y : List (List ℝ)} (hl : Y.length = X.length) :
    ∃ c, gp.computeCache X Y = .ok c := by
  unfold GPModel.computeCache
  rw [if_pos (Or.inl hl), scaledKernel_eq]
  obtain ⟨L, hL, _⟩ := cholesky_ok ((noisyGram_pd hk hn X.get).smul (c := gp.scale ^ 2) (by positivity))
  rw [hL]
  exact ⟨_, rfl⟩

theorem PD.of_smul {n : ℕ} {A : Matrix (Fin n) (Fin n) ℝ} {c : ℝ} (hc : 0 < c) (h : PD (c • A)) : PD A := by
  have := h.smul (inv_pos.mpr hc)
  rwa [smul_smul, inv_mul_cancel₀ hc.ne', one_smul] at this

/-- A successful cache computation shows that the kernel matrix is positive definite. -/
theorem computeCache_pd {gp : GPModel o} {X Y : List (List ℝ)} {c : GPCache o} (hs : gp.scale ≠ 0)
    (h : gp.computeCache X Y = .ok c) : PD (noisyGram gp.kern gp.noise X.get) := by
  obtain ⟨_, L, hL, _⟩ := computeCache_inv h
  exact PD.of_smul (c := gp.scale ^ 2) (by positivity) hL.pd

theorem init_inv {gp : GPModel o} {X Y : List (List ℝ)} {s : GPState o} (h : gp.init X Y = .ok s) :
    ∃ c, gp.computeCache X Y = .ok c ∧
      s = { data := { X := X, Y := Y, cache := c }, feed := { X := X, Y := Y, cache := c } } := by
  unfold GPModel.init at h
  cases hc : gp.computeCache X Y with
  | error e => simp [hc, bind, Except.bind] at h
  | ok c => exact ⟨c, rfl, by simpa [hc, bind, Except.bind, pure, Except.pure] using h.symm⟩

theorem init_of_cache {gp : GPModel o} {X Y : List (List ℝ)} {c : GPCache o}
    (h : gp.computeCache X Y = .ok c) : gp.init X Y =
      .ok { data := { X := X, Y := Y, cache := c }, feed := { X := X, Y := Y, cache := c } } := by
  unfold GPModel.init
  simp [h, bind, Except.bind, pure, Except.pure]

theorem smul_inv_matrix {n : ℕ} {A : Matrix (Fin n) (Fin n) ℝ} {c : ℝ} (hc : c ≠ 0) (hA : A.det ≠ 0) :
    (c • A)⁻¹ = c⁻¹ • A⁻¹ := by
  apply Matrix.inv_eq_left_inv
  rw [Matrix.smul_mul, Matrix.mul_smul, smul_smul, inv_mul_cancel₀ hc, one_smul,
    Matrix.nonsing_inv_mul _ hA.isUnit]

/-- The entries of `aᵀ b` where both come from triangular solves with the factor of the scaled kernel matrix. -/
theorem solve_entry {n m l : ℕ} {G L : Matrix (Fin n) (Fin n) ℝ} {c : ℝ} (hc : c ≠ 0)
    (h : IsCholesky (c • G) L) (hG : G.det ≠ 0) (B : Matrix (Fin n) (Fin m) ℝ)
    (C : Matrix (Fin n) (Fin l) ℝ) (i : Fin m) (j : Fin l) :
    ((triangularSolve L B)ᵀ * triangularSolve L C) i j =
      c⁻¹ * ((fun k => B k i) ⬝ᵥ (G⁻¹ *ᵥ fun k => C k j)) := by
  rw [h.solve_mul, smul_inv_matrix hc hG, Matrix.smul_mul, Matrix.mul_smul, Matrix.smul_apply, smul_eq_mul]
  rfl

/-- The prediction from the data and their cache is the exact posterior. -/
theorem predict_posterior {gp : GPModel o} (hs : gp.scale ≠ 0) {X Y : List (List ℝ)}
    (hl : Y.length = X.length) {c : GPCache o} (h : gp.computeCache X Y = .ok c)
    (pts : List (List ℝ)) :
    (∃ p, gp.buildPredict { X := X, Y := Y, cache := c } pts = .ok p ∧ ∀ i l,
      p.mean i l = posteriorMean gp.kern (fun x => gp.mean x l) gp.noise X.get
        (fun n => entryOf Y n l) (pts.get i) ∧
      p.var i l = posteriorCov gp.kern gp.noise X.get (pts.get i) (pts.get i)) ∧
    ∃ C, gp.buildPredictCov { X := X, Y := Y, cache := c } pts = .ok C ∧ ∀ i j,
      C i j = posteriorCov gp.kern gp.noise X.get (pts.get i) (pts.get j) := by
  have hdet := (computeCache_pd hs h).det_ne
  have hs2 : gp.scale ^ 2 ≠ 0 := pow_ne_zero 2 hs
  obtain ⟨_, L, hL, rfl⟩ := computeCache_inv h
  have e1 : ∀ j : Fin pts.length, (fun k => gp.cross X.length X pts k j) =
      gp.scale ^ 2 • fun k => gp.kern (X.get k) (pts.get j) := by
    intro j; funext k; simp [GPModel.cross]
  have e2 : ∀ l, (fun k => gp.target X Y k l) =
      gp.scale • fun k : Fin X.length => entryOf Y k l - gp.mean (X.get k) l := by
    intro l; funext k
    have : (if Y.length = 1 then 0 else (k : ℕ)) = k := by
      split_ifs with h1
      · have := k.2; omega
      · rfl
    rw [GPModel.target, this]
    simp
  have e3 : ∀ i : Fin pts.length, pts.getD i [] = pts.get i := fun i => by simp
  have hcov : ∀ i j : Fin pts.length,
      ((triangularSolve L (gp.cross X.length X pts))ᵀ * triangularSolve L (gp.cross X.length X pts)) i j =
      gp.scale ^ 2 * ((fun k => gp.kern (X.get k) (pts.get i)) ⬝ᵥ
        ((noisyGram gp.kern gp.noise X.get)⁻¹ *ᵥ fun k => gp.kern (X.get k) (pts.get j))) := by
    intro i j
    rw [solve_entry hs2 hL hdet, e1, e1, Matrix.mulVec_smul, dotProduct_smul, smul_dotProduct, smul_eq_mul,
      smul_eq_mul]
    field_simp
  constructor
  · refine ⟨_, by unfold GPModel.buildPredict; rw [if_pos rfl], fun i l => ⟨?_, ?_⟩⟩
    · dsimp only
      rw [GPModel.solved]
      dsimp only
      rw [solve_entry hs2 hL hdet, e1, e2, e3, Matrix.mulVec_smul, dotProduct_smul, smul_dotProduct,
        smul_eq_mul, smul_eq_mul, posteriorMean]
      field_simp
      ring
    · dsimp only
      have := hcov i i
      rw [Matrix.mul_apply] at this
      simp only [Matrix.transpose_apply, ← sq] at this
      rw [GPModel.solved]
      dsimp only
      rw [this, posteriorCov, e3]
      field_simp
  · refine ⟨_, by unfold GPModel.buildPredictCov; rw [if_pos rfl]; rfl, fun i j => ?_⟩
    rw [GPModel.solved]
    dsimp only
    rw [hcov, posteriorCov, e3, e3]
    field_simp

/-! ## C53 -/

/-- **C53.** A Gaussian process built from `X` and `Y` (as many rows of `Y` as of `X`) predicts the exact posterior mean, and `beta` times the
exact posterior standard deviation, at all query points and for all outputs. The scale is arbitrary but not zero, and does not occur in the result. -/
theorem C53_posterior (gp : GPModel o) (hs : gp.scale ≠ 0) (beta : ℝ) (X Y pts : List (List ℝ))
    (hl : Y.length = X.length) (s : GPState o) (h : gp.init X Y = .ok s) :
    ∃ mean error, gp.evaluate beta s pts = .ok (mean, error) ∧ ∀ i l,
      mean i l = posteriorMean gp.kern (fun x => gp.mean x l) gp.noise X.get
        (fun n => entryOf Y n l) (pts.get i) ∧
      error i l = beta * Real.sqrt (posteriorCov gp.kern gp.noise X.get (pts.get i) (pts.get i)) := by
  obtain ⟨c, hc, rfl⟩ := init_inv h
  obtain ⟨⟨p, hp, hpi⟩, _⟩ := predict_posterior hs hl hc pts
  refine ⟨p.mean, fun i l => beta * Real.sqrt (p.var i l), ?_, fun i l => ⟨(hpi i l).1, ?_⟩⟩
  · unfold GPModel.evaluate
    simp [hp, bind, Except.bind, pure, Except.pure]
  · dsimp only
    rw [(hpi i l).2]

/-- **C53 (definedness).** For a positive semidefinite kernel, positive noise and non-zero scale the construction succeeds: the Cholesky
factorisation exists. -/
theorem C53_defined (gp : GPModel o) (hk : IsKernel gp.kern) (hn : 0 < gp.noise) (hs : gp.scale ≠ 0)
    (X Y : List (List ℝ)) (hl : Y.length = X.length) : ∃ s, gp.init X Y = .ok s := by
  obtain ⟨c, hc⟩ := computeCache_ok hk hn hs hl
  exact ⟨_, init_of_cache hc⟩

/-- **C53 (errors).** The construction fails exactly if the kernel matrix with noise is not symmetric and positive definite, and then with a `ValueError` (the model of
the error of `tf.cholesky`). -/
theorem C53_undefined (gp : GPModel o) (hs : gp.scale ≠ 0) (X Y : List (List ℝ)) (hl : Y.length = X.length) :
    gp.init X Y = .error .valueError ↔
      ¬ ((∀ i j, noisyGram gp.kern gp.noise X.get i j = noisyGram gp.kern gp.noise X.get j i) ∧
        ∀ x : Fin X.length → ℝ, x ≠ 0 → 0 < ∑ i, x i * ∑ j, noisyGram gp.kern gp.noise X.get i j * x j) := by
  have hpd : PD (noisyGram gp.kern gp.noise X.get) ↔
      ((∀ i j, noisyGram gp.kern gp.noise X.get i j = noisyGram gp.kern gp.noise X.get j i) ∧
        ∀ x : Fin X.length → ℝ, x ≠ 0 → 0 < ∑ i, x i * ∑ j, noisyGram gp.kern gp.noise X.get i j * x j) :=
    ⟨fun h => ⟨h.symm, h.pos⟩, fun h => ⟨h.1, h.2⟩⟩
  rw [← hpd]
  constructor
  · intro h hp
    obtain ⟨L, hL, _⟩ := cholesky_ok (hp.smul (c := gp.scale ^ 2) (by positivity))
    unfold GPModel.init GPModel.computeCache at h
    rw [if_pos (Or.inl hl), scaledKernel_eq, hL] at h
    simp [bind, Except.bind, pure, Except.pure] at h
  · intro h
    unfold GPModel.init GPModel.computeCache
    rw [if_pos (Or.inl hl)]
    have : cholesky (gp.scaledKernel X) = .error .valueError := by
      unfold cholesky
      rw [dif_neg]
      rintro ⟨L, hL⟩
      rw [scaledKernel_eq] at hL
      exact h (PD.of_smul (c := gp.scale ^ 2) (by positivity) hL.pd)
    rw [this]
    rfl

/-- **C53 (covariance).** With `full_cov` the prediction is the exact posterior covariance matrix of the query points, and its diagonal is the
variance predicted without `full_cov`. -/
theorem C53_covariance (gp : GPModel o) (hs : gp.scale ≠ 0) (X Y pts : List (List ℝ))
    (hl : Y.length = X.length) (s : GPState o) (h : gp.init X Y = .ok s) :
    ∃ C p, gp.buildPredictCov s.feed pts = .ok C ∧ gp.buildPredict s.feed pts = .ok p ∧
      (∀ i j, C i j = posteriorCov gp.kern gp.noise X.get (pts.get i) (pts.get j)) ∧
      ∀ i l, p.var i l = C i i := by
  obtain ⟨c, hc, rfl⟩ := init_inv h
  obtain ⟨⟨p, hp, hpi⟩, C, hC, hCi⟩ := predict_posterior hs hl hc pts
  exact ⟨C, p, hC, hp, hCi, fun i l => by rw [(hpi i l).2, hCi]⟩

/-- **C53 (scale).** Two processes that differ only in the internal scale make the same predictions. -/
theorem C53_scale (gp : GPModel o) (hs : gp.scale ≠ 0) (scale' : ℝ) (hs' : scale' ≠ 0) (beta : ℝ)
    (X Y pts : List (List ℝ)) (hl : Y.length = X.length) (s s' : GPState o)
    (h : gp.init X Y = .ok s) (h' : GPModel.init { gp with scale := scale' } X Y = .ok s') :
    gp.evaluate beta s pts = GPModel.evaluate { gp with scale := scale' } beta s' pts := by
  obtain ⟨m, e, he, hi⟩ := C53_posterior gp hs beta X Y pts hl s h
  obtain ⟨m', e', he', hi'⟩ := C53_posterior { gp with scale := scale' } hs' beta X Y pts hl s' h'
  rw [he, he']
  congr 2
  · ext i l; rw [(hi i l).1, (hi' i l).1]
  · ext i l; rw [(hi i l).2, (hi' i l).2]

/-! A concrete process: the linear kernel `k(x, y) = 1 + x y` with noise 1 on lists of numbers. -/

/-- The linear kernel with offset. -/
noncomputable def linearKernel (x y : List ℝ) : ℝ := 1 + x.getD 0 0 * y.getD 0 0

theorem linearKernel_isKernel : IsKernel linearKernel where
  symm x y := by unfold linearKernel; ring
  nonneg n X c := by
    have : ∑ i, ∑ j, c i * c j * linearKernel (X i) (X j) =
        (∑ i, c i) ^ 2 + (∑ i, c i * (X i).getD 0 0) ^ 2 := by
      rw [sq, sq, Finset.sum_mul_sum, Finset.sum_mul_sum, ← Finset.sum_add_distrib]
      refine Finset.sum_congr rfl fun i _ => ?_
      rw [← Finset.sum_add_distrib]
      exact Finset.sum_congr rfl fun j _ => by unfold linearKernel; ring
    rw [this]
    positivity

/-- A process with the linear kernel, one output, a non-zero mean function and scale 3. -/
noncomputable def exampleGP : GPModel 1 where
  kern := linearKernel
  mean := fun x _ => 2 * x.getD 0 0
  noise := 1
  scale := 3
  xdim := 1

example : ∃ s, exampleGP.init [[1], [2]] [[5], [7]] = .ok s ∧
    ∃ mean error, exampleGP.evaluate 2 s [[0], [4], [1]] = .ok (mean, error) := by
  obtain ⟨s, hs⟩ := C53_defined exampleGP linearKernel_isKernel (by norm_num [exampleGP])
    (by norm_num [exampleGP]) [[1], [2]] [[5], [7]] rfl
  obtain ⟨m, e, h, _⟩ := C53_posterior exampleGP (by norm_num [exampleGP]) 2 [[1], [2]] [[5], [7]]
    [[0], [4], [1]] rfl s hs
  exact ⟨s, hs, m, e, h⟩

/-- Without noise, a repeated data point makes the construction fail. -/
example : GPModel.init { exampleGP with noise := 0 } [[1], [1]] [[5], [5]] = .error .valueError := by
  refine (C53_undefined _ (by norm_num [exampleGP]) [[1], [1]] [[5], [5]] rfl).mpr ?_
  rintro ⟨_, h⟩
  have := h ![1, -1] (fun h => by simpa using congrFun h 0)
  simp [noisyGram, Fin.sum_univ_two, exampleGP, linearKernel] at this

/-! ## C54 -/

/-- A sequence of `add_data_point` calls; the state after the last one if all of them return. -/
noncomputable def addHistory (gp : GPModel o) (s : GPState o) :
    List (Arr ℝ × Arr ℝ) → Except PyErr (GPState o)
  | [] => .ok s
  | (x, y) :: rest =>
    match gp.addDataPoint s x y with
    | (s', .ok ()) => addHistory gp s' rest
    | (_, .error e) => .error e

theorem addDataPoint_inv {gp : GPModel o} {s s' : GPState o} {x y : Arr ℝ}
    (h : gp.addDataPoint s x y = (s', .ok ())) :
    gp.init (s.data.X ++ x.rows) (s.data.Y ++ y.rows) = .ok s' := by
  unfold GPModel.addDataPoint at h
  dsimp only at h
  split at h
  · simp at h
  · rename_i X hX
    split at h
    · simp at h
    · rename_i Y hY
      split at h
      · simp at h
      · rename_i c hc
        unfold vstack at hX hY
        split_ifs at hX hY
        simp only [Except.ok.injEq] at hX hY
        subst hX hY
        rw [init_of_cache hc]
        simp only [Prod.mk.injEq, and_true] at h
        rw [h]

theorem init_data {gp : GPModel o} {X Y : List (List ℝ)} {s : GPState o} (h : gp.init X Y = .ok s) :
    s.data.X = X ∧ s.data.Y = Y ∧ s.feed = s.data := by
  obtain ⟨c, _, rfl⟩ := init_inv h
  exact ⟨rfl, rfl, rfl⟩

/-- **C54.** After any sequence of `add_data_point` calls that all return, the data are the initial data followed by all the added rows
in order, and the whole state (data, cached factorisation, and the copies used for evaluations) is the one of a process built from all the data at
once. -/
theorem C54_history (gp : GPModel o) (X Y : List (List ℝ)) (s : GPState o) (h : gp.init X Y = .ok s)
    (calls : List (Arr ℝ × Arr ℝ)) (t : GPState o) (ht : addHistory gp s calls = .ok t) :
    t.data.X = X ++ calls.flatMap (fun c => c.1.rows) ∧
    t.data.Y = Y ++ calls.flatMap (fun c => c.2.rows) ∧
    gp.init (X ++ calls.flatMap fun c => c.1.rows) (Y ++ calls.flatMap fun c => c.2.rows) = .ok t := by
  suffices key : gp.init (X ++ calls.flatMap fun c => c.1.rows) (Y ++ calls.flatMap fun c => c.2.rows) = .ok t by
    exact ⟨(init_data key).1, (init_data key).2.1, key⟩
  induction calls generalizing X Y s with
  | nil =>
    simp only [addHistory, Except.ok.injEq] at ht
    simpa [← ht] using h
  | cons c rest ih =>
    obtain ⟨x, y⟩ := c
    unfold addHistory at ht
    split at ht
    · rename_i s' hs'
      have h1 := addDataPoint_inv hs'
      obtain ⟨hX, hY, _⟩ := init_data h
      rw [hX, hY] at h1
      have := ih _ _ _ h1 ht
      simpa [List.append_assoc] using this
    · simp at ht

/-- **C54 (prediction).** The predictions after any such sequence are the exact posterior for all the data. -/
theorem C54_prediction (gp : GPModel o) (hs : gp.scale ≠ 0) (beta : ℝ) (X Y pts : List (List ℝ)) (s : GPState o)
    (h : gp.init X Y = .ok s) (calls : List (Arr ℝ × Arr ℝ)) (t : GPState o)
    (ht : addHistory gp s calls = .ok t)
    (hl : Y.length = X.length) (hc : ∀ c ∈ calls, c.2.rows.length = c.1.rows.length) :
    ∃ mean error, gp.evaluate beta t pts = .ok (mean, error) ∧ ∀ i l,
      mean i l = posteriorMean gp.kern (fun x => gp.mean x l) gp.noise
        (X ++ calls.flatMap fun c => c.1.rows).get
        (fun n => entryOf (Y ++ calls.flatMap fun c => c.2.rows) n l) (pts.get i) ∧
      error i l = beta * Real.sqrt (posteriorCov gp.kern gp.noise
        (X ++ calls.flatMap fun c => c.1.rows).get (pts.get i) (pts.get i)) := by
  refine C53_posterior gp hs beta _ _ pts ?_ t (C54_history gp X Y s h calls t ht).2.2
  rw [List.length_append, List.length_append, hl, List.length_flatMap, List.length_flatMap]
  congr 2
  exact List.map_congr_left hc

/-- **C54 (progress).** For a positive semidefinite kernel, positive noise and non-zero scale every sequence of calls with rows of the right widths
and equal numbers of rows returns. -/
theorem C54_accepts (gp : GPModel o) (hk : IsKernel gp.kern) (hn : 0 < gp.noise) (hs : gp.scale ≠ 0)
    (X Y : List (List ℝ)) (hl : Y.length = X.length) (s : GPState o) (h : gp.init X Y = .ok s)
    (calls : List (Arr ℝ × Arr ℝ))
    (hc : ∀ c ∈ calls, c.2.rows.length = c.1.rows.length ∧ (∀ r ∈ c.1.rows, r.length = gp.xdim) ∧
      ∀ r ∈ c.2.rows, r.length = o) :
    ∃ t, addHistory gp s calls = .ok t := by
  induction calls generalizing X Y s with
  | nil => exact ⟨s, rfl⟩
  | cons c rest ih =>
    obtain ⟨x, y⟩ := c
    obtain ⟨h1, h2, h3⟩ := hc _ List.mem_cons_self
    have hl' : (Y ++ y.rows).length = (X ++ x.rows).length := by
      simp only [List.length_append]; dsimp only at h1; omega
    obtain ⟨cache, hcache⟩ := computeCache_ok hk hn hs hl'
    obtain ⟨hX, hY, _⟩ := init_data h
    have hadd : gp.addDataPoint s x y =
        (⟨⟨X ++ x.rows, Y ++ y.rows, cache⟩, ⟨X ++ x.rows, Y ++ y.rows, cache⟩⟩, .ok ()) := by
      unfold GPModel.addDataPoint vstack
      rw [if_pos h2]
      dsimp only
      rw [if_pos h3]
      dsimp only
      rw [hX, hY, hcache]
    unfold addHistory
    rw [hadd]
    exact ih _ _ hl' _ (init_of_cache hcache) fun c hc' => hc c (List.mem_cons_of_mem _ hc')

/-- **C54 (order).** The predictions do not depend on the order in which the data were given. -/
theorem C54_order (gp : GPModel o) (hs : gp.scale ≠ 0) (beta : ℝ) (X Y X' Y' pts : List (List ℝ))
    (hl : Y.length = X.length) (hl' : Y'.length = X'.length)
    (e : Fin X.length ≃ Fin X'.length) (hX : ∀ i, X'.get (e i) = X.get i)
    (hY : ∀ (i : Fin X.length) (l : ℕ), entryOf Y' (e i) l = entryOf Y i l) (s s' : GPState o)
    (h : gp.init X Y = .ok s) (h' : gp.init X' Y' = .ok s') :
    gp.evaluate beta s pts = gp.evaluate beta s' pts := by
  obtain ⟨m, er, he, hi⟩ := C53_posterior gp hs beta X Y pts hl s h
  obtain ⟨m', er', he', hi'⟩ := C53_posterior gp hs beta X' Y' pts hl' s' h'
  rw [he, he']
  have key := fun (l : Fin o) x => posterior_reindex gp.kern (fun x => gp.mean x l) gp.noise X.get X'.get
    (fun n => entryOf Y n l) (fun n => entryOf Y' n l) e hX (fun i => hY i l) x x
  congr 2
  · ext i l; rw [(hi i l).1, (hi' i l).1, (key l _).1]
  · ext i l; rw [(hi i l).2, (hi' i l).2, (key l _).2]

example : ∃ s t, exampleGP.init [[1]] [[5]] = .ok s ∧
    addHistory exampleGP s [(.vector [2], .scalar 7), (.matrix [[0], [3]], .matrix [[1], [2]])] = .ok t ∧
    t.data.X = [[1], [2], [0], [3]] ∧ t.data.Y = [[5], [7], [1], [2]] := by
  obtain ⟨s, hs⟩ := C53_defined exampleGP linearKernel_isKernel (by norm_num [exampleGP])
    (by norm_num [exampleGP]) [[1]] [[5]] rfl
  obtain ⟨t, ht⟩ := C54_accepts exampleGP linearKernel_isKernel (by norm_num [exampleGP])
    (by norm_num [exampleGP]) [[1]] [[5]] rfl s hs
    [(.vector [2], .scalar 7), (.matrix [[0], [3]], .matrix [[1], [2]])] (by
      simp [Arr.rows, exampleGP])
  obtain ⟨h1, h2, _⟩ := C54_history exampleGP _ _ s hs _ t ht
  exact ⟨s, t, hs, ht, by simpa [Arr.rows] using h1, by simpa [Arr.rows] using h2⟩

/-! ## C55 -/

/-- **C55 (bounds).** For a positive semidefinite kernel and non-negative noise, whenever the process could be built, the predicted variance is
between zero and the prior variance. -/
theorem C55_bounds (gp : GPModel o) (hk : IsKernel gp.kern) (hn : 0 ≤ gp.noise) (hs : gp.scale ≠ 0)
    (X Y pts : List (List ℝ)) (hl : Y.length = X.length) (s : GPState o) (h : gp.init X Y = .ok s) :
    ∃ p, gp.buildPredict s.feed pts = .ok p ∧ ∀ i l,
      0 ≤ p.var i l ∧ p.var i l ≤ gp.kern (pts.get i) (pts.get i) := by
  obtain ⟨c, hc, rfl⟩ := init_inv h
  obtain ⟨⟨p, hp, hpi⟩, _⟩ := predict_posterior hs hl hc pts
  have hpd := computeCache_pd hs hc
  refine ⟨p, hp, fun i l => ?_⟩
  rw [(hpi i l).2]
  exact ⟨posteriorCov_nonneg hk hn X.get hpd _, posteriorCov_le_prior X.get hpd _⟩

/-- **C55 (error).** For `beta ≥ 0` the reported error is therefore between zero and `beta` times the prior standard deviation. -/
theorem C55_error (gp : GPModel o) (hk : IsKernel gp.kern) (hn : 0 ≤ gp.noise) (hs : gp.scale ≠ 0)
    (beta : ℝ) (hb : 0 ≤ beta)
    (X Y pts : List (List ℝ)) (hl : Y.length = X.length) (s : GPState o) (h : gp.init X Y = .ok s) :
    ∃ mean error, gp.evaluate beta s pts = .ok (mean, error) ∧ ∀ i l,
      0 ≤ error i l ∧ error i l ≤ beta * Real.sqrt (gp.kern (pts.get i) (pts.get i)) := by
  obtain ⟨p, hp, hpi⟩ := C55_bounds gp hk hn hs X Y pts hl s h
  refine ⟨p.mean, fun i l => beta * Real.sqrt (p.var i l), ?_, fun i l =>
    ⟨mul_nonneg hb (Real.sqrt_nonneg _), mul_le_mul_of_nonneg_left (Real.sqrt_le_sqrt (hpi i l).2) hb⟩⟩
  unfold GPModel.evaluate
  simp [hp, bind, Except.bind, pure, Except.pure]

/-- **C55 (shrinkage).** Adding data by any sequence of calls that return never increases the variance at any query point. -/
theorem C55_shrinks (gp : GPModel o) (hs : gp.scale ≠ 0)
    (X Y pts : List (List ℝ)) (hl : Y.length = X.length) (s : GPState o) (h : gp.init X Y = .ok s)
    (calls : List (Arr ℝ × Arr ℝ)) (hc : ∀ c ∈ calls, c.2.rows.length = c.1.rows.length)
    (t : GPState o) (ht : addHistory gp s calls = .ok t) :
    ∃ p q, gp.buildPredict s.feed pts = .ok p ∧ gp.buildPredict t.feed pts = .ok q ∧
      ∀ i l, q.var i l ≤ p.var i l := by
  have ht' := (C54_history gp X Y s h calls t ht).2.2
  have hl' : (Y ++ calls.flatMap fun c => c.2.rows).length = (X ++ calls.flatMap fun c => c.1.rows).length := by
    rw [List.length_append, List.length_append, hl, List.length_flatMap, List.length_flatMap]
    congr 2
    exact List.map_congr_left hc
  obtain ⟨c, hc, rfl⟩ := init_inv h
  obtain ⟨c', hc', rfl⟩ := init_inv ht'
  obtain ⟨⟨p, hp, hpi⟩, _⟩ := predict_posterior hs hl hc pts
  obtain ⟨⟨q, hq, hqi⟩, _⟩ := predict_posterior hs hl' hc' pts
  refine ⟨p, q, hp, hq, fun i l => ?_⟩
  rw [(hpi i l).2, (hqi i l).2]
  refine posteriorCov_mono _ _ (Fin.castLE (by simp)) (Fin.castLE_injective _) (fun i => ?_)
    (computeCache_pd hs hc) (computeCache_pd hs hc') _
  simp [List.getElem_append_left]

example : ∃ s t p q, exampleGP.init [[1]] [[5]] = .ok s ∧
    addHistory exampleGP s [(.vector [2], .scalar 7)] = .ok t ∧
    exampleGP.buildPredict s.feed [[3]] = .ok p ∧ exampleGP.buildPredict t.feed [[3]] = .ok q ∧
    0 ≤ q.var 0 0 ∧ q.var 0 0 ≤ p.var 0 0 ∧ p.var 0 0 ≤ 10 := by
  have hn : (0 : ℝ) < exampleGP.noise := by norm_num [exampleGP]
  have hsc : exampleGP.scale ≠ 0 := by norm_num [exampleGP]
  obtain ⟨s, hs⟩ := C53_defined exampleGP linearKernel_isKernel hn hsc [[1]] [[5]] rfl
  obtain ⟨t, ht⟩ := C54_accepts exampleGP linearKernel_isKernel hn hsc [[1]] [[5]] rfl s hs
    [(.vector [2], .scalar 7)] (by simp [Arr.rows, exampleGP])
  obtain ⟨p, q, hp, hq, hpq⟩ := C55_shrinks exampleGP hsc [[1]] [[5]] [[3]] rfl s hs _
    (by simp [Arr.rows]) t ht
  obtain ⟨p', hp', hpi⟩ := C55_bounds exampleGP linearKernel_isKernel hn.le hsc [[1]] [[5]] [[3]] rfl s hs
  obtain ⟨q', hq', hqi⟩ := C55_bounds exampleGP linearKernel_isKernel hn.le hsc _ _ [[3]]
    (by simp [Arr.rows]) t (C54_history exampleGP _ _ s hs _ t ht).2.2
  have e1 : p' = p := by rw [hp] at hp'; simpa using hp'.symm
  have e2 : q' = q := by rw [hq] at hq'; simpa using hq'.symm
  refine ⟨s, t, p, q, hs, ht, hp, hq, ?_, hpq 0 0, ?_⟩
  · rw [← e2]; exact (hqi 0 0).1
  · rw [← e1]
    refine (hpi 0 0).2.trans ?_
    norm_num [exampleGP, linearKernel]

/-! ## C77 -/

/-- The full property C77: a call of `add_data_point` that raises leaves the object as it was. -/
def _root_.Spec.FailsCleanly {σ ε : Type} (s : σ) (result : σ × Except ε Unit) : Prop :=
  ∀ e, result.2 = .error e → result.1 = s

/-- **C77, partial.** A call that raises leaves the values used for evaluations, and so all predictions, unchanged. It leaves everything
unchanged if the input rows are the rejected part. Missing: the stored data when the measurements are rejected, which change
(`C77_refuted`). -/
theorem C77_failed_call_partial (gp : GPModel o) (s : GPState o) (x y : Arr ℝ) :
    (∀ e, (gp.addDataPoint s x y).2 = .error e →
      (gp.addDataPoint s x y).1.feed = s.feed ∧
      ∀ beta pts, gp.evaluate beta (gp.addDataPoint s x y).1 pts = gp.evaluate beta s pts) ∧
    ((∃ r ∈ x.rows, r.length ≠ gp.xdim) → FailsCleanly s (gp.addDataPoint s x y)) := by
  have hfeed : ∀ e, (gp.addDataPoint s x y).2 = .error e → (gp.addDataPoint s x y).1.feed = s.feed := by
    intro e he
    unfold GPModel.addDataPoint at he ⊢
    dsimp only at he ⊢
    cases h1 : vstack gp.xdim s.data.X x.rows with
    | error e => rfl
    | ok X =>
      simp only [h1] at he
      cases h2 : vstack o s.data.Y y.rows with
      | error e => rfl
      | ok Y =>
        simp only [h2] at he
        cases h3 : gp.computeCache X Y with
        | error e => simp [h3]
        | ok c => simp [h3] at he
  refine ⟨fun e he => ⟨hfeed e he, fun beta pts => ?_⟩, ?_⟩
  · unfold GPModel.evaluate
    rw [hfeed e he]
  · rintro ⟨r, hr, hne⟩ e _
    unfold GPModel.addDataPoint vstack
    rw [if_neg fun h => hne (h r hr)]

/-- **C77, refuted.** Whatever the process, a call with a valid input row and a measurement of the wrong width raises and leaves an input without measurement
in the data; if the process has at least one data point, then every following call with one valid input and measurement raises as well. -/
theorem C77_refuted (gp : GPModel o) (X Y : List (List ℝ)) (hl : Y.length = X.length) (hX : X ≠ [])
    (s : GPState o) (h : gp.init X Y = .ok s) (x y : List ℝ) (hx : x.length = gp.xdim) (hy : y.length ≠ o) :
    ∃ s', gp.addDataPoint s (.vector x) (.vector y) = (s', .error .valueError) ∧
      ¬ FailsCleanly s (gp.addDataPoint s (.vector x) (.vector y)) ∧
      s'.data.X = X ++ [x] ∧ s'.data.Y = Y ∧
      ∀ x' y' : List ℝ, x'.length = gp.xdim → y'.length = o →
        (gp.addDataPoint s' (.vector x') (.vector y')).2 = .error .valueError := by
  obtain ⟨c, hc, rfl⟩ := init_inv h
  have hr : ∀ v : List ℝ, (Arr.vector v).rows = [v] := fun _ => rfl
  have hcall : gp.addDataPoint ⟨⟨X, Y, c⟩, ⟨X, Y, c⟩⟩ (.vector x) (.vector y) =
      (⟨⟨X ++ [x], Y, c⟩, ⟨X, Y, c⟩⟩, .error .valueError) := by
    unfold GPModel.addDataPoint vstack
    simp [hr, hx, hy]
  refine ⟨_, hcall, ?_, rfl, rfl, fun x' y' hx' hy' => ?_⟩
  · intro hf
    have := congrArg (fun t => t.data.X.length) (hf _ (by rw [hcall]))
    rw [hcall] at this
    simp at this
  · have hpos : 0 < X.length := List.length_pos_iff.mpr hX
    have hcc : gp.computeCache (X ++ [x] ++ [x']) (Y ++ [y']) = .error .valueError := by
      unfold GPModel.computeCache
      rw [if_neg]
      simp only [List.length_append, List.length_cons, List.length_nil]
      omega
    unfold GPModel.addDataPoint vstack
    simp only [hr, List.mem_singleton, forall_eq, hx', hy', if_true]
    rw [hcc]

example : ∃ s s', exampleGP.init [[1]] [[5]] = .ok s ∧
    exampleGP.addDataPoint s (.vector [2]) (.vector [7, 8]) = (s', .error .valueError) ∧
    s'.data.X = [[1], [2]] ∧ s'.data.Y = [[5]] := by
  obtain ⟨s, hs⟩ := C53_defined exampleGP linearKernel_isKernel (by norm_num [exampleGP])
    (by norm_num [exampleGP]) [[1]] [[5]] rfl
  obtain ⟨s', h, _, h1, h2, _⟩ := C77_refuted exampleGP [[1]] [[5]] rfl (by simp) s hs [2] [7, 8] rfl (by simp)
  exact ⟨s, s', hs, h, h1, h2⟩

end SafeLearning
