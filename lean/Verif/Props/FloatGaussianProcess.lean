import Verif.Lemmas.FloatGaussianProcess
import Verif.Props.GaussianProcess
import Verif.Lemmas.Grid
import Mathlib.Analysis.SpecificLimits.Basic
set_option autoImplicit false

/-!
# C150: Gaussian processes in floating point arithmetic (safe_learning/functions.py:395-458, 507-546)
-/

namespace SafeLearning

open Matrix Filter Topology Spec

variable {o : ℕ}

/-- Every result is rounded with a relative error of at most `u` and, because of underflow, an additional absolute error of at most `u`. -/
def _root_.Spec.RoundsNear (fl : ℝ → ℝ) (u : ℝ) : Prop := ∀ x, |fl x - x| ≤ u * (|x| + 1)

/-- The inputs of a process (the values of the kernel and of the mean function, the noise variance and the scale) are those of another one up to relative and
absolute errors of `u`. -/
structure _root_.Spec.InputsNear (gp' gp : GPModel o) (u : ℝ) : Prop where
  kern : ∀ x y, |gp'.kern x y - gp.kern x y| ≤ u * (|gp.kern x y| + 1)
  mean : ∀ x l, |gp'.mean x l - gp.mean x l| ≤ u * (|gp.mean x l| + 1)
  noise : |gp'.noise - gp.noise| ≤ u * (|gp.noise| + 1)
  scale : |gp'.scale - gp.scale| ≤ u * (|gp.scale| + 1)
  xdim : gp'.xdim = gp.xdim

/-- A sequence of `add_data_point` calls in floating point arithmetic; the state after the last one if all of them return. -/
noncomputable def flAddHistory (fl : ℝ → ℝ) (gp : GPModel o) (s : GPState o) :
    List (Arr ℝ × Arr ℝ) → Except PyErr (GPState o)
  | [] => .ok s
  | (x, y) :: rest =>
    match gp.flAddDataPoint fl s x y with
    | (s', .ok ()) => flAddHistory fl gp s' rest
    | (_, .error e) => .error e

theorem flInit_data {fl : ℝ → ℝ} {gp : GPModel o} {X Y : List (List ℝ)} {s : GPState o}
    (h : gp.flInit fl X Y = .ok s) : s.data.X = X ∧ s.data.Y = Y := by
  unfold GPModel.flInit at h
  cases hc : gp.flComputeCache fl X Y with
  | error e => rw [hc] at h; simp [Bind.bind, Except.bind] at h
  | ok c =>
    rw [hc] at h
    simp only [Bind.bind, Except.bind, Pure.pure, Except.pure, Except.ok.injEq] at h
    subst h
    exact ⟨rfl, rfl⟩

theorem flAdd_of_init {fl : ℝ → ℝ} {gp : GPModel o} {X Y : List (List ℝ)} {s t : GPState o} {x y : Arr ℝ}
    (h : gp.flInit fl X Y = .ok s) (hx : ∀ r ∈ x.rows, r.length = gp.xdim) (hy : ∀ r ∈ y.rows, r.length = o)
    (ht : gp.flInit fl (X ++ x.rows) (Y ++ y.rows) = .ok t) : gp.flAddDataPoint fl s x y = (t, .ok ()) := by
  obtain ⟨hX, hY⟩ := flInit_data h
  unfold GPModel.flInit at ht
  unfold GPModel.flAddDataPoint vstack
  rw [if_pos hx, if_pos hy, hX, hY]
  dsimp only
  cases hc : gp.flComputeCache fl (X ++ x.rows) (Y ++ y.rows) with
  | error e => rw [hc] at ht; simp [Bind.bind, Except.bind] at ht
  | ok c =>
    rw [hc] at ht
    simp only [Bind.bind, Except.bind, Pure.pure, Except.pure, Except.ok.injEq] at ht
    subst ht
    rfl

/-- The inputs converge. -/
structure InputsTendTo {ι : Type} (F : Filter ι) (g : ι → GPModel o) (gp : GPModel o) : Prop where
  kern : ∀ x y, Tendsto (fun i => (g i).kern x y) F (𝓝 (gp.kern x y))
  mean : ∀ x l, Tendsto (fun i => (g i).mean x l) F (𝓝 (gp.mean x l))
  noise : Tendsto (fun i => (g i).noise) F (𝓝 gp.noise)
  scale : Tendsto (fun i => (g i).scale) F (𝓝 gp.scale)

section Limit

variable {ι : Type} {F : Filter ι} {fl : ι → ℝ → ℝ} {g : ι → GPModel o} {gp : GPModel o}

theorem flScaleSq_tendsto (h : Rounds F fl) (hg : InputsTendTo F g gp) :
    Tendsto (fun i => (g i).flScaleSq (fl i)) F (𝓝 (gp.scale ^ 2)) := by
  rw [sq]
  exact h _ _ (hg.scale.mul hg.scale)

theorem flScaledKernel_tendsto (h : Rounds F fl) (hg : InputsTendTo F g gp) (X : List (List ℝ)) (j k : Fin X.length) :
    Tendsto (fun i => (g i).flScaledKernel (fl i) X j k) F (𝓝 (gp.scaledKernel X j k)) :=
  h _ _ ((h _ _ ((hg.kern _ _).add (h _ _ (hg.noise.const_mul _)))).mul (flScaleSq_tendsto h hg))

theorem flTarget_tendsto (h : Rounds F fl) (hg : InputsTendTo F g gp) (X Y : List (List ℝ)) (j : Fin X.length) (l : Fin o) :
    Tendsto (fun i => (g i).flTarget (fl i) X Y j l) F (𝓝 (gp.target X Y j l)) :=
  h _ _ (hg.scale.mul (h _ _ (tendsto_const_nhds.sub (hg.mean _ _))))

theorem flCross_tendsto (h : Rounds F fl) (hg : InputsTendTo F g gp) (n : ℕ) (X Xnew : List (List ℝ)) (j : Fin n)
    (k : Fin Xnew.length) : Tendsto (fun i => (g i).flCross (fl i) n X Xnew j k) F (𝓝 (gp.cross n X Xnew j k)) :=
  h _ _ ((flScaleSq_tendsto h hg).mul (hg.kern _ _))

/-- As the errors vanish, the process is constructed and its predictions converge to the exact posterior. -/
theorem flPredict_tendsto (h : Rounds F fl) (hg : InputsTendTo F g gp) (hk : IsKernel gp.kern) (hn : 0 < gp.noise)
    (hs : gp.scale ≠ 0) (X Y pts : List (List ℝ)) (hl : Y.length = X.length) :
    ∃ (s : ι → GPState o) (p : ι → GPPrediction pts.length o),
      (∀ᶠ i in F, (g i).flInit (fl i) X Y = .ok (s i)) ∧
      (∀ i, (g i).flBuildPredict (fl i) (s i).feed pts = .ok (p i)) ∧ ∀ j l,
      Tendsto (fun i => (p i).mean j l) F (𝓝 (posteriorMean gp.kern (fun x => gp.mean x l) gp.noise X.get
        (fun n => entryOf Y n l) (pts.get j))) ∧
      Tendsto (fun i => (p i).var j l) F (𝓝 (posteriorCov gp.kern gp.noise X.get (pts.get j) (pts.get j))) := by
  obtain ⟨c, hc⟩ := computeCache_ok hk hn hs hl
  obtain ⟨⟨q, hq, hqe⟩, _⟩ := predict_posterior hs hl hc pts
  obtain ⟨_, L, hL, rfl⟩ := computeCache_inv hc
  rw [← scaledKernel_eq] at hL
  obtain ⟨M, hM, hMt⟩ := flCholesky_tendsto h (fun i => (g i).flScaledKernel (fl i) X) _ _
    (flScaledKernel_tendsto h hg X) hL
  have hd : ∀ j, L j j ≠ 0 := fun j => (hL.pos j).ne'
  have ha : ∀ (k : Fin pts.length) (j : Fin X.length), Tendsto (fun i => flTriangularSolve (fl i) (M i)
      ((g i).flCross (fl i) X.length X pts) j k) F (𝓝 (triangularSolve L (gp.cross X.length X pts) j k)) := fun k j =>
    flForwardSubst_tendsto h M L _ _ hMt hd (fun m => flCross_tendsto h hg _ _ _ m k) j
  have hal : ∀ (l : Fin o) (j : Fin X.length), Tendsto (fun i => flTriangularSolve (fl i) (M i)
      ((g i).flTarget (fl i) X Y) j l) F (𝓝 (triangularSolve L (gp.target X Y) j l)) := fun l j =>
    flForwardSubst_tendsto h M L _ _ hMt hd (fun m => flTarget_tendsto h hg _ _ m l) j
  have hss := flScaleSq_tendsto h hg
  have hs2 : gp.scale ^ 2 ≠ 0 := pow_ne_zero 2 hs
  refine ⟨fun i => ⟨⟨X, Y, ⟨X.length, M i, flTriangularSolve (fl i) (M i) ((g i).flTarget (fl i) X Y)⟩⟩,
    ⟨X, Y, ⟨X.length, M i, flTriangularSolve (fl i) (M i) ((g i).flTarget (fl i) X Y)⟩⟩⟩, _, ?_,
    fun i => by unfold GPModel.flBuildPredict; rw [if_pos rfl], fun j l => ⟨?_, ?_⟩⟩
  · filter_upwards [hM] with i hi
    unfold GPModel.flInit GPModel.flComputeCache
    rw [if_pos (Or.inl hl), hi]
    rfl
  · rw [← (hqe j l).1]
    unfold GPModel.buildPredict at hq
    rw [if_pos rfl] at hq
    simp only [Except.ok.injEq] at hq
    subst hq
    dsimp only
    refine h _ _ ((h _ _ (Tendsto.add ?_ (h _ _ (hg.scale.mul (hg.mean _ _))))).div hg.scale hs)
    exact flSumProducts_tendsto h (fun k => ha j k) fun k => hal l k
  · rw [← (hqe j l).2]
    unfold GPModel.buildPredict at hq
    rw [if_pos rfl] at hq
    simp only [Except.ok.injEq] at hq
    subst hq
    dsimp only
    refine h _ _ ((h _ _ (Tendsto.sub (h _ _ (hss.mul (hg.kern _ _))) ?_)).div hss hs2)
    simp only [sq (GPModel.solved _ _ _ _ _)]
    exact flSumProducts_tendsto h (fun k => ha j k) fun k => ha j k

theorem flHistory_eventually (h : Rounds F fl) (hg : InputsTendTo F g gp) (hx : ∀ i, (g i).xdim = gp.xdim)
    (hk : IsKernel gp.kern) (hn : 0 < gp.noise)
    (hs : gp.scale ≠ 0) (calls : List (Arr ℝ × Arr ℝ))
    (hc : ∀ c ∈ calls, c.2.rows.length = c.1.rows.length ∧ (∀ r ∈ c.1.rows, r.length = gp.xdim) ∧
      ∀ r ∈ c.2.rows, r.length = o) : ∀ (X Y : List (List ℝ)), Y.length = X.length →
    ∀ᶠ i in F, ∃ s t, (g i).flInit (fl i) X Y = .ok s ∧ flAddHistory (fl i) (g i) s calls = .ok t ∧
      (g i).flInit (fl i) (X ++ calls.flatMap fun c => c.1.rows) (Y ++ calls.flatMap fun c => c.2.rows) = .ok t := by
  induction calls with
  | nil =>
    intro X Y hl
    obtain ⟨s, _, h1, _⟩ := flPredict_tendsto h hg hk hn hs X Y [] hl
    filter_upwards [h1] with i hi
    exact ⟨s i, s i, hi, rfl, by simpa using hi⟩
  | cons c rest ih =>
    intro X Y hl
    obtain ⟨x, y⟩ := c
    obtain ⟨h1, h2, h3⟩ := hc _ List.mem_cons_self
    have hl' : (Y ++ y.rows).length = (X ++ x.rows).length := by
      simp only [List.length_append]; dsimp only at h1; omega
    obtain ⟨s, _, h4, _⟩ := flPredict_tendsto h hg hk hn hs X Y [] hl
    filter_upwards [h4, ih (fun c hc' => hc c (List.mem_cons_of_mem _ hc')) _ _ hl'] with i hi ⟨s', t, h5, h6, h7⟩
    refine ⟨s i, t, hi, ?_, ?_⟩
    · unfold flAddHistory
      rw [flAdd_of_init hi (fun r hr => by rw [hx]; exact h2 r hr) h3 h5]
      exact h6
    · simpa [List.append_assoc] using h7

end Limit

/-- Roundings and inputs with errors `1 / (n + 1)` have vanishing errors. -/
theorem tendsto_of_near {a b : ℕ → ℝ} {x : ℝ} (hb : Tendsto b atTop (𝓝 x))
    (h : ∀ n : ℕ, |a n - b n| ≤ 1 / ((n : ℝ) + 1) * (|b n| + 1)) : Tendsto a atTop (𝓝 x) := by
  have h1 : Tendsto (fun n : ℕ => 1 / ((n : ℝ) + 1) * (|b n| + 1)) atTop (𝓝 (0 * (|x| + 1))) :=
    tendsto_one_div_add_atTop_nhds_zero_nat.mul (hb.abs.add_const 1)
  rw [zero_mul] at h1
  have h2 : Tendsto (fun n => a n - b n) atTop (𝓝 0) := squeeze_zero_norm h h1
  simpa using h2.add hb

/-- To find a sufficient accuracy, it is enough to consider sequences of programs whose errors vanish. -/
theorem exists_accuracy {gp : GPModel o} {P : (ℝ → ℝ) → GPModel o → Prop}
    (h : ∀ (fl : ℕ → ℝ → ℝ) (g : ℕ → GPModel o), (∀ n : ℕ, RoundsNear (fl n) (1 / ((n : ℝ) + 1))) →
      (∀ n : ℕ, InputsNear (g n) gp (1 / ((n : ℝ) + 1))) → ∃ n, P (fl n) (g n)) :
    ∃ u > 0, ∀ (fl : ℝ → ℝ) (gp' : GPModel o), RoundsNear fl u → InputsNear gp' gp u → P fl gp' := by
  by_contra hcon
  have hcon' : ∀ n : ℕ, ∃ (fl : ℝ → ℝ) (gp' : GPModel o), RoundsNear fl (1 / ((n : ℝ) + 1)) ∧
      InputsNear gp' gp (1 / ((n : ℝ) + 1)) ∧ ¬ P fl gp' := by
    intro n
    by_contra h
    refine hcon ⟨1 / ((n : ℝ) + 1), by positivity, fun fl gp' h1 h2 => ?_⟩
    by_contra h3
    exact h ⟨fl, gp', h1, h2, h3⟩
  choose fl g hfl hg hbad using hcon'
  obtain ⟨n, hn⟩ := h fl g hfl hg
  exact hbad n hn

/-- **C150.** Take any Gaussian process with a positive semidefinite kernel, positive noise and non-zero scale, any initial data, any later `add_data_point` calls and any query
points. For every tolerance there is an accuracy `u > 0` such that, if every operation is rounded with errors of at most `u`, and the
values of the kernel, the mean function, the noise and the scale have errors of at most `u`, the construction and all the calls return, and so does the evaluation. The computed
mean is then within the tolerance of the exact posterior mean for all the data. The computed error bound, if it is a number, is within the tolerance of `beta` times the exact
posterior standard deviation; and it is a number wherever the exact posterior variance is positive. -/
theorem C150_accuracy (gp : GPModel o) (hk : IsKernel gp.kern) (hn : 0 < gp.noise) (hs : gp.scale ≠ 0) (beta : ℝ)
    (X Y pts : List (List ℝ)) (hl : Y.length = X.length) (calls : List (Arr ℝ × Arr ℝ))
    (hc : ∀ c ∈ calls, c.2.rows.length = c.1.rows.length ∧ (∀ r ∈ c.1.rows, r.length = gp.xdim) ∧
      ∀ r ∈ c.2.rows, r.length = o) (tol : ℝ) (htol : 0 < tol) :
    ∃ u > 0, ∀ (fl : ℝ → ℝ) (gp' : GPModel o), RoundsNear fl u → InputsNear gp' gp u →
      ∃ s t mean error, gp'.flInit fl X Y = .ok s ∧ flAddHistory fl gp' s calls = .ok t ∧
        gp'.flEvaluate fl beta t pts = .ok (mean, error) ∧ ∀ i l,
        |mean i l - posteriorMean gp.kern (fun x => gp.mean x l) gp.noise (X ++ calls.flatMap fun c => c.1.rows).get
          (fun n => entryOf (Y ++ calls.flatMap fun c => c.2.rows) n l) (pts.get i)| ≤ tol ∧
        (∀ e, error i l = some e → |e - beta * Real.sqrt (posteriorCov gp.kern gp.noise
          (X ++ calls.flatMap fun c => c.1.rows).get (pts.get i) (pts.get i))| ≤ tol) ∧
        (0 < posteriorCov gp.kern gp.noise (X ++ calls.flatMap fun c => c.1.rows).get (pts.get i) (pts.get i) →
          ∃ e, error i l = some e) := by
  refine exists_accuracy fun fl g hfl hg => ?_
  have h : Rounds atTop fl := fun a x ha => tendsto_of_near ha fun n => hfl n (a n)
  have hi : InputsTendTo atTop g gp :=
    ⟨fun x y => tendsto_of_near tendsto_const_nhds fun n => (hg n).kern x y,
     fun x l => tendsto_of_near tendsto_const_nhds fun n => (hg n).mean x l,
     tendsto_of_near tendsto_const_nhds fun n => (hg n).noise,
     tendsto_of_near tendsto_const_nhds fun n => (hg n).scale⟩
  have hl' : (Y ++ calls.flatMap fun c => c.2.rows).length = (X ++ calls.flatMap fun c => c.1.rows).length := by
    rw [List.length_append, List.length_append, hl, List.length_flatMap, List.length_flatMap]
    congr 2
    exact List.map_congr_left fun c hcc => (hc c hcc).1
  obtain ⟨S, p, hS, hp, hlim⟩ := flPredict_tendsto h hi hk hn hs _ _ pts hl'
  have hhist := flHistory_eventually h hi (fun n => (hg n).xdim) hk hn hs calls hc X Y hl
  have hmean : ∀ᶠ n in atTop, ∀ i l, |(p n).mean i l - posteriorMean gp.kern (fun x => gp.mean x l) gp.noise
      (X ++ calls.flatMap fun c => c.1.rows).get
      (fun n => entryOf (Y ++ calls.flatMap fun c => c.2.rows) n l) (pts.get i)| ≤ tol := by
    refine eventually_all.mpr fun i => eventually_all.mpr fun l => ?_
    filter_upwards [Metric.tendsto_nhds.mp (hlim i l).1 tol htol] with n hn
    rw [Real.dist_eq] at hn
    exact hn.le
  have herr : ∀ᶠ n in atTop, ∀ i l, |fl n (beta * fl n (Real.sqrt ((p n).var i l))) - beta * Real.sqrt (posteriorCov gp.kern gp.noise
          (X ++ calls.flatMap fun c => c.1.rows).get (pts.get i) (pts.get i))| ≤ tol := by
    refine eventually_all.mpr fun i => eventually_all.mpr fun l => ?_
    have h1 := h _ _ ((h _ _ ((Real.continuous_sqrt.tendsto _).comp (hlim i l).2)).const_mul beta)
    filter_upwards [Metric.tendsto_nhds.mp h1 tol htol] with n hn
    rw [Real.dist_eq] at hn
    exact hn.le
  have hpos : ∀ᶠ n in atTop, ∀ i l, 0 < posteriorCov gp.kern gp.noise (X ++ calls.flatMap fun c => c.1.rows).get
      (pts.get i) (pts.get i) → 0 < (p n).var i l := by
    refine eventually_all.mpr fun i => eventually_all.mpr fun l => ?_
    by_cases h0 : 0 < posteriorCov gp.kern gp.noise (X ++ calls.flatMap fun c => c.1.rows).get (pts.get i) (pts.get i)
    · filter_upwards [(hlim i l).2.eventually (lt_mem_nhds h0)] with n hn _
      exact hn
    · exact Eventually.of_forall fun n h1 => absurd h1 h0
  obtain ⟨n, h1, ⟨s, t, h2, h3, h4⟩, h5, h6, h7⟩ := (hS.and (hhist.and (hmean.and (herr.and hpos)))).exists
  rw [h1] at h4
  simp only [Except.ok.injEq] at h4
  subst h4
  refine ⟨n, s, S n, (p n).mean, fun i l => (GPModel.flSqrt (fl n) ((p n).var i l)).map fun r => fl n (beta * r), h2, h3, ?_,
    fun i l => ⟨h5 i l, fun e he => ?_, fun h0 => ?_⟩⟩
  · unfold GPModel.flEvaluate
    rw [hp]
    rfl
  · dsimp only at he
    unfold GPModel.flSqrt at he
    split_ifs at he with hneg
    · simp at he
    · simp only [Option.map_some, Option.some.injEq] at he
      rw [← he]
      exact h6 i l
  · refine ⟨fl n (beta * fl n (Real.sqrt ((p n).var i l))), ?_⟩
    dsimp only
    unfold GPModel.flSqrt
    rw [if_neg (not_lt.mpr (h7 i l h0).le)]
    rfl

/-- **C150 (confidence intervals).** With such an accuracy, a function that lies in the exact confidence intervals of the posterior at the query points also lies in the
computed intervals, after enlarging them by the tolerance. -/
theorem C150_confidence (gp : GPModel o) (hk : IsKernel gp.kern) (hn : 0 < gp.noise) (hs : gp.scale ≠ 0) (beta : ℝ)
    (X Y pts : List (List ℝ)) (hl : Y.length = X.length) (calls : List (Arr ℝ × Arr ℝ))
    (hc : ∀ c ∈ calls, c.2.rows.length = c.1.rows.length ∧ (∀ r ∈ c.1.rows, r.length = gp.xdim) ∧
      ∀ r ∈ c.2.rows, r.length = o) (tol : ℝ) (htol : 0 < tol) :
    ∃ u > 0, ∀ (fl : ℝ → ℝ) (gp' : GPModel o), RoundsNear fl u → InputsNear gp' gp u →
      ∃ s t mean error, gp'.flInit fl X Y = .ok s ∧ flAddHistory fl gp' s calls = .ok t ∧
        gp'.flEvaluate fl beta t pts = .ok (mean, error) ∧
        ∀ (f : List ℝ → Fin o → ℝ) (i : Fin pts.length) (l : Fin o) (e : ℝ), error i l = some e →
        |f (pts.get i) l - posteriorMean gp.kern (fun x => gp.mean x l) gp.noise (X ++ calls.flatMap fun c => c.1.rows).get
          (fun n => entryOf (Y ++ calls.flatMap fun c => c.2.rows) n l) (pts.get i)| ≤
          beta * Real.sqrt (posteriorCov gp.kern gp.noise (X ++ calls.flatMap fun c => c.1.rows).get (pts.get i) (pts.get i)) →
        |f (pts.get i) l - mean i l| ≤ e + tol := by
  obtain ⟨u, hu, h⟩ := C150_accuracy gp hk hn hs beta X Y pts hl calls hc (tol / 2) (half_pos htol)
  refine ⟨u, hu, fun fl gp' h1 h2 => ?_⟩
  obtain ⟨s, t, mean, error, h3, h4, h5, h6⟩ := h fl gp' h1 h2
  refine ⟨s, t, mean, error, h3, h4, h5, fun f i l e he hf => ?_⟩
  obtain ⟨h7, h8, _⟩ := h6 i l
  have h9 := h8 e he
  rw [abs_le] at *
  constructor <;> linarith [hf.1, hf.2, h7.1, h7.2, h9.1, h9.2]

/-! The hypotheses are met by the process with the linear kernel, with a history of two calls. -/

example : ∃ u > 0, ∀ (fl : ℝ → ℝ) (gp' : GPModel 1), RoundsNear fl u → InputsNear gp' exampleGP u →
    ∃ s t mean error, gp'.flInit fl [[1], [2]] [[5], [7]] = .ok s ∧
      flAddHistory fl gp' s [(.vector [3], .vector [6]), (.matrix [[0], [1]], .matrix [[1], [4]])] = .ok t ∧
      gp'.flEvaluate fl 2 t [[0], [4], [1]] = .ok (mean, error) := by
  obtain ⟨u, hu, h⟩ := C150_accuracy exampleGP linearKernel_isKernel (by norm_num [exampleGP])
    (by norm_num [exampleGP]) 2 [[1], [2]] [[5], [7]] [[0], [4], [1]] rfl
    [(.vector [3], .vector [6]), (.matrix [[0], [1]], .matrix [[1], [4]])] (by simp [Arr.rows, exampleGP]) (1 / 100) (by norm_num)
  refine ⟨u, hu, fun fl gp' h1 h2 => ?_⟩
  obtain ⟨s, t, m, e, h3, h4, h5, _⟩ := h fl gp' h1 h2
  exact ⟨s, t, m, e, h3, h4, h5⟩

/-- Exact arithmetic with exact inputs has every accuracy. -/
example (u : ℝ) (hu : 0 < u) : RoundsNear id u ∧ InputsNear exampleGP exampleGP u := by
  have h : ∀ x : ℝ, |x - x| ≤ u * (|x| + 1) := fun x => by rw [sub_self, abs_zero]; positivity
  exact ⟨h, fun _ _ => h _, fun _ _ => h _, h _, h _, rfl⟩

/-! ## NaN -/

theorem roundBinaryReal_eq {x : ℝ} (m e : ℤ) (h1 : (2 : ℝ) ^ (e + 52) ≤ |x|) (h2 : |x| < (2 : ℝ) ^ (e + 53))
    (h3 : |x / (2 : ℝ) ^ e - m| < 1 / 2) : roundBinaryReal 53 x = m * (2 : ℝ) ^ e := by
  have hx : 0 < |x| := lt_of_lt_of_le (by positivity) h1
  have hlog : Int.log 2 |x| = e + 52 := by
    apply le_antisymm
    · have := (Int.lt_zpow_iff_log_lt (b := 2) (by norm_num) hx (x := e + 53)).mp (by exact_mod_cast h2)
      omega
    · exact (Int.zpow_le_iff_le_log (b := 2) (by norm_num) hx).mp (by exact_mod_cast h1)
  unfold roundBinaryReal
  rw [if_neg (abs_pos.mp hx), hlog]
  have he : e + 52 + 1 - ((53 : ℕ) : ℤ) = e := by push_cast; ring
  dsimp only
  rw [he, rint_eq_of_abs_lt h3]

theorem roundBinaryReal_zero : roundBinaryReal 53 0 = 0 := if_pos rfl

/-- Double precision rounds with a relative error of at most `2 ^ (-53)`. -/
theorem roundBinaryReal_near : RoundsNear (roundBinaryReal 53) (1 / 2 ^ 53) := by
  intro x
  by_cases hx : x = 0
  · rw [hx, roundBinaryReal_zero]
    simp
  · have hpos : 0 < |x| := abs_pos.mpr hx
    unfold roundBinaryReal
    rw [if_neg hx]
    dsimp only
    obtain ⟨e, he⟩ : ∃ e, e = Int.log 2 |x| + 1 - ((53 : ℕ) : ℤ) := ⟨_, rfl⟩
    rw [← he]
    have h2 : (0 : ℝ) < (2 : ℝ) ^ e := by positivity
    have h1 := rint_abs_le (x / (2 : ℝ) ^ e)
    have h3 : x = x / (2 : ℝ) ^ e * (2 : ℝ) ^ e := by field_simp
    have h4 : |(rint (x / (2 : ℝ) ^ e) : ℝ) * (2 : ℝ) ^ e - x| ≤ 1 / 2 * (2 : ℝ) ^ e := by
      nth_rw 2 [h3]
      rw [← sub_mul, abs_mul, abs_of_pos h2, abs_sub_comm]
      exact mul_le_mul_of_nonneg_right h1 h2.le
    have h5 : (2 : ℝ) ^ (e + 52) ≤ |x| := by
      have := Int.zpow_log_le_self (b := 2) (by norm_num) hpos
      have he' : e + 52 = Int.log 2 |x| := by rw [he]; push_cast; ring
      rw [he']
      exact_mod_cast this
    rw [zpow_add₀ (by norm_num)] at h5
    norm_num at h5 ⊢
    linarith

/-- A process with the constant kernel 3 and very small noise. -/
noncomputable def threeGP : GPModel 1 where
  kern := fun _ _ => 3
  mean := fun _ _ => 0
  noise := 1 / 2 ^ 60
  scale := 1
  xdim := 1

theorem threeGP_kernel : IsKernel threeGP.kern where
  symm _ _ := rfl
  nonneg n X c := by
    have : ∑ i, ∑ j, c i * c j * threeGP.kern (X i) (X j) = 3 * (∑ i, c i) ^ 2 := by
      rw [sq, Finset.sum_mul_sum, Finset.mul_sum]
      refine Finset.sum_congr rfl fun i _ => ?_
      rw [Finset.mul_sum]
      exact Finset.sum_congr rfl fun j _ => by simp only [threeGP]; ring
    rw [this]
    positivity

theorem round_one : roundBinaryReal 53 1 = 1 := by
  rw [roundBinaryReal_eq (2 ^ 52) (-52) (by norm_num) (by norm_num) (by norm_num)]
  norm_num

theorem round_three : roundBinaryReal 53 3 = 3 := by
  rw [roundBinaryReal_eq (3 * 2 ^ 51) (-51) (by norm_num) (by norm_num) (by norm_num)]
  norm_num

theorem round_noise : roundBinaryReal 53 (1 / 2 ^ 60) = 1 / 2 ^ 60 := by
  rw [roundBinaryReal_eq (2 ^ 52) (-112) (by norm_num [abs_of_pos]) (by norm_num [abs_of_pos]) (by norm_num)]
  norm_num

theorem round_three_noise : roundBinaryReal 53 (3 + 1 / 2 ^ 60) = 3 := by
  rw [roundBinaryReal_eq (3 * 2 ^ 51) (-51) (by norm_num [abs_of_pos]) (by norm_num [abs_of_pos])
    (by norm_num [abs_of_pos])]
  norm_num

theorem round_sqrt_three : roundBinaryReal 53 (Real.sqrt 3) = 7800463371553962 / 2 ^ 52 := by
  have h1 : (7800463371553962 / 2 ^ 52 - 1 / 2 ^ 53 : ℝ) < Real.sqrt 3 := Real.lt_sqrt_of_sq_lt (by norm_num)
  have h2 : Real.sqrt 3 < (7800463371553962 / 2 ^ 52 + 1 / 2 ^ 53 : ℝ) := (Real.sqrt_lt' (by norm_num)).mpr (by norm_num)
  have h0 : |Real.sqrt 3| = Real.sqrt 3 := abs_of_nonneg (Real.sqrt_nonneg _)
  rw [roundBinaryReal_eq 7800463371553962 (-52) ?_ ?_ ?_]
  · norm_num
  · rw [h0]; exact (by norm_num : _ ≤ (7800463371553962 / 2 ^ 52 - 1 / 2 ^ 53 : ℝ)).trans h1.le
  · rw [h0]; exact h2.trans (by norm_num)
  · rw [abs_lt]; constructor <;> norm_num at h1 h2 ⊢ <;> linarith

theorem round_quotient : roundBinaryReal 53 (3 / (7800463371553962 / 2 ^ 52)) = 7800463371553963 / 2 ^ 52 := by
  rw [roundBinaryReal_eq 7800463371553963 (-52) (by norm_num [abs_of_pos]) (by norm_num [abs_of_pos])
    (by norm_num [abs_lt])]
  norm_num

theorem round_square : roundBinaryReal 53 (7800463371553963 / 2 ^ 52 * (7800463371553963 / 2 ^ 52)) =
    6755399441055745 / 2 ^ 51 := by
  rw [roundBinaryReal_eq 6755399441055745 (-51) (by norm_num [abs_of_pos]) (by norm_num [abs_of_pos])
    (by norm_num [abs_lt])]
  norm_num

theorem round_square' : roundBinaryReal 53 (6755399441055745 / 2 ^ 51) = 6755399441055745 / 2 ^ 51 := by
  rw [roundBinaryReal_eq 6755399441055745 (-51) (by norm_num [abs_of_pos]) (by norm_num [abs_of_pos])
    (by norm_num)]
  norm_num

theorem round_negative : roundBinaryReal 53 (3 - 6755399441055745 / 2 ^ 51) = -(1 / 2 ^ 51) := by
  rw [roundBinaryReal_eq (-2 ^ 52) (-103) (by norm_num [abs_of_neg]) (by norm_num [abs_of_neg])
    (by norm_num)]
  norm_num

theorem round_negative' : roundBinaryReal 53 (-(1 / 2 ^ 51)) = -(1 / 2 ^ 51) := by
  rw [roundBinaryReal_eq (-2 ^ 52) (-103) (by norm_num) (by norm_num) (by norm_num)]
  norm_num

theorem flCholesky_one (fl : ℝ → ℝ) (A : Matrix (Fin 1) (Fin 1) ℝ) :
    flCholesky fl A = if 0 < A 0 0 then .ok (fun _ _ => fl (Real.sqrt (A 0 0))) else .error .valueError := by
  change flCholesky (n := 0 + 1) fl A = _
  simp only [flCholesky, Bind.bind, Except.bind, Pure.pure, Except.pure, List.ofFn_zero]
  have h : flSubProducts fl (A (Fin.last 0) (Fin.last 0)) [] = A 0 0 := rfl
  rw [h]
  split_ifs
  · congr 1
  · rfl

theorem flForwardSubst_one (fl : ℝ → ℝ) (L : Matrix (Fin 1) (Fin 1) ℝ) (b : Fin 1 → ℝ) (i : Fin 1) :
    flForwardSubst fl L b i = fl (b 0 / L 0 0) := by
  obtain rfl : i = Fin.last 0 := Subsingleton.elim _ _
  change flForwardSubst (n := 0 + 1) fl L b _ = _
  simp only [flForwardSubst, Fin.snoc_last, List.ofFn_zero]
  rfl

/-- **C150 (refuted for a fixed precision).** In double precision the error bound can be NaN although the exact posterior variance is positive: with the constant kernel 3, the noise
`2 ^ (-60)`, scale 1 and one data point, the construction and the evaluation at the data point return, but the computed variance is
negative. -/
theorem C150_nan_refuted (beta : ℝ) :
    IsKernel threeGP.kern ∧ 0 < posteriorCov threeGP.kern threeGP.noise [[(0 : ℝ)]].get [0] [0] ∧
    ∃ s mean error, threeGP.flInit (roundBinaryReal 53) [[0]] [[0]] = .ok s ∧
      threeGP.flEvaluate (roundBinaryReal 53) beta s [[0]] = .ok (mean, error) ∧ error 0 0 = none := by
  refine ⟨threeGP_kernel, ?_, ?_⟩
  · have h : posteriorCov threeGP.kern threeGP.noise [[(0 : ℝ)]].get [0] [0] = 3 - 3 * (3 + 1 / 2 ^ 60)⁻¹ * 3 := by
      change posteriorCov (n := 1) _ _ _ _ _ = _
      simp [posteriorCov, noisyGram, threeGP, dotProduct, mulVec]
      ring
    rw [h]
    norm_num
  · have hss : threeGP.flScaleSq (roundBinaryReal 53) = 1 := by
      simp only [GPModel.flScaleSq, threeGP, mul_one]
      exact round_one
    have hA : threeGP.flScaledKernel (roundBinaryReal 53) [[0]] = fun _ _ => 3 := by
      funext i j
      obtain rfl : i = j := Subsingleton.elim (α := Fin 1) i j
      rw [GPModel.flScaledKernel, hss, if_pos rfl, mul_one, one_mul]
      simp only [threeGP]
      rw [round_noise, round_three_noise, round_three]
    have hL : flCholesky (roundBinaryReal 53) (threeGP.flScaledKernel (roundBinaryReal 53) [[0]]) =
        .ok (fun _ _ => 7800463371553962 / 2 ^ 52) := by
      rw [hA]
      exact (flCholesky_one _ _).trans (by rw [if_pos (by norm_num), round_sqrt_three]; rfl)
    have hK : threeGP.flCross (roundBinaryReal 53) 1 [[0]] [[0]] = fun _ _ => 3 := by
      funext i j
      rw [GPModel.flCross, hss, one_mul]
      exact round_three
    have ha : flTriangularSolve (roundBinaryReal 53) (n := 1) (fun _ _ => 7800463371553962 / 2 ^ 52)
        (threeGP.flCross (roundBinaryReal 53) 1 [[0]] [[0]]) = fun _ _ => 7800463371553963 / 2 ^ 52 := by
      rw [hK]
      funext i j
      exact (flForwardSubst_one _ _ _ i).trans round_quotient
    obtain ⟨D, hD⟩ : ∃ D : GPData 1, D = ⟨[[0]], [[0]], ⟨1, fun _ _ => 7800463371553962 / 2 ^ 52,
      flTriangularSolve (roundBinaryReal 53) (n := 1) (fun _ _ => 7800463371553962 / 2 ^ 52)
        (threeGP.flTarget (roundBinaryReal 53) [[0]] [[0]])⟩⟩ := ⟨_, rfl⟩
    refine ⟨⟨D, D⟩, _, _, ?_, by unfold GPModel.flEvaluate GPModel.flBuildPredict; rw [if_pos (by rw [hD]; rfl)]; rfl, ?_⟩
    · unfold GPModel.flInit GPModel.flComputeCache
      rw [if_pos (Or.inl rfl), hL, hD]
      rfl
    · subst hD
      have hvar : roundBinaryReal 53 (roundBinaryReal 53 (roundBinaryReal 53 (1 * 3) -
          flSumProducts (roundBinaryReal 53) (List.ofFn fun _ : Fin 1 =>
            ((7800463371553963 / 2 ^ 52 : ℝ), (7800463371553963 / 2 ^ 52 : ℝ)))) / 1) = -(1 / 2 ^ 51) := by
        simp only [flSumProducts, List.ofFn_succ, List.ofFn_zero, List.foldl_cons, List.foldl_nil]
        rw [round_square, zero_add, round_square', one_mul, round_three, round_negative, div_one, round_negative']
      dsimp only
      unfold GPModel.flSolved
      dsimp only
      rw [hss, ha]
      simp only [threeGP]
      rw [hvar]
      unfold GPModel.flSqrt
      rw [if_pos (by norm_num)]
      rfl

end SafeLearning
