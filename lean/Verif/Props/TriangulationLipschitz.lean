import Verif.Props.ContinuityBoundary
import Verif.Model.Setup
import Verif.Spec.Setup
import Mathlib.Analysis.Calculus.MeanValue
set_option autoImplicit false

/-!
# C118: a bound on the gradient of a triangulation is a Lipschitz constant
-/

namespace SafeLearning

open Spec Topology Filter

variable {d o : ℕ} {eps : ℝ} {project : Bool}

/-- A continuous function on a convex set that has the constant `L` on each of finitely many pieces has the constant `L`. -/
theorem lipschitz_of_labels {ι : Type} [Finite ι] (f : (Fin d → ℝ) → ℝ) (σ : (Fin d → ℝ) → ι) (A : Set (Fin d → ℝ))
    (hA : Convex ℝ A) (hc : ContinuousOn f A) (L : ℝ)
    (h : ∀ x ∈ A, ∀ y ∈ A, σ x = σ y → |f x - f y| ≤ L * ∑ i, |x i - y i|) (x y : Fin d → ℝ) (hx : x ∈ A) (hy : y ∈ A) :
    f y - f x ≤ L * ∑ i, |y i - x i| := by
  let p : ℝ → Fin d → ℝ := fun s => x + s • (y - x)
  have hp : ∀ s ∈ Set.Icc (0 : ℝ) 1, p s ∈ A := fun s hs => hA.add_smul_sub_mem hx hy hs
  have hpc : Continuous p := by fun_prop
  set C := L * ∑ i, |y i - x i| with hC
  have hF : ContinuousOn (fun s => f (p s)) (Set.Icc 0 1) := hc.comp hpc.continuousOn hp
  have hd : ∀ s z : ℝ, ∑ i, |p s i - p z i| = |s - z| * ∑ i, |y i - x i| := by
    intro s z
    rw [Finset.mul_sum]
    refine Finset.sum_congr rfl fun i _ => ?_
    rw [← abs_mul]
    congr 1
    simp only [p, Pi.add_apply, Pi.smul_apply, Pi.sub_apply, smul_eq_mul]
    ring
  have hb : ∀ s ∈ Set.Ico (0 : ℝ) 1, ∀ r, C < r → ∃ᶠ z in 𝓝[>] s, slope (fun s => f (p s)) s z < r := by
    intro s hs r hr
    have hin : ∀ᶠ z in 𝓝[>] s, z ∈ Set.Icc (0 : ℝ) 1 ∧ s < z := by
      filter_upwards [Ioo_mem_nhdsGT hs.2] with z hz
      exact ⟨⟨hs.1.trans hz.1.le, hz.2.le⟩, hz.1⟩
    obtain ⟨n, hn⟩ : ∃ n, ∃ᶠ z in 𝓝[>] s, σ (p z) = n := by
      by_contra hcon
      push Not at hcon
      have h1 : ∀ᶠ z in 𝓝[>] s, ∀ n, ¬ σ (p z) = n := eventually_all.mpr fun n => by
        simpa only [not_frequently] using hcon n
      obtain ⟨z, hz⟩ := h1.exists
      exact hz _ rfl
    refine ((hn.and_eventually hin)).mono ?_
    rintro z ⟨hzn, hz, hsz⟩
    have hlim : f (p z) - f (p s) ≤ L * ∑ i, |p z i - p s i| := by
      have hs1 : s ∈ Set.Icc (0 : ℝ) 1 := ⟨hs.1, hs.2.le⟩
      have t1 : Tendsto (fun w => f (p w)) (𝓝[>] s) (𝓝 (f (p s))) := by
        refine (hF s hs1).tendsto.mono_left ?_
        rw [nhdsWithin_le_iff]
        filter_upwards [hin] with w hw
        exact hw.1
      have t2 : Tendsto (fun w => L * ∑ i, |p z i - p w i| - (f (p z) - f (p w))) (𝓝[>] s)
          (𝓝 (L * ∑ i, |p z i - p s i| - (f (p z) - f (p s)))) := by
        refine Tendsto.sub ?_ (tendsto_const_nhds.sub t1)
        have : Continuous fun w => L * ∑ i, |p z i - p w i| := by fun_prop
        exact this.continuousAt.tendsto.mono_left nhdsWithin_le_nhds
      have := ge_of_tendsto_of_frequently (b := 0) t2 ((hn.and_eventually hin).mono fun w hw => by
        have := h (p z) (hp z hz) (p w) (hp w hw.2.1) (hzn.trans hw.1.symm)
        linarith [le_abs_self (f (p z) - f (p w))])
      linarith
    rw [slope_def_field]
    rw [hd, abs_of_pos (by linarith : (0 : ℝ) < z - s)] at hlim
    have hzs : 0 < z - s := by linarith
    rw [div_lt_iff₀ hzs]
    have : L * ((z - s) * ∑ i, |y i - x i|) = C * (z - s) := by rw [hC]; ring
    rw [this] at hlim
    nlinarith
  have := image_le_of_liminf_slope_right_le_deriv_boundary hF (B := fun s => f x + C * s) (B' := fun _ => C)
    (by simp [p]) (by fun_prop) (fun s _ => by
      have h1 : HasDerivAt (fun s : ℝ => f x + C * s) (C * 1) s := ((hasDerivAt_id s).const_mul C).const_add _
      rw [mul_one] at h1
      exact h1.hasDerivWithinAt) hb (x := 1) (by simp)
  simp only [p, one_smul, add_sub_cancel, mul_one] at this
  linarith

theorem abs_clipBox_sub_le {g : GridWorld ℝ d} (hlt : ∀ i, g.lo i < g.hi i) (x y : Fin d → ℝ) (i : Fin d) :
    |(if project then clipBox g.lo g.hi x else x) i - (if project then clipBox g.lo g.hi y else y) i| ≤ |x i - y i| := by
  cases project
  · simp
  · have h := hlt i
    simp only [if_true, clipBox]
    split_ifs <;> rw [abs_le] <;> constructor <;>
      first
      | linarith [abs_nonneg (x i - y i)]
      | linarith [le_abs_self (x i - y i), neg_abs_le (x i - y i)]

/-- On any convex set on which the function is continuous. -/
theorem lipschitz_of_gradient {g : GridWorld ℝ d} {D : Delaunay ℝ d} {t : Tri ℝ d} (S : TriSetup g D eps)
    (ht : Tri.new g D project = .ok t) (params : List (Fin o → ℝ)) (hlen : params.length = ∏ i, g.num i)
    (f : (Fin d → ℝ) → Fin o → ℝ) (hf : ∀ x, t.tfEvaluate eps params x = .ok (f x)) (A : Set (Fin d → ℝ))
    (hA : Convex ℝ A) (hc : ContinuousOn f A) (l : Fin o) (L : ℝ)
    (hL : ∀ x ∈ A, ∀ G, t.tfGradient eps params x = .ok G → ∀ i, |G l i| ≤ L)
    (x y : Fin d → ℝ) (hx : x ∈ A) (hy : y ∈ A) : |f x l - f y l| ≤ L * ∑ i, |x i - y i| := by
  have hn : ∀ x, ∃ n : Fin (D.simplices.length * ∏ i, (g.num i - 1)), t.findSimplex eps x = .ok (n.1 : ℤ) := fun x => by
    obtain ⟨n, h1, h2⟩ := C15_find_simplex_valid S ht x
    exact ⟨⟨n, h2⟩, h1⟩
  choose σ hσ using hn
  have hcl : ContinuousOn (fun x => f x l) A := fun x hx => (continuous_apply l).continuousAt.comp_continuousWithinAt (hc x hx)
  have key : ∀ x ∈ A, ∀ y ∈ A, σ x = σ y → |f x l - f y l| ≤ L * ∑ i, |x i - y i| := by
    intro x hx y _ hxy
    obtain ⟨v, v', G, h1, h2, h3, h4⟩ := C17_tf_gradient_is_slope S ht params hlen x y (by rw [hσ, hσ, hxy])
    obtain rfl := Except.ok.inj ((hf x).symm.trans h1)
    obtain rfl := Except.ok.inj ((hf y).symm.trans h2)
    rw [h4 l, Finset.mul_sum]
    refine (Finset.abs_sum_le_sum_abs _ _).trans (Finset.sum_le_sum fun i _ => ?_)
    rw [abs_mul]
    exact mul_le_mul (hL x hx G h3 i) (abs_clipBox_sub_le S.lt x y i) (abs_nonneg _) ((abs_nonneg _).trans (hL x hx G h3 i))
  have h1 := lipschitz_of_labels _ σ A hA hcl L key x y hx hy
  have h2 := lipschitz_of_labels _ σ A hA hcl L key y x hy hx
  have e : ∑ i, |y i - x i| = ∑ i, |x i - y i| := Finset.sum_congr rfl fun i _ => abs_sub_comm _ _
  rw [e] at h1
  exact abs_le.mpr ⟨by linarith, h2⟩

theorem convex_inside (g : GridWorld ℝ d) : Convex ℝ {x : Fin d → ℝ | ∀ i, g.lo i + 2 * eps ≤ x i ∧ x i ≤ g.hi i - 2 * eps} := by
  have : {x : Fin d → ℝ | ∀ i, g.lo i + 2 * eps ≤ x i ∧ x i ≤ g.hi i - 2 * eps} =
      Set.Icc (fun i => g.lo i + 2 * eps) (fun i => g.hi i - 2 * eps) := by
    ext x
    simp only [Set.mem_ofPred_eq, Set.mem_Icc, Pi.le_def]
    exact ⟨fun h => ⟨fun i => (h i).1, fun i => (h i).2⟩, fun h i => ⟨h.1 i, h.2 i⟩⟩
  rw [this]
  exact convex_Icc _ _

/-- **C118 (partial).** If no entry of `gradient(x)` exceeds `L` in absolute value at any point of the domain, the values of the triangulation at two points differ by at most `L` times the sum of the
distances of their coordinates. For triangulations whose copies meet in common faces, at least `2 * _EPS` away from the boundary. Missing: the strip at the boundary, in which the function is not even
continuous (`C118_boundary_refuted`). -/
theorem C118_lipschitz_partial {g : GridWorld ℝ d} {D : Delaunay ℝ d} {t : Tri ℝ d} (S : TriSetup g D eps)
    (ht : Tri.new g D project = .ok t)
    (hT : IsProperTiling (fun i => (g.hi i - g.lo i) / ((g.num i : ℝ) - 1)) (cornerPoints g) D.simplices)
    (params : List (Fin o → ℝ)) (hlen : params.length = ∏ i, g.num i)
    (f : (Fin d → ℝ) → Fin o → ℝ) (hf : ∀ x, t.tfEvaluate eps params x = .ok (f x)) (l : Fin o) (L : ℝ)
    (hL : ∀ x, (∀ i, g.lo i + 2 * eps ≤ x i ∧ x i ≤ g.hi i - 2 * eps) →
      ∀ G, t.tfGradient eps params x = .ok G → ∀ i, |G l i| ≤ L)
    (x y : Fin d → ℝ) (hx : ∀ i, g.lo i + 2 * eps ≤ x i ∧ x i ≤ g.hi i - 2 * eps)
    (hy : ∀ i, g.lo i + 2 * eps ≤ y i ∧ y i ≤ g.hi i - 2 * eps) :
    |f x l - f y l| ≤ L * ∑ i, |x i - y i| :=
  lipschitz_of_gradient S ht params hlen f hf _ (convex_inside g)
    (C18_continuous S ht hT params hlen f fun x => by rw [← C17_tf_agrees]; exact hf x) l L hL x y hx hy

/-- **C118 (one dimension).** In one dimension the same holds for all points, in the domain, at its boundary and outside. -/
theorem C118_lipschitz_1d {g : GridWorld ℝ 1} {t : Tri ℝ 1} (h2 : ∀ i, 2 ≤ g.num i)
    (hlt : ∀ i, g.lo i < g.hi i) (he : 0 < eps)
    (hle : ∀ i, 4 * eps ≤ (g.hi i - g.lo i) / ((g.num i : ℝ) - 1))
    (ht : Tri.new g (delaunay1D 0 (g.unit 0)) project = .ok t) (params : List (Fin o → ℝ))
    (hlen : params.length = ∏ i, g.num i) (f : (Fin 1 → ℝ) → Fin o → ℝ)
    (hf : ∀ x, t.tfEvaluate eps params x = .ok (f x)) (l : Fin o) (L : ℝ)
    (hL : ∀ x G, t.tfGradient eps params x = .ok G → |G l 0| ≤ L) (x y : Fin 1 → ℝ) :
    |f x l - f y l| ≤ L * |x 0 - y 0| := by
  have := lipschitz_of_gradient (triSetup_one h2 hlt he hle) ht params hlen f hf Set.univ convex_univ
    (C18_continuous_1d_everywhere h2 hlt he hle ht params hlen f fun x => by rw [← C17_tf_agrees]; exact hf x).continuousOn
    l L (fun x _ G hG i => by obtain rfl := Subsingleton.elim i 0; exact hL x G hG) x y trivial trivial
  simpa using this

/-- **C118 (the constant is the best one).** Conversely every Lipschitz constant bounds the gradient at all points inside the limits such that all points close to it are located in the same simplex. -/
theorem C118_sharp {g : GridWorld ℝ d} {D : Delaunay ℝ d} {t : Tri ℝ d} (S : TriSetup g D eps)
    (ht : Tri.new g D project = .ok t) (params : List (Fin o → ℝ)) (hlen : params.length = ∏ i, g.num i) (x : Fin d → ℝ)
    (hx : ∀ᶠ y in 𝓝 x, t.findSimplex eps y = t.findSimplex eps x) (hin : ∀ i, g.lo i < x i ∧ x i < g.hi i)
    (f : (Fin d → ℝ) → Fin o → ℝ) (hf : ∀ y, t.tfEvaluate eps params y = .ok (f y)) (l : Fin o) (L : ℝ)
    (hL : ∀ y, (∀ i, g.lo i < y i ∧ y i < g.hi i) → |f y l - f x l| ≤ L * ∑ i, |y i - x i|) :
    ∃ G, t.tfGradient eps params x = .ok G ∧ ∀ i, |G l i| ≤ L := by
  obtain ⟨_, _, G, -, -, hG, -⟩ := C17_tf_gradient_is_slope S ht params hlen x x rfl
  refine ⟨G, hG, fun i => ?_⟩
  have hc : Tendsto (fun δ : ℝ => x + Pi.single i δ) (𝓝[>] 0) (𝓝 x) := by
    have h1 : Continuous fun δ : ℝ => x + Pi.single i δ := by
      refine continuous_pi fun k => ?_
      simp only [Pi.add_apply, Pi.single_apply]
      split_ifs <;> fun_prop
    have h2 := h1.tendsto 0
    simp only [Pi.single_zero, add_zero] at h2
    exact h2.mono_left nhdsWithin_le_nhds
  have hbox : ∀ᶠ y in 𝓝 x, ∀ i, g.lo i < y i ∧ y i < g.hi i := eventually_all.mpr fun i =>
    ((continuous_apply i).continuousAt.eventually (lt_mem_nhds (hin i).1)).and
      ((continuous_apply i).continuousAt.eventually (gt_mem_nhds (hin i).2))
  obtain ⟨δ, ⟨h1, h2⟩, hδ⟩ := (((hc.eventually hx).and (hc.eventually hbox)).and self_mem_nhdsWithin).exists
  have hδ : 0 < δ := hδ
  set y := x + Pi.single i δ with hy
  obtain ⟨v, v', G', a1, a2, a3, a4⟩ := C17_tf_gradient_is_slope S ht params hlen x y h1.symm
  obtain rfl := Except.ok.inj (hG.symm.trans a3)
  obtain rfl := Except.ok.inj ((hf x).symm.trans a1)
  obtain rfl := Except.ok.inj ((hf y).symm.trans a2)
  have e : ∀ z : Fin d → ℝ, (∀ i, g.lo i < z i ∧ z i < g.hi i) → (if project then clipBox g.lo g.hi z else z) = z := by
    intro z hz
    cases project
    · rfl
    · exact clipBox_of_mem z hz
  have a5 := a4 l
  rw [e x hin, e y h2] at a5
  have a6 := hL y h2
  have d1 : ∀ k, y k - x k = if k = i then δ else 0 := by
    intro k
    simp [hy, Pi.single_apply]
  have d2 : ∀ k, x k - y k = if k = i then -δ else 0 := by
    intro k
    rw [← neg_sub, d1]
    split_ifs <;> simp
  simp only [d1, d2, mul_ite, mul_zero, Finset.sum_ite_eq', Finset.mem_univ, if_true, apply_ite abs, abs_zero] at a5 a6
  rw [abs_sub_comm, a5, abs_mul, abs_neg, abs_of_pos hδ] at a6
  exact le_of_mul_le_mul_right a6 hδ

theorem tfGradient_congr {t : Tri ℝ d} (params : List (Fin o → ℝ)) (x y : Fin d → ℝ)
    (h : t.findSimplex eps x = t.findSimplex eps y) : t.tfGradient eps params x = t.tfGradient eps params y := by
  unfold Tri.tfGradient Tri.gradient
  rw [h]

/-- **C118.** Such a bound exists for every triangulation. -/
theorem C118_bounded {g : GridWorld ℝ d} {D : Delaunay ℝ d} {t : Tri ℝ d} (S : TriSetup g D eps)
    (ht : Tri.new g D project = .ok t) (params : List (Fin o → ℝ)) (hlen : params.length = ∏ i, g.num i) :
    ∃ L, ∀ x, ∃ G, t.tfGradient eps params x = .ok G ∧ ∀ l i, |G l i| ≤ L := by
  have hn : ∀ x, ∃ n : Fin (D.simplices.length * ∏ i, (g.num i - 1)), t.findSimplex eps x = .ok (n.1 : ℤ) := fun x => by
    obtain ⟨n, h1, h2⟩ := C15_find_simplex_valid S ht x
    exact ⟨⟨n, h2⟩, h1⟩
  choose σ hσ using hn
  have hG : ∀ x, ∃ G, t.tfGradient eps params x = .ok G := fun x => by
    obtain ⟨_, _, G, -, -, hG, -⟩ := C17_tf_gradient_is_slope S ht params hlen x x rfl
    exact ⟨G, hG⟩
  choose G hG using hG
  have hsame : ∀ x y, σ x = σ y → G x = G y := fun x y h => by
    have := tfGradient_congr params x y (by rw [hσ, hσ, h] : t.findSimplex eps x = t.findSimplex eps y)
    rw [hG, hG] at this
    exact Except.ok.inj this
  have hr : ∀ n, ∃ B : ℝ, ∀ x, σ x = n → ∀ l i, |G x l i| ≤ B := by
    intro n
    by_cases h : ∃ x, σ x = n
    · obtain ⟨x, hx⟩ := h
      refine ⟨∑ l, ∑ i, |G x l i|, fun y hy l i => ?_⟩
      rw [hsame y x (hy.trans hx.symm)]
      exact (Finset.single_le_sum (f := fun i => |G x l i|) (fun _ _ => abs_nonneg _) (Finset.mem_univ i)).trans
        (Finset.single_le_sum (f := fun l => ∑ i, |G x l i|) (fun _ _ => Finset.sum_nonneg fun _ _ => abs_nonneg _) (Finset.mem_univ l))
    · exact ⟨0, fun x hx => absurd ⟨x, hx⟩ h⟩
  choose B hB using hr
  refine ⟨∑ n, |B n|, fun x => ⟨G x, hG x, fun l i => ?_⟩⟩
  exact (hB (σ x) x rfl l i).trans ((le_abs_self _).trans
    (Finset.single_le_sum (f := fun n => |B n|) (fun _ _ => abs_nonneg _) (Finset.mem_univ _)))

/-- **C118 refuted at the boundary.** In two dimensions no constant is a Lipschitz constant on the domain, although the gradient is bounded. -/
theorem C118_boundary_refuted (project : Bool) : ∃ (t : Tri ℝ 2) (f : (Fin 2 → ℝ) → Fin 1 → ℝ),
    Tri.new twoSquares (delaunay2D twoSquares.unit) project = .ok t ∧
    (∀ x, t.tfEvaluate (1 / 1000) cornerParams x = .ok (f x)) ∧
    (∃ L, ∀ x, ∃ G, t.tfGradient (1 / 1000) cornerParams x = .ok G ∧ ∀ l i, |G l i| ≤ L) ∧
    ∀ L, ∃ x y : Fin 2 → ℝ, (∀ i, twoSquares.lo i ≤ x i ∧ x i ≤ twoSquares.hi i) ∧
      (∀ i, twoSquares.lo i ≤ y i ∧ y i ≤ twoSquares.hi i) ∧ L * ∑ i, |x i - y i| < |f x 0 - f y 0| := by
  obtain ⟨-, h⟩ := C18_boundary_2d_refuted
  obtain ⟨t, f, ht, hf, hc⟩ := h project
  refine ⟨t, f, ht, fun x => by rw [C17_tf_agrees]; exact hf x, C118_bounded twoSquaresSetup ht _ (by simp [cornerParams, twoSquares]), ?_⟩
  by_contra hcon
  push Not at hcon
  obtain ⟨L, hL⟩ := hcon
  apply hc
  rw [continuousOn_pi]
  intro l
  obtain rfl := Subsingleton.elim l 0
  intro x hx
  rw [ContinuousWithinAt, tendsto_iff_dist_tendsto_zero]
  have h0 : Tendsto (fun y : Fin 2 → ℝ => L * ∑ i, |y i - x i|)
      (𝓝[{x | ∀ i, twoSquares.lo i ≤ x i ∧ x i ≤ twoSquares.hi i}] x) (𝓝 0) := by
    have h1 : Continuous fun y : Fin 2 → ℝ => L * ∑ i, |y i - x i| := by fun_prop
    have h2 := h1.tendsto x
    simp only [sub_self, abs_zero, Finset.sum_const_zero, mul_zero] at h2
    exact h2.mono_left nhdsWithin_le_nhds
  refine squeeze_zero' (Eventually.of_forall fun y => dist_nonneg) ?_ h0
  filter_upwards [self_mem_nhdsWithin] with y hy
  rw [Real.dist_eq]
  exact hL y x hy hx

/-- **C118 (the constant of the notebook, partial).** The largest value of `lipschitz_lyapunov(x)` of the notebook over the domain is a Lipschitz constant of `-rl.value_function`, at least `2 * _EPS` away from
the boundary. Missing: the value at the state itself, which the notebook uses (`C118_local_refuted`), and the boundary (`C118_boundary_refuted`). -/
theorem C118_notebook_partial {g : GridWorld ℝ (d + 1)} {D : Delaunay ℝ (d + 1)} {t : Tri ℝ (d + 1)} (S : TriSetup g D eps)
    (ht : Tri.new g D project = .ok t)
    (hT : IsProperTiling (fun i => (g.hi i - g.lo i) / ((g.num i : ℝ) - 1)) (cornerPoints g) D.simplices)
    (params : List (Fin 1 → ℝ)) (hlen : params.length = ∏ i, g.num i)
    (f : (Fin (d + 1) → ℝ) → Fin 1 → ℝ) (hf : ∀ x, t.tfEvaluate eps params x = .ok (f x)) (L : ℝ)
    (hL : ∀ x, (∀ i, g.lo i + 2 * eps ≤ x i ∧ x i ≤ g.hi i - 2 * eps) →
      ∃ c, valueLipschitzTriangulation t eps params x = .ok c ∧ c ≤ L)
    (x y : Fin (d + 1) → ℝ) (hx : ∀ i, g.lo i + 2 * eps ≤ x i ∧ x i ≤ g.hi i - 2 * eps)
    (hy : ∀ i, g.lo i + 2 * eps ≤ y i ∧ y i ≤ g.hi i - 2 * eps) :
    |-f x 0 - -f y 0| ≤ L * Spec.dist1 x y := by
  have := C118_lipschitz_partial S ht hT params hlen f hf 0 L (fun x hx G hG i => by
    obtain ⟨c, hc, hcL⟩ := hL x hx
    unfold valueLipschitzTriangulation at hc
    rw [hG] at hc
    obtain rfl := Except.ok.inj hc
    exact (Finset.le_sup' (fun i => |G 0 i|) (Finset.mem_univ i)).trans hcL) x y hx hy
  rw [neg_sub_neg, abs_sub_comm]
  exact this

/-- **C11 (one dimension).** Between two neighbouring grid points the value is the linear interpolation of their parameters, and the simplex has the number of the left one. -/
theorem C11_linear_1d {g : GridWorld ℝ 1} {t : Tri ℝ 1} (h2 : ∀ i, 2 ≤ g.num i)
    (hlt : ∀ i, g.lo i < g.hi i) (he : 0 < eps)
    (hle : ∀ i, 4 * eps ≤ (g.hi i - g.lo i) / ((g.num i : ℝ) - 1))
    (ht : Tri.new g (delaunay1D 0 (g.unit 0)) project = .ok t) (params : List (Fin o → ℝ))
    (hlen : params.length = ∏ i, g.num i) (n : ℕ) (hn : n + 1 < g.num 0) (x : Fin 1 → ℝ) (s : ℝ) (hs : 0 ≤ s) (hs1 : s < 1)
    (hx : x 0 = Spec.axisPoint (g.lo 0) (g.hi 0) (g.num 0) n + s * g.unit 0) :
    t.findSimplex eps x = .ok (n : ℤ) ∧
    t.tfEvaluate eps params x = .ok fun l => (1 - s) * params.getD n 0 l + s * params.getD (n + 1) 0 l := by
  have S := triSetup_one h2 hlt he hle
  have hG := S.good ht
  have hg := S.wf
  have hu := hg.unit_pos 0
  have hk0 : (delaunay1D 0 (g.unit 0)).simplices[0]? = some ![0, 1] := rfl
  have hnr : n < g.numRect 0 := by unfold GridWorld.numRect; omega
  have hR : ∀ i, (fun _ : Fin 1 => n) i < g.numRect i := by intro i; fin_cases i; exact hnr
  have hax : g.ijkToState (fun _ => n) 0 = Spec.axisPoint (g.lo 0) (g.hi 0) (g.num 0) n :=
    g.ijkToState_eq_axisPoint (fun _ => n) 0
  rw [← hax] at hx
  have e1 : g.ijkToState (fun _ => n) 0 = (n : ℝ) * g.unit 0 + g.lo 0 := rfl
  have hi1 := ijkToState_add_unit_le hg hR 0
  have hsu : s * g.unit 0 < g.unit 0 := by nlinarith
  have hsu0 : 0 ≤ s * g.unit 0 := by positivity
  have hn0 : (0 : ℝ) ≤ n * g.unit 0 := by positivity
  have hxc : clip (x 0) (g.lo 0) (g.hi 0) = x 0 := clip_of_mem (by linarith) (by linarith)
  have hrect : rectOf g x = fun _ => n := by
    funext i
    fin_cases i
    obtain ⟨a1, a2, a3⟩ := rectOf_spec hg x 0
    rw [hxc] at a1 a2 a3
    exact rect_unique hg (rectOf_lt hg x) hR 0 _ a1 a2 a3 (by linarith) (by linarith) (Or.inl (by linarith))
  have hone : ∀ {k : ℕ} {s}, (delaunay1D 0 (g.unit 0)).simplices[k]? = some s → k = 0 := by
    intro k s h
    have := (List.getElem?_eq_some_iff.mp h).1
    simpa [delaunay1D] using this
  obtain ⟨k, s', w, hk, hf', hw⟩ := S.find hG x
  obtain rfl := hone hk
  obtain rfl := Option.some.inj (hk0.symm.trans hk)
  rw [hrect] at hf'
  have hsn : simplexNumber g (delaunay1D 0 (g.unit 0)) 0 (fun _ => n) = n := by
    simp [simplexNumber, delaunay1D, Delaunay.nsimplex, ravel, shapeProd]
  refine ⟨by rw [hf', hsn], ?_⟩
  rw [C17_tf_agrees, evaluate_ok hg hG hk0 hR hf' params hlen]
  have hp : t.projected x = x := by
    unfold Tri.projected
    split_ifs
    · rw [hG.disc]
      exact funext fun i => by fin_cases i; exact hxc
    · rfl
  have hI := Tri.Good.verts_indep S.tri hk0 (fun _ : Fin 1 => n)
  obtain ⟨v0, v1⟩ := verts_1d g (fun _ => n)
  have hb : codeWeights (edges (verts g (fun _ => n) ![0, 1]))⁻¹ (verts g (fun _ => n) ![0, 1] 0) x = ![1 - s, s] := by
    refine bary_unique hI (codeWeights_bary hI x) ⟨by simp [Fin.sum_univ_two], fun i => ?_⟩
    fin_cases i
    refine (Fin.sum_univ_two _).trans ?_
    show (1 - s) * verts g (fun _ => n) ![0, 1] 0 0 + s * verts g (fun _ => n) ![0, 1] 1 0 = x 0
    rw [v0, v1, hx]
    ring
  have hr : ∀ c : ℕ, (ravel g.num fun i => n + bits g c i) = n + bits g c 0 := by
    intro c
    simp [ravel, shapeProd]
  have hb0 : bits g 0 0 = 0 := by simp [bits, cornerPoints]
  have hb1 : bits g 1 0 = 1 := by simp [bits, cornerPoints, hu.ne']
  congr 1
  funext l
  rw [hp, hb, Fin.sum_univ_two]
  simp only [hr, Matrix.cons_val_zero, Matrix.cons_val_one, hb0, hb1, add_zero]

/-- **C118 refuted (local constant).** The value of `lipschitz_lyapunov` at a state does not bound the changes around this state, however small the cell is: for the parameters 0, 1 and -5 on the grid
`{0, 1/2, 1}` there is a state in each neighbourhood of the kink. -/
theorem C118_local_refuted (project : Bool) (tau : ℝ) (htau : 0 < tau) :
    ∃ t, Tri.new realGrid (delaunay1D 0 (realGrid.unit 0)) project = .ok t ∧
    ∃ f : (Fin 1 → ℝ) → Fin 1 → ℝ, (∀ x, t.tfEvaluate (1 / 1000) [![0], ![1], ![-5]] x = .ok (f x)) ∧
    ∃ x : Fin 1 → ℝ, (0 < x 0 ∧ x 0 < 1) ∧ ∃ c, valueLipschitzTriangulation t (1 / 1000) [![0], ![1], ![-5]] x = .ok c ∧
      ¬ Spec.LocalLipschitz (fun x => -f x 0) x (fun _ => c) tau := by
  have h2 : ∀ i, 2 ≤ realGrid.num i := by intro i; fin_cases i; simp [realGrid]
  have hlt : ∀ i, realGrid.lo i < realGrid.hi i := by intro i; fin_cases i; simp [realGrid]
  have hle : ∀ i, 4 * (1 / 1000) ≤ (realGrid.hi i - realGrid.lo i) / ((realGrid.num i : ℝ) - 1) := by
    intro i; fin_cases i; simp [realGrid]; norm_num
  have he : (0 : ℝ) < 1 / 1000 := by norm_num
  have S := triSetup_one h2 hlt he hle
  have hlen : ([![0], ![1], ![-5]] : List (Fin 1 → ℝ)).length = ∏ i, realGrid.num i := by simp [realGrid]
  obtain ⟨t, ht⟩ := C09_construction S project
  have hx : ∀ x, ∃ v, t.tfEvaluate (1 / 1000) [![0], ![1], ![-5]] x = .ok v := by
    intro x
    obtain ⟨v, _, _, h, _⟩ := C17_tf_gradient_is_slope (o := 1) S ht [![0], ![1], ![-5]] hlen x x rfl
    exact ⟨v, h⟩
  choose f hf using hx
  have hunit : realGrid.unit 0 = 1 / 2 := by simp [realGrid, GridWorld.unit]; norm_num
  set δ := min (tau / 2) (1 / 4) with hδ
  have d0 : 0 < δ := lt_min (by linarith) (by norm_num)
  have d1 : δ ≤ tau / 2 := min_le_left _ _
  have d2 : δ ≤ 1 / 4 := min_le_right _ _
  have ax0 : Spec.axisPoint (realGrid.lo 0) (realGrid.hi 0) (realGrid.num 0) 0 = 0 := by simp [Spec.axisPoint, realGrid]
  have ax1 : Spec.axisPoint (realGrid.lo 0) (realGrid.hi 0) (realGrid.num 0) 1 = 1 / 2 := by
    simp [Spec.axisPoint, realGrid]; norm_num
  have left : ∀ s : ℝ, 0 ≤ s → s < 1 → t.findSimplex (1 / 1000) ![s / 2] = .ok 0 ∧ f ![s / 2] 0 = s := by
    intro s hs hs1
    obtain ⟨a, b⟩ := C11_linear_1d h2 hlt he hle ht [![0], ![1], ![-5]] hlen 0 (by simp [realGrid]) ![s / 2] s hs hs1
      (by rw [ax0, hunit]; simp; ring)
    refine ⟨a, ?_⟩
    have := Except.ok.inj ((hf _).symm.trans b)
    rw [this]
    simp
  have right : f ![1 / 2 + δ] 0 = 1 - 12 * δ := by
    obtain ⟨-, b⟩ := C11_linear_1d h2 hlt he hle ht [![0], ![1], ![-5]] hlen 1 (by simp [realGrid]) ![1 / 2 + δ] (2 * δ)
      (by linarith) (by linarith) (by rw [ax1, hunit]; simp; ring)
    have := Except.ok.inj ((hf _).symm.trans b)
    rw [this]
    simp
    ring
  obtain ⟨s0, v0⟩ := left (1 - 2 * δ) (by linarith) (by linarith)
  obtain ⟨s1, v1⟩ := left (1 / 4) (by norm_num) (by norm_num)
  obtain ⟨v, v', G, a1, a2, a3, a4⟩ := C17_tf_gradient_is_slope (o := 1) S ht [![0], ![1], ![-5]] hlen _ _ (s0.trans s1.symm)
  obtain rfl := Except.ok.inj ((hf _).symm.trans a1)
  obtain rfl := Except.ok.inj ((hf _).symm.trans a2)
  have hG : G 0 0 = 2 := by
    have e : ∀ z : ℝ, 0 < z → z < 1 → (if project then clipBox realGrid.lo realGrid.hi ![z] else ![z]) = ![z] := by
      intro z h1 h2
      cases project
      · rfl
      · refine clipBox_of_mem (g := realGrid) _ fun i => ?_
        fin_cases i
        simp [realGrid, h1, h2]
    have a5 := a4 0
    rw [e _ (by linarith) (by linarith), e _ (by norm_num) (by norm_num), v0, v1] at a5
    simp only [Finset.univ_unique, Finset.sum_singleton, Fin.default_eq_zero, Matrix.cons_val_zero] at a5
    have a6 : (3 / 4 - 2 * δ) * (G 0 0 - 2) = 0 := by linarith
    rcases mul_eq_zero.mp a6 with h | h
    · linarith
    · linarith
  refine ⟨t, ht, f, hf, ![(1 - 2 * δ) / 2], ⟨by simp; linarith, by simp; linarith⟩, 2, ?_, fun h => ?_⟩
  · unfold valueLipschitzTriangulation
    rw [a3]
    show Except.ok _ = _
    congr 1
    simp [hG]
  · have h1 := h ![1 / 2 + δ] (by
      simp only [Spec.dist1, Finset.univ_unique, Finset.sum_singleton, Fin.default_eq_zero, Matrix.cons_val_zero]
      rw [abs_le]
      constructor <;> linarith)
    simp only [Finset.univ_unique, Finset.sum_singleton, Fin.default_eq_zero, Matrix.cons_val_zero, right, v0] at h1
    have e2 : (1 / 2 + δ - (1 - 2 * δ) / 2 : ℝ) = 2 * δ := by ring
    have e3 : (-(1 - 12 * δ) - -(1 - 2 * δ) : ℝ) = 10 * δ := by ring
    rw [e2, e3, abs_of_pos (by linarith), abs_of_pos (by linarith)] at h1
    linarith

/-! ## Concrete cases -/

/-- The function with a kink and the bound on its gradients, everywhere. -/
example (project : Bool) : ∃ (t : Tri ℝ 1) (f : (Fin 1 → ℝ) → Fin 1 → ℝ),
    Tri.new realGrid (delaunay1D 0 (realGrid.unit 0)) project = .ok t ∧
    (∀ x, t.tfEvaluate (1 / 1000) [![0], ![1], ![-5]] x = .ok (f x)) ∧
    ∃ L, (∀ x G, t.tfGradient (1 / 1000) [![0], ![1], ![-5]] x = .ok G → |G 0 0| ≤ L) ∧
      ∀ x y, |f x 0 - f y 0| ≤ L * |x 0 - y 0| := by
  have h2 : ∀ i, 2 ≤ realGrid.num i := by intro i; fin_cases i; simp [realGrid]
  have hlt : ∀ i, realGrid.lo i < realGrid.hi i := by intro i; fin_cases i; simp [realGrid]
  have hle : ∀ i, 4 * (1 / 1000) ≤ (realGrid.hi i - realGrid.lo i) / ((realGrid.num i : ℝ) - 1) := by
    intro i; fin_cases i; simp [realGrid]; norm_num
  have S := triSetup_one h2 hlt (by norm_num) hle
  obtain ⟨t, ht⟩ := C09_construction S project
  have hx : ∀ x, ∃ v, t.tfEvaluate (1 / 1000) [![0], ![1], ![-5]] x = .ok v := by
    intro x
    obtain ⟨v, _, _, h, _⟩ := C17_tf_gradient_is_slope (o := 1) S ht [![0], ![1], ![-5]]
      (by simp [realGrid]) x x rfl
    exact ⟨v, h⟩
  choose f hf using hx
  obtain ⟨L, hL⟩ := C118_bounded (o := 1) S ht [![0], ![1], ![-5]] (by simp [realGrid])
  have hL' : ∀ x G, t.tfGradient (1 / 1000) [![0], ![1], ![-5]] x = .ok G → |G 0 0| ≤ L := by
    intro x G hG
    obtain ⟨G', h1, h3⟩ := hL x
    obtain rfl := Except.ok.inj (hG.symm.trans h1)
    exact h3 0 0
  exact ⟨t, f, ht, hf, L, hL', C118_lipschitz_1d h2 hlt (by norm_num) hle ht _ (by simp [realGrid]) f hf 0 L hL'⟩

/-- The two squares with one raised corner, away from the boundary. -/
example (project : Bool) : ∃ (t : Tri ℝ 2) (f : (Fin 2 → ℝ) → Fin 1 → ℝ) (L : ℝ),
    Tri.new twoSquares (delaunay2D twoSquares.unit) project = .ok t ∧
    (∀ x, t.tfEvaluate (1 / 1000) cornerParams x = .ok (f x)) ∧
    ∀ x y, (∀ i, twoSquares.lo i + 2 * (1 / 1000) ≤ x i ∧ x i ≤ twoSquares.hi i - 2 * (1 / 1000)) →
      (∀ i, twoSquares.lo i + 2 * (1 / 1000) ≤ y i ∧ y i ≤ twoSquares.hi i - 2 * (1 / 1000)) →
      |f x 0 - f y 0| ≤ L * ∑ i, |x i - y i| := by
  have hlen : cornerParams.length = ∏ i, twoSquares.num i := by simp [cornerParams, twoSquares]
  obtain ⟨t, ht⟩ := C09_construction twoSquaresSetup project
  have hx : ∀ x, ∃ v, t.tfEvaluate (1 / 1000) cornerParams x = .ok v := by
    intro x
    obtain ⟨v, _, _, h, _⟩ := C17_tf_gradient_is_slope twoSquaresSetup ht cornerParams hlen x x rfl
    exact ⟨v, h⟩
  choose f hf using hx
  obtain ⟨L, hL⟩ := C118_bounded twoSquaresSetup ht cornerParams hlen
  refine ⟨t, f, L, ht, hf, fun x y hx hy => C118_lipschitz_partial twoSquaresSetup ht
    (C18_tiling_2d twoSquares twoSquaresSetup.two_le twoSquaresSetup.lt _ (delaunay2D_isProper _ twoSquaresSetup.wf))
    cornerParams hlen f hf 0 L (fun x _ G hG i => ?_) x y hx hy⟩
  obtain ⟨G', h1, h3⟩ := hL x
  obtain rfl := Except.ok.inj (hG.symm.trans h1)
  exact h3 0 i

end SafeLearning
