import Verif.Lemmas.Triangulation
set_option autoImplicit false

/-!
# C09-C17: triangulated functions

The hypotheses shared by the theorems are collected in `TriSetup`.
-/

namespace SafeLearning

set_option linter.unusedSectionVars false

open Spec

variable {K : Type} [Field K] [LinearOrder K] [IsStrictOrderedRing K] [FloorRing K] {d o : ℕ}

/-- The grid has at least two points and a non-empty interval in every dimension, the library triangulates its unit
rectangle, and `_EPS` is positive and at most a quarter of every cell length. -/
structure TriSetup (g : GridWorld K d) (D : Delaunay K d) (eps : K) : Prop where
  two_le : ∀ i, 2 ≤ g.num i
  lt : ∀ i, g.lo i < g.hi i
  tri : IsTriangulation (fun i => (g.hi i - g.lo i) / ((g.num i : K) - 1)) (cornerPoints g)
    D.simplices D.find
  eps_pos : 0 < eps
  eps_le : ∀ i, 4 * eps ≤ (g.hi i - g.lo i) / ((g.num i : K) - 1)

variable {g : GridWorld K d} {D : Delaunay K d} {eps : K} {project : Bool} {t : Tri K d}

theorem TriSetup.wf (S : TriSetup g D eps) : g.WF := ⟨S.two_le, S.lt⟩

theorem TriSetup.good (S : TriSetup g D eps) (ht : Tri.new g D project = .ok t) :
    Tri.Good g D project t := Tri.good_of_new S.wf S.tri ht

theorem TriSetup.find (S : TriSetup g D eps) (ht : Tri.Good g D project t) (x : Fin d → K) :
    ∃ (k : ℕ) (s : Fin (d + 1) → ℕ) (w : Fin (d + 1) → K), D.simplices[k]? = some s ∧
      t.findSimplex eps x = .ok (simplexNumber g D k (rectOf g x) : ℕ) ∧
      IsConvexComb (verts g (rectOf g x) s) w (shrink g eps x) :=
  ht.find_ok S.wf S.tri S.eps_pos S.eps_le x

/-- The grid point at which a vertex of a simplex is. -/
theorem isGridPoint_verts (hg : g.WF) {R : Fin d → ℕ} (hR : ∀ i, R i < g.numRect i)
    (s : Fin (d + 1) → ℕ) (j : Fin (d + 1)) :
    IsGridPoint g.lo g.hi g.num (ravel g.num fun i => R i + bits g (s j) i) (verts g R s j) :=
  ⟨fun i => R i + bits g (s j) i, fun i => bits_add_lt hg hR (s j) i,
    by rw [Spec.rowMajor, ravel_eq_sum], fun i => by
      unfold verts
      exact g.ijkToState_eq_axisPoint _ i⟩

theorem IsGridPoint.unique {k : ℕ} {p q : Fin d → K} (hp : IsGridPoint g.lo g.hi g.num k p)
    (hq : IsGridPoint g.lo g.hi g.num k q) : p = q := by
  obtain ⟨a, ha, hka, hpa⟩ := hp
  obtain ⟨b, hb, hkb, hqb⟩ := hq
  have : a = b := by
    rw [Spec.rowMajor, ← ravel_eq_sum] at hka hkb
    rw [← unravel_ravel _ _ ha, ← hka, hkb, unravel_ravel _ _ hb]
  subst this
  funext i
  rw [hpa, hqb]

theorem projected_eq (S : TriSetup g D eps) (ht : Tri.Good g D project t) (x : Fin d → K) :
    t.projected x = if project then clipBox g.lo g.hi x else x := by
  unfold Tri.projected
  rw [ht.proj, ht.disc]
  cases project
  · rfl
  · simp only [if_true]
    funext i
    exact (g.clipBox_eq_clip S.lt x i).symm

theorem evaluate_ok (hg : g.WF) (ht : Tri.Good g D project t) {x : Fin d → K} {k : ℕ}
    {s : Fin (d + 1) → ℕ} (hk : D.simplices[k]? = some s) {R : Fin d → ℕ}
    (hR : ∀ i, R i < g.numRect i) (hf : t.findSimplex eps x = .ok (simplexNumber g D k R : ℕ))
    (params : List (Fin o → K)) (hp : params.length = ∏ i, g.num i) :
    t.evaluate eps params x = .ok fun l => ∑ j,
      codeWeights (edges (verts g R s))⁻¹ (verts g R s 0) (t.projected x) j *
        params.getD (ravel g.num fun i => R i + bits g (s j) i) 0 l := by
  unfold Tri.evaluate
  rw [ht.getWeights_ok hg hk hR hf]
  simp only [bind, Except.bind]
  rw [traverseFin_ok (g := fun j => params.getD (ravel g.num fun i => R i + bits g (s j) i) 0)]
  · rfl
  · intro j
    apply rowAt_ok
    have : (ravel g.num fun i => R i + bits g (s j) i) < params.length := by
      rw [hp]; exact ravel_lt _ _ fun i => bits_add_lt hg hR (s j) i
    simp [List.getD_eq_getElem?_getD, this]

theorem gradient_ok (hg : g.WF) (ht : Tri.Good g D project t) {x : Fin d → K} {k : ℕ}
    {s : Fin (d + 1) → ℕ} (hk : D.simplices[k]? = some s) {R : Fin d → ℕ}
    (hR : ∀ i, R i < g.numRect i) (hf : t.findSimplex eps x = .ok (simplexNumber g D k R : ℕ))
    (params : List (Fin o → K)) (hp : params.length = ∏ i, g.num i) :
    t.gradient eps params x = .ok fun l i => ∑ j,
      (Fin.cons (-∑ j, (edges (verts g R s))⁻¹ i j) ((edges (verts g R s))⁻¹ i) :
          Fin (d + 1) → K) j *
        params.getD (ravel g.num fun i => R i + bits g (s j) i) 0 l := by
  unfold Tri.gradient
  rw [hf]
  simp only [bind, Except.bind]
  rw [ht.weightsGradientAt_ok hg hk hR]
  simp only
  rw [traverseFin_ok (g := fun j => params.getD (ravel g.num fun i => R i + bits g (s j) i) 0)]
  · rfl
  · intro j
    apply rowAt_ok
    have : (ravel g.num fun i => R i + bits g (s j) i) < params.length := by
      rw [hp]; exact ravel_lt _ _ fun i => bits_add_lt hg hR (s j) i
    simp [List.getD_eq_getElem?_getD, this]

/-! ## C09 -/

/-- **C09.** Construction succeeds. -/
theorem C09_construction (S : TriSetup g D eps) (project : Bool) :
    ∃ t, Tri.new g D project = .ok t := by
  obtain ⟨t, h, _⟩ := Tri.new_good S.wf S.tri project
  exact ⟨t, h⟩

/-- **C09.** For every point the weights add up to one and the weighted sum of the grid points with the returned indices
is the point (clipped to the limits when `project`). -/
theorem C09_weights_barycentric (S : TriSetup g D eps) (ht : Tri.new g D project = .ok t)
    (x : Fin d → K) :
    ∃ w idx v, t.getWeights eps x = .ok (w, idx) ∧
      (∀ j, IsGridPoint g.lo g.hi g.num (idx j) (v j)) ∧
      IsBarycentric v w (if project then clipBox g.lo g.hi x else x) := by
  have hG := S.good ht
  obtain ⟨k, s, _, hk, hf, _⟩ := S.find hG x
  refine ⟨_, _, verts g (rectOf g x) s, hG.getWeights_ok S.wf hk (rectOf_lt S.wf x) hf,
    fun j => isGridPoint_verts S.wf (rectOf_lt S.wf x) s j, ?_⟩
  rw [← projected_eq S hG]
  exact codeWeights_bary (Tri.Good.verts_indep S.tri hk _) _

/-! ## C10 -/

/-- **C10.** If the parameter of every grid point is the value of an affine function there, the triangulation is that affine
function everywhere (at the clipped point when `project`). -/
theorem C10_affine_exact (S : TriSetup g D eps) (ht : Tri.new g D project = .ok t)
    (A : Fin o → Fin d → K) (b : Fin o → K) (params : List (Fin o → K))
    (hlen : params.length = ∏ i, g.num i)
    (hp : ∀ k p, IsGridPoint g.lo g.hi g.num k p →
      params[k]? = some fun l => ∑ i, A l i * p i + b l)
    (x : Fin d → K) :
    t.evaluate eps params x =
      .ok fun l => ∑ i, A l i * (if project then clipBox g.lo g.hi x else x) i + b l := by
  have hG := S.good ht
  obtain ⟨k, s, _, hk, hf, _⟩ := S.find hG x
  have hR := rectOf_lt S.wf x
  rw [evaluate_ok S.wf hG hk hR hf params hlen, projected_eq S hG]
  congr 1
  funext l
  obtain ⟨h1, h2⟩ := codeWeights_bary (Tri.Good.verts_indep S.tri hk (rectOf g x))
    (if project then clipBox g.lo g.hi x else x)
  have h3 : ∀ j, params.getD (ravel g.num fun i => rectOf g x i + bits g (s j) i) 0 l =
      ∑ i, A l i * verts g (rectOf g x) s j i + b l := by
    intro j
    rw [List.getD_eq_getElem?_getD, hp _ _ (isGridPoint_verts S.wf hR s j)]
    rfl
  simp only [h3, mul_add, Finset.sum_add_distrib, ← Finset.sum_mul, h1, one_mul]
  congr 1
  simp only [Finset.mul_sum]
  rw [Finset.sum_comm]
  refine Finset.sum_congr rfl fun i _ => ?_
  rw [← h2 i, Finset.mul_sum]
  exact Finset.sum_congr rfl fun j _ => by ring

/-! ## C11 -/

/-- A convex combination of corners of a rectangle that is close to a corner involves that corner. -/
theorem corner_of_close {n : ℕ} {b : Fin n → Fin d → ℕ} (hb : ∀ j i, b j i ≤ 1) {c : Fin d → ℕ}
    (hc : ∀ i, c i ≤ 1) {w : Fin n → K} (hw : ∀ j, 0 ≤ w j) (h1 : ∑ j, w j = 1) {z : Fin d → K}
    (hz : ∀ i, ∑ j, w j * (b j i : K) = z i) (hclose : ∑ i, |z i - c i| < 1) :
    ∃ j, b j = c := by
  by_contra hne
  push Not at hne
  -- the distance in the 1-norm to `c` is affine on the rectangle
  have habs : ∀ (y : K) (i : Fin d), 0 ≤ y → y ≤ 1 →
      |y - c i| = (c i : K) + (1 - 2 * (c i : K)) * y := by
    intro y i h0 h1
    rcases Nat.le_one_iff_eq_zero_or_eq_one.mp (hc i) with h | h <;> rw [h]
    · simp [abs_of_nonneg h0]
    · rw [Nat.cast_one, abs_of_nonpos (by linarith)]
      ring
  have hb01 : ∀ j i, (0 : K) ≤ b j i ∧ (b j i : K) ≤ 1 := fun j i =>
    ⟨by positivity, by exact_mod_cast hb j i⟩
  have hz01 : ∀ i, 0 ≤ z i ∧ z i ≤ 1 := by
    intro i
    rw [← hz i]
    constructor
    · exact Finset.sum_nonneg fun j _ => mul_nonneg (hw j) (hb01 j i).1
    · rw [← h1]
      exact Finset.sum_le_sum fun j _ => mul_le_of_le_one_right (hw j) (hb01 j i).2
  have hone : ∀ j, (1 : K) ≤ ∑ i, |(b j i : K) - c i| := by
    intro j
    obtain ⟨i, hi⟩ := Function.ne_iff.mp (hne j)
    have h3 : (1 : K) ≤ |(b j i : K) - c i| := by
      have h4 : (1 : ℤ) ≤ |(b j i : ℤ) - c i| := Int.one_le_abs (by omega)
      exact_mod_cast h4
    exact h3.trans (Finset.single_le_sum (f := fun i => |(b j i : K) - c i|)
      (fun i _ => abs_nonneg _) (Finset.mem_univ i))
  have key : ∑ j, w j * ∑ i, |(b j i : K) - c i| = ∑ i, |z i - c i| := by
    simp only [Finset.mul_sum]
    rw [Finset.sum_comm]
    refine Finset.sum_congr rfl fun i _ => ?_
    rw [habs _ i (hz01 i).1 (hz01 i).2, ← hz i, Finset.mul_sum]
    have : ∀ j, w j * |(b j i : K) - c i| =
        w j * (c i : K) + (1 - 2 * (c i : K)) * (w j * b j i) := fun j => by
      rw [habs _ i (hb01 j i).1 (hb01 j i).2]; ring
    simp only [this, Finset.sum_add_distrib, ← Finset.sum_mul, h1, one_mul]
  have : (1 : K) ≤ ∑ j, w j * ∑ i, |(b j i : K) - c i| := by
    rw [← h1]
    exact Finset.sum_le_sum fun j _ => le_mul_of_one_le_right (hw j) (hone j)
  rw [key] at this
  linarith

/-- **C11.** At every grid point, including those on the boundary, the value is the parameter of that grid point. -/
theorem C11_interpolates (S : TriSetup g D eps) (ht : Tri.new g D project = .ok t)
    (heps : ∑ i, 2 * eps / ((g.hi i - g.lo i) / ((g.num i : K) - 1)) < 1)
    (params : List (Fin o → K)) (hlen : params.length = ∏ i, g.num i) (n : ℕ) (x : Fin d → K)
    (hx : IsGridPoint g.lo g.hi g.num n x) :
    ∃ v, params[n]? = some v ∧ t.evaluate eps params x = .ok v := by
  have hG := S.good ht
  have hg := S.wf
  obtain ⟨m, hm, rfl, hxm⟩ := hx
  have hxm' : x = g.ijkToState m := by
    funext i; rw [hxm i, g.ijkToState_eq_axisPoint]
  obtain ⟨k, s, w, hk, hf, hw, h1, h2⟩ := S.find hG x
  have hR := rectOf_lt hg x
  have hu := hg.unit_pos
  -- the point is in the domain
  have hlo : ∀ i, g.lo i ≤ x i := fun i => by rw [hxm']; exact le_ijkToState hg m i
  have hhi : ∀ i, x i ≤ g.hi i := fun i => by
    rw [hxm']
    unfold GridWorld.ijkToState
    have h3 := hg.unit_mul i
    have h4 : (m i : K) ≤ (g.num i : K) - 1 := by
      have : m i + 1 ≤ g.num i := hm i
      have : ((m i + 1 : ℕ) : K) ≤ g.num i := by exact_mod_cast this
      push_cast at this; linarith
    nlinarith [hu i]
  have hclip : ∀ i, clip (x i) (g.lo i) (g.hi i) = x i := fun i => clip_of_mem (hlo i) (hhi i)
  -- it is a corner of its rectangle
  have hcorner : ∀ i, rectOf g x i ≤ m i ∧ m i ≤ rectOf g x i + 1 := by
    intro i
    obtain ⟨h3, h4, _⟩ := rectOf_spec hg x i
    rw [hclip i] at h3 h4
    rw [hxm'] at h3 h4
    rw [← hxm'] at h3 h4
    have h5 : x i = (m i : K) * g.unit i + g.lo i := by rw [hxm']; rfl
    rw [h5] at h3 h4
    unfold GridWorld.ijkToState at h3 h4
    constructor
    · have : (rectOf g x i : K) ≤ m i := by
        by_contra hc
        push Not at hc
        nlinarith [hu i]
      exact_mod_cast this
    · have : (m i : K) ≤ (rectOf g x i : K) + 1 := by
        by_contra hc
        push Not at hc
        nlinarith [hu i]
      exact_mod_cast this
  -- so the corner is a vertex of the simplex found
  obtain ⟨j0, hj0⟩ := corner_of_close (b := fun j i => bits g (s j) i)
    (fun j i => bits_le g (s j) i) (c := fun i => m i - rectOf g x i)
    (fun i => by have := hcorner i; omega) hw h1
    (z := fun i => (shrink g eps x i - g.ijkToState (rectOf g x) i) / g.unit i)
    (fun i => by
      rw [eq_div_iff (hu i).ne', Finset.sum_mul]
      have h3 := h2 i
      simp only [verts_eq, mul_add, Finset.sum_add_distrib, ← Finset.sum_mul, h1, one_mul] at h3
      rw [← h3, add_sub_cancel_left]
      refine Finset.sum_congr rfl fun j _ => ?_
      rw [mul_assoc, bits_mul]
      rfl)
    (lt_of_le_of_lt (Finset.sum_le_sum fun i _ => by
      have h3 : (((m i - rectOf g x i : ℕ) : K)) = (m i : K) - rectOf g x i :=
        Nat.cast_sub (hcorner i).1
      have h4 : x i = (m i : K) * g.unit i + g.lo i := by rw [hxm']; rfl
      have h5 : (shrink g eps x i - g.ijkToState (rectOf g x) i) / g.unit i -
          ((m i - rectOf g x i : ℕ) : K) = (shrink g eps x i - x i) / g.unit i := by
        rw [h3, h4]
        unfold GridWorld.ijkToState
        field_simp [(hu i).ne']
        ring
      rw [h5, abs_div, abs_of_pos (hu i)]
      have h6 : |shrink g eps x i - x i| ≤ 2 * eps := by
        have he := S.eps_pos
        have hle : 4 * eps ≤ g.unit i := S.eps_le i
        have hle2 : g.unit i ≤ g.hi i - g.lo i := by
          have := ijkToState_add_unit_le hg hR i
          have := le_ijkToState hg (rectOf g x) i
          linarith
        have := hlo i
        have := hhi i
        unfold shrink
        rcases le_or_gt (x i) (g.lo i + 2 * eps) with h7 | h7
        · rw [clip_of_le_lo (by linarith) h7, abs_le]
          constructor <;> linarith
        · rcases le_or_gt (x i) (g.hi i - 2 * eps) with h8 | h8
          · rw [clip_of_mem h7.le h8, sub_self, abs_zero]
            linarith
          · rw [clip_of_hi_le h8.le, abs_le]
            constructor <;> linarith
      exact div_le_div_of_nonneg_right h6 (hu i).le) heps)
  have hj0' : (fun i => rectOf g x i + bits g (s j0) i) = m := by
    funext i
    have := congrFun hj0 i
    have := hcorner i
    omega
  have hproj : t.projected x = x := by
    unfold Tri.projected
    split_ifs
    · rw [hG.disc]
      exact funext hclip
    · rfl
  have hvert : verts g (rectOf g x) s j0 = x := by
    unfold verts
    rw [hj0', hxm']
  -- the weights are those of the vertex
  have hwe : codeWeights (edges (verts g (rectOf g x) s))⁻¹ (verts g (rectOf g x) s 0) x =
      fun j => if j = j0 then 1 else 0 := by
    have hI := Tri.Good.verts_indep S.tri hk (rectOf g x)
    refine bary_unique hI (codeWeights_bary hI x) ⟨by simp, fun i => ?_⟩
    simp [hvert]
  have hmlt : rowMajor g.num m < params.length := by
    rw [hlen, Spec.rowMajor, ← ravel_eq_sum]
    exact ravel_lt _ _ hm
  refine ⟨params[rowMajor g.num m], by simp [hmlt], ?_⟩
  rw [evaluate_ok hg hG hk hR hf params hlen, hproj, hwe]
  congr 1
  funext l
  simp only [ite_mul, one_mul, zero_mul, Finset.sum_ite_eq', Finset.mem_univ, if_true]
  rw [hj0', ravel_eq_sum, ← Spec.rowMajor]
  simp [List.getD_eq_getElem?_getD, hmlt]

/-! ## C12 -/

/-- **C12.** At least `2 * eps` inside the domain the weights are non-negative: the point is in the simplex found. -/
theorem C12_weights_nonneg (S : TriSetup g D eps) (ht : Tri.new g D project = .ok t)
    (x : Fin d → K) (hx : ∀ i, g.lo i + 2 * eps ≤ x i ∧ x i ≤ g.hi i - 2 * eps) :
    ∃ w idx v, t.getWeights eps x = .ok (w, idx) ∧
      (∀ j, IsGridPoint g.lo g.hi g.num (idx j) (v j)) ∧ IsConvexComb v w x := by
  have hG := S.good ht
  obtain ⟨k, s, w, hk, hf, hw, hb⟩ := S.find hG x
  have hs : shrink g eps x = x := funext fun i => clip_of_mem (hx i).1 (hx i).2
  have hp : t.projected x = x := by
    have he := S.eps_pos
    unfold Tri.projected
    split_ifs
    · rw [hG.disc]
      exact funext fun i => clip_of_mem (by linarith [(hx i).1]) (by linarith [(hx i).2])
    · rfl
  have hI := Tri.Good.verts_indep S.tri hk (rectOf g x)
  have hb2 := codeWeights_bary hI x
  rw [hs] at hb
  have hww := bary_unique hI hb2 hb
  refine ⟨_, _, verts g (rectOf g x) s, hG.getWeights_ok S.wf hk (rectOf_lt S.wf x) hf,
    fun j => isGridPoint_verts S.wf (rectOf_lt S.wf x) s j, ?_⟩
  rw [hp]
  exact ⟨fun j => by rw [hww]; exact hw j, hb2⟩

theorem convex_comb_between {n : ℕ} (w f : Fin n → K) (hw : ∀ j, 0 ≤ w j) (h1 : ∑ j, w j = 1) :
    (∃ j, f j ≤ ∑ j, w j * f j) ∧ ∃ j, ∑ j, w j * f j ≤ f j := by
  constructor
  · by_contra h
    push Not at h
    have hlt : ∑ j, w j * (∑ k, w k * f k) < ∑ j, w j * f j := by
      obtain ⟨j0, hj0⟩ : ∃ j, 0 < w j := by
        by_contra h0
        push Not at h0
        have : ∑ j, w j ≤ 0 := Finset.sum_nonpos fun j _ => h0 j
        rw [h1] at this
        linarith
      exact Finset.sum_lt_sum (fun j _ => mul_le_mul_of_nonneg_left (h j).le (hw j))
        ⟨j0, Finset.mem_univ _, mul_lt_mul_of_pos_left (h j0) hj0⟩
    rw [← Finset.sum_mul, h1, one_mul] at hlt
    exact lt_irrefl _ hlt
  · by_contra h
    push Not at h
    have hlt : ∑ j, w j * f j < ∑ j, w j * (∑ k, w k * f k) := by
      obtain ⟨j0, hj0⟩ : ∃ j, 0 < w j := by
        by_contra h0
        push Not at h0
        have : ∑ j, w j ≤ 0 := Finset.sum_nonpos fun j _ => h0 j
        rw [h1] at this
        linarith
      exact Finset.sum_lt_sum (fun j _ => mul_le_mul_of_nonneg_left (h j).le (hw j))
        ⟨j0, Finset.mem_univ _, mul_lt_mul_of_pos_left (h j0) hj0⟩
    rw [← Finset.sum_mul, h1, one_mul] at hlt
    exact lt_irrefl _ hlt

/-- **C12.** The value lies between the smallest and the largest parameter of the vertices of a simplex that contains the
point. -/
theorem C12_maximum_principle (S : TriSetup g D eps) (ht : Tri.new g D project = .ok t)
    (params : List (Fin o → K)) (hlen : params.length = ∏ i, g.num i)
    (x : Fin d → K) (hx : ∀ i, g.lo i + 2 * eps ≤ x i ∧ x i ≤ g.hi i - 2 * eps) :
    ∃ y w, ∃ idx : Fin (d + 1) → ℕ, ∃ v, ∃ f : Fin (d + 1) → Fin o → K,
      t.evaluate eps params x = .ok y ∧
      (∀ j, IsGridPoint g.lo g.hi g.num (idx j) (v j)) ∧ IsConvexComb v w x ∧
      (∀ j, params[idx j]? = some (f j)) ∧
      ∀ l, (∃ j, f j l ≤ y l) ∧ ∃ j, y l ≤ f j l := by
  obtain ⟨w, idx, v, h1, h2, h3⟩ := C12_weights_nonneg S ht x hx
  have hidx : ∀ j, idx j < params.length := by
    intro j
    obtain ⟨m, hm, he, _⟩ := h2 j
    rw [he, hlen, Spec.rowMajor, ← ravel_eq_sum]
    exact ravel_lt _ _ hm
  refine ⟨fun l => ∑ j, w j * (params[idx j]'(hidx j)) l, w, idx, v,
    fun j => params[idx j]'(hidx j), ?_, h2, h3,
    fun j => List.getElem?_eq_getElem (hidx j), fun l => convex_comb_between w _ h3.1 h3.2.1⟩
  unfold Tri.evaluate
  rw [h1]
  simp only [bind, Except.bind]
  rw [traverseFin_ok (g := fun j => params[idx j]'(hidx j))
    fun j => rowAt_ok (List.getElem?_eq_getElem (hidx j))]
  rfl

/-! ## C13 -/

theorem list_sum_apply {n : ℕ} : ∀ (l : List (Fin n → K)) (i : Fin n),
    l.sum i = (l.map fun f => f i).sum
  | [], _ => rfl
  | f :: l, i => by simp [list_sum_apply l i]

/-- **C13.** `parameter_derivative(points)` times the parameters is the evaluation at the points, for every parameter
array. -/
theorem C13_parameter_derivative (S : TriSetup g D eps) (ht : Tri.new g D project = .ok t)
    (points : List (Fin d → K)) :
    ∃ B, t.parameterDerivative eps points = .ok B ∧
      ∀ (o : ℕ) (params : List (Fin o → K)), params.length = ∏ i, g.num i →
        B.dot params = points.mapM (t.evaluate eps params) ∧
        ∃ values, points.mapM (t.evaluate eps params) = .ok values := by
  have hG := S.good ht
  choose k s _ hk hf _ using fun x => S.find hG x
  have hR := fun x => rectOf_lt S.wf x
  have hW : ∀ x, t.getWeights eps x = .ok _ := fun x =>
    hG.getWeights_ok S.wf (hk x) (hR x) (hf x)
  have hws := mapM_ok (l := points) (f := t.getWeights eps) fun x _ => hW x
  refine ⟨_, by
    unfold Tri.parameterDerivative
    rw [hws]
    rfl, fun o params hp => ?_⟩
  have hE := mapM_ok (l := points) (f := t.evaluate eps params) fun x _ =>
    evaluate_ok S.wf hG (hk x) (hR x) (hf x) params hp
  refine ⟨?_, _, hE⟩
  rw [hE]
  unfold Coo.dot
  rw [if_pos (by rw [hG.disc, hp]; rfl)]
  congr 1
  apply List.ext_getElem
  · simp
  · intro r hr1 hr2
    have hr : r < points.length := by simpa using hr1
    simp only [List.getElem_map, List.getElem_range]
    have hb := filter_blocks (K := K) (Tri.weightEntries (d := d)) id (by
      intro r w e he
      unfold Tri.weightEntries at he
      obtain ⟨j, _, rfl⟩ := List.mem_map.mp he
      rfl) r (points.map fun x =>
        (codeWeights (edges (verts g (rectOf g x) (s x)))⁻¹ (verts g (rectOf g x) (s x) 0)
          (t.projected x), fun j => ravel g.num fun i => rectOf g x i + bits g (s x j) i))
    rw [List.length_map] at hb
    rw [hb]
    simp only [id, List.getElem?_map, List.getElem?_eq_getElem hr, Option.map_some,
      Option.elim_some]
    rw [List.filter_eq_self.mpr]
    · unfold Tri.weightEntries
      rw [List.map_map]
      funext l
      rw [list_sum_apply, List.map_map]
      simp only [Function.comp_def, Pi.smul_apply, smul_eq_mul]
      exact sum_finRange _
    · intro e he
      unfold Tri.weightEntries at he
      obtain ⟨j, _, rfl⟩ := List.mem_map.mp he
      simp

/-! ## C14 -/

theorem codeWeights_sub (H : Matrix (Fin d) (Fin d) K) (origin p p' : Fin d → K)
    (j : Fin (d + 1)) :
    codeWeights H origin p j - codeWeights H origin p' j =
      ∑ i, (p i - p' i) * (Fin.cons (-∑ j, H i j) (H i) : Fin (d + 1) → K) j := by
  unfold codeWeights
  refine Fin.cases ?_ (fun j => ?_) j
  · simp only [Fin.cons_zero]
    have h1 : ∀ q : Fin d → K, ∑ j, ∑ i, (q i - origin i) * H i j =
        ∑ i, (q i - origin i) * ∑ j, H i j := by
      intro q
      rw [Finset.sum_comm]
      exact Finset.sum_congr rfl fun i _ => by rw [Finset.mul_sum]
    rw [h1, h1, sub_sub_sub_cancel_left, ← Finset.sum_sub_distrib]
    exact Finset.sum_congr rfl fun i _ => by ring
  · simp only [Fin.cons_succ]
    rw [← Finset.sum_sub_distrib]
    exact Finset.sum_congr rfl fun i _ => by ring

/-- **C14.** For two points located in the same simplex the difference of the values is the gradient times the difference of
the points (after clipping when `project`). -/
theorem C14_gradient_is_slope (S : TriSetup g D eps) (ht : Tri.new g D project = .ok t)
    (params : List (Fin o → K)) (hlen : params.length = ∏ i, g.num i) (x x' : Fin d → K)
    (hx : t.findSimplex eps x = t.findSimplex eps x') :
    ∃ v v' G, t.evaluate eps params x = .ok v ∧ t.evaluate eps params x' = .ok v' ∧
      t.gradient eps params x = .ok G ∧ t.gradient eps params x' = .ok G ∧
      ∀ l, v l - v' l = ∑ i, G l i * ((if project then clipBox g.lo g.hi x else x) i -
        (if project then clipBox g.lo g.hi x' else x') i) := by
  have hG := S.good ht
  obtain ⟨k, s, _, hk, hf, _⟩ := S.find hG x
  have hR := rectOf_lt S.wf x
  have hf' := hx ▸ hf
  refine ⟨_, _, _, evaluate_ok S.wf hG hk hR hf params hlen,
    evaluate_ok S.wf hG hk hR hf' params hlen, gradient_ok S.wf hG hk hR hf params hlen,
    gradient_ok S.wf hG hk hR hf' params hlen, fun l => ?_⟩
  rw [← Finset.sum_sub_distrib]
  simp only [← sub_mul, codeWeights_sub, ← projected_eq S hG]
  simp only [Finset.sum_mul]
  rw [Finset.sum_comm]
  refine Finset.sum_congr rfl fun i _ => Finset.sum_congr rfl fun j _ => by ring

/-- **C14.** The gradient of an affine function is its slope, everywhere. -/
theorem C14_gradient_affine (S : TriSetup g D eps) (ht : Tri.new g D project = .ok t)
    (A : Fin o → Fin d → K) (b : Fin o → K) (params : List (Fin o → K))
    (hlen : params.length = ∏ i, g.num i)
    (hp : ∀ k p, IsGridPoint g.lo g.hi g.num k p →
      params[k]? = some fun l => ∑ i, A l i * p i + b l)
    (x : Fin d → K) : t.gradient eps params x = .ok A := by
  have hG := S.good ht
  obtain ⟨k, s, _, hk, hf, _⟩ := S.find hG x
  have hR := rectOf_lt S.wf x
  have hI := Tri.Good.verts_indep S.tri hk (rectOf g x)
  have hdet : IsUnit (edges (verts g (rectOf g x) s)).det := (edges_det_ne_zero hI).isUnit
  rw [gradient_ok S.wf hG hk hR hf params hlen]
  congr 1
  funext l i
  have h3 : ∀ j, params.getD (ravel g.num fun i => rectOf g x i + bits g (s j) i) 0 l =
      ∑ i, A l i * verts g (rectOf g x) s j i + b l := by
    intro j
    rw [List.getD_eq_getElem?_getD, hp _ _ (isGridPoint_verts S.wf hR s j)]
    rfl
  set v := verts g (rectOf g x) s with hv
  have h4 : ∀ i', ∑ j, (edges v)⁻¹ i j * (v j.succ i' - v 0 i') = if i = i' then 1 else 0 := by
    intro i'
    have := congrFun (congrFun (Matrix.nonsing_inv_mul _ hdet) i) i'
    rw [Matrix.mul_apply, Matrix.one_apply] at this
    exact this
  simp only [h3]
  rw [Fin.sum_univ_succ]
  simp only [Fin.cons_zero, Fin.cons_succ]
  have h5 : ∑ j, (edges v)⁻¹ i j * (∑ i', A l i' * v j.succ i' + b l) -
      (∑ j, (edges v)⁻¹ i j) * (∑ i', A l i' * v 0 i' + b l) = A l i := by
    rw [Finset.sum_mul, ← Finset.sum_sub_distrib]
    calc _ = ∑ j, ∑ i', A l i' * ((edges v)⁻¹ i j * (v j.succ i' - v 0 i')) := by
          refine Finset.sum_congr rfl fun j _ => ?_
          rw [← mul_sub, add_sub_add_right_eq_sub, ← Finset.sum_sub_distrib, Finset.mul_sum]
          exact Finset.sum_congr rfl fun i' _ => by ring
      _ = ∑ i', A l i' * ∑ j, (edges v)⁻¹ i j * (v j.succ i' - v 0 i') := by
          rw [Finset.sum_comm]
          exact Finset.sum_congr rfl fun i' _ => by rw [Finset.mul_sum]
      _ = A l i := by simp [h4]
  linarith

theorem filter_finRange_block {n : ℕ} (f : Fin n → ℕ) (hf : Function.Injective f) (i : Fin n)
    {W : Type} (E : Fin n → List (K × ℕ × W)) (hE : ∀ i, ∀ e ∈ E i, e.2.1 = f i) :
    ((List.finRange n).flatMap E).filter (fun e => e.2.1 = f i) = E i := by
  rw [List.filter_flatMap]
  have h1 : (fun a => (E a).filter fun e => decide (e.2.1 = f i)) =
      fun a => if a = i then E a else [] := by
    funext a
    split_ifs with h
    · subst h
      rw [List.filter_eq_self]
      intro e he
      simpa using hE a e he
    · rw [List.filter_eq_nil_iff]
      intro e he
      rw [hE a e he]
      simpa using fun h' => h (hf h')
  rw [h1]
  have h2 : ∀ l : List (Fin n), l.Nodup → i ∈ l → l.flatMap (fun a => if a = i then E a else []) = E i := by
    intro l hl hi
    induction l with
    | nil => simp at hi
    | cons a l ih =>
      rw [List.flatMap_cons]
      rw [List.nodup_cons] at hl
      rcases List.mem_cons.mp hi with rfl | hi
      · have : l.flatMap (fun a => if a = i then E a else []) = [] := by
          rw [List.flatMap_eq_nil_iff]
          intro a ha
          rw [if_neg (by rintro rfl; exact hl.1 ha)]
        rw [this, if_pos rfl, List.append_nil]
      · rw [if_neg (by rintro rfl; exact hl.1 hi), ih hl.2 hi, List.nil_append]
  exact h2 _ (List.nodup_finRange n) (List.mem_finRange i)

/-- **C14.** `gradient_parameter_derivative(points)` times the parameters lists the gradients, with the derivative of point
`r` in dimension `i` in row `r * ndim + i`; called with the simplex indices of the points it returns the same matrix. -/
theorem C14_gradient_parameter_derivative (S : TriSetup g D eps) (ht : Tri.new g D project = .ok t)
    (points : List (Fin d → K)) :
    ∃ B ids, t.gradientParameterDerivative eps (some points) none = .ok B ∧
      points.mapM (t.findSimplex eps) = .ok ids ∧
      t.gradientParameterDerivative eps none (some ids) = .ok B ∧
      ∀ (o : ℕ) (params : List (Fin o → K)), params.length = ∏ i, g.num i →
        ∃ rows, B.dot params = .ok rows ∧ rows.length = d * points.length ∧
          ∀ (r : ℕ) (x : Fin d → K), points[r]? = some x →
            ∃ G, t.gradient eps params x = .ok G ∧
              ∀ i : Fin d, rows[r * d + i.1]? = some fun l => G l i := by
  have hG := S.good ht
  choose k s _ hk hf _ using fun x => S.find hG x
  have hR := fun x => rectOf_lt S.wf x
  have hids := mapM_ok (l := points) (f := t.findSimplex eps) fun x _ => hf x
  set W : (Fin d → K) → (Fin d → Fin (d + 1) → K) × (Fin (d + 1) → ℕ) := fun x =>
    (fun i => Fin.cons (-∑ j, (edges (verts g (rectOf g x) (s x)))⁻¹ i j)
      ((edges (verts g (rectOf g x) (s x)))⁻¹ i),
      fun j => ravel g.num fun i => rectOf g x i + bits g (s x j) i) with hWdef
  have hws : (points.map fun x => ((simplexNumber g D (k x) (rectOf g x) : ℕ) : ℤ)).mapM
      t.weightsGradientAt = .ok (points.map W) := by
    generalize points = ps
    induction ps with
    | nil => rfl
    | cons x ps ih =>
      simp only [List.map_cons, List.mapM_cons]
      rw [hG.weightsGradientAt_ok S.wf (hk x) (hR x), ih]
      rfl
  refine ⟨{ nrows := d * (points.map W).length, ncols := t.disc.nindex,
            entries := ((List.range (points.map W).length).zipWith Tri.gradientEntries
              (points.map W)).flatten }, _, ?_, hids, ?_, fun o params hp => ?_⟩
  · unfold Tri.gradientParameterDerivative Tri.getWeightsGradient
    simp only
    rw [hids]
    simp only [bind, Except.bind]
    rw [hws]
    rfl
  · unfold Tri.gradientParameterDerivative Tri.getWeightsGradient
    simp only [bind, Except.bind]
    rw [hws]
    rfl
  · refine ⟨_, by
      unfold Coo.dot
      rw [if_pos (by rw [hG.disc, hp]; rfl)], by simp, fun r x hx => ?_⟩
    have hr : r < points.length := (List.getElem?_eq_some_iff.mp hx).1
    refine ⟨_, gradient_ok S.wf hG (hk x) (hR x) (hf x) params hp, fun i => ?_⟩
    have hd : 0 < d := i.pos
    have hlt : r * d + i.1 < d * points.length := by
      have : r * d + d ≤ points.length * d := by
        have := Nat.mul_le_mul_right d hr
        rw [Nat.succ_mul] at this
        exact this
      have := i.2
      nlinarith
    have hdiv : (r * d + i.1) / d = r := by
      rw [Nat.mul_comm, Nat.mul_add_div hd, Nat.div_eq_of_lt i.2, Nat.add_zero]
    have hb := filter_blocks (K := K) (Tri.gradientEntries (d := d)) (· / d) (by
      intro r w e he
      unfold Tri.gradientEntries at he
      obtain ⟨i, _, he⟩ := List.mem_flatMap.mp he
      obtain ⟨j, _, rfl⟩ := List.mem_map.mp he
      simp only
      rw [Nat.mul_comm, Nat.mul_add_div i.pos, Nat.div_eq_of_lt i.2, Nat.add_zero])
      (r * d + i.1) (points.map W)
    simp only [hdiv, List.getElem?_map, hx, Option.map_some, Option.elim_some] at hb
    rw [List.getElem?_map, List.getElem?_range (by simpa using hlt), Option.map_some]
    congr 1
    rw [hb]
    have hblock : (Tri.gradientEntries r (W x)).filter (fun e => e.2.1 = r * d + i.1) =
        (List.finRange (d + 1)).map fun j => ((W x).1 i j, r * d + i.1, (W x).2 j) := by
      unfold Tri.gradientEntries
      exact filter_finRange_block (fun i : Fin d => r * d + i.1)
        (fun a b hab => Fin.ext (by simpa using hab)) i
        (fun i => (List.finRange (d + 1)).map fun j => ((W x).1 i j, r * d + i.1, (W x).2 j))
        (by
          intro i e he
          obtain ⟨j, _, rfl⟩ := List.mem_map.mp he
          rfl)
    rw [hblock, List.map_map]
    funext l
    rw [list_sum_apply, List.map_map]
    simp only [Function.comp_def, Pi.smul_apply, smul_eq_mul]
    exact sum_finRange _

/-! ## C15 -/

/-- **C15.** `find_simplex` of any point, in or out of the domain, is an index in `[0, nsimplex)`, where `nsimplex` is the number
of unit simplices times the number of rectangles. -/
theorem C15_find_simplex_valid (S : TriSetup g D eps) (ht : Tri.new g D project = .ok t)
    (x : Fin d → K) :
    ∃ n : ℕ, t.findSimplex eps x = .ok n ∧ n < D.simplices.length * ∏ i, (g.num i - 1) := by
  have hG := S.good ht
  obtain ⟨k, s, _, hk, hf, _⟩ := S.find hG x
  refine ⟨_, hf, ?_⟩
  have h1 := lt_nsimplex hk
  have h2 : ravel g.numRect (rectOf g x) < ∏ i, (g.num i - 1) := ravel_lt _ _ (rectOf_lt S.wf x)
  unfold simplexNumber
  unfold Delaunay.nsimplex at *
  nlinarith

/-- **C15.** For every valid simplex index `simplices` returns the indices of affinely independent grid points that are corners
of the rectangle with number `index // nsimplex_unit`. -/
theorem C15_simplices_valid (S : TriSetup g D eps) (ht : Tri.new g D project = .ok t) (n : ℕ)
    (hn : n < D.simplices.length * ∏ i, (g.num i - 1)) :
    ∃ idx p v, t.simplices n = .ok idx ∧
      g.rectangleToState ((n : ℤ) / (D.simplices.length : ℤ)) = .ok p ∧
      AffIndep v ∧ ∀ j, idx j < ∏ i, g.num i ∧ IsGridPoint g.lo g.hi g.num (idx j) (v j) ∧
        ∀ i, v j i = p i ∨ v j i = p i + (g.hi i - g.lo i) / ((g.num i : K) - 1) := by
  have hG := S.good ht
  have hpos : 0 < D.simplices.length := by
    rcases Nat.eq_zero_or_pos D.simplices.length with h | h
    · rw [h] at hn; omega
    · exact h
  have hk : n % D.simplices.length < D.simplices.length := Nat.mod_lt _ hpos
  have hr : n / D.simplices.length < shapeProd g.numRect := Nat.div_lt_of_lt_mul hn
  have hR := unravel_lt _ _ hr
  have hs : D.simplices[n % D.simplices.length]? = some (D.simplices[n % D.simplices.length]) :=
    List.getElem?_eq_getElem hk
  have hnum : simplexNumber g D (n % D.simplices.length)
      (unravel g.numRect (n / D.simplices.length)) = n := by
    unfold simplexNumber Delaunay.nsimplex
    rw [ravel_unravel _ _ hr, Nat.mul_comm]
    exact Nat.mod_add_div n _
  have h1 := hG.simplices_ok S.wf hs hR
  rw [hnum] at h1
  refine ⟨_, g.ijkToState (unravel g.numRect (n / D.simplices.length)),
    verts g (unravel g.numRect (n / D.simplices.length)) (D.simplices[n % D.simplices.length]),
    h1, ?_, Tri.Good.verts_indep S.tri hs _, fun j => ⟨ravel_lt _ _ fun i => bits_add_lt S.wf hR _ i,
      isGridPoint_verts S.wf hR _ j, fun i => ?_⟩⟩
  · unfold GridWorld.rectangleToState
    have : (n : ℤ) / (D.simplices.length : ℤ) = ((n / D.simplices.length : ℕ) : ℤ) := by simp
    rw [this, unravelIndex_ok _ _ hr]
    rfl
  · unfold verts GridWorld.ijkToState
    rcases Nat.le_one_iff_eq_zero_or_eq_one.mp
      (bits_le g ((D.simplices[n % D.simplices.length]) j) i) with h | h
    · left
      simp only [h, Nat.add_zero]
    · right
      simp only [h]
      push_cast
      unfold GridWorld.unit
      ring

/-! ## C16 -/

theorem rectOf_clip (hg : g.WF) (x : Fin d → K) (i : Fin d) :
    g.stateToRectIjk (clipBox g.lo g.hi x) i = g.stateToRectIjk x i := by
  have hc : clip (clipBox g.lo g.hi x i) (g.lo i) (g.hi i) = clip (x i) (g.lo i) (g.hi i) := by
    rw [g.clipBox_eq_clip hg.lt, clip_clip (hg.lt i).le]
  have h1 := rectOf_spec hg (clipBox g.lo g.hi x) i
  have h2 := rectOf_spec hg x i
  rw [hc] at h1
  rw [← rectOf_cast hg, ← rectOf_cast hg]
  exact_mod_cast rect_unique hg (rectOf_lt hg _) (rectOf_lt hg _) i _ h1.1 h1.2.1 h1.2.2
    h2.1 h2.2.1 h2.2.2

/-- **C16.** With `project` the value at any point is the value at the point clipped to the limits (and so is the simplex
found). No property of the triangulation library is needed. -/
theorem C16_projection (h2 : ∀ i, 2 ≤ g.num i) (hlt : ∀ i, g.lo i < g.hi i) (he : 0 ≤ eps)
    (hd : t.disc = g) (hp : t.project = true) (params : List (Fin o → K)) (x : Fin d → K) :
    t.findSimplex eps x = t.findSimplex eps (clipBox g.lo g.hi x) ∧
      t.evaluate eps params x = t.evaluate eps params (clipBox g.lo g.hi x) := by
  have hg : g.WF := ⟨h2, hlt⟩
  have h1 : t.findSimplex eps x = t.findSimplex eps (clipBox g.lo g.hi x) := by
    unfold Tri.findSimplex GridWorld.stateToRectangle Tri.unitCoordinates
    have ha : g.stateToRectIjk (clipBox g.lo g.hi x) = g.stateToRectIjk x :=
      funext fun i => rectOf_clip hg x i
    have hb : g.centerStates eps true (clipBox g.lo g.hi x) = g.centerStates eps true x := by
      funext i
      rw [centerStates_eq, centerStates_eq]
      congr 1
      unfold shrink
      rw [g.clipBox_eq_clip hlt]
      unfold clip
      have := hlt i
      rcases le_total (x i) (g.lo i) with h | h
      · rw [max_eq_right h, min_eq_left this.le, max_eq_right (by linarith),
          max_eq_right (by linarith)]
      · rw [max_eq_left h]
        rcases le_total (x i) (g.hi i) with h' | h'
        · rw [min_eq_left h']
        · rw [min_eq_right h', min_eq_right, min_eq_right]
          · exact le_trans (by linarith) (le_max_left _ _)
          · exact le_trans (by linarith) (le_max_left _ _)
    rw [hd, ha, hb]
  refine ⟨h1, ?_⟩
  have h3 : t.projected (clipBox g.lo g.hi x) = t.projected x := by
    unfold Tri.projected
    rw [if_pos hp, if_pos hp, hd]
    funext i
    rw [g.clipBox_eq_clip hlt, clip_clip (hlt i).le]
  unfold Tri.evaluate Tri.getWeights
  rw [← h1, h3]

/-! ## C17 -/

/-- **C17.** The TensorFlow class evaluates to the same value as the numpy class, for every triangulation, parameters and
point (including the errors). -/
theorem C17_tf_agrees (t : Tri K d) (params : List (Fin o → K)) (x : Fin d → K) :
    t.tfEvaluate eps params x = t.evaluate eps params x := by
  unfold Tri.tfEvaluate Tri.evaluate Tri.tfGetHyperplanes Tri.getWeights
  simp only [bind, Except.bind, pure, Except.pure]
  have hpt : ∀ i, (if t.project = true then min (max (x i) (t.disc.lo i)) (t.disc.hi i) else x i) =
      t.projected x i := by
    intro i
    unfold Tri.projected
    split_ifs <;> rfl
  simp only [hpt]
  cases t.findSimplex eps x with
  | error e => rfl
  | ok n =>
    simp only
    cases t.simplices n with
    | error e => rfl
    | ok s =>
      simp only
      cases t.disc.indexToState (s 0) with
      | error e => rfl
      | ok q =>
        simp only
        cases rowAt t.hyperplanes (n % (t.triangulation.nsimplex : ℤ)).toNat with
        | error e => rfl
        | ok H =>
          simp only
          cases (traverseFin fun j => rowAt params (s j)) with
          | error e => rfl
          | ok vals =>
            simp only
            congr 1
            funext l
            rw [Fin.sum_univ_succ]
            rfl

end SafeLearning
