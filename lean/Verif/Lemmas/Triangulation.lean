import Verif.Lemmas.Sparse
import Verif.Lemmas.Region
import Verif.Model.Triangulation
import Verif.Spec.Triangulation
import Verif.Props.Grid
import Mathlib.LinearAlgebra.Matrix.ToLinearEquiv
import Mathlib.Tactic.LinearCombination
set_option autoImplicit false

/-!
# Lemmas about the triangulation
-/

namespace SafeLearning

set_option linter.unusedSectionVars false

open Spec

variable {K : Type} [Field K] [LinearOrder K] [IsStrictOrderedRing K] {d o : ℕ}

/-! ## Barycentric coordinates -/

theorem bary_unique {n : ℕ} {v : Fin n → Fin d → K} (hv : AffIndep v) {w w' : Fin n → K}
    {y : Fin d → K} (h : IsBarycentric v w y) (h' : IsBarycentric v w' y) : w = w' := by
  funext j
  have := hv (fun j => w j - w' j) (by rw [Finset.sum_sub_distrib, h.1, h'.1, sub_self])
    (fun i => by
      simp only [sub_mul]
      rw [Finset.sum_sub_distrib, h.2 i, h'.2 i, sub_self]) j
  linarith

/-- Matrix of the edges leaving the first vertex. -/
def edges (v : Fin (d + 1) → Fin d → K) : Matrix (Fin d) (Fin d) K :=
  fun j i => v j.succ i - v 0 i

theorem edges_det_ne_zero {v : Fin (d + 1) → Fin d → K} (hv : AffIndep v) :
    (edges v).det ≠ 0 := by
  intro h0
  obtain ⟨c, hc, hc0⟩ := Matrix.exists_vecMul_eq_zero_iff.mpr h0
  apply hc
  have key := hv (Fin.cons (-∑ j, c j) c) (by rw [Fin.sum_univ_succ]; simp) (fun i => by
    rw [Fin.sum_univ_succ]
    simp only [Fin.cons_zero, Fin.cons_succ]
    have := congrFun hc0 i
    simp only [Matrix.vecMul, dotProduct, edges, Pi.zero_apply, mul_sub,
      Finset.sum_sub_distrib, ← Finset.sum_mul] at this
    linarith)
  funext j
  simpa using key j.succ

/-- The weights of the code from the inverse of the edge matrix. -/
def codeWeights (H : Matrix (Fin d) (Fin d) K) (origin point : Fin d → K) : Fin (d + 1) → K :=
  Fin.cons (1 - ∑ j, ∑ i, (point i - origin i) * H i j) fun j => ∑ i, (point i - origin i) * H i j

theorem codeWeights_bary {v : Fin (d + 1) → Fin d → K} (hv : AffIndep v) (point : Fin d → K) :
    IsBarycentric v (codeWeights (edges v)⁻¹ (v 0) point) point := by
  have hdet : IsUnit (edges v).det := (edges_det_ne_zero hv).isUnit
  constructor
  · rw [Fin.sum_univ_succ]
    simp [codeWeights]
  · intro i
    rw [Fin.sum_univ_succ]
    simp only [codeWeights, Fin.cons_zero, Fin.cons_succ]
    set w : Fin d → K := fun j => ∑ i, (point i - v 0 i) * (edges v)⁻¹ i j with hw
    have h1 : Matrix.vecMul w (edges v) = fun i => point i - v 0 i := by
      have : w = Matrix.vecMul (fun i => point i - v 0 i) (edges v)⁻¹ := rfl
      rw [this, Matrix.vecMul_vecMul, Matrix.nonsing_inv_mul _ hdet, Matrix.vecMul_one]
    have h2 := congrFun h1 i
    simp only [Matrix.vecMul, dotProduct, edges, mul_sub, Finset.sum_sub_distrib,
      ← Finset.sum_mul] at h2
    have h3 : ∀ j, ∑ i, (point i - v 0 i) * (edges v)⁻¹ i j = w j := fun j => rfl
    simp only [h3]
    linear_combination h2

/-! ## The corner points -/

theorem cornerPoints_coord (g : GridWorld K d) (p : Fin d → K) (hp : p ∈ cornerPoints g)
    (i : Fin d) : p i = 0 ∨ p i = g.unit i := by
  unfold cornerPoints at hp
  split_ifs at hp with h
  · rcases List.mem_cons.mp hp with rfl | hp
    · exact Or.inl rfl
    · rw [List.mem_singleton] at hp
      subst hp
      exact Or.inr rfl
  · have := (mem_meshIJ _ p).mp hp i
    obtain ⟨j, _, hj⟩ := List.mem_map.mp this
    split_ifs at hj
    · exact Or.inr hj.symm
    · exact Or.inl hj.symm

/-- The corner with number `k` as a vector of zeros and ones. -/
def bits (g : GridWorld K d) (k : ℕ) (i : Fin d) : ℕ :=
  if (cornerPoints g).getD k 0 i = 0 then 0 else 1

theorem bits_le (g : GridWorld K d) (k : ℕ) (i : Fin d) : bits g k i ≤ 1 := by
  unfold bits; split_ifs <;> omega

theorem bits_mul (g : GridWorld K d) (k : ℕ) (i : Fin d) :
    (bits g k i : K) * g.unit i = (cornerPoints g).getD k 0 i := by
  unfold bits
  split_ifs with h
  · simp [h]
  · rw [Nat.cast_one, one_mul]
    by_cases hk : k < (cornerPoints g).length
    · rcases cornerPoints_coord g _ (List.getElem_mem hk) i with h0 | h0
      · exfalso
        apply h
        simpa [List.getD_eq_getElem?_getD, hk] using h0
      · simpa [List.getD_eq_getElem?_getD, hk] using h0.symm
    · exfalso
      apply h
      simp [List.getD_eq_getElem?_getD, hk]

/-- The vertices of simplex `s` shifted to the rectangle with multi-index `R`. -/
def verts (g : GridWorld K d) (R : Fin d → ℕ) (s : Fin (d + 1) → ℕ) (j : Fin (d + 1)) : Fin d → K :=
  g.ijkToState fun i => R i + bits g (s j) i

theorem verts_eq (g : GridWorld K d) (R : Fin d → ℕ) (s : Fin (d + 1) → ℕ) (j : Fin (d + 1))
    (i : Fin d) : verts g R s j i = g.ijkToState R i + vertices (cornerPoints g) s j i := by
  unfold verts GridWorld.ijkToState vertices
  rw [← bits_mul]
  push_cast
  ring

theorem edges_verts (g : GridWorld K d) (R : Fin d → ℕ) (s : Fin (d + 1) → ℕ) :
    edges (verts g R s) = edges (vertices (cornerPoints g) s) := by
  funext j i
  simp only [edges, verts_eq]
  ring

theorem affIndep_shift {n : ℕ} {v v' : Fin n → Fin d → K} (a : Fin d → K)
    (h : ∀ j i, v' j i = a i + v j i) (hv : AffIndep v) : AffIndep v' := by
  intro c hc hs
  apply hv c hc
  intro i
  have := hs i
  simp only [h, mul_add, Finset.sum_add_distrib, ← Finset.sum_mul, hc] at this
  linarith

theorem bary_shift {n : ℕ} {v v' : Fin n → Fin d → K} (a : Fin d → K)
    (h : ∀ j i, v' j i = a i + v j i) {w : Fin n → K} {y : Fin d → K} (hw : IsBarycentric v w y) :
    IsBarycentric v' w fun i => a i + y i := by
  refine ⟨hw.1, fun i => ?_⟩
  simp only [h, mul_add, Finset.sum_add_distrib, ← Finset.sum_mul, hw.1, hw.2 i, one_mul]

theorem ravel_add (n : Fin d → ℕ) (a b : Fin d → ℕ) :
    ravel n (fun i => a i + b i) = ravel n a + ravel n b := by
  simp only [ravel_eq_sum, add_mul, Finset.sum_add_distrib]

/-! ## Construction -/

theorem indexMapping_ok [FloorRing K] {g : GridWorld K d} (hg : g.WF) :
    ∃ m, indexMapping g = .ok m ∧ m.length = (cornerPoints g).length ∧
      ∀ k < (cornerPoints g).length, m.getD k 0 = ravel g.num (bits g k) := by
  have key : ∀ p ∈ cornerPoints g, g.stateToIndex (List.ofFn fun i => p i + g.lo i) =
      .ok (ravel g.num fun i => if p i = 0 then 0 else 1) := by
    intro p hp
    have hb : ∀ i, (if p i = 0 then 0 else 1) < g.num i := fun i => by
      have := hg.two_le i
      split_ifs <;> omega
    have : (fun i => p i + g.lo i) = g.ijkToState fun i => if p i = 0 then 0 else 1 := by
      funext i
      unfold GridWorld.ijkToState
      rcases cornerPoints_coord g p hp i with h | h
      · simp [h]
      · have h0 : p i ≠ 0 := by rw [h]; exact (hg.unit_pos i).ne'
        simp only [h0, if_false, Nat.cast_one, one_mul]
        rw [h]
    rw [this, GridWorld.stateToIndex_ofFn]
    have h2 : g.stateToIjk (g.ijkToState fun i => if p i = 0 then 0 else 1) =
        fun i => ((if p i = 0 then 0 else 1 : ℕ) : ℤ) :=
      funext fun i => hg.stateToIjk_ijkToState _ hb i
    rw [h2, ravelMultiIndex_ok _ _ hb]
  refine ⟨_, mapM_ok key, by simp, fun k hk => ?_⟩
  simp only [List.getD_eq_getElem?_getD, List.getElem?_map, List.getElem?_eq_getElem hk,
    Option.map_some, Option.getD_some]
  congr 1
  funext i
  simp [bits, List.getD_eq_getElem?_getD, hk]

theorem bits_add_lt {g : GridWorld K d} (hg : g.WF) {R : Fin d → ℕ} (hR : ∀ i, R i < g.numRect i)
    (k : ℕ) (i : Fin d) : R i + bits g k i < g.num i := by
  have h1 := hR i
  have h2 := hg.two_le i
  have h3 := bits_le g k i
  unfold GridWorld.numRect at h1
  omega

theorem indexToState_ravel {g : GridWorld K d} {b : Fin d → ℕ} (hb : ∀ i, b i < g.num i) :
    g.indexToState (ravel g.num b : ℕ) = .ok (g.ijkToState b) := by
  rw [GridWorld.indexToState_ok _ (ravel_lt _ _ hb), unravel_ravel _ _ hb]

/-- A successfully constructed triangulation. -/
structure Tri.Good (g : GridWorld K d) (D : Delaunay K d) (project : Bool) (t : Tri K d) : Prop where
  disc : t.disc = g
  tri : t.triangulation = D
  proj : t.project = project
  unitS : t.unitSimplices = D.simplices.map fun s j => ravel g.num (bits g (s j))
  hyper : t.hyperplanes = D.simplices.map fun s => (edges (vertices (cornerPoints g) s))⁻¹

/-- The construction only depends on the simplices. -/
theorem Tri.new_good_of [FloorRing K] {g : GridWorld K d} (hg : g.WF) {D : Delaunay K d}
    (hmem : ∀ s ∈ D.simplices, ∀ j, s j < (cornerPoints g).length)
    (hind : ∀ s ∈ D.simplices, AffIndep (vertices (cornerPoints g) s)) (project : Bool) :
    ∃ t, Tri.new g D project = .ok t ∧ Tri.Good g D project t := by
  obtain ⟨m, hm, hlen, hget⟩ := indexMapping_ok hg
  have hu : (D.simplices.map fun s (j : Fin (d + 1)) => m.getD (s j) 0) =
      D.simplices.map fun s j => ravel g.num (bits g (s j)) := by
    apply List.map_congr_left
    intro s hs
    funext j
    exact hget _ (hmem s hs j)
  have hh : (D.simplices.map fun s j => ravel g.num (bits g (s j))).mapM (hyperplane g) =
      .ok (D.simplices.map fun s => (edges (vertices (cornerPoints g) s))⁻¹) := by
    have : ∀ s ∈ D.simplices, hyperplane g (fun j => ravel g.num (bits g (s j))) =
        .ok (edges (vertices (cornerPoints g) s))⁻¹ := by
      intro s hs
      unfold hyperplane
      have h1 : (traverseFin fun j : Fin (d + 1) =>
          g.indexToState ((ravel g.num (bits g (s j)) : ℕ) : ℤ)) =
          .ok (verts g (fun _ => 0) s) := by
        apply traverseFin_ok
        intro j
        rw [indexToState_ravel]
        · simp [verts]
        · intro i
          have := bits_le g (s j) i
          have := hg.two_le i
          omega
      rw [h1]
      simp only [bind, Except.bind, pure, Except.pure]
      have h2 : (fun j i => verts g (fun _ => 0) s (Fin.succ j) i - verts g (fun _ => 0) s 0 i :
          Matrix (Fin d) (Fin d) K) = edges (vertices (cornerPoints g) s) :=
        edges_verts g (fun _ => 0) s
      rw [h2, if_neg (edges_det_ne_zero (hind s hs))]
    clear hmem hind hu
    generalize D.simplices = ss at this ⊢
    induction ss with
    | nil => rfl
    | cons s ss ih =>
      simp only [List.map_cons, List.mapM_cons]
      rw [this s (by simp), ih fun s' hs' => this s' (List.mem_cons_of_mem _ hs')]
      rfl
  refine ⟨{ disc := g, triangulation := D,
            unitSimplices := D.simplices.map fun s j => ravel g.num (bits g (s j)),
            hyperplanes := D.simplices.map fun s => (edges (vertices (cornerPoints g) s))⁻¹,
            project := project }, ?_, ⟨rfl, rfl, rfl, rfl, rfl⟩⟩
  unfold Tri.new
  rw [hm]
  simp only [bind, Except.bind]
  rw [hu, hh]
  rfl

theorem Tri.new_good [FloorRing K] {g : GridWorld K d} (hg : g.WF) {D : Delaunay K d}
    (hD : IsTriangulation g.unit (cornerPoints g) D.simplices D.find) (project : Bool) :
    ∃ t, Tri.new g D project = .ok t ∧ Tri.Good g D project t :=
  Tri.new_good_of hg hD.mem hD.indep project

theorem Tri.good_of_new [FloorRing K] {g : GridWorld K d} (hg : g.WF) {D : Delaunay K d}
    (hD : IsTriangulation g.unit (cornerPoints g) D.simplices D.find) {project : Bool} {t : Tri K d}
    (ht : Tri.new g D project = .ok t) : Tri.Good g D project t := by
  obtain ⟨t', h1, h2⟩ := Tri.new_good hg hD project
  rw [h1] at ht
  cases ht
  exact h2

/-! ## Location of a point -/

/-- `x` moved at least `2 * eps` inside the domain. -/
def shrink (g : GridWorld K d) (eps : K) (x : Fin d → K) (i : Fin d) : K :=
  clip (x i) (g.lo i + 2 * eps) (g.hi i - 2 * eps)

theorem centerStates_eq (g : GridWorld K d) (eps : K) (x : Fin d → K) (i : Fin d) :
    g.centerStates eps true x i = shrink g eps x i - g.lo i := by
  simp only [GridWorld.centerStates, shrink, clip, if_true]
  have h1 : max (x i - g.lo i) (0 + 2 * eps) = max (x i) (g.lo i + 2 * eps) - g.lo i := by
    rw [sub_eq_add_neg, sub_eq_add_neg, ← max_add_add_right]
    congr 1
    ring
  rw [h1, sub_eq_add_neg (min _ _), ← min_add_add_right]
  congr 1 <;> ring

/-- The rectangle of a point, as natural numbers. -/
def rectOf (g : GridWorld K d) (x : Fin d → K) (i : Fin d) : ℕ := (g.stateToRectIjk x i).toNat

theorem rectOf_cast {g : GridWorld K d} (hg : g.WF) (x : Fin d → K) (i : Fin d) :
    (rectOf g x i : ℤ) = g.stateToRectIjk x i :=
  Int.toNat_of_nonneg (hg.stateToRectIjk_mem x i).1

theorem rectOf_lt {g : GridWorld K d} (hg : g.WF) (x : Fin d → K) (i : Fin d) :
    rectOf g x i < g.numRect i := by
  have := (hg.stateToRectIjk_mem x i).2
  rw [← rectOf_cast hg] at this
  exact_mod_cast this

theorem rectOf_spec {g : GridWorld K d} (hg : g.WF) (x : Fin d → K) (i : Fin d) :
    g.ijkToState (rectOf g x) i ≤ clip (x i) (g.lo i) (g.hi i) ∧
      clip (x i) (g.lo i) (g.hi i) ≤ g.ijkToState (rectOf g x) i + g.unit i ∧
      (clip (x i) (g.lo i) (g.hi i) < g.ijkToState (rectOf g x) i + g.unit i ∨
        clip (x i) (g.lo i) (g.hi i) = g.hi i) := by
  have h := hg.stateToRectIjk_spec x i
  rw [← rectOf_cast hg] at h
  simpa [GridWorld.ijkToState] using h

/-- The upper end of the last rectangle is the upper limit. -/
theorem ijkToState_add_unit_le {g : GridWorld K d} (hg : g.WF) {R : Fin d → ℕ}
    (hR : ∀ i, R i < g.numRect i) (i : Fin d) : g.ijkToState R i + g.unit i ≤ g.hi i := by
  have hu := hg.unit_pos i
  have h1 := hg.unit_mul i
  have h2 : ((R i : K) + 1) ≤ (g.num i : K) - 1 := by
    have h3 := hR i
    have h4 := hg.two_le i
    unfold GridWorld.numRect at h3
    have : R i + 1 + 1 ≤ g.num i := by omega
    have : ((R i + 1 + 1 : ℕ) : K) ≤ g.num i := by exact_mod_cast this
    push_cast at this
    linarith
  unfold GridWorld.ijkToState
  nlinarith

theorem le_ijkToState {g : GridWorld K d} (hg : g.WF) (R : Fin d → ℕ) (i : Fin d) :
    g.lo i ≤ g.ijkToState R i := by
  have hu := hg.unit_pos i
  unfold GridWorld.ijkToState
  have : (0 : K) ≤ (R i : K) * g.unit i := by positivity
  linarith

/-- A value in `[lo, hi]` has only one rectangle that is half-open towards the next. -/
theorem rect_unique {g : GridWorld K d} (hg : g.WF) {R R' : Fin d → ℕ}
    (hR : ∀ i, R i < g.numRect i) (hR' : ∀ i, R' i < g.numRect i) (i : Fin d) (y : K)
    (h1 : g.ijkToState R i ≤ y) (h2 : y ≤ g.ijkToState R i + g.unit i)
    (h3 : y < g.ijkToState R i + g.unit i ∨ y = g.hi i)
    (h1' : g.ijkToState R' i ≤ y) (h2' : y ≤ g.ijkToState R' i + g.unit i)
    (h3' : y < g.ijkToState R' i + g.unit i ∨ y = g.hi i) :
    R i = R' i := by
  have hu := hg.unit_pos i
  have key : ∀ {A B : Fin d → ℕ}, (∀ i, A i < g.numRect i) → (∀ i, B i < g.numRect i) →
      g.ijkToState B i ≤ y → y ≤ g.ijkToState A i + g.unit i →
      (y < g.ijkToState A i + g.unit i ∨ y = g.hi i) → ¬ A i < B i := by
    intro A B hA hB hb ha ha2 hlt
    have h3 : (A i : K) + 1 ≤ B i := by exact_mod_cast hlt
    have h4 : g.ijkToState A i + g.unit i ≤ g.ijkToState B i := by
      unfold GridWorld.ijkToState; nlinarith
    rcases ha2 with ha2 | ha2
    · linarith
    · have := ijkToState_add_unit_le hg hB i
      linarith
  have := key hR hR' h1' h2 h3
  have := key hR' hR h1 h2' h3'
  omega

theorem shrink_mem {g : GridWorld K d} (hg : g.WF) {eps : K} (he : 0 < eps)
    (hu : ∀ i, 4 * eps ≤ g.unit i) (x : Fin d → K) (i : Fin d) :
    g.ijkToState (rectOf g x) i ≤ shrink g eps x i ∧
      shrink g eps x i < g.ijkToState (rectOf g x) i + g.unit i := by
  obtain ⟨h1, h2, h3⟩ := rectOf_spec hg x i
  have h4 := le_ijkToState hg (rectOf g x) i
  have h5 := ijkToState_add_unit_le hg (rectOf_lt hg x) i
  have hui := hu i
  have hlt := hg.lt i
  have hord : g.lo i + 2 * eps ≤ g.hi i - 2 * eps := by linarith
  unfold shrink
  rcases le_or_gt (x i) (g.lo i + 2 * eps) with hx | hx
  · rw [clip_of_le_lo hord hx]
    have : clip (x i) (g.lo i) (g.hi i) ≤ g.lo i + 2 * eps := by
      unfold clip
      exact (min_le_left _ _).trans (max_le hx (by linarith))
    constructor <;> linarith
  · rcases le_or_gt (x i) (g.hi i - 2 * eps) with hx2 | hx2
    · rw [clip_of_mem hx.le hx2]
      rw [clip_of_mem (by linarith) (by linarith)] at h1 h2 h3
      refine ⟨h1, ?_⟩
      rcases h3 with h3 | h3
      · exact h3
      · linarith
    · rw [clip_of_hi_le hx2.le]
      have : g.hi i - 2 * eps ≤ clip (x i) (g.lo i) (g.hi i) := by
        unfold clip
        exact le_min (hx2.le.trans (le_max_left _ _)) (by linarith)
      constructor
      · linarith
      · rcases h3 with h3 | h3 <;> linarith

theorem pyMod_eq [FloorRing K] {x u : K} {r : ℕ} (hu : 0 < u) (h1 : (r : K) * u ≤ x)
    (h2 : x < (r : K) * u + u) : pyMod x u = x - r * u := by
  unfold pyMod
  have : ⌊x / u⌋ = (r : ℤ) := by
    rw [Int.floor_eq_iff]
    constructor
    · rw [le_div_iff₀ hu]; exact_mod_cast h1
    · rw [div_lt_iff₀ hu]
      push_cast
      linarith
  rw [this]
  simp

theorem Tri.unitCoordinates_eq [FloorRing K] {g : GridWorld K d} (hg : g.WF) {t : Tri K d}
    (ht : t.disc = g) {eps : K} (he : 0 < eps) (hu : ∀ i, 4 * eps ≤ g.unit i) (x : Fin d → K)
    (i : Fin d) :
    t.unitCoordinates eps x i = shrink g eps x i - g.ijkToState (rectOf g x) i := by
  unfold Tri.unitCoordinates
  rw [ht, centerStates_eq]
  obtain ⟨h1, h2⟩ := shrink_mem hg he hu x i
  unfold GridWorld.ijkToState at h1 h2 ⊢
  rw [pyMod_eq (r := rectOf g x i) (hg.unit_pos i) (by linarith) (by linarith)]
  ring

/-- The number of simplex `k` of rectangle `R`. -/
def simplexNumber (g : GridWorld K d) (D : Delaunay K d) (k : ℕ) (R : Fin d → ℕ) : ℕ :=
  k + ravel g.numRect R * D.nsimplex

theorem simplexNumber_mod {g : GridWorld K d} {D : Delaunay K d} {k : ℕ} (hk : k < D.nsimplex)
    (R : Fin d → ℕ) : ((simplexNumber g D k R : ℕ) : ℤ) % (D.nsimplex : ℤ) = k := by
  unfold simplexNumber
  have : (k + ravel g.numRect R * D.nsimplex) % D.nsimplex = k := by
    rw [Nat.add_mul_mod_self_right, Nat.mod_eq_of_lt hk]
  exact_mod_cast congrArg (Nat.cast : ℕ → ℤ) this

theorem simplexNumber_div {g : GridWorld K d} {D : Delaunay K d} {k : ℕ} (hk : k < D.nsimplex)
    (R : Fin d → ℕ) :
    ((simplexNumber g D k R : ℕ) : ℤ) / (D.nsimplex : ℤ) = (ravel g.numRect R : ℕ) := by
  unfold simplexNumber
  have : (k + ravel g.numRect R * D.nsimplex) / D.nsimplex = ravel g.numRect R := by
    rw [Nat.add_mul_div_right _ _ (by omega), Nat.div_eq_of_lt hk, Nat.zero_add]
  exact_mod_cast congrArg (Nat.cast : ℕ → ℤ) this

theorem lt_nsimplex {D : Delaunay K d} {k : ℕ} {s : Fin (d + 1) → ℕ}
    (hk : D.simplices[k]? = some s) : k < D.nsimplex := by
  obtain ⟨h, _⟩ := List.getElem?_eq_some_iff.mp hk
  exact h

namespace Tri.Good

variable {g : GridWorld K d} {D : Delaunay K d} {project : Bool} {t : Tri K d}

theorem simplices_ok (ht : Tri.Good g D project t) (hg : g.WF) {k : ℕ} {s : Fin (d + 1) → ℕ}
    (hk : D.simplices[k]? = some s) {R : Fin d → ℕ} (hR : ∀ i, R i < g.numRect i) :
    t.simplices (simplexNumber g D k R : ℕ) =
      .ok fun j => ravel g.num fun i => R i + bits g (s j) i := by
  have hkn := lt_nsimplex hk
  unfold Tri.simplices
  rw [ht.tri, simplexNumber_mod hkn, simplexNumber_div hkn, ht.unitS, ht.disc]
  dsimp only
  rw [rowAt_ok (a := fun j => ravel g.num (bits g (s j))) (by simp [hk])]
  simp only [bind, Except.bind]
  unfold GridWorld.rectangleCornerIndex
  rw [unravelIndex_ok _ _ (ravel_lt _ _ hR), unravel_ravel _ _ hR]
  simp only [bind, Except.bind]
  rw [ravelMultiIndex_ok _ _ fun i => g.nindex_rect_lt hg _ hR i]
  simp only [pure, Except.pure]
  congr 1
  funext j
  rw [ravel_add, Nat.add_comm]

theorem hyper_ok (ht : Tri.Good g D project t) {k : ℕ} {s : Fin (d + 1) → ℕ}
    (hk : D.simplices[k]? = some s) (R : Fin d → ℕ) :
    rowAt t.hyperplanes
        (((simplexNumber g D k R : ℕ) : ℤ) % (t.triangulation.nsimplex : ℤ)).toNat =
      .ok (edges (verts g R s))⁻¹ := by
  rw [ht.tri, simplexNumber_mod (lt_nsimplex hk), ht.hyper, edges_verts]
  exact rowAt_ok (by simp [hk])

theorem verts_indep (hD : IsTriangulation g.unit (cornerPoints g) D.simplices D.find) {k : ℕ}
    {s : Fin (d + 1) → ℕ} (hk : D.simplices[k]? = some s) (R : Fin d → ℕ) :
    AffIndep (verts g R s) :=
  affIndep_shift (g.ijkToState R) (fun j i => verts_eq g R s j i)
    (hD.indep s (List.mem_of_getElem? hk))

/-- Where a point is located. -/
theorem find_ok [FloorRing K] (ht : Tri.Good g D project t) (hg : g.WF)
    (hD : IsTriangulation g.unit (cornerPoints g) D.simplices D.find) {eps : K} (he : 0 < eps)
    (hu : ∀ i, 4 * eps ≤ g.unit i) (x : Fin d → K) :
    ∃ (k : ℕ) (s : Fin (d + 1) → ℕ) (w : Fin (d + 1) → K), D.simplices[k]? = some s ∧
      t.findSimplex eps x = .ok (simplexNumber g D k (rectOf g x) : ℕ) ∧
      IsConvexComb (verts g (rectOf g x) s) w (shrink g eps x) := by
  have hy : t.unitCoordinates eps x = fun i => shrink g eps x i - g.ijkToState (rectOf g x) i :=
    funext fun i => t.unitCoordinates_eq hg ht.disc he hu x i
  obtain ⟨k, s, w, h1, h2, h3⟩ := hD.find_spec (t.unitCoordinates eps x) (fun i => by
    have := shrink_mem hg he hu x i
    rw [hy]
    constructor <;> dsimp only <;> linarith)
  refine ⟨k, s, w, h2, ?_, h3.1, ?_⟩
  · unfold Tri.findSimplex
    rw [ht.disc, ht.tri, h1]
    have : g.stateToRectangle x = .ok (ravel g.numRect (rectOf g x)) := by
      unfold GridWorld.stateToRectangle
      have : g.stateToRectIjk x = fun i => (rectOf g x i : ℤ) :=
        funext fun i => (rectOf_cast hg x i).symm
      rw [this, ravelMultiIndex_ok _ _ (rectOf_lt hg x)]
    rw [this]
    simp only [bind, Except.bind, pure, Except.pure, simplexNumber]
    push_cast
    rfl
  · have h4 := bary_shift (g.ijkToState (rectOf g x)) (fun j i => verts_eq g (rectOf g x) s j i) h3.2
    have : (fun i => g.ijkToState (rectOf g x) i + t.unitCoordinates eps x i) = shrink g eps x := by
      rw [hy]
      funext i
      ring
    rwa [this] at h4

theorem getWeights_ok [FloorRing K] (ht : Tri.Good g D project t) (hg : g.WF) {eps : K}
    {x : Fin d → K} {k : ℕ} {s : Fin (d + 1) → ℕ} (hk : D.simplices[k]? = some s)
    {R : Fin d → ℕ} (hR : ∀ i, R i < g.numRect i)
    (hf : t.findSimplex eps x = .ok (simplexNumber g D k R : ℕ)) :
    t.getWeights eps x = .ok (codeWeights (edges (verts g R s))⁻¹ (verts g R s 0) (t.projected x),
      fun j => ravel g.num fun i => R i + bits g (s j) i) := by
  unfold Tri.getWeights
  rw [hf]
  simp only [bind, Except.bind]
  rw [ht.simplices_ok hg hk hR]
  simp only
  rw [ht.disc, indexToState_ravel fun i => bits_add_lt hg hR (s 0) i]
  simp only
  rw [ht.hyper_ok hk]
  rfl

theorem weightsGradientAt_ok (ht : Tri.Good g D project t) (hg : g.WF) {k : ℕ}
    {s : Fin (d + 1) → ℕ} (hk : D.simplices[k]? = some s) {R : Fin d → ℕ}
    (hR : ∀ i, R i < g.numRect i) :
    t.weightsGradientAt (simplexNumber g D k R : ℕ) =
      .ok (fun i => Fin.cons (-∑ j, (edges (verts g R s))⁻¹ i j) ((edges (verts g R s))⁻¹ i),
        fun j => ravel g.num fun i => R i + bits g (s j) i) := by
  unfold Tri.weightsGradientAt
  rw [ht.simplices_ok hg hk hR]
  simp only [bind, Except.bind]
  rw [ht.hyper_ok hk]
  rfl

end Tri.Good

end SafeLearning
