import Verif.Model.Plots
import Verif.Spec.Plots
import Verif.Props.Grid
import Verif.Props.Features
import Mathlib.Tactic.FieldSimp
import Mathlib.Tactic.Positivity
set_option autoImplicit false

/-!
# C102, C103: plots show the values at their states
-/

namespace SafeLearning

variable {K : Type} [Field K] [LinearOrder K] [IsStrictOrderedRing K]

/-! ## C102 -/

/-- A grid value of an axis is in its own pixel and in no other one, borders included. -/
theorem own_pixel (lo hi : K) (hlt : lo < hi) (n a c : ℕ) (h2 : 2 ≤ n) (ha : a < n) (hc : c < n) :
    (lo + (c : K) * ((hi - lo) / n) ≤ Spec.axisPoint lo hi n a ∧
      Spec.axisPoint lo hi n a ≤ lo + ((c : K) + 1) * ((hi - lo) / n)) ↔ c = a := by
  have hn : (2 : K) ≤ (n : K) := by exact_mod_cast h2
  have hn0 : (0 : K) < n := by linarith
  have hn1 : (0 : K) < (n : K) - 1 := by linarith
  have hw : 0 < hi - lo := sub_pos.mpr hlt
  have e1 : (lo + (c : K) * ((hi - lo) / n) ≤ Spec.axisPoint lo hi n a) ↔ (c : K) * ((n : K) - 1) ≤ a * n := by
    rw [Spec.axisPoint, add_le_add_iff_left, mul_div_assoc', mul_div_assoc', div_le_div_iff₀ hn0 hn1,
      ← mul_le_mul_iff_of_pos_right hw (b := (c : K) * ((n : K) - 1))]
    constructor <;> intro h <;> linarith
  have e2 : (Spec.axisPoint lo hi n a ≤ lo + ((c : K) + 1) * ((hi - lo) / n)) ↔
      (a : K) * n ≤ ((c : K) + 1) * ((n : K) - 1) := by
    rw [Spec.axisPoint, add_le_add_iff_left, mul_div_assoc', mul_div_assoc', div_le_div_iff₀ hn1 hn0,
      ← mul_le_mul_iff_of_pos_right hw (b := (a : K) * n)]
    constructor <;> intro h <;> linarith
  rw [e1, e2]
  obtain ⟨m, rfl⟩ : ∃ m, n = m + 1 := ⟨n - 1, by omega⟩
  push_cast
  rw [add_sub_cancel_right]
  norm_cast
  constructor
  · rintro ⟨h1, h3⟩
    by_contra hne
    rcases Nat.lt_or_gt_of_ne hne with h | h
    · obtain ⟨e, rfl⟩ := Nat.exists_eq_add_of_lt h
      nlinarith
    · obtain ⟨e, rfl⟩ := Nat.exists_eq_add_of_lt h
      nlinarith
  · rintro rfl
    constructor <;> nlinarith

theorem shows_iff {α : Type} (g : GridWorld K 2) (h2 : ∀ i, 2 ≤ g.num i) (hlt : ∀ i, g.lo i < g.hi i)
    (colour : ℕ → ℕ → Option α) (ijk : Fin 2 → ℕ) (hijk : ∀ i, ijk i < g.num i) (x : Fin 2 → K)
    (hx : ∀ i, x i = Spec.axisPoint (g.lo i) (g.hi i) (g.num i) (ijk i)) (v : α) :
    Spec.Shows g.lo g.hi (g.num 0) (g.num 1) colour x v ↔ colour (ijk 0) (ijk 1) = some v := by
  constructor
  · rintro ⟨c, hc, r, hr, h0, h1, hv⟩
    rw [hx 0] at h0; rw [hx 1] at h1
    rw [(own_pixel _ _ (hlt 0) _ _ _ (h2 0) (hijk 0) hc).mp h0] at hv
    rwa [(own_pixel _ _ (hlt 1) _ _ _ (h2 1) (hijk 1) hr).mp h1] at hv
  · intro hv
    refine ⟨ijk 0, hijk 0, ijk 1, hijk 1, ?_, ?_, hv⟩
    · rw [hx 0]; exact (own_pixel _ _ (hlt 0) _ _ _ (h2 0) (hijk 0) (hijk 0)).mpr rfl
    · rw [hx 1]; exact (own_pixel _ _ (hlt 1) _ _ _ (h2 1) (hijk 1) (hijk 1)).mpr rfl

theorem rowMajor_two (n ijk : Fin 2 → ℕ) : Spec.rowMajor n ijk = ijk 0 * n 1 + ijk 1 := by
  have h0 : Finset.Ioi (0 : Fin 2) = {1} := by decide
  have h1 : Finset.Ioi (1 : Fin 2) = ∅ := by decide
  rw [Spec.rowMajor, Fin.sum_univ_two, h0, h1]
  simp

/-- **C102** The images of the notebooks, `imshow(z.reshape(num_points).T, origin='lower', extent=limits.ravel())`: there is an image exactly if
there is a value for each grid state, and at the position of grid state `k` it shows `z[k]` and nothing else. -/
theorem C102_image {α : Type} (g : GridWorld K 2) (h2 : ∀ i, 2 ≤ g.num i) (hlt : ∀ i, g.lo i < g.hi i) (z : List α) :
    (z.length ≠ g.num 0 * g.num 1 → gridImage g z = .error .valueError) ∧
    (z.length = g.num 0 * g.num 1 → ∃ image, gridImage g z = .ok image ∧
      ∀ k x, Spec.IsGridPoint g.lo g.hi g.num k x → ∀ v,
        Spec.Shows g.lo g.hi (g.num 0) (g.num 1) image x v ↔ z[k]? = some v) := by
  constructor
  · intro h
    simp [gridImage, reshape2, h, bind, Except.bind]
  · intro h
    refine ⟨_, by simp [gridImage, reshape2, h, bind, Except.bind, pure, Except.pure]; rfl, ?_⟩
    rintro k x ⟨ijk, hijk, rfl, hx⟩ v
    rw [shows_iff g h2 hlt _ ijk hijk x hx, rowMajor_two]
    rfl

/-- **C102** The image of `plot_triangulation`, `imshow(z.reshape(num_points).T[::-1], origin='upper', ..)`, is the same. -/
theorem C102_triangulation {α : Type} (g : GridWorld K 2) (h2 : ∀ i, 2 ≤ g.num i) (hlt : ∀ i, g.lo i < g.hi i)
    (z : List α) :
    (z.length ≠ g.num 0 * g.num 1 → triangulationImage g z = .error .valueError) ∧
    (z.length = g.num 0 * g.num 1 → ∃ image, triangulationImage g z = .ok image ∧
      ∀ k x, Spec.IsGridPoint g.lo g.hi g.num k x → ∀ v,
        Spec.Shows g.lo g.hi (g.num 0) (g.num 1) image x v ↔ z[k]? = some v) := by
  constructor
  · intro h
    simp [triangulationImage, reshape2, h, bind, Except.bind]
  · intro h
    refine ⟨_, by simp [triangulationImage, reshape2, h, bind, Except.bind, pure, Except.pure]; rfl, ?_⟩
    rintro k x ⟨ijk, hijk, rfl, hx⟩ v
    rw [shows_iff g h2 hlt _ ijk hijk x hx, rowMajor_two]
    have h1 := hijk 1
    have e : g.num 1 - 1 - (g.num 1 - 1 - ijk 1) = ijk 1 := by omega
    simp only [imshowUpper, e]

theorem discretePoints_getD (g : GridWorld K 2) (i : Fin 2) (j : ℕ) (hj : j < g.num i) :
    (g.discretePoints i).getD j 0 = Spec.axisPoint (g.lo i) (g.hi i) (g.num i) j := by
  rw [GridWorld.discretePoints, linspace_eq]
  simp [List.getD_eq_getElem?_getD, List.getElem?_range hj, Spec.axisPoint, add_comm]

theorem axisPoint_inj (lo hi : K) (hlt : lo < hi) (n : ℕ) (h2 : 2 ≤ n) (a b : ℕ)
    (h : Spec.axisPoint lo hi n a = Spec.axisPoint lo hi n b) : a = b := by
  have hn : (2 : K) ≤ (n : K) := by exact_mod_cast h2
  have hu : 0 < (hi - lo) / ((n : K) - 1) := div_pos (sub_pos.mpr hlt) (by linarith)
  simp only [Spec.axisPoint, add_right_inj] at h
  have := mul_right_cancel₀ hu.ne' h
  exact_mod_cast this

/-- **C102** The surfaces of the notebooks, `plot_surface(*np.meshgrid(p0, p1), z.reshape(num_points))`: the grid needs as many points in both
dimensions, and then the vertices have the value of the state below them exactly if the values are symmetric, `z[a, b] = z[b, a]`. -/
theorem C102_surface_partial (g : GridWorld K 2) (h2 : ∀ i, 2 ≤ g.num i) (hlt : ∀ i, g.lo i < g.hi i) (z : List K)
    (hz : z.length = g.num 0 * g.num 1) :
    (g.num 0 ≠ g.num 1 → gridSurface g z = .error .valueError) ∧
    (g.num 0 = g.num 1 → ∃ surface, gridSurface g z = .ok surface ∧
      ((∀ k x, Spec.IsGridPoint g.lo g.hi g.num k x → ∀ v, (x 0, x 1, v) ∈ surface ↔ z[k]? = some v) ↔
        ∀ a b, a < g.num 0 → b < g.num 0 → z[a * g.num 0 + b]? = z[b * g.num 0 + a]?)) := by
  constructor
  · intro h
    simp [gridSurface, reshape2, hz, h]
  · intro h
    refine ⟨_, by simp only [gridSurface, reshape2, hz, if_true, h, and_self]; rfl, ?_⟩
    have key : ∀ ijk : Fin 2 → ℕ, (∀ i, ijk i < g.num i) → ∀ x : Fin 2 → K,
        (∀ i, x i = Spec.axisPoint (g.lo i) (g.hi i) (g.num i) (ijk i)) → ∀ v,
        (x 0, x 1, v) ∈ {v : K × K × K | ∃ i < g.num 1, ∃ j < g.num 1, ∃ h, z[i * g.num 1 + j]? = some h ∧
          v = ((g.discretePoints 0).getD j 0, (g.discretePoints 1).getD i 0, h)} ↔
        z[ijk 1 * g.num 1 + ijk 0]? = some v := by
      intro ijk hijk x hx v
      have h0 := hijk 0; have h1 := hijk 1
      constructor
      · rintro ⟨i, hi, j, hj, w, hw, he⟩
        simp only [Prod.mk.injEq] at he
        obtain ⟨e0, e1, rfl⟩ := he
        rw [discretePoints_getD g _ _ (h ▸ hj), hx 0] at e0
        rw [discretePoints_getD g _ _ hi, hx 1] at e1
        rw [axisPoint_inj _ _ (hlt 0) _ (h2 0) _ _ e0, axisPoint_inj _ _ (hlt 1) _ (h2 1) _ _ e1]
        exact hw
      · intro hv
        refine ⟨ijk 1, h1, ijk 0, h ▸ h0, v, hv, ?_⟩
        rw [discretePoints_getD g _ _ h0, discretePoints_getD g _ _ h1, hx 0, hx 1]
    constructor
    · intro H a b ha hb
      have hijk : ∀ i, (![a, b] : Fin 2 → ℕ) i < g.num i := by
        intro i; fin_cases i
        · exact ha
        · simpa [← h] using hb
      have H' := H _ _ ⟨![a, b], hijk, rfl, fun i => rfl⟩
      refine Option.ext fun v => ?_
      rw [h]
      have e := (H' v).symm.trans (key _ hijk _ (fun i => rfl) v)
      rw [rowMajor_two] at e
      exact e
    · rintro H k x ⟨ijk, hijk, rfl, hx⟩ v
      rw [key ijk hijk x hx v, rowMajor_two]
      have := H (ijk 0) (ijk 1) (hijk 0) (h ▸ hijk 1)
      rw [h] at this
      rw [this]

/-- A grid with nine states. -/
def nineGrid : GridWorld ℚ 2 where
  lo := fun _ => -1
  hi := fun _ => 1
  num := fun _ => 3

/-- **C102, refuted** The surface of the function `x[0]` does not have the value of the states below it: at `(-1, 1)` it has the height `1`. -/
theorem C102_surface_refuted :
    let z := nineGrid.allPoints.map fun x => x 0
    ∃ surface, gridSurface nineGrid z = .ok surface ∧ (-1, 1, 1) ∈ surface ∧ (-1, 1, -1) ∉ surface := by
  refine ⟨_, rfl, ⟨2, by decide, 0, by decide, 1, by decide +kernel, by decide +kernel⟩, ?_⟩
  rintro ⟨i, hi, j, hj, w, hw, he⟩
  simp only [Prod.mk.injEq] at he
  obtain ⟨e0, e1, rfl⟩ := he
  have key : ∀ i < 3, ∀ j < 3, (nineGrid.allPoints.map fun x => x 0)[i * 3 + j]? = some (-1) →
      (-1 : ℚ) = (nineGrid.discretePoints 0).getD j 0 → (1 : ℚ) = (nineGrid.discretePoints 1).getD i 0 → False := by
    decide +kernel
  exact key i hi j hj hw e0 e1

/-- The image of nine values. -/
example : ∃ image, gridImage nineGrid [1, 2, 3, 4, 5, 6, 7, 8, (9 : ℚ)] = .ok image ∧ image 0 2 = some 3 ∧ image 2 0 = some 7 :=
  ⟨_, rfl, by decide +kernel⟩

/-! ## C103 -/

theorem flatMap_single {α β : Type} [DecidableEq α] (L : List α) (v : α) (F : α → List β) (hn : L.Nodup) (hv : v ∈ L)
    (hF : ∀ b ∈ L, b ≠ v → F b = []) : L.flatMap F = F v := by
  induction L with
  | nil => simp at hv
  | cons a l ih =>
    rw [List.nodup_cons] at hn
    rw [List.flatMap_cons]
    by_cases h : a = v
    · subst h
      have : l.flatMap F = [] := by
        rw [List.flatMap_eq_nil_iff]
        exact fun b hb => hF b (List.mem_cons_of_mem _ hb) fun e => hn.1 (e ▸ hb)
      rw [this, List.append_nil]
    · rw [hF a List.mem_cons_self h, List.nil_append]
      exact ih hn.2 ((List.mem_cons.mp hv).resolve_left fun e => h e.symm) fun b hb => hF b (List.mem_cons_of_mem _ hb)

theorem filter_single {α : Type} [DecidableEq α] (L : List α) (v : α) (hn : L.Nodup) (hv : v ∈ L) :
    L.filter (fun b => b = v) = [v] := by
  induction L with
  | nil => simp at hv
  | cons a l ih =>
    rw [List.nodup_cons] at hn
    by_cases h : a = v
    · subst h
      rw [List.filter_cons_of_pos (by simp)]
      have : l.filter (fun b => decide (b = a)) = [] := by
        rw [List.filter_eq_nil_iff]
        intro b hb
        have : b ≠ a := fun e => hn.1 (e ▸ hb)
        simpa using this
      rw [this]
    · rw [List.filter_cons_of_neg (by simpa using h)]
      exact ih hn.2 ((List.mem_cons.mp hv).resolve_left fun e => h e.symm)

theorem flatMap_map_getElem? {α β γ : Type} (L : List α) (M : List β) (f : α → β → γ) (i j : ℕ) (hi : i < L.length)
    (hj : j < M.length) (N : ℕ) (hN : M.length = N) :
    (L.flatMap fun a => M.map (f a))[i * N + j]? = some (f L[i] M[j]) := by
  subst hN
  induction L generalizing i with
  | nil => simp at hi
  | cons a l ih =>
    rw [List.flatMap_cons]
    cases i with
    | zero => rw [List.getElem?_append_left (by simpa using hj)]; simp [hj]
    | succ i =>
      have hi' : i < l.length := by simpa using hi
      rw [List.getElem?_append_right (by rw [List.length_map]; nlinarith)]
      rw [List.length_map, show (i + 1) * M.length + j - M.length = i * M.length + j by
        rw [Nat.succ_mul]; omega]
      simpa using ih i hi'

theorem mesh4 {α : Type} (axes : Fin 4 → List α) :
    meshIJ axes = (axes 0).flatMap fun a => (axes 1).flatMap fun b => (axes 2).flatMap fun c =>
      (axes 3).map fun e => ![a, b, c, e] := by
  simp only [meshIJ, List.map_flatMap, Fin.tail]
  refine List.flatMap_congr fun a _ => List.flatMap_congr fun b _ => List.flatMap_congr fun c _ => ?_
  simp only [List.map_cons, List.map_nil]
  rw [← List.map_eq_flatMap]
  refine List.map_congr_left fun e _ => ?_
  funext i
  fin_cases i <;> rfl

theorem plane13 {α : Type} [DecidableEq α] (axes : Fin 4 → List α) (q : Fin 4 → α) (hn : ∀ i, (axes i).Nodup)
    (hq : ∀ i, q i ∈ axes i) :
    (meshIJ axes).filter (fun x => x 1 = q 1 && x 3 = q 3) =
      (axes 0).flatMap fun a => (axes 2).map fun c => ![a, q 1, c, q 3] := by
  rw [mesh4]
  simp only [List.filter_flatMap, List.filter_map]
  refine List.flatMap_congr fun a _ => ?_
  rw [flatMap_single _ (q 1) _ (hn 1) (hq 1)]
  · rw [List.map_eq_flatMap]
    refine List.flatMap_congr fun c _ => ?_
    have e : ((fun x : Fin 4 → α => decide (x 1 = q 1) && decide (x 3 = q 3)) ∘ fun e => ![a, q 1, c, e]) =
        fun e => decide (e = q 3) := by
      funext e; simp only [Function.comp]; rw [Bool.eq_iff_iff]; simp; exact decide_eq_true_iff
    rw [e, filter_single _ _ (hn 3) (hq 3)]; rfl
  · intro b _ hb
    rw [List.flatMap_eq_nil_iff]
    intro c _
    rw [List.map_eq_nil_iff, List.filter_eq_nil_iff]
    intro e _; simp [hb]

theorem plane02 {α : Type} [DecidableEq α] (axes : Fin 4 → List α) (q : Fin 4 → α) (hn : ∀ i, (axes i).Nodup)
    (hq : ∀ i, q i ∈ axes i) :
    (meshIJ axes).filter (fun x => x 0 = q 0 && x 2 = q 2) =
      (axes 1).flatMap fun b => (axes 3).map fun e => ![q 0, b, q 2, e] := by
  rw [mesh4]
  simp only [List.filter_flatMap, List.filter_map]
  rw [flatMap_single _ (q 0) _ (hn 0) (hq 0)]
  · refine List.flatMap_congr fun b _ => ?_
    rw [flatMap_single _ (q 2) _ (hn 2) (hq 2)]
    · rw [List.filter_eq_self.mpr]; intro e _; simp
    · intro c _ hc
      rw [List.map_eq_nil_iff, List.filter_eq_nil_iff]
      intro e _; simp [hc]
  · intro a _ ha
    rw [List.flatMap_eq_nil_iff]
    intro b _
    rw [List.flatMap_eq_nil_iff]
    intro c _
    rw [List.map_eq_nil_iff, List.filter_eq_nil_iff]
    intro e _; simp [ha]

theorem discretePoints_nodup (g : GridWorld K 4) (h2 : ∀ i, 2 ≤ g.num i) (hlt : ∀ i, g.lo i < g.hi i) (i : Fin 4) :
    (g.discretePoints i).Nodup := by
  rw [GridWorld.discretePoints, linspace_eq]
  refine List.Nodup.map_on ?_ List.nodup_range
  intro a _ b _ h
  exact axisPoint_inj _ _ (hlt i) _ (h2 i) a b (by simpa [Spec.axisPoint, add_comm] using h)

/-- **C103** The planes of the cart-pole: `q` are the grid values closest to the pivot. The states of the first plane are the `n₀ n₂` grid states
with angle `q[1]` and angular velocity `q[3]`, and entry `a n₂ + c`, which `reshape(num_points[[0, 2]])` puts into row `a` and column `c`, is the
one with the `a`-th position and the `c`-th velocity; likewise for the second plane. -/
theorem C103_planes (g : GridWorld K 4) (h2 : ∀ i, 2 ≤ g.num i) (hlt : ∀ i, g.lo i < g.hi i) (pivot : Fin 4 → K) :
    let q := snapPivot g pivot
    let axis := fun i j => Spec.axisPoint (g.lo i) (g.hi i) (g.num i) j
    (∀ i, (∃ j < g.num i, q i = axis i j) ∧ ∀ j < g.num i, |pivot i - q i| ≤ |pivot i - axis i j|) ∧
    (planeStates g q (1, 3)).length = g.num 0 * g.num 2 ∧
    (∀ a c, a < g.num 0 → c < g.num 2 →
      (planeStates g q (1, 3))[a * g.num 2 + c]? = some ![axis 0 a, q 1, axis 2 c, q 3]) ∧
    (planeStates g q (0, 2)).length = g.num 1 * g.num 3 ∧
    (∀ b e, b < g.num 1 → e < g.num 3 →
      (planeStates g q (0, 2))[b * g.num 3 + e]? = some ![q 0, axis 1 b, q 2, axis 3 e]) := by
  intro q axis
  have hax : ∀ i, g.discretePoints i = (List.range (g.num i)).map fun j => axis i j := by
    intro i
    rw [GridWorld.discretePoints, linspace_eq]
    exact List.map_congr_left fun j _ => by simp [axis, Spec.axisPoint, add_comm]
  have hlen : ∀ i, (g.discretePoints i).length = g.num i := fun i => by rw [hax]; simp
  have hsort : ∀ i, (g.discretePoints i).Pairwise (· ≤ ·) := by
    intro i
    rw [hax i, List.pairwise_map]
    refine List.Pairwise.imp (fun {a b} h => ?_) (List.pairwise_lt_range)
    have hn : (2 : K) ≤ (g.num i : K) := by exact_mod_cast h2 i
    have hu : 0 < (g.hi i - g.lo i) / ((g.num i : K) - 1) := div_pos (sub_pos.mpr (hlt i)) (by linarith)
    have hab : (a : K) ≤ b := by exact_mod_cast le_of_lt h
    simp only [axis, Spec.axisPoint, add_le_add_iff_left]
    exact mul_le_mul_of_nonneg_right hab hu.le
  have hq : ∀ i, q i ∈ g.discretePoints i ∧ ∀ b ∈ g.discretePoints i, |pivot i - q i| ≤ |pivot i - b| := by
    intro i
    obtain ⟨k, a, h1, h3, h4⟩ := findNearest_sorted (g.discretePoints i) (pivot i)
      (by intro h; have := hlen i; rw [h] at this; have := h2 i; simp at *; omega) (hsort i)
    have e : q i = a := by simp [q, snapPivot, h1]
    rw [e]
    exact ⟨List.mem_of_getElem? h3, h4⟩
  have hn := discretePoints_nodup g h2 hlt
  have e13 : planeStates g q (1, 3) = _ := plane13 g.discretePoints q hn fun i => (hq i).1
  have e02 : planeStates g q (0, 2) = _ := plane02 g.discretePoints q hn fun i => (hq i).1
  refine ⟨fun i => ⟨?_, fun j hj => ?_⟩, ?_, ?_, ?_, ?_⟩
  · have := (hq i).1
    rw [hax i, List.mem_map] at this
    obtain ⟨j, hj, e⟩ := this
    exact ⟨j, List.mem_range.mp hj, e.symm⟩
  · refine (hq i).2 _ ?_
    rw [hax i, List.mem_map]
    exact ⟨j, List.mem_range.mpr hj, rfl⟩
  · rw [e13]; simp [List.length_flatMap, hlen]
  · intro a c ha hc
    rw [e13]
    have := flatMap_map_getElem? (g.discretePoints 0) (g.discretePoints 2) (fun a c => (![a, q 1, c, q 3] : Fin 4 → K)) a c
      (by rw [hlen]; exact ha) (by rw [hlen]; exact hc) _ (hlen _)
    rw [this]
    simp [hax]
  · rw [e02]; simp [List.length_flatMap, hlen]
  · intro a c ha hc
    rw [e02]
    have := flatMap_map_getElem? (g.discretePoints 1) (g.discretePoints 3) (fun b e => (![q 0, b, q 2, e] : Fin 4 → K)) a c
      (by rw [hlen]; exact ha) (by rw [hlen]; exact hc) _ (hlen _)
    rw [this]
    simp [hax]

theorem strided_range {α : Type} (skip n : ℕ) (f : ℕ → α) (hs : 0 < skip) :
    strided skip ((List.range n).map f) =
      .ok ((List.range ((n + skip - 1) / skip)).map fun t => f (t * skip)) := by
  rw [strided, if_neg hs.ne', List.length_map, List.length_range]
  congr 1
  conv_rhs => rw [← List.filterMap_eq_map]
  refine List.filterMap_congr fun t ht => ?_
  have h : t * skip < n := by
    have h1 : (t + 1) * skip ≤ n + skip - 1 := (Nat.le_div_iff_mul_le hs).mp (List.mem_range.mp ht)
    rw [Nat.succ_mul] at h1; omega
  simp [h]

theorem subIndices_eq (n0 n1 skip : ℕ) (hs : 0 < skip) :
    subIndices n0 n1 skip = .ok ((List.range ((n0 + skip - 1) / skip)).flatMap fun s =>
      (List.range ((n1 + skip - 1) / skip)).map fun t => s * skip * n1 + t * skip) := by
  rw [subIndices]
  simp only [bind, Except.bind]
  rw [strided_range skip n0 (fun a => (List.range n1).map fun b => a * n1 + b) hs]
  simp only
  have h : ∀ L : List ℕ, (L.map fun t => (List.range n1).map fun b => t * skip * n1 + b).mapM (strided skip) =
      (.ok (L.map fun s => (List.range ((n1 + skip - 1) / skip)).map fun t => s * skip * n1 + t * skip) :
        Except PyErr _) := by
    intro L
    induction L with
    | nil => rfl
    | cons a l ih =>
      rw [List.map_cons, List.mapM_cons, strided_range skip n1 _ hs, ih]
      rfl
  rw [h]
  simp [pure, Except.pure, List.flatMap]

/-- **C103** The sub-sampled states of the trajectory plots: with `skip = int(num_points[0] / N_traj)` the indices are those of the grid states
for which both multi-indices are multiples of `skip`, each once and in increasing order; `ValueError` exactly if there are fewer than `N_traj` points in
the first dimension. -/
theorem C103_sub_sampling (n0 n1 nTraj : ℕ) (hT : 0 < nTraj) :
    let skip := trajectorySkip n0 nTraj
    (n0 < nTraj → subIndices n0 n1 skip = .error .valueError) ∧
    (nTraj ≤ n0 → ∃ idx, subIndices n0 n1 skip = .ok idx ∧ idx.Pairwise (· < ·) ∧
      ∀ k, k ∈ idx ↔ ∃ a b, a < n0 ∧ b < n1 ∧ skip ∣ a ∧ skip ∣ b ∧ k = a * n1 + b) := by
  intro skip
  constructor
  · intro h
    have : skip = 0 := Nat.div_eq_of_lt h
    rw [subIndices, this]; rfl
  · intro h
    have hs : 0 < skip := Nat.div_pos h hT
    refine ⟨_, subIndices_eq n0 n1 skip hs, ?_, ?_⟩
    · have hb : ∀ n t, t < (n + skip - 1) / skip → t * skip < n := by
        intro n t ht
        have h1 : (t + 1) * skip ≤ n + skip - 1 := (Nat.le_div_iff_mul_le hs).mp ht
        rw [Nat.succ_mul] at h1; omega
      rw [List.pairwise_flatMap]
      constructor
      · intro s _
        rw [List.pairwise_map]
        refine List.Pairwise.imp (fun {a b} h => ?_) List.pairwise_lt_range
        have := Nat.mul_lt_mul_of_pos_right h hs
        omega
      · refine List.Pairwise.imp (fun {s s'} hss => ?_) List.pairwise_lt_range
        intro x hx y hy
        rw [List.mem_map] at hx hy
        obtain ⟨t, ht, rfl⟩ := hx
        obtain ⟨t', -, rfl⟩ := hy
        have h1 := hb n1 t (List.mem_range.mp ht)
        have h2 : s * skip + 1 ≤ s' * skip := Nat.mul_lt_mul_of_pos_right hss hs
        have h3 := Nat.mul_le_mul_right n1 h2
        rw [Nat.succ_mul] at h3
        omega
    · intro k
      rw [List.mem_flatMap]
      constructor
      · rintro ⟨s, hs', hk⟩
        rw [List.mem_map] at hk
        obtain ⟨t, ht, rfl⟩ := hk
        have hb : ∀ n t, t < (n + skip - 1) / skip → t * skip < n := by
          intro n t ht
          have h1 : (t + 1) * skip ≤ n + skip - 1 := (Nat.le_div_iff_mul_le hs).mp ht
          rw [Nat.succ_mul] at h1; omega
        exact ⟨s * skip, t * skip, hb _ _ (List.mem_range.mp hs'), hb _ _ (List.mem_range.mp ht),
          Dvd.intro_left _ rfl, Dvd.intro_left _ rfl, rfl⟩
      · rintro ⟨a, b, ha, hb, ⟨s, rfl⟩, ⟨t, rfl⟩, rfl⟩
        have hc : ∀ n t, skip * t < n → t < (n + skip - 1) / skip := by
          intro n t ht
          rw [← Nat.succ_le_iff, Nat.le_div_iff_mul_le hs, Nat.succ_mul, Nat.mul_comm t]
          omega
        refine ⟨s, List.mem_range.mpr (hc _ _ ha), List.mem_map.mpr ⟨t, List.mem_range.mpr (hc _ _ hb), ?_⟩⟩
        rw [Nat.mul_comm s, Nat.mul_comm t]

/-- A grid with `5 × 4` states, every second one in both dimensions. -/
example : trajectorySkip 5 2 = 2 ∧ subIndices 5 4 2 = .ok [0, 2, 8, 10, 16, 18] := by decide

/-- A grid with sixteen states, and a plane through the grid values closest to `(0.2, 0.9, 0.6, -3)`. -/
def planeGrid : GridWorld ℚ 4 where
  lo := fun _ => 0
  hi := fun _ => 1
  num := fun _ => 2

example : (∀ i, 2 ≤ planeGrid.num i) ∧ (∀ i, planeGrid.lo i < planeGrid.hi i) ∧
    snapPivot planeGrid ![1/5, 9/10, 3/5, -3] = ![0, 1, 1, 0] ∧
    planeStates planeGrid ![0, 1, 1, 0] (1, 3) = [![0, 1, 0, 0], ![0, 1, 1, 0], ![1, 1, 0, 0], ![1, 1, 1, 0]] := by
  decide +kernel

end SafeLearning
