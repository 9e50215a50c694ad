import Verif.Model.PlotMore
import Verif.Props.Continuity
import Verif.Props.Decrease
import Verif.Props.SafeSample
import Verif.Props.Grid
import Verif.Props.TriangulationExamples
set_option autoImplicit false

/-!
# C102 for surfaces of triangulations, and C117: `plot_lyapunov_1d`
-/

namespace SafeLearning

open Spec

variable {K : Type} [Field K] [LinearOrder K] [IsStrictOrderedRing K]

/-! ## C102 -/

/-- The point `(x, z)` is on one of the triangles. -/
def _root_.Spec.OnSurface (triangles : List (Fin 3 → K × K × K)) (x : Fin 2 → K) (z : K) : Prop :=
  ∃ T ∈ triangles, ∃ w : Fin 3 → K, (∀ j, 0 ≤ w j) ∧ ∑ j, w j = 1 ∧ ∑ j, w j * (T j).1 = x 0 ∧
    ∑ j, w j * (T j).2.1 = x 1 ∧ ∑ j, w j * (T j).2.2 = z

variable [FloorRing K]

/-- **C102.** The surface drawn for a triangulation in two dimensions is the graph of its function, at all states at least `2 * eps` from the
boundary. -/
theorem C102_trisurf {g : GridWorld K 2} {D : Delaunay K 2} {eps : K} {project : Bool} {t : Tri K 2}
    (S : TriSetup g D eps) (ht : Tri.new g D project = .ok t) (hP : IsProper (cornerPoints g) D.simplices)
    (values : List (Fin 1 → K)) (hlen : values.length = ∏ i, g.num i) :
    ∃ triangles, trisurf t values = .ok triangles ∧
      ∀ x : Fin 2 → K, (∀ i, g.lo i + 2 * eps ≤ x i ∧ x i ≤ g.hi i - 2 * eps) →
        ∀ z, OnSurface triangles x z ↔ t.evaluate eps values x = .ok fun _ => z := by
  have hG := S.good ht
  have hg := S.wf
  have hn : t.nsimplex = D.simplices.length * ∏ i, (g.num i - 1) := by
    unfold Tri.nsimplex
    rw [hG.disc, hG.tri]
    rfl
  have hT := C18_tiling_2d g S.two_le S.lt D.simplices hP
  obtain ⟨hpl, hpts⟩ := GridWorld.C03_all_points_enumerates g
  choose! idx p v h1 h2 h3 h4 using fun n hn => C15_simplices_valid S ht n hn
  have hrow : ∀ n ∈ List.range t.nsimplex, (do
      let s ← t.simplices (n : ℕ)
      traverseFin fun j => do
        let p ← rowAt t.disc.allPoints (s j)
        let v ← rowAt values (s j)
        return (p 0, p 1, v 0)) = .ok fun j => (v n j 0, v n j 1, values.getD (idx n j) 0 0) := by
    intro n hmem
    have hlt : n < D.simplices.length * ∏ i, (g.num i - 1) := hn ▸ List.mem_range.mp hmem
    rw [h1 n hlt]
    refine traverseFin_ok fun j => ?_
    obtain ⟨k1, k2, -⟩ := h4 n hlt j
    have hk : idx n j < g.allPoints.length := by rw [hpl]; exact k1
    have e1 : g.allPoints[idx n j] = v n j := IsGridPoint.unique (hpts _ hk).2 k2
    have e2 : rowAt t.disc.allPoints (idx n j) = .ok (v n j) := by
      rw [hG.disc]
      exact rowAt_ok (by rw [List.getElem?_eq_getElem hk, e1])
    have e3 : rowAt values (idx n j) = .ok (values.getD (idx n j) 0) :=
      rowAt_ok (by
        have : idx n j < values.length := by rw [hlen]; exact k1
        simp [List.getD_eq_getElem?_getD, this])
    rw [e2, e3]
    rfl
  refine ⟨_, mapM_ok hrow, fun x hx z => ⟨?_, fun hz => ?_⟩⟩
  · rintro ⟨T, hTm, w, hw0, hw1, hwx, hwy, hwz⟩
    obtain ⟨n, hmem, rfl⟩ := List.mem_map.mp hTm
    have hlt : n < D.simplices.length * ∏ i, (g.num i - 1) := hn ▸ List.mem_range.mp hmem
    have := C18_well_defined S ht hT values hlen x hx n hlt (idx n) (h1 n hlt) (v n)
      (fun j => (h4 n hlt j).2.1) w ⟨hw0, hw1, fun i => by fin_cases i <;> assumption⟩
      (fun j => values.getD (idx n j) 0) (fun j => by
        have : idx n j < values.length := by rw [hlen]; exact (h4 n hlt j).1
        simp [List.getD_eq_getElem?_getD, this])
    rw [this]
    congr 1
    funext l
    rw [Subsingleton.elim l 0]
    exact hwz
  · obtain ⟨k, s, w, hk, hf, hw⟩ := S.find hG x
    obtain ⟨n, hn1, hn2⟩ := C15_find_simplex_valid S ht x
    have hs : shrink g eps x = x := funext fun i => clip_of_mem (hx i).1 (hx i).2
    rw [hs] at hw
    have hsx := hG.simplices_ok hg hk (rectOf_lt hg x)
    have hnn : (n : ℤ) = (simplexNumber g D k (rectOf g x) : ℕ) := by
      rw [hf] at hn1
      exact (Except.ok.inj hn1).symm
    have hnn' : simplexNumber g D k (rectOf g x) = n := by exact_mod_cast hnn.symm
    rw [hnn'] at hsx
    have hidx := Except.ok.inj ((h1 n hn2).symm.trans hsx)
    have hv : v n = verts g (rectOf g x) s := funext fun j =>
      IsGridPoint.unique (h4 n hn2 j).2.1 (by rw [hidx]; exact isGridPoint_verts hg (rectOf_lt hg x) s j)
    rw [← hv] at hw
    have := C18_well_defined S ht hT values hlen x hx n hn2 (idx n) (h1 n hn2) (v n)
      (fun j => (h4 n hn2 j).2.1) w hw
      (fun j => values.getD (idx n j) 0) (fun j => by
        have : idx n j < values.length := by rw [hlen]; exact (h4 n hn2 j).1
        simp [List.getD_eq_getElem?_getD, this])
    rw [this] at hz
    refine ⟨_, List.mem_map.mpr ⟨n, List.mem_range.mpr (hn ▸ hn2), rfl⟩, w, hw.1, hw.2.1, hw.2.2 0, hw.2.2 1, ?_⟩
    exact congrFun (Except.ok.inj hz) 0

/-- The hypotheses hold for a grid of twelve points. -/
example : ∃ t, Tri.new GridWorld.exampleGrid (delaunay2D GridWorld.exampleGrid.unit) false = .ok t ∧
    IsProper (cornerPoints GridWorld.exampleGrid) (delaunay2D GridWorld.exampleGrid.unit).simplices :=
  have ⟨t, ht⟩ := C09_construction exampleSetup false
  ⟨t, ht, delaunay2D_isProper GridWorld.exampleGrid exampleSetup.wf⟩

/-! ## C117 -/

section Plot

omit [FloorRing K]

variable {Prog : Type} {n : ℕ}

theorem helperLines_spec (states values : Fin n → K) (safeSet : Fin n → Bool) :
    (helperLines states values safeSet = .ok none ∧ ∀ k, safeSet k = false) ∨
      ∃ k, safeSet k = true ∧ (∀ j, safeSet j = true → values j ≤ values k ∧ (j < k → values j < values k)) ∧
        helperLines states values safeSet = .ok (some (states k, -states k)) := by
  unfold helperLines
  by_cases h : (List.finRange n).filter (fun k => safeSet k) = []
  · left
    refine ⟨if_pos h, fun k => ?_⟩
    have := List.filter_eq_nil_iff.mp h k (List.mem_finRange k)
    simpa using this
  · right
    simp only [if_neg h]
    obtain ⟨i, v, h1, h2, h3, h4⟩ := argmaxFirst_spec (((List.finRange n).filter fun k => safeSet k).map values)
      (by simpa using h)
    rw [List.getElem?_map] at h2
    obtain ⟨k, hk, rfl⟩ := Option.map_eq_some_iff.mp h2
    have hmem := List.mem_of_getElem? hk
    refine ⟨k, by simpa using hmem, fun j hj => ⟨h3 _ (List.mem_map.mpr ⟨j, by simpa using hj, rfl⟩), fun hjk => ?_⟩, ?_⟩
    · have hjm : j ∈ (List.finRange n).filter fun k => safeSet k := by simpa using hj
      obtain ⟨m, hm⟩ := List.getElem?_of_mem hjm
      refine h4 m ?_ _ (by rw [List.getElem?_map, hm]; rfl)
      by_contra hc
      have hsorted : ((List.finRange n).filter fun k => safeSet k).Pairwise (· < ·) :=
        (List.pairwise_lt_finRange n).sublist List.filter_sublist
      rcases Nat.eq_or_lt_of_le (not_lt.mp hc) with rfl | hlt
      · rw [hk] at hm
        exact absurd (Option.some.inj hm) (ne_of_gt hjk)
      · obtain ⟨hi', hke⟩ := List.getElem?_eq_some_iff.mp hk
        obtain ⟨hm', hje⟩ := List.getElem?_eq_some_iff.mp hm
        have := List.pairwise_iff_getElem.mp hsorted i m hi' hm' hlt
        rw [hke, hje] at this
        exact absurd hjk (not_lt.mpr this.le)
    · rw [h1]
      simp only [bind, Except.bind, rowAt_ok hk]
      rfl

variable (states : Fin n → Fin 1 → K) (V : (Fin 1 → K) → K) (lv : LipArg K 1) (model : Prog → (Fin 1 → K) → Prediction K 1)
    (truth : Prog → (Fin 1 → K) → Fin 1 → K) (lyap : Lyap K Prog n)

/-- The outcome of a plot with the graph of `p`. -/
theorem plot_ok (graph : Option (PlotGraph Prog)) (p : Prog)
    (hp : graph.getD ⟨lyap.prog⟩ = ⟨p⟩)
    (hu : ∀ k, ∃ m e, model p (states k) = .uncertain m e) :
    ∃ pl, plotLyapunov1d states V lv model truth lyap graph = (.ok pl, ⟨p⟩) ∧
      (∀ k m e, model p (states k) = .uncertain m e → pl.nextBand k = (m 0 - e 0, m 0 + e 0)) ∧
      (∀ k, pl.changeBand k =
        ((vDecreaseConfidence V lv (states k) (model p (states k))).1 - (vDecreaseConfidence V lv (states k) (model p (states k))).2,
          (vDecreaseConfidence V lv (states k) (model p (states k))).1 + (vDecreaseConfidence V lv (states k) (model p (states k))).2)) ∧
      (∀ k, pl.trueChange k = V (truth p (states k)) - V (states k)) ∧
      pl.unsafeCurve = maskedWhere lyap.safeSet lyap.values ∧
      pl.safeCurve = maskedWhere (fun k => !lyap.safeSet k) lyap.values ∧
      helperLines (fun k => states k 0) lyap.values lyap.safeSet = .ok pl.helper := by
  choose m e hme using hu
  obtain ⟨h, hh⟩ : ∃ h, helperLines (fun k => states k 0) lyap.values lyap.safeSet = .ok h := by
    rcases helperLines_spec (fun k => states k 0) lyap.values lyap.safeSet with h | ⟨k, -, -, h⟩
    · exact ⟨_, h.1⟩
    · exact ⟨_, h⟩
  unfold plotLyapunov1d
  rw [hp]
  have ht : traverseFin (fun k => unpackPrediction (model p (states k))) = .ok fun k => (m k, e k) :=
    traverseFin_ok fun k => by rw [hme k]; rfl
  simp only [ht, hh]
  refine ⟨_, rfl, fun k m' e' hk => ?_, fun k => rfl, fun k => rfl, rfl, rfl, rfl⟩
  rw [hme k] at hk
  cases hk
  rfl

/-- **C117, partial.** A new plot of an object with uncertain dynamics is drawn and shows, at every state: the confidence interval of the next state; if the true
next state is in it and `V` is Lipschitz with the given constants, the true change of `V` inside the band of the changes; the value in the curve of the safe
states if the state is safe and in the other curve otherwise, never in both. There is a helper line if and only if there is a safe state, and it is at the first
safe state with the largest value. -/
theorem C117_plot_partial (hu : ∀ k, ∃ m e, model lyap.prog (states k) = .uncertain m e)
    (hnn : ∀ x i, 0 ≤ lv.entry x i) (hV : ∀ c z, |V z - V c| ≤ ∑ i, lv.entry c i * |z i - c i|)
    (htrue : ∀ k, (model lyap.prog (states k)).Contains (truth lyap.prog (states k))) :
    ∃ pl G, plotLyapunov1d states V lv model truth lyap none = (.ok pl, G) ∧
      (∀ k, (pl.nextBand k).1 ≤ truth lyap.prog (states k) 0 ∧ truth lyap.prog (states k) 0 ≤ (pl.nextBand k).2) ∧
      (∀ k, pl.trueChange k = V (truth lyap.prog (states k)) - V (states k) ∧
        (pl.changeBand k).1 ≤ pl.trueChange k ∧ pl.trueChange k ≤ (pl.changeBand k).2) ∧
      (∀ k, (pl.safeCurve k, pl.unsafeCurve k) =
        if lyap.safeSet k then (some (lyap.values k), none) else (none, some (lyap.values k))) ∧
      ((pl.helper = none ∧ ∀ k, lyap.safeSet k = false) ∨
        ∃ k, lyap.safeSet k = true ∧
          (∀ j, lyap.safeSet j = true → lyap.values j ≤ lyap.values k ∧ (j < k → lyap.values j < lyap.values k)) ∧
          pl.helper = some (states k 0, -states k 0)) := by
  obtain ⟨pl, h0, h1, h2, h3, h4, h5, h6⟩ := plot_ok states V lv model truth lyap none lyap.prog rfl hu
  refine ⟨pl, _, h0, fun k => ?_, fun k => ?_, fun k => ?_, ?_⟩
  · obtain ⟨m, e, hme⟩ := hu k
    have := htrue k
    rw [hme] at this
    have hc : |truth lyap.prog (states k) 0 - m 0| ≤ e 0 := this 0
    rw [h1 k m e hme]
    obtain ⟨a, b⟩ := abs_le.mp hc
    constructor <;> dsimp only <;> linarith
  · refine ⟨h3 k, ?_⟩
    rw [h2 k, h3 k]
    obtain ⟨m, e, hme⟩ := hu k
    have hc := htrue k
    rw [hme] at hc ⊢
    have hc' : ∀ i, |truth lyap.prog (states k) i - m i| ≤ e i := hc
    have hb := hV m (truth lyap.prog (states k))
    have hs : ∑ i, lv.entry m i * |truth lyap.prog (states k) i - m i| ≤ ∑ i, lv.entry m i * e i :=
      Finset.sum_le_sum fun i _ => mul_le_mul_of_nonneg_left (hc' i) (hnn m i)
    obtain ⟨a, b⟩ := abs_le.mp hb
    simp only [vDecreaseConfidence]
    constructor <;> linarith
  · rw [h4, h5]
    unfold maskedWhere
    cases h : lyap.safeSet k <;> simp [h]
  · rcases helperLines_spec (fun k => states k 0) lyap.values lyap.safeSet with h | ⟨k, hk1, hk2, h⟩
    · exact Or.inl ⟨Except.ok.inj (h6.symm.trans h.1), h.2⟩
    · exact Or.inr ⟨k, hk1, hk2, Except.ok.inj (h6.symm.trans h)⟩

/-- **C117, refuted for later plots.** A later plot of the same object draws the bands of the policy and the dynamics at the first plot, next to the safe set and
the values of the current ones. -/
theorem C117_later_plot_refuted (lyap' : Lyap K Prog n) (hu : ∀ k, ∃ m e, model lyap.prog (states k) = .uncertain m e) :
    let G := (plotLyapunov1d states V lv model truth lyap none).2
    ∃ pl, plotLyapunov1d states V lv model truth lyap' (some G) = (.ok pl, G) ∧
      (∀ k, pl.trueChange k = V (truth lyap.prog (states k)) - V (states k)) ∧
      (∀ k m e, model lyap.prog (states k) = .uncertain m e → pl.nextBand k = (m 0 - e 0, m 0 + e 0)) ∧
      ∀ k, pl.safeCurve k = if lyap'.safeSet k then some (lyap'.values k) else none := by
  obtain ⟨pl, h0, h1, h2, h3, h4, h5, h6⟩ := plot_ok states V lv model truth lyap' (some ⟨lyap.prog⟩) lyap.prog rfl hu
  refine ⟨pl, h0, h3, h1, fun k => ?_⟩
  rw [h5]
  unfold maskedWhere
  cases h : lyap'.safeSet k <;> simp [h]

/-- **C117, refuted for the second helper line.** It is drawn at `-x_safe` although this state is not safe: for the states `-1, 0, 1` with the values `3, 0, 1` and the
safe set `{0, 1}`. -/
theorem C117_mirror_refuted :
    helperLines ![(-1 : ℚ), 0, 1] ![3, 0, 1] ![false, true, true] = .ok (some (1, -1)) := by
  decide +kernel

/-- **C117, partial.** If grid, values and safe set are symmetric about the origin, the second line is at a safe state with the largest value, too. -/
theorem C117_mirror_symmetric_partial (pos values : Fin n → K) (safeSet : Fin n → Bool) (mirror : Fin n → Fin n)
    (hpos : ∀ k, pos (mirror k) = -pos k) (hval : ∀ k, values (mirror k) = values k) (hsafe : ∀ k, safeSet (mirror k) = safeSet k)
    (a b : K) (h : helperLines pos values safeSet = .ok (some (a, b))) :
    ∃ k, pos k = b ∧ safeSet k = true ∧ ∀ j, safeSet j = true → values j ≤ values k := by
  rcases helperLines_spec pos values safeSet with h' | ⟨k, h1, h2, h3⟩
  · rw [h'.1] at h
    cases h
  · rw [h3] at h
    cases h
    exact ⟨mirror k, hpos k, by rw [hsafe, h1], fun j hj => by rw [hval]; exact (h2 j hj).1⟩

/-- The hypotheses of `C117_plot_partial` hold for `V(x) = |x|` on the grid `-1, 0, 1` with an uncertain contraction. -/
example : let st : Fin 3 → Fin 1 → ℚ := ![![-1], ![0], ![1]]
    let md : Unit → (Fin 1 → ℚ) → Prediction ℚ 1 := fun _ x => .uncertain (fun i => x i / 2) fun _ => 1 / 8
    let tr : Unit → (Fin 1 → ℚ) → Fin 1 → ℚ := fun _ x i => x i / 2 + 1 / 16
    (∀ k, ∃ m e, md () (st k) = .uncertain m e) ∧ (∀ x i, 0 ≤ (LipArg.const 1 : LipArg ℚ 1).entry x i) ∧
      (∀ c z : Fin 1 → ℚ, |(|z 0|) - (|c 0|)| ≤ ∑ i, (LipArg.const 1 : LipArg ℚ 1).entry c i * |z i - c i|) ∧
      ∀ k, (md () (st k)).Contains (tr () (st k)) := by
  refine ⟨fun k => ⟨_, _, rfl⟩, fun x i => by simp [LipArg.entry], fun c z => ?_, fun k i => ?_⟩
  · simp only [LipArg.entry, Fin.sum_univ_one, one_mul]
    exact abs_abs_sub_abs_le _ _
  · show |_ / 2 + 1 / 16 - _ / 2| ≤ (1 / 8 : ℚ)
    rw [add_sub_cancel_left]
    norm_num

end Plot

end SafeLearning
