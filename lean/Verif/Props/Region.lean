import Verif.Lemmas.RegionSearch
import Verif.Props.Grid
import Mathlib.Tactic.IntervalCases
import Mathlib.Tactic.NormNum
set_option autoImplicit false

/-!
# Properties C32, C33: `get_lyapunov_region`

Both hold (C33 partly) under Python 2. Under Python 3 the function always raises.
-/

set_option linter.unusedSectionVars false

namespace SafeLearning

open Spec

variable {K : Type} [Field K] [LinearOrder K] [IsStrictOrderedRing K] {d : ℕ}

theorem reshapedValues_eq (f : (Fin d → K) → K) (g : GridWorld K d) {x : Fin d → ℕ}
    (hx : IsNode g.num x) : reshapedValues f g x = f (g.ijkToState x) := by
  have hlt := ravel_lt g.num x hx
  have hall : g.allPoints = (List.range (shapeProd g.num)).map fun k =>
      fun i => g.ijkToState (unravel g.num k) i := by
    unfold GridWorld.allPoints
    have : g.discretePoints = fun i => (List.range (g.num i)).map fun k : ℕ =>
        (k : K) * ((g.hi i - g.lo i) / ((g.num i : K) - 1)) + g.lo i := by
      funext i
      unfold GridWorld.discretePoints
      rw [linspace_eq]
    rw [this, meshIJ_eq]
    rfl
  unfold reshapedValues
  rw [hall, List.map_map, List.getD_eq_getElem?_getD, List.getElem?_map,
    List.getElem?_range hlt]
  simp only [Option.map_some, Option.getD_some, Function.comp]
  rw [unravel_ravel _ _ hx]

/-- The Lyapunov values on the nodes, in the words of the specification: the function at the grid
point with this multi-index. -/
def _root_.Spec.nodeValue (f : (Fin d → K) → K) (g : GridWorld K d) (x : Fin d → ℕ) : K :=
  f fun i => Spec.axisPoint (g.lo i) (g.hi i) (g.num i) (x i)

theorem getLyapunovRegion_post (f : (Fin d → K) → K) (g : GridWorld K d) (x0 : Fin d → ℕ)
    (h0 : IsInterior g.num x0) :
    ∃ region, RegionPost g.num (reshapedValues f g) x0 region ∧
      ∀ fuel, (∏ i, g.num i) + 1 ≤ fuel →
        getLyapunovRegion false f g (fun i => (x0 i : ℤ)) fuel = .ok (some region) := by
  have hnode : IsNode g.num x0 := fun i => by have := h0 i; omega
  obtain ⟨v, hv, hpost⟩ := searchLoop_post (val := reshapedValues f g) h0 ((∏ i, g.num i) + 1) _ ∅
    (searchInv_start h0) (by simp)
  refine ⟨v, hpost, fun fuel hf => ?_⟩
  have : getLyapunovRegion false f g (toNode x0) fuel = .ok (some v) := by
    unfold getLyapunovRegion
    rw [wrapNode_ok hnode]
    exact searchLoop_mono' hf hv
  exact this

/-! ## C32 -/

/-- **C32** (Python 2 only, hence partial): from an interior start node the search stops after at most one
round more than there are nodes, and returns a set of nodes that contains the start node, contains
no node on the border, and in which every node can be reached from the start node through adjacent
nodes of the set. -/
theorem C32_region_partial (f : (Fin d → K) → K) (g : GridWorld K d) (x0 : Fin d → ℕ)
    (h0 : IsInterior g.num x0) :
    ∃ region, (∀ rounds, (∏ i, g.num i) + 1 ≤ rounds →
        getLyapunovRegion false f g (fun i => (x0 i : ℤ)) rounds = .ok (some region)) ∧
      region x0 = true ∧
      (∀ x, region x = true → IsInterior g.num x) ∧
      ∀ x, region x = true → ConnectedIn {y | region y = true} x0 x := by
  obtain ⟨v, hpost, hv⟩ := getLyapunovRegion_post f g x0 h0
  exact ⟨v, hv, hpost.start, hpost.interior, hpost.connected⟩

/-- **C32** is false under Python 3: the call raises `AttributeError` for every start node inside the grid
(line 101 calls the Python 2 method `next` of an iterator). -/
theorem C32_python3_refuted (f : (Fin d → K) → K) (g : GridWorld K d) (x0 : Fin d → ℕ)
    (h0 : IsNode g.num x0) (rounds : ℕ) :
    getLyapunovRegion true f g (fun i => (x0 i : ℤ)) rounds = .error .attributeError := by
  have : getLyapunovRegion true f g (toNode x0) rounds = .error .attributeError := by
    unfold getLyapunovRegion
    rw [wrapNode_ok h0]
    rfl
  exact this

/-- **C32 (start nodes outside).** A start node with an index that numpy does not accept, at least the number of points or less than minus that number, raises `IndexError`. -/
theorem C32_outside (py3 : Bool) (f : (Fin d → K) → K) (g : GridWorld K d) (init : Fin d → ℤ) (i : Fin d)
    (h : (g.num i : ℤ) ≤ init i ∨ init i < -(g.num i : ℤ)) (rounds : ℕ) : getLyapunovRegion py3 f g init rounds = .error .indexError := by
  unfold getLyapunovRegion
  have : wrapNode g.num init = .error .indexError := by
    rw [wrapNode, if_neg]
    intro h'
    have := h' i
    omega
  rw [this]
  rfl

example := C32_outside (K := ℚ) (d := 2) false (fun x => x 0 + x 1) ⟨![0, 0], ![1, 1], ![3, 3]⟩ ![1, 3] 1 (Or.inl (by norm_num)) 5

theorem exists_of_match {α : Type} {x : Except PyErr (Option α)} {p : α → Bool}
    (h : (match x with | .ok (some r) => p r | _ => false) = true) :
    ∃ r, x = .ok (some r) ∧ p r = true := by
  rcases x with e | (_ | r)
  · cases h
  · cases h
  · exact ⟨r, rfl, h⟩

/-- A line with seven points at `0, 1, ..., 6`. -/
def line7 : GridWorld ℚ 1 where
  lo := ![0]
  hi := ![6]
  num := ![7]

/-- **C32** needs an interior start node: started at the first node of an axis, the boundary test does not
apply (the start node is a tuple), the neighbour `-1` wraps around, and the returned region
contains the border node `0`. -/
theorem C32_border_start_refuted :
    ∃ region, getLyapunovRegion false (fun x => |x 0 - 1|) line7 ![0] 20 = .ok (some region) ∧
      region ![0] = true := by
  exact exists_of_match (p := fun r : (Fin 1 → ℕ) → Bool => r ![0]) (by decide +kernel)

/-- The hypotheses of `C32_region_partial` are met, and the search gives a region of five nodes:
exactly the interior nodes. -/
example : IsInterior line7.num ![3] := by
  intro i; fin_cases i; simp [line7]

example : (match getLyapunovRegion false (fun x => (x 0 - 3) ^ 2) line7 ![3] 8 with
      | .ok (some r) => (List.range 7).filter fun k => r ![k]
      | _ => []) = [1, 2, 3, 4, 5] := by decide +kernel

/-! ## C33 -/

/-- **C33** (partial): the full property is the first alternative: every node of the region has a
value at least the value of the start node, and leaving the region over any edge leads to a value
at least as high as every value in the region. What is proved: this holds, or the search stopped at
a node `t` next to the region whose value is below the value of some node of the region; then `t` is
either on the border or the last node of the region, the lower bound holds for the other nodes of the
region, and no edge from them out of the region leads below the value of `t`. -/
theorem C33_increasing_partial (f : (Fin d → K) → K) (g : GridWorld K d) (x0 : Fin d → ℕ)
    (h0 : IsInterior g.num x0) :
    ∃ region, (∀ rounds, (∏ i, g.num i) + 1 ≤ rounds →
        getLyapunovRegion false f g (fun i => (x0 i : ℤ)) rounds = .ok (some region)) ∧
      (((∀ y, region y = true → Spec.nodeValue f g x0 ≤ Spec.nodeValue f g y) ∧
        ∀ y z, region y = true → region z = false → Adjacent y z →
          ∀ w, region w = true → Spec.nodeValue f g w ≤ Spec.nodeValue f g z) ∨
      ∃ t, (∃ y, region y = true ∧ Adjacent y t) ∧
        (∃ w, region w = true ∧ Spec.nodeValue f g t < Spec.nodeValue f g w) ∧
        (region t = true ∨ IsBorder g.num t) ∧
        (∀ y, region y = true → y ≠ t → Spec.nodeValue f g x0 ≤ Spec.nodeValue f g y) ∧
        ∀ y z, region y = true → y ≠ t → region z = false → Adjacent y z →
          Spec.nodeValue f g t ≤ Spec.nodeValue f g z) := by
  obtain ⟨v, hpost, hv⟩ := getLyapunovRegion_post f g x0 h0
  refine ⟨v, hv, ?_⟩
  have hval : ∀ x, IsNode g.num x → reshapedValues f g x = Spec.nodeValue f g x := by
    intro x hx
    rw [reshapedValues_eq f g hx]
    unfold Spec.nodeValue
    congr 1
    funext i
    exact g.ijkToState_eq_axisPoint x i
  have hin : ∀ x, v x = true → IsNode g.num x := by
    intro x hx i
    have := hpost.interior x hx i
    omega
  have hadj : ∀ y z, v y = true → Adjacent y z → IsNode g.num z := by
    intro y z hy hyz i
    have h1 := hpost.interior y hy i
    have h2 := hyz.2 i
    rw [abs_le] at h2
    omega
  have hx0 := hin x0 hpost.start
  rcases hpost.increasing with ⟨h1, h2⟩ | ⟨t, ⟨y, hy, hyt⟩, ⟨w, hw, hlt⟩, ht, h3, h4⟩
  · left
    refine ⟨fun y hy => ?_, fun y z hy hz hyz w hw => ?_⟩
    · rw [← hval _ hx0, ← hval _ (hin y hy)]; exact h1 y hy
    · rw [← hval _ (hin w hw), ← hval _ (hadj y z hy hyz)]; exact h2 y z hy hz hyz w hw
  · right
    have htn := hadj y t hy hyt
    refine ⟨t, ⟨y, hy, hyt⟩, ⟨w, hw, ?_⟩, ht, fun z hz hzt => ?_, fun z u hz hzt hu hzu => ?_⟩
    · rw [← hval _ htn, ← hval _ (hin w hw)]; exact hlt
    · rw [← hval _ hx0, ← hval _ (hin z hz)]; exact h3 z hz hzt
    · rw [← hval _ htn, ← hval _ (hadj z u hz hzu)]; exact h4 z u hz hzt hu hzu

/-- **C33**, where it holds in full (Python 2): if every sublevel set of the function on the grid is
connected to the start node, then every node of the region has a value at least the value of
the start node, and leaving the region over any edge leads to a value at least as high as every
value in the region. -/
theorem C33_increasing_connected_partial (f : (Fin d → K) → K) (g : GridWorld K d)
    (x0 : Fin d → ℕ) (h0 : IsInterior g.num x0)
    (hsub : ∀ t, IsNode g.num t → ConnectedIn
      {y | IsNode g.num y ∧ Spec.nodeValue f g y ≤ Spec.nodeValue f g t} x0 t)
    (hmin0 : ∀ t, IsNode g.num t → Spec.nodeValue f g x0 ≤ Spec.nodeValue f g t) :
    ∃ region, (∀ rounds, (∏ i, g.num i) + 1 ≤ rounds →
        getLyapunovRegion false f g (fun i => (x0 i : ℤ)) rounds = .ok (some region)) ∧
      (∀ y, region y = true → Spec.nodeValue f g x0 ≤ Spec.nodeValue f g y) ∧
      ∀ y z, region y = true → region z = false → Adjacent y z →
        ∀ w, region w = true → Spec.nodeValue f g w ≤ Spec.nodeValue f g z := by
  obtain ⟨v, hpost, hv⟩ := getLyapunovRegion_post f g x0 h0
  have hval : ∀ x, IsNode g.num x → reshapedValues f g x = Spec.nodeValue f g x := by
    intro x hx
    rw [reshapedValues_eq f g hx]
    unfold Spec.nodeValue
    congr 1
    funext i
    exact g.ijkToState_eq_axisPoint x i
  have hx0 : IsNode g.num x0 := fun i => by have := h0 i; omega
  have hin : ∀ x, v x = true → IsNode g.num x := by
    intro x hx i
    have := hpost.interior x hx i
    omega
  have hadj : ∀ y z, v y = true → Adjacent y z → IsNode g.num z := by
    intro y z hy hyz i
    have h1 := hpost.interior y hy i
    have h2 := hyz.2 i
    rw [abs_le] at h2
    omega
  have hloop := hv _ le_rfl
  have hloop' : searchLoop g.num (reshapedValues f g) ((∏ i, g.num i) + 1)
      (⟨assign (fun _ => false) x0 true, reshapedValues f g x0, 1,
        [⟨reshapedValues f g x0, 0, toNode x0, true⟩]⟩ : Search K d) = .ok (some v) := by
    have h : getLyapunovRegion false f g (toNode x0) ((∏ i, g.num i) + 1) = .ok (some v) := hloop
    unfold getLyapunovRegion at h
    rw [wrapNode_ok hx0] at h
    exact h
  have hres := searchLoop_increasing h0 (val := reshapedValues f g)
    (fun t ht => by
      have : {y | IsNode g.num y ∧ reshapedValues f g y ≤ reshapedValues f g t} =
          {y | IsNode g.num y ∧ Spec.nodeValue f g y ≤ Spec.nodeValue f g t} := by
        ext y
        constructor
        · rintro ⟨h1, h2⟩; rw [hval y h1, hval t ht] at h2; exact ⟨h1, h2⟩
        · rintro ⟨h1, h2⟩; rw [← hval y h1, ← hval t ht] at h2; exact ⟨h1, h2⟩
      rw [this]; exact hsub t ht)
    (fun t ht => by rw [hval _ hx0, hval t ht]; exact hmin0 t ht) _ _ ∅ (searchInv_start h0)
    (by simp) v hloop'
  refine ⟨v, hv, fun y hy => ?_, fun y z hy hz hyz w hw => ?_⟩
  · rw [← hval _ hx0, ← hval _ (hin y hy)]; exact hres.1 y hy
  · rw [← hval _ (hin w hw), ← hval _ (hadj y z hy hyz)]; exact hres.2 y z hy hz hyz w hw

/-- **C33** is false in general, also under Python 2: on the values `9, -1, 1, 0, 1, 5, 9` the search from
node 3 returns the region `{1, 2, 3}` although node 1 has a value below the start value. -/
theorem C33_refuted :
    ∃ (f : (Fin 1 → ℚ) → ℚ) (region : (Fin 1 → ℕ) → Bool), IsInterior line7.num ![3] ∧
      getLyapunovRegion false f line7 ![3] 8 = .ok (some region) ∧
      region ![1] = true ∧ Spec.nodeValue f line7 ![1] < Spec.nodeValue f line7 ![3] := by
  let f : (Fin 1 → ℚ) → ℚ := fun x => if x 0 = 1 then -1 else if x 0 = 3 then 0 else
    if x 0 = 2 ∨ x 0 = 4 then 1 else if x 0 = 5 then 5 else 9
  have h2 : Spec.nodeValue f line7 ![1] < Spec.nodeValue f line7 ![3] := by decide +kernel
  have h3 : IsInterior line7.num ![3] := by intro i; fin_cases i; simp [line7]
  obtain ⟨r, hr, h⟩ := exists_of_match (x := getLyapunovRegion false f line7 ![3] 8)
    (p := fun r : (Fin 1 → ℕ) → Bool => r ![1]) (by decide +kernel)
  exact ⟨f, r, h3, hr, h, h2⟩

/-- **C33 (ties), refuted.** The region depends on the order of neighbours. Nodes of equal value are visited in the order in which they were found, the lower neighbour first: for the
values `9, 1/2, 1, 0, 1, 9, 9` the search from node 3 stops before it visits node 4, for the mirrored values it does visit the mirror image of node 4. -/
theorem C33_ties_refuted :
    ∃ (f : (Fin 1 → ℚ) → ℚ) (r r' : (Fin 1 → ℕ) → Bool),
      getLyapunovRegion false f line7 ![3] 8 = .ok (some r) ∧
      getLyapunovRegion false (fun x => f fun i => 6 - x i) line7 ![3] 8 = .ok (some r') ∧
      r ![4] = false ∧ r' ![2] = true ∧
      Spec.nodeValue f line7 ![4] = Spec.nodeValue (fun x => f fun i => 6 - x i) line7 ![2] := by
  let f : (Fin 1 → ℚ) → ℚ := fun x => if x 0 = 3 then 0 else if x 0 = 1 then 1 / 2 else
    if x 0 = 2 ∨ x 0 = 4 then 1 else 9
  obtain ⟨r, hr, h⟩ := exists_of_match (x := getLyapunovRegion false f line7 ![3] 8)
    (p := fun r : (Fin 1 → ℕ) → Bool => !r ![4]) (by decide +kernel)
  obtain ⟨r', hr', h'⟩ := exists_of_match (x := getLyapunovRegion false (fun x => f fun i => 6 - x i) line7 ![3] 8)
    (p := fun r : (Fin 1 → ℕ) → Bool => r ![2]) (by decide +kernel)
  exact ⟨f, r, r', hr, hr', by simpa using h, h', by decide +kernel⟩

/-- The hypotheses of `C33_increasing_connected_partial` are met by `|x - 3|` on the line. -/
example : ∀ t, IsNode line7.num t → Spec.nodeValue (fun x => |x 0 - 3|) line7 ![3]
    ≤ Spec.nodeValue (fun x => |x 0 - 3|) line7 t := by
  intro t _
  have : Spec.nodeValue (fun x => |x 0 - 3|) line7 ![3] = 0 := by decide +kernel
  rw [this]
  exact abs_nonneg _

example : ∀ t, IsNode line7.num t → ConnectedIn
    {y | IsNode line7.num y ∧ Spec.nodeValue (fun x => |x 0 - 3|) line7 y
      ≤ Spec.nodeValue (fun x => |x 0 - 3|) line7 t} ![3] t := by
  have hnode : ∀ k : ℕ, k < 7 → IsNode line7.num ![k] := by
    intro k hk i; fin_cases i; simpa [line7] using hk
  have hval : ∀ k : ℕ, Spec.nodeValue (fun x => |x 0 - 3|) line7 ![k] = |(k : ℚ) - 3| := by
    intro k
    simp [Spec.nodeValue, Spec.axisPoint, line7]
    norm_num
  have hadj : ∀ k : ℕ, Adjacent ![k] ![k + 1] ∧ Adjacent ![k + 1] ![k] := by
    intro k
    refine ⟨⟨?_, ?_⟩, ⟨?_, ?_⟩⟩
    · intro h; have := congrFun h 0; simp at this
    · intro i; fin_cases i; simp
    · intro h; have := congrFun h 0; simp at this
    · intro i; fin_cases i; simp
  have step : ∀ (S : Set (Fin 1 → ℕ)) (a b : Fin 1 → ℕ), a ∈ S → b ∈ S → Adjacent a b →
      ConnectedIn S a b := fun S a b ha hb h => .single ⟨ha, hb, h⟩
  intro t ht
  obtain ⟨k, rfl⟩ : ∃ k, t = ![k] := ⟨t 0, by funext i; fin_cases i; rfl⟩
  have hk : k < 7 := by simpa [line7] using ht 0
  have hS : ∀ j : ℕ, j < 7 → |(j : ℚ) - 3| ≤ |(k : ℚ) - 3| → ![j] ∈
      {y | IsNode line7.num y ∧ Spec.nodeValue (fun x => |x 0 - 3|) line7 y
        ≤ Spec.nodeValue (fun x => |x 0 - 3|) line7 ![k]} := by
    intro j hj hle
    refine ⟨hnode j hj, ?_⟩
    rw [hval, hval]; exact hle
  interval_cases k
  · exact ((step _ _ _ (hS 3 (by norm_num) (by norm_num)) (hS 2 (by norm_num) (by norm_num [abs])) (hadj 2).2).trans
      (step _ _ _ (hS 2 (by norm_num) (by norm_num [abs])) (hS 1 (by norm_num) (by norm_num [abs])) (hadj 1).2)).trans
      (step _ _ _ (hS 1 (by norm_num) (by norm_num [abs])) (hS 0 (by norm_num) (by norm_num [abs])) (hadj 0).2)
  · exact (step _ _ _ (hS 3 (by norm_num) (by norm_num)) (hS 2 (by norm_num) (by norm_num [abs])) (hadj 2).2).trans
      (step _ _ _ (hS 2 (by norm_num) (by norm_num [abs])) (hS 1 (by norm_num) (by norm_num [abs])) (hadj 1).2)
  · exact step _ _ _ (hS 3 (by norm_num) (by norm_num)) (hS 2 (by norm_num) (by norm_num [abs])) (hadj 2).2
  · exact .refl
  · exact step _ _ _ (hS 3 (by norm_num) (by norm_num)) (hS 4 (by norm_num) (by norm_num [abs])) (hadj 3).1
  · exact (step _ _ _ (hS 3 (by norm_num) (by norm_num)) (hS 4 (by norm_num) (by norm_num [abs])) (hadj 3).1).trans
      (step _ _ _ (hS 4 (by norm_num) (by norm_num [abs])) (hS 5 (by norm_num) (by norm_num [abs])) (hadj 4).1)
  · exact ((step _ _ _ (hS 3 (by norm_num) (by norm_num)) (hS 4 (by norm_num) (by norm_num [abs])) (hadj 3).1).trans
      (step _ _ _ (hS 4 (by norm_num) (by norm_num [abs])) (hS 5 (by norm_num) (by norm_num [abs])) (hadj 4).1)).trans
      (step _ _ _ (hS 5 (by norm_num) (by norm_num [abs])) (hS 6 (by norm_num) (by norm_num [abs])) (hadj 5).1)

end SafeLearning
