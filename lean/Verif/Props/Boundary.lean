import Verif.Model.Boundary
import Verif.Props.Grid
import Verif.Lemmas.Region
set_option autoImplicit false

/-!
# Property C31: the smallest value on the boundary of the grid
-/

set_option linter.unusedSectionVars false

namespace SafeLearning

variable {K : Type} [Field K] [LinearOrder K] [IsStrictOrderedRing K] {d : ℕ}

theorem reduceMin_aux (l : List K) (m : WithTop K) :
    (∀ c : WithTop K, c ≤ l.foldl (fun (m : WithTop K) (v : K) => min m (v : WithTop K)) m ↔
      c ≤ m ∧ ∀ v ∈ l, c ≤ (v : WithTop K)) := by
  induction l generalizing m with
  | nil => simp
  | cons a l ih => intro c; rw [List.foldl_cons, ih]; simp [and_assoc]

theorem le_reduceMin (l : List K) (c : WithTop K) :
    c ≤ reduceMin l ↔ ∀ v ∈ l, c ≤ (v : WithTop K) := by
  rw [reduceMin, reduceMin_aux]; simp

theorem mem_linspace (lo hi : K) {n : ℕ} (_ : 2 ≤ n) (x : K) :
    x ∈ linspace lo hi n ↔ ∃ j < n, x = Spec.axisPoint lo hi n j := by
  rw [linspace_eq lo hi n]
  simp only [List.mem_map, List.mem_range, Spec.axisPoint]
  constructor
  · rintro ⟨j, hj, rfl⟩; exact ⟨j, hj, by ring⟩
  · rintro ⟨j, hj, rfl⟩; exact ⟨j, hj, by ring⟩

theorem firstLast_linspace (lo hi : K) {n : ℕ} (hn : 2 ≤ n) :
    firstLast (linspace lo hi n) = .ok [lo, hi] := by
  obtain ⟨m, rfl⟩ : ∃ m, n = m + 2 := ⟨n - 2, by omega⟩
  have h : linspace lo hi (m + 2) = lo :: ((List.range (m + 1)).map fun k : ℕ =>
      if k + 1 + 1 = m + 2 ∧ 1 < m + 2 then hi
      else ((k + 1 : ℕ) : K) * ((hi - lo) / (((m + 2 : ℕ) : K) - 1)) + lo) := by
    unfold linspace
    rw [List.range_succ_eq_map]
    simp [Function.comp_def]
  rw [h, firstLast]
  congr 2
  rw [List.range_succ]
  simp

theorem axisBoundaryMin_ok (f : (Fin d → K) → K) (g : GridWorld K d) (h2 : ∀ i, 2 ≤ g.num i)
    (i : Fin d) :
    axisBoundaryMin f g i = .ok (reduceMin ((meshIJ
      (Function.update g.discretePoints i [g.lo i, g.hi i])).map f)) := by
  unfold axisBoundaryMin
  rw [GridWorld.discretePoints, firstLast_linspace _ _ (h2 i)]
  rfl

theorem smallestBoundaryValue_aux (f : (Fin d → K) → K) (g : GridWorld K d)
    (h2 : ∀ i, 2 ≤ g.num i) (l : List (Fin d)) (m : WithTop K) :
    ∃ r, l.foldlM (fun m i => do
        let smallest ← axisBoundaryMin f g i
        return min m smallest) m = Except.ok r ∧
      ∀ c : WithTop K, c ≤ r ↔ c ≤ m ∧ ∀ i ∈ l, ∀ x ∈ meshIJ
        (Function.update g.discretePoints i [g.lo i, g.hi i]), c ≤ (f x : WithTop K) := by
  induction l generalizing m with
  | nil => exact ⟨m, rfl, by simp⟩
  | cons i l ih =>
    obtain ⟨r, hr, hc⟩ := ih (min m (reduceMin ((meshIJ
      (Function.update g.discretePoints i [g.lo i, g.hi i])).map f)))
    refine ⟨r, ?_, fun c => ?_⟩
    · rw [List.foldlM_cons, axisBoundaryMin_ok f g h2]
      exact hr
    · rw [hc]
      simp only [le_min_iff, le_reduceMin, List.mem_map, forall_exists_index, and_imp,
        forall_apply_eq_imp_iff₂, List.mem_cons, forall_eq_or_imp, and_assoc]

theorem mem_boundary_mesh (g : GridWorld K d) (h2 : ∀ i, 2 ≤ g.num i) (x : Fin d → K) :
    (∃ i, x ∈ meshIJ (Function.update g.discretePoints i [g.lo i, g.hi i])) ↔
      Spec.IsBoundaryPoint g.lo g.hi g.num x := by
  simp only [mem_meshIJ]
  have hlo : ∀ i, ∃ j < g.num i, g.lo i = Spec.axisPoint (g.lo i) (g.hi i) (g.num i) j :=
    fun i => ⟨0, by have := h2 i; omega, by simp [Spec.axisPoint]⟩
  have hhi : ∀ i, ∃ j < g.num i, g.hi i = Spec.axisPoint (g.lo i) (g.hi i) (g.num i) j := by
    intro i
    have hn := h2 i
    refine ⟨g.num i - 1, by omega, ?_⟩
    have h1 : (g.num i : K) - 1 ≠ 0 := by
      have : (2 : K) ≤ g.num i := by exact_mod_cast hn
      linarith
    rw [Spec.axisPoint, Nat.cast_sub (by omega), Nat.cast_one]
    field_simp; ring
  constructor
  · rintro ⟨i, hi⟩
    refine ⟨fun k => ?_, i, by simpa using hi i⟩
    have hk := hi k
    by_cases hki : k = i
    · subst hki
      simp only [Function.update_self, List.mem_cons, List.not_mem_nil, or_false] at hk
      rcases hk with hk | hk
      · rw [hk]; exact hlo k
      · rw [hk]; exact hhi k
    · rw [Function.update_of_ne hki, GridWorld.discretePoints, mem_linspace _ _ (h2 k)] at hk
      exact hk
  · rintro ⟨hg, i, hi⟩
    refine ⟨i, fun k => ?_⟩
    by_cases hki : k = i
    · subst hki; simpa using hi
    · rw [Function.update_of_ne hki, GridWorld.discretePoints, mem_linspace _ _ (h2 k)]
      exact hg k

/-- **C31** In at least one dimension, `smallest_boundary_value` returns the minimum of the function over
exactly the grid points with a coordinate at its limit. -/
theorem C31_smallest_boundary_value (hd : 0 < d) (f : (Fin d → K) → K) (g : GridWorld K d)
    (h2 : ∀ i, 2 ≤ g.num i) :
    ∃ v : K, smallestBoundaryValue f g = .ok (v : WithTop K) ∧
      IsLeast (f '' {x | Spec.IsBoundaryPoint g.lo g.hi g.num x}) v := by
  obtain ⟨r, hr, hc⟩ := smallestBoundaryValue_aux f g h2 (List.finRange d) ⊤
  have hc' : ∀ c : WithTop K, c ≤ r ↔
      ∀ x, Spec.IsBoundaryPoint g.lo g.hi g.num x → c ≤ (f x : WithTop K) := by
    intro c
    rw [hc c]
    simp only [le_top, true_and, List.mem_finRange, forall_const]
    constructor
    · intro h x hx
      obtain ⟨i, hi⟩ := (mem_boundary_mesh g h2 x).mpr hx
      exact h i x hi
    · intro h i x hx
      exact h x ((mem_boundary_mesh g h2 x).mp ⟨i, hx⟩)
  -- the set of boundary points is finite and not empty
  have hfin : {x | Spec.IsBoundaryPoint g.lo g.hi g.num x}.Finite := by
    apply Set.Finite.subset (s := {x | ∀ i, x i ∈ {y | y ∈ g.discretePoints i}})
    · have : {x : Fin d → K | ∀ i, x i ∈ {y | y ∈ g.discretePoints i}}
          = Set.pi Set.univ fun i => {y | y ∈ g.discretePoints i} := by
        ext; simp
      rw [this]
      exact Set.Finite.pi' (fun i => List.finite_toSet _) |>.subset (by intro x hx; simpa using hx)
    · rintro x ⟨hx, -⟩ i
      exact (mem_linspace _ _ (h2 i) _).mpr (hx i)
  have hne : {x | Spec.IsBoundaryPoint g.lo g.hi g.num x}.Nonempty :=
    ⟨g.lo, fun i => ⟨0, by have := h2 i; omega, by simp [Spec.axisPoint]⟩, ⟨0, hd⟩, .inl rfl⟩
  obtain ⟨v, hv⟩ := (hfin.image f).exists_minimal (hne.image f)
  have hv' : IsLeast (f '' {x | Spec.IsBoundaryPoint g.lo g.hi g.num x}) v := by
    refine ⟨hv.1, fun w hw => ?_⟩
    rcases le_total v w with h | h
    · exact h
    · exact hv.2 hw h
  have : r = (v : WithTop K) := by
    apply le_antisymm
    · obtain ⟨x, hx, hxv⟩ := hv'.1
      rw [← hxv]
      exact (hc' r).mp le_rfl x hx
    · rw [hc']
      intro x hx
      exact_mod_cast hv'.2 ⟨x, hx, rfl⟩
  exact ⟨v, by rw [smallestBoundaryValue, hr, this], hv'⟩

/-- The hypotheses are met by a 3 x 4 grid, and the result is a concrete number. -/
example : smallestBoundaryValue (fun x => x 0 ^ 2 + x 1) GridWorld.exampleGrid
    = .ok ((2 : ℚ) : WithTop ℚ) := by
  decide +kernel

example : ∃ v : ℚ, smallestBoundaryValue (fun x => x 0 ^ 2 + x 1) GridWorld.exampleGrid
      = .ok (v : WithTop ℚ) ∧ IsLeast ((fun x : Fin 2 → ℚ => x 0 ^ 2 + x 1) ''
        {x | Spec.IsBoundaryPoint GridWorld.exampleGrid.lo GridWorld.exampleGrid.hi
          GridWorld.exampleGrid.num x}) v :=
  C31_smallest_boundary_value (by norm_num) _ _ GridWorld.exampleGrid_two_le

end SafeLearning
