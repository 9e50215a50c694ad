import Verif.Lemmas.Delaunay
set_option autoImplicit false

/-!
# Lemmas about simplices of neighbouring rectangles
-/

namespace SafeLearning

set_option linter.unusedSectionVars false

open Spec

variable {K : Type} [Field K] [LinearOrder K] [IsStrictOrderedRing K] {d n n' : ℕ}

theorem sum_eq_weightAt (v : Fin n → Fin d → K) (w : Fin n → K) (f : (Fin d → K) → K)
    (S : Finset (Fin d → K)) (hS : ∀ j, v j ∈ S) :
    ∑ j, w j * f (v j) = ∑ p ∈ S, weightAt v w p * f p := by
  simp only [weightAt, Finset.sum_mul]
  rw [Finset.sum_comm]
  refine Finset.sum_congr rfl fun j _ => ?_
  rw [Finset.sum_eq_single (v j)]
  · simp
  · intro p _ hp
    rw [if_neg (Ne.symm hp), zero_mul]
  · intro h
    exact absurd (hS j) h

theorem sum_eq_of_weightAt {v : Fin n → Fin d → K} {w : Fin n → K} {v' : Fin n' → Fin d → K}
    {w' : Fin n' → K} (h : ∀ p, weightAt v w p = weightAt v' w' p) (f : (Fin d → K) → K) :
    ∑ j, w j * f (v j) = ∑ j, w' j * f (v' j) := by
  have hS : ∀ j, v j ∈ Finset.univ.image v ∪ Finset.univ.image v' := fun j => by simp
  have hS' : ∀ j, v' j ∈ Finset.univ.image v ∪ Finset.univ.image v' := fun j => by simp
  rw [sum_eq_weightAt v w f _ hS, sum_eq_weightAt v' w' f _ hS']
  exact Finset.sum_congr rfl fun p _ => by rw [h]

theorem weightAt_shift (a : Fin d → K) (v : Fin n → Fin d → K) (w : Fin n → K) (p : Fin d → K) :
    weightAt (fun j i => a i + v j i) w p = weightAt v w fun i => p i - a i := by
  unfold weightAt
  refine Finset.sum_congr rfl fun j _ => ?_
  have : ((fun i => a i + v j i) = p) ↔ v j = fun i => p i - a i := by
    constructor
    · rintro rfl; funext i; ring
    · intro h; funext i; rw [h]; ring
  simp only [this]

/-- Convex weights of lattice points on a line parallel to an axis are determined by the point. -/
theorem weightAt_line {u : Fin d → K} (hu : ∀ i, 0 < u i) {v : Fin n → Fin d → K} {w : Fin n → K}
    {y : Fin d → K} (hw : IsConvexComb v w y) (a : Fin n → Fin d → ℤ)
    (ha : ∀ j i, v j i = (a j i : K) * u i) (i0 : Fin d) (c : ℤ)
    (hc : ∀ j, a j i0 = c ∨ a j i0 = c + 1)
    (hline : ∀ j, w j ≠ 0 → ∀ i ≠ i0, v j i = y i) (m : Fin d → ℤ) :
    weightAt v w (fun i => (m i : K) * u i) =
      if ∀ i ≠ i0, (m i : K) * u i = y i then max 0 (1 - |y i0 / u i0 - m i0|) else 0 := by
  obtain ⟨hw0, hw1, hwy⟩ := hw
  have hα : y i0 / u i0 = ∑ j, w j * (a j i0 : K) := by
    rw [div_eq_iff (hu i0).ne', ← hwy i0, Finset.sum_mul]
    exact Finset.sum_congr rfl fun j _ => by rw [ha]; ring
  split_ifs with hm
  · -- the terms are those with the right coordinate `i0`
    have h1 : weightAt v w (fun i => (m i : K) * u i) = ∑ j, if a j i0 = m i0 then w j else 0 := by
      unfold weightAt
      refine Finset.sum_congr rfl fun j _ => ?_
      by_cases hj : w j = 0
      · simp [hj]
      · have : (v j = fun i => (m i : K) * u i) ↔ a j i0 = m i0 := by
          constructor
          · intro h
            have := congrFun h i0
            rw [ha] at this
            exact_mod_cast mul_right_cancel₀ (hu i0).ne' this
          · intro h
            funext i
            by_cases hi : i = i0
            · subst hi; rw [ha, h]
            · rw [hline j hj i hi, hm i hi]
        simp only [this]
    rw [h1, hα]
    -- `β` is the weight on the upper points
    set β := ∑ j, if a j i0 = c + 1 then w j else 0 with hβ
    have hsum : ∑ j, w j * (a j i0 : K) = c + β := by
      have : ∀ j, w j * (a j i0 : K) = w j * c + if a j i0 = c + 1 then w j else 0 := by
        intro j
        rcases hc j with h | h
        · rw [h, if_neg (by omega)]; ring
        · rw [h, if_pos rfl]; push_cast; ring
      simp only [this, Finset.sum_add_distrib, ← Finset.sum_mul, hw1, one_mul]
      rfl
    have hβ0 : 0 ≤ β := Finset.sum_nonneg fun j _ => by
      split_ifs
      · exact hw0 j
      · exact le_refl _
    have hβ1 : β ≤ 1 := by
      rw [← hw1]
      exact Finset.sum_le_sum fun j _ => by
        split_ifs
        · exact le_refl _
        · exact hw0 j
    have hlow : (∑ j, if a j i0 = c then w j else 0) = 1 - β := by
      rw [eq_sub_iff_add_eq, hβ, ← Finset.sum_add_distrib, ← hw1]
      refine Finset.sum_congr rfl fun j _ => ?_
      rcases hc j with h | h <;> simp [h]
    rw [hsum]
    by_cases h2 : m i0 = c
    · rw [h2, hlow, show (c : K) + β - c = β by ring, abs_of_nonneg hβ0, max_eq_right (by linarith)]
    · by_cases h3 : m i0 = c + 1
      · rw [h3, ← hβ]
        push_cast
        rw [show (c : K) + β - (c + 1) = β - 1 by ring, abs_of_nonpos (by linarith),
          max_eq_right (by linarith)]
        ring
      · have h4 : (∑ j, if a j i0 = m i0 then w j else 0) = 0 :=
          Finset.sum_eq_zero fun j _ => by
            rw [if_neg]
            rcases hc j with h | h <;> omega
        rw [h4, max_eq_left]
        have h5 : m i0 ≤ c - 1 ∨ c + 2 ≤ m i0 := by omega
        have h6 : (1 : K) ≤ |(c : K) + β - m i0| := by
          rw [le_abs]
          rcases h5 with h5 | h5
          · left
            have : (m i0 : K) ≤ c - 1 := by exact_mod_cast h5
            linarith
          · right
            have : (c : K) + 2 ≤ m i0 := by exact_mod_cast h5
            linarith
        linarith
  · unfold weightAt
    refine Finset.sum_eq_zero fun j _ => ?_
    by_cases hj : w j = 0
    · simp [hj]
    · rw [if_neg]
      intro h
      apply hm
      intro i hi
      rw [← hline j hj i hi, h]

/-- Weights of a point on a face are zero away from the face. -/
theorem support_on_face {v : Fin n → Fin d → K} {w : Fin n → K} {y : Fin d → K}
    (hw : IsConvexComb v w y) (i : Fin d) (h : (∀ j, v j i ≤ y i) ∨ ∀ j, y i ≤ v j i) (j : Fin n)
    (hj : w j ≠ 0) : v j i = y i := by
  obtain ⟨hw0, hw1, hwy⟩ := hw
  have hs : ∑ j, w j * (v j i - y i) = 0 := by
    simp only [mul_sub, Finset.sum_sub_distrib, ← Finset.sum_mul, hw1, hwy i, one_mul, sub_self]
  have hz : w j * (v j i - y i) = 0 := by
    rcases h with h | h
    · exact (Finset.sum_eq_zero_iff_of_nonpos fun k _ =>
        mul_nonpos_of_nonneg_of_nonpos (hw0 k) (by linarith [h k])).mp hs j (Finset.mem_univ j)
    · exact (Finset.sum_eq_zero_iff_of_nonneg fun k _ =>
        mul_nonneg (hw0 k) (by linarith [h k])).mp hs j (Finset.mem_univ j)
  rcases mul_eq_zero.mp hz with h | h
  · exact absurd h hj
  · linarith

theorem weightAt_not_lattice {u : Fin d → K} {v : Fin n → Fin d → K} {w : Fin n → K}
    (a : Fin n → Fin d → ℤ) (ha : ∀ j i, v j i = (a j i : K) * u i) (p : Fin d → K)
    (hp : ¬ ∃ m : Fin d → ℤ, p = fun i => (m i : K) * u i) : weightAt v w p = 0 := by
  unfold weightAt
  refine Finset.sum_eq_zero fun j _ => ?_
  rw [if_neg]
  rintro rfl
  exact hp ⟨a j, funext fun i => ha j i⟩

theorem convex_mem {v : Fin n → Fin d → K} {w : Fin n → K} {y : Fin d → K}
    (hw : IsConvexComb v w y) (i : Fin d) {lo hi : K} (h : ∀ j, lo ≤ v j i ∧ v j i ≤ hi) :
    lo ≤ y i ∧ y i ≤ hi := by
  obtain ⟨hw0, hw1, hwy⟩ := hw
  rw [← hwy i]
  constructor
  · calc lo = ∑ j, w j * lo := by rw [← Finset.sum_mul, hw1, one_mul]
      _ ≤ _ := Finset.sum_le_sum fun j _ => mul_le_mul_of_nonneg_left (h j).1 (hw0 j)
  · calc _ ≤ ∑ j, w j * hi := Finset.sum_le_sum fun j _ => mul_le_mul_of_nonneg_left (h j).2 (hw0 j)
      _ = hi := by rw [← Finset.sum_mul, hw1, one_mul]

/-- In one and two dimensions a triangulation of one rectangle is a triangulation of all. -/
theorem tiling_of_proper (hd : d ≤ 2) {u : Fin d → K} (hu : ∀ i, 0 < u i)
    {points : List (Fin d → K)} (hpts : ∀ p ∈ points, ∀ i, p i = 0 ∨ p i = u i)
    {simplices : List (Fin (d + 1) → ℕ)} (hP : IsProper points simplices) :
    IsProperTiling u points simplices := by
  intro e s hs s' hs' y w w' hw hw' p
  have hvert : ∀ (s : Fin (d + 1) → ℕ) j i,
      vertices points s j i = 0 ∨ vertices points s j i = u i := by
    intro s j i
    unfold vertices
    by_cases hk : s j < points.length
    · have := hpts _ (List.getElem_mem hk) i
      simpa [List.getD_eq_getElem?_getD, hk] using this
    · left
      simp [List.getD_eq_getElem?_getD, hk]
  by_cases he : e = 0
  · subst he
    simp only [Pi.zero_apply, Int.cast_zero, zero_mul, zero_add] at hw' ⊢
    exact hP s hs s' hs' y w w' hw hw' p
  · -- the point is on a common face
    obtain ⟨i1, hi1⟩ : ∃ i, e i ≠ 0 := by
      by_contra h
      push Not at h
      exact he (funext h)
    have hb : ∀ j, 0 ≤ vertices points s j i1 ∧ vertices points s j i1 ≤ u i1 := fun j => by
      rcases hvert s j i1 with h | h <;> rw [h] <;> constructor <;> linarith [hu i1]
    have hb' : ∀ j, 0 ≤ vertices points s' j i1 ∧ vertices points s' j i1 ≤ u i1 := fun j => by
      rcases hvert s' j i1 with h | h <;> rw [h] <;> constructor <;> linarith [hu i1]
    have hy := convex_mem hw i1 hb
    have hy' := convex_mem hw' i1 (lo := e i1 * u i1) (hi := e i1 * u i1 + u i1)
      (fun j => ⟨by linarith [(hb' j).1], by linarith [(hb' j).2]⟩)
    have hface : ∀ j, w j ≠ 0 → vertices points s j i1 = y i1 := by
      refine fun j => support_on_face hw i1 ?_ j
      rcases lt_or_gt_of_ne hi1 with h | h
      · right
        have h3 : (e i1 : K) ≤ -1 := by exact_mod_cast Int.le_sub_one_of_lt h
        have : y i1 ≤ 0 := by nlinarith [hu i1]
        exact fun j => this.trans (hb j).1
      · left
        have h3 : (1 : K) ≤ e i1 := by exact_mod_cast h
        have : u i1 ≤ y i1 := by nlinarith [hu i1]
        exact fun j => (hb j).2.trans this
    have hface' : ∀ j, w' j ≠ 0 → (e i1 : K) * u i1 + vertices points s' j i1 = y i1 := by
      refine fun j => support_on_face hw' i1 ?_ j
      rcases lt_or_gt_of_ne hi1 with h | h
      · left
        have h3 : (e i1 : K) ≤ -1 := by exact_mod_cast Int.le_sub_one_of_lt h
        intro j
        have := (hb' j).2
        nlinarith [hu i1]
      · right
        have h3 : (1 : K) ≤ e i1 := by exact_mod_cast h
        intro j
        have := (hb' j).1
        nlinarith [hu i1]
    -- integer coordinates of the vertices
    set a : Fin (d + 1) → Fin d → ℤ := fun j i => if vertices points s j i = 0 then 0 else 1 with ha
    set a' : Fin (d + 1) → Fin d → ℤ :=
      fun j i => e i + if vertices points s' j i = 0 then 0 else 1 with ha'
    have hva : ∀ j i, vertices points s j i = (a j i : K) * u i := by
      intro j i
      simp only [ha]
      split_ifs with h
      · simp [h]
      · rcases hvert s j i with h' | h'
        · exact absurd h' h
        · simp [h']
    have hva' : ∀ j i, (e i : K) * u i + vertices points s' j i = (a' j i : K) * u i := by
      intro j i
      simp only [ha']
      split_ifs with h
      · simp [h]
      · rcases hvert s' j i with h' | h'
        · exact absurd h' h
        · rw [h']; push_cast; ring
    -- the direction of the line
    obtain ⟨i0, hi0⟩ : ∃ i0 : Fin d, ∀ i ≠ i0, i = i1 := by
      by_cases h1 : d = 1
      · exact ⟨i1, fun i hi => absurd (Fin.ext (by omega)) hi⟩
      · have h2 : d = 2 := by have := i1.2; omega
        refine ⟨⟨1 - i1.1, by omega⟩, fun i hi => Fin.ext ?_⟩
        have : i.1 ≠ 1 - i1.1 := fun h => hi (Fin.ext h)
        have := i.2
        have := i1.2
        omega
    by_cases hp : ∃ m : Fin d → ℤ, p = fun i => (m i : K) * u i
    · obtain ⟨m, rfl⟩ := hp
      rw [weightAt_line hu hw a hva i0 0 (fun j => by simp only [ha]; split_ifs <;> simp)
        (fun j hj i hi => by rw [hi0 i hi]; exact hface j hj) m,
        weightAt_line hu hw' a' hva' i0 (e i0) (fun j => by simp only [ha']; split_ifs <;> simp)
        (fun j hj i hi => by rw [hi0 i hi]; exact hface' j hj) m]
    · rw [weightAt_not_lattice a hva p hp, weightAt_not_lattice a' hva' p hp]

end SafeLearning
