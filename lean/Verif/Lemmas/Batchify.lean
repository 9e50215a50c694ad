import Verif.Model.Batchify
import Mathlib.Tactic.Common
set_option autoImplicit false

set_option linter.unusedSectionVars false

namespace SafeLearning

variable {α : Type*}

theorem batchifyFrom_nil (b : ℕ) (l : List α) (i : ℕ) (h : l.length ≤ i) :
    batchifyFrom b l i = [] := by
  rw [batchifyFrom, dif_pos]
  simp [List.drop_eq_nil_iff.mpr h]

theorem batchifyFrom_cons (b : ℕ) (hb : 0 < b) (l : List α) (i : ℕ) (h : i < l.length) :
    batchifyFrom b l i = (i, (l.drop i).take b) :: batchifyFrom b l (i + b) := by
  rw [batchifyFrom, dif_neg]
  simp only [List.isEmpty_iff, List.take_eq_nil_iff, List.drop_eq_nil_iff, not_or]
  omega

theorem batchifyFrom_zero (l : List α) (i : ℕ) : batchifyFrom 0 l i = [] := by
  rw [batchifyFrom, dif_pos]; simp

theorem batchifyFrom_flatMap (b : ℕ) (hb : 0 < b) (l : List α) (i : ℕ) :
    (batchifyFrom b l i).flatMap (·.2) = l.drop i := by
  by_cases h : l.length ≤ i
  · rw [batchifyFrom_nil b l i h, List.drop_eq_nil_iff.mpr h]; rfl
  · rw [batchifyFrom_cons b hb l i (by omega), List.flatMap_cons,
      batchifyFrom_flatMap b hb l (i + b), ← List.drop_drop, List.take_append_drop]
termination_by l.length - i

theorem batchifyFrom_ne_nil (b : ℕ) (l : List α) (i : ℕ) :
    ∀ x ∈ batchifyFrom b l i, x.2 ≠ [] := by
  intro x hx
  rcases Nat.eq_zero_or_pos b with hb | hb
  · subst hb; rw [batchifyFrom_zero] at hx; simp at hx
  by_cases h : l.length ≤ i
  · rw [batchifyFrom_nil b l i h] at hx; simp at hx
  · rw [batchifyFrom_cons b hb l i (by omega)] at hx
    rcases List.mem_cons.mp hx with rfl | hx
    · simp; omega
    · exact batchifyFrom_ne_nil b l (i + b) x hx
termination_by l.length - i

/-- The offset of a batch is the number of rows before it. -/
theorem batchifyFrom_offset (b : ℕ) (l : List α) (i k : ℕ) (pre post : List (ℕ × List α))
    (mid : List α) (h : batchifyFrom b l i = pre ++ (k, mid) :: post) :
    k = i + (pre.flatMap (·.2)).length := by
  rcases Nat.eq_zero_or_pos b with hb | hb
  · subst hb; rw [batchifyFrom_zero] at h; simp at h
  by_cases hl : l.length ≤ i
  · rw [batchifyFrom_nil b l i hl] at h; simp at h
  · rw [batchifyFrom_cons b hb l i (by omega)] at h
    cases pre with
    | nil => simp at h; simp [h.1.1]
    | cons a pre =>
      simp only [List.cons_append, List.cons.injEq] at h
      obtain ⟨rfl, h⟩ := h
      have := batchifyFrom_offset b l (i + b) k pre post mid h
      -- there are later batches, so this one is full
      have hfull : i + b < l.length := by
        by_contra hc
        rw [batchifyFrom_nil b l (i + b) (by omega)] at h; simp at h
      simp only [List.flatMap_cons, List.length_append, List.length_take, List.length_drop]
      omega
termination_by l.length - i

theorem batchifyFrom_length (b : ℕ) (l : List α) (i k : ℕ) (pre post : List (ℕ × List α))
    (mid : List α) (h : batchifyFrom b l i = pre ++ (k, mid) :: post) :
    mid.length ≤ b ∧ (post ≠ [] → mid.length = b) ∧ ∃ q, k = i + q * b ∧ k < l.length := by
  rcases Nat.eq_zero_or_pos b with hb | hb
  · subst hb; rw [batchifyFrom_zero] at h; simp at h
  by_cases hl : l.length ≤ i
  · rw [batchifyFrom_nil b l i hl] at h; simp at h
  · rw [batchifyFrom_cons b hb l i (by omega)] at h
    cases pre with
    | nil =>
      simp only [List.nil_append, List.cons.injEq, Prod.mk.injEq] at h
      obtain ⟨⟨rfl, rfl⟩, h⟩ := h
      refine ⟨by simp only [List.length_take]; omega, ?_, 0, by simp, by omega⟩
      intro hp
      have hfull : i + b < l.length := by
        by_contra hc
        rw [batchifyFrom_nil b l (i + b) (by omega)] at h; exact hp h.symm
      simp; omega
    | cons a pre =>
      simp only [List.cons_append, List.cons.injEq] at h
      obtain ⟨rfl, h⟩ := h
      obtain ⟨h1, h2, q, hq, hk⟩ := batchifyFrom_length b l (i + b) k pre post mid h
      exact ⟨h1, h2, q + 1, by rw [hq, Nat.add_mul]; omega, hk⟩
termination_by l.length - i

theorem batchifyManyFrom_eq (b : ℕ) (first : List α) (rest : List (List α)) (i : ℕ) :
    batchifyManyFrom b first rest i =
      (batchifyFrom b first i).map fun x =>
        (x.1, (first :: rest).map fun a => (a.drop x.1).take b) := by
  rcases Nat.eq_zero_or_pos b with hb | hb
  · subst hb; rw [batchifyFrom_zero, batchifyManyFrom, dif_pos (by simp)]; rfl
  by_cases hl : first.length ≤ i
  · rw [batchifyFrom_nil b first i hl, batchifyManyFrom, dif_pos]; · rfl
    simp [List.drop_eq_nil_iff.mpr hl]
  · rw [batchifyFrom_cons b hb first i (by omega), batchifyManyFrom, dif_neg,
      batchifyManyFrom_eq b first rest (i + b)]
    · rfl
    · simp only [List.isEmpty_iff, List.take_eq_nil_iff, List.drop_eq_nil_iff, not_or]
      omega
termination_by first.length - i

end SafeLearning
