import Verif.Model.ReinforcementLearning
import Verif.Spec.ReinforcementLearning
import Verif.Props.TriangulationBoundary
import Verif.Props.Grid
set_option autoImplicit false

/-!
# The value function as a weighted sum of its parameters
-/

namespace SafeLearning

set_option linter.unusedSectionVars false

open Spec

variable {K : Type} [Field K] [LinearOrder K] [IsStrictOrderedRing K] [FloorRing K] {d m : ℕ}
variable {g : GridWorld K d} {D : Delaunay K d} {eps : K} {project : Bool} {t : Tri K d}

/-- Parameters of a function with one output as an array. -/
def toParams {n : ℕ} (θ : Fin n → K) : List (Fin 1 → K) := List.ofFn fun i _ => θ i

theorem toParams_length {n : ℕ} (θ : Fin n → K) : (toParams θ).length = n := by simp [toParams]

theorem toParams_getElem? {n : ℕ} (θ : Fin n → K) (k : ℕ) (hk : k < n) :
    (toParams θ)[k]? = some fun _ => θ ⟨k, hk⟩ := by
  simp [toParams, hk]

theorem toParams_surj {n : ℕ} (l : List (Fin 1 → K)) (hl : l.length = n) :
    ∃ θ : Fin n → K, l = toParams θ := by
  refine ⟨fun i : Fin n => (l[i.1]'(by have := i.2; omega)) 0, ?_⟩
  apply List.ext_getElem (by simp [toParams, hl])
  intro k h1 h2
  simp only [toParams, List.getElem_ofFn]
  funext i
  rw [Subsingleton.elim i 0]

theorem toParams_inj {n : ℕ} {θ θ' : Fin n → K} (h : toParams θ = toParams θ') : θ = θ' := by
  funext i
  have h1 := toParams_getElem? θ i.1 i.2
  rw [h, toParams_getElem? θ' i.1 i.2] at h1
  simpa using (congrFun (Option.some.inj h1) 0).symm

theorem below_toParams {n : ℕ} {θ θ' : Fin n → K} :
    Below (toParams θ) (toParams θ') ↔ ∀ i, θ i ≤ θ' i := by
  constructor
  · intro h i
    exact h i.1 _ _ (toParams_getElem? θ i.1 i.2) (toParams_getElem? θ' i.1 i.2)
  · intro h k v w hv hw
    have hk : k < n := by
      have := (List.getElem?_eq_some_iff.mp hv).1
      rwa [toParams_length] at this
    rw [toParams_getElem? _ k hk] at hv hw
    cases hv; cases hw
    exact h ⟨k, hk⟩

theorem within_toParams {n : ℕ} {B : K} {θ θ' : Fin n → K} :
    Within B (toParams θ) (toParams θ') ↔ ∀ i, |θ i - θ' i| ≤ B := by
  constructor
  · intro h i
    exact h i.1 _ _ (toParams_getElem? θ i.1 i.2) (toParams_getElem? θ' i.1 i.2)
  · intro h k v w hv hw
    have hk : k < n := by
      have := (List.getElem?_eq_some_iff.mp hv).1
      rwa [toParams_length] at this
    rw [toParams_getElem? _ k hk] at hv hw
    cases hv; cases hw
    exact h ⟨k, hk⟩

/-- Evaluation from the weights. -/
theorem tfEvaluate_weights {x : Fin d → K} {w : Fin (d + 1) → K} {idx : Fin (d + 1) → ℕ}
    (hw : t.getWeights eps x = .ok (w, idx)) {n : ℕ} (hidx : ∀ j, idx j < n) (θ : Fin n → K) :
    t.tfEvaluate eps (toParams θ) x = .ok fun _ => ∑ j, w j * θ ⟨idx j, hidx j⟩ := by
  rw [C17_tf_agrees]
  unfold Tri.evaluate
  rw [hw]
  simp only [bind, Except.bind]
  rw [traverseFin_ok (g := fun j _ => θ ⟨idx j, hidx j⟩)]
  · rfl
  · intro j
    exact rowAt_ok (toParams_getElem? θ _ (hidx j))

/-- The region in which the weights are non-negative. -/
def ConvexRegion (g : GridWorld K d) (eps : K) (project : Bool) (x : Fin d → K) : Prop :=
  InsideBy (2 * eps) g.lo g.hi x ∨ (d = 1 ∧ (project = true ∨ InBox g.lo g.hi x))

/-- The value at a point is a combination of the parameters with weights that add up to one; the weights are
non-negative in the interior and in one dimension. -/
theorem exists_row (S : TriSetup g D eps) (ht : Tri.new g D project = .ok t) (x : Fin d → K)
    (hx : project = true ∨ InBox g.lo g.hi x) :
    ∃ W : Fin (∏ i, g.num i) → K, ∑ j, W j = 1 ∧
      ∑ j, |W j| ≤ 1 + Spec.boundaryDefect g.lo g.hi g.num eps ∧
      (ConvexRegion g eps project x → ∀ j, 0 ≤ W j) ∧
      ∀ θ, t.tfEvaluate eps (toParams θ) x = .ok fun _ => ∑ j, W j * θ j := by
  obtain ⟨w, idx, v, h1, h2, h3, h4⟩ := C12_weights_boundary S ht x hx
  have hidx : ∀ j, idx j < ∏ i, g.num i := by
    intro j
    obtain ⟨m, hm, he, _⟩ := h2 j
    rw [he, Spec.rowMajor, ← ravel_eq_sum]
    exact ravel_lt _ _ hm
  refine ⟨fun j => ∑ l, if (⟨idx l, hidx l⟩ : Fin (∏ i, g.num i)) = j then w l else 0, ?_, ?_, ?_, ?_⟩
  · rw [Finset.sum_comm]
    simp [h3.1]
  · refine le_trans ?_ h4
    calc _ ≤ ∑ j, ∑ l, |if (⟨idx l, hidx l⟩ : Fin (∏ i, g.num i)) = j then w l else 0| :=
          Finset.sum_le_sum fun j _ => Finset.abs_sum_le_sum_abs _ _
      _ = ∑ l, |w l| := by
          rw [Finset.sum_comm]
          refine Finset.sum_congr rfl fun l _ => ?_
          have : ∀ j, |if (⟨idx l, hidx l⟩ : Fin (∏ i, g.num i)) = j then w l else 0| =
              if (⟨idx l, hidx l⟩ : Fin (∏ i, g.num i)) = j then |w l| else 0 := fun j => by
            split_ifs <;> simp
          simp [this]
  · intro hc j
    have hw : ∀ l, 0 ≤ w l := by
      rcases hc with hc | ⟨hd, hc⟩
      · obtain ⟨w', idx', v', e1, _, e3⟩ := C12_weights_nonneg S ht x hc
        rw [h1] at e1
        simp only [Except.ok.injEq, Prod.mk.injEq] at e1
        rw [e1.1]
        exact e3.1
      · subst hd
        obtain ⟨w', idx', v', e1, _, e3⟩ := C12_weights_nonneg_1d S ht x hc
        rw [h1] at e1
        simp only [Except.ok.injEq, Prod.mk.injEq] at e1
        rw [e1.1]
        exact e3.1
    exact Finset.sum_nonneg fun l _ => by split_ifs <;> simp [hw]
  · intro θ
    rw [tfEvaluate_weights h1 hidx]
    congr 1
    funext _
    simp only [Finset.sum_mul]
    rw [Finset.sum_comm]
    refine Finset.sum_congr rfl fun l _ => ?_
    simp [ite_mul]

end SafeLearning
