import Verif.Lemmas.SafeSetAdaptive
import Mathlib.Data.List.Sort
import Mathlib.Data.List.FinRange
set_option autoImplicit false

/-! Concrete worlds, used to show that hypotheses can be met and for counterexamples. -/

namespace SafeLearning

variable {K : Type} [Field K] [LinearOrder K] [IsStrictOrderedRing K]

/-- A world given by tables, with a stable sort as `argsort`. -/
def tableWorld {Prog Θ : Type} {n : ℕ} (dec : Prog → Θ → Fin n → K) (thr : Θ → Fin n → K → K)
    (lyap : Θ → Fin n → K) : World K Prog Θ n where
  decrease := dec
  threshold := thr
  lyapunov := lyap
  tauDiv := fun t k => t / k
  argsort := fun v => (List.finRange n).insertionSort fun i j => v i ≤ v j

/-- A stable insertion sort meets the contract of `argsort`. -/
theorem sortContract_insertionSort {Prog Θ : Type} {n : ℕ} (W : World K Prog Θ n)
    (h : W.argsort = fun v => (List.finRange n).insertionSort fun i j => v i ≤ v j) :
    W.SortContract where
  nodup v := by
    rw [h]; exact (List.perm_insertionSort _ _).nodup_iff.mpr (List.nodup_finRange n)
  complete v i := by
    rw [h, List.mem_insertionSort]; exact List.mem_finRange i
  sorted v := by
    have : Std.Total fun i j : Fin n => v i ≤ v j := ⟨fun i j => le_total _ _⟩
    have : IsTrans (Fin n) fun i j => v i ≤ v j := ⟨fun i j k => le_trans⟩
    rw [h]
    exact List.pairwise_insertionSort _ _

theorem tableWorld_sort {Prog Θ : Type} {n : ℕ} (dec : Prog → Θ → Fin n → K)
    (thr : Θ → Fin n → K → K) (lyap : Θ → Fin n → K) :
    (tableWorld dec thr lyap).SortContract := sortContract_insertionSort _ rfl

end SafeLearning
