import Verif.Lemmas.Batchify
import Mathlib.Algebra.Order.Group.Nat
import Mathlib.Order.Basic
set_option autoImplicit false

/-! # Property C38: `batchify` -/

namespace SafeLearning

variable {α : Type*}

/-- **C38** For a positive batch size the batches concatenate to the array, no batch is empty, and
for every yielded batch: the offset is the number of rows before it, it has at most `b` rows and
exactly `b` unless it is the last one. -/
theorem C38_batchify_partitions (l : List α) (b : ℕ) (hb : 0 < b) :
    ((batchify l b).map Prod.snd).flatten = l ∧
    (∀ x ∈ batchify l b, x.2 ≠ []) ∧
    ∀ pre i rows post, batchify l b = pre ++ (i, rows) :: post →
      i = ((pre.map Prod.snd).flatten).length ∧ rows.length ≤ b ∧ (post ≠ [] → rows.length = b) := by
  refine ⟨?_, batchifyFrom_ne_nil b l 0, ?_⟩
  · have := batchifyFrom_flatMap b hb l 0
    rw [List.drop_zero, List.flatMap_def] at this
    exact this
  · intro pre i rows post h
    have h1 := batchifyFrom_offset b l 0 i pre post rows h
    have h2 := batchifyFrom_length b l 0 i pre post rows h
    refine ⟨?_, h2.1, h2.2.1⟩
    rw [h1, Nat.zero_add, List.flatMap_def]

/-- **C38** Several arrays are split at the places where the first one is: batch number `q` of the
array `a` consists of its rows `i, ..., i + b - 1`, where `i` is the offset of batch number `q` of
the first array. -/
theorem C38_batchify_many (first : List α) (rest : List (List α)) (b : ℕ) :
    (batchifyManyFrom b first rest 0).length = (batchify first b).length ∧
    ∀ q (h : q < (batchify first b).length) (h' : q < (batchifyManyFrom b first rest 0).length),
      ((batchifyManyFrom b first rest 0)[q]).1 = ((batchify first b)[q]).1 ∧
      ((batchifyManyFrom b first rest 0)[q]).2 =
        (first :: rest).map fun a => (a.drop ((batchify first b)[q]).1).take b := by
  have e := batchifyManyFrom_eq b first rest 0
  refine ⟨by rw [e, List.length_map]; rfl, fun q h h' => ?_⟩
  simp only [e, List.getElem_map]
  exact ⟨rfl, rfl⟩

/-- **C38** All arrays have the length of the first one: each is partitioned completely. -/
theorem C38_batchify_many_partitions (first : List α) (rest : List (List α)) (b : ℕ) (hb : 0 < b)
    (hlen : ∀ a ∈ rest, a.length = first.length) (k : ℕ) (hk : k < (first :: rest).length) :
    ((batchifyManyFrom b first rest 0).map fun x => x.2.getD k []).flatten = (first :: rest)[k] := by
  rw [batchifyManyFrom_eq]
  have hl : ((first :: rest)[k]).length = first.length := by
    rcases k with _ | k
    · rfl
    · exact hlen _ (List.getElem_mem _)
  generalize ha : (first :: rest)[k] = a at hl
  have key : ∀ m i, first.length - i = m →
      (((batchifyFrom b first i).map fun x =>
        (x.1, (first :: rest).map fun a => (a.drop x.1).take b)).map
          fun x => x.2.getD k []).flatten = a.drop i := by
    intro m
    induction m using Nat.strongRecOn with
    | _ m ih =>
      intro i hi
      by_cases h : first.length ≤ i
      · rw [batchifyFrom_nil b first i h, List.drop_eq_nil_of_le (by omega)]; rfl
      · rw [batchifyFrom_cons b hb first i (by omega)]
        have h1 := ih (first.length - (i + b)) (by omega) (i + b) rfl
        rw [List.map_cons, List.map_cons, List.flatten_cons, h1]
        have h2 : (List.map (fun a : List α => List.take b (List.drop i a)) (first :: rest)).getD k []
            = (a.drop i).take b := by
          rw [List.getD_eq_getElem?_getD, List.getElem?_map, List.getElem?_eq_getElem hk, ha]
          rfl
        rw [h2, ← List.drop_drop, List.take_append_drop]
  exact (key _ 0 rfl).trans (List.drop_zero)

example : ((batchify [1, 2, 3, 4, 5] 2).map Prod.snd).flatten = [1, 2, 3, 4, 5] :=
  (C38_batchify_partitions [1, 2, 3, 4, 5] 2 (by decide)).1

example : batchify [1, 2, 3, 4, 5] 2 = [(0, [1, 2]), (2, [3, 4]), (4, [5])] := by decide +kernel

example := C38_batchify_many_partitions [1, 2, 3] [[4, 5, 6], [7, 8, 9]] 2 (by decide) (by decide) 1
  (by decide)

/-- With a batch size of zero nothing is yielded, so the positive batch size is needed. -/
theorem C38_batchify_zero (l : List α) : batchify l 0 = [] := batchifyFrom_zero l 0

end SafeLearning
