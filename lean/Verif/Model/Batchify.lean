import Mathlib.Data.List.Basic
import Mathlib.Order.Basic
set_option autoImplicit false

/-!
# Model of `batchify` (safe_learning/utilities.py:224-249)
-/

set_option linter.unusedVariables false

namespace SafeLearning

/-- The generator loop of `batchify`, started at offset `i`: slices `array[i:i + batch_size]` until
the slice is empty (safe_learning/utilities.py:240-249). The `zip(count(0, b), count(b, b))` is the
pair `(i, i + b)`. -/
def batchifyFrom {α : Type*} (b : ℕ) (l : List α) (i : ℕ) : List (ℕ × List α) :=
  if h : ((l.drop i).take b).isEmpty then []
  else (i, (l.drop i).take b) :: batchifyFrom b l (i + b)
termination_by l.length - i
decreasing_by
  simp only [List.isEmpty_iff, List.take_eq_nil_iff, List.drop_eq_nil_iff, not_or] at h
  omega

/-- `batchify(array, batch_size)` for one array, as the list of the yielded pairs
(safe_learning/utilities.py:224-249). -/
def batchify {α : Type*} (l : List α) (b : ℕ) : List (ℕ × List α) := batchifyFrom b l 0

/-- `batchify(arrays, batch_size)` for a list of arrays: all arrays are sliced at the same
places and the generator stops when the slice of the *first* array is empty
(safe_learning/utilities.py:237-249). -/
def batchifyManyFrom {α : Type*} (b : ℕ) (first : List α) (rest : List (List α)) (i : ℕ) :
    List (ℕ × List (List α)) :=
  if h : ((first.drop i).take b).isEmpty then []
  else (i, (first :: rest).map fun a => (a.drop i).take b) ::
    batchifyManyFrom b first rest (i + b)
termination_by first.length - i
decreasing_by
  simp only [List.isEmpty_iff, List.take_eq_nil_iff, List.drop_eq_nil_iff, not_or] at h
  omega

end SafeLearning
