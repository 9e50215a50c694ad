import Verif.Spec.Grid
import Mathlib.Algebra.Order.Field.Basic
set_option autoImplicit false

/-! # Specification of images and surfaces (independent of the model) -/

namespace Spec

variable {K : Type} [Field K] [LinearOrder K]

/-- An image with `w × h` pixels drawn into the box `[lo 0, hi 0] × [lo 1, hi 1]`: column `c` counts from the left, `r` from the bottom. The
image `colour` shows `v` at the position `x` if `x` is in a pixel of colour `v`, borders included. -/
def Shows {α : Type} (lo hi : Fin 2 → K) (w h : ℕ) (colour : ℕ → ℕ → Option α) (x : Fin 2 → K) (v : α) : Prop :=
  ∃ c < w, ∃ r < h,
    (lo 0 + (c : K) * ((hi 0 - lo 0) / w) ≤ x 0 ∧ x 0 ≤ lo 0 + ((c : K) + 1) * ((hi 0 - lo 0) / w)) ∧
    (lo 1 + (r : K) * ((hi 1 - lo 1) / h) ≤ x 1 ∧ x 1 ≤ lo 1 + ((r : K) + 1) * ((hi 1 - lo 1) / h)) ∧
    colour c r = some v

end Spec
