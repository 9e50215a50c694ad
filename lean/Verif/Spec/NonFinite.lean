import Verif.Model.NonFinite
set_option autoImplicit false

/-! Specification for safe sets computed in floating point numbers. -/

namespace Spec

open SafeLearning

variable {K : Type} [Field K] [LinearOrder K] {Prog Θ : Type} {d n : ℕ}

/-- A finite floating point number. -/
def FiniteFlt (a : Flt K) : Prop := ∃ x, a = .fin x

/-- What a bound or Lipschitz constant may be: nonnegative, `+inf` or NaN. -/
def NonnegOrNaN (a : Flt K) : Prop := a = .nan ∨ a = .pinf ∨ ∃ x, 0 ≤ x ∧ a = .fin x

/-- Rounding keeps the sign, never produces NaN and may overflow. -/
structure SignRounding (A : Flt.Arith K) : Prop where
  nonneg : ∀ x, 0 ≤ x → A.rnd x = .pinf ∨ ∃ y, 0 ≤ y ∧ A.rnd x = .fin y
  nonpos : ∀ x, x ≤ 0 → A.rnd x = .ninf ∨ ∃ y, y ≤ 0 ∧ A.rnd x = .fin y

/-- The predictions of the model at a grid state, for program `p` and parameters `θ`, are meaningful:
the Lyapunov function is a number at the state and bounded at the predicted state, and all error
bounds and Lipschitz constants involved are finite. -/
structure MeaningfulAt (W : FltLyap.FWorld K Prog Θ d n) (p : Prog) (θ : Θ) (k : Fin n) : Prop where
  value : W.V θ (W.state k) ≠ .nan ∧ W.V θ (W.state k) ≠ .ninf
  next : match W.closedLoop p θ (W.state k) with
    | .exact y => W.V θ y ≠ .nan ∧ W.V θ y ≠ .pinf
    | .uncertain mean error => (W.V θ mean ≠ .nan ∧ W.V θ mean ≠ .pinf) ∧
        ∀ i, FiniteFlt (error i) ∧ FiniteFlt (FltLyap.lipEntry (W.lv θ) mean i)
  lipschitz : (∀ i, FiniteFlt (FltLyap.lipEntry (W.lv θ) (W.state k) i)) ∧
    FiniteFlt (FltLyap.lipDyn (W.lf θ) (W.state k))

/-- The error bounds and Lipschitz constants a user may supply: nonnegative, infinite or NaN. -/
structure Bounds (W : FltLyap.FWorld K Prog Θ d n) : Prop where
  error : ∀ p θ x mean error, W.closedLoop p θ x = .uncertain mean error → ∀ i, NonnegOrNaN (error i)
  lv : ∀ θ x i, NonnegOrNaN (FltLyap.lipEntry (W.lv θ) x i)
  lf : ∀ θ x, NonnegOrNaN (FltLyap.lipDyn (W.lf θ) x)
  tauDiv : ∀ t N, NonnegOrNaN t → NonnegOrNaN (W.tauDiv t N)

/-- Contract of `np.argsort` with NaN: every index once, ascending values, NaN at the end. -/
structure NaNLastSort (W : FltLyap.FWorld K Prog Θ d n) : Prop where
  nodup : ∀ v, (W.argsort v).Nodup
  complete : ∀ v i, i ∈ W.argsort v
  sorted : ∀ v, (W.argsort v).Pairwise fun i j =>
    Flt.lt (v j) (v i) = false ∧ (v i = .nan → v j = .nan)

end Spec
