import Mathlib.Probability.Distributions.Gaussian.IsGaussianProcess.Def
import Mathlib.Probability.Moments.Covariance
import Mathlib.Probability.Moments.Variance
set_option autoImplicit false

/-!
# Specification of a true function that is drawn at random

The Gaussian process prior of the library: each component of the unknown dynamics is a random function with the mean function and the kernel of a process,
and every measurement adds an error with the variance of the likelihood.
-/

namespace Spec

open MeasureTheory ProbabilityTheory

variable {Ω : Type} [MeasurableSpace Ω] {d : ℕ}

/-- What is random about the system, as one family of random variables: for each component `i`, the deviation of the true function from the mean
function at every point `x`, and the error of the measurement number `t`. -/
def deviation (mean : Fin d → List ℝ → ℝ) (F : Ω → List ℝ → Fin d → ℝ) (ε : Ω → ℕ → Fin d → ℝ) : Fin d × (List ℝ ⊕ ℕ) → Ω → ℝ
  | (i, .inl x) => fun ω => F ω x i - mean i x
  | (i, .inr t) => fun ω => ε ω t i

/-- The first two moments of the prior: each component of `F` has the mean function and the kernel as its covariance, the measurement errors have mean zero and the
variance `noise`, and function values of different components, different errors, and errors and function values, are uncorrelated. Nothing else is assumed of the
distributions. -/
structure PriorMoments (μ : Measure Ω) (kern : Fin d → List ℝ → List ℝ → ℝ) (mean : Fin d → List ℝ → ℝ) (noise : Fin d → ℝ)
    (F : Ω → List ℝ → Fin d → ℝ) (ε : Ω → ℕ → Fin d → ℝ) : Prop where
  square_integrable : ∀ a, MemLp (deviation mean F ε a) 2 μ
  mean_value : ∀ x i, ∫ ω, F ω x i ∂μ = mean i x
  mean_error : ∀ t i, ∫ ω, ε ω t i ∂μ = 0
  values : ∀ x y i, cov[fun ω => F ω x i, fun ω => F ω y i; μ] = kern i x y
  components : ∀ x y i j, i ≠ j → cov[fun ω => F ω x i, fun ω => F ω y j; μ] = 0
  errors : ∀ t i, Var[fun ω => ε ω t i; μ] = noise i
  different_errors : ∀ t u i j, (t, i) ≠ (u, j) → cov[fun ω => ε ω t i, fun ω => ε ω u j; μ] = 0
  values_errors : ∀ x t i j, cov[fun ω => F ω x i, fun ω => ε ω t j; μ] = 0

/-- The prior of the library: in addition all function values and errors are jointly Gaussian. -/
structure GaussianPrior (μ : Measure Ω) (kern : Fin d → List ℝ → List ℝ → ℝ) (mean : Fin d → List ℝ → ℝ) (noise : Fin d → ℝ)
    (F : Ω → List ℝ → Fin d → ℝ) (ε : Ω → ℕ → Fin d → ℝ) : Prop extends PriorMoments μ kern mean noise F ε where
  gaussian : IsGaussianProcess (deviation mean F ε) μ

/-- The measurements at the inputs `X`: measurement number `t` is the value at the input number `t` plus the error number `t`. -/
def measurements (F : List ℝ → Fin d → ℝ) (ε : ℕ → Fin d → ℝ) (X : List (List ℝ)) : List (Fin d → ℝ) :=
  List.ofFn fun k : Fin X.length => fun i => F (X.get k) i + ε k i

/-- The first `N` inputs if each input is chosen with `choose` from the measurements that have been made. -/
def adaptive (choose : List (Fin d → ℝ) → List ℝ) (F : List ℝ → Fin d → ℝ) (ε : ℕ → Fin d → ℝ) : ℕ → List (List ℝ)
  | 0 => []
  | N + 1 => adaptive choose F ε N ++ [choose (measurements F ε (adaptive choose F ε N))]

/-- Start with the inputs `X`, and choose all others with `choose`. -/
def startWith (X : List (List ℝ)) (choose : List (Fin d → ℝ) → List ℝ) (Y : List (Fin d → ℝ)) : List ℝ :=
  if h : Y.length < X.length then X[Y.length] else choose Y

/-- A choice from measurements that can be observed: there are countably many candidates, and the set of all measurements for which a candidate is chosen is measurable. -/
structure MeasurableChoice (choose : List (Fin d → ℝ) → List ℝ) : Prop where
  countable : (Set.range choose).Countable
  measurable : ∀ (n : ℕ) (x : List ℝ), MeasurableSet {y : Fin n → Fin d → ℝ | choose (List.ofFn y) = x}

end Spec
