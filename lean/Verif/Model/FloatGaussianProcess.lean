import Verif.Model.GaussianProcess
import Mathlib.Data.Int.Log
import Mathlib.Data.Fin.Tuple.Basic
set_option autoImplicit false

/-!
# `GPRCached` and `GaussianProcess` in floating point arithmetic (safe_learning/functions.py:395-458, 507-546)

The same functions as in `Verif.Model.GaussianProcess`, with a rounding function `fl` after every arithmetic operation. The kernel and the
mean function are those of the given `GPModel`, which may be inaccurate themselves. Sums are computed from left to right, and the Cholesky
factorisation row by row, without fused operations; the order of the operations inside TensorFlow's kernels is not modelled. Overflow and infinities are not modelled.
The only source of NaN here is the square root of a negative number.
-/

namespace SafeLearning

open Matrix

variable {o : ℕ}

/-- Rounding of real numbers to the nearest binary floating point number with `p` significant bits, ties to even, with unbounded exponents;
`p = 53` is `np.float64` (safe_learning/configuration.py:16, 21-24). -/
noncomputable def roundBinaryReal (p : ℕ) (x : ℝ) : ℝ :=
  if x = 0 then 0 else
    let e : ℤ := Int.log 2 |x| + 1 - p
    (rint (x / (2 : ℝ) ^ e) : ℝ) * (2 : ℝ) ^ e

/-! ## Linear algebra of TensorFlow -/

/-- `b - x₁ y₁ - x₂ y₂ - …` from left to right, the inner loop of substitutions and factorisations
(safe_learning/functions.py:408-409, 441). -/
def flSubProducts (fl : ℝ → ℝ) (b : ℝ) (xy : List (ℝ × ℝ)) : ℝ :=
  xy.foldl (fun s p => fl (s - fl (p.1 * p.2))) b

/-- `x₁ y₁ + x₂ y₂ + …` from left to right (`tf.matmul` and `tf.reduce_sum(tf.square(a), 0)`,
safe_learning/functions.py:442, 451). -/
def flSumProducts (fl : ℝ → ℝ) (xy : List (ℝ × ℝ)) : ℝ :=
  xy.foldl (fun s p => fl (s + fl (p.1 * p.2))) 0

/-- Forward substitution, `tf.matrix_triangular_solve` for one right-hand side (safe_learning/functions.py:409, 441). -/
noncomputable def flForwardSubst (fl : ℝ → ℝ) : {n : ℕ} → Matrix (Fin n) (Fin n) ℝ → (Fin n → ℝ) → Fin n → ℝ
  | 0, _, _ => Fin.elim0
  | n + 1, L, b =>
    let x : Fin n → ℝ :=
      flForwardSubst fl (fun i j => L i.castSucc j.castSucc) fun i => b i.castSucc
    Fin.snoc (α := fun _ => ℝ) x
      (fl (flSubProducts fl (b (Fin.last n)) (List.ofFn fun j => (L (Fin.last n) j.castSucc, x j)) /
        L (Fin.last n) (Fin.last n)))

/-- `tf.matrix_triangular_solve(L, B)` (safe_learning/functions.py:409, 441). -/
noncomputable def flTriangularSolve (fl : ℝ → ℝ) {n m : ℕ} (L : Matrix (Fin n) (Fin n) ℝ)
    (B : Matrix (Fin n) (Fin m) ℝ) : Matrix (Fin n) (Fin m) ℝ :=
  fun i j => flForwardSubst fl L (fun k => B k j) i

/-- The lower triangular matrix with the leading block `L`, the last row `l` and the last diagonal entry `d`
(one step of `tf.cholesky`, safe_learning/functions.py:408). -/
def borderLower {n : ℕ} (L : Matrix (Fin n) (Fin n) ℝ) (l : Fin n → ℝ) (d : ℝ) :
    Matrix (Fin (n + 1)) (Fin (n + 1)) ℝ :=
  fun i => Fin.snoc (α := fun _ => Fin (n + 1) → ℝ) (fun i => Fin.snoc (α := fun _ => ℝ) (L i) 0)
    (Fin.snoc (α := fun _ => ℝ) l d) i

/-- `tf.cholesky` row by row (safe_learning/functions.py:408): an error (here `ValueError`) if a pivot is not positive. Only the lower triangle of `A` is
used. -/
noncomputable def flCholesky (fl : ℝ → ℝ) : {n : ℕ} → Matrix (Fin n) (Fin n) ℝ →
    Except PyErr (Matrix (Fin n) (Fin n) ℝ)
  | 0, A => .ok A
  | n + 1, A => do
    let L ← flCholesky fl fun i j => A i.castSucc j.castSucc
    let l := flForwardSubst fl L fun j => A (Fin.last n) j.castSucc
    let s := flSubProducts fl (A (Fin.last n) (Fin.last n)) (List.ofFn fun j => (l j, l j))
    if 0 < s then return borderLower L l (fl (Real.sqrt s))
    else .error .valueError

/-! ## GPRCached -/

namespace GPModel

variable (gp : GPModel o) (fl : ℝ → ℝ)

/-- `self._scale ** 2` (safe_learning/functions.py:402, 438, 445, 450, 456). -/
def flScaleSq : ℝ := fl (gp.scale * gp.scale)

/-- The scaled kernel matrix with the noise on the diagonal (safe_learning/functions.py:399-402). -/
def flScaledKernel (X : List (List ℝ)) : Matrix (Fin X.length) (Fin X.length) ℝ := fun i j =>
  fl (fl (gp.kern (X.getD i []) (X.getD j []) + fl ((if i = j then 1 else 0) * gp.noise)) * gp.flScaleSq fl)

/-- The scaled target (safe_learning/functions.py:405). -/
def flTarget (X Y : List (List ℝ)) : Matrix (Fin X.length) (Fin o) ℝ := fun i l =>
  fl (gp.scale * fl (entryOf Y (if Y.length = 1 then 0 else i) l - gp.mean (X.getD i []) l))

/-- `Kx` (safe_learning/functions.py:438). -/
def flCross (n : ℕ) (X Xnew : List (List ℝ)) : Matrix (Fin n) (Fin Xnew.length) ℝ := fun i j =>
  fl (gp.flScaleSq fl * gp.kern (X.getD i []) (Xnew.getD j []))

/-- `_compute_cache` (safe_learning/functions.py:395-411). -/
noncomputable def flComputeCache (X Y : List (List ℝ)) : Except PyErr (GPCache o) := do
  if Y.length = X.length ∨ Y.length = 1 then
    let L ← flCholesky fl (gp.flScaledKernel fl X)
    return { n := X.length, chol := L, alpha := flTriangularSolve fl L (gp.flTarget fl X Y) }
  else .error .valueError

/-- `a` of `build_predict` (safe_learning/functions.py:438, 441). -/
noncomputable def flSolved (D : GPData o) (Xnew : List (List ℝ)) : Matrix (Fin D.cache.n) (Fin Xnew.length) ℝ :=
  flTriangularSolve fl D.cache.chol (gp.flCross fl D.cache.n D.X Xnew)

/-- `build_predict(Xnew, full_cov=False)` (safe_learning/functions.py:417-458). -/
noncomputable def flBuildPredict (D : GPData o) (Xnew : List (List ℝ)) :
    Except PyErr (GPPrediction Xnew.length o) :=
  if D.X.length = D.cache.n then
    let a := gp.flSolved fl D Xnew
    let fmean : Matrix (Fin Xnew.length) (Fin o) ℝ := fun i l =>
      fl (flSumProducts fl (List.ofFn fun k => (a k i, D.cache.alpha k l)) +
        fl (gp.scale * gp.mean (Xnew.getD i []) l))
    let knew : Fin Xnew.length → ℝ := fun i =>
      fl (gp.flScaleSq fl * gp.kern (Xnew.getD i []) (Xnew.getD i []))
    let fvar : Fin Xnew.length → ℝ := fun i =>
      fl (knew i - flSumProducts fl (List.ofFn fun k => (a k i, a k i)))
    .ok { mean := fun i l => fl (fmean i l / gp.scale)
          var := fun i _ => fl (fvar i / gp.flScaleSq fl) }
  else .error .valueError

/-! ## GaussianProcess -/

/-- `GPRCached(x, y, ...)` wrapped in `GaussianProcess` (safe_learning/functions.py:374-394, 480-495). -/
noncomputable def flInit (X Y : List (List ℝ)) : Except PyErr (GPState o) := do
  let cache ← gp.flComputeCache fl X Y
  return { data := { X := X, Y := Y, cache := cache }, feed := { X := X, Y := Y, cache := cache } }

open Classical in
/-- `tf.sqrt`: `none` stands for NaN, the square root of a negative number (safe_learning/functions.py:514). -/
noncomputable def flSqrt (x : ℝ) : Option ℝ := if x < 0 then none else some (fl (Real.sqrt x))

/-- `build_evaluation` evaluated with the feed dictionary: the mean and `beta` times the standard deviation, where `none` stands for NaN
(safe_learning/functions.py:507-515). -/
noncomputable def flEvaluate (beta : ℝ) (s : GPState o) (points : List (List ℝ)) :
    Except PyErr (Matrix (Fin points.length) (Fin o) ℝ × Matrix (Fin points.length) (Fin o) (Option ℝ)) := do
  let p ← gp.flBuildPredict fl s.feed points
  return (p.mean, fun i l => (flSqrt fl (p.var i l)).map fun r => fl (beta * r))

/-- `add_data_point(x, y)`: the state afterwards, also when an exception is raised on the way
(safe_learning/functions.py:525-546). -/
noncomputable def flAddDataPoint (s : GPState o) (x y : Arr ℝ) : GPState o × Except PyErr Unit :=
  match vstack gp.xdim s.data.X x.rows with
  | .error e => (s, .error e)
  | .ok X =>
    let s1 : GPState o := { s with data := { s.data with X := X } }
    match vstack o s.data.Y y.rows with
    | .error e => (s1, .error e)
    | .ok Y =>
      let s2 : GPState o := { s with data := { s.data with X := X, Y := Y } }
      match gp.flComputeCache fl X Y with
      | .error e => (s2, .error e)
      | .ok cache =>
        let data : GPData o := { X := X, Y := Y, cache := cache }
        ({ data := data, feed := data }, .ok ())

end GPModel

end SafeLearning
