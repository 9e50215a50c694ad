import Verif.Model.Certificate
import Verif.Spec.Certificate
import Verif.Props.Features
import Mathlib.Analysis.Calculus.Deriv.Pow
import Mathlib.Analysis.Calculus.Deriv.Mul
import Mathlib.Analysis.Calculus.Deriv.Add
import Mathlib.Analysis.SpecificLimits.Basic
set_option autoImplicit false

/-!
# C96-C99: the sum-of-squares candidate and the training loop of the notebook
-/

namespace SafeLearning

open Spec

/-! ## C96: the polynomial and its derivative -/

theorem monomials_three (x : Fin 2 → ℝ) : monomials [x] 3 = .ok [List.ofFn (cubicMonomial (x 0) (x 1))] := by
  simp [monomials, monomialsRow, cubicMonomial, List.ofFn_succ]

/-- The rows of `derivative_monomials`. -/
def cubicDerivative (x y : ℝ) : Fin 9 → Fin 2 → ℝ :=
  ![![1, 0], ![0, 1], ![2 * x, 0], ![y, x], ![0, 2 * y], ![3 * x ^ 2, 0], ![2 * x * y, x ^ 2],
    ![y ^ 2, 2 * x * y], ![0, 3 * y ^ 2]]

theorem derivativeMonomials_three (x : Fin 2 → ℝ) :
    derivativeMonomials [x] 3 = .ok [List.ofFn (cubicDerivative (x 0) (x 1))] := by
  simp only [derivativeMonomials, derivativeMonomialsRow, le_refl, dif_pos]
  congr 2
  simp only [show (2 : ℤ) ≤ 3 by norm_num, if_true, cubicDerivative, List.ofFn_succ, List.ofFn_zero,
    List.map_cons, List.map_nil, List.cons_append, List.nil_append]
  congr <;> funext k <;> fin_cases k <;> simp

theorem ofFn_getD (M : Fin 9 → ℝ) (i : Fin 9) : (List.ofFn M).getD i 0 = M i := by
  rw [List.getD_eq_getElem?_getD, List.getElem?_eq_getElem (by simp), Option.getD_some, List.getElem_ofFn]

theorem sosLinearForm_ofFn (M : Fin 9 → ℝ) (Q : Fin 9 → Fin 9 → ℝ) (j : Fin 9) :
    sosLinearForm (List.ofFn M) Q j = ∑ i, M i * Q i j := by
  unfold sosLinearForm
  refine Finset.sum_congr rfl fun i _ => ?_
  rw [ofFn_getD]

/-- **C96 (values).** `lyapunov_sos` without normalisation is the polynomial `m(x)ᵀ Q m(x)`; with any normalisation argument it is the
polynomial at the state multiplied with the global `state_norm`. -/
theorem C96_value (stateNorm x : Fin 2 → ℝ) (Q : Fin 9 → Fin 9 → ℝ) :
    lyapunovSos stateNorm x Q = .ok (cubicForm Q x) ∧
      ∀ norm, lyapunovSos stateNorm x Q (some norm) = .ok (cubicForm Q fun i => x i * stateNorm i) := by
  have key : ∀ y : Fin 2 → ℝ, ∑ j : Fin 9, sosLinearForm (List.ofFn (cubicMonomial (y 0) (y 1))) Q j *
      (List.ofFn (cubicMonomial (y 0) (y 1))).getD j 0 = cubicForm Q y := by
    intro y
    unfold cubicForm
    rw [Finset.sum_comm]
    refine Finset.sum_congr rfl fun j _ => ?_
    rw [sosLinearForm_ofFn, Finset.sum_mul]
    refine Finset.sum_congr rfl fun i _ => ?_
    rw [ofFn_getD]
  constructor
  · simp only [lyapunovSos, sosDenormalize, monomials_three, bind, Except.bind, pure, Except.pure, key]
  · intro norm
    simp only [lyapunovSos, sosDenormalize]
    rw [monomials_three]
    simp only [bind, Except.bind, pure, Except.pure]
    rw [← key]

theorem sosDerivative_eq (stateNorm x : Fin 2 → ℝ) (Q : Fin 9 → Fin 9 → ℝ) (norm : Option (Fin 2 → ℝ)) :
    lyapunovSosDerivative stateNorm x Q norm = .ok fun k =>
      let y := sosDenormalize stateNorm x norm
      ∑ j, (∑ i, cubicMonomial (y 0) (y 1) i * Q i j) * cubicDerivative (y 0) (y 1) j k := by
  simp only [lyapunovSosDerivative]
  rw [monomials_three, derivativeMonomials_three]
  simp only [bind, Except.bind, pure, Except.pure]
  congr 1

/-- The monomials along a curve. -/
theorem cubicMonomial_deriv {u v : ℝ → ℝ} {u' v' t : ℝ} (hu : HasDerivAt u u' t) (hv : HasDerivAt v v' t) (j : Fin 9) :
    HasDerivAt (fun s => cubicMonomial (u s) (v s) j)
      (cubicDerivative (u t) (v t) j 0 * u' + cubicDerivative (u t) (v t) j 1 * v') t := by
  fin_cases j
  · simpa [cubicMonomial, cubicDerivative] using hu
  · simpa [cubicMonomial, cubicDerivative] using hv
  · refine (hu.pow 2).congr_deriv ?_
    simp [cubicDerivative]
  · refine (hu.mul hv).congr_deriv ?_
    simp [cubicDerivative]
    ring
  · refine (hv.pow 2).congr_deriv ?_
    simp [cubicDerivative]
  · refine (hu.pow 3).congr_deriv ?_
    simp [cubicDerivative]
  · refine ((hu.pow 2).mul hv).congr_deriv ?_
    simp [cubicDerivative]
    ring
  · refine (hu.mul (hv.pow 2)).congr_deriv ?_
    simp [cubicDerivative]
    ring
  · refine (hv.pow 3).congr_deriv ?_
    simp [cubicDerivative]

/-- The polynomial along a curve. -/
theorem cubicForm_deriv {Q : Fin 9 → Fin 9 → ℝ} (hQ : ∀ i j, Q i j = Q j i) {x : ℝ → Fin 2 → ℝ} {x' : Fin 2 → ℝ} {t : ℝ}
    (hx : ∀ k, HasDerivAt (fun s => x s k) (x' k) t) :
    HasDerivAt (fun s => cubicForm Q (x s))
      (2 * ∑ k, (∑ j, (∑ i, cubicMonomial (x t 0) (x t 1) i * Q i j) * cubicDerivative (x t 0) (x t 1) j k) * x' k) t := by
  have hm := cubicMonomial_deriv (hx 0) (hx 1)
  have h : HasDerivAt (fun s => cubicForm Q (x s)) (∑ i, ∑ j,
      ((cubicDerivative (x t 0) (x t 1) i 0 * x' 0 + cubicDerivative (x t 0) (x t 1) i 1 * x' 1) * Q i j *
        cubicMonomial (x t 0) (x t 1) j + cubicMonomial (x t 0) (x t 1) i * Q i j *
        (cubicDerivative (x t 0) (x t 1) j 0 * x' 0 + cubicDerivative (x t 0) (x t 1) j 1 * x' 1))) t := by
    unfold cubicForm
    refine HasDerivAt.fun_sum fun i _ => HasDerivAt.fun_sum fun j _ => ?_
    exact ((hm i).mul_const (Q i j)).mul (hm j)
  refine h.congr_deriv ?_
  set D := fun i => cubicDerivative (x t 0) (x t 1) i 0 * x' 0 + cubicDerivative (x t 0) (x t 1) i 1 * x' 1 with hD
  set m := cubicMonomial (x t 0) (x t 1)
  have e1 : ∑ i, ∑ j, (D i * Q i j * m j + m i * Q i j * D j) = 2 * ∑ j, (∑ i, m i * Q i j) * D j := by
    simp only [Finset.sum_add_distrib]
    have a1 : ∑ i, ∑ j, m i * Q i j * D j = ∑ j, (∑ i, m i * Q i j) * D j := by
      rw [Finset.sum_comm]
      simp only [Finset.sum_mul]
    have a2 : ∑ i, ∑ j, D i * Q i j * m j = ∑ j, (∑ i, m i * Q i j) * D j := by
      refine Finset.sum_congr rfl fun i _ => ?_
      rw [Finset.sum_mul]
      refine Finset.sum_congr rfl fun j _ => ?_
      rw [hQ i j]
      ring
    rw [a1, a2]
    ring
  refine e1.trans ?_
  rw [Fin.sum_univ_two, Finset.sum_mul, Finset.sum_mul, ← Finset.sum_add_distrib]
  congr 1
  refine Finset.sum_congr rfl fun j _ => ?_
  rw [hD]
  ring

/-- What the name `lyapunov_sos_derivative` says: with the same arguments, it returns the derivatives of `lyapunov_sos` with respect to
the state. -/
def _root_.Spec.IsSosDerivative (stateNorm : Fin 2 → ℝ) (Q : Fin 9 → Fin 9 → ℝ) (norm : Option (Fin 2 → ℝ)) : Prop :=
  ∀ x g, lyapunovSosDerivative stateNorm x Q norm = .ok g →
    Spec.IsPartialDerivs (fun x' => match lyapunovSos stateNorm x' Q norm with | .ok v => v | .error _ => 0) g x

/-- **C96 (derivative).** For a symmetric matrix `lyapunov_sos_derivative` returns one half of the derivatives, with respect to the
denormalised state: the derivative along every curve `x` is `2 * ∑ dV k * x' k`. Missing: the factor (`C96_refuted`). -/
theorem C96_derivative_partial {Q : Fin 9 → Fin 9 → ℝ} (hQ : ∀ i j, Q i j = Q j i) (stateNorm x : Fin 2 → ℝ) :
    (∃ g, lyapunovSosDerivative stateNorm x Q = .ok g ∧
      Spec.IsPartialDerivs (cubicForm Q) (fun k => 2 * g k) x) ∧
    ∀ norm, ∃ g, lyapunovSosDerivative stateNorm x Q (some norm) = .ok g ∧
      Spec.IsPartialDerivs (fun x' => cubicForm Q fun i => x' i * stateNorm i)
        (fun k => 2 * g k * stateNorm k) x := by
  have hup : ∀ (k l : Fin 2), HasDerivAt (fun s => Function.update x k s l) (if l = k then 1 else 0) (x k) := by
    intro k l
    by_cases h : l = k
    · subst h
      simpa using hasDerivAt_id' (x l)
    · simpa [Function.update_of_ne h, h] using hasDerivAt_const (x k) (x l)
  constructor
  · refine ⟨_, sosDerivative_eq _ _ _ _, fun k => ?_⟩
    have := cubicForm_deriv hQ (hup k)
    refine this.congr_deriv ?_
    simp only [Function.update_eq_self, mul_ite, mul_one, mul_zero, Finset.sum_ite_eq', Finset.mem_univ, if_true,
      sosDenormalize]
  · refine fun norm => ⟨_, sosDerivative_eq _ _ _ _, fun k => ?_⟩
    have := cubicForm_deriv hQ (x := fun s i => Function.update x k s i * stateNorm i)
      (x' := fun l => (if l = k then 1 else 0) * stateNorm l) (fun l => (hup k l).mul_const _)
    refine this.congr_deriv ?_
    simp only [Function.update_eq_self, ite_mul, one_mul, zero_mul, mul_ite, mul_zero, Finset.sum_ite_eq',
      Finset.mem_univ, if_true, sosDenormalize]
    ring

/-- **C96 refuted.** The returned vector is not the derivative, already for the square of the first coordinate. -/
theorem C96_refuted : ∃ Q : Fin 9 → Fin 9 → ℝ, (∀ i j, Q i j = Q j i) ∧
    ∀ stateNorm, ¬ Spec.IsSosDerivative stateNorm Q none := by
  let Q : Fin 9 → Fin 9 → ℝ := fun i j => if i = 0 ∧ j = 0 then 1 else 0
  have hQ : ∀ i j, Q i j = Q j i := fun i j => by simp only [Q, and_comm]
  refine ⟨Q, hQ, fun stateNorm h => ?_⟩
  obtain ⟨⟨g, hg, hd⟩, -⟩ := C96_derivative_partial hQ stateNorm ![1, 0]
  have h1 := h ![1, 0] g hg 0
  simp only [(C96_value stateNorm _ Q).1] at h1
  have h2 := h1.unique (hd 0)
  rw [sosDerivative_eq] at hg
  have hg := congrFun (Except.ok.inj hg) 0
  have : g 0 = 1 := by
    rw [← hg]
    simp [sosDenormalize, Q, Fin.sum_univ_succ, cubicMonomial, cubicDerivative]
  rw [this] at h2
  norm_num at h2
  linarith

/-- What the parameter `norm` says: the state is multiplied with it. -/
def _root_.Spec.UsesNorm (stateNorm : Fin 2 → ℝ) (Q : Fin 9 → Fin 9 → ℝ) (norm : Fin 2 → ℝ) : Prop :=
  ∀ x : Fin 2 → ℝ, lyapunovSos stateNorm x Q (some norm) = lyapunovSos stateNorm (fun i => x i * norm i) Q none

/-- **C96 (normalisation).** The argument `norm` is used if it is the global `state_norm`. Missing: other arguments
(`C96_norm_refuted`). -/
theorem C96_norm_partial (stateNorm : Fin 2 → ℝ) (Q : Fin 9 → Fin 9 → ℝ) : Spec.UsesNorm stateNorm Q stateNorm := by
  intro x
  rw [(C96_value stateNorm x Q).2, (C96_value stateNorm _ Q).1]

/-- **C96 refuted (normalisation).** The values of the argument `norm` are ignored. -/
theorem C96_norm_refuted : ∃ Q : Fin 9 → Fin 9 → ℝ, ¬ Spec.UsesNorm ![1, 1] Q ![2, 2] := by
  refine ⟨fun i j => if i = 0 ∧ j = 0 then 1 else 0, fun h => ?_⟩
  have h1 := h ![1, 0]
  rw [(C96_value _ _ _).2, (C96_value _ _ _).1] at h1
  have h2 := Except.ok.inj h1
  simp [cubicForm, cubicMonomial, Fin.sum_univ_succ] at h2
  norm_num at h2

/-- **C96 (positive definite).** For a positive definite matrix the polynomial is zero at the origin and positive at all other
states, if no entry of `state_norm` is zero. -/
theorem C96_positive {Q : Fin 9 → Fin 9 → ℝ} (hQ : ∀ m : Fin 9 → ℝ, m ≠ 0 → 0 < ∑ i, ∑ j, m i * Q i j * m j)
    (stateNorm : Fin 2 → ℝ) (hn : ∀ i, stateNorm i ≠ 0) (norm : Option (Fin 2 → ℝ)) (x : Fin 2 → ℝ) :
    ∃ v, lyapunovSos stateNorm x Q norm = .ok v ∧ 0 ≤ v ∧ (v = 0 ↔ x = 0) := by
  have key : ∀ y : Fin 2 → ℝ, 0 ≤ cubicForm Q y ∧ (cubicForm Q y = 0 ↔ y = 0) := by
    intro y
    by_cases hy : y = 0
    · subst hy
      have : cubicMonomial ((0 : Fin 2 → ℝ) 0) ((0 : Fin 2 → ℝ) 1) = 0 := by
        funext i
        fin_cases i <;> simp [cubicMonomial]
      rw [cubicForm, this]
      simp
    · have hm : cubicMonomial (y 0) (y 1) ≠ 0 := by
        intro h
        apply hy
        funext k
        fin_cases k
        · simpa [cubicMonomial] using congrFun h 0
        · simpa [cubicMonomial] using congrFun h 1
      have := hQ _ hm
      exact ⟨this.le, ⟨fun h => absurd h this.ne', fun h => absurd h hy⟩⟩
  cases norm with
  | none => exact ⟨_, (C96_value _ _ _).1, (key x).1, (key x).2⟩
  | some n =>
    refine ⟨_, (C96_value _ _ _).2 n, (key _).1, (key _).2.trans ⟨fun h => ?_, fun h => ?_⟩⟩
    · funext k
      have := congrFun h k
      simpa [hn k] using this
    · subst h
      funext k
      simp

/-- The matrix of the witnesses below is positive definite. -/
theorem identity_definite : ∀ m : Fin 9 → ℝ, m ≠ 0 →
    0 < ∑ i, ∑ j, m i * (if i = j then (1 : ℝ) else 0) * m j := by
  intro m hm
  have : ∀ i, ∑ j, m i * (if i = j then (1 : ℝ) else 0) * m j = m i * m i := by
    intro i
    simp [mul_ite, ite_mul]
  simp only [this]
  obtain ⟨i, hi⟩ := Function.ne_iff.mp hm
  exact Finset.sum_pos' (fun j _ => mul_self_nonneg _) ⟨i, Finset.mem_univ _, mul_self_pos.mpr hi⟩

example : ∃ v : ℝ, lyapunovSos ![2, 1] ![1, 3] (fun i j => if i = j then 1 else 0) (some ![5, 5]) = .ok v ∧ 0 ≤ v ∧
    (v = 0 ↔ (![1, 3] : Fin 2 → ℝ) = 0) :=
  C96_positive identity_definite ![2, 1] (fun i => by fin_cases i <;> simp) _ _

/-! ## C97: the certified level -/

section Level

variable {K : Type} [Field K] [LinearOrder K] [IsStrictOrderedRing K]

theorem level_index (rest : List Bool) :
    (if rest.all id then rest.length + 1 else rest.idxOf false + 1) - 1 = (rest.takeWhile id).length := by
  induction rest with
  | nil => rfl
  | cons b bs ih =>
    cases b with
    | false => simp [List.idxOf_cons]
    | true =>
      have e1 : (true :: bs).all id = bs.all id := by simp
      have e2 : (true :: bs).idxOf false = bs.idxOf false + 1 := by simp [List.idxOf_cons]
      have e3 : (true :: bs).takeWhile id = true :: bs.takeWhile id := by simp
      rw [e1, e2, e3, List.length_cons, List.length_cons, ← ih]
      split <;> omega

/-- The level belongs to the last state of the longest certified part of the order. -/
theorem sosLevel_split {n : ℕ} (values dvdt : Fin n → K) (o : Fin n) (rest : List (Fin n)) :
    ∃ pre suf, rest = pre ++ suf ∧ (∀ i ∈ pre, dvdt i < 0) ∧ (∀ b ∈ suf.head?, 0 ≤ dvdt b) ∧
      sosLevel values dvdt (o :: rest) = .ok (values ((o :: pre).getLast (by simp))) := by
  set p : Fin n → Bool := fun i => decide (dvdt i < 0) with hp
  refine ⟨rest.takeWhile p, rest.dropWhile p, List.takeWhile_append_dropWhile.symm, ?_, ?_, ?_⟩
  · intro i hi
    have := List.all_eq_true.mp (List.all_takeWhile (p := p) (l := rest)) i hi
    simpa [hp] using this
  · intro b hb
    have := List.head?_dropWhile_not p rest
    rw [Option.mem_def.mp hb] at this
    simpa [hp] using this
  · unfold sosLevel
    simp only [List.map_cons, List.tail_cons, List.map_map]
    have hmap : List.map ((fun v => decide (v < 0)) ∘ dvdt) rest = rest.map p := rfl
    rw [hmap, level_index, List.takeWhile_map, List.length_map]
    have hid : (id ∘ p) = p := rfl
    rw [hid]
    have hget : (o :: rest)[(rest.takeWhile p).length]? =
        some ((o :: rest.takeWhile p).getLast (by simp)) := by
      conv_lhs => rw [← List.takeWhile_append_dropWhile (p := p) (l := rest), ← List.cons_append]
      rw [List.getElem?_append_left (by simp), List.getLast_eq_getElem, List.getElem?_eq_getElem (by simp)]
      simp
    rw [hget]

/-- **C97 (errors).** The level exists exactly for a non-empty grid. -/
theorem C97_error {n : ℕ} (values dvdt : Fin n → K) {order : List (Fin n)} (hperm : order.Perm (List.finRange n)) :
    (∃ c, sosLevel values dvdt order = .ok c) ↔ 0 < n := by
  cases order with
  | nil =>
    have : n = 0 := by simpa using hperm.length_eq.symm
    subst this
    simp [sosLevel]
  | cons o rest =>
    obtain ⟨_, _, _, _, _, h⟩ := sosLevel_split values dvdt o rest
    exact ⟨fun _ => o.pos, fun _ => ⟨_, h⟩⟩

/-- **C97 (level).** If the grid contains a state with value zero and no value is negative, `dvdt` is negative at all grid states with a
positive value below the level, and the level is the value of a grid state. Missing: states whose value equals the level
(`C97_tie_refuted`) and grids without the origin (`C97_origin_refuted`). -/
theorem C97_level_partial {n : ℕ} (values dvdt : Fin n → K) {order : List (Fin n)} (hperm : order.Perm (List.finRange n))
    (hsort : order.Pairwise fun i j => values i ≤ values j) (hnn : ∀ i, 0 ≤ values i) (hzero : ∃ i, values i = 0)
    {c : K} (hc : sosLevel values dvdt order = .ok c) :
    (∀ i, 0 < values i → values i < c → dvdt i < 0) ∧ (∃ i, values i = c ∧ (0 < c → dvdt i < 0)) := by
  cases order with
  | nil => simp [sosLevel] at hc
  | cons o rest =>
    obtain ⟨pre, suf, hrest, hpre, -, h⟩ := sosLevel_split values dvdt o rest
    rw [h] at hc
    obtain rfl := Except.ok.inj hc
    have ho : values o = 0 := by
      obtain ⟨z, hz⟩ := hzero
      have hmem : z ∈ o :: rest := hperm.mem_iff.mpr (List.mem_finRange z)
      rcases List.mem_cons.mp hmem with rfl | hm
      · exact hz
      · exact le_antisymm (hz ▸ (List.pairwise_cons.mp hsort).1 z hm) (hnn o)
    have hlast := List.getLast_mem (l := o :: pre) (by simp)
    refine ⟨fun i hi hlt => ?_, _, rfl, fun hpos => ?_⟩
    · have hmem : i ∈ o :: rest := hperm.mem_iff.mpr (List.mem_finRange i)
      rw [hrest, ← List.cons_append, List.mem_append] at hmem
      rcases hmem with hm | hm
      · rcases List.mem_cons.mp hm with rfl | hm
        · exact absurd ho hi.ne'
        · exact hpre i hm
      · rw [hrest, ← List.cons_append] at hsort
        exact absurd hlt (not_lt.mpr ((List.pairwise_append.mp hsort).2.2 _ hlast _ hm))
    · rcases List.mem_cons.mp hlast with he | hm
      · rw [he, ho] at hpos
        exact absurd hpos (lt_irrefl _)
      · exact hpre _ hm

/-- **C97 (no ties).** With pairwise different values the states at the level are included. -/
theorem C97_no_ties {n : ℕ} (values dvdt : Fin n → K) {order : List (Fin n)} (hperm : order.Perm (List.finRange n))
    (hsort : order.Pairwise fun i j => values i ≤ values j) (hnn : ∀ i, 0 ≤ values i) (hzero : ∃ i, values i = 0)
    (hinj : Function.Injective values) {c : K} (hc : sosLevel values dvdt order = .ok c) :
    ∀ i, 0 < values i → values i ≤ c → dvdt i < 0 := by
  obtain ⟨h1, j, hj, h2⟩ := C97_level_partial values dvdt hperm hsort hnn hzero hc
  intro i hi hle
  rcases hle.lt_or_eq with hlt | heq
  · exact h1 i hi hlt
  · have : i = j := hinj (heq.trans hj.symm)
    subst this
    exact h2 (hj ▸ hi)

/-- **C97 (maximal).** No larger value of a grid state is a level below which `dvdt` is negative. -/
theorem C97_maximal {n : ℕ} (values dvdt : Fin n → K) {order : List (Fin n)} (hperm : order.Perm (List.finRange n))
    (hsort : order.Pairwise fun i j => values i ≤ values j)
    {c : K} (hc : sosLevel values dvdt order = .ok c) (k : Fin n) (hk : c < values k) :
    ∃ i, values i ≤ values k ∧ c ≤ values i ∧ 0 ≤ dvdt i := by
  cases order with
  | nil => simp [sosLevel] at hc
  | cons o rest =>
    obtain ⟨pre, suf, hrest, -, hsuf, h⟩ := sosLevel_split values dvdt o rest
    rw [h] at hc
    obtain rfl := Except.ok.inj hc
    have hlast := List.getLast_mem (l := o :: pre) (by simp)
    have hmem : k ∈ o :: rest := hperm.mem_iff.mpr (List.mem_finRange k)
    rw [hrest, ← List.cons_append] at hmem hsort
    obtain ⟨hs1, hs2, hs3⟩ := List.pairwise_append.mp hsort
    have hk' : k ∈ suf := by
      rcases List.mem_append.mp hmem with hm | hm
      · exfalso
        refine absurd hk (not_lt.mpr ?_)
        have hl : (o :: pre) = (o :: pre).dropLast ++ [(o :: pre).getLast (by simp)] :=
          (List.dropLast_append_getLast (by simp)).symm
        rw [hl] at hm hs1
        rcases List.mem_append.mp hm with h' | h'
        · exact (List.pairwise_append.mp hs1).2.2 _ h' _ (by simp)
        · rw [List.mem_singleton.mp h']
      · exact hm
    cases suf with
    | nil => simp at hk'
    | cons b suf =>
      refine ⟨b, ?_, hs3 _ hlast _ (by simp), hsuf b (by simp)⟩
      rcases List.mem_cons.mp hk' with rfl | hm
      · exact le_refl _
      · exact (List.pairwise_cons.mp hs2).1 _ hm

example : sosLevel (K := ℚ) ![3, 0, 1, 2] ![-1, 0, -1, 5] [1, 2, 3, 0] = .ok 1 := by decide +kernel
example : sosLevel (K := ℚ) ![3, 0, 1, 2] ![-1, 0, -1, -5] [1, 2, 3, 0] = .ok 3 := by decide +kernel

end Level

/-- What the level is used for: the polynomial decreases along every solution of the differential equation at every grid state in the
level set, except where the polynomial is zero. -/
def _root_.Spec.SosCertified {n : ℕ} (Q : Fin 9 → Fin 9 → ℝ) (states : Fin n → Fin 2 → ℝ) (f : (Fin 2 → ℝ) → Fin 2 → ℝ)
    (c : ℝ) : Prop :=
  ∀ i, 0 < cubicForm Q (states i) → cubicForm Q (states i) ≤ c → ∀ x t, Spec.IsSolution f x → x t = states i →
    deriv (fun s => cubicForm Q (x s)) t < 0

/-- The cell of the notebook: the values and `dvdt` of the normalised grid states `points`
(examples/lyapunov_function_learning.ipynb:304-319). -/
theorem sos_cell (Q : Fin 9 → Fin 9 → ℝ) (stateNorm x fx : Fin 2 → ℝ) {v : ℝ} {g : Fin 2 → ℝ}
    (hQ : ∀ i j, Q i j = Q j i)
    (hv : lyapunovSos stateNorm x Q (some stateNorm) = .ok v)
    (hg : lyapunovSosDerivative stateNorm x Q (some stateNorm) = .ok g) :
    v = cubicForm Q (fun i => x i * stateNorm i) ∧
      ∀ (y : ℝ → Fin 2 → ℝ) t, y t = (fun i => x i * stateNorm i) → (∀ k, HasDerivAt (fun s => y s k) (fx k) t) →
        deriv (fun s => cubicForm Q (y s)) t = 2 * sosDvdt g fx := by
  rw [(C96_value _ _ _).2] at hv
  refine ⟨(Except.ok.inj hv).symm, fun y t hy hd => ?_⟩
  rw [(cubicForm_deriv hQ hd).deriv]
  rw [sosDerivative_eq] at hg
  have hg := Except.ok.inj hg
  subst hg
  simp only [sosDvdt, sosDenormalize, hy]

/-- The cell of the notebook (examples/lyapunov_function_learning.ipynb:304-319) with a symmetric positive definite matrix: `values`
and `dvdx` come from `lyapunov_sos` and `lyapunov_sos_derivative` at the normalised states `points`, `f` is the differential equation
in denormalised states, `order` sorts the values and `c` is the level. -/
structure _root_.Spec.SosCell {n : ℕ} (Q : Fin 9 → Fin 9 → ℝ) (stateNorm : Fin 2 → ℝ) (points : Fin n → Fin 2 → ℝ)
    (f : (Fin 2 → ℝ) → Fin 2 → ℝ) (values : Fin n → ℝ) (dvdx : Fin n → Fin 2 → ℝ) (order : List (Fin n)) (c : ℝ) : Prop where
  symmetric : ∀ i j, Q i j = Q j i
  definite : ∀ m : Fin 9 → ℝ, m ≠ 0 → 0 < ∑ i, ∑ j, m i * Q i j * m j
  norm : ∀ i, stateNorm i ≠ 0
  value : ∀ i, lyapunovSos stateNorm (points i) Q (some stateNorm) = .ok (values i)
  derivative : ∀ i, lyapunovSosDerivative stateNorm (points i) Q (some stateNorm) = .ok (dvdx i)
  perm : order.Perm (List.finRange n)
  sorted : order.Pairwise fun i j => values i ≤ values j
  level : sosLevel values (fun i => sosDvdt (dvdx i) (f fun k => points i k * stateNorm k)) order = .ok c

/-- **C97 (end to end).** If the grid contains the origin, the polynomial decreases along every solution at every grid state with a
positive value below the level; with pairwise different values also at the level. Missing: grid states whose value equals the level
(`C97_tie_refuted`), and grids without the origin (`C97_origin_refuted`). -/
theorem C97_certified_partial {n : ℕ} {Q : Fin 9 → Fin 9 → ℝ} {stateNorm : Fin 2 → ℝ} {points : Fin n → Fin 2 → ℝ}
    {f : (Fin 2 → ℝ) → Fin 2 → ℝ} {values : Fin n → ℝ} {dvdx : Fin n → Fin 2 → ℝ} {order : List (Fin n)} {c : ℝ}
    (h : Spec.SosCell Q stateNorm points f values dvdx order c) (horigin : ∃ i, points i = 0) :
    (∀ c' < c, Spec.SosCertified Q (fun i k => points i k * stateNorm k) f c') ∧
      (Function.Injective values → Spec.SosCertified Q (fun i k => points i k * stateNorm k) f c) := by
  obtain ⟨hQ, hpd, hn, hv, hg, hperm, hsort, hc⟩ := h
  have hcell := fun i => sos_cell Q stateNorm (points i) (f fun k => points i k * stateNorm k) hQ (hv i) (hg i)
  have hval : ∀ i, 0 ≤ values i ∧ (values i = 0 ↔ points i = 0) := by
    intro i
    obtain ⟨v, h1, h2, h3⟩ := C96_positive hpd stateNorm hn (some stateNorm) (points i)
    rw [hv i] at h1
    obtain rfl := Except.ok.inj h1
    exact ⟨h2, h3⟩
  have hzero : ∃ i, values i = 0 := horigin.imp fun i hi => (hval i).2.mpr hi
  have h1 := (C97_level_partial values _ hperm hsort (fun i => (hval i).1) hzero hc).1
  have done : ∀ i, sosDvdt (dvdx i) (f fun k => points i k * stateNorm k) < 0 → ∀ x t, Spec.IsSolution f x →
      (x t = fun k => points i k * stateNorm k) → deriv (fun s => cubicForm Q (x s)) t < 0 := by
    intro i hi x t hx hxt
    rw [(hcell i).2 x t hxt (fun k => by have := hx t k; rwa [hxt] at this)]
    linarith
  constructor
  · intro c' hc' i hpos hle
    rw [← (hcell i).1] at hpos hle
    exact done i (h1 i hpos (lt_of_le_of_lt hle hc'))
  · intro hinj i hpos hle
    rw [← (hcell i).1] at hpos hle
    exact done i (C97_no_ties values _ hperm hsort (fun i => (hval i).1) hzero hinj hc i hpos hle)

/-! ### Witnesses: three states on a line, drift to the left -/

theorem line_sos (u : ℝ) :
    lyapunovSos ![1, 1] ![u, 0] (fun i j => if i = j then 1 else 0) (some ![1, 1]) = .ok (u ^ 2 + u ^ 4 + u ^ 6) ∧
    lyapunovSosDerivative ![1, 1] ![u, 0] (fun i j => if i = j then 1 else 0) (some ![1, 1]) =
      .ok ![u + 2 * u ^ 3 + 3 * u ^ 5, 0] := by
  constructor
  · rw [(C96_value _ _ _).2]
    congr 1
    simp [cubicForm, cubicMonomial, Fin.sum_univ_succ]
    ring
  · rw [sosDerivative_eq]
    congr 1
    funext k
    fin_cases k <;> simp [sosDenormalize, cubicMonomial, cubicDerivative, Fin.sum_univ_succ]
    ring

/-- The cell with the states 0, `u` and `v` on the first axis. -/
theorem drift_cell {u v c : ℝ} (drift : ℝ) (hu : u ^ 2 + u ^ 4 + u ^ 6 ≤ v ^ 2 + v ^ 4 + v ^ 6)
    (hc : sosLevel (n := 3) ![0, u ^ 2 + u ^ 4 + u ^ 6, v ^ 2 + v ^ 4 + v ^ 6]
      ![0, (u + 2 * u ^ 3 + 3 * u ^ 5) * drift, (v + 2 * v ^ 3 + 3 * v ^ 5) * drift] [0, 1, 2] = .ok c) :
    Spec.SosCell (n := 3) (fun i j => if i = j then 1 else 0) ![1, 1] ![![0, 0], ![u, 0], ![v, 0]] (fun _ => ![drift, 0])
      ![0, u ^ 2 + u ^ 4 + u ^ 6, v ^ 2 + v ^ 4 + v ^ 6]
      ![![0, 0], ![u + 2 * u ^ 3 + 3 * u ^ 5, 0], ![v + 2 * v ^ 3 + 3 * v ^ 5, 0]] [0, 1, 2] c := by
  refine ⟨fun i j => by simp only [eq_comm], identity_definite, fun i => by fin_cases i <;> simp, fun i => ?_, fun i => ?_,
    by decide, ?_, ?_⟩
  · fin_cases i
    · simpa using (line_sos 0).1
    · exact (line_sos u).1
    · exact (line_sos v).1
  · fin_cases i
    · simpa using (line_sos 0).2
    · exact (line_sos u).2
    · exact (line_sos v).2
  · have h1 : 0 ≤ u ^ 2 + u ^ 4 + u ^ 6 := by positivity
    simp [hu, h1, h1.trans hu]
  · rw [← hc]
    congr 1
    funext i
    fin_cases i <;> simp [sosDvdt]

theorem drift_solution (drift a : ℝ) : Spec.IsSolution (fun _ => ![drift, 0]) (fun t => ![a + drift * t, 0]) := by
  intro t k
  fin_cases k
  · simpa using ((hasDerivAt_id' t).const_mul drift).const_add a
  · simpa using hasDerivAt_const t (0 : ℝ)

/-- The polynomial increases at `(-1, 0)` if the state drifts to the left. -/
theorem drift_increases : ∃ x : ℝ → Fin 2 → ℝ, Spec.IsSolution (fun _ => ![-1, 0]) x ∧ x 0 = ![-1, 0] ∧
    ¬ deriv (fun s => cubicForm (fun i j => if i = j then 1 else 0) (x s)) 0 < 0 := by
  refine ⟨_, drift_solution (-1) (-1), by simp, ?_⟩
  obtain ⟨-, h⟩ := sos_cell (fun i j => if i = j then 1 else 0) ![1, 1] ![-1, 0] ![-1, 0]
    (fun i j => by simp only [eq_comm]) (line_sos (-1)).1 (line_sos (-1)).2
  rw [h _ 0 (by funext k; fin_cases k <;> simp) (fun k => drift_solution (-1) (-1) 0 k)]
  simp [sosDvdt]
  norm_num

theorem line_form : cubicForm (fun i j => if i = j then 1 else 0) ![-1, 0] = 3 := by
  have h := (line_sos (-1)).1
  rw [(C96_value _ _ _).2] at h
  have h := Except.ok.inj h
  have e : (fun i => (![-1, 0] : Fin 2 → ℝ) i * (![1, 1] : Fin 2 → ℝ) i) = ![-1, 0] := by
    funext k
    fin_cases k <;> simp
  rw [e] at h
  rw [h]
  norm_num

/-- **C97 refuted (ties).** Two grid states with the same value: only the first one in the order is certified, both are in the level
set. -/
theorem C97_tie_refuted : ∃ (n : ℕ) (Q : Fin 9 → Fin 9 → ℝ) (stateNorm : Fin 2 → ℝ) (points : Fin n → Fin 2 → ℝ)
    (f : (Fin 2 → ℝ) → Fin 2 → ℝ) (values : Fin n → ℝ) (dvdx : Fin n → Fin 2 → ℝ) (order : List (Fin n)) (c : ℝ),
    Spec.SosCell Q stateNorm points f values dvdx order c ∧ (∃ i, points i = 0) ∧
      ¬ Spec.SosCertified Q (fun i k => points i k * stateNorm k) f c := by
  refine ⟨3, _, _, _, _, _, _, _, 3, drift_cell (u := 1) (v := -1) (-1) (by norm_num) ?_, ⟨0, by
    funext k; fin_cases k <;> rfl⟩, fun h => ?_⟩
  · simp [sosLevel, List.idxOf_cons]
    norm_num
  · obtain ⟨x, hx, hx0, hd⟩ := drift_increases
    have e : (fun k => (![![0, 0], ![1, 0], ![-1, 0]] : Fin 3 → Fin 2 → ℝ) 2 k * (![1, 1] : Fin 2 → ℝ) k) = ![-1, 0] := by
      funext k
      fin_cases k <;> simp
    have := h 2
    simp only [e, line_form] at this
    exact hd (this (by norm_num) le_rfl x 0 hx hx0)

/-- **C97 refuted (origin).** Without the origin in the grid, the state with the smallest value is in the level set without having
been checked. -/
theorem C97_origin_refuted : ∃ (n : ℕ) (Q : Fin 9 → Fin 9 → ℝ) (stateNorm : Fin 2 → ℝ) (points : Fin n → Fin 2 → ℝ)
    (f : (Fin 2 → ℝ) → Fin 2 → ℝ) (values : Fin n → ℝ) (dvdx : Fin n → Fin 2 → ℝ) (order : List (Fin n)) (c : ℝ),
    Spec.SosCell Q stateNorm points f values dvdx order c ∧ Function.Injective values ∧
      ¬ Spec.SosCertified Q (fun i k => points i k * stateNorm k) f c := by
  have e : (fun k => (![-1, 0] : Fin 2 → ℝ) k * (![1, 1] : Fin 2 → ℝ) k) = ![-1, 0] := by
    funext k
    fin_cases k <;> simp
  refine ⟨1, fun i j => if i = j then 1 else 0, ![1, 1], fun _ => ![-1, 0], fun _ => ![-1, 0], fun _ => 3, fun _ => ![-6, 0],
    [0], 3, ⟨fun i j => by simp only [eq_comm], identity_definite, fun i => by fin_cases i <;> simp, fun i => ?_, fun i => ?_,
    by decide, by simp, rfl⟩, fun i j _ => Subsingleton.elim _ _, fun h => ?_⟩
  · rw [(line_sos (-1)).1]
    norm_num
  · rw [(line_sos (-1)).2]
    norm_num
  · obtain ⟨x, hx, hx0, hd⟩ := drift_increases
    have := h 0
    simp only [e, line_form] at this
    exact hd (this (by norm_num) le_rfl x 0 hx hx0)

/-- The hypotheses of `C97_certified_partial` and its conclusion for a level that contains a non-zero state. -/
example : Spec.SosCertified (fun i j => if i = j then 1 else 0)
    (fun i k => (![![0, 0], ![1, 0], ![2, 0]] : Fin 3 → Fin 2 → ℝ) i k * (![1, 1] : Fin 2 → ℝ) k) (fun _ => ![-1, 0]) 84 := by
  refine (C97_certified_partial (drift_cell (u := 1) (v := 2) (c := 84) (-1) (by norm_num) ?_) ⟨0, by
    funext k; fin_cases k <;> rfl⟩).2 ?_
  · simp [sosLevel]
    norm_num
    rfl
  · intro i j hij
    fin_cases i <;> fin_cases j <;> first | rfl | (exfalso; norm_num at hij)

/-! ## C98: the estimate of the region of attraction -/

section Roa

variable {K : Type} [Field K] [LinearOrder K] [IsStrictOrderedRing K]
variable {X : Type} {n : ℕ}

theorem roaLoop_fold (points : Fin n → X) (step : X → X) (multiplier : K) (horizon : ℕ)
    (trained : List (RoaCandidate X K n)) (c : RoaCandidate X K n) (e : Fin n → Bool) (i : Fin n) :
    (trained.foldl (fun s c => (c, roaIteration points step multiplier horizon s.1 c s.2)) (c, e)).2 i = true ↔
      e i = true ∨ (∃ t ∈ trained, t.safeSet i = true) ∨ ∃ t ∈ (c :: trained).dropLast, t.level < t.V (points i) ∧
        t.V (points i) ≤ multiplier * t.level ∧ t.V (step^[horizon] (points i)) ≤ t.level := by
  induction trained generalizing c e with
  | nil => simp
  | cons d ds ih =>
    rw [List.foldl_cons, ih]
    have hd : (c :: d :: ds).dropLast = c :: (d :: ds).dropLast := rfl
    rw [hd]
    simp only [roaIteration, roaExpand, List.mem_cons, Bool.or_eq_true]
    have key : ((if (decide (c.V (points i) ≤ multiplier * c.level) && !decide (c.V (points i) ≤ c.level)) = true
        then e i || decide (c.V (step^[horizon] (points i)) ≤ c.level) else e i) = true) ↔
        e i = true ∨ (c.level < c.V (points i) ∧ c.V (points i) ≤ multiplier * c.level ∧
          c.V (step^[horizon] (points i)) ≤ c.level) := by
      by_cases h1 : c.V (points i) ≤ multiplier * c.level
      · by_cases h2 : c.V (points i) ≤ c.level
        · simp [h1, h2, not_lt.mpr h2]
        · simp [h1, h2, not_le.mp h2]
      · simp [h1]
    rw [key]
    constructor
    · rintro (((h | h) | h) | ⟨t, ht, h⟩ | ⟨t, ht, h⟩)
      · exact .inl h
      · exact .inr (.inr ⟨c, .inl rfl, h⟩)
      · exact .inr (.inl ⟨d, .inl rfl, h⟩)
      · exact .inr (.inl ⟨t, .inr ht, h⟩)
      · exact .inr (.inr ⟨t, .inr ht, h⟩)
    · rintro (h | ⟨t, rfl | ht, h⟩ | ⟨t, rfl | ht, h⟩)
      · exact .inl (.inl (.inl h))
      · exact .inl (.inr h)
      · exact .inr (.inl ⟨t, ht, h⟩)
      · exact .inl (.inl (.inr h))
      · exact .inr (.inr ⟨t, ht, h⟩)

/-- **C98 (exact).** A grid state is in the estimate exactly if it was in one of the safe sets, or if in one of the iterations it was in
the gap between the level and the multiplied level and its simulation ended in the level set. -/
theorem C98_estimate (points : Fin n → X) (step : X → X) (multiplier : K) (horizon : ℕ)
    (first : RoaCandidate X K n) (trained : List (RoaCandidate X K n)) (i : Fin n) :
    roaLoop points step multiplier horizon first trained i = true ↔
      (∃ t ∈ first :: trained, t.safeSet i = true) ∨ ∃ t ∈ (first :: trained).dropLast, t.level < t.V (points i) ∧
        t.V (points i) ≤ multiplier * t.level ∧ t.V (step^[horizon] (points i)) ≤ t.level := by
  unfold roaLoop
  rw [roaLoop_fold, roaInit, ← or_assoc]
  simp only [List.mem_cons, exists_eq_or_imp]

/-- **C98 (sound).** If the level sets and the safe sets that occur during the training are contained in the region of attraction, so
is the estimate after every number of iterations. -/
theorem C98_sound [PseudoMetricSpace X] (points : Fin n → X) (step : X → X) (goal : X) (multiplier : K) (horizon : ℕ)
    (first : RoaCandidate X K n) (trained : List (RoaCandidate X K n))
    (hlevel : ∀ t ∈ (first :: trained).dropLast, ∀ x, t.V x ≤ t.level → x ∈ Spec.RegionOfAttraction step goal)
    (hsafe : ∀ t ∈ first :: trained, ∀ i, t.safeSet i = true → points i ∈ Spec.RegionOfAttraction step goal)
    (i : Fin n) (hi : roaLoop points step multiplier horizon first trained i = true) :
    points i ∈ Spec.RegionOfAttraction step goal := by
  rcases (C98_estimate _ _ _ _ _ _ _).mp hi with ⟨t, ht, h⟩ | ⟨t, ht, -, -, h⟩
  · exact hsafe t ht i h
  · have := hlevel t ht _ h
    simp only [Spec.RegionOfAttraction, Set.mem_ofPred_eq] at this ⊢
    rw [← Filter.tendsto_add_atTop_iff_nat horizon]
    simpa only [Function.iterate_add_apply] using this

/-- **C98 (monotone).** No iteration removes a state from the estimate, and the estimate contains the first safe set. -/
theorem C98_monotone (points : Fin n → X) (step : X → X) (multiplier : K) (horizon : ℕ)
    (first : RoaCandidate X K n) (trained more : List (RoaCandidate X K n)) (i : Fin n) :
    (first.safeSet i = true → roaLoop points step multiplier horizon first trained i = true) ∧
    (roaLoop points step multiplier horizon first trained i = true →
      roaLoop points step multiplier horizon first (trained ++ more) i = true) := by
  constructor
  · exact fun h => (C98_estimate _ _ _ _ _ _ _).mpr (.inl ⟨first, by simp, h⟩)
  · intro h
    rw [C98_estimate] at h ⊢
    rcases h with ⟨t, ht, h⟩ | ⟨t, ht, h⟩
    · refine .inl ⟨t, ?_, h⟩
      rcases List.mem_cons.mp ht with rfl | ht <;> simp [*]
    · refine .inr ⟨t, ?_, h⟩
      cases more with
      | nil => simpa using ht
      | cons m ms =>
        have : first :: (trained ++ m :: ms) = (first :: trained) ++ (m :: ms) := rfl
        rw [this, List.dropLast_append_of_ne_nil (by simp)]
        exact List.mem_append_left _ (List.dropLast_subset _ ht)

/-- **C98 (targets).** The training targets are the grid states in the multiplied level set or in the estimate, each one once in the
order of the grid, labelled with the estimate. -/
theorem C98_targets (points : Fin n → X) (multiplier : K) (c : RoaCandidate X K n) (estimate : Fin n → Bool) :
    (∀ i b, (i, b) ∈ roaTargets points multiplier c estimate ↔
      b = estimate i ∧ (c.V (points i) ≤ multiplier * c.level ∨ estimate i = true)) ∧
    ((roaTargets points multiplier c estimate).map Prod.fst).Pairwise (· < ·) := by
  constructor
  · intro i b
    simp only [roaTargets, List.mem_map, List.mem_filter, List.mem_finRange, true_and, Prod.mk.injEq, Bool.or_eq_true,
      decide_eq_true_eq]
    constructor
    · rintro ⟨j, h, rfl, rfl⟩
      exact ⟨rfl, h⟩
    · rintro ⟨rfl, h⟩
      exact ⟨i, h, rfl, rfl⟩
  · have : (roaTargets points multiplier c estimate).map Prod.fst =
        (List.finRange n).filter fun i => decide (c.V (points i) ≤ multiplier * c.level) || estimate i := by
      simp [roaTargets, Function.comp_def]
    rw [this]
    exact (List.pairwise_lt_finRange n).filter _

/-! ## C99: the objective -/

theorem roaBatch_eq (rows : List (K × K × Bool)) :
    ∃ w : Bool → K, (∀ r ∈ rows, 0 < w r.2.2) ∧ roaBatch rows = rows.map fun r => (r.1, r.2.1, r.2.2, w r.2.2) := by
  set labels := rows.map fun r => r.2.2 with hl
  refine ⟨fun b => (1 / (labels.count b : K)) * (labels.length : K), fun r hr => ?_, ?_⟩
  · have hmem : r.2.2 ∈ labels := List.mem_map.mpr ⟨r, hr, rfl⟩
    have h1 : (0 : K) < labels.count r.2.2 := by exact_mod_cast List.count_pos_iff.mpr hmem
    have h2 : (0 : K) < labels.length := by exact_mod_cast List.length_pos_of_mem hmem
    positivity
  · unfold roaBatch
    rw [← hl, balancedClassWeights_eq]
    simp only [if_true]
    generalize labels.length = len
    have key : ∀ (w : Bool → K) (rs : List (K × K × Bool)),
        ((rs.zip ((rs.map fun r => r.2.2).map w)).map fun p => (p.1.1, p.1.2.1, p.1.2.2, p.2)) =
          rs.map fun r => (r.1, r.2.1, r.2.2, w r.2.2) := by
      intro w rs
      induction rs with
      | nil => rfl
      | cons r rs ih => simpa using ih
    exact key _ rows

/-- **C99 (zero).** For a non-empty batch, a positive multiplier and positive denominators the objective with the balanced weights is not
negative, and zero exactly if the function is at most the level and does not increase at the labelled states, and is at least the level at
all others. Missing: strictly above the level (`C99_boundary_refuted`). -/
theorem C99_zero_partial (level multiplier eps : K) (rows : List (K × K × Bool)) (hne : rows ≠ []) (hm : 0 < multiplier)
    (hpos : ∀ r ∈ rows, 0 < r.1 + eps) :
    0 ≤ roaObjective level multiplier eps (roaBatch rows) ∧
    (roaObjective level multiplier eps (roaBatch rows) = 0 ↔
      ∀ r ∈ rows, (r.2.2 = true → r.1 ≤ level ∧ r.2.1 ≤ 0) ∧ (r.2.2 = false → level ≤ r.1)) := by
  obtain ⟨w, hw, hb⟩ := roaBatch_eq rows
  unfold roaObjective
  rw [hb, List.length_map, List.map_map]
  have hlen : (0 : K) < rows.length := by exact_mod_cast List.length_pos_iff.mpr hne
  set g : K × K × Bool → K := _ with hg
  change 0 ≤ (rows.map g).sum / _ ∧ ((rows.map g).sum / _ = 0 ↔ _)
  have hgn : ∀ r ∈ rows, 0 ≤ g r ∧ (g r = 0 ↔ (r.2.2 = true → r.1 ≤ level ∧ r.2.1 ≤ 0) ∧ (r.2.2 = false → level ≤ r.1)) := by
    rintro ⟨v, dv, l⟩ hr
    have h1 := hw _ hr
    have h2 := hpos _ hr
    cases l with
    | true =>
      have e : g (v, dv, true) = w true * max (v - level) 0 + multiplier * (max dv 0 / (v + eps)) := by
        simp [hg]
        ring_nf
        simp
      rw [e]
      have p1 : 0 ≤ w true * max (v - level) 0 := mul_nonneg h1.le (le_max_right _ _)
      have p2 : 0 ≤ multiplier * (max dv 0 / (v + eps)) := mul_nonneg hm.le (div_nonneg (le_max_right _ _) h2.le)
      refine ⟨add_nonneg p1 p2, ?_⟩
      rw [add_eq_zero_iff_of_nonneg p1 p2, mul_eq_zero, mul_eq_zero, div_eq_zero_iff]
      simp only [h1.ne', hm.ne', h2.ne', false_or, or_false, max_eq_right_iff, sub_nonpos]
      simp
    | false =>
      have e : g (v, dv, false) = w false * max (level - v) 0 := by
        simp [hg]
      rw [e]
      refine ⟨mul_nonneg h1.le (le_max_right _ _), ?_⟩
      rw [mul_eq_zero]
      simp only [h1.ne', false_or, max_eq_right_iff, sub_nonpos]
      simp
  refine ⟨div_nonneg (List.sum_nonneg fun y hy => ?_) hlen.le, ?_⟩
  · obtain ⟨r, hr, rfl⟩ := List.mem_map.mp hy
    exact (hgn r hr).1
  · rw [div_eq_zero_iff, or_iff_left hlen.ne']
    clear hb hw hpos hne hlen hg
    induction rows with
    | nil => simp
    | cons r rs ih =>
      have h0 := hgn r (by simp)
      have hs : 0 ≤ (rs.map g).sum := List.sum_nonneg fun y hy => by
        obtain ⟨r', hr, rfl⟩ := List.mem_map.mp hy
        exact (hgn r' (by simp [hr])).1
      rw [List.map_cons, List.sum_cons, add_eq_zero_iff_of_nonneg h0.1 hs, h0.2,
        ih fun r' hr' => hgn r' (by simp [hr'])]
      simp

/-- **C99 refuted.** A zero objective does not mean that the level set `V ≤ level` separates the labels: a state outside of the estimate may
have the value `level`. -/
theorem C99_boundary_refuted : ∃ (level multiplier eps : ℚ) (rows : List (ℚ × ℚ × Bool)), rows ≠ [] ∧ 0 < multiplier ∧
    (∀ r ∈ rows, 0 < r.1 + eps) ∧ roaObjective level multiplier eps (roaBatch rows) = 0 ∧
    ¬ ∀ r ∈ rows, (r.1 ≤ level ↔ r.2.2 = true) :=
  ⟨1, 1000, 1 / 100, [(1 / 2, -1, true), (1, -1, false)], by decide +kernel, by decide +kernel, by decide +kernel,
    by decide +kernel, by decide +kernel⟩

example : roaObjective (K := ℚ) 1 1000 (1 / 2) (roaBatch [(1 / 2, 1 / 10, true), (3, 1, false), (3 / 2, -1, true)]) = 403 / 12 := by
  decide +kernel

/-- The hypotheses of `C98_sound` for the system `x / 2` with the states -3, ..., 3: the estimate grows from the origin to `[-2, 2]`. -/
example :
    let points : Fin 7 → ℝ := fun i => (i : ℝ) - 3
    let c : RoaCandidate ℝ ℝ 7 := ⟨fun x => |x|, 1, fun i => decide (i = 3)⟩
    roaLoop points (fun x => x / 2) 2 2 c [c] 5 = true ∧
      ∀ i, roaLoop points (fun x => x / 2) 2 2 c [c] i = true →
        points i ∈ Spec.RegionOfAttraction (fun x : ℝ => x / 2) 0 := by
  have hall : ∀ x : ℝ, x ∈ Spec.RegionOfAttraction (fun x : ℝ => x / 2) 0 := by
    intro x
    have hit : ∀ n : ℕ, (fun x : ℝ => x / 2)^[n] x = (1 / 2) ^ n * x := by
      intro n
      induction n with
      | zero => simp
      | succ n ih => rw [Function.iterate_succ_apply', ih]; ring
    simp only [Spec.RegionOfAttraction, Set.mem_ofPred_eq, hit]
    have := (tendsto_pow_atTop_nhds_zero_of_lt_one (r := (1 / 2 : ℝ)) (by norm_num) (by norm_num)).mul_const x
    simpa using this
  refine ⟨?_, fun i hi => C98_sound _ _ 0 _ _ _ _ (fun _ _ x _ => hall x) (fun _ _ i _ => hall _) i hi⟩
  refine (C98_estimate _ _ _ _ _ _ _).mpr (.inr ⟨_, List.mem_singleton.mpr rfl, ?_, ?_, ?_⟩)
  · show (1 : ℝ) < |(((5 : Fin 7) : ℕ) : ℝ) - 3|
    norm_num
  · show |(((5 : Fin 7) : ℕ) : ℝ) - 3| ≤ 2 * 1
    norm_num
  · show |((((5 : Fin 7) : ℕ) : ℝ) - 3) / 2 / 2| ≤ 1
    norm_num [abs_le]

end Roa

end SafeLearning
