import Verif.Model.Features
import Verif.Spec.Features
import Mathlib.Algebra.BigOperators.Fin
import Mathlib.Analysis.Calculus.Deriv.Pow
import Mathlib.Analysis.Calculus.Deriv.Mul
import Mathlib.Tactic.Linarith
import Mathlib.Tactic.FieldSimp
import Mathlib.Tactic.FinCases
set_option autoImplicit false

/-!
# Array helpers of the examples: C70, C71, C72, C83
-/

set_option linter.unusedSectionVars false

namespace SafeLearning

variable {K : Type} [Field K] [LinearOrder K] [IsStrictOrderedRing K]

/-! ## C70 -/

theorem bisectLeft_spec (array : List K) (value : K) (hs : array.Pairwise (· ≤ ·)) :
    ∀ fuel lo hi, lo ≤ hi → hi ≤ array.length → hi - lo ≤ fuel →
      (∀ i, i < lo → array.getD i 0 < value) →
      (∀ i, hi ≤ i → i < array.length → value ≤ array.getD i 0) →
      let r := bisectLeft array value fuel lo hi
      r ≤ array.length ∧ (∀ i, i < r → array.getD i 0 < value) ∧
        ∀ i, r ≤ i → i < array.length → value ≤ array.getD i 0 := by
  have mono : ∀ i j, i ≤ j → j < array.length → array.getD i 0 ≤ array.getD j 0 := by
    intro i j hij hj
    rcases Nat.lt_or_ge i j with h | h
    · have := List.pairwise_iff_getElem.mp hs i j (by omega) hj h
      simpa [List.getD_eq_getElem?_getD, hj, (by omega : i < array.length)] using this
    · obtain rfl : i = j := by omega
      exact le_rfl
  intro fuel
  induction fuel with
  | zero =>
    intro lo hi h1 h2 h3 h4 h5
    obtain rfl : lo = hi := by omega
    exact ⟨h2, h4, h5⟩
  | succ n ih =>
    intro lo hi h1 h2 h3 h4 h5
    by_cases hlt : lo < hi
    · have hm : lo + (hi - lo) / 2 < hi := by omega
      by_cases hmid : array.getD (lo + (hi - lo) / 2) 0 < value
      · have e : bisectLeft array value (n + 1) lo hi = bisectLeft array value n (lo + (hi - lo) / 2 + 1) hi := by
          rw [bisectLeft]; simp only [if_pos hlt, if_pos hmid]
        rw [e]
        refine ih _ _ (by omega) h2 (by omega) (fun i hi' => ?_) h5
        exact lt_of_le_of_lt (mono i _ (by omega) (by omega)) hmid
      · have e : bisectLeft array value (n + 1) lo hi = bisectLeft array value n lo (lo + (hi - lo) / 2) := by
          rw [bisectLeft]; simp only [if_pos hlt, if_neg hmid]
        rw [e]
        refine ih _ _ (by omega) (by omega) (by omega) h4 (fun i hi' hl => ?_)
        exact le_trans (not_lt.mp hmid) (mono _ i hi' hl)
    · obtain rfl : lo = hi := by omega
      have e : bisectLeft array value (n + 1) lo lo = lo := by
        rw [bisectLeft]; simp only [lt_irrefl, if_false]
      rw [e]
      exact ⟨h2, h4, h5⟩

theorem findNearest_sorted (array : List K) (value : K) (hne : array ≠ []) (hs : array.Pairwise (· ≤ ·)) :
    ∃ i a, findNearest array value true = .ok (i, a) ∧ array[i]? = some a ∧
      ∀ b ∈ array, |value - a| ≤ |value - b| := by
  have hlen : 0 < array.length := List.length_pos_iff.mpr hne
  have mono : ∀ i j, i ≤ j → j < array.length → array.getD i 0 ≤ array.getD j 0 := by
    intro i j hij hj
    rcases Nat.lt_or_ge i j with h | h
    · have := List.pairwise_iff_getElem.mp hs i j (by omega) hj h
      simpa [List.getD_eq_getElem?_getD, hj, (by omega : i < array.length)] using this
    · obtain rfl : i = j := by omega
      exact le_rfl
  obtain ⟨h1, h2, h3⟩ := bisectLeft_spec array value hs array.length 0 array.length (by omega) le_rfl (by omega)
    (by intro i hi; omega) (by intro i h h'; omega)
  change searchsorted array value ≤ _ at h1
  change ∀ i, i < searchsorted array value → _ at h2
  change ∀ i, searchsorted array value ≤ i → _ at h3
  unfold findNearest
  simp only [if_true]
  generalize hr : searchsorted array value = r at *
  have key : ∀ i, i < array.length → (∀ j, j < array.length → |value - array.getD i 0| ≤ |value - array.getD j 0|) →
      ∃ i' a, (match array[i]? with
        | some a => (.ok (i, a) : Except PyErr (ℕ × K))
        | none => .error .indexError) = .ok (i', a) ∧ array[i']? = some a ∧
        ∀ b ∈ array, |value - a| ≤ |value - b| := by
    intro i hi hmin
    refine ⟨i, array[i], by simp [hi], by simp [hi], ?_⟩
    intro b hb
    obtain ⟨j, hj, rfl⟩ := List.getElem_of_mem hb
    have := hmin j hj
    simpa [List.getD_eq_getElem?_getD, hi, hj] using this
  split_ifs with hc
  · refine key (r - 1) (by omega) fun j hj => ?_
    have hb := h2 (r - 1) (by omega)
    rcases Nat.lt_or_ge j r with hjr | hjr
    · have hm := mono j (r - 1) (by omega) (by omega)
      rw [abs_of_nonneg (by linarith), abs_of_nonneg (by linarith)]
      linarith
    · have hv := h3 r le_rfl (by omega)
      have hm := mono r j hjr hj
      rcases hc.2 with hc | hc
      · omega
      · refine hc.le.trans ?_
        rw [abs_of_nonpos (by linarith), abs_of_nonpos (by linarith)]
        linarith
  · have hrl : r < array.length := by
      by_contra hcon
      exact hc ⟨by omega, Or.inl (by omega)⟩
    refine key r hrl fun j hj => ?_
    have hv := h3 r le_rfl hrl
    rcases Nat.lt_or_ge j r with hjr | hjr
    · have hm := mono j (r - 1) (by omega) (by omega)
      have hb := h2 (r - 1) (by omega)
      have : ¬ |value - array.getD (r - 1) 0| < |value - array.getD r 0| := fun h => hc ⟨by omega, Or.inr h⟩
      refine (not_lt.mp this).trans ?_
      rw [abs_of_nonneg (by linarith), abs_of_nonneg (by linarith)]
      linarith
    · have hm := mono r j hjr hj
      rw [abs_of_nonpos (by linarith), abs_of_nonpos (by linarith)]
      linarith

/-- **C70** (partial: sorted arrays, `sorted_1d=True`): the returned element is the one at the returned index, and no
element of the array is closer to the value. Missing: the index for `sorted_1d=False`, see `C70_unsorted_index_refuted`. -/
theorem C70_find_nearest_partial (array : List K) (value : K) (hne : array ≠ []) (hs : array.Pairwise (· ≤ ·)) :
    ∃ i a, findNearest array value true = .ok (i, a) ∧ array[i]? = some a ∧
      ∀ b ∈ array, |value - a| ≤ |value - b| :=
  findNearest_sorted array value hne hs

/-- **C70** (partial, `sorted_1d=False`): for every array the returned value is an element with minimal distance. The
returned index is its position in the sorted array. -/
theorem C70_find_nearest_unsorted_partial (array : List K) (value : K) (hne : array ≠ []) :
    ∃ i a, findNearest array value false = .ok (i, a) ∧ a ∈ array ∧ (∀ b ∈ array, |value - a| ≤ |value - b|) ∧
      ∀ s : List K, s.Perm array → s.Pairwise (· ≤ ·) → s[i]? = some a := by
  have hsort := List.pairwise_insertionSort (· ≤ ·) array
  have hperm := List.perm_insertionSort (· ≤ ·) array
  obtain ⟨i, a, h1, h2, h3⟩ := findNearest_sorted (array.insertionSort (· ≤ ·)) value
    (fun h => hne (by simpa [h] using hperm)) hsort
  refine ⟨i, a, ?_, hperm.mem_iff.mp (List.mem_of_getElem? h2), fun b hb => h3 b (hperm.mem_iff.mpr hb), ?_⟩
  · rw [← h1]; rfl
  · intro s hs hp
    rw [List.Perm.eq_of_pairwise (fun _ _ _ _ h h' => le_antisymm h h') hp hsort (hs.trans hperm.symm)]
    exact h2

/-- **C70** fails for `sorted_1d=False`: the returned index is not an index into the given array. -/
theorem C70_unsorted_index_refuted :
    ∃ (array : List ℚ) (value : ℚ) (i : ℕ) (a : ℚ), findNearest array value false = .ok (i, a) ∧
      array[i]? ≠ some a :=
  ⟨[3, 1, 2], 1, 0, 1, by decide +kernel, by decide +kernel⟩

/-- **C70**: an empty array raises `IndexError`. -/
theorem C70_empty (value : K) (sorted1d : Bool) :
    findNearest ([] : List K) value sorted1d = .error .indexError := by
  cases sorted1d <;> rfl

example : findNearest [0, 1, 4, (9 : ℚ)] 3 true = .ok (2, 4) := by decide +kernel
example : [0, 1, 4, (9 : ℚ)].Pairwise (· ≤ ·) ∧ [0, 1, 4, (9 : ℚ)] ≠ [] := by decide +kernel

/-! ## C71 -/

theorem classTotal_map {C : Type} [DecidableEq C] [BEq C] [LawfulBEq C] (labels : List C) (w : C → K) (c : C) :
    Spec.classTotal labels (labels.map w) c = (labels.count c : K) * w c := by
  unfold Spec.classTotal
  induction labels with
  | nil => simp
  | cons l ls ih =>
    simp only [List.map_cons, List.zip_cons_cons, List.filter_cons, List.count_cons]
    by_cases h : l = c
    · subst h
      simp only [decide_true, if_true, List.map_cons, List.sum_cons, ih, beq_self_eq_true]
      push_cast; ring
    · simp [h, ih]

theorem count_true_eq (l : List Bool) : l.countP id = l.count true := by
  induction l with
  | nil => rfl
  | cons b bs ih => cases b <;> simp [ih]

theorem count_false_eq (l : List Bool) : l.length - l.countP id = l.count false := by
  have : l.length = l.count true + l.count false := by
    induction l with
    | nil => rfl
    | cons b bs ih => cases b <;> simp [ih] <;> omega
  rw [count_true_eq]; omega

theorem balancedClassWeights_eq (y : List Bool) (scale : Bool) :
    balancedClassWeights (K := K) y scale =
      (y.map fun b => (1 / (y.count b : K)) * (if scale then (y.length : K) else 1),
        [y.count false, y.count true]) := by
  unfold balancedClassWeights
  dsimp only
  rw [count_false_eq, count_true_eq]
  refine Prod.ext ?_ rfl
  cases scale
  · refine List.map_congr_left fun b _ => ?_
    cases b <;> simp
  · simp only [if_true, List.map_map]
    refine List.map_congr_left fun b _ => ?_
    cases b <;> simp

/-- **C71**: every class that occurs has the same total weight, the number of samples (with `scale_by_total`) or one;
samples of the same class have the same positive weight; the counts are those of the labels 0 and 1. -/
theorem C71_class_weights (yTrue : List Bool) (scale : Bool) :
    let r := balancedClassWeights (K := K) yTrue scale
    (∀ c ∈ yTrue, Spec.classTotal yTrue r.1 c = if scale then (yTrue.length : K) else 1) ∧
    r.1.length = yTrue.length ∧ (∀ w ∈ r.1, 0 < w) ∧
    (∀ (i j : ℕ) c, yTrue[i]? = some c → yTrue[j]? = some c → r.1[i]? = r.1[j]?) ∧
    r.2 = [yTrue.count false, yTrue.count true] := by
  rw [balancedClassWeights_eq]
  refine ⟨fun c hc => ?_, by simp, fun w hw => ?_, fun i j c hi hj => by simp [hi, hj], rfl⟩
  · rw [classTotal_map]
    have : (yTrue.count c : K) ≠ 0 := by exact_mod_cast (List.count_pos_iff.mpr hc).ne'
    field_simp
  · obtain ⟨b, hb, rfl⟩ := List.mem_map.mp hw
    have h1 : (0 : K) < yTrue.count b := by exact_mod_cast List.count_pos_iff.mpr hb
    have h2 : (0 : K) < yTrue.length := by exact_mod_cast List.length_pos_of_mem hb
    cases scale
    · simpa using h1
    · simp only [if_true]; positivity

theorem balancedConfusionWeights_eq (y yTrue : List Bool) (scale : Bool) (h : y.length = yTrue.length) :
    balancedConfusionWeights (K := K) y yTrue scale =
      .ok ((y.zip yTrue).map fun b =>
          (1 / ((y.zip yTrue).count b : K)) * (if scale then (y.length : K) else 1),
        [[(y.zip yTrue).count (false, false), (y.zip yTrue).count (false, true)],
          [(y.zip yTrue).count (true, false), (y.zip yTrue).count (true, true)]]) := by
  have c1 : (y.zip yTrue).countP (fun b => b.1 && b.2) = (y.zip yTrue).count (true, true) :=
    List.countP_congr fun b _ => by rcases b with ⟨_ | _, _ | _⟩ <;> simp
  have c2 : (y.zip yTrue).countP (fun b => !b.1 && !b.2) = (y.zip yTrue).count (false, false) :=
    List.countP_congr fun b _ => by rcases b with ⟨_ | _, _ | _⟩ <;> simp
  have c3 : (y.zip yTrue).countP (fun b => b.1 && !b.2) = (y.zip yTrue).count (true, false) :=
    List.countP_congr fun b _ => by rcases b with ⟨_ | _, _ | _⟩ <;> simp
  have c4 : (y.zip yTrue).countP (fun b => !b.1 && b.2) = (y.zip yTrue).count (false, true) :=
    List.countP_congr fun b _ => by rcases b with ⟨_ | _, _ | _⟩ <;> simp
  unfold balancedConfusionWeights
  simp only [ne_eq, h, not_true_eq_false, if_false]
  rw [c1, c2, c3, c4]
  congr 1
  refine Prod.ext ?_ rfl
  cases scale
  · refine List.map_congr_left fun b _ => ?_
    rcases b with ⟨_ | _, _ | _⟩ <;> simp
  · simp only [if_true, List.map_map]
    refine List.map_congr_left fun b _ => ?_
    rcases b with ⟨_ | _, _ | _⟩ <;> simp

/-- **C71** for the confusion variant: the classes are the pairs of predicted and true label. Every class that occurs has
the same total weight; `confusion_counts` has a row per predicted and a column per true label. -/
theorem C71_confusion_weights (y yTrue : List Bool) (scale : Bool) (h : y.length = yTrue.length) :
    ∃ w counts, balancedConfusionWeights (K := K) y yTrue scale = .ok (w, counts) ∧
      (∀ c ∈ y.zip yTrue, Spec.classTotal (y.zip yTrue) w c = if scale then (y.length : K) else 1) ∧
      w.length = y.length ∧ (∀ v ∈ w, 0 < v) ∧
      (∀ (i j : ℕ) c, (y.zip yTrue)[i]? = some c → (y.zip yTrue)[j]? = some c → w[i]? = w[j]?) ∧
      counts = [false, true].map fun a => [false, true].map fun b => (y.zip yTrue).count (a, b) := by
  refine ⟨_, _, balancedConfusionWeights_eq y yTrue scale h, fun c hc => ?_, by simp [h], fun v hv => ?_,
    fun i j c hi hj => by simp only [List.getElem?_map, hi, hj], rfl⟩
  · rw [classTotal_map]
    have : ((y.zip yTrue).count c : K) ≠ 0 := by exact_mod_cast (List.count_pos_iff.mpr hc).ne'
    rw [← mul_assoc, mul_one_div, div_self this, one_mul]
  · obtain ⟨b, hb, rfl⟩ := List.mem_map.mp hv
    have h1 : (0 : K) < (y.zip yTrue).count b := by exact_mod_cast List.count_pos_iff.mpr hb
    have h2 : (0 : K) < y.length := by
      have := List.length_pos_of_mem hb
      rw [List.length_zip] at this
      exact_mod_cast (by omega : 0 < y.length)
    cases scale
    · simpa using h1
    · simp only [if_true]; positivity

example : balancedClassWeights (K := ℚ) [true, false, false, true, false] true =
    ([5 / 2, 5 / 3, 5 / 3, 5 / 2, 5 / 3], [3, 2]) := by decide +kernel
example : (balancedConfusionWeights (K := ℚ) [true, false, true] [true, true, true] true) =
    .ok ([3 / 2, 3, 3 / 2], [[0, 1], [0, 2]]) := by decide +kernel

/-! ## C72 -/

/-- **C72** (partial: two coordinates and degree at most three): there are as many derivative rows as features, and row
`j` contains the partial derivatives of feature `j`. Missing: degree four, see `C72_degree_four_refuted`, and other numbers of
coordinates, see `C72_three_coordinates_refuted`. -/
theorem C72_derivative_partial (xs : List (Fin 2 → ℝ)) (deg : ℤ) (hdeg : deg ≤ 3) :
    ∃ D, derivativeMonomials xs deg = .ok D ∧ D.length = xs.length ∧
      ∀ (i : ℕ) x, xs[i]? = some x → ∃ rows z, D[i]? = some rows ∧ monomials [x] deg = .ok [z] ∧
        rows.length = z.length ∧
        ∀ (j : ℕ) g, rows[j]? = some g →
          Spec.IsPartialDerivs (fun x' => match monomials [x'] deg with
            | .ok [z'] => z'.getD j 0
            | _ => 0) g x := by
  refine ⟨_, by simp [derivativeMonomials]; rfl, by simp, ?_⟩
  intro i x hx
  refine ⟨_, _, by simp [hx]; rfl, by simp [monomials]; rfl, ?_, ?_⟩
  · unfold derivativeMonomialsRow monomialsRow
    split_ifs <;> first | omega | simp
  · intro j g hg k
    have h4 : ¬ (4 ≤ deg) := by omega
    simp only [monomials, le_refl, dif_pos, List.map_cons, List.map_nil]
    simp only [derivativeMonomialsRow] at hg
    simp only [monomialsRow, h4, if_false]
    have e : (⟨0, by omega⟩ : Fin 2) = 0 ∧ (⟨1, by omega⟩ : Fin 2) = 1 := ⟨rfl, rfl⟩
    by_cases h2 : 2 ≤ deg <;> by_cases h3 : 3 ≤ deg
    all_goals try omega
    all_goals
      simp only [h2, h3, if_true, if_false, List.map_cons, List.map_nil, List.cons_append,
        List.nil_append, List.ofFn_succ, List.ofFn_zero] at hg ⊢
      rcases j with _ | _ | _ | _ | _ | _ | _ | _ | _ | j
      all_goals
        simp only [List.getElem?_cons_zero, List.getElem?_cons_succ, List.getElem?_nil, Option.some.injEq,
          reduceCtorEq] at hg
      all_goals
        subst hg
        simp only [List.getD_cons_zero, List.getD_cons_succ]
        fin_cases k
        all_goals
          simp only [Fin.mk_zero, Fin.mk_one, Fin.isValue, Function.update_self, ne_eq, one_ne_zero,
            zero_ne_one, not_false_eq_true, Function.update_of_ne, Fin.succ_zero_eq_one, if_true, if_false]
          refine HasDerivAt.congr_deriv (DifferentiableAt.hasDerivAt (by fun_prop)) ?_
          simp
    ring

/-- **C72** fails for degree four: there are more features than derivatives. -/
theorem C72_degree_four_refuted (x : Fin 2 → K) (deg : ℤ) (hdeg : 4 ≤ deg) :
    ∃ z D, monomials [x] deg = .ok [z] ∧ derivativeMonomials [x] deg = .ok [D] ∧ z.length = 14 ∧ D.length = 9 := by
  have h2 : 2 ≤ deg := by omega
  have h3 : 3 ≤ deg := by omega
  refine ⟨_, _, by simp [monomials]; rfl, by simp [derivativeMonomials]; rfl, ?_, ?_⟩
  · simp [monomialsRow, h2, h3, hdeg]
  · simp [derivativeMonomialsRow, h2, h3]

/-- **C72** fails for three coordinates: already for degree one there is no derivative of the third feature. -/
theorem C72_three_coordinates_refuted (x : Fin 3 → K) :
    ∃ z D, monomials [x] 1 = .ok [z] ∧ derivativeMonomials [x] 1 = .ok [D] ∧ z.length = 3 ∧ D.length = 2 := by
  refine ⟨_, _, by simp [monomials]; rfl, by simp [derivativeMonomials]; rfl, ?_, ?_⟩
  · simp [monomialsRow]
  · simp [derivativeMonomialsRow]

/-- **C72**: for points with a single coordinate the derivatives raise `IndexError` although the features of degree one
exist. -/
theorem C72_one_coordinate_refuted (x : Fin 1 → K) (deg : ℤ) :
    derivativeMonomials [x] deg = .error .indexError ∧ ∃ z, monomials [x] 1 = .ok [z] :=
  ⟨by simp [derivativeMonomials], _, by simp [monomials]; rfl⟩

example : (match monomials [![2, (3 : ℚ)]] 3 with
    | .ok z => decide (z = [[2, 3, 4, 6, 9, 8, 12, 18, 27]])
    | .error _ => false) = true := by decide +kernel
example : (match derivativeMonomials [![2, (3 : ℚ)]] 2 with
    | .ok D => decide (D.map (fun z => z.map List.ofFn) = [[[1, 0], [0, 1], [4, 0], [3, 2], [0, 6]]])
    | .error _ => false) = true := by decide +kernel

/-! ## C83 -/

theorem mem_monomialExponents (deg a b : ℕ) :
    (a, b) ∈ Spec.monomialExponents deg ↔ 1 ≤ a + b ∧ a + b ≤ deg := by
  simp only [Spec.monomialExponents, List.mem_flatMap, List.mem_range, List.mem_map, Prod.mk.injEq]
  constructor
  · rintro ⟨n, hn, c, hc, h1, h2⟩
    omega
  · intro h
    exact ⟨a + b - 1, by omega, b, by omega, by omega, rfl⟩

/-- **C83** (partial: two coordinates and degree one to four): the features of every point are the values of all monomials
of degree one up to `deg`, each once. Missing: higher degrees, see `C83_degree_five_refuted`, and more coordinates, see
`C83_three_coordinates_refuted`. -/
theorem C83_monomials_partial (xs : List (Fin 2 → K)) (deg : ℕ) (h1 : 1 ≤ deg) (h4 : deg ≤ 4) :
    monomials xs deg = .ok (xs.map fun x => (Spec.monomialExponents deg).map fun e => x 0 ^ e.1 * x 1 ^ e.2) ∧
    (Spec.monomialExponents deg).Nodup ∧
    ∀ a b, (a, b) ∈ Spec.monomialExponents deg ↔ 1 ≤ a + b ∧ a + b ≤ deg := by
  refine ⟨?_, ?_, mem_monomialExponents deg⟩
  · simp only [monomials, le_refl, dif_pos]
    congr 1
    refine List.map_congr_left fun x _ => ?_
    obtain rfl | rfl | rfl | rfl : deg = 1 ∨ deg = 2 ∨ deg = 3 ∨ deg = 4 := by omega
    all_goals simp [monomialsRow, Spec.monomialExponents, List.range_succ, List.ofFn_succ]
  · obtain rfl | rfl | rfl | rfl : deg = 1 ∨ deg = 2 ∨ deg = 3 ∨ deg = 4 := by omega
    all_goals decide

/-- **C83 (errors).** With fewer than two coordinates `monomials` raises `IndexError` from degree two on, and returns the points for lower degrees. -/
theorem C83_one_coordinate {dim : ℕ} (hdim : dim < 2) (xs : List (Fin dim → K)) (deg : ℤ) :
    (2 ≤ deg → monomials xs deg = .error .indexError) ∧ (deg < 2 → monomials xs deg = .ok (xs.map List.ofFn)) := by
  constructor
  · intro h
    simp [monomials, show ¬ 2 ≤ dim by omega, h]
  · intro h
    simp [monomials, show ¬ 2 ≤ dim by omega, show ¬ 2 ≤ deg by omega]

example : monomials [(![5] : Fin 1 → ℚ)] 2 = .error .indexError := (C83_one_coordinate (by norm_num) _ 2).1 le_rfl

/-- **C83** fails from degree five on: no feature of higher degree is added. -/
theorem C83_degree_five_refuted (xs : List (Fin 2 → K)) (deg : ℤ) (h : 5 ≤ deg) :
    monomials xs deg = monomials xs 4 ∧ (5, 0) ∈ Spec.monomialExponents 5 ∧
    ∀ z, monomials [(fun _ => (2 : ℚ) : Fin 2 → ℚ)] deg = .ok [z] → (2 : ℚ) ^ 5 ∉ z := by
  have e : ∀ {K : Type} [Field K] [LinearOrder K] [IsStrictOrderedRing K] (xs : List (Fin 2 → K)),
      monomials xs deg = monomials xs 4 := by
    intro K _ _ _ xs
    simp [monomials, monomialsRow, (by omega : 2 ≤ deg), (by omega : 3 ≤ deg), (by omega : 4 ≤ deg)]
  refine ⟨e xs, by decide, fun z hz => ?_⟩
  rw [e] at hz
  have : z = [2, 2, 4, 4, 4, 8, 8, 8, 8, 16, 16, 16, 16, 16] := by
    simp [monomials, monomialsRow, List.ofFn_succ] at hz
    rw [← hz]; norm_num
  rw [this]; decide +kernel

/-- **C83** fails for points with three coordinates from degree two on: the square of the third coordinate is missing. -/
theorem C83_three_coordinates_refuted (deg : ℤ) (h : 2 ≤ deg) :
    ∃ (x : Fin 3 → ℚ) (z : List ℚ), monomials [x] deg = .ok [z] ∧ x 2 ^ 2 ∉ z := by
  refine ⟨![0, 0, 3], _, rfl, ?_⟩
  simp only [monomialsRow, if_pos h]
  split_ifs <;> simp [List.ofFn_succ] <;> norm_num

end SafeLearning
