import Verif.Model.Simulation
import Mathlib.Analysis.MeanInequalities
import Mathlib.Tactic.Linarith
set_option autoImplicit false

/-!
# `get_parameter_change`: C80
-/

set_option linter.unusedSectionVars false

namespace SafeLearning

/-- The documented orders that are norms: `'inf'` and the integers from one on. -/
def _root_.Spec.IsNormOrd : NormOrd → Prop
  | .inf => True
  | .int p => 1 ≤ p
  | _ => False

theorem maxAbs_greatest {K : Type} [Field K] [LinearOrder K] [IsStrictOrderedRing K] (l : List K) (h : l ≠ []) :
    ∃ s, maxAbs l = .ok s ∧ (∀ v ∈ l, |v| ≤ s) ∧ ∃ v ∈ l, |v| = s := by
  obtain ⟨v, vs, rfl⟩ := List.exists_cons_of_ne_nil h
  have key : ∀ (vs : List K) (a : K), a ≤ vs.foldl (fun acc w => max acc |w|) a ∧
      (∀ w ∈ vs, |w| ≤ vs.foldl (fun acc w => max acc |w|) a) ∧
      (vs.foldl (fun acc w => max acc |w|) a = a ∨ ∃ w ∈ vs, |w| = vs.foldl (fun acc w => max acc |w|) a) := by
    intro vs
    induction vs with
    | nil => intro a; simp
    | cons w ws ih =>
      intro a
      obtain ⟨h1, h2, h3⟩ := ih (max a |w|)
      simp only [List.foldl_cons]
      refine ⟨(le_max_left _ _).trans h1, ?_, ?_⟩
      · intro u hu
        rcases List.mem_cons.mp hu with rfl | hu
        · exact (le_max_right _ _).trans h1
        · exact h2 u hu
      · rcases h3 with h3 | ⟨u, hu, h3⟩
        · rcases max_choice a |w| with hm | hm
          · left; rw [h3, hm]
          · right; exact ⟨w, by simp, by rw [h3, hm]⟩
        · right; exact ⟨u, by simp [hu], h3⟩
  obtain ⟨h1, h2, h3⟩ := key vs |v|
  refine ⟨_, rfl, ?_, ?_⟩
  · intro u hu
    rcases List.mem_cons.mp hu with rfl | hu
    · exact h1
    · exact h2 u hu
  · rcases h3 with h3 | ⟨u, hu, h3⟩
    · exact ⟨v, by simp, h3.symm⟩
    · exact ⟨u, by simp [hu], h3⟩

theorem exists_ofFn {A : Type} (l : List A) {n : ℕ} (h : l.length = n) : ∃ f : Fin n → A, l = List.ofFn f := by
  subst h
  exact ⟨fun i => l[i], by simp⟩

theorem zipWith_ofFn {n : ℕ} (f g : Fin n → ℝ) :
    (List.ofFn f).zipWith (· - ·) (List.ofFn g) = List.ofFn fun i => f i - g i := by
  refine List.ext_getElem (by simp) fun i h1 h2 => by simp

/-- The value of a norm of a vector, as a formula. -/
theorem vectorNorm_int {n : ℕ} (f : Fin n → ℝ) (p : ℕ) (hp : 1 ≤ p) :
    vectorNorm (List.ofFn f) (.int p) = .ok ((∑ i, |f i| ^ (p : ℝ)) ^ (1 / (p : ℝ))) := by
  have h0 : p ≠ 0 := by omega
  simp only [vectorNorm, h0, if_false, Nat.cast_eq_zero]
  split_ifs with h1 h2
  · subst h1
    simp [List.map_ofFn, List.sum_ofFn]
  · subst h2
    rw [Real.sqrt_eq_rpow]
    simp [List.map_ofFn, List.sum_ofFn]
  · simp [List.map_ofFn, List.sum_ofFn]

/-- What the norms of `np.linalg.norm` share. -/
theorem vectorNorm_norm {n : ℕ} (hn : 0 < n) (ord : NormOrd) (hord : Spec.IsNormOrd ord) :
    ∃ N : (Fin n → ℝ) → ℝ, (∀ f, vectorNorm (List.ofFn f) ord = .ok (N f)) ∧ (∀ f, 0 ≤ N f) ∧
      (∀ f, N f = 0 ↔ f = 0) ∧ (∀ f, N (-f) = N f) ∧ ∀ f g, N (f + g) ≤ N f + N g := by
  cases ord with
  | inf =>
    have hne : ∀ f : Fin n → ℝ, List.ofFn f ≠ [] := by
      intro f h
      have := congrArg List.length h
      simp at this; omega
    choose N h1 h2 h3 using fun f : Fin n → ℝ => maxAbs_greatest (List.ofFn f) (hne f)
    have h2' : ∀ f i, |f i| ≤ N f := fun f i => h2 f _ (by simp)
    have h3' : ∀ f, ∃ i, |f i| = N f := fun f => by
      obtain ⟨v, hv, h⟩ := h3 f
      obtain ⟨i, rfl⟩ := (List.mem_ofFn' _ _).mp hv
      exact ⟨i, h⟩
    refine ⟨N, h1, ?_, ?_, ?_, ?_⟩
    · intro f
      obtain ⟨i, hi⟩ := h3' f
      rw [← hi]; exact abs_nonneg _
    · intro f
      constructor
      · intro h
        funext i
        have := h2' f i
        rw [h] at this
        simpa using this
      · rintro rfl
        obtain ⟨i, hi⟩ := h3' 0
        rw [← hi]; simp
    · intro f
      refine le_antisymm ?_ ?_
      · obtain ⟨i, hi⟩ := h3' (-f)
        rw [← hi, Pi.neg_apply, abs_neg]; exact h2' f i
      · obtain ⟨i, hi⟩ := h3' f
        rw [← hi, ← abs_neg]; exact h2' (-f) i
    · intro f g
      obtain ⟨i, hi⟩ := h3' (f + g)
      rw [← hi, Pi.add_apply]
      exact (abs_add_le _ _).trans (add_le_add (h2' f i) (h2' g i))
  | int p =>
    have hp : 1 ≤ p := hord
    have hp' : (1 : ℝ) ≤ p := by exact_mod_cast hp
    have hpos : (0 : ℝ) < p := by linarith
    have hs : ∀ f : Fin n → ℝ, 0 ≤ ∑ i, |f i| ^ (p : ℝ) := fun f =>
      Finset.sum_nonneg fun i _ => Real.rpow_nonneg (abs_nonneg _) _
    refine ⟨fun f => (∑ i, |f i| ^ (p : ℝ)) ^ (1 / (p : ℝ)), fun f => vectorNorm_int f p hp, ?_, ?_, ?_, ?_⟩
    · exact fun f => Real.rpow_nonneg (hs f) _
    · intro f
      dsimp only
      rw [Real.rpow_eq_zero (hs f) (by positivity), Finset.sum_eq_zero_iff_of_nonneg
        (fun i _ => Real.rpow_nonneg (abs_nonneg _) _)]
      constructor
      · intro h
        funext i
        have := h i (Finset.mem_univ i)
        rw [Real.rpow_eq_zero (abs_nonneg _) hpos.ne'] at this
        simpa using this
      · rintro rfl i _
        simp only [Pi.zero_apply, abs_zero]
        exact Real.zero_rpow hpos.ne'
    · intro f
      simp
    · intro f g
      exact Real.Lp_add_le Finset.univ f g hp'
  | negInf => exact hord.elim
  | negInt p => exact hord.elim
  | fro => exact hord.elim
  | nuc => exact hord.elim

theorem getParameterChange_ofFn {n : ℕ} (old new : List (List ℝ)) (ord : NormOrd) (a b : Fin n → ℝ)
    (h1 : old ≠ []) (h2 : new ≠ []) (ha : old.flatten = List.ofFn a) (hb : new.flatten = List.ofFn b) :
    getParameterChange old new ord = vectorNorm (List.ofFn fun i => b i - a i) ord := by
  simp only [getParameterChange, h1, h2, or_self, if_false, ha, hb, List.length_ofFn, ne_eq, not_true_eq_false,
    zipWith_ofFn]

theorem flatten_ne_nil {l : List (List ℝ)} (h : l.flatten ≠ []) : l ≠ [] := fun h' => h (by simp [h'])

/-- **C80** (partial: `ord` is `'inf'` or a positive integer): for two lists of arrays with the same shapes and at least one entry, the
change is a number that is not negative, zero exactly if all parameters are the same, and does not depend on the order of
the two lists. Missing: `'-inf'` and the negative integers, which are no norms, see
`C80_neg_inf_refuted` and `C80_negative_int_refuted`, and the documented orders `'fro'` and `'nuc'`,
see `C80_matrix_norms_refuted`. -/
theorem C80_change_partial (old new : List (List ℝ)) (ord : NormOrd) (hord : Spec.IsNormOrd ord)
    (hshape : old.map List.length = new.map List.length) (hne : old.flatten ≠ []) :
    ∃ c, getParameterChange old new ord = .ok c ∧ 0 ≤ c ∧ (c = 0 ↔ old = new) ∧
      getParameterChange new old ord = .ok c := by
  have hlen : old.flatten.length = new.flatten.length := by simp [List.length_flatten, hshape]
  have hne' : new.flatten ≠ [] := by
    intro h; rw [h] at hlen; exact hne (List.length_eq_zero_iff.mp hlen)
  obtain ⟨a, ha⟩ := exists_ofFn old.flatten rfl
  obtain ⟨b, hb⟩ := exists_ofFn new.flatten hlen.symm
  obtain ⟨N, n1, n2, n3, n4, _⟩ := vectorNorm_norm (List.length_pos_iff.mpr hne) ord hord
  refine ⟨N fun i => b i - a i, ?_, n2 _, ?_, ?_⟩
  · rw [getParameterChange_ofFn old new ord a b (flatten_ne_nil hne) (flatten_ne_nil hne') ha hb, n1]
  · rw [n3, List.eq_iff_flatten_eq]
    constructor
    · intro h
      refine ⟨?_, hshape⟩
      rw [ha, hb]
      congr 1
      funext i
      have := congrFun h i
      simp only [Pi.zero_apply] at this
      linarith
    · rintro ⟨h, _⟩
      rw [ha, hb] at h
      have := List.ofFn_injective h
      funext i
      simp [this]
  · rw [getParameterChange_ofFn new old ord b a (flatten_ne_nil hne') (flatten_ne_nil hne) hb ha, n1, ← n4]
    congr 2
    funext i
    simp

/-- **C80** (partial), triangle inequality: the change over two updates is at most the sum of the two changes. -/
theorem C80_triangle_partial (p1 p2 p3 : List (List ℝ)) (ord : NormOrd) (hord : Spec.IsNormOrd ord)
    (h12 : p1.map List.length = p2.map List.length) (h23 : p2.map List.length = p3.map List.length)
    (hne : p1.flatten ≠ []) :
    ∃ c12 c23 c13, getParameterChange p1 p2 ord = .ok c12 ∧ getParameterChange p2 p3 ord = .ok c23 ∧
      getParameterChange p1 p3 ord = .ok c13 ∧ c13 ≤ c12 + c23 := by
  have l12 : p1.flatten.length = p2.flatten.length := by simp [List.length_flatten, h12]
  have l13 : p1.flatten.length = p3.flatten.length := by simp [List.length_flatten, h12, h23]
  have hne2 : p2.flatten ≠ [] := by
    intro h; rw [h] at l12; exact hne (List.length_eq_zero_iff.mp l12)
  have hne3 : p3.flatten ≠ [] := by
    intro h; rw [h] at l13; exact hne (List.length_eq_zero_iff.mp l13)
  obtain ⟨a, ha⟩ := exists_ofFn p1.flatten rfl
  obtain ⟨b, hb⟩ := exists_ofFn p2.flatten l12.symm
  obtain ⟨c, hc⟩ := exists_ofFn p3.flatten l13.symm
  obtain ⟨N, n1, _, _, _, n5⟩ := vectorNorm_norm (List.length_pos_iff.mpr hne) ord hord
  refine ⟨N (b - a), N (c - b), N (c - a), ?_, ?_, ?_, ?_⟩
  · rw [getParameterChange_ofFn p1 p2 ord a b (flatten_ne_nil hne) (flatten_ne_nil hne2) ha hb]; exact n1 _
  · rw [getParameterChange_ofFn p2 p3 ord b c (flatten_ne_nil hne2) (flatten_ne_nil hne3) hb hc]; exact n1 _
  · rw [getParameterChange_ofFn p1 p3 ord a c (flatten_ne_nil hne) (flatten_ne_nil hne3) ha hc]; exact n1 _
  · have := n5 (b - a) (c - b)
    rwa [add_comm (b - a), sub_add_sub_cancel] at this

/-- **C80**, default order: the change is the largest absolute difference of corresponding entries. -/
theorem C80_default_value (old new : List (List ℝ)) (hshape : old.map List.length = new.map List.length)
    (hne : old.flatten ≠ []) :
    ∃ c, getParameterChange old new .inf = .ok c ∧
      (∀ (i j : ℕ) xs ys x y, old[i]? = some xs → new[i]? = some ys → xs[j]? = some x → ys[j]? = some y → |y - x| ≤ c) ∧
      ∃ (k : ℕ) (x y : ℝ), old.flatten[k]? = some x ∧ new.flatten[k]? = some y ∧ |y - x| = c := by
  have hlen : old.flatten.length = new.flatten.length := by simp [List.length_flatten, hshape]
  have hne' : new.flatten ≠ [] := by
    intro h; rw [h] at hlen; exact hne (List.length_eq_zero_iff.mp hlen)
  have hz : new.flatten.zipWith (· - ·) old.flatten ≠ [] := by
    intro h
    have := congrArg List.length h
    rw [List.length_zipWith, ← hlen, min_self] at this
    exact hne (List.length_eq_zero_iff.mp this)
  obtain ⟨c, h1, h2, h3⟩ := maxAbs_greatest _ hz
  refine ⟨c, ?_, ?_, ?_⟩
  · simp only [getParameterChange, flatten_ne_nil hne, flatten_ne_nil hne', or_self, if_false, hlen, ne_eq,
      not_true_eq_false]
    exact h1
  · have key : ∀ (old new : List (List ℝ)), old.map List.length = new.map List.length →
        ∀ (i j : ℕ) xs ys x y, old[i]? = some xs → new[i]? = some ys → xs[j]? = some x → ys[j]? = some y →
          y - x ∈ new.flatten.zipWith (· - ·) old.flatten := by
      intro old
      induction old with
      | nil => intro new _ i j xs ys x y h; simp at h
      | cons o os ih =>
        intro new hs i j xs ys x y ho hn hx hy
        cases new with
        | nil => simp at hn
        | cons w ws =>
          simp only [List.map_cons, List.cons.injEq] at hs
          rw [List.flatten_cons, List.flatten_cons, List.zipWith_append hs.1.symm, List.mem_append]
          cases i with
          | zero =>
            left
            simp only [List.getElem?_cons_zero, Option.some.injEq] at ho hn
            subst ho hn
            exact List.mem_of_getElem? (i := j) (by simp [List.getElem?_zipWith, hx, hy])
          | succ i =>
            right
            exact ih ws hs.2 i j xs ys x y (by simpa using ho) (by simpa using hn) hx hy
    intro i j xs ys x y ho hn hx hy
    exact h2 _ (key old new hshape i j xs ys x y ho hn hx hy)
  · obtain ⟨v, hv, h⟩ := h3
    obtain ⟨k, hk, rfl⟩ := List.getElem_of_mem hv
    rw [List.length_zipWith] at hk
    refine ⟨k, old.flatten[k]'(by omega), new.flatten[k]'(by omega), by simp, by simp, ?_⟩
    rw [← h, List.getElem_zipWith]

/-- **C80** fails for `'-inf'`: the smallest difference is zero although a parameter has changed. -/
theorem C80_neg_inf_refuted : getParameterChange [[0, 0]] [[0, 5]] .negInf = .ok 0 := by
  simp [getParameterChange, vectorNorm]

/-- **C80**, negative integers: the change is a number that is not negative and does not depend on the order of the lists. It is
zero exactly if some parameter is unchanged, instead of all. -/
theorem C80_negative_int_partial (old new : List (List ℝ)) (p : ℕ)
    (hshape : old.map List.length = new.map List.length) (hne : old.flatten ≠ []) :
    ∃ c, getParameterChange old new (.negInt p) = .ok c ∧ 0 ≤ c ∧
      (c = 0 ↔ ∃ (k : ℕ) (x : ℝ), old.flatten[k]? = some x ∧ new.flatten[k]? = some x) ∧
      getParameterChange new old (.negInt p) = .ok c := by
  have hlen : old.flatten.length = new.flatten.length := by simp [List.length_flatten, hshape]
  have hne' : new.flatten ≠ [] := by
    intro h; rw [h] at hlen; exact hne (List.length_eq_zero_iff.mp hlen)
  have hpos : 0 < old.flatten.length := List.length_pos_iff.mpr hne
  obtain ⟨n, hn⟩ : ∃ n, old.flatten.length = n := ⟨_, rfl⟩
  obtain ⟨a, ha⟩ := exists_ofFn old.flatten hn
  obtain ⟨b, hb⟩ := exists_ofFn new.flatten (hlen.symm.trans hn)
  rw [hn] at hpos
  have hnil : ∀ f : Fin n → ℝ, List.ofFn f ≠ [] := by
    intro f h
    have := congrArg List.length h
    simp only [List.length_ofFn, List.length_nil] at this
    omega
  have hval : ∀ f : Fin n → ℝ, vectorNorm (List.ofFn f) (.negInt p) =
      .ok (if ∃ i, f i = 0 then 0 else (∑ i, |f i| ^ (-(p + 1) : ℝ)) ^ (1 / (-(p + 1) : ℝ))) := by
    intro f
    simp only [vectorNorm, hnil f, if_false, List.mem_ofFn, List.map_ofFn, List.sum_ofFn, Function.comp]
    split_ifs <;> rfl
  have hs : ∀ f : Fin n → ℝ, (¬ ∃ i, f i = 0) → 0 < ∑ i, |f i| ^ (-(p + 1) : ℝ) := by
    intro f hf
    have : Nonempty (Fin n) := ⟨⟨0, hpos⟩⟩
    refine Finset.sum_pos (fun i _ => Real.rpow_pos_of_pos (abs_pos.mpr fun h => hf ⟨i, h⟩) _)
      Finset.univ_nonempty
  have hiff : ((∃ i, b i - a i = 0) ↔ ∃ (k : ℕ) (x : ℝ), old.flatten[k]? = some x ∧
      new.flatten[k]? = some x) := by
    constructor
    · rintro ⟨i, hi⟩
      refine ⟨i, a i, ?_, ?_⟩
      · rw [ha]; simp
      · rw [hb, show a i = b i by linarith]; simp
    · rintro ⟨k, x, hx, hy⟩
      rw [ha, List.getElem?_ofFn] at hx
      rw [hb, List.getElem?_ofFn] at hy
      split_ifs at hx hy with hk
      simp only [Option.some.injEq] at hx hy
      exact ⟨⟨k, hk⟩, by rw [hx, hy, sub_self]⟩
  refine ⟨_, by rw [getParameterChange_ofFn old new _ a b (flatten_ne_nil hne) (flatten_ne_nil hne') ha hb, hval], ?_, ?_, ?_⟩
  · split_ifs with h
    · exact le_rfl
    · exact Real.rpow_nonneg (hs _ h).le _
  · rw [← hiff]
    split_ifs with h
    · exact ⟨fun _ => h, fun _ => rfl⟩
    · exact ⟨fun h0 => absurd h0 (Real.rpow_pos_of_pos (hs _ h) _).ne', fun h' => absurd h' h⟩
  · rw [getParameterChange_ofFn new old _ b a (flatten_ne_nil hne') (flatten_ne_nil hne) hb ha, hval]
    have h2 : (∑ i, |a i - b i| ^ (-(p + 1) : ℝ)) = ∑ i, |b i - a i| ^ (-(p + 1) : ℝ) :=
      Finset.sum_congr rfl fun i _ => by rw [abs_sub_comm]
    have h3 : (∃ i, a i - b i = 0) = ∃ i, b i - a i = 0 :=
      propext (exists_congr fun i => by rw [sub_eq_zero, sub_eq_zero, eq_comm])
    simp only [h2, h3]

/-- **C80** fails for every negative integer: the change is zero although a parameter has changed. -/
theorem C80_negative_int_refuted (p : ℕ) : getParameterChange [[0, 0]] [[0, 5]] (.negInt p) = .ok 0 := by
  simp [getParameterChange, vectorNorm]

/-- **C80** fails for the documented orders `'fro'` and `'nuc'`: `np.linalg.norm` raises `ValueError` for vectors, whatever the
parameters are. -/
theorem C80_matrix_norms_refuted (old new : List (List ℝ)) :
    getParameterChange old new .fro = .error .valueError ∧ getParameterChange old new .nuc = .error .valueError := by
  constructor <;> · simp only [getParameterChange, vectorNorm]; split_ifs <;> rfl

/-- **C80**: empty lists raise `ValueError`. -/
theorem C80_empty (ps : List (List ℝ)) (ord : NormOrd) :
    getParameterChange [] ps ord = .error .valueError ∧ getParameterChange ps [] ord = .error .valueError := by
  simp [getParameterChange]

/-- Two lists of arrays with the same shapes. -/
example : let old : List (List ℝ) := [[1, 2], [3]]
    let new : List (List ℝ) := [[1, 4], [2]]
    old.map List.length = new.map List.length ∧ old.flatten ≠ [] ∧ getParameterChange old new (.int 1) = .ok 3 := by
  refine ⟨rfl, by simp, ?_⟩
  simp [getParameterChange, vectorNorm]
  norm_num

end SafeLearning
