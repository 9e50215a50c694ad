import Verif.Model.Grid
import Mathlib.Tactic.Ring
import Mathlib.Tactic.Linarith
import Mathlib.Tactic.FieldSimp
import Mathlib.Tactic.Positivity
import Mathlib.Order.Interval.Finset.Fin
set_option autoImplicit false

/-! Helper lemmas for the grid model. -/

set_option linter.unusedSectionVars false

namespace SafeLearning

variable {K : Type} [Field K] [LinearOrder K] [IsStrictOrderedRing K]

section Radix

theorem shapeProd_succ {d : ℕ} (n : Fin (d + 1) → ℕ) :
    shapeProd n = n 0 * shapeProd (Fin.tail n) := by
  simp [shapeProd, Fin.prod_univ_succ, Fin.tail]

theorem shapeProd_pos {d : ℕ} {n : Fin d → ℕ} (h : ∀ i, 0 < n i) : 0 < shapeProd n :=
  Nat.pos_of_ne_zero (Finset.prod_ne_zero_iff.mpr fun i _ => (h i).ne')

theorem pos_of_lt_shapeProd {d : ℕ} {n : Fin d → ℕ} {k : ℕ} (h : k < shapeProd n) :
    ∀ i, 0 < n i := by
  intro i
  rcases Nat.eq_zero_or_pos (n i) with h0 | h0
  · exfalso
    have : shapeProd n = 0 := Finset.prod_eq_zero (Finset.mem_univ i) h0
    omega
  · exact h0

theorem ravel_lt {d : ℕ} (n i : Fin d → ℕ) (h : ∀ j, i j < n j) : ravel n i < shapeProd n := by
  induction d with
  | zero => simp [ravel, shapeProd]
  | succ d ih =>
    rw [shapeProd_succ, ravel]
    have h1 := ih (Fin.tail n) (Fin.tail i) fun j => h j.succ
    have h0 := h 0
    calc i 0 * shapeProd (Fin.tail n) + ravel (Fin.tail n) (Fin.tail i)
        < i 0 * shapeProd (Fin.tail n) + shapeProd (Fin.tail n) := by omega
      _ = (i 0 + 1) * shapeProd (Fin.tail n) := by ring
      _ ≤ n 0 * shapeProd (Fin.tail n) := Nat.mul_le_mul_right _ h0

theorem unravel_lt {d : ℕ} (n : Fin d → ℕ) (k : ℕ) (h : k < shapeProd n) :
    ∀ j, unravel n k j < n j := by
  induction d generalizing k with
  | zero => exact fun j => j.elim0
  | succ d ih =>
    intro j
    rw [shapeProd_succ] at h
    have hp : 0 < shapeProd (Fin.tail n) := by
      rcases Nat.eq_zero_or_pos (shapeProd (Fin.tail n)) with h0 | h0
      · rw [h0] at h; omega
      · exact h0
    refine Fin.cases ?_ (fun j => ?_) j
    · simp only [unravel, Fin.cons_zero]
      exact Nat.div_lt_of_lt_mul (by rw [Nat.mul_comm]; exact h)
    · simp only [unravel, Fin.cons_succ]
      exact ih (Fin.tail n) _ (Nat.mod_lt _ hp) j

theorem ravel_unravel {d : ℕ} (n : Fin d → ℕ) (k : ℕ) (h : k < shapeProd n) :
    ravel n (unravel n k) = k := by
  induction d generalizing k with
  | zero => simp [shapeProd] at h; simp [ravel, h]
  | succ d ih =>
    rw [shapeProd_succ] at h
    have hp : 0 < shapeProd (Fin.tail n) := by
      rcases Nat.eq_zero_or_pos (shapeProd (Fin.tail n)) with h0 | h0
      · rw [h0] at h; omega
      · exact h0
    have := ih (Fin.tail n) _ (Nat.mod_lt k hp)
    simp only [ravel, unravel, Fin.cons_zero, Fin.tail_cons]
    rw [this]
    exact Nat.div_add_mod' _ _

theorem mul_add_mod_lt {a b c : ℕ} (h : c < b) : (a * b + c) % b = c := by
  rw [Nat.add_comm, Nat.add_mul_mod_self_right]; exact Nat.mod_eq_of_lt h

theorem mul_add_div_lt {a b c : ℕ} (h : c < b) : (a * b + c) / b = a := by
  rw [Nat.add_comm, Nat.add_mul_div_right _ _ (by omega), Nat.div_eq_of_lt h, Nat.zero_add]

theorem unravel_ravel {d : ℕ} (n i : Fin d → ℕ) (h : ∀ j, i j < n j) :
    unravel n (ravel n i) = i := by
  induction d with
  | zero => funext j; exact j.elim0
  | succ d ih =>
    have h1 := ravel_lt (Fin.tail n) (Fin.tail i) fun j => h j.succ
    have h2 := ih (Fin.tail n) (Fin.tail i) fun j => h j.succ
    have hp : 0 < shapeProd (Fin.tail n) := by omega
    simp only [ravel, unravel]
    rw [mul_add_mod_lt h1, mul_add_div_lt h1, h2]
    exact Fin.cons_self_tail i

/-- The row-major formula for `ravel`. -/
theorem ravel_eq_sum {d : ℕ} (n i : Fin d → ℕ) :
    ravel n i = ∑ j, i j * ∏ l ∈ Finset.Ioi j, n l := by
  induction d with
  | zero => simp [ravel]
  | succ d ih =>
    rw [ravel, ih, Fin.sum_univ_succ]
    congr 1
    · congr 1
      rw [shapeProd, Fin.Ioi_zero_eq_map, Finset.prod_map]
      rfl
    · refine Finset.sum_congr rfl fun j _ => ?_
      rw [← Fin.map_succEmb_Ioi, Finset.prod_map]
      rfl

theorem unravelIndex_ok {d : ℕ} (n : Fin d → ℕ) (k : ℕ) (h : k < shapeProd n) :
    unravelIndex n (k : ℤ) = .ok (unravel n k) := by
  unfold unravelIndex
  rw [if_pos ⟨by omega, by exact_mod_cast h⟩]
  simp

theorem ravelMultiIndex_ok {d : ℕ} (n i : Fin d → ℕ) (h : ∀ j, i j < n j) :
    ravelMultiIndex n (fun j => (i j : ℤ)) = .ok (ravel n i) := by
  unfold ravelMultiIndex
  rw [if_pos fun j => ⟨by simp, by simpa using h j⟩]
  simp

end Radix

section Rint

variable [FloorRing K]

theorem rint_abs_le (x : K) : |x - (rint x : K)| ≤ 1 / 2 := by
  have h0 := Int.floor_le x
  have h1 := Int.lt_floor_add_one x
  unfold rint
  simp only
  split_ifs with h2 h3 h4 <;> push_cast <;> rw [abs_le] <;> constructor <;> linarith

theorem rint_intCast (z : ℤ) : rint (z : K) = z := by
  unfold rint
  simp

theorem rint_eq_of_abs_lt {x : K} {z : ℤ} (h : |x - z| < 1 / 2) : rint x = z := by
  have h1 := rint_abs_le x
  have h3 : |(rint x : K) - z| < 1 := by
    have : (rint x : K) - z = (x - z) - (x - rint x) := by ring
    rw [this]
    calc |(x - z) - (x - rint x)| ≤ |x - z| + |x - rint x| := abs_sub _ _
      _ < 1 := by linarith
  have h4 : |rint x - z| < 1 := by exact_mod_cast h3
  have := Int.abs_lt_one_iff.mp h4
  omega

theorem rint_mono_bounds {x : K} {a b : ℤ} (ha : (a : K) ≤ x) (hb : x ≤ b) :
    a ≤ rint x ∧ rint x ≤ b := by
  have h1 := rint_abs_le x
  rw [abs_le] at h1
  constructor
  · by_contra hlt
    have : rint x + 1 ≤ a := by omega
    have : (rint x : K) + 1 ≤ a := by exact_mod_cast this
    linarith [h1.2]
  · by_contra hlt
    have : b + 1 ≤ rint x := by omega
    have : (b : K) + 1 ≤ rint x := by exact_mod_cast this
    linarith [h1.1]

end Rint

section Clip

theorem clip_of_mem {α : Type*} [LinearOrder α] {x lo hi : α} (h1 : lo ≤ x) (h2 : x ≤ hi) :
    clip x lo hi = x := by
  simp [clip, h1, h2]

theorem le_clip {α : Type*} [LinearOrder α] {x lo hi : α} (h : lo ≤ hi) : lo ≤ clip x lo hi := by
  simp [clip, h]

theorem clip_le {α : Type*} [LinearOrder α] {x lo hi : α} : clip x lo hi ≤ hi := by
  simp [clip]

theorem clip_of_le_lo {α : Type*} [LinearOrder α] {x lo hi : α} (h : lo ≤ hi) (h1 : x ≤ lo) :
    clip x lo hi = lo := by
  simp [clip, h1, h]

theorem clip_of_hi_le {α : Type*} [LinearOrder α] {x lo hi : α} (h1 : hi ≤ x) :
    clip x lo hi = hi := by
  simp [clip, h1]

theorem clip_clip {α : Type*} [LinearOrder α] {x lo hi : α} (h : lo ≤ hi) :
    clip (clip x lo hi) lo hi = clip x lo hi :=
  clip_of_mem (le_clip h) clip_le

end Clip

theorem linspace_length (lo up : K) (n : ℕ) : (linspace lo up n).length = n := by
  simp [linspace]

/-- In exact arithmetic the overwritten last entry of `linspace` equals the formula. -/
theorem linspace_eq (lo up : K) (n : ℕ) :
    linspace lo up n = (List.range n).map fun k : ℕ => (k : K) * ((up - lo) / ((n : K) - 1)) + lo := by
  unfold linspace
  refine List.map_congr_left fun k _ => ?_
  split_ifs with h
  · obtain ⟨h1, h2⟩ := h
    have h3 : ((k : K) + 1) = n := by exact_mod_cast h1
    have h4 : ((n : K) - 1) ≠ 0 := by
      have : (1 : K) < n := by exact_mod_cast h2
      intro h; linarith
    have h5 : (k : K) = n - 1 := by linarith
    rw [h5, mul_div_cancel₀ _ h4]; ring
  · rfl

/-- `range (a * b)` in row-major order. -/
theorem range_mul (a b : ℕ) :
    List.range (a * b) = (List.range a).flatMap fun i => (List.range b).map fun j => i * b + j := by
  induction a with
  | zero => simp
  | succ a ih =>
    rw [List.range_succ, List.flatMap_append, ← ih, Nat.add_mul, Nat.one_mul, List.range_add]
    simp

theorem meshIJ_eq {α : Type*} {d : ℕ} (n : Fin d → ℕ) (f : Fin d → ℕ → α) :
    meshIJ (fun i => (List.range (n i)).map (f i)) =
      (List.range (shapeProd n)).map fun k j => f j (unravel n k j) := by
  induction d with
  | zero =>
    simp only [meshIJ, shapeProd, Finset.univ_eq_empty, Finset.prod_empty, List.range_one,
      List.map_cons, List.map_nil, List.cons.injEq, and_true]
    funext j; exact j.elim0
  | succ d ih =>
    have ih' := ih (Fin.tail n) (Fin.tail f)
    simp only [meshIJ]
    have : Fin.tail (fun i => (List.range (n i)).map (f i))
        = fun i => (List.range (Fin.tail n i)).map (Fin.tail f i) := rfl
    rw [this, ih', shapeProd_succ, range_mul, List.map_flatMap, List.flatMap_map]
    congr 1
    funext i
    rw [List.map_map, List.map_map]
    refine List.map_congr_left fun k hk => ?_
    have hk' : k < shapeProd (Fin.tail n) := by simpa using hk
    have hp : 0 < shapeProd (Fin.tail n) := by omega
    funext j
    refine Fin.cases ?_ (fun j => ?_) j
    · simp only [Function.comp, Fin.cons_zero, unravel]
      rw [mul_add_div_lt hk']
    · simp only [Function.comp, Fin.cons_succ, unravel, Fin.tail]
      rw [mul_add_mod_lt hk']

namespace GridWorld

variable {d : ℕ} (g : GridWorld K d)

/-- Well-formed grids: what the constructor checks, plus non-degenerate limits. -/
structure WF : Prop where
  two_le : ∀ i, 2 ≤ g.num i
  lt : ∀ i, g.lo i < g.hi i

variable {g}

theorem WF.num_sub_pos (h : g.WF) (i : Fin d) : (0 : K) < (g.num i : K) - 1 := by
  have : (2 : K) ≤ g.num i := by exact_mod_cast h.two_le i
  linarith

theorem WF.unit_pos (h : g.WF) (i : Fin d) : 0 < g.unit i :=
  div_pos (sub_pos.mpr (h.lt i)) (h.num_sub_pos i)

theorem WF.unit_mul (h : g.WF) (i : Fin d) : ((g.num i : K) - 1) * g.unit i = g.hi i - g.lo i := by
  rw [unit, mul_div_cancel₀ _ (h.num_sub_pos i).ne']

theorem checkDimensions_ofFn (x : Fin d → K) :
    checkDimensions (d := d) (List.ofFn x) = .ok x := by
  unfold checkDimensions
  rw [dif_pos (by simp)]
  simp

theorem stateToIndex_ofFn [FloorRing K] (x : Fin d → K) :
    g.stateToIndex (List.ofFn x) = ravelMultiIndex g.num (g.stateToIjk x) := by
  unfold stateToIndex
  rw [checkDimensions_ofFn]
  rfl

theorem indexToState_ok (k : ℕ) (h : k < g.nindex) :
    g.indexToState (k : ℤ) = .ok (g.ijkToState (unravel g.num k)) := by
  unfold indexToState
  rw [unravelIndex_ok _ _ h]
  rfl

theorem WF.stateToIjk_ijkToState [FloorRing K] (h : g.WF) (ijk : Fin d → ℕ)
    (hlt : ∀ i, ijk i < g.num i) (i : Fin d) :
    g.stateToIjk (g.ijkToState ijk) i = ijk i := by
  unfold stateToIjk ijkToState
  have hu := h.unit_pos i
  have h1 : (0 : K) ≤ (ijk i : K) * g.unit i := by positivity
  have h2 : (ijk i : K) * g.unit i ≤ g.hi i - g.lo i := by
    rw [← h.unit_mul i]
    have : (ijk i : K) + 1 ≤ g.num i := by exact_mod_cast hlt i
    exact mul_le_mul_of_nonneg_right (by linarith) hu.le
  rw [clip_of_mem (by linarith) (by linarith)]
  have : ((ijk i : K) * g.unit i + g.lo i - g.lo i) * (1 / g.unit i) = ((ijk i : ℤ) : K) := by
    rw [add_sub_cancel_right, mul_assoc, mul_one_div_cancel hu.ne', mul_one]; simp
  rw [this, rint_intCast]

/-- The scaled clipped coordinate before rounding lies in `[0, num - 1]`. -/
theorem WF.scaled_mem (h : g.WF) (x : K) (i : Fin d) :
    0 ≤ (clip x (g.lo i) (g.hi i) - g.lo i) * (1 / g.unit i) ∧
    (clip x (g.lo i) (g.hi i) - g.lo i) * (1 / g.unit i) ≤ (g.num i : K) - 1 := by
  have hu := h.unit_pos i
  have h1 := le_clip (x := x) (h.lt i).le
  have h2 := clip_le (x := x) (lo := g.lo i) (hi := g.hi i)
  constructor
  · exact mul_nonneg (by linarith) (by positivity)
  · rw [mul_one_div, div_le_iff₀ hu, h.unit_mul]; linarith

theorem WF.stateToIjk_mem [FloorRing K] (h : g.WF) (x : Fin d → K) (i : Fin d) :
    0 ≤ g.stateToIjk x i ∧ g.stateToIjk x i < g.num i := by
  have h1 := h.scaled_mem (x i) i
  have h2 : 2 ≤ g.num i := h.two_le i
  have := rint_mono_bounds (a := 0) (b := (g.num i : ℤ) - 1)
    (x := (clip (x i) (g.lo i) (g.hi i) - g.lo i) * (1 / g.unit i))
    (by simpa using h1.1) (by push_cast; exact h1.2)
  unfold stateToIjk
  omega

end GridWorld

end SafeLearning

namespace SafeLearning

variable {K : Type} [Field K] [LinearOrder K] [IsStrictOrderedRing K]

theorem countP_range_le (p : ℕ → Bool) (n : ℕ) : (List.range n).countP p ≤ n := by
  simpa using List.countP_le_length (p := p) (l := List.range n)

/-- Counting a downward closed predicate on `range n`. -/
theorem lt_countP_range (p : ℕ → Bool) (hp : ∀ i j, i ≤ j → p j = true → p i = true) (n j : ℕ)
    (hj : j < n) : j < (List.range n).countP p ↔ p j = true := by
  induction n with
  | zero => omega
  | succ n ih =>
    rw [List.range_succ, List.countP_append]
    have hle := countP_range_le p n
    rcases Nat.lt_or_ge j n with h | h
    · have ih := ih h
      constructor
      · intro h1
        by_cases hn : p n = true
        · exact hp j n h.le hn
        · simp [hn] at h1; exact ih.mp h1
      · intro h1; have := ih.mpr h1; omega
    · have hjn : j = n := by omega
      subst hjn
      constructor
      · intro h1
        by_contra hn
        simp [hn] at h1; omega
      · intro h1
        have : (List.range j).countP p = j := by
          have : (List.range j).countP p = (List.range j).length := by
            rw [List.countP_eq_length]
            intro a ha
            exact hp a j (by simpa using (List.mem_range.mp ha).le) h1
          simpa using this
        simp [this, h1]

namespace GridWorld

variable {d : ℕ} {g : GridWorld K d}

theorem WF.lt_digitize (h : g.WF) (x : K) (i : Fin d) (j : ℕ) (hj : j < g.num i) :
    j < digitize x (g.discretePoints i) ↔ (j : K) * g.unit i + g.lo i ≤ x := by
  unfold digitize discretePoints
  rw [linspace_eq, List.countP_map]
  have hu := h.unit_pos i
  have := lt_countP_range
    ((fun b => decide (b ≤ x)) ∘ fun k : ℕ => (k : K) * ((g.hi i - g.lo i) / ((g.num i : K) - 1)) + g.lo i)
    (by
      intro a b hab
      simp only [Function.comp, decide_eq_true_eq]
      intro hb
      refine le_trans ?_ hb
      have : (a : K) ≤ b := by exact_mod_cast hab
      have := mul_le_mul_of_nonneg_right this hu.le
      unfold unit at this
      linarith) (g.num i) j hj
  rw [this]
  simp [unit]

theorem digitize_le (x : K) (i : Fin d) : digitize x (g.discretePoints i) ≤ g.num i := by
  unfold digitize discretePoints
  calc _ ≤ (linspace (g.lo i) (g.hi i) (g.num i)).length := List.countP_le_length
    _ = _ := linspace_length _ _ _

theorem WF.stateToRectIjk_mem (h : g.WF) (x : Fin d → K) (i : Fin d) :
    0 ≤ g.stateToRectIjk x i ∧ g.stateToRectIjk x i < g.numRect i := by
  have h2 := h.two_le i
  have h1 : (0 : ℤ) ≤ (g.num i : ℤ) - 2 := by omega
  unfold stateToRectIjk numRect
  constructor
  · exact le_clip h1
  · have := clip_le (x := (digitize (x i) (g.discretePoints i) : ℤ) - 1) (lo := 0)
      (hi := (g.num i : ℤ) - 2)
    omega

/-- The cell found by `digitize` contains the clipped coordinate. -/
theorem WF.stateToRectIjk_spec (h : g.WF) (x : Fin d → K) (i : Fin d) :
    let p := (g.stateToRectIjk x i : K) * g.unit i + g.lo i
    let y := clip (x i) (g.lo i) (g.hi i)
    p ≤ y ∧ y ≤ p + g.unit i ∧ (y < p + g.unit i ∨ y = g.hi i) := by
  intro p y
  have hu := h.unit_pos i
  have h2 := h.two_le i
  have hum := h.unit_mul i
  have hlt := h.lt i
  set c := digitize (x i) (g.discretePoints i) with hc
  have hcle : c ≤ g.num i := digitize_le _ _
  have hspec := h.lt_digitize (x i) i
  rw [← hc] at hspec
  have hr : g.stateToRectIjk x i = clip ((c : ℤ) - 1) 0 ((g.num i : ℤ) - 2) := rfl
  rcases Nat.eq_zero_or_pos c with h0 | hpos
  · -- below the lower limit
    have hxlo : x i < g.lo i := by
      have := (hspec 0 (by omega)).not.mp (by omega)
      simpa using this
    have hr0 : g.stateToRectIjk x i = 0 := by
      rw [hr]; exact clip_of_le_lo (by omega) (by omega)
    have hy : y = g.lo i := clip_of_le_lo hlt.le hxlo.le
    simp only [p, hr0, hy]
    push_cast
    refine ⟨by linarith, by linarith, Or.inl (by linarith)⟩
  · have hxlo : g.lo i ≤ x i := by
      have := (hspec 0 (by omega)).mp hpos
      simpa using this
    rcases Nat.lt_or_ge c (g.num i) with hcn | hcn
    · -- interior
      have hr0 : g.stateToRectIjk x i = (c : ℤ) - 1 := by
        rw [hr]; exact clip_of_mem (by omega) (by omega)
      have h3 : ((c - 1 : ℕ) : K) * g.unit i + g.lo i ≤ x i := (hspec (c-1) (by omega)).mp (by omega)
      have h4 : x i < (c : K) * g.unit i + g.lo i := by
        have := (hspec c hcn).not.mp (by omega)
        simpa using this
      have hcast : ((c - 1 : ℕ) : K) = (c : K) - 1 := by
        rw [Nat.cast_sub (by omega)]; simp
      have h5 : (c : K) ≤ (g.num i : K) - 1 := by
        have : (c : K) + 1 ≤ g.num i := by exact_mod_cast hcn
        linarith
      have h6 : (c : K) * g.unit i ≤ g.hi i - g.lo i := by
        rw [← hum]; exact mul_le_mul_of_nonneg_right h5 hu.le
      have hy : y = x i := clip_of_mem hxlo (by linarith)
      simp only [p, hr0, hy]
      push_cast
      rw [hcast] at h3
      refine ⟨h3, ?_, Or.inl ?_⟩ <;> linarith
    · -- at or above the upper limit
      have hcn' : c = g.num i := by omega
      have hr0 : g.stateToRectIjk x i = (g.num i : ℤ) - 2 := by
        rw [hr]; exact clip_of_hi_le (by omega)
      have h3 : ((g.num i - 1 : ℕ) : K) * g.unit i + g.lo i ≤ x i :=
        (hspec (g.num i - 1) (by omega)).mp (by omega)
      have hcast : ((g.num i - 1 : ℕ) : K) = (g.num i : K) - 1 := by
        rw [Nat.cast_sub (by omega)]; simp
      rw [hcast, hum] at h3
      have hy : y = g.hi i := clip_of_hi_le (by linarith)
      have hp : p = g.hi i - g.unit i := by
        simp only [p, hr0]
        push_cast
        linarith
      rw [hp, hy]
      refine ⟨by linarith, by linarith, Or.inr rfl⟩

/-- A point in the half-open cell `r` is located in cell `r`. -/
theorem WF.stateToRectIjk_eq (h : g.WF) (x : Fin d → K) (i : Fin d) (r : ℕ)
    (hr : r < g.numRect i) (h1 : (r : K) * g.unit i + g.lo i ≤ x i)
    (h2 : x i < ((r : K) + 1) * g.unit i + g.lo i) : g.stateToRectIjk x i = r := by
  unfold numRect at hr
  have h3 := (h.lt_digitize (x i) i r (by omega)).mpr h1
  have h4 : ¬ (r + 1 < digitize (x i) (g.discretePoints i)) := by
    rw [h.lt_digitize (x i) i (r + 1) (by omega)]
    push_cast; linarith
  unfold stateToRectIjk
  rw [clip_of_mem] <;> omega

end GridWorld

end SafeLearning
