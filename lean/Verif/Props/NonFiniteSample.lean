import Verif.Props.NonFinite
import Verif.Lemmas.Sparse
set_option autoImplicit false

set_option linter.unusedSectionVars false

/-!
# C111: sampling with infinities and NaN
-/

namespace SafeLearning.FltLyap

open Flt Spec

variable {K : Type} [Field K] [LinearOrder K] [IsStrictOrderedRing K] {n m : ℕ}

section Argmax

theorem lt_nan_right (a : Flt K) : lt a nan = false := by cases a <;> rfl

theorem lt_nan_left (a : Flt K) : lt nan a = false := by cases a <;> rfl

theorem lt_false_of_lt {v b x : Flt K} (h1 : lt v b = true) (h2 : lt v x = false) :
    lt b x = false := by
  cases v <;> cases b <;> cases x <;> simp_all [lt]
  exact le_trans h2 h1.le

theorem lt_irrefl' (a : Flt K) : lt a a = false := by cases a <;> simp [lt]

theorem argmaxNaN_foldl (l : List (Flt K)) : ∀ (pre : List (Flt K)) (k : ℕ) (v : Flt K),
    pre[k]? = some v → (∀ x ∈ pre, lt v x = false) → (v ≠ nan → nan ∉ pre) →
    ∃ k' v', (l.foldl (fun (s : ℕ × ℕ × Flt K) b =>
      if s.2.2 ≠ nan ∧ (b = nan ∨ lt s.2.2 b = true) then (s.1 + 1, s.1, b)
      else (s.1 + 1, s.2.1, s.2.2)) (pre.length, k, v)).2.1 = k' ∧
      (pre ++ l)[k']? = some v' ∧ (∀ x ∈ pre ++ l, lt v' x = false) ∧
      (v' ≠ nan → nan ∉ pre ++ l) := by
  induction l with
  | nil => intro pre k v h1 h2 h3; exact ⟨k, v, rfl, by simpa using h1, by simpa using h2, by simpa using h3⟩
  | cons b l ih =>
    intro pre k v h1 h2 h3
    rw [List.foldl_cons]
    have hap : pre ++ b :: l = (pre ++ [b]) ++ l := by simp
    have hlen : pre.length + 1 = (pre ++ [b]).length := by simp
    rw [hap]
    have hk : k < pre.length := by
      by_contra hc
      rw [List.getElem?_eq_none (by omega)] at h1
      cases h1
    by_cases hc : v ≠ nan ∧ (b = nan ∨ lt v b = true)
    · simp only [if_pos hc]
      rw [hlen]
      refine ih (pre ++ [b]) pre.length b (by simp) ?_ ?_
      · intro x hx
        rcases hc.2 with rfl | hb
        · exact lt_nan_left x
        · rcases List.mem_append.mp hx with hx | hx
          · exact lt_false_of_lt hb (h2 x hx)
          · rw [List.mem_singleton.mp hx]; exact lt_irrefl' b
      · intro hb hmem
        rcases List.mem_append.mp hmem with hx | hx
        · exact h3 hc.1 hx
        · exact hb (List.mem_singleton.mp hx).symm
    · simp only [if_neg hc]
      rw [hlen]
      refine ih (pre ++ [b]) k v (by rw [List.getElem?_append_left hk]; exact h1) ?_ ?_
      · intro x hx
        rcases List.mem_append.mp hx with hx | hx
        · exact h2 x hx
        · rw [List.mem_singleton.mp hx]
          by_cases hv : v = nan
          · rw [hv]; exact lt_nan_left b
          · by_contra hb
            exact hc ⟨hv, Or.inr (by simpa using hb)⟩
      · intro hv hmem
        rcases List.mem_append.mp hmem with hx | hx
        · exact h3 hv hx
        · exact hc ⟨hv, Or.inl (List.mem_singleton.mp hx).symm⟩

/-- `np.argmax` finds an entry that is not smaller than any other; it is NaN as soon as one is. -/
theorem argmaxNaN_spec (l : List (Flt K)) (hl : l ≠ []) :
    ∃ k v, argmaxNaN l = .ok k ∧ l[k]? = some v ∧ (∀ x ∈ l, lt v x = false) ∧
      (v ≠ nan → nan ∉ l) := by
  cases l with
  | nil => exact absurd rfl hl
  | cons a l =>
    obtain ⟨k, v, h1, h2, h3, h4⟩ := argmaxNaN_foldl l [a] 0 a rfl
      (by intro x hx; rw [List.mem_singleton.mp hx]; exact lt_irrefl' a)
      (by intro h hm; exact h (List.mem_singleton.mp hm).symm)
    refine ⟨k, v, ?_, h2, h3, h4⟩
    rw [argmaxNaN]
    have : (1, 0, a) = (([a] : List (Flt K)).length, 0, a) := rfl
    rw [this, h1]

end Argmax

variable (A : Arith K) (S : FSample K n m)

theorem mostUncertain_spec (backup : Bool) (l : List (Pair (Flt K) n m)) (hl : l ≠ []) :
    ∃ p ∈ l, mostUncertain A S backup l =
        .ok { backup := backup, pair := p, bound := sampleBound A S p } ∧
      (∀ q ∈ l, lt (sampleBound A S p) (sampleBound A S q) = false) ∧
      (sampleBound A S p ≠ nan → ∀ q ∈ l, sampleBound A S q ≠ nan) := by
  obtain ⟨k, v, h1, h2, h3, h4⟩ := argmaxNaN_spec (l.map (sampleBound A S)) (by simpa using hl)
  rw [List.getElem?_map] at h2
  cases hk : l[k]? with
  | none => rw [hk] at h2; simp at h2
  | some p =>
    rw [hk] at h2
    simp only [Option.map_some, Option.some.injEq] at h2
    refine ⟨p, List.mem_of_getElem? hk, ?_, fun q hq => ?_, fun hp q hq hn => ?_⟩
    · unfold mostUncertain
      rw [h1]
      simp only [bind, Except.bind, hk]
      rfl
    · rw [h2]; exact h3 _ (List.mem_map_of_mem hq)
    · exact h4 (by rw [← h2]; exact hp) (by rw [← hn]; exact List.mem_map_of_mem hq)

/-- The predictions for a pair are meaningful: the mean has a Lyapunov value that is a number below
infinity, all standard deviations and Lipschitz constants are finite. -/
structure _root_.Spec.MeaningfulPair (S : FSample K n m) (p : Pair (Flt K) n m) : Prop where
  value : S.V (S.dynamics p).1 ≠ .nan ∧ S.V (S.dynamics p).1 ≠ .pinf
  std : ∀ i, FiniteFlt ((S.dynamics p).2 i)
  lipschitz : ∀ i, FiniteFlt (lipEntry S.lv (S.dynamics p).1 i)

/-- The standard deviations and Lipschitz constants are nonnegative, infinite or NaN. -/
structure _root_.Spec.SampleBounds (S : FSample K n m) : Prop where
  std : ∀ p i, NonnegOrNaN ((S.dynamics p).2 i)
  lv : ∀ x i, NonnegOrNaN (lipEntry S.lv x i)

theorem meaningful_of_mapsInside (hS : SampleBounds S) (p : Pair (Flt K) n m)
    (h : mapsInside A S p = true) : MeaningfulPair S p := by
  obtain ⟨h1, h2⟩ := low_add A (lt_low h).1
  have h3 := fun i => low_mul A (hS.lv _ i) (hS.std p i)
    ((low_sum A h2).2 _ (List.mem_ofFn.mpr ⟨i, rfl⟩))
  exact ⟨h1, fun i => (h3 i).2, fun i => (h3 i).1⟩

theorem sampleBound_ne_nan (hA : SignRounding A) (p : Pair (Flt K) n m) (hS : SampleBounds S)
    (hp : MeaningfulPair S p) : sampleBound A S p ≠ nan := by
  have : ∀ (l : List (Flt K)) (z : Flt K), (∀ a ∈ l, NonnegOrNaN a ∧ FiniteFlt a) →
      (z = pinf ∨ ∃ x, 0 ≤ x ∧ z = fin x) → l.foldl (add A) z ≠ nan := by
    intro l
    induction l with
    | nil =>
      rintro z - (rfl | ⟨x, -, rfl⟩) <;> simp
    | cons a l ih =>
      intro z hl hz
      rw [List.foldl_cons]
      refine ih _ (fun b hb => hl b (by simp [hb])) ?_
      obtain ⟨h1, x, rfl⟩ := hl a (by simp)
      have hx : 0 ≤ x := by
        rcases h1 with h | h | ⟨y, hy, h⟩
        · cases h
        · cases h
        · cases h; exact hy
      rcases hz with rfl | ⟨z, hz, rfl⟩
      · exact Or.inl rfl
      · exact hA.nonneg (z + x) (by linarith)
  unfold sampleBound sum
  refine this _ _ ?_ (Or.inr ⟨0, le_refl _, rfl⟩)
  intro a ha
  obtain ⟨i, rfl⟩ := List.mem_ofFn.mp ha
  exact ⟨hS.std p i, hp.std i⟩

theorem accepted_mapsInside {positive : Bool} {p : Pair (Flt K) n m}
    (h : accepted A S positive p = .ok true) : mapsInside A S p = true := by
  unfold accepted at h
  cases positive with
  | true => simpa [pure, Except.pure] using h
  | false =>
    simp only [Bool.false_eq_true, if_false, bind, Except.bind] at h
    cases he : S.inSafeSet (S.dynamics p).1 with
    | error e => rw [he] at h; cases h
    | ok e =>
      rw [he] at h
      simp only [pure, Except.pure, Except.ok.injEq, Bool.and_eq_true] at h
      exact h.1

/-- **C111**: whatever NaN or infinite values the dynamics, the Lyapunov function, the constants or
`c_max` take, a pair that `get_safe_sample` returns without falling back to the backup policy is one
of the candidates and has meaningful predictions; the uncertainty returned for it is a number and no
smaller than that of any other accepted candidate. -/
theorem C111_sample_is_meaningful_partial (hA : SignRounding A) (hS : SampleBounds S) (positive : Bool)
    (pairs backupPairs : List (Pair (Flt K) n m)) (r : SampleSystem.Result (Flt K) n m)
    (h : selectSample A S positive pairs backupPairs = .ok r) (hb : r.backup = false) :
    r.pair ∈ pairs ∧ MeaningfulPair S r.pair ∧ S.cMax ≠ .nan ∧ r.bound ≠ .nan ∧
      r.bound = sampleBound A S r.pair ∧
      (positive = false → S.inSafeSet (S.dynamics r.pair).1 = .ok true) ∧
      ∀ q ∈ pairs, accepted A S positive q = .ok true → lt r.bound (sampleBound A S q) = false := by
  unfold selectSample at h
  simp only [bind, Except.bind] at h
  cases hm : pairs.mapM fun p => accepted A S positive p with
  | error e => rw [hm] at h; cases h
  | ok mask =>
    rw [hm] at h
    simp only [] at h
    obtain ⟨hlen, hmask⟩ := mapM_ok_inv hm
    set safe := ((pairs.zip mask).filter fun q => q.2).map fun q => q.1 with hsafe
    have hmem : ∀ p, p ∈ safe ↔ p ∈ pairs ∧ accepted A S positive p = .ok true := by
      intro p
      rw [hsafe, List.mem_map]
      constructor
      · rintro ⟨⟨q, b⟩, hq, rfl⟩
        obtain ⟨hq, hb⟩ := List.mem_filter.mp hq
        obtain ⟨k, hk⟩ := List.getElem?_of_mem hq
        rw [List.getElem?_zip_eq_some] at hk
        obtain ⟨b', h1, h2⟩ := hmask k q hk.1
        have hbb : b' = b := by
          have := h1.symm.trans hk.2; simpa using this
        refine ⟨List.mem_of_getElem? hk.1, ?_⟩
        simp only [] at hb
        rw [h2, hbb, hb]
      · rintro ⟨hp, hacc⟩
        obtain ⟨k, hk⟩ := List.getElem?_of_mem hp
        obtain ⟨b, h1, h2⟩ := hmask k p hk
        have : b = true := by
          have := hacc.symm.trans h2; simpa using this.symm
        subst this
        refine ⟨(p, true), List.mem_filter.mpr ⟨?_, rfl⟩, rfl⟩
        exact List.mem_of_getElem? (i := k) (by rw [List.getElem?_zip_eq_some]; exact ⟨hk, h1⟩)
    split_ifs at h with h0
    · exfalso
      cases hbp : backupPairs with
      | nil => rw [hbp] at h; cases h
      | cons x l =>
        obtain ⟨p, -, hp, -⟩ := mostUncertain_spec A S true backupPairs (by simp [hbp])
        rw [hp] at h
        cases h
        cases hb
    · have hne : safe ≠ [] := by intro hc; rw [hc] at h0; exact h0 rfl
      obtain ⟨p, hp1, hp2, hp3, -⟩ := mostUncertain_spec A S false safe hne
      rw [hp2] at h
      cases h
      obtain ⟨h1, h2⟩ := (hmem p).mp hp1
      have hin := accepted_mapsInside A S h2
      have hmp := meaningful_of_mapsInside A S hS p hin
      refine ⟨h1, hmp, (lt_low hin).2.1, sampleBound_ne_nan A S hA p hS hmp, rfl, ?_, ?_⟩
      · intro hpos
        unfold accepted at h2
        rw [hpos] at h2
        simp only [Bool.false_eq_true, if_false, bind, Except.bind] at h2
        cases he : S.inSafeSet (S.dynamics p).1 with
        | error e => rw [he] at h2; cases h2
        | ok e =>
          rw [he] at h2
          simp only [pure, Except.pure, Except.ok.injEq, Bool.and_eq_true] at h2
          rw [h2.2]
      · intro q hq hacc
        exact hp3 q ((hmem q).mpr ⟨hq, hacc⟩)

/-! ## A concrete case -/

/-- A one-dimensional system with `V(x) = x` whose action selects the standard deviation. -/
def nanSample (cMax : Flt ℚ) : FSample ℚ 1 1 where
  dynamics p := (fun _ => fin 0, fun i => Flt.abs (p.2 i))
  lv := .const (fin 1)
  V x := x 0
  cMax := cMax
  inSafeSet _ := .ok true

/-- The pair of state `0` and an action. -/
def nanPair (u : Flt ℚ) : Pair (Flt ℚ) 1 1 := (fun _ => fin 0, fun _ => u)

/-- The result as data, to evaluate it. -/
def resultData (r : Except PyErr (SampleSystem.Result (Flt ℚ) 1 1)) :
    Option (Bool × Flt ℚ × Flt ℚ) :=
  match r with
  | .ok r => some (r.backup, r.pair.2 0, r.bound)
  | .error _ => none

/-- Of the candidates with deviations `1`, `2`, infinity and NaN the second is chosen. -/
example : resultData (selectSample overflowArith (nanSample (fin 5)) false
    [nanPair (fin 1), nanPair (fin 2), nanPair pinf, nanPair nan] []) =
      some (false, fin 2, fin 2) := by decide +kernel

theorem nanSample_bounds (c : Flt ℚ) : SampleBounds (nanSample c) where
  std _ _ := abs_nonneg' _
  lv _ _ := Or.inr (Or.inr ⟨1, by norm_num, rfl⟩)

example (r : SampleSystem.Result (Flt ℚ) 1 1) (h : selectSample overflowArith (nanSample (fin 5)) false
    [nanPair (fin 1), nanPair (fin 2), nanPair pinf, nanPair nan] [] = .ok r) :
    MeaningfulPair (nanSample (fin 5)) r.pair := by
  have hd : resultData (selectSample overflowArith (nanSample (fin 5)) false
    [nanPair (fin 1), nanPair (fin 2), nanPair pinf, nanPair nan] []) =
      some (false, fin 2, fin 2) := by decide +kernel
  rw [h] at hd
  simp only [resultData, Option.some.injEq, Prod.mk.injEq] at hd
  exact (C111_sample_is_meaningful_partial overflowArith _ overflowArith_sign (nanSample_bounds _) _ _ _ r h
    hd.1).2.1

/-- **C111**, what is missing: the backup policy is not protected. `np.argmax` prefers NaN, so the pair
with an undefined prediction is returned although one with a finite uncertainty is available. -/
theorem C111_backup_refuted :
    ¬ ∀ (S : FSample ℚ 1 1) (pairs backupPairs : List (Pair (Flt ℚ) 1 1))
      (r : SampleSystem.Result (Flt ℚ) 1 1),
      selectSample overflowArith S true pairs backupPairs = .ok r →
      (∃ q ∈ backupPairs, FiniteFlt (sampleBound overflowArith S q)) → r.bound ≠ nan := by
  intro h
  have hr : ∃ r, selectSample overflowArith (nanSample (fin 0)) true [nanPair (fin 1)]
      [nanPair (fin 1), nanPair nan] = .ok r ∧ r.bound = nan := by
    cases hs : selectSample overflowArith (nanSample (fin 0)) true [nanPair (fin 1)]
      [nanPair (fin 1), nanPair nan] with
    | error e =>
      have : resultData (selectSample overflowArith (nanSample (fin 0)) true [nanPair (fin 1)]
        [nanPair (fin 1), nanPair nan]) = some (true, nan, nan) := by decide +kernel
      rw [hs] at this; cases this
    | ok r =>
      have : resultData (selectSample overflowArith (nanSample (fin 0)) true [nanPair (fin 1)]
        [nanPair (fin 1), nanPair nan]) = some (true, nan, nan) := by decide +kernel
      rw [hs] at this
      simp only [resultData, Option.some.injEq, Prod.mk.injEq] at this
      exact ⟨r, rfl, this.2.2⟩
  obtain ⟨r, hr1, hr2⟩ := hr
  exact h _ _ _ r hr1 ⟨nanPair (fin 1), by simp, ⟨1, by decide +kernel⟩⟩ hr2

end SafeLearning.FltLyap
