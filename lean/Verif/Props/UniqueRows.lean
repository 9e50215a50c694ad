import Verif.Model.SafeSample
import Verif.Lemmas.Grid
import Mathlib.Tactic.FinCases
import Mathlib.Tactic.NormNum
import Mathlib.Tactic.Linarith
set_option autoImplicit false

/-!
# Properties C42 (`unique_rows`) and C37 (`perturb_actions`)
-/

set_option linter.unusedSectionVars false

namespace SafeLearning

/-! ## C42 -/

section Unique
variable {α β : Type} [LinearOrder β] (key : α → β)

theorem mem_of_mem_firstOccurrences {l : List α} {a : α} (h : a ∈ firstOccurrences key l) :
    a ∈ l := by
  induction l with
  | nil => exact h
  | cons b l ih =>
    rw [firstOccurrences, List.mem_cons, List.mem_filter] at h
    rcases h with rfl | ⟨h, -⟩
    · simp
    · exact List.mem_cons_of_mem _ (ih h)

theorem exists_firstOccurrences {l : List α} {a : α} (h : a ∈ l) :
    ∃ b ∈ firstOccurrences key l, key b = key a := by
  induction l with
  | nil => cases h
  | cons c l ih =>
    rw [firstOccurrences]
    rcases List.mem_cons.mp h with rfl | h
    · exact ⟨a, by simp, rfl⟩
    · obtain ⟨b, hb, hba⟩ := ih h
      by_cases hc : key b = key c
      · exact ⟨c, by simp, by rw [← hc, hba]⟩
      · exact ⟨b, List.mem_cons_of_mem _ (List.mem_filter.mpr ⟨hb, by simpa using hc⟩), hba⟩

theorem firstOccurrences_pairwise (l : List α) :
    (firstOccurrences key l).Pairwise fun a b => key a ≠ key b := by
  induction l with
  | nil => exact List.Pairwise.nil
  | cons c l ih =>
    rw [firstOccurrences, List.pairwise_cons]
    refine ⟨fun b hb => ?_, ih.filter _⟩
    have := (List.mem_filter.mp hb).2
    simp only [decide_eq_true_eq] at this
    exact fun h => this h.symm

theorem uniqueRows_perm (l : List α) : (uniqueRows key l).Perm (firstOccurrences key l) :=
  List.perm_insertionSort _ _

theorem uniqueRows_sorted (l : List α) :
    (uniqueRows key l).Pairwise fun a b => key a ≤ key b := by
  have : Std.Total (fun a b : α => key a ≤ key b) := ⟨fun a b => le_total _ _⟩
  have : IsTrans α (fun a b : α => key a ≤ key b) := ⟨fun a b c => le_trans⟩
  exact List.pairwise_insertionSort _ _

/-- **C42** The rows returned by `unique_rows` are rows of the input, strictly increasing in their byte
representation (so no two have the same), and each row of the input has the same bytes as exactly
one returned row. -/
theorem C42_unique_rows (l : List α) :
    (∀ r ∈ uniqueRows key l, r ∈ l) ∧
      ((uniqueRows key l).Pairwise fun a b => key a < key b) ∧
      ∀ a ∈ l, ∃! r, r ∈ uniqueRows key l ∧ key r = key a := by
  have hlt : (uniqueRows key l).Pairwise fun a b => key a < key b := by
    have h1 := uniqueRows_sorted key l
    have h2 : (uniqueRows key l).Pairwise fun a b => key a ≠ key b :=
      (uniqueRows_perm key l).symm.pairwise (firstOccurrences_pairwise key l)
        (fun h => h.symm)
    exact h1.imp₂ (fun _ _ h h' => lt_of_le_of_ne h h') h2
  refine ⟨fun r hr => ?_, hlt, fun a ha => ?_⟩
  · exact mem_of_mem_firstOccurrences key ((uniqueRows_perm key l).mem_iff.mp hr)
  · obtain ⟨b, hb, hba⟩ := exists_firstOccurrences key ha
    refine ⟨b, ⟨(uniqueRows_perm key l).mem_iff.mpr hb, hba⟩, ?_⟩
    rintro c ⟨hc, hca⟩
    have hnd : ((uniqueRows key l).map key).Nodup :=
      List.pairwise_map.mpr (hlt.imp fun h => h.ne)
    exact List.inj_on_of_nodup_map hnd hc ((uniqueRows_perm key l).mem_iff.mpr hb)
      (hca.trans hba.symm)

/-- **C42**, rows as values: if different rows have different bytes, the result contains each row of the
input exactly once and nothing else. -/
theorem C42_unique_rows_values (hkey : Function.Injective key) (l : List α) :
    (uniqueRows key l).Nodup ∧ ∀ r, r ∈ uniqueRows key l ↔ r ∈ l := by
  obtain ⟨h1, h2, h3⟩ := C42_unique_rows key l
  refine ⟨h2.imp fun h e => absurd (congrArg key e) h.ne, fun r => ⟨h1 r, fun hr => ?_⟩⟩
  obtain ⟨b, ⟨hb, hk⟩, -⟩ := h3 r hr
  rwa [← hkey hk]

end Unique

example : uniqueRows (fun x : ℕ × ℕ => 10 * x.1 + x.2) [(2, 1), (0, 5), (2, 1), (0, 3), (0, 5)]
    = [(0, 3), (0, 5), (2, 1)] := by decide +kernel

/-- **C42** is about bytes: two rows with equal values are both returned if their bytes differ, as for
`0.0` and `-0.0`. Here a number is a sign bit and a magnitude, and `-0 = 0` as a value. -/
theorem C42_signed_zero_kept :
    let value : Bool × ℕ → ℤ := fun r => if r.1 then -(r.2 : ℤ) else r.2
    let bytes : Bool × ℕ → ℕ := fun r => 2 * r.2 + if r.1 then 1 else 0
    Function.Injective bytes ∧ value (false, 0) = value (true, 0) ∧
      uniqueRows bytes [(true, 0), (false, 0)] = [(false, 0), (true, 0)] := by
  refine ⟨?_, by decide, by decide +kernel⟩
  rintro ⟨a, x⟩ ⟨b, y⟩ h
  simp only at h
  cases a <;> cases b <;> simp_all <;> omega

/-! ## C37 -/

variable {K : Type} [Field K] [LinearOrder K] [IsStrictOrderedRing K] {n m : ℕ}

theorem perturbed_eq (states : List (Fin n → K)) (actions ps : List (Fin m → K))
    (h : actions.length = states.length) :
    List.zip (repeatRows states ps.length)
      (List.zipWith (fun a p => a + p) (repeatRows actions ps.length) (tileRows ps states.length))
      = (states.zip actions).flatMap fun sa => ps.map fun p => (sa.1, sa.2 + p) := by
  induction states generalizing actions with
  | nil => simp [repeatRows]
  | cons s states ih =>
    cases actions with
    | nil => simp at h
    | cons a actions =>
      have ih' := ih actions (by simpa using h)
      have e1 : repeatRows (s :: states) ps.length
          = List.replicate ps.length s ++ repeatRows states ps.length := rfl
      have e2 : repeatRows (a :: actions) ps.length
          = List.replicate ps.length a ++ repeatRows actions ps.length := rfl
      have e3 : tileRows ps (s :: states).length = ps ++ tileRows ps states.length := by
        simp [tileRows, List.replicate_succ]
      rw [e1, e2, e3, List.zipWith_append (by simp), List.zip_append (by simp), ih']
      simp only [List.zip_cons_cons, List.flatMap_cons]
      congr 1
      apply List.ext_getElem
      · simp
      · intro i h1 h2; simp

/-- **C37** Without limits: for each state in order and each perturbation in order, one row with the
perturbed action of that state, `N * X` rows in total. -/
theorem C37_perturb_no_limits {β : Type} [LinearOrder β] (key : Pair K n m → β)
    (states : List (Fin n → K)) (actions ps : List (Fin m → K))
    (h : actions.length = states.length) :
    ∃ rows, perturbActions key states actions ps none = .ok rows ∧
      rows.length = states.length * ps.length ∧
      rows = (states.zip actions).flatMap fun sa => ps.map fun p => (sa.1, sa.2 + p) := by
  refine ⟨_, ?_, ?_, rfl⟩
  · rw [perturbActions, if_pos h]
    simp only [perturbed_eq states actions ps h]
  · rw [List.length_flatMap]
    simp [h]

/-- **C37** With limits: every action is inside its limits, no row occurs twice, and the rows are exactly
the combinations of a state with its action plus a perturbation, clipped to the limits. -/
theorem C37_perturb_limits {β : Type} [LinearOrder β] (key : Pair K n m → β)
    (hkey : Function.Injective key)
    (states : List (Fin n → K)) (actions ps : List (Fin m → K)) (limits : Fin m → K × K)
    (hlim : ∀ j, (limits j).1 ≤ (limits j).2) (h : actions.length = states.length) :
    ∃ rows, perturbActions key states actions ps (some limits) = .ok rows ∧ rows.Nodup ∧
      (∀ r ∈ rows, ∀ j, (limits j).1 ≤ r.2 j ∧ r.2 j ≤ (limits j).2) ∧
      ∀ r, r ∈ rows ↔ ∃ sa ∈ states.zip actions, ∃ p ∈ ps, r.1 = sa.1 ∧
        ∀ j, r.2 j = min (max (sa.2 j + p j) (limits j).1) (limits j).2 := by
  obtain ⟨hnd, hmem⟩ := C42_unique_rows_values key hkey
    (((states.zip actions).flatMap fun sa => ps.map fun p => (sa.1, sa.2 + p)).map
      fun p => (p.1, clipAction limits p.2))
  refine ⟨_, ?_, hnd, ?_, ?_⟩
  · rw [perturbActions, if_pos h]
    simp only [perturbed_eq states actions ps h]
  · intro r hr j
    rw [hmem, List.mem_map] at hr
    obtain ⟨q, -, rfl⟩ := hr
    exact ⟨le_clip (hlim j), clip_le⟩
  · intro r
    rw [hmem]
    simp only [List.mem_map, List.mem_flatMap]
    constructor
    · rintro ⟨q, ⟨sa, hsa, p, hp, rfl⟩, rfl⟩
      exact ⟨sa, hsa, p, hp, rfl, fun j => rfl⟩
    · rintro ⟨sa, hsa, p, hp, h1, h2⟩
      refine ⟨_, ⟨sa, hsa, p, hp, rfl⟩, ?_⟩
      ext j
      · simp [h1]
      · rw [h2]; rfl

/-- One action per state is needed: otherwise `ValueError`. -/
theorem C37_perturb_mismatch {β : Type} [LinearOrder β] (key : Pair K n m → β)
    (states : List (Fin n → K)) (actions ps : List (Fin m → K)) (limits : Option (Fin m → K × K))
    (h : actions.length ≠ states.length) :
    perturbActions key states actions ps limits = .error .valueError := by
  rw [perturbActions, if_neg h]

/-- Two states with one action each and two perturbations; the limits make two rows coincide. -/
example : (match perturbActions (K := ℚ) (n := 1) (m := 1) (fun p => 10 * p.1 0 + p.2 0) [![0], ![1]]
    [![0], ![2]] [![-1], ![1]] (some fun _ => (-1, 1)) with
      | .ok rows => rows.map fun r => (r.1 0, r.2 0)
      | .error _ => []) = [(0, -1), (0, 1), (1, 1)] := by decide +kernel

example : (match perturbActions (K := ℚ) (n := 1) (m := 1) (fun p => 10 * p.1 0 + p.2 0) [![0], ![1]]
    [![0], ![2]] [![-1], ![1]] none with
      | .ok rows => rows.map fun r => (r.1 0, r.2 0)
      | .error _ => []) = [(0, -1), (0, 1), (1, 1), (1, 3)] := by decide +kernel

end SafeLearning
