import Verif.Model.PiecewiseConstant
import Mathlib.Algebra.BigOperators.Fin
import Mathlib.Algebra.BigOperators.Pi
set_option autoImplicit false

/-!
# Lemmas about exceptions in vectorised calls and about sparse matrices
-/

namespace SafeLearning

set_option linter.unusedSectionVars false

variable {K : Type} [Field K] [LinearOrder K] [IsStrictOrderedRing K] {d o : ℕ}

theorem mapM_ok {α β : Type} {f : α → Except PyErr β} {g : α → β} : ∀ {l : List α},
    (∀ a ∈ l, f a = .ok (g a)) → l.mapM f = .ok (l.map g)
  | [], _ => rfl
  | a :: l, h => by
    rw [List.mapM_cons, h a (by simp), mapM_ok fun a ha => h a (List.mem_cons_of_mem _ ha)]
    rfl

theorem mapM_ok_inv {α β : Type} {f : α → Except PyErr β} : ∀ {l : List α} {r : List β},
    l.mapM f = .ok r → r.length = l.length ∧
      ∀ (k : ℕ) (a : α), l[k]? = some a → ∃ b, r[k]? = some b ∧ f a = .ok b
  | [], r, h => by
    simp only [List.mapM_nil, pure, Except.pure, Except.ok.injEq] at h
    subst h
    simp
  | a :: l, r, h => by
    rw [List.mapM_cons] at h
    simp only [bind, Except.bind] at h
    cases ha : f a with
    | error e => simp [ha] at h
    | ok b =>
      cases hl : l.mapM f with
      | error e => simp [ha, hl] at h
      | ok r' =>
        simp only [ha, hl, pure, Except.pure, Except.ok.injEq] at h
        subst h
        obtain ⟨h1, h2⟩ := mapM_ok_inv hl
        refine ⟨by simp [h1], fun k a' hk => ?_⟩
        cases k with
        | zero =>
          simp only [List.getElem?_cons_zero, Option.some.injEq] at hk
          subst hk
          exact ⟨b, rfl, ha⟩
        | succ k => exact h2 k a' (by simpa using hk)

theorem traverseFin_ok {α : Type} : ∀ {n : ℕ} {f : Fin n → Except PyErr α} {g : Fin n → α},
    (∀ i, f i = .ok (g i)) → traverseFin f = .ok g
  | 0, _, g, _ => by
    rw [traverseFin]
    congr 1
    exact Subsingleton.elim _ _
  | n + 1, f, g, h => by
    rw [traverseFin, h 0, traverseFin_ok (f := Fin.tail f) (g := Fin.tail g) fun i => h i.succ]
    simp [bind, Except.bind, pure, Except.pure]

theorem rowAt_ok {α : Type} {l : List α} {k : ℕ} {a : α} (h : l[k]? = some a) :
    rowAt l k = .ok a := by
  unfold rowAt
  rw [h]

/-- The entries of one row of a matrix whose entries are listed in blocks. -/
theorem filter_blocks {W : Type} (E : ℕ → W → List (K × ℕ × ℕ)) (blk : ℕ → ℕ)
    (hE : ∀ r w, ∀ e ∈ E r w, blk e.2.1 = r) (k : ℕ) (ws : List W) :
    (((List.range ws.length).zipWith E ws).flatten.filter fun e => e.2.1 = k) =
      (ws[blk k]?).elim [] fun w => (E (blk k) w).filter fun e => e.2.1 = k := by
  induction ws using List.reverseRecOn with
  | nil => simp
  | append_singleton ws w ih =>
    rw [List.length_append, List.length_singleton, List.range_succ,
      List.zipWith_append (by simp), List.flatten_append, List.filter_append, ih]
    simp only [List.zipWith_cons_cons, List.zipWith_nil_left, List.flatten_cons, List.flatten_nil,
      List.append_nil]
    rcases lt_trichotomy (blk k) ws.length with h | h | h
    · have : (E ws.length w).filter (fun e => e.2.1 = k) = [] := by
        rw [List.filter_eq_nil_iff]
        intro e he
        have := hE _ _ e he
        simp only [decide_eq_true_eq]
        rintro rfl
        omega
      rw [this, List.append_nil, List.getElem?_append_left h]
    · rw [h]
      simp
    · have : (E ws.length w).filter (fun e => e.2.1 = k) = [] := by
        rw [List.filter_eq_nil_iff]
        intro e he
        have := hE _ _ e he
        simp only [decide_eq_true_eq]
        rintro rfl
        omega
      rw [this, List.getElem?_eq_none (by omega), List.getElem?_eq_none (by simp; omega)]
      rfl

theorem sum_finRange {M : Type} [AddCommMonoid M] {n : ℕ} (f : Fin n → M) :
    ((List.finRange n).map f).sum = ∑ i, f i := (Fin.sum_univ_def f).symm

end SafeLearning
