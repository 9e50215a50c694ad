import Verif.Props.ValueAccuracy
set_option autoImplicit false

/-!
# Modified policy iteration with errors

Rounds of approximately greedy policies and finitely many evaluation steps, on a set `S` of states that all closed loops keep.
-/

namespace SafeLearning

set_option linter.unusedSectionVars false

open Spec

variable {K : Type} [Field K] [LinearOrder K] [IsStrictOrderedRing K] [FloorRing K] {d : ℕ}
variable {γ : K} {r : (Fin d → K) → K} {nx : (Fin d → K) → Fin d → K} {J J' : (Fin d → K) → K} {S : (Fin d → K) → Prop}

theorem return_zero (γ : K) (r : (Fin d → K) → K) (nx : (Fin d → K) → Fin d → K) (J : (Fin d → K) → K) (x : Fin d → K) :
    returnWithTerminal γ r nx J 0 x = J x := by
  simp [returnWithTerminal]

/-- The return is Lipschitz continuous. -/
theorem return_lipschitz {g : GridWorld K d} (hlt : ∀ i, g.lo i < g.hi i) {γ Lr Lf L : K} (hγ : 0 ≤ γ) (hL : 0 ≤ L)
    (hle : Lr + γ * Lf * L ≤ L) {r : (Fin d → K) → K} {next : (Fin d → K) → Fin d → K}
    (hr : LipschitzOn1 g.lo g.hi Lr r) (hf : Spec.LipschitzMapOn1 g.lo g.hi Lf next) (n : ℕ)
    (J : (Fin d → K) → K) (hJ : LipschitzOn1 g.lo g.hi L J) :
    LipschitzOn1 g.lo g.hi L (returnWithTerminal γ r (Spec.clippedLoop g.lo g.hi next) J n) := by
  induction n generalizing J with
  | zero =>
    have : returnWithTerminal γ r (Spec.clippedLoop g.lo g.hi next) J 0 = J := by
      funext x
      simp [returnWithTerminal]
    rw [this]
    exact hJ
  | succ n ih =>
    have e : returnWithTerminal γ r (Spec.clippedLoop g.lo g.hi next) J (n + 1) =
        returnWithTerminal γ r (Spec.clippedLoop g.lo g.hi next)
          (fun x => r x + γ * J (Spec.clippedLoop g.lo g.hi next x)) n :=
      funext fun x => returnWithTerminal_succ _ _ _ _ _ _
    rw [e]
    exact ih _ (lipschitz_step hlt hγ hL hle hr hf hJ)

/-- The first step of the return. -/
theorem return_cons (γ : K) (r : (Fin d → K) → K) (nx : (Fin d → K) → Fin d → K) (J : (Fin d → K) → K) (n : ℕ) (x : Fin d → K) :
    returnWithTerminal γ r nx J (n + 1) x = r x + γ * returnWithTerminal γ r nx J n (nx x) := by
  induction n generalizing J with
  | zero =>
    rw [returnWithTerminal_succ, return_zero, return_zero]
  | succ n ih =>
    rw [returnWithTerminal_succ, ih, returnWithTerminal_succ]

theorem return_split (a b : ℕ) (x : Fin d → K) :
    returnWithTerminal γ r nx J (a + b) x = returnWithTerminal γ r nx (returnWithTerminal γ r nx J b) a x := by
  induction a generalizing x with
  | zero => rw [return_zero, Nat.zero_add]
  | succ a ih => rw [Nat.add_right_comm, return_cons, return_cons, ih]

theorem return_le (hγ : 0 ≤ γ) (hS : ∀ x, S x → S (nx x)) {c : K} (h : ∀ x, S x → J x ≤ J' x + c) (n : ℕ) (x : Fin d → K)
    (hx : S x) : returnWithTerminal γ r nx J n x ≤ returnWithTerminal γ r nx J' n x + γ ^ n * c := by
  induction n generalizing x with
  | zero => rw [return_zero, return_zero, pow_zero, one_mul]; exact h x hx
  | succ n ih =>
    rw [return_cons, return_cons, pow_succ']
    have := mul_le_mul_of_nonneg_left (ih (nx x) (hS x hx)) hγ
    rw [mul_add] at this
    linarith

theorem return_bounded (hγ : 0 ≤ γ) (hS : ∀ x, S x → S (nx x)) {V : K} (hr : ∀ x, S x → |r x| + γ * V ≤ V)
    (hJ : ∀ x, S x → |J x| ≤ V) (n : ℕ) (x : Fin d → K) (hx : S x) : |returnWithTerminal γ r nx J n x| ≤ V := by
  induction n generalizing x with
  | zero => rw [return_zero]; exact hJ x hx
  | succ n ih =>
    rw [return_cons]
    have h1 := abs_add_le (r x) (γ * returnWithTerminal γ r nx J n (nx x))
    have h2 := mul_le_mul_of_nonneg_left (ih (nx x) (hS x hx)) hγ
    rw [abs_mul, abs_of_nonneg hγ] at h1
    linarith [hr x hx]

/-- If one step improves the values up to `β`, then so do all later steps, up to `γ ^ n * β`. -/
theorem return_step (hγ : 0 ≤ γ) (hS : ∀ x, S x → S (nx x)) {β : K} (h : ∀ x, S x → J x ≤ r x + γ * J (nx x) + β) (n : ℕ)
    (x : Fin d → K) (hx : S x) :
    returnWithTerminal γ r nx J n x ≤ returnWithTerminal γ r nx J (n + 1) x + γ ^ n * β := by
  induction n generalizing x with
  | zero =>
    rw [return_cons, return_zero, return_zero, pow_zero, one_mul]
    exact h x hx
  | succ n ih =>
    rw [return_cons, return_cons γ r nx J (n + 1), pow_succ']
    have := mul_le_mul_of_nonneg_left (ih (nx x) (hS x hx)) hγ
    rw [mul_add] at this
    linarith

theorem return_steps (hγ : 0 ≤ γ) (hγ1 : γ < 1) (hS : ∀ x, S x → S (nx x)) {β : K} (h : ∀ x, S x → J x ≤ r x + γ * J (nx x) + β)
    (i n : ℕ) (x : Fin d → K) (hx : S x) :
    returnWithTerminal γ r nx J i x ≤ returnWithTerminal γ r nx J (i + n) x + (γ ^ i - γ ^ (i + n)) * (β / (1 - γ)) := by
  induction n with
  | zero => simp
  | succ n ih =>
    have h1 := return_step hγ hS h (i + n) x hx
    have hpos : 1 - γ ≠ 0 := by linarith
    have e : (γ ^ i - γ ^ (i + (n + 1))) * (β / (1 - γ)) = (γ ^ i - γ ^ (i + n)) * (β / (1 - γ)) + γ ^ (i + n) * β := by
      rw [← Nat.add_assoc, pow_succ]
      field_simp
      ring
    rw [e, ← Nat.add_assoc]
    linarith

/-- Rounds of modified policy iteration: round `k` has the closed loop `nx k` with rewards `r k`, which is greedy for `J k` up to `ε`
compared with the other policy and with the policy of the round before, and `J (k + 1)` is the result of `runs k ≥ 1` evaluation
steps. -/
theorem modified_policy_iteration (hγ : 0 ≤ γ) (hγ1 : γ < 1) {ε V : K} (hε : 0 ≤ ε)
    {r : ℕ → (Fin d → K) → K} {nx : ℕ → (Fin d → K) → Fin d → K} {J : ℕ → (Fin d → K) → K} {runs : ℕ → ℕ}
    {r'' : (Fin d → K) → K} {nx'' : (Fin d → K) → Fin d → K}
    (hS : ∀ k x, S x → S (nx k x)) (hS'' : ∀ x, S x → S (nx'' x)) (hruns : ∀ k, 1 ≤ runs k)
    (hJ : ∀ k x, J (k + 1) x = returnWithTerminal γ (r k) (nx k) (J k) (runs k) x)
    (hV : ∀ k x, S x → |J k x| ≤ V) (hV'' : ∀ x, S x → |r'' x| + γ * V ≤ V)
    (hgreedy : ∀ k x, S x → r'' x + γ * J k (nx'' x) ≤ r k x + γ * J k (nx k x) + ε)
    (hself : ∀ k x, S x → r k x + γ * J (k + 1) (nx k x) ≤ r (k + 1) x + γ * J (k + 1) (nx (k + 1) x) + ε)
    (hstart : ∀ x, S x → J 0 x ≤ r 0 x + γ * J 0 (nx 0 x) + ε) (N n : ℕ) (x : Fin d → K) (hx : S x) :
    returnWithTerminal γ r'' nx'' (fun _ => 0) n x ≤ returnWithTerminal γ (r N) (nx N) (fun _ => 0) n x +
      (2 * ε / (1 - γ) ^ 3 + 2 * γ ^ N * V + 2 * γ ^ n * V) := by
  have hpos : 0 < 1 - γ := by linarith
  obtain ⟨β, hβ⟩ : ∃ β, β = ε / (1 - γ) := ⟨_, rfl⟩
  have hβ0 : 0 ≤ β := by rw [hβ]; exact div_nonneg hε hpos.le
  have hβε : β = γ * β + ε := by
    rw [hβ]; field_simp; ring
  have hεβ : ε ≤ β := by have := mul_nonneg hγ hβ0; linarith
  have hpow : ∀ n, 1 ≤ n → γ ^ n ≤ γ := fun n hn => by
    have := pow_le_pow_of_le_one hγ hγ1.le hn
    rwa [pow_one] at this
  have hp1 : ∀ n, γ ^ n ≤ 1 := fun n => pow_le_one₀ hγ hγ1.le
  have hp0 : ∀ n, 0 ≤ γ ^ n := fun n => pow_nonneg hγ n
  have hV0 : 0 ≤ V := (abs_nonneg _).trans (hV 0 x hx)
  -- the next policy improves the values up to `β`
  have himp : ∀ k x, S x → J k x ≤ r k x + γ * J k (nx k x) + β := by
    intro k
    induction k with
    | zero => exact fun x hx => (hstart x hx).trans (by linarith)
    | succ k ih =>
      intro x hx
      have h1 := return_step hγ (hS k) ih (runs k) x hx
      rw [← hJ, return_cons] at h1
      have h2 : returnWithTerminal γ (r k) (nx k) (J k) (runs k) (nx k x) = J (k + 1) (nx k x) := (hJ k _).symm
      rw [h2] at h1
      have h3 := hself k x hx
      have h4 := mul_le_mul_of_nonneg_right (hpow _ (hruns k)) hβ0
      linarith
  -- one round of values
  obtain ⟨σ, hσ⟩ : ∃ σ, σ = ε + γ * (β / (1 - γ)) := ⟨_, rfl⟩
  have hb1 : 0 ≤ β / (1 - γ) := div_nonneg hβ0 hpos.le
  have hσ0 : 0 ≤ σ := by rw [hσ]; exact add_nonneg hε (mul_nonneg hγ hb1)
  have hround : ∀ k x, S x → r'' x + γ * J k (nx'' x) ≤ J (k + 1) x + σ := by
    intro k x hx
    obtain ⟨j, hj⟩ : ∃ j, runs k = 1 + j := ⟨runs k - 1, by have := hruns k; omega⟩
    have h1 := return_steps hγ hγ1 (hS k) (himp k) 1 j x hx
    rw [← hj, ← hJ, return_cons, return_zero, pow_one] at h1
    have h2 := hgreedy k x hx
    have h3 : (γ - γ ^ runs k) * (β / (1 - γ)) ≤ γ * (β / (1 - γ)) :=
      mul_le_mul_of_nonneg_right (by have := hp0 (runs k); linarith) hb1
    linarith
  have hσe : σ / (1 - γ) = γ * (σ / (1 - γ)) + σ := by field_simp; ring
  have hall : ∀ N x, S x → returnWithTerminal γ r'' nx'' (J 0) N x ≤ J N x + σ / (1 - γ) := by
    intro N
    induction N with
    | zero =>
      intro x hx
      rw [return_zero]
      have := div_nonneg hσ0 hpos.le
      linarith
    | succ N ih =>
      intro x hx
      rw [return_cons]
      have h1 := mul_le_mul_of_nonneg_left (ih (nx'' x) (hS'' x hx)) hγ
      have h2 := hround N x hx
      rw [mul_add] at h1
      linarith
  -- the horizon of the other policy
  have hother : returnWithTerminal γ r'' nx'' (fun _ => 0) n x ≤ returnWithTerminal γ r'' nx'' (J 0) N x +
      (2 * γ ^ N * V + γ ^ n * V) := by
    have hzero : ∀ x : Fin d → K, S x → |(fun _ : Fin d → K => (0 : K)) x| ≤ V := fun x _ => by simpa using hV0
    rcases Nat.le_total n N with hle | hle
    · obtain ⟨j, rfl⟩ := Nat.exists_eq_add_of_le hle
      rw [return_split n j]
      have := return_le (r := r'') (J := fun _ => 0) (J' := returnWithTerminal γ r'' nx'' (J 0) j) hγ hS'' (c := V) (fun x hx => by
        have := (abs_le.mp (return_bounded hγ hS'' hV'' (hV 0) j x hx)).1
        linarith) n x hx
      have := mul_nonneg (mul_nonneg (zero_le_two (α := K)) (hp0 (n + j))) hV0
      linarith
    · obtain ⟨j, rfl⟩ := Nat.exists_eq_add_of_le hle
      rw [return_split N j]
      have := return_le (r := r'') (J := returnWithTerminal γ r'' nx'' (fun _ => 0) j) (J' := J 0) hγ hS'' (c := 2 * V)
        (fun x hx => by
          have h1 := (abs_le.mp (return_bounded hγ hS'' hV'' hzero j x hx)).2
          have h2 := (abs_le.mp (hV 0 x hx)).1
          linarith) N x hx
      have := mul_nonneg (hp0 (N + j)) hV0
      linarith
  -- the horizon of the policy of round `N`
  have hown : J N x ≤ returnWithTerminal γ (r N) (nx N) (fun _ => 0) n x + β / (1 - γ) + γ ^ n * V := by
    have h1 := return_steps hγ hγ1 (hS N) (himp N) 0 n x hx
    rw [return_zero, Nat.zero_add, pow_zero] at h1
    have h2 := return_le (r := r N) (J := J N) (J' := fun _ => 0) hγ (hS N) (c := V) (fun x hx => by
      have := (abs_le.mp (hV N x hx)).2
      linarith) n x hx
    have h3 : (1 - γ ^ n) * (β / (1 - γ)) ≤ 1 * (β / (1 - γ)) :=
      mul_le_mul_of_nonneg_right (by have := hp0 n; linarith) hb1
    linarith
  have hfin : σ / (1 - γ) + β / (1 - γ) ≤ 2 * ε / (1 - γ) ^ 3 := by
    have e : σ / (1 - γ) + β / (1 - γ) = ε * (1 + (1 - γ) ^ 2) / (1 - γ) ^ 3 := by
      rw [hσ, hβ]
      field_simp
      ring
    rw [e]
    refine div_le_div_of_nonneg_right ?_ (by positivity)
    have : (1 - γ) ^ 2 ≤ 1 := pow_le_one₀ hpos.le (by linarith)
    nlinarith
  have := hall N x hx
  linarith

end SafeLearning
