import Verif.Model.Simulation
import Verif.Props.Grid
import Verif.Lemmas.Region
import Mathlib.Tactic.Linarith
import Mathlib.Tactic.FieldSimp
set_option autoImplicit false

/-!
# Closed-loop responses and grids of normalised states: C81, C82
-/

set_option linter.unusedSectionVars false

namespace SafeLearning

variable {K : Type} [Field K] [LinearOrder K] [IsStrictOrderedRing K] {d m : ℕ}

/-! ## C81 -/

theorem responseLoop_length (dynamics : (Fin d → K) → (Fin m → K) → Fin d → K) (policy : (Fin d → K) → Fin m → K) :
    ∀ (rs : List (Fin m → K)) (x : Fin d → K), (responseLoop dynamics policy x rs).1.length = rs.length ∧
      (responseLoop dynamics policy x rs).2.length = rs.length := by
  intro rs
  induction rs with
  | nil => intro x; exact ⟨rfl, rfl⟩
  | cons r rs ih => intro x; simp [responseLoop, ih]

theorem responseLoop_spec (dynamics : (Fin d → K) → (Fin m → K) → Fin d → K) (policy : (Fin d → K) → Fin m → K) :
    ∀ (rs : List (Fin m → K)) (x : Fin d → K),
      (∀ (i : ℕ) s, (responseLoop dynamics policy x rs).1[i]? = some s →
        (responseLoop dynamics policy x rs).2[i]? = some (policy s)) ∧
      ∀ (i : ℕ) s s' r, (responseLoop dynamics policy x rs).1[i]? = some s →
        (responseLoop dynamics policy x rs).1[i + 1]? = some s' → rs[i]? = some r →
          s' = dynamics s (policy s + r) := by
  intro rs
  induction rs with
  | nil => intro x; simp [responseLoop]
  | cons r rs ih =>
    intro x
    obtain ⟨h1, h2⟩ := ih (dynamics x fun i => policy x i + r i)
    refine ⟨?_, ?_⟩
    · intro i s hs
      cases i with
      | zero => simp [responseLoop] at hs ⊢; rw [hs]
      | succ i => simp only [responseLoop, List.getElem?_cons_succ] at hs ⊢; exact h1 i s hs
    · intro i s s' r' hs hs' hr
      cases i with
      | zero =>
        simp only [responseLoop, List.getElem?_cons_zero, Option.some.injEq, List.getElem?_cons_succ] at hs hs' hr
        subst hs hr
        cases rs with
        | nil => simp [responseLoop] at hs'
        | cons r2 rs =>
          simp only [responseLoop, List.getElem?_cons_zero, Option.some.injEq] at hs'
          exact hs'.symm
      | succ i =>
        simp only [responseLoop, List.getElem?_cons_succ] at hs hs' hr
        exact h2 i s s' r' hs hs' hr

/-- The documented reference signals: one at the first step with unit area, a constant, or zero. -/
def _root_.Spec.referenceValue {K : Type} [Field K] (reference : Reference) (dt const : K) (i : ℕ) : Option K :=
  match reference with
  | .impulse => some (if i = 0 then 1 / dt else 0)
  | .step => some const
  | .zero => some 0
  | .other => none

theorem referenceSignal_ok (reference : Reference) (steps : ℕ) (dt const : K) (h : reference ≠ .other) :
    ∃ r, referenceSignal m reference steps dt const = .ok r ∧ r.length = steps + 1 ∧
      ∀ i, i ≤ steps → ∃ row, r[i]? = some row ∧ ∀ j, some (row j) = Spec.referenceValue reference dt const i := by
  cases reference with
  | impulse =>
    refine ⟨_, rfl, by simp, fun i hi => ?_⟩
    cases i with
    | zero => exact ⟨_, rfl, fun j => by simp [Spec.referenceValue]⟩
    | succ i =>
      refine ⟨0, by simp [(by omega : i < steps)], fun j => by simp [Spec.referenceValue]⟩
  | step => exact ⟨_, rfl, by simp, fun i hi => ⟨fun _ => const, by simp [(by omega : i < steps + 1)], fun j => rfl⟩⟩
  | zero => exact ⟨_, rfl, by simp, fun i hi => ⟨0, by simp [(by omega : i < steps + 1)], fun j => rfl⟩⟩
  | other => exact (h rfl).elim

/-- **C81**: for every dynamics, policy and number of steps the response is the trajectory of the closed loop. It starts in
the initial state (the origin by default), every action is the one of the policy in the state of the same step, and the next
state follows from the action plus the reference. The reference is the documented signal and the times are multiples of `dt`. -/
theorem C81_response (dynamics : (Fin d → K) → (Fin m → K) → Fin d → K) (policy : (Fin d → K) → Fin m → K)
    (steps : ℕ) (dt const : K) (reference : Reference) (ic : Option (Fin d → K)) (h : reference ≠ .other) :
    ∃ out, computeClosedloopResponse dynamics policy steps dt reference const ic = .ok out ∧
      out.states.length = steps + 1 ∧ out.actions.length = steps + 1 ∧ out.times.length = steps + 1 ∧
      out.reference.length = steps + 1 ∧ out.states[0]? = some (ic.getD 0) ∧
      (∀ i, i ≤ steps → out.times[i]? = some ((i : K) * dt)) ∧
      (∀ i, i ≤ steps → ∃ row, out.reference[i]? = some row ∧
        ∀ j, some (row j) = Spec.referenceValue reference dt const i) ∧
      (∀ i, i ≤ steps → ∃ s, out.states[i]? = some s ∧ out.actions[i]? = some (policy s)) ∧
      ∀ i, i < steps → ∃ s a r, out.states[i]? = some s ∧ out.actions[i]? = some a ∧ out.reference[i]? = some r ∧
        out.states[i + 1]? = some (dynamics s (a + r)) := by
  obtain ⟨r, hr, hlen, hval⟩ := referenceSignal_ok (m := m) reference steps dt const h
  obtain ⟨l1, l2⟩ := responseLoop_length dynamics policy r (ic.getD 0)
  obtain ⟨s1, s2⟩ := responseLoop_spec dynamics policy r (ic.getD 0)
  rw [hlen] at l1 l2
  refine ⟨⟨(responseLoop dynamics policy (ic.getD 0) r).1, (responseLoop dynamics policy (ic.getD 0) r).2,
    (List.range (steps + 1)).map fun i : ℕ => dt * (i : K), r⟩,
    by simp only [computeClosedloopResponse, hr, bind, Except.bind, pure, Except.pure], l1, l2, by simp, hlen, ?_, ?_,
    hval, ?_, ?_⟩
  · cases r with
    | nil => simp at hlen
    | cons r0 rs => simp [responseLoop]
  · intro i hi
    simp [(by omega : i < steps + 1), mul_comm]
  · intro i hi
    have e1 := List.getElem?_eq_getElem (l := (responseLoop dynamics policy (ic.getD 0) r).1) (i := i) (by omega)
    exact ⟨_, e1, s1 i _ e1⟩
  · intro i hi
    have e1 := List.getElem?_eq_getElem (l := (responseLoop dynamics policy (ic.getD 0) r).1) (i := i) (by omega)
    have e2 := List.getElem?_eq_getElem (l := (responseLoop dynamics policy (ic.getD 0) r).1) (i := i + 1) (by omega)
    have e3 := List.getElem?_eq_getElem (l := r) (i := i) (by omega)
    refine ⟨_, _, _, e1, s1 i _ e1, e3, ?_⟩
    dsimp only
    rw [e2, s2 i _ _ _ e1 e2 e3]

theorem responseLoop_append (dynamics : (Fin d → K) → (Fin m → K) → Fin d → K) (policy : (Fin d → K) → Fin m → K) :
    ∀ (rs rs' : List (Fin m → K)) (x : Fin d → K),
      (responseLoop dynamics policy x rs).1 <+: (responseLoop dynamics policy x (rs ++ rs')).1 ∧
      (responseLoop dynamics policy x rs).2 <+: (responseLoop dynamics policy x (rs ++ rs')).2 := by
  intro rs rs'
  induction rs with
  | nil => intro x; simp [responseLoop]
  | cons r rs ih =>
    intro x
    obtain ⟨h1, h2⟩ := ih (dynamics x fun i => policy x i + r i)
    simp only [responseLoop, List.cons_append]
    exact ⟨List.cons_prefix_cons.mpr ⟨rfl, h1⟩, List.cons_prefix_cons.mpr ⟨rfl, h2⟩⟩

theorem referenceSignal_append (reference : Reference) (n k : ℕ) (dt const : K) (r : List (Fin m → K))
    (h : referenceSignal m reference n dt const = .ok r) :
    ∃ r', referenceSignal m reference (n + k) dt const = .ok (r ++ r') := by
  cases reference with
  | impulse =>
    obtain rfl : _ = r := by simpa [referenceSignal] using h
    exact ⟨List.replicate k 0, by simp [referenceSignal, List.replicate_append_replicate]⟩
  | step =>
    obtain rfl : _ = r := by simpa [referenceSignal] using h
    exact ⟨List.replicate k fun _ => const, by
      simp [referenceSignal, List.replicate_append_replicate, Nat.add_right_comm]⟩
  | zero =>
    obtain rfl : _ = r := by simpa [referenceSignal] using h
    exact ⟨List.replicate k 0, by simp [referenceSignal, List.replicate_append_replicate, Nat.add_right_comm]⟩
  | other => simp [referenceSignal] at h

/-- **C81**, causality: a longer simulation continues a shorter one. -/
theorem C81_prefix (dynamics : (Fin d → K) → (Fin m → K) → Fin d → K) (policy : (Fin d → K) → Fin m → K)
    (n k : ℕ) (dt const : K) (reference : Reference) (ic : Option (Fin d → K)) (short : Response K d m)
    (h : computeClosedloopResponse dynamics policy n dt reference const ic = .ok short) :
    ∃ long, computeClosedloopResponse dynamics policy (n + k) dt reference const ic = .ok long ∧
      short.states <+: long.states ∧ short.actions <+: long.actions ∧ short.times <+: long.times ∧
      short.reference <+: long.reference := by
  cases hr : referenceSignal m reference n dt const with
  | error e => simp [computeClosedloopResponse, hr, bind, Except.bind] at h
  | ok r =>
    obtain ⟨r', hr'⟩ := referenceSignal_append reference n k dt const r hr
    simp only [computeClosedloopResponse, hr, bind, Except.bind, pure, Except.pure, Except.ok.injEq] at h
    subst h
    obtain ⟨h1, h2⟩ := responseLoop_append dynamics policy r r' (ic.getD 0)
    refine ⟨⟨(responseLoop dynamics policy (ic.getD 0) (r ++ r')).1, (responseLoop dynamics policy (ic.getD 0) (r ++ r')).2,
      (List.range (n + k + 1)).map fun i : ℕ => dt * (i : K), r ++ r'⟩,
      by simp only [computeClosedloopResponse, hr', bind, Except.bind, pure, Except.pure], h1, h2, ?_,
      List.prefix_append _ _⟩
    refine List.IsPrefix.map _ ?_
    have : List.range (n + 1 + k) = List.range (n + 1) ++ (List.range k).map fun x => n + 1 + x := List.range_add
    rw [show n + k + 1 = (n + 1) + k by omega, this]
    exact List.prefix_append _ _

/-- **C81**: an unknown reference raises `UnboundLocalError`. -/
theorem C81_unknown_reference (dynamics : (Fin d → K) → (Fin m → K) → Fin d → K) (policy : (Fin d → K) → Fin m → K)
    (steps : ℕ) (dt const : K) (ic : Option (Fin d → K)) :
    computeClosedloopResponse dynamics policy steps dt .other const ic = .error .unboundLocal := rfl

/-- Impulse response of an integrator with feedback. -/
example : (match computeClosedloopResponse (K := ℚ) (d := 1) (m := 1) (fun x u i => x i + u i) (fun x i => -x i / 2) 3 (1 / 10)
      .impulse 1 none with
    | .ok out => decide (out.states.map List.ofFn = [[0], [10], [5], [5 / 2]] ∧
        out.actions.map List.ofFn = [[0], [-5], [-5 / 2], [-5 / 4]] ∧ out.times = [0, 1 / 10, 1 / 5, 3 / 10])
    | .error _ => false) = true := by decide +kernel

/-! ## C82 -/

theorem mem_linspace_axis (lo hi v : K) (n : ℕ) :
    v ∈ linspace lo hi n ↔ ∃ j < n, v = Spec.axisPoint lo hi n j := by
  rw [linspace_eq]
  simp only [List.mem_map, List.mem_range, Spec.axisPoint]
  constructor
  · rintro ⟨j, hj, rfl⟩; exact ⟨j, hj, by ring⟩
  · rintro ⟨j, hj, rfl⟩; exact ⟨j, hj, by ring⟩

theorem mem_allPoints_iff (g : GridWorld K d) (x : Fin d → K) :
    x ∈ g.allPoints ↔ ∀ i, ∃ j < g.num i, x i = Spec.axisPoint (g.lo i) (g.hi i) (g.num i) j := by
  rw [GridWorld.allPoints, mem_meshIJ]
  simp only [GridWorld.discretePoints, mem_linspace_axis]

theorem broadcast_ofFn (num : Fin d → ℤ) : (NumPoints.seq (List.ofFn num)).broadcast d = .ok num := by
  unfold NumPoints.broadcast
  split
  · rename_i h; cases h
  · rename_i n h
    have h : List.ofFn num = [n] := by simpa using h
    have hl := congrArg List.length h
    simp only [List.length_ofFn, List.length_singleton] at hl
    subst hl
    congr 1
    funext i
    have : num 0 = n := by simpa using h
    rw [Subsingleton.elim i 0, this]
  · rename_i ns _ h
    have h : List.ofFn num = ns := by simpa using h
    subst h
    simp

/-- **C82**: `gridify` for positive norms and maxima and at least two points per dimension (one number for all dimensions
or one per dimension). The grid exists with these numbers of points; its limits in original units (times the norms) are plus
and minus the maxima; every grid point in original units lies between them; the grid is symmetric about the origin, and
contains the origin if all numbers of points are odd. -/
theorem C82_gridify (norms : Fin d → K) (maxes : Option (Fin d → K)) (np : NumPoints) (num : Fin d → ℤ)
    (hnp : np = .seq (List.ofFn num) ∨ ∃ n, np = .scalar n ∧ num = fun _ => n) (hnum : ∀ i, 2 ≤ num i)
    (hnorm : ∀ i, 0 < norms i) (hmax : ∀ mx, maxes = some mx → ∀ i, 0 < mx i) :
    ∃ g : GridWorld K d, gridify norms maxes np = .ok g ∧
      (∀ i, (g.num i : ℤ) = num i) ∧
      (∀ i, norms i * g.lo i = -(maxes.getD norms i) ∧ norms i * g.hi i = maxes.getD norms i) ∧
      (∀ x ∈ g.allPoints, (∀ i, |norms i * x i| ≤ maxes.getD norms i) ∧ -x ∈ g.allPoints) ∧
      ((∀ i, Odd (num i)) → (0 : Fin d → K) ∈ g.allPoints) := by
  have hmax' : ∀ i, 0 < maxes.getD norms i := by
    cases maxes with
    | none => exact hnorm
    | some mx => exact hmax mx rfl
  have hb : gridify norms maxes np =
      GridWorld.new (fun i => -(maxes.getD norms i) / norms i) (fun i => maxes.getD norms i / norms i)
        (.seq (List.ofFn num)) := by
    rcases hnp with rfl | ⟨n, rfl, rfl⟩
    · rfl
    · simp only [gridify, List.ofFn_const]
  have hb2 : gridify norms maxes np = .ok ⟨fun i => -(maxes.getD norms i) / norms i,
      fun i => maxes.getD norms i / norms i, fun i => (num i).toNat⟩ := by
    rw [hb, GridWorld.new, broadcast_ofFn]
    have : ¬ ∃ i, num i < 2 := by
      rintro ⟨i, hi⟩; have := hnum i; omega
    simp only [bind, Except.bind, this, if_false]
  refine ⟨_, hb2, fun i => by have := hnum i; simp; omega, fun i => ?_, fun x hx => ?_, fun hodd => ?_⟩
  · have := (hnorm i).ne'
    constructor
    · dsimp only; field_simp
    · dsimp only; field_simp
  · rw [mem_allPoints_iff] at hx ⊢
    dsimp only at hx ⊢
    refine ⟨fun i => ?_, fun i => ?_⟩
    · obtain ⟨j, hj, hx⟩ := hx i
      have hn := (hnorm i).ne'
      have h2 := hnum i
      have hN : (2 : K) ≤ ((num i).toNat : K) := by exact_mod_cast (by omega : 2 ≤ (num i).toNat)
      have hj' : (j : K) ≤ ((num i).toNat : K) - 1 := by
        have : ((j + 1 : ℕ) : K) ≤ ((num i).toNat : K) := by exact_mod_cast hj
        push_cast at this; linarith
      have hj0 : (0 : K) ≤ j := Nat.cast_nonneg j
      have hd : (0 : K) < ((num i).toNat : K) - 1 := by linarith
      have e : norms i * x i = maxes.getD norms i * (2 * (j / (((num i).toNat : K) - 1)) - 1) := by
        rw [hx, Spec.axisPoint]; field_simp; ring
      have f1 : (j : K) / (((num i).toNat : K) - 1) ≤ 1 := (div_le_one hd).mpr hj'
      have f0 : 0 ≤ (j : K) / (((num i).toNat : K) - 1) := div_nonneg hj0 hd.le
      rw [e, abs_mul, abs_of_pos (hmax' i)]
      have : |2 * ((j : K) / (((num i).toNat : K) - 1)) - 1| ≤ 1 := by
        rw [abs_le]; constructor <;> linarith
      exact mul_le_of_le_one_right (hmax' i).le this
    · obtain ⟨j, hj, hx⟩ := hx i
      refine ⟨(num i).toNat - 1 - j, by omega, ?_⟩
      have h2 := hnum i
      have hN : (2 : K) ≤ ((num i).toNat : K) := by exact_mod_cast (by omega : 2 ≤ (num i).toNat)
      have hd : ((num i).toNat : K) - 1 ≠ 0 := by
        intro h; linarith
      have hc : (((num i).toNat - 1 - j : ℕ) : K) = ((num i).toNat : K) - 1 - j := by
        rw [Nat.cast_sub (by omega), Nat.cast_sub (by omega)]; simp
      rw [Pi.neg_apply, hx, Spec.axisPoint, Spec.axisPoint, hc]
      field_simp
      ring
  · rw [mem_allPoints_iff]
    intro i
    obtain ⟨k, hk⟩ := hodd i
    have h2 := hnum i
    refine ⟨k.toNat, by dsimp only; omega, ?_⟩
    have hk1 : 1 ≤ k.toNat := by omega
    have hc : ((num i).toNat : K) = 2 * (k.toNat : K) + 1 := by
      exact_mod_cast (by omega : (num i).toNat = 2 * k.toNat + 1)
    have hk0 : (k.toNat : K) ≠ 0 := by exact_mod_cast (by omega : k.toNat ≠ 0)
    dsimp only
    rw [Pi.zero_apply, Spec.axisPoint, hc]
    field_simp
    ring

/-- **C82**: without maxima the grid covers `[-1, 1]` in every dimension. -/
theorem C82_default_limits (norms : Fin d → K) (np : NumPoints) (g : GridWorld K d) (hnorm : ∀ i, norms i ≠ 0)
    (h : gridify norms none np = .ok g) : ∀ i, g.lo i = -1 ∧ g.hi i = 1 := by
  have key : ∀ np', GridWorld.new (fun i => -norms i / norms i) (fun i => norms i / norms i) np' = .ok g →
      ∀ i, g.lo i = -1 ∧ g.hi i = 1 := by
    intro np' h i
    rw [GridWorld.new] at h
    cases hb : np'.broadcast d with
    | error e => rw [hb] at h; simp [bind, Except.bind] at h
    | ok num =>
      rw [hb] at h
      simp only [bind, Except.bind] at h
      split_ifs at h
      obtain rfl : _ = g := by simpa using h
      exact ⟨by dsimp only; rw [neg_div, div_self (hnorm i)], div_self (hnorm i)⟩
  cases np <;> exact key _ h

/-- **C82**: fewer than two points raise `DimensionError`. -/
theorem C82_too_few_points (norms : Fin d → K) (maxes : Option (Fin d → K)) (num : Fin d → ℤ) (h : ∃ i, num i < 2) :
    gridify norms maxes (.seq (List.ofFn num)) = .error .dimensionError := by
  change GridWorld.new _ _ (.seq (List.ofFn num)) = _
  rw [GridWorld.new, broadcast_ofFn]
  simp only [bind, Except.bind, h, if_true]

example : (match gridify (K := ℚ) ![2, 4] (some ![1, 1]) (.scalar 3) with
    | .ok g => decide (g.allPoints.map List.ofFn = [[-1 / 2, -1 / 4], [-1 / 2, 0], [-1 / 2, 1 / 4], [0, -1 / 4], [0, 0],
        [0, 1 / 4], [1 / 2, -1 / 4], [1 / 2, 0], [1 / 2, 1 / 4]])
    | .error _ => false) = true := by decide +kernel

end SafeLearning
