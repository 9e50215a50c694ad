import Verif.Lemmas.NonFinite
import Verif.Lemmas.SafeSet
set_option autoImplicit false

/-!
# `update_safe_set` in floating point numbers without adaptive refinement
-/

namespace SafeLearning.FltLyap

open Flt
open Lyap (Row BatchResult)

/-- A world of exact numbers in which the decrease condition holds where a test says so. -/
def testWorld {n : ℕ} (test : Fin n → Bool) : World ℚ Unit Unit n where
  decrease _ _ j := if test j then -1 else 1
  threshold _ _ _ := 0
  lyapunov _ _ := 0
  tauDiv t _ := t
  argsort _ := []

theorem negative_testWorld {n : ℕ} (test : Fin n → Bool) (G : Graph ℚ Unit) (j : Fin n) : Lyap.negative (testWorld test) G () j = test j := by
  unfold Lyap.negative testWorld
  cases h : test j <;> simp [h]

/-- Without adaptive refinement the loop over the batches only depends on the outcomes of the tests. -/
theorem loop_testWorld {n : ℕ} (C : Checks n) (adaptive : Bool) (initial : Option (Fin n → Bool)) (maxRef : ℕ) (hna : ¬(adaptive = true ∧ 1 < maxRef))
    (G : Graph ℚ Unit) (s : Lyap ℚ Unit n) (hs : s.adaptive = adaptive) (bs : List (ℕ × List (Row n))) :
    ∀ acc last, loop C adaptive initial maxRef acc last bs = Lyap.batchLoop (testWorld C.negative) G s () maxRef acc last bs := by
  have hstep : ∀ rows, loopStep C adaptive initial maxRef rows = Lyap.batchStep (testWorld C.negative) G s () maxRef rows := by
    intro rows
    unfold loopStep Lyap.batchStep
    simp only [negative_testWorld, hs, if_neg hna]
  induction bs with
  | nil => intro acc last; rfl
  | cons b bs ih =>
    obtain ⟨i, rows⟩ := b
    intro acc last
    rw [loop, Lyap.batchLoop, hstep]
    cases Lyap.batchStep (testWorld C.negative) G s () maxRef rows with
    | error e => rfl
    | ok res => simp only [ih]

variable {K : Type} [Field K] [LinearOrder K] [FloorRing K] {Prog Θ : Type} {d n : ℕ} (A : Arith K) (W : FWorld K Prog Θ d n)

/-- Outcome of `update_safe_set(can_shrink=True)` without adaptive refinement: the initial states and the longest prefix of the value order whose states are initially safe or pass the test. -/
theorem updateSafeSet_level (hn : 0 < n) (batch : ℕ) (hb : 0 < batch) (args : Lyap.UpdateArgs (Flt K)) (hcs : args.canShrink = true)
    (s : Lyap (Flt K) Prog n) (θ : Θ) (horder : ∀ j, j ∈ W.argsort s.values) (hna : ¬(s.adaptive = true ∧ 1 < args.maxRefinement))
    (hgr : ∀ G, s.graph = some G → G.adaptive = s.adaptive) :
    (updateSafeSet A W batch args s θ).2 = .ok () ∧
    ∀ j, (updateSafeSet A W batch args s θ).1.safeSet j = true ↔ initialMem s j = true ∨
      j ∈ (W.argsort s.values).takeWhile fun j => initialMem s j || negative A W (graphFor s args.safetyFactor) θ j := by
  obtain ⟨G, hG⟩ : ∃ G, G = graphFor s args.safetyFactor := ⟨_, rfl⟩
  obtain ⟨order, hord⟩ : ∃ order, order = W.argsort s.values := ⟨_, rfl⟩
  obtain ⟨mk, hmk⟩ : ∃ mk : Fin n → Row n, mk = fun j => ⟨j, initialMem s j, if initialMem s j then 1 else 0⟩ := ⟨_, rfl⟩
  rw [← hord] at horder ⊢
  rw [← hG]
  have hpos : 0 < order.length := List.length_pos_of_mem (horder ⟨0, hn⟩)
  have hrows : startRows W { s with graph := some G } args.canShrink = order.map mk := by
    unfold startRows
    rw [hcs, hmk]
    simp only [if_true, hord]
    rfl
  have hGa : G.adaptive = s.adaptive := by
    rw [hG]
    unfold graphFor
    cases h : s.graph with
    | none => rfl
    | some G' => exact hgr G' h
  have hne : order.map mk ≠ [] := by
    intro h; have := congrArg List.length h; simp at this; simp [this] at hpos
  let s0 : Lyap ℚ Unit n := ⟨(), 0, s.adaptive, none, fun _ => false, fun _ => 0, fun _ => 0, 0, none⟩
  let G0 : Graph ℚ Unit := ⟨(), 0, 0, false⟩
  obtain ⟨W0, hW0⟩ : ∃ W0, W0 = testWorld (checks A W G θ).negative := ⟨_, rfl⟩
  have hcall : updateSafeSet A W batch args s θ =
      match Lyap.batchLoop W0 G0 s0 () args.maxRefinement [] none (batchify (order.map mk) batch) with
      | .error e => ({ s with graph := some G }, .error e)
      | .ok (rows, last) =>
        match finish W { s with graph := some G } rows last with
        | .error e => ({ s with graph := some G }, .error e)
        | .ok s' => (s', .ok ()) := by
    unfold updateSafeSet
    simp only []
    rw [← hG, if_neg (by simpa using hGa), hrows, hW0, ← loop_testWorld (checks A W G θ) s.adaptive s.initial args.maxRefinement hna G0 s0 rfl]
    rfl
  have hok : ∀ j, Lyap.ok W0 G0 () (mk j) ↔ (initialMem s j || negative A W G θ j) = true := by
    intro j
    unfold Lyap.ok
    rw [hW0, negative_testWorld, hmk, Bool.or_eq_true]
    rfl
  have hidx : ∀ j, (mk j).idx = j := fun j => by rw [hmk]
  have hfin : ∀ rows (i b : ℕ), i + b ≤ order.length → ∃ c r, finish W { s with graph := some G } rows (some (i, b, 0)) = .ok { s with
      graph := some G, cMax := c, safeSet := fun j => decide (j ∈ (rows.filter (·.safe)).map (·.idx)) || initialMem s j, refinement := r } := by
    intro rows i b hib
    obtain ⟨top, htop⟩ : ∃ top, Lyap.pyGet? order ((i : ℤ) + (b : ℕ) + (0 : ℕ) - 1) = some top := by
      rcases Nat.eq_zero_or_pos (i + b) with h0 | h0
      · have e : (i : ℤ) + (b : ℕ) + (0 : ℕ) - 1 = -1 := by omega
        rw [e]
        exact ⟨_, Lyap.pyGet?_neg_one order hpos⟩
      · have e : (i : ℤ) + (b : ℕ) + (0 : ℕ) - 1 = ((i + b - 1 : ℕ) : ℤ) := by omega
        rw [e]
        exact ⟨_, Lyap.pyGet?_nonneg order (i + b - 1) (by omega)⟩
    unfold finish
    simp only []
    rw [show W.argsort s.values = order from hord.symm, htop]
    exact ⟨_, _, rfl⟩
  have hmem : ∀ rows (i b : ℕ), i + b ≤ order.length →
      Lyap.batchLoop W0 G0 s0 () args.maxRefinement [] none (batchify (order.map mk) batch) = .ok (rows, some (i, b, 0)) →
      (updateSafeSet A W batch args s θ).2 = .ok () ∧ ∀ j, (updateSafeSet A W batch args s θ).1.safeSet j = true ↔
        initialMem s j = true ∨ ∃ r ∈ rows, r.safe = true ∧ r.idx = j := by
    intro rows i b hib hl
    obtain ⟨c, r, hf⟩ := hfin rows i b hib
    rw [hcall, hl]
    simp only [hf]
    refine ⟨trivial, fun j => ?_⟩
    simp only [Bool.or_eq_true, decide_eq_true_eq, List.mem_map, List.mem_filter, and_assoc]
    exact or_comm
  rcases Lyap.batchLoop_spec W0 G0 s0 () args.maxRefinement hna batch hb (order.map mk) hne with
    ⟨hall, i, hloop, hi1, -⟩ | ⟨p, q, i, m, hp, h1, h2, hq1, hpq, him, -, -, -, -, hloop⟩
  · obtain ⟨h1, h2⟩ := hmem _ i 0 (by simp at hi1; omega) hloop
    refine ⟨h1, fun j => ?_⟩
    rw [h2 j, takeWhile_eq_self_of_all _ _ fun j _ => (hok j).mp (hall _ (List.mem_map_of_mem (horder j)))]
    constructor
    · intro _; exact Or.inr (horder j)
    · intro _
      refine Or.inr ⟨Lyap.upd W0 G0 () (mk j), List.mem_map_of_mem (List.mem_map_of_mem (horder j)), ?_, ?_⟩
      · exact (Lyap.upd_safe _ _ _ _).mpr (hall _ (List.mem_map_of_mem (horder j)))
      · rw [Lyap.upd_idx, hidx]
  · simp only [List.length_map] at hp hpq
    obtain ⟨h3, h4⟩ := hmem _ i m (by omega) hloop
    have hcert : (order.takeWhile fun j => initialMem s j || negative A W G θ j) = order.take p := by
      have e1 : ∀ j ∈ order.take p, (initialMem s j || negative A W G θ j) = true := by
        intro j hj
        refine (hok j).mp (h1 _ ?_)
        rw [← List.map_take]
        exact List.mem_map_of_mem hj
      have e2 : ¬(initialMem s order[p] || negative A W G θ order[p]) = true := by
        rw [← hok]
        simpa using h2
      conv_lhs => rw [← List.take_append_drop p order]
      rw [List.takeWhile_append_of_pos e1, List.drop_eq_getElem_cons hp, List.takeWhile_cons, if_neg e2, List.append_nil]
    refine ⟨h3, fun j => ?_⟩
    rw [h4 j, hcert]
    constructor
    · rintro (h | ⟨r, hr, hrs, rfl⟩)
      · exact Or.inl h
      · rw [List.mem_append, List.mem_append] at hr
        rcases hr with (hr | hr) | hr
        · right
          rw [← List.map_take, List.map_map] at hr
          obtain ⟨j, hj, rfl⟩ := List.mem_map.mp hr
          simpa only [Function.comp, Lyap.upd_idx, hidx] using hj
        · obtain ⟨r', -, rfl⟩ := List.mem_map.mp hr
          simp [Lyap.clr] at hrs
        · left
          rw [← List.map_drop] at hr
          obtain ⟨j, -, rfl⟩ := List.mem_map.mp hr
          rw [hidx]
          rw [hmk] at hrs
          exact hrs
    · rintro (h | h)
      · exact Or.inl h
      · refine Or.inr ⟨Lyap.upd W0 G0 () (mk j), ?_, ?_, ?_⟩
        · rw [List.mem_append, List.mem_append]
          left; left
          rw [← List.map_take]
          exact List.mem_map_of_mem (List.mem_map_of_mem h)
        · refine (Lyap.upd_safe _ _ _ _).mpr (h1 _ ?_)
          rw [← List.map_take]
          exact List.mem_map_of_mem h
        · rw [Lyap.upd_idx, hidx]

end SafeLearning.FltLyap
