import Verif.Lemmas.Lyapunov
set_option autoImplicit false

set_option linter.unusedSectionVars false

namespace SafeLearning

theorem takeWhile_eq_take {α : Type*} (P : α → Bool) (l : List α) (p : ℕ) (hp : p < l.length)
    (h1 : ∀ x ∈ l.take p, P x = true) (h2 : P l[p] = false) : l.takeWhile P = l.take p := by
  induction l generalizing p with
  | nil => simp at hp
  | cons a l ih =>
    cases p with
    | zero =>
      have : P a = false := h2
      simp [this]
    | succ p =>
      have ha : P a = true := h1 a (by simp)
      rw [List.takeWhile_cons, if_pos ha, List.take_succ_cons]
      congr 1
      exact ih p (by simpa using hp) (fun x hx => h1 x (by simp [hx])) (by simpa using h2)

theorem takeWhile_eq_self_of_all {α : Type*} (P : α → Bool) (l : List α)
    (h : ∀ x ∈ l, P x = true) : l.takeWhile P = l := by
  induction l with
  | nil => rfl
  | cons a l ih =>
    rw [List.takeWhile_cons, if_pos (h a (by simp)), ih fun x hx => h x (by simp [hx])]

variable {K : Type} [Field K] [LinearOrder K] [IsStrictOrderedRing K] [FloorRing K]

namespace Lyap

variable {Prog Θ : Type} {n : ℕ}

theorem argsort_length (W : World K Prog Θ n) (hW : W.SortContract) (v : Fin n → K) :
    (W.argsort v).length = n := by
  have h1 := (List.nodup_iff_injective_get.mp (hW.nodup v))
  have h2 : Function.Surjective (W.argsort v).get := fun i => by
    obtain ⟨k, hk⟩ := List.get_of_mem (hW.complete v i)
    exact ⟨k, hk⟩
  have := Fintype.card_of_bijective (f := (W.argsort v).get) ⟨h1, h2⟩
  simpa using this

/-- The safe flag with which a call starts. -/
def startFlag (s : Lyap K Prog n) (canShrink : Bool) (j : Fin n) : Bool :=
  if canShrink then s.initialMem j else s.safeSet j

/-- The refinement with which a call starts. -/
def startRef (s : Lyap K Prog n) (canShrink : Bool) (j : Fin n) : ℕ :=
  if canShrink then (if s.initialMem j then 1 else 0) else s.refinement j

/-- Safe at the start of the call, or the decrease condition holds. -/
def good (W : World K Prog Θ n) (G : Graph K Prog) (θ : Θ) (s : Lyap K Prog n) (canShrink : Bool)
    (j : Fin n) : Bool :=
  s.startFlag canShrink j || negative W G θ j

theorem startRows_eq (W : World K Prog Θ n) (s : Lyap K Prog n) (c : Bool) :
    s.startRows W c = (W.argsort s.values).map fun j => ⟨j, s.startFlag c j, s.startRef c j⟩ := by
  unfold startRows startFlag startRef
  apply List.map_congr_left
  intro j _
  split_ifs <;> rfl

theorem pyGet?_nonneg {α : Type*} (l : List α) (k : ℕ) (h : k < l.length) :
    pyGet? l (k : ℤ) = some l[k] := by
  unfold pyGet?
  rw [if_pos (by omega)]
  simp [h]

theorem pyGet?_neg_one {α : Type*} (l : List α) (h : 0 < l.length) :
    pyGet? l (-1) = some (l[l.length - 1]'(by omega)) := by
  unfold pyGet?
  rw [if_neg (by omega), if_pos (by omega)]
  have : ((l.length : ℤ) + -1).toNat = l.length - 1 := by omega
  rw [this, List.getElem?_eq_getElem]

set_option maxHeartbeats 2000000 in
/-- Outcome of `update_safe_set` without adaptive refinement. `p` is the length of the certified
prefix, `e` the position up to which rows are cleared, `top` the position read for `c_max`. -/
theorem updateSafeSet_nonadaptive (W : World K Prog Θ n) (hW : W.SortContract) (hn : 0 < n)
    (batch : ℕ) (hb : 0 < batch) (args : UpdateArgs K) (s : Lyap K Prog n) (θ : Θ)
    (hna : ¬(s.adaptive = true ∧ 1 < args.maxRefinement))
    (hgr : ∀ G, s.graph = some G → G.adaptive = s.adaptive) :
    let G := s.graphFor args.safetyFactor
    let order := W.argsort s.values
    let cert := order.takeWhile (good W G θ s args.canShrink)
    ∃ s' e, updateSafeSet W batch args s θ = (s', .ok ()) ∧
      s'.initial = s.initial ∧ s'.values = s.values ∧ s'.prog = s.prog ∧ s'.tau = s.tau ∧
      s'.adaptive = s.adaptive ∧ s'.graph = some G ∧
      cert.length ≤ e ∧ (cert.length < n → cert.length < e) ∧
      (∀ j, s'.safeSet j = true ↔ s.initialMem j = true ∨ j ∈ cert ∨
        (j ∈ order.drop e ∧ s.startFlag args.canShrink j = true)) ∧
      (∀ j, s'.refinement j = if s.initialMem j then 1
        else if j ∈ cert then (if negative W G θ j then 1 else s.startRef args.canShrink j)
        else if j ∈ order.drop e then s.startRef args.canShrink j else 0) ∧
      (cert.length < n → 0 < cert.length → ∃ top, order[cert.length - 1]? = some top ∧
        s'.cMax = s.values top) ∧
      (cert.length = 0 → ∃ top, order[n - 1]? = some top ∧ s'.cMax = s.values top) ∧
      (cert.length = n → ∃ i top, (∃ q, i = q * batch) ∧ i < n ∧ n ≤ i + batch ∧
        order[if i = 0 then n - 1 else i - 1]? = some top ∧ s'.cMax = s.values top) ∧
      (cert.length < n → ∃ c, c * batch ≤ cert.length ∧ e ≤ (c + 1) * batch ∧ e ≤ n ∧
        (e < n → e = (c + 1) * batch)) := by
  intro G order cert
  set sG : Lyap K Prog n := { s with graph := some G } with hsG
  have hlen : order.length = n := argsort_length W hW s.values
  have hGa : G.adaptive = s.adaptive := by
    simp only [G, graphFor]
    cases h : s.graph with
    | none => rfl
    | some G' => exact hgr G' h
  set mk : Fin n → Row n := fun j => ⟨j, s.startFlag args.canShrink j, s.startRef args.canShrink j⟩
    with hmk
  have hrows : sG.startRows W args.canShrink = order.map mk := startRows_eq W s args.canShrink
  have hne : order.map mk ≠ [] := by
    intro h; have := congrArg List.length h; simp [hlen] at this; omega
  have hgood : ∀ j, ok W G θ (mk j) ↔ good W G θ s args.canShrink j = true := by
    intro j; unfold ok good; simp [hmk]
  have hinj : ∀ l : List (Fin n), ∀ P : Row n → Prop, (∀ r ∈ l.map mk, P r) ↔ ∀ j ∈ l, P (mk j) := by
    intro l P; simp
  -- unfold the call
  have hcall : updateSafeSet W batch args s θ =
      match batchLoop W G sG θ args.maxRefinement [] none (batchify (order.map mk) batch) with
      | .error e => (sG, .error e)
      | .ok (rows, last) =>
        match sG.finish W rows last with
        | .error e => (sG, .error e)
        | .ok s' => (s', .ok ()) := by
    unfold updateSafeSet
    simp only []
    rw [if_neg (by simpa using hGa)]
    rw [← hrows]
    rfl
  have hnodup : order.Nodup := hW.nodup s.values
  rcases batchLoop_spec W G sG θ args.maxRefinement hna batch hb (order.map mk) hne with
    ⟨hall, i, hloop, hi1, hi2, q, hq⟩ | ⟨p, q, i, m, hp, h1, h2, hq1, hpq, him, hmb, hmq, hfull, ⟨c, hc⟩, hloop⟩
  · -- everything is certified
    rw [hinj] at hall
    have hcert : cert = order := takeWhile_eq_self_of_all _ _ fun j hj => (hgood j).mp (hall j hj)
    have hi1' : i < n := by simpa [hlen] using hi1
    have hi2' : n ≤ i + batch := by simpa [hlen] using hi2
    obtain ⟨top, htop, hget⟩ : ∃ top, order[if i = 0 then n - 1 else i - 1]? = some top ∧
        pyGet? order ((i : ℤ) + (0 : ℕ) + (0 : ℕ) - 1) = some top := by
      by_cases h0 : i = 0
      · subst h0
        refine ⟨order[n - 1], ?_, ?_⟩
        · simp
        · have := pyGet?_neg_one order (by omega)
          simp only [hlen] at this
          simpa using this
      · refine ⟨order[i - 1], ?_, ?_⟩
        · rw [if_neg h0, List.getElem?_eq_getElem]
        · have := pyGet?_nonneg order (i - 1) (by omega)
          have e : ((i - 1 : ℕ) : ℤ) = (i : ℤ) + (0 : ℕ) + (0 : ℕ) - 1 := by omega
          rw [e] at this; exact this
    have hfin : sG.finish W ((order.map mk).map (upd W G θ)) (some (i, 0, 0)) = .ok { sG with
        cMax := s.values top
        safeSet := fun j => decide (j ∈ ((((order.map mk).map (upd W G θ)).filter (·.safe)).map (·.idx)))
          || s.initialMem j
        refinement := fun j =>
          if s.initialMem j then 1
          else match ((order.map mk).map (upd W G θ)).find? (fun r => decide (r.idx = j)) with
            | none => s.refinement j
            | some r => r.refine } := by
      unfold finish
      simp only []
      have : W.argsort sG.values = order := rfl
      rw [this, hget]
      rfl
    rw [hcall, hloop]
    simp only [hfin]
    refine ⟨_, n, rfl, rfl, rfl, rfl, rfl, rfl, rfl, by rw [hcert, hlen], by rw [hcert, hlen]; omega,
      ?_, ?_, by rw [hcert, hlen]; omega, by rw [hcert, hlen]; omega, ?_,
      by rw [hcert, hlen]; omega⟩
    · intro j
      have hj : j ∈ order := hW.complete s.values j
      rw [hcert]
      simp only [Bool.or_eq_true, decide_eq_true_eq]
      constructor
      · intro _; exact Or.inr (Or.inl hj)
      · intro _
        left
        simp only [List.mem_map, List.mem_filter]
        refine ⟨upd W G θ (mk j), ⟨⟨mk j, ⟨j, hj, rfl⟩, rfl⟩, (upd_safe W G θ _).mpr (hall j hj)⟩, ?_⟩
        rw [upd_idx]
    · intro j
      have hj : j ∈ order := hW.complete s.values j
      rw [hcert]
      simp only []
      by_cases hI : s.initialMem j = true
      · rw [if_pos hI, if_pos hI]
      · rw [if_neg hI, if_neg hI, if_pos hj]
        have : ((order.map mk).map (upd W G θ)).find? (fun r => decide (r.idx = j)) =
            some (upd W G θ (mk j)) := by
          rw [List.map_map, List.find?_map]
          have : order.find? ((fun r : Row n => decide (r.idx = j)) ∘ (upd W G θ ∘ mk)) = some j := by
            rw [List.find?_eq_some_iff_append]
            obtain ⟨as, bs, hab⟩ := List.append_of_mem hj
            refine ⟨by simp [upd_idx, mk], as, bs, hab, ?_⟩
            intro a ha
            simp only [Function.comp, upd_idx, mk, Bool.not_eq_true', decide_eq_false_iff_not]
            rintro rfl
            rw [hab, List.nodup_append] at hnodup
            exact hnodup.2.2 a ha a (by simp) rfl
          rw [this]; rfl
        rw [this]
        simp only [upd, mk]
        split_ifs <;> rfl
    · intro _
      exact ⟨i, top, ⟨q, hq⟩, hi1', hi2', htop, rfl⟩
  · -- some state is not certified
    have hp' : p < n := by simpa [hlen] using hp
    have hpq' : p + q ≤ n := by simpa [hlen] using hpq
    rw [← List.map_take, hinj] at h1
    have hcert : cert = order.take p := by
      refine takeWhile_eq_take _ _ p (by omega) (fun j hj => (hgood j).mp (h1 j hj)) ?_
      rw [← Bool.not_eq_true, ← hgood]
      simpa using h2
    have hcl : cert.length = p := by rw [hcert, List.length_take, hlen]; omega
    set out := ((order.take p).map mk).map (upd W G θ) ++
      (((order.drop p).take q).map mk).map clr ++ (order.drop (p + q)).map mk with hout
    have hloop' : batchLoop W G sG θ args.maxRefinement [] none (batchify (order.map mk) batch) =
        .ok (out, some (i, m, 0)) := by
      rw [hloop, hout]
      simp only [List.map_take, List.map_drop]
    obtain ⟨top, htop, hget⟩ : ∃ top, order[if p = 0 then n - 1 else p - 1]? = some top ∧
        pyGet? order ((i : ℤ) + m + (0 : ℕ) - 1) = some top := by
      by_cases h0 : p = 0
      · refine ⟨order[n - 1], ?_, ?_⟩
        · rw [if_pos h0, List.getElem?_eq_getElem]
        · have := pyGet?_neg_one order (by omega)
          have e : ((i : ℤ) + m + (0 : ℕ) - 1) = -1 := by omega
          simp only [hlen] at this
          rw [e, this]
      · refine ⟨order[p - 1], ?_, ?_⟩
        · rw [if_neg h0, List.getElem?_eq_getElem]
        · have := pyGet?_nonneg order (p - 1) (by omega)
          have e : ((p - 1 : ℕ) : ℤ) = (i : ℤ) + m + (0 : ℕ) - 1 := by omega
          rw [e] at this; exact this
    have hfin : sG.finish W out (some (i, m, 0)) = .ok { sG with
        cMax := s.values top
        safeSet := fun j => decide (j ∈ (out.filter (·.safe)).map (·.idx)) || s.initialMem j
        refinement := fun j =>
          if s.initialMem j then 1
          else match out.find? (fun r => decide (r.idx = j)) with
            | none => s.refinement j
            | some r => r.refine } := by
      unfold finish
      simp only []
      have : W.argsort sG.values = order := rfl
      rw [this, hget]
      rfl
    rw [hcall, hloop']
    simp only [hfin]
    -- every index is in exactly one of the three parts
    have hsplit : order = order.take p ++ ((order.drop p).take q ++ order.drop (p + q)) := by
      rw [← List.drop_drop, List.take_append_drop, List.take_append_drop]
    have hnd : (order.take p ++ ((order.drop p).take q ++ order.drop (p + q))).Nodup := hsplit ▸ hnodup
    rw [List.nodup_append, List.nodup_append] at hnd
    obtain ⟨-, ⟨-, -, hd23⟩, hd1⟩ := hnd
    refine ⟨_, p + q, rfl, rfl, rfl, rfl, rfl, rfl, rfl, by omega, by omega, ?_, ?_, ?_, ?_, by omega,
      ?_⟩
    · intro j
      simp only [Bool.or_eq_true, decide_eq_true_eq]
      have : j ∈ (out.filter (·.safe)).map (·.idx) ↔
          j ∈ order.take p ∨ (j ∈ order.drop (p + q) ∧ s.startFlag args.canShrink j = true) := by
        simp only [List.mem_map, List.mem_filter, hout, List.mem_append]
        constructor
        · rintro ⟨r, ⟨(⟨r', ⟨k, hk, rfl⟩, rfl⟩ | ⟨r', ⟨k, hk, rfl⟩, rfl⟩) | ⟨k, hk, rfl⟩, hs⟩, rfl⟩
          · left; rw [upd_idx]; exact hk
          · simp [clr] at hs
          · right; exact ⟨hk, hs⟩
        · rintro (hj | ⟨hj, hs⟩)
          · exact ⟨upd W G θ (mk j), ⟨Or.inl (Or.inl ⟨mk j, ⟨j, hj, rfl⟩, rfl⟩),
              (upd_safe W G θ _).mpr (h1 j hj)⟩, by rw [upd_idx]⟩
          · exact ⟨mk j, ⟨Or.inr ⟨j, hj, rfl⟩, hs⟩, rfl⟩
      rw [this, hcert]
      exact or_comm
    · intro j
      have hj : j ∈ order := hW.complete s.values j
      rw [hcert]
      simp only []
      by_cases hI : s.initialMem j = true
      · rw [if_pos hI, if_pos hI]
      · rw [if_neg hI, if_neg hI]
        -- find? returns the unique row with index j
        have key : ∀ r ∈ out, r.idx = j → out.find? (fun r => decide (r.idx = j)) = some r := by
          intro r hr hrj
          have hidx : out.map (·.idx) = order := by
            rw [hout]
            simp only [List.map_append, List.map_map]
            conv_rhs => rw [hsplit]
            rw [List.append_assoc]
            congr 1
            · conv_rhs => rw [← List.map_id (order.take p)]
              apply List.map_congr_left; intro a _; simp [upd_idx, mk]
            · congr 1
              · conv_rhs => rw [← List.map_id ((order.drop p).take q)]
                apply List.map_congr_left; intro a _; simp [clr, mk]
              · conv_rhs => rw [← List.map_id (order.drop (p + q))]
                apply List.map_congr_left; intro a _; simp [mk]
          rw [List.find?_eq_some_iff_append]
          obtain ⟨as, bs, hab⟩ := List.append_of_mem hr
          refine ⟨by simp [hrj], as, bs, hab, ?_⟩
          intro a ha
          simp only [Bool.not_eq_true', decide_eq_false_iff_not]
          intro haj
          rw [hab, List.map_append, List.map_cons] at hidx
          rw [← hidx, List.nodup_append] at hnodup
          exact hnodup.2.2 a.idx (List.mem_map_of_mem ha) r.idx (by simp) (by rw [haj, hrj])
        rw [hsplit, List.mem_append, List.mem_append] at hj
        rcases hj with hj | hj | hj
        · rw [if_pos hj, key (upd W G θ (mk j)) (by
            simp only [hout, List.mem_append]
            exact Or.inl (Or.inl (List.mem_map_of_mem (List.mem_map_of_mem hj)))) (by rw [upd_idx])]
          simp only [upd, mk]; split_ifs <;> rfl
        · have hn1 : j ∉ order.take p := fun h => hd1 j h j (List.mem_append_left _ hj) rfl
          have hn2 : j ∉ order.drop (p + q) := fun h => hd23 j hj j h rfl
          rw [if_neg hn1, if_neg hn2, key (clr (mk j)) (by
            simp only [hout, List.mem_append]
            exact Or.inl (Or.inr (List.mem_map_of_mem (List.mem_map_of_mem hj)))) rfl]
          rfl
        · have hn1 : j ∉ order.take p := fun h => hd1 j h j (List.mem_append_right _ hj) rfl
          rw [if_neg hn1, if_pos hj, key (mk j) (by
            simp only [hout, List.mem_append]
            exact Or.inr (List.mem_map_of_mem hj)) rfl]
    · intro _ h0
      rw [hcl] at h0 ⊢
      rw [if_neg (by omega)] at htop
      exact ⟨top, htop, rfl⟩
    · intro h0
      rw [hcl] at h0
      rw [if_pos h0] at htop
      exact ⟨top, htop, rfl⟩
    · intro _
      refine ⟨c, by rw [hcl]; omega, ?_, hpq', ?_⟩
      · rw [Nat.add_mul]; omega
      · intro hlt
        have := hfull (by simpa [hlen] using hlt)
        rw [Nat.add_mul]; omega

end Lyap

end SafeLearning
