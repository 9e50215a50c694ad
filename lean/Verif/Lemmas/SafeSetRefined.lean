import Verif.Lemmas.SafeSetAdaptive
set_option autoImplicit false

/-! Why a state is in the safe set after any call, adaptive or not. -/

set_option linter.unusedSectionVars false

namespace SafeLearning.Lyap

variable {K : Type} [Field K] [LinearOrder K] [IsStrictOrderedRing K] [FloorRing K]
variable {Prog Θ : Type} {n : ℕ} (W : World K Prog Θ n) (G : Graph K Prog) (s : Lyap K Prog n) (θ : Θ)
variable (maxRef : ℕ) (start : Fin n → Bool)

/-- The adaptive certificate of a state with refinement `N`. -/
def Refined (x : Fin n) (N : ℕ) : Prop :=
  s.adaptive = true ∧ 1 < maxRef ∧ 1 ≤ N ∧ N ≤ maxRef ∧
    W.decrease G.prog θ x < W.threshold θ x (W.tauDiv G.tau N) ∧
    (negative W G θ x = true ∨ s.initialMem x = true ∨ N = nReq W G θ x)

/-- A safe row has a reason. -/
def Reason (r : Row n) : Prop :=
  r.safe = true → start r.idx = true ∨ negative W G θ r.idx = true ∨
    Refined W G s θ maxRef r.idx r.refine

theorem mem_clearFrom {b : ℕ} {rows : List (Row n)} {r : Row n} (h : r ∈ clearFrom b rows)
    (hs : r.safe = true) : r ∈ rows.take b := by
  unfold clearFrom at h
  rw [List.mem_mapIdx] at h
  obtain ⟨k, hk, rfl⟩ := h
  by_cases hb : b ≤ k
  · simp [hb] at hs
  · rw [if_neg hb, List.mem_take_iff_getElem]
    exact ⟨k, by omega, rfl⟩

theorem argminBool_true {l : List Bool} {k : ℕ} (h : k < (if l.all id then l.length else argminBool l))
    (hk : k < l.length) : l[k] = true := by
  by_cases hall : l.all id = true
  · rw [List.all_eq_true] at hall
    exact hall _ (List.getElem_mem hk)
  · rw [if_neg hall] at h
    unfold argminBool at h
    cases hf : l.findIdx? (fun b => !b) with
    | none => rw [hf] at h; simp at h
    | some i =>
      rw [hf] at h
      rw [List.findIdx?_eq_some_iff_getElem] at hf
      obtain ⟨_, _, h3⟩ := hf
      simpa using h3 k h

theorem adaptiveBatch_reason (hA : s.adaptive = true) (hM : 1 < maxRef) (bound : ℕ)
    (rows : List (Row n)) (res : BatchResult n)
    (hrows : ∀ r ∈ rows, r.safe = true → start r.idx = true ∨ negative W G θ r.idx = true)
    (h : adaptiveBatch W G s θ maxRef bound rows = .ok res) :
    ∀ r ∈ res.rows, Reason W G s θ maxRef start r := by
  unfold adaptiveBatch at h
  cases hI : s.initial with
  | none => rw [hI] at h; cases h
  | some I =>
    rw [hI] at h
    simp only [] at h
    set rows1 := rows.mapIdx fun k r =>
      if negative W G θ (if bound ≤ k then { r with refine := nReq W G θ r.idx } else r).idx ||
          I (if bound ≤ k then { r with refine := nReq W G θ r.idx } else r).idx then
        { (if bound ≤ k then { r with refine := nReq W G θ r.idx } else r) with refine := 1 }
      else (if bound ≤ k then { r with refine := nReq W G θ r.idx } else r) with hrows1
    have h1 : ∀ r ∈ rows1, r.safe = true → start r.idx = true ∨ negative W G θ r.idx = true := by
      intro r hr hs
      rw [hrows1, List.mem_mapIdx] at hr
      obtain ⟨k, hk, rfl⟩ := hr
      have := hrows rows[k] (List.getElem_mem hk)
      split_ifs at hs ⊢ <;> exact this hs
    set check := (rows1.drop bound).map fun r => decide (1 ≤ r.refine ∧ r.refine ≤ maxRef) with hcheck
    set stop := if check.all id then check.length else argminBool check with hstop
    set fed := (rows1.drop bound).take stop with hfed
    set refinedSafe := fed.map fun r => refinedNegative W G θ (fed.map (·.idx)) r.idx r.refine
      with hrs
    set rb := if 0 < stop then
        if refinedSafe.all id then refinedSafe.length else argminBool refinedSafe
      else 0 with hrb
    set rows2 := rows1.mapIdx fun k r =>
      if bound ≤ k ∧ k < bound + rb then { r with safe := true } else r with hrows2
    have h2 : ∀ r ∈ rows2, Reason W G s θ maxRef start r := by
      intro r hr hs
      rw [hrows2, List.mem_mapIdx] at hr
      obtain ⟨k, hk, rfl⟩ := hr
      by_cases hc : bound ≤ k ∧ k < bound + rb
      · rw [if_pos hc]
        right; right
        simp only []
        -- position of the row among the rows fed
        obtain ⟨hc1, hc2⟩ := hc
        have hst : 0 < stop := by
          by_contra h0; rw [hrb, if_neg h0] at hc2; omega
        rw [hrb, if_pos hst] at hc2
        have hkr : k - bound < refinedSafe.length := by
          have hle : (if refinedSafe.all id then refinedSafe.length else argminBool refinedSafe) ≤
              refinedSafe.length := by
            split_ifs
            · exact le_refl _
            · unfold argminBool
              cases hf : refinedSafe.findIdx? (fun b => !b) with
              | none => simp
              | some i =>
                rw [List.findIdx?_eq_some_iff_getElem] at hf
                obtain ⟨h3, _⟩ := hf
                simp only []; omega
          omega
        have hkf : k - bound < fed.length := by rw [hrs, List.length_map] at hkr; exact hkr
        have hks : k - bound < stop := by
          have : fed.length ≤ stop := by rw [hfed, List.length_take]; omega
          omega
        have hfk : fed[k - bound] = rows1[k] := by
          simp only [hfed, List.getElem_take, List.getElem_drop]
          congr 1; omega
        have hcl : k - bound < check.length := by
          rw [hcheck, List.length_map, List.length_drop]; omega
        have hchk := argminBool_true (l := check) (k := k - bound) hks hcl
        have hrt := argminBool_true (l := refinedSafe) (k := k - bound) (by omega) hkr
        simp only [hcheck, List.getElem_map, List.getElem_drop] at hchk
        have e1 : rows1[bound + (k - bound)]'(by omega) = rows1[k] := by congr 1; omega
        rw [e1] at hchk
        simp only [hrs, List.getElem_map, hfk] at hrt
        unfold refinedNegative at hrt
        rw [List.all_eq_true] at hrt
        have := hrt rows1[k].idx (List.mem_map.mpr ⟨rows1[k], by rw [← hfk]; exact List.getElem_mem hkf, rfl⟩)
        have hchk' := of_decide_eq_true hchk
        have hk' : k < rows.length := by simpa [hrows1] using hk
        have href : negative W G θ rows1[k].idx = true ∨ s.initialMem rows1[k].idx = true ∨
            rows1[k].refine = nReq W G θ rows1[k].idx := by
          have e2 : rows1[k] = if negative W G θ rows[k].idx || I rows[k].idx then
              { rows[k] with refine := 1 } else { rows[k] with refine := nReq W G θ rows[k].idx } := by
            simp only [hrows1, List.getElem_mapIdx, if_pos hc1]
          unfold initialMem
          rw [hI]
          by_cases hni : (negative W G θ rows[k].idx || I rows[k].idx) = true
          · rw [e2, if_pos hni]
            rcases Bool.or_eq_true _ _ ▸ hni with h | h
            · exact Or.inl h
            · exact Or.inr (Or.inl h)
          · rw [e2, if_neg hni]
            exact Or.inr (Or.inr rfl)
        exact ⟨hA, hM, hchk'.1, hchk'.2, of_decide_eq_true this, href⟩
      · rw [if_neg hc] at hs ⊢
        rcases h1 _ (List.getElem_mem hk) hs with h | h
        · exact Or.inl h
        · exact Or.inr (Or.inl h)
    split_ifs at h
    · cases h
      intro r hr hs
      exact h2 r (List.mem_of_mem_take (mem_clearFrom hr hs)) hs
    · cases h
      exact h2

theorem batchStep_reason (rows : List (Row n)) (res : BatchResult n)
    (hrows : ∀ r ∈ rows, r.safe = true → start r.idx = true)
    (h : batchStep W G s θ maxRef rows = .ok res) :
    ∀ r ∈ res.rows, Reason W G s θ maxRef start r := by
  unfold batchStep at h
  simp only [] at h
  set rows1 := rows.map fun r =>
    if negative W G θ r.idx then { r with safe := true, refine := 1 } else r with hr1
  have h1 : ∀ r ∈ rows1, r.safe = true → start r.idx = true ∨ negative W G θ r.idx = true := by
    intro r hr hs
    rw [hr1, List.mem_map] at hr
    obtain ⟨r0, hr0, rfl⟩ := hr
    by_cases hneg : negative W G θ r0.idx = true
    · rw [if_pos hneg]; exact Or.inr hneg
    · rw [if_neg hneg] at hs ⊢; exact Or.inl (hrows r0 hr0 hs)
  have h2 : ∀ r ∈ rows1, Reason W G s θ maxRef start r := fun r hr hs =>
    (h1 r hr hs).elim Or.inl fun h => Or.inr (Or.inl h)
  split_ifs at h with c1 c2
  · exact adaptiveBatch_reason W G s θ maxRef start c2.1 c2.2 _ rows1 res h1 h
  · cases h
    intro r hr hs
    exact h2 r (List.mem_of_mem_take (mem_clearFrom hr hs)) hs
  · cases h
    exact h2

theorem batchLoop_reason (bs : List (ℕ × List (Row n))) :
    ∀ (acc : List (Row n)) (last : Option (ℕ × ℕ × ℕ)) (out : List (Row n) × Option (ℕ × ℕ × ℕ)),
    (∀ r ∈ acc, Reason W G s θ maxRef start r) →
    (∀ b ∈ bs, ∀ r ∈ b.2, r.safe = true → start r.idx = true) →
    batchLoop W G s θ maxRef acc last bs = .ok out →
    ∀ r ∈ out.1, Reason W G s θ maxRef start r := by
  induction bs with
  | nil =>
    intro acc last out hacc _ h
    rw [batchLoop] at h
    cases h
    exact hacc
  | cons b bs ih =>
    obtain ⟨i, rows⟩ := b
    intro acc last out hacc hbs h
    rw [batchLoop] at h
    cases hst : batchStep W G s θ maxRef rows with
    | error e => rw [hst] at h; cases h
    | ok res =>
      rw [hst] at h
      simp only [] at h
      have hres := batchStep_reason W G s θ maxRef start rows res
        (hbs (i, rows) (by simp)) hst
      by_cases hb : res.brk = true
      · rw [if_pos hb] at h
        cases h
        intro r hr
        rcases List.mem_append.mp hr with hr | hr
        · rcases List.mem_append.mp hr with hr | hr
          · exact hacc r hr
          · exact hres r hr
        · rw [List.mem_flatMap] at hr
          obtain ⟨b, hb, hr⟩ := hr
          exact fun hs => Or.inl (hbs b (by simp [hb]) r hr hs)
      · rw [if_neg hb] at h
        refine ih _ _ out ?_ (fun b hb => hbs b (by simp [hb])) h
        intro r hr
        rcases List.mem_append.mp hr with hr | hr
        · exact hacc r hr
        · exact hres r hr

/-- Every state that is safe after a call that does not raise has a reason. -/
theorem updateSafeSet_reason (batch : ℕ) (args : UpdateArgs K)
    (h : (updateSafeSet W batch args s θ).2 = .ok ()) (j : Fin n)
    (hj : (updateSafeSet W batch args s θ).1.safeSet j = true) :
    s.startFlag args.canShrink j = true ∨ s.initialMem j = true ∨
      negative W (s.graphFor args.safetyFactor) θ j = true ∨
      ∃ N, Refined W (s.graphFor args.safetyFactor) s θ args.maxRefinement j N := by
  set G := s.graphFor args.safetyFactor with hG
  set sG : Lyap K Prog n := { s with graph := some G } with hsG
  set mk : Fin n → Row n := fun j => ⟨j, s.startFlag args.canShrink j, s.startRef args.canShrink j⟩
    with hmk
  have hrows : sG.startRows W args.canShrink = (W.argsort s.values).map mk :=
    startRows_eq W s args.canShrink
  unfold updateSafeSet at h hj
  simp only [← hG, ← hsG] at h hj
  split_ifs at h hj with hne
  cases hloop : batchLoop W G sG θ args.maxRefinement [] none
      (batchify (sG.startRows W args.canShrink) batch) with
  | error e => rw [hloop] at h; cases h
  | ok out =>
    obtain ⟨rows, last⟩ := out
    rw [hloop] at h hj
    simp only [] at h hj
    cases hfin : sG.finish W rows last with
    | error e => rw [hfin] at h; cases h
    | ok s' =>
      rw [hfin] at hj
      simp only [] at hj
      have hreason := batchLoop_reason W G sG θ args.maxRefinement (s.startFlag args.canShrink)
        (batchify (sG.startRows W args.canShrink) batch) [] none (rows, last)
        (by simp)
        (by
          intro b hb r hr hs
          have hmem : r ∈ (batchify (sG.startRows W args.canShrink) batch).flatMap (·.2) :=
            List.mem_flatMap.mpr ⟨b, hb, hr⟩
          have hr' : r ∈ sG.startRows W args.canShrink := by
            rcases Nat.eq_zero_or_pos batch with h0 | h0
            · subst h0
              rw [batchify, batchifyFrom_zero] at hb; simp at hb
            · rw [batchify, batchifyFrom_flatMap batch h0] at hmem
              simpa using hmem
          rw [hrows, List.mem_map] at hr'
          obtain ⟨j, _, rfl⟩ := hr'
          exact hs)
        hloop
      unfold finish at hfin
      cases last with
      | none => cases hfin
      | some t =>
        obtain ⟨i, b, rb⟩ := t
        simp only [] at hfin
        cases hg : pyGet? (W.argsort sG.values) ((i : ℤ) + b + rb - 1) with
        | none => rw [hg] at hfin; cases hfin
        | some top =>
          rw [hg] at hfin
          simp only [Except.ok.injEq] at hfin
          subst hfin
          simp only [Bool.or_eq_true, decide_eq_true_eq] at hj
          rcases hj with hj | hj
          · rw [List.mem_map] at hj
            obtain ⟨r, hr, rfl⟩ := hj
            rw [List.mem_filter] at hr
            rcases hreason r hr.1 hr.2 with h | h | h
            · exact Or.inl h
            · exact Or.inr (Or.inr (Or.inl h))
            · exact Or.inr (Or.inr (Or.inr ⟨_, h⟩))
          · exact Or.inr (Or.inl hj)

end SafeLearning.Lyap
