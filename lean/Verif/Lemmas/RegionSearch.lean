import Verif.Lemmas.Region
set_option autoImplicit false

/-! The search of `get_lyapunov_region` keeps its invariant and stops. -/

set_option linter.unusedSectionVars false

namespace SafeLearning

open Spec

variable {K : Type} [Field K] [LinearOrder K] [IsStrictOrderedRing K] {d : ℕ}

section
variable {num : Fin d → ℕ} {val : (Fin d → ℕ) → K} {x0 : Fin d → ℕ} {s : Search K d}
  {R : Finset (Fin d → ℕ)}

/-- What is known about the entry that is popped. -/
theorem SearchInv.pop (h : SearchInv num val x0 s R) {e : QueueEntry K d} {rest}
    (hp : popMin s.queue = some (e, rest)) :
    ∃ x, IsNode num x ∧ s.visited x = true ∧ e.node = toNode x ∧ e.value = val x ∧
      (e.isTuple = true → x = x0) ∧ x ∉ R ∧ toNode x ∉ rest.map (·.node) ∧
      (rest.map (·.node)).Nodup ∧
      (∀ y, y ∈ R ∨ y = x ↔ s.visited y = true ∧ toNode y ∉ rest.map (·.node)) ∧
      (∀ y, s.visited y = true → y ∈ R ∨ y = x ∨ val x ≤ val y) ∧
      (∀ e ∈ rest, ∃ y, IsNode num y ∧ s.visited y = true ∧ e.node = toNode y ∧
        e.value = val y ∧ (e.isTuple = true → y = x0)) ∧
      (x0 ∈ R ∨ (R = ∅ ∧ s.last = val x0 ∧ x = x0)) := by
  obtain ⟨hperm, hmin⟩ := popMin_spec hp
  obtain ⟨x, hx1, hx2, hx3, hx4, hx5⟩ := h.queue e (hperm.mem_iff.mpr (by simp))
  have hpm : (s.queue.map (·.node)).Perm (toNode x :: rest.map (·.node)) := by
    have := hperm.map (·.node)
    simpa [hx3] using this
  have hnd := hpm.nodup_iff.mp h.nodup
  rw [List.nodup_cons] at hnd
  have hqrest : ∀ e ∈ rest, ∃ y, IsNode num y ∧ s.visited y = true ∧ e.node = toNode y ∧
      e.value = val y ∧ (e.isTuple = true → y = x0) :=
    fun e he => h.queue e (hperm.mem_iff.mpr (by simp [he]))
  have hxR : x ∉ R := by
    intro hc
    exact ((h.mem_R x).mp hc).2 (hpm.mem_iff.mpr (by simp))
  have hiff : ∀ y, y ∈ R ∨ y = x ↔ s.visited y = true ∧ toNode y ∉ rest.map (·.node) := by
    intro y
    rw [h.mem_R, hpm.mem_iff, List.mem_cons, not_or]
    constructor
    · rintro (⟨h1, h2, h3⟩ | rfl)
      · exact ⟨h1, h3⟩
      · exact ⟨hx2, hnd.1⟩
    · rintro ⟨h1, h2⟩
      by_cases hyx : y = x
      · exact .inr hyx
      · exact .inl ⟨h1, fun hc => hyx (toNode_injective hc), h2⟩
  refine ⟨x, hx1, hx2, hx3, hx4, hx5, hxR, hnd.1, hnd.2, hiff, ?_, hqrest, ?_⟩
  · intro y hy
    by_cases hyr : toNode y ∈ rest.map (·.node)
    · right; right
      obtain ⟨e', he', hn⟩ := List.mem_map.mp hyr
      obtain ⟨y', -, -, h3, h4, -⟩ := hqrest e' he'
      have : y' = y := toNode_injective (by rw [← h3, hn])
      rw [← hx4, ← this, ← h4]
      exact hmin e' he'
    · rcases (hiff y).mpr ⟨hy, hyr⟩ with h | h
      · exact .inl h
      · exact .inr (.inl h)
  · rcases h.start with h | ⟨h1, h2, e', h3, h4, h5⟩
    · exact .inl h
    · refine .inr ⟨h1, h2, ?_⟩
      have : e ∈ s.queue := hperm.mem_iff.mpr (by simp)
      rw [h3, List.mem_singleton] at this
      exact toNode_injective (by rw [← hx3, this, h4])

/-- The queue runs empty. -/
theorem SearchInv.post_empty (h : SearchInv num val x0 s R) (hq : s.queue = []) :
    RegionPost num val x0 s.visited := by
  have hR : ∀ y, y ∈ R ↔ s.visited y = true := by
    intro y; rw [h.mem_R, hq]; simp
  have hset : {y | s.visited y = true} = (R : Set (Fin d → ℕ)) := by
    ext y; simp [hR]
  have h0 : x0 ∈ R := by
    rcases h.start with h | ⟨-, -, e, he, -⟩
    · exact h
    · rw [hq] at he; cases he
  refine ⟨(hR _).mp h0, fun y hy => h.interior y ((hR y).mpr hy), fun y hy => ?_, .inl ⟨?_, ?_⟩⟩
  · rw [hset]
    exact connected_of_reach (by exact_mod_cast (hR y).mpr hy) (by simpa using h.reach y hy)
  · intro y hy; exact h.low y ((hR y).mpr hy)
  · intro y z hy hz hyz
    have := h.closed y ((hR y).mpr hy) z hyz
    rw [this] at hz; cases hz

/-- The search reaches the border. -/
theorem SearchInv.post_border (h : SearchInv num val x0 s R) {x : Fin d → ℕ}
    {v : (Fin d → ℕ) → Bool} (hx : IsBorder num x) (hvx : s.visited x = true) (hxR : x ∉ R)
    (h0 : x0 ∈ R) (hv : ∀ y, v y = true ↔ y ∈ R)
    (hmin : ∀ y, s.visited y = true → y ∈ R ∨ y = x ∨ val x ≤ val y) :
    RegionPost num val x0 v := by
  have hset : {y | v y = true} = (R : Set (Fin d → ℕ)) := by
    ext y; simp [hv]
  have hvf : ∀ y, v y = false ↔ y ∉ R := by
    intro y; rw [← hv, Bool.not_eq_true]
  have hout : ∀ y z, y ∈ R → z ∉ R → Adjacent y z → val x ≤ val z := by
    intro y z hy hz hyz
    rcases hmin z (h.closed y hy z hyz) with h | h | h
    · exact absurd h hz
    · rw [h]
    · exact h
  refine ⟨(hv _).mpr h0, fun y hy => h.interior y ((hv y).mp hy), fun y hy => ?_, ?_⟩
  · rw [hset]
    have := (hv y).mp hy
    exact connected_of_reach (by exact_mod_cast this)
      (by simpa using h.reach y ((h.mem_R y).mp this).1)
  · simp only [hv, hvf]
    by_cases hlt : val x < s.last
    · right
      refine ⟨x, ?_, ?_, .inr hx, fun y hy _ => h.low y hy, fun y z hy _ => hout y z hy⟩
      · exact exists_pred_of_reach (R := (R : Set (Fin d → ℕ))) (by simpa using h.reach x hvx)
          (fun hc => hxR (hc ▸ h0))
      · rcases h.last with hl | ⟨y, hy, hl⟩
        · exact ⟨x0, h0, by rw [← hl]; exact hlt⟩
        · exact ⟨y, hy, by rw [← hl]; exact hlt⟩
    · left
      refine ⟨fun y hy => h.low y hy, fun y z hy hz hyz w hw => ?_⟩
      exact (h.high w hw).trans ((not_lt.mp hlt).trans (hout y z hy hz hyz))

/-- The search meets a node below the last value. -/
theorem SearchInv.post_lower (h : SearchInv num val x0 s R) {x : Fin d → ℕ}
    {v : (Fin d → ℕ) → Bool} (hx : IsInterior num x) (hvx : s.visited x = true) (hxR : x ∉ R)
    (h0 : x0 ∈ R) (hv : ∀ y, v y = true ↔ y ∈ R ∨ y = x) (hlt : val x < s.last)
    (hmin : ∀ y, s.visited y = true → y ∈ R ∨ y = x ∨ val x ≤ val y) :
    RegionPost num val x0 v := by
  have hvf : ∀ y, v y = false ↔ ¬ (y ∈ R ∨ y = x) := by
    intro y; rw [← hv, Bool.not_eq_true]
  have hpred : ∃ z ∈ (R : Set (Fin d → ℕ)), Adjacent z x :=
    exists_pred_of_reach (R := (R : Set (Fin d → ℕ))) (by simpa using h.reach x hvx)
      (fun hc => hxR (hc ▸ h0))
  refine ⟨(hv _).mpr (.inl h0), fun y hy => ?_, fun y hy => ?_, .inr ⟨x, ?_, ?_, .inl ?_, ?_, ?_⟩⟩
  · rcases (hv y).mp hy with hy | rfl
    · exact h.interior y hy
    · exact hx
  · have hvis : s.visited y = true := by
      rcases (hv y).mp hy with hy | rfl
      · exact ((h.mem_R y).mp hy).1
      · exact hvx
    refine connected_of_reach hy ?_
    refine Relation.ReflTransGen.mono ?_ _ _ (h.reach y hvis)
    rintro a b ⟨ha, hb⟩
    exact ⟨(hv a).mpr (.inl ha), hb⟩
  · obtain ⟨z, hz, hzx⟩ := hpred
    exact ⟨z, (hv z).mpr (.inl (by exact_mod_cast hz)), hzx⟩
  · rcases h.last with hl | ⟨y, hy, hl⟩
    · exact ⟨x0, (hv _).mpr (.inl h0), by rw [← hl]; exact hlt⟩
    · exact ⟨y, (hv _).mpr (.inl hy), by rw [← hl]; exact hlt⟩
  · exact (hv x).mpr (.inr rfl)
  · intro y hy hne
    rcases (hv y).mp hy with hy | hy
    · exact h.low y hy
    · exact absurd hy hne
  · intro y z hy hne hz hyz
    rcases (hv y).mp hy with hy | hy
    · have hz' := (hvf z).mp hz
      rcases hmin z (h.closed y hy z hyz) with h1 | h1 | h1
      · exact absurd (.inl h1) hz'
      · exact absurd (.inr h1) hz'
      · exact h1
    · exact absurd hy hne

/-- One round that expands a node. -/
theorem SearchInv.expand_step (h : SearchInv num val x0 s R) {e : QueueEntry K d} {rest}
    (hp : popMin s.queue = some (e, rest)) (h0 : IsInterior num x0) (hb : ¬ onBoundary num e)
    (hlt : ¬ e.value < s.last) :
    ∃ x s', x ∉ R ∧ IsNode num x ∧ s'.last = val x ∧
      expand num val { s with last := e.value, queue := rest } e.node = .ok s' ∧
      SearchInv num val x0 s' (insert x R) := by
  obtain ⟨x, hx1, hx2, hx3, hx4, hx5, hxR, hxrest, hndrest, hiff, hmin, hqrest, hstart⟩ := h.pop hp
  have hint := isInterior_of_not_onBoundary hx1 hx3 hx5 h0 hb
  obtain ⟨new, s', es, he, hnd, hmem, hnode, hvis, hlast, hqueue, hesn, hes⟩ :=
    expand_ok val { s with last := e.value, queue := rest } hint
  rw [← hx3] at he
  simp only at hmem hvis hlast hqueue
  have hmemes : ∀ y, toNode y ∈ es.map (·.node) ↔ y ∈ new := by
    intro y
    rw [hesn, List.mem_map]
    constructor
    · rintro ⟨z, hz, hzy⟩
      rw [← toNode_injective hzy]; exact List.mem_reverse.mp hz
    · intro hy; exact ⟨y, List.mem_reverse.mpr hy, rfl⟩
  have hnewv : ∀ y ∈ new, s.visited y ≠ true := by
    intro y hy; rw [((hmem y).mp hy).2]; simp
  have hmemR : ∀ y, y ∈ insert x R ↔ s'.visited y = true ∧ toNode y ∉ s'.queue.map (·.node) := by
    intro y
    rw [hqueue, List.map_append, List.mem_append, hmemes, hvis, Finset.mem_insert, or_comm, hiff]
    constructor
    · rintro ⟨h1, h2⟩
      exact ⟨.inl h1, fun hc => hc.elim (fun hc => hnewv y hc h1) h2⟩
    · rintro ⟨h1, h2⟩
      rcases h1 with h1 | h1
      · exact ⟨h1, fun hc => h2 (.inr hc)⟩
      · exact absurd (.inl h1) h2
  have hxins : ∀ y, y ∈ insert x R ↔ y = x ∨ y ∈ R := fun y => Finset.mem_insert
  have hreach' : ∀ y, s.visited y = true →
      Relation.ReflTransGen (fun a b => a ∈ insert x R ∧ Adjacent a b) x0 y := by
    intro y hy
    refine Relation.ReflTransGen.mono ?_ _ _ (h.reach y hy)
    rintro a b ⟨ha, hb⟩
    exact ⟨Finset.mem_insert_of_mem ha, hb⟩
  have hlow : val x0 ≤ val x := by
    rw [← hx4]; exact h.start_le.trans (not_lt.mp hlt)
  refine ⟨x, s', hxR, hx1, by rw [hlast, hx4], he, ⟨hmemR, ?_, ?_, ?_, ?_, ?_, ?_, .inl ?_, ?_, ?_, .inr ?_, ?_⟩⟩
  · intro e' he'
    rw [hqueue, List.mem_append] at he'
    rcases he' with he' | he'
    · obtain ⟨y, hy, h1, h2, h3⟩ := hes e' he'
      exact ⟨y, hnode y hy, (hvis y).mpr (.inr hy), h1, h2, by rw [h3]; simp⟩
    · obtain ⟨y, h1, h2, h3⟩ := hqrest e' he'
      exact ⟨y, h1, (hvis y).mpr (.inl h2), h3⟩
  · rw [hqueue, List.map_append, List.nodup_append]
    refine ⟨?_, hndrest, ?_⟩
    · rw [hesn]
      exact (List.nodup_reverse.mpr hnd).map toNode_injective
    · intro a ha b hb hab
      subst hab
      obtain ⟨e', he', rfl⟩ := List.mem_map.mp hb
      obtain ⟨y, -, h2, h3, -⟩ := hqrest e' he'
      rw [h3, hmemes] at ha
      exact hnewv y ha h2
  · intro y hy
    rcases (hvis y).mp hy with hy | hy
    · exact h.node y hy
    · exact hnode y hy
  · intro y hy
    rcases (hxins y).mp hy with rfl | hy
    · exact hint
    · exact h.interior y hy
  · intro y hy
    rcases (hvis y).mp hy with hy | hy
    · exact hreach' y hy
    · exact (hreach' x hx2).tail ⟨Finset.mem_insert_self _ _, ((hmem y).mp hy).1⟩
  · intro y hy z hyz
    rcases (hxins y).mp hy with rfl | hy
    · rw [hvis]
      by_cases hz : s.visited z = true
      · exact .inl hz
      · exact .inr ((hmem z).mpr ⟨hyz, by simpa using hz⟩)
    · rw [hvis]; exact .inl (h.closed y hy z hyz)
  · rcases hstart with hs | ⟨-, -, hs⟩
    · exact Finset.mem_insert_of_mem hs
    · rw [hs]; exact Finset.mem_insert_self _ _
  · intro y hy
    rcases (hxins y).mp hy with rfl | hy
    · exact hlow
    · exact h.low y hy
  · intro y hy
    rw [hlast]
    rcases (hxins y).mp hy with rfl | hy
    · exact hx4.ge
    · exact (h.high y hy).trans (not_lt.mp hlt)
  · exact ⟨x, Finset.mem_insert_self _ _, by rw [hlast, hx4]⟩
  · rw [hlast, hx4]; exact hlow

/-- The search stops after at most as many rounds as there are nodes left, plus one. -/
theorem searchLoop_post (h0 : IsInterior num x0) (fuel : ℕ) : ∀ (s : Search K d)
    (R : Finset (Fin d → ℕ)), SearchInv num val x0 s R → (∏ i, num i) + 1 ≤ fuel + R.card →
    ∃ v, searchLoop num val fuel s = .ok (some v) ∧ RegionPost num val x0 v := by
  have hcard : ∀ (s : Search K d) (R : Finset (Fin d → ℕ)), SearchInv num val x0 s R →
      R.card ≤ ∏ i, num i := by
    intro s R h
    have hsub : R ⊆ Fintype.piFinset fun i => Finset.range (num i) := by
      intro y hy
      rw [Fintype.mem_piFinset]
      intro i
      rw [Finset.mem_range]
      exact h.node y ((h.mem_R y).mp hy).1 i
    calc R.card ≤ _ := Finset.card_le_card hsub
      _ = ∏ i, num i := by rw [Fintype.card_piFinset]; simp
  induction fuel with
  | zero =>
    intro s R h hf
    have := hcard s R h
    omega
  | succ fuel ih =>
    intro s R h hf
    rw [searchLoop]
    rcases hp : popMin s.queue with _ | ⟨e, rest⟩
    · exact ⟨_, rfl, h.post_empty (popMin_eq_none.mp hp)⟩
    · simp only
      by_cases hb : onBoundary num e
      · rw [if_pos hb]
        obtain ⟨x, hx1, hx2, hx3, hx4, hx5, hxR, hxrest, hndrest, hiff, hmin, hqrest, hstart⟩ :=
          h.pop hp
        obtain ⟨v, hv, hv'⟩ := prune_ok (num := num) rest (assign s.visited x false)
          (fun e he => (hqrest e he).imp fun y hy => ⟨hy.1, hy.2.2.1⟩)
        have hbord := isBorder_of_onBoundary hx1 hx3 hb
        have hx0 : x0 ∈ R := by
          rcases hstart with h | ⟨-, -, hc⟩
          · exact h
          · exact absurd (hc ▸ h0) (not_interior_of_border hbord)
        refine ⟨v, ?_, h.post_border hbord hx2 hxR hx0 ?_ hmin⟩
        · rw [setVisited, hx3, wrapNode_ok hx1]
          simp only [bind, Except.bind, pure, Except.pure]
          rw [hv]
        · intro y
          rw [hv', assign]
          by_cases hyx : y = x
          · subst hyx; simp [hxR]
          · rw [if_neg hyx, ← hiff]; simp [hyx]
      · rw [if_neg hb]
        by_cases hlt : e.value < s.last
        · rw [if_pos hlt]
          obtain ⟨x, hx1, hx2, hx3, hx4, hx5, hxR, hxrest, hndrest, hiff, hmin, hqrest, hstart⟩ :=
            h.pop hp
          obtain ⟨v, hv, hv'⟩ := prune_ok (num := num) rest s.visited
            (fun e he => (hqrest e he).imp fun y hy => ⟨hy.1, hy.2.2.1⟩)
          have hx0 : x0 ∈ R := by
            rcases hstart with h | ⟨-, hl, hc⟩
            · exact h
            · rw [hx4, hc, hl] at hlt; exact absurd hlt (lt_irrefl _)
          refine ⟨v, ?_, h.post_lower (isInterior_of_not_onBoundary hx1 hx3 hx5 h0 hb) hx2 hxR hx0
            ?_ (hx4 ▸ hlt) hmin⟩
          · rw [hv]; rfl
          · intro y
            rw [hv', ← hiff]
        · rw [if_neg hlt]
          obtain ⟨x, s', hxR, hx1, -, he, hinv⟩ := h.expand_step hp h0 hb hlt
          obtain ⟨v, hv, hpost⟩ := ih s' (insert x R) hinv (by
            rw [Finset.card_insert_of_notMem hxR]; omega)
          refine ⟨v, ?_, hpost⟩
          rw [he]
          exact hv

theorem searchLoop_mono (fuel : ℕ) : ∀ (s : Search K d) v,
    searchLoop num val fuel s = .ok (some v) → searchLoop num val (fuel + 1) s = .ok (some v) := by
  induction fuel with
  | zero => intro s v h; simp [searchLoop] at h
  | succ fuel ih =>
    intro s v h
    rw [searchLoop] at h ⊢
    split
    · simpa [*] using h
    · rename_i e rest hp
      rw [hp] at h
      simp only at h
      split_ifs at h ⊢ with h1 h2
      · exact h
      · exact h
      · cases hs : expand num val { s with last := e.value, queue := rest } e.node with
        | error er => rw [hs] at h; cases h
        | ok s' => rw [hs] at h; exact ih s' v h

theorem searchLoop_mono' {fuel fuel' : ℕ} (hle : fuel ≤ fuel') {s : Search K d} {v}
    (h : searchLoop num val fuel s = .ok (some v)) :
    searchLoop num val fuel' s = .ok (some v) := by
  induction hle with
  | refl => exact h
  | step _ ih => exact searchLoop_mono _ _ _ ih

/-- If the sublevel sets are connected, all nodes below the popped one have been expanded. -/
theorem SearchInv.below (h : SearchInv num val x0 s R) {x : Fin d → ℕ} (hx0 : x0 ∈ R)
    (hmin : ∀ y, s.visited y = true → y ∈ R ∨ y = x ∨ val x ≤ val y)
    {t : Fin d → ℕ} (ht : ConnectedIn {y | IsNode num y ∧ val y ≤ val t} x0 t)
    (hlt : val t < val x) : t ∈ R := by
  unfold ConnectedIn at ht
  suffices ∀ u, Relation.ReflTransGen (fun a b => a ∈ {y | IsNode num y ∧ val y ≤ val t} ∧
      b ∈ {y | IsNode num y ∧ val y ≤ val t} ∧ Adjacent a b) x0 u → u ∈ R from this t ht
  intro u hu
  induction hu with
  | refl => exact hx0
  | tail _ hab ih =>
    rename_i a b _
    obtain ⟨-, hb, hadj⟩ := hab
    have hb2 : val b ≤ val t := hb.2
    rcases hmin b (h.closed a ih b hadj) with h1 | h1 | h1
    · exact h1
    · rw [h1] at hb2; exact absurd hlt (not_lt.mpr hb2)
    · exact absurd hlt (not_lt.mpr (h1.trans hb2))

/-- With connected sublevel sets the search never meets a lower node. -/
theorem searchLoop_increasing (h0 : IsInterior num x0)
    (hsub : ∀ t, IsNode num t → ConnectedIn {y | IsNode num y ∧ val y ≤ val t} x0 t)
    (hmin0 : ∀ t, IsNode num t → val x0 ≤ val t) (fuel : ℕ) :
    ∀ (s : Search K d) (R : Finset (Fin d → ℕ)), SearchInv num val x0 s R →
      (∀ e ∈ s.queue, s.last ≤ e.value) → ∀ v, searchLoop num val fuel s = .ok (some v) →
      (∀ y, v y = true → val x0 ≤ val y) ∧
        ∀ y z, v y = true → v z = false → Adjacent y z → ∀ w, v w = true → val w ≤ val z := by
  induction fuel with
  | zero => intro s R _ _ v hv; simp [searchLoop] at hv
  | succ fuel ih =>
    intro s R h hq v hv
    rw [searchLoop] at hv
    rcases hp : popMin s.queue with _ | ⟨e, rest⟩
    · rw [hp] at hv
      simp only [Except.ok.injEq, Option.some.injEq] at hv
      subst hv
      have hR : ∀ y, y ∈ R ↔ s.visited y = true := by
        intro y; rw [h.mem_R, popMin_eq_none.mp hp]; simp
      refine ⟨fun y hy => h.low y ((hR y).mpr hy), fun y z hy hz hyz => ?_⟩
      have := h.closed y ((hR y).mpr hy) z hyz
      rw [this] at hz; cases hz
    · rw [hp] at hv
      simp only at hv
      have heq : s.last ≤ e.value := hq e ((popMin_spec hp).1.mem_iff.mpr (by simp))
      obtain ⟨x, hx1, hx2, hx3, hx4, hx5, hxR, hxrest, hndrest, hiff, hmin, hqrest, hstart⟩ :=
        h.pop hp
      by_cases hb : onBoundary num e
      · rw [if_pos hb] at hv
        obtain ⟨v', hv1, hv2⟩ := prune_ok (num := num) rest (assign s.visited x false)
          (fun e he => (hqrest e he).imp fun y hy => ⟨hy.1, hy.2.2.1⟩)
        rw [setVisited, hx3, wrapNode_ok hx1] at hv
        simp only [bind, Except.bind, pure, Except.pure] at hv
        rw [hv1] at hv
        simp only [Except.ok.injEq, Option.some.injEq] at hv
        subst hv
        have hvR : ∀ y, v' y = true ↔ y ∈ R := by
          intro y
          rw [hv2, assign]
          by_cases hyx : y = x
          · subst hyx; simp [hxR]
          · rw [if_neg hyx, ← hiff]; simp [hyx]
        refine ⟨fun y hy => h.low y ((hvR y).mp hy), fun y z hy hz hyz w hw => ?_⟩
        have hzR : z ∉ R := by rw [← hvR, hz]; simp
        refine (h.high w ((hvR w).mp hw)).trans (heq.trans ?_)
        rw [hx4]
        rcases hmin z (h.closed y ((hvR y).mp hy) z hyz) with h1 | h1 | h1
        · exact absurd h1 hzR
        · rw [h1]
        · exact h1
      · rw [if_neg hb, if_neg (not_lt.mpr heq)] at hv
        obtain ⟨x', s', hxR', hx1', hlast, he, hinv⟩ := h.expand_step hp h0 hb (not_lt.mpr heq)
        rw [he] at hv
        refine ih s' _ hinv ?_ v hv
        intro e' he'
        obtain ⟨t, ht1, ht2, ht3, ht4, -⟩ := hinv.queue e' he'
        have htR : t ∉ insert x' R := by
          rw [hinv.mem_R, not_and, not_not]
          intro _
          exact List.mem_map.mpr ⟨e', he', ht3⟩
        rw [hlast, ht4]
        by_contra hc
        -- the expanded node is the popped one
        have hxx : val x' = val x := by
          have h1 : s'.last = e.value := by
            obtain ⟨_, _, _, he2, _, _, _, _, hl2, _⟩ :=
              expand_ok val { s with last := e.value, queue := rest }
                (isInterior_of_not_onBoundary hx1 hx3 hx5 h0 hb)
            rw [← hx3, he] at he2
            cases he2
            exact hl2
          rw [← hlast, h1, hx4]
        rcases hstart with hs | ⟨-, -, hs⟩
        · have := h.below hs hmin (hsub t ht1) (hxx ▸ not_le.mp hc)
          exact htR (Finset.mem_insert_of_mem this)
        · have := hmin0 t ht1
          rw [hxx, hs] at hc
          exact hc this

/-- The invariant holds at the beginning. -/
theorem searchInv_start (h0 : IsInterior num x0) :
    SearchInv num val x0
      { visited := assign (fun _ => false) x0 true, last := val x0, count := 1,
        queue := [{ value := val x0, count := 0, node := toNode x0, isTuple := true }] } ∅ := by
  have hnode : IsNode num x0 := fun i => by have := h0 i; omega
  have hvis : ∀ y, assign (fun _ : Fin d → ℕ => false) x0 true y = true ↔ y = x0 := by
    intro y; rw [assign]; split_ifs <;> simp [*]
  refine ⟨?_, ?_, by simp, ?_, by simp, ?_, by simp, .inr ⟨rfl, rfl, _, rfl, rfl, rfl⟩,
    by simp, by simp, .inl rfl, le_rfl⟩
  · intro y
    simp only [hvis]
    constructor
    · intro h; simp at h
    · rintro ⟨rfl, h⟩; simp at h
  · intro e he
    simp only [List.mem_singleton] at he
    subst he
    exact ⟨x0, hnode, by simp [hvis], rfl, rfl, fun _ => rfl⟩
  · intro y hy; rw [hvis] at hy; rw [hy]; exact hnode
  · intro y hy; rw [hvis] at hy; rw [hy]

end

end SafeLearning
