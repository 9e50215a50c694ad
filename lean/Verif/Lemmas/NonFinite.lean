import Verif.Model.NonFinite
import Verif.Lemmas.SafeSetRefined
set_option autoImplicit false

/-! The loop of `update_safe_set` for arbitrary verdicts of the tensors it evaluates, and facts about
floating point arithmetic. -/

namespace SafeLearning.FltLyap

open Lyap

section Loop

variable {n : ℕ} (C : Checks n) (adaptive : Bool) (initial : Option (Fin n → Bool)) (maxRef : ℕ)
  (start : Fin n → Bool)

/-- Why a row is safe. -/
def Why (r : Row n) : Prop :=
  r.safe = true → start r.idx = true ∨ C.negative r.idx = true ∨
    ∃ fed N, r.idx ∈ fed ∧ 1 ≤ N ∧ N ≤ maxRef ∧ adaptive = true ∧ C.refined fed r.idx N = true

/-- The rows after an iteration. -/
structure StepShape (rows out : List (Row n)) (brk : Bool) : Prop where
  idx : out.map (·.idx) = rows.map (·.idx)
  prefix_safe : ∃ p, p ≤ out.length ∧ (∀ r ∈ out.take p, r.safe = true) ∧
    (∀ r ∈ out.drop p, r.safe = false) ∧
    (brk = false → ∀ r ∈ out, r.safe = true)
  why : ∀ r ∈ out, Why C adaptive maxRef start r

theorem clearFrom_drop {b : ℕ} {rows : List (Row n)} :
    ∀ r ∈ (clearFrom b rows).drop b, r.safe = false := by
  intro r hr
  rw [List.mem_iff_getElem] at hr
  obtain ⟨k, hk, rfl⟩ := hr
  simp [clearFrom, List.getElem_mapIdx]

theorem clearFrom_take {b : ℕ} {rows : List (Row n)} :
    (clearFrom b rows).take b = rows.take b := by
  apply List.ext_getElem
  · simp [clearFrom]
  · intro k h1 h2
    have : ¬ b ≤ k := by simp [clearFrom] at h1; omega
    simp [clearFrom, List.getElem_mapIdx, this]

theorem mem_clearFrom_of_safe {b : ℕ} {rows : List (Row n)} {r : Row n} (h : r ∈ clearFrom b rows)
    (hs : r.safe = true) : r ∈ rows.take b := by
  rw [← clearFrom_take]
  rw [← List.take_append_drop b (clearFrom b rows), List.mem_append] at h
  rcases h with h | h
  · exact h
  · rw [clearFrom_drop r h] at hs; cases hs

theorem adaptiveStep_shape (hA : adaptive = true) (bound : ℕ) (rows : List (Row n))
    (res : BatchResult n) (hlen : bound ≤ rows.length)
    (hpre : ∀ r ∈ rows.take bound, r.safe = true)
    (hrows : ∀ r ∈ rows, Why C adaptive maxRef start r)
    (h : adaptiveStep C initial maxRef bound rows = .ok res) :
    StepShape C adaptive maxRef start rows res.rows res.brk := by
  unfold adaptiveStep at h
  cases hI : initial with
  | none => rw [hI] at h; cases h
  | some I =>
    rw [hI] at h
    simp only [] at h
    set rows1 := rows.mapIdx fun k r =>
      if C.negative (if bound ≤ k then { r with refine := C.nReq r.idx } else r).idx ||
          I (if bound ≤ k then { r with refine := C.nReq r.idx } else r).idx then
        { (if bound ≤ k then { r with refine := C.nReq r.idx } else r) with refine := 1 }
      else (if bound ≤ k then { r with refine := C.nReq r.idx } else r) with hrows1
    have hl1 : rows1.length = rows.length := by simp [hrows1]
    have hk1 : ∀ k (hk : k < rows.length), (rows1[k]'(by omega)).idx = rows[k].idx ∧
        (rows1[k]'(by omega)).safe = rows[k].safe := by
      intro k hk
      simp only [hrows1, List.getElem_mapIdx]
      split_ifs <;> exact ⟨rfl, rfl⟩
    have h1 : ∀ r ∈ rows1, Why C adaptive maxRef start r := by
      intro r hr hs
      obtain ⟨k, hk, rfl⟩ := List.mem_iff_getElem.mp hr
      obtain ⟨e1, e2⟩ := hk1 k (by omega)
      rw [e2] at hs
      have := hrows _ (List.getElem_mem (by omega)) hs
      rw [e1]; exact this
    set check := (rows1.drop bound).map fun r => decide (1 ≤ r.refine ∧ r.refine ≤ maxRef) with hcheck
    have hcl : check.length = rows.length - bound := by
      rw [hcheck, List.length_map, List.length_drop, hl1]
    set stop := if check.all id then check.length else argminBool check with hstop
    have hstop_le : stop ≤ check.length := by
      rw [hstop]; split_ifs
      · exact le_refl _
      · exact argminBool_le check
    set fed := (rows1.drop bound).take stop with hfed
    have hfl : fed.length = stop := by
      rw [hfed, List.length_take, List.length_drop]; omega
    set refinedSafe := fed.map fun r => C.refined (fed.map (·.idx)) r.idx r.refine with hrs
    have hrl : refinedSafe.length = stop := by rw [hrs, List.length_map, hfl]
    set rb := if 0 < stop then
        if refinedSafe.all id then refinedSafe.length else argminBool refinedSafe
      else 0 with hrb
    have hrb_le : rb ≤ stop := by
      rw [hrb]; split_ifs
      · omega
      · have := argminBool_le refinedSafe; omega
      · omega
    set rows2 := rows1.mapIdx fun k r =>
      if bound ≤ k ∧ k < bound + rb then { r with safe := true } else r with hrows2
    have hl2 : rows2.length = rows.length := by simp [hrows2, hl1]
    have hk2 : ∀ k (hk : k < rows.length), (rows2[k]'(by omega)).idx = rows[k].idx := by
      intro k hk
      rw [← (hk1 k hk).1]
      simp only [hrows2, List.getElem_mapIdx]
      split_ifs <;> rfl
    have hidx2 : rows2.map (·.idx) = rows.map (·.idx) := by
      apply List.ext_getElem
      · simp [hl2]
      · intro k a b
        simp only [List.getElem_map]
        exact hk2 k (by simpa using b)
    have hsafe2 : ∀ r ∈ rows2.take (bound + rb), r.safe = true := by
      intro r hr
      rw [List.mem_take_iff_getElem] at hr
      obtain ⟨k, hk, rfl⟩ := hr
      simp only [hrows2, List.getElem_mapIdx]
      split_ifs with hc
      · rfl
      · have hkb : k < bound := by omega
        rw [(hk1 k (by omega)).2]
        exact hpre _ (by rw [List.mem_take_iff_getElem]; exact ⟨k, by omega, rfl⟩)
    have h2 : ∀ r ∈ rows2, Why C adaptive maxRef start r := by
      intro r hr hs
      rw [hrows2, List.mem_mapIdx] at hr
      obtain ⟨k, hk, rfl⟩ := hr
      by_cases hc : bound ≤ k ∧ k < bound + rb
      · rw [if_pos hc]
        right; right
        simp only []
        obtain ⟨hc1, hc2⟩ := hc
        have hst : 0 < stop := by omega
        have hks : k - bound < stop := by omega
        have hfk : fed[k - bound]'(by omega) = rows1[k] := by
          simp only [hfed, List.getElem_take, List.getElem_drop]
          congr 1; omega
        have hchk := argminBool_true (l := check) (k := k - bound) hks (by omega)
        rw [hrb, if_pos hst] at hc2
        have hrt := argminBool_true (l := refinedSafe) (k := k - bound) (by omega) (by omega)
        simp only [hcheck, List.getElem_map, List.getElem_drop] at hchk
        have e1 : rows1[bound + (k - bound)]'(by omega) = rows1[k] := by congr 1; omega
        rw [e1] at hchk
        simp only [hrs, List.getElem_map, hfk] at hrt
        have hchk' := of_decide_eq_true hchk
        refine ⟨fed.map (·.idx), rows1[k].refine, ?_, hchk'.1, hchk'.2, hA, hrt⟩
        exact List.mem_map.mpr ⟨rows1[k], by rw [← hfk]; exact List.getElem_mem (by omega), rfl⟩
      · rw [if_neg hc] at hs ⊢
        exact h1 _ (List.getElem_mem hk) hs
    split_ifs at h with hbr
    · cases h
      refine ⟨?_, ⟨bound + rb, by simp [clearFrom]; omega, ?_, clearFrom_drop, by simp⟩, ?_⟩
      · rw [clearFrom_idx, hidx2]
      · rw [clearFrom_take]; exact hsafe2
      · intro r hr hs
        exact h2 r (List.mem_of_mem_take (mem_clearFrom_of_safe hr hs)) hs
    · cases h
      have he : bound + rb = rows2.length := by omega
      rw [he, List.take_length] at hsafe2
      refine ⟨hidx2, ⟨rows2.length, le_refl _, ?_, ?_, fun _ => hsafe2⟩, h2⟩
      · intro r hr; exact hsafe2 r (List.mem_of_mem_take hr)
      · simp

theorem loopStep_shape (rows : List (Row n)) (res : BatchResult n)
    (hrows : ∀ r ∈ rows, r.safe = true → start r.idx = true)
    (h : loopStep C adaptive initial maxRef rows = .ok res) :
    StepShape C adaptive maxRef start rows res.rows res.brk := by
  unfold loopStep at h
  simp only [] at h
  set rows1 := rows.map fun r =>
    if C.negative r.idx then { r with safe := true, refine := 1 } else r with hr1
  have hidx1 : rows1.map (·.idx) = rows.map (·.idx) := by
    rw [hr1, List.map_map]
    apply List.map_congr_left
    intro r _
    simp only [Function.comp]
    split_ifs <;> rfl
  have h1 : ∀ r ∈ rows1, Why C adaptive maxRef start r := by
    intro r hr hs
    rw [hr1, List.mem_map] at hr
    obtain ⟨r0, hr0, rfl⟩ := hr
    by_cases hneg : C.negative r0.idx = true
    · rw [if_pos hneg]; exact Or.inr (Or.inl hneg)
    · rw [if_neg hneg] at hs ⊢; exact Or.inl (hrows r0 hr0 hs)
  set bound := argminBool (rows1.map (·.safe)) with hbound
  by_cases hall : ∀ r ∈ rows1, r.safe = true
  · have hb0 : bound = 0 := argminBool_all (by
      intro b hb
      obtain ⟨r, hr, rfl⟩ := List.mem_map.mp hb
      exact hall r hr)
    rw [if_neg] at h
    · cases h
      exact ⟨hidx1, ⟨rows1.length, le_refl _, fun r hr => hall r (List.mem_of_mem_take hr), by simp,
        fun _ => hall⟩, h1⟩
    · rw [hb0]
      rintro (h0 | h0)
      · omega
      · have := List.mem_of_mem_head? h0
        obtain ⟨r, hr, he⟩ := List.mem_map.mp this
        rw [hall r hr] at he
        cases he
  · push Not at hall
    obtain ⟨ht, hlt, hf⟩ := argminBool_take (rows1.map (·.safe)) (by
      obtain ⟨r, hr, hno⟩ := hall
      exact ⟨r.safe, List.mem_map_of_mem hr, by simpa using hno⟩)
    rw [← hbound] at ht hlt
    have hpre : ∀ r ∈ rows1.take bound, r.safe = true := by
      intro r hr
      apply ht
      rw [← List.map_take]
      exact List.mem_map_of_mem hr
    have hlt' : bound < rows1.length := by simpa using hlt
    have key : ∀ res' : BatchResult n, StepShape C adaptive maxRef start rows1 res'.rows res'.brk →
        StepShape C adaptive maxRef start rows res'.rows res'.brk :=
      fun r hr => ⟨hr.idx.trans hidx1, hr.prefix_safe, hr.why⟩
    rw [if_pos] at h
    · split_ifs at h with hc
      · exact key res (adaptiveStep_shape C adaptive initial maxRef start hc.1 bound rows1 res
          hlt'.le hpre h1 h)
      · cases h
        refine ⟨?_, ⟨bound, by simp [clearFrom]; omega, ?_, clearFrom_drop, by simp⟩, ?_⟩
        · rw [clearFrom_idx, hidx1]
        · rw [clearFrom_take]; exact hpre
        · intro r hr hs
          exact h1 r (List.mem_of_mem_take (mem_clearFrom_of_safe hr hs)) hs
    · rcases Nat.eq_zero_or_pos bound with h0 | h0
      · right
        have hlt0 : 0 < (rows1.map (·.safe)).length := by omega
        rw [List.head?_eq_getElem?, List.getElem?_eq_getElem hlt0]
        congr 1
        have : ∀ m (hm : m < (rows1.map (·.safe)).length), m = bound →
            (rows1.map (·.safe))[m] = false := by
          rintro m hm rfl; exact hf
        exact this 0 hlt0 h0.symm
      · exact Or.inl h0

/-- The rows after the loop: the same states in the same order, a prefix of safe states, then states
that are safe only if they started safe; every safe state has a reason. -/
theorem loop_shape (bs : List (ℕ × List (Row n))) :
    ∀ (acc : List (Row n)) (last : Option (ℕ × ℕ × ℕ)) (out : List (Row n) × Option (ℕ × ℕ × ℕ)),
    (∀ r ∈ acc, r.safe = true) → (∀ r ∈ acc, Why C adaptive maxRef start r) →
    (∀ b ∈ bs, ∀ r ∈ b.2, r.safe = true → start r.idx = true) →
    loop C adaptive initial maxRef acc last bs = .ok out →
    out.1.map (·.idx) = acc.map (·.idx) ++ (bs.flatMap (·.2)).map (·.idx) ∧
    (∃ p, (∀ r ∈ out.1.take p, r.safe = true) ∧
      (∀ r ∈ out.1.drop p, r.safe = true → start r.idx = true)) ∧
    ∀ r ∈ out.1, Why C adaptive maxRef start r := by
  induction bs with
  | nil =>
    intro acc last out hs hw _ h
    rw [loop] at h
    cases h
    exact ⟨by simp, ⟨acc.length, fun r hr => hs r (List.mem_of_mem_take hr), by simp⟩, hw⟩
  | cons b bs ih =>
    obtain ⟨i, rows⟩ := b
    intro acc last out hs hw hbs h
    rw [loop] at h
    cases hst : loopStep C adaptive initial maxRef rows with
    | error e => rw [hst] at h; cases h
    | ok res =>
      rw [hst] at h
      simp only [] at h
      have hsh := loopStep_shape C adaptive initial maxRef start rows res
        (hbs (i, rows) (by simp)) hst
      obtain ⟨p, hp0, hp1, hp2, hp3⟩ := hsh.prefix_safe
      by_cases hb : res.brk = true
      · rw [if_pos hb] at h
        cases h
        refine ⟨?_, ⟨acc.length + p, ?_, ?_⟩, ?_⟩
        · simp [hsh.idx]
        · intro r hr
          rw [List.append_assoc, List.take_length_add_append, List.mem_append] at hr
          rcases hr with hr | hr
          · exact hs r hr
          · rw [List.take_append] at hr
            rcases List.mem_append.mp hr with hr | hr
            · exact hp1 r hr
            · have : p - res.rows.length = 0 := by omega
              rw [this] at hr; simp at hr
        · intro r hr hsafe
          rw [List.append_assoc, List.drop_length_add_append, List.drop_append] at hr
          rcases List.mem_append.mp hr with hr | hr
          · rw [hp2 r hr] at hsafe; cases hsafe
          · obtain ⟨b, hb, hr⟩ := List.mem_flatMap.mp (List.mem_of_mem_drop hr)
            exact hbs b (by simp [hb]) r hr hsafe
        · intro r hr
          rcases List.mem_append.mp hr with hr | hr
          · rcases List.mem_append.mp hr with hr | hr
            · exact hw r hr
            · exact hsh.why r hr
          · obtain ⟨b, hb, hr⟩ := List.mem_flatMap.mp hr
            exact fun hsafe => Or.inl (hbs b (by simp [hb]) r hr hsafe)
      · rw [if_neg hb] at h
        have hall := hp3 (by simpa using hb)
        obtain ⟨h1, h2, h3⟩ := ih (acc ++ res.rows) _ out
          (fun r hr => (List.mem_append.mp hr).elim (hs r) (hall r))
          (fun r hr => (List.mem_append.mp hr).elim (hw r) (hsh.why r))
          (fun b hb => hbs b (by simp [hb])) h
        refine ⟨?_, h2, h3⟩
        rw [h1]
        simp [hsh.idx]

end Loop

section Update

open Flt

variable {K : Type} [Field K] [LinearOrder K] [FloorRing K] {Prog Θ : Type} {d n : ℕ}
  (A : Arith K) (W : FWorld K Prog Θ d n)

/-- The flags at the start of a call. -/
def startFlag (s : Lyap (Flt K) Prog n) (canShrink : Bool) (j : Fin n) : Bool :=
  if canShrink then initialMem s j else s.safeSet j

omit [Field K] [LinearOrder K] [FloorRing K] in
theorem startRows_safe (s : Lyap (Flt K) Prog n) (c : Bool) :
    ∀ r ∈ startRows W s c, r.safe = startFlag s c r.idx := by
  intro r hr
  unfold startRows at hr
  obtain ⟨j, _, rfl⟩ := List.mem_map.mp hr
  unfold startFlag
  cases c <;> rfl

omit [Field K] [LinearOrder K] [FloorRing K] in
theorem startRows_idx (s : Lyap (Flt K) Prog n) (c : Bool) :
    (startRows W s c).map (·.idx) = W.argsort s.values := by
  unfold startRows
  rw [List.map_map]
  conv_rhs => rw [← List.map_id (W.argsort s.values)]
  apply List.map_congr_left
  intro j _
  cases c <;> rfl

/-- The outcome of a call: nothing changes in the safe set if it raises; otherwise the safe states are
the initial ones, a prefix of the value order and states that started safe. -/
theorem updateSafeSet_shape (batch : ℕ) (args : UpdateArgs (Flt K))
    (s : Lyap (Flt K) Prog n) (θ : Θ) (R : Lyap (Flt K) Prog n × Except PyErr Unit)
    (hout : updateSafeSet A W batch args s θ = R) :
    let out := R.1
    let G := graphFor s args.safetyFactor
    out.graph = some G ∧ out.initial = s.initial ∧ out.prog = s.prog ∧ out.tau = s.tau ∧
    out.values = s.values ∧ out.adaptive = s.adaptive ∧
    ((out.safeSet = s.safeSet ∧ R.2 ≠ .ok ()) ∨
      ∃ p, (∀ j, out.safeSet j = true ↔ initialMem s j = true ∨
          j ∈ (W.argsort s.values).take p ∨
          (j ∈ W.argsort s.values ∧ out.safeSet j = true ∧ startFlag s args.canShrink j = true)) ∧
        ∀ j, out.safeSet j = true → initialMem s j = true ∨ startFlag s args.canShrink j = true ∨
          negative A W G θ j = true ∨
          ∃ fed N, j ∈ fed ∧ 1 ≤ N ∧ N ≤ args.maxRefinement ∧ s.adaptive = true ∧
            refinedNegative A W G θ fed j N = true) := by
  intro out G
  set sG : Lyap (Flt K) Prog n := { s with graph := some G } with hsG
  have hrows : startRows W sG args.canShrink = startRows W s args.canShrink := rfl
  unfold updateSafeSet at hout
  simp only [] at hout
  rw [show graphFor s args.safetyFactor = G from rfl, ← hsG] at hout
  split_ifs at hout with hne
  · subst hout; exact ⟨rfl, rfl, rfl, rfl, rfl, rfl, Or.inl ⟨rfl, nofun⟩⟩
  cases hloop : loop (checks A W G θ) sG.adaptive sG.initial args.maxRefinement [] none
      (batchify (startRows W sG args.canShrink) batch) with
  | error e =>
    rw [hloop] at hout
    subst hout; exact ⟨rfl, rfl, rfl, rfl, rfl, rfl, Or.inl ⟨rfl, nofun⟩⟩
  | ok o =>
    obtain ⟨rows, last⟩ := o
    rw [hloop] at hout
    simp only [] at hout
    rcases Nat.eq_zero_or_pos batch with hb | hb
    · subst hb
      rw [batchify, batchifyFrom_zero, loop] at hloop
      cases hloop
      subst hout; exact ⟨rfl, rfl, rfl, rfl, rfl, rfl, Or.inl ⟨rfl, nofun⟩⟩
    have hfm : (batchify (startRows W sG args.canShrink) batch).flatMap (·.2) =
        startRows W sG args.canShrink := by
      rw [batchify, batchifyFrom_flatMap batch hb]; simp
    obtain ⟨h1, ⟨p, h2, h3⟩, h4⟩ := loop_shape (checks A W G θ) sG.adaptive sG.initial
      args.maxRefinement (startFlag s args.canShrink) _ [] none (rows, last) (by simp) (by simp)
      (by
        intro b hb r hr hs
        have hr' : r ∈ startRows W sG args.canShrink := by
          rw [← hfm]; exact List.mem_flatMap.mpr ⟨b, hb, hr⟩
        rw [← startRows_safe W s args.canShrink r hr']; exact hs) hloop
    simp only [] at h1 h2 h3 h4
    rw [List.map_nil, List.nil_append, hfm, hrows, startRows_idx] at h1
    unfold finish at hout
    cases last with
    | none => subst hout; exact ⟨rfl, rfl, rfl, rfl, rfl, rfl, Or.inl ⟨rfl, nofun⟩⟩
    | some t =>
      obtain ⟨i, b, rb⟩ := t
      simp only [] at hout
      cases hg : pyGet? (W.argsort sG.values) ((i : ℤ) + b + rb - 1) with
      | none =>
        rw [hg] at hout
        subst hout; exact ⟨rfl, rfl, rfl, rfl, rfl, rfl, Or.inl ⟨rfl, nofun⟩⟩
      | some top =>
        rw [hg] at hout
        simp only [] at hout
        have hsafe : ∀ j, out.safeSet j = true ↔
            (∃ r ∈ rows, r.safe = true ∧ r.idx = j) ∨ initialMem s j = true := by
          intro j
          simp only [out, ← hout]
          simp only [Bool.or_eq_true, decide_eq_true_eq, List.mem_map, List.mem_filter, and_assoc]
          rfl
        refine ⟨by simp only [out, ← hout]; rfl, by simp only [out, ← hout]; rfl, by simp only [out, ← hout]; rfl,
          by simp only [out, ← hout]; rfl, by simp only [out, ← hout]; rfl, by simp only [out, ← hout]; rfl,
          Or.inr ⟨p, ?_, ?_⟩⟩
        · intro j
          constructor
          · intro hj
            rcases (hsafe j).mp hj with ⟨r, hr, hrs, rfl⟩ | hj'
            · have hmem : r.idx ∈ W.argsort s.values := by
                rw [← h1]; exact List.mem_map_of_mem hr
              rw [← List.take_append_drop p rows, List.mem_append] at hr
              rcases hr with hr | hr
              · right; left
                rw [← h1, ← List.map_take]
                exact List.mem_map_of_mem hr
              · exact Or.inr (Or.inr ⟨hmem, hj, h3 r hr hrs⟩)
            · exact Or.inl hj'
          · rintro (hj | hj | hj)
            · exact (hsafe j).mpr (Or.inr hj)
            · rw [← h1, ← List.map_take] at hj
              obtain ⟨r, hr, rfl⟩ := List.mem_map.mp hj
              exact (hsafe _).mpr (Or.inl ⟨r, List.mem_of_mem_take hr, h2 r hr, rfl⟩)
            · exact hj.2.1
        · intro j hj
          rcases (hsafe j).mp hj with ⟨r, hr, hrs, rfl⟩ | hj
          · rcases h4 r hr hrs with h | h | ⟨fed, N, h5, h6, h7, h9, h8⟩
            · exact Or.inr (Or.inl h)
            · exact Or.inr (Or.inr (Or.inl h))
            · exact Or.inr (Or.inr (Or.inr ⟨fed, N, h5, h6, h7, h9, h8⟩))
          · exact Or.inl hj

end Update

end SafeLearning.FltLyap
