import Verif.Lemmas.SafeSet
import Mathlib.Data.List.TakeWhile
set_option autoImplicit false

/-!
Structure of the outcome of `update_safe_set` for every call that does not raise, with or without
adaptive refinement: a prefix of the value order is safe, the rest of the batch where the loop
stopped is cleared and later batches keep the flags they started with.
-/

set_option linter.unusedSectionVars false

namespace SafeLearning

variable {K : Type} [Field K] [LinearOrder K] [IsStrictOrderedRing K] [FloorRing K]

namespace Lyap

variable {Prog Θ : Type} {n : ℕ}

/-- The shape of the safe flags after a batch. -/
structure Shape (W : World K Prog Θ n) (G : Graph K Prog) (θ : Θ) (rows out : List (Row n))
    (p e : ℕ) : Prop where
  idx : out.map (·.idx) = rows.map (·.idx)
  le : p ≤ e
  le_len : e ≤ rows.length
  safe : out.map (·.safe) =
    List.replicate p true ++ List.replicate (e - p) false ++ (rows.drop e).map (·.safe)
  cert : ∀ q, q ≤ rows.length → (∀ r ∈ rows.take q, ok W G θ r) → q ≤ p

variable (W : World K Prog Θ n) (G : Graph K Prog) (s : Lyap K Prog n) (θ : Θ) (maxRef : ℕ)

theorem map_safe_clearFrom (b : ℕ) (rows : List (Row n))
    (h : ∀ r ∈ rows.take b, r.safe = true) (hb : b ≤ rows.length) :
    (clearFrom b rows).map (·.safe) =
      List.replicate b true ++ List.replicate (rows.length - b) false := by
  rw [clearFrom_eq, List.map_append, List.map_map]
  congr 1
  · rw [List.eq_replicate_iff]
    refine ⟨by simp [hb], ?_⟩
    intro x hx
    obtain ⟨r, hr, rfl⟩ := List.mem_map.mp hx
    exact h r hr
  · rw [List.eq_replicate_iff]
    refine ⟨by simp, ?_⟩
    intro x hx
    obtain ⟨r, hr, rfl⟩ := List.mem_map.mp hx
    rfl

theorem clearFrom_idx (b : ℕ) (rows : List (Row n)) :
    (clearFrom b rows).map (·.idx) = rows.map (·.idx) := by
  rw [clearFrom_eq, List.map_append, List.map_map]
  conv_rhs => rw [← List.take_append_drop b rows, List.map_append]
  rfl

theorem mapIdx_idx (f : ℕ → Row n → Row n) (hf : ∀ k r, (f k r).idx = r.idx) (rows : List (Row n)) :
    (rows.mapIdx f).map (·.idx) = rows.map (·.idx) := by
  apply List.ext_getElem
  · simp
  · intro k h1 h2; simp [hf]

theorem argminBool_le (l : List Bool) : argminBool l ≤ l.length := by
  unfold argminBool
  cases h : l.findIdx? (fun b => !b) with
  | none => simp
  | some i =>
    have := (List.findIdx?_eq_some_iff_getElem.mp h).1
    simpa using this.le

theorem argminBool_take (l : List Bool) (h : ∃ b ∈ l, b = false) :
    (∀ b ∈ l.take (argminBool l), b = true) ∧ ∃ hlt : argminBool l < l.length,
      l[argminBool l] = false := by
  unfold argminBool
  cases h' : l.findIdx? (fun b => !b) with
  | none =>
    rw [List.findIdx?_eq_none_iff] at h'
    obtain ⟨b, hb, rfl⟩ := h
    simpa using h' false hb
  | some i =>
    obtain ⟨h1, h2, h3⟩ := List.findIdx?_eq_some_iff_getElem.mp h'
    change (∀ b ∈ l.take i, b = true) ∧ ∃ hlt : i < l.length, l[i] = false
    refine ⟨?_, h1, by simpa using h2⟩
    intro b hb
    rw [List.mem_take_iff_getElem] at hb
    obtain ⟨j, hj, rfl⟩ := hb
    have := h3 j (by omega)
    simpa using this

theorem batchStep_shape (rows : List (Row n)) (res : BatchResult n)
    (h : batchStep W G s θ maxRef rows = .ok res) :
    ∃ p, Shape W G θ rows res.rows p rows.length ∧ (res.brk = false → p = rows.length) ∧
      (res.brk = true → res.bound + res.refineBound = p) := by
  by_cases hall : ∀ r ∈ rows, ok W G θ r
  · rw [batchStep_all W G s θ maxRef rows hall] at h
    cases h
    refine ⟨rows.length, ⟨?_, le_refl _, le_refl _, ?_, fun q hq _ => hq⟩, fun _ => rfl, by simp⟩
    · rw [List.map_map]; apply List.map_congr_left; intro r _; simp [upd_idx]
    · simp only [Nat.sub_self, List.replicate_zero, List.append_nil, List.drop_length, List.map_nil]
      rw [List.eq_replicate_iff]
      refine ⟨by simp, ?_⟩
      intro x hx
      simp only [List.map_map, List.mem_map, Function.comp] at hx
      obtain ⟨r, hr, rfl⟩ := hx
      exact (upd_safe W G θ r).mpr (hall r hr)
  · push Not at hall
    unfold batchStep at h
    simp only [] at h
    set rows1 := rows.map (fun r =>
      if negative W G θ r.idx then { r with safe := true, refine := 1 } else r) with hrows1
    have hrows1' : rows1 = rows.map (upd W G θ) := rfl
    have hlen1 : rows1.length = rows.length := by simp [hrows1]
    have hidx1 : rows1.map (·.idx) = rows.map (·.idx) := by
      rw [hrows1', List.map_map]; apply List.map_congr_left; intro r _; simp [upd_idx]
    have hbad : ∃ b ∈ rows1.map (·.safe), b = false := by
      obtain ⟨r, hr, hno⟩ := hall
      refine ⟨(upd W G θ r).safe, ?_, ?_⟩
      · rw [hrows1', List.map_map]; exact List.mem_map_of_mem (f := (fun x : Row n => x.safe) ∘ upd W G θ) hr
      · rw [← Bool.not_eq_true, upd_safe]; exact hno
    obtain ⟨ht, hlt, hf⟩ := argminBool_take _ hbad
    set bound := argminBool (rows1.map (·.safe)) with hbound
    have hlt' : bound < rows1.length := by simpa using hlt
    have hsafe1 : ∀ r ∈ rows1.take bound, r.safe = true := by
      intro r hr
      apply ht
      rw [← List.map_take]
      exact List.mem_map_of_mem hr
    have hcert : ∀ q, q ≤ rows.length → (∀ r ∈ rows.take q, ok W G θ r) → q ≤ bound := by
      intro q hq hok
      by_contra hc
      have h1 : rows[bound]'(by omega) ∈ rows.take q := by
        rw [List.mem_take_iff_getElem]; exact ⟨bound, by omega, rfl⟩
      have h2 := (upd_safe W G θ _).mpr (hok _ h1)
      have h3 : (rows1.map (·.safe))[bound] = (upd W G θ (rows[bound]'(by omega))).safe := by
        simp [hrows1']
      rw [h3, h2] at hf
      exact Bool.noConfusion hf
    rw [if_pos] at h
    · by_cases hna : s.adaptive = true ∧ 1 < maxRef
      · rw [if_pos hna] at h
        unfold adaptiveBatch at h
        cases hI : s.initial with
        | none => rw [hI] at h; cases h
        | some I =>
          rw [hI] at h
          simp only [] at h
          set rows2 := rows1.mapIdx (fun k r =>
            let r := if bound ≤ k then { r with refine := nReq W G θ r.idx } else r
            if negative W G θ r.idx || I r.idx then { r with refine := 1 } else r) with hrows2
          set check := (rows2.drop bound).map (fun r => decide (1 ≤ r.refine ∧ r.refine ≤ maxRef)) with hcheck
          set stop := (if check.all id then check.length else argminBool check) with hstop
          set fed := (rows2.drop bound).take stop with hfed
          set refinedSafe := fed.map (fun r => refinedNegative W G θ (fed.map (·.idx)) r.idx r.refine) with hrs
          set rb := (if 0 < stop then (if refinedSafe.all id then refinedSafe.length
            else argminBool refinedSafe) else 0) with hrb
          have hlen2 : rows2.length = rows.length := by simp [hrows2, hlen1]
          have hidx2 : rows2.map (·.idx) = rows.map (·.idx) := by
            rw [hrows2, mapIdx_idx, hidx1]
            intro k r; simp only []; split_ifs <;> rfl
          have hsafe2 : rows2.map (·.safe) = rows1.map (·.safe) := by
            apply List.ext_getElem
            · simp [hrows2]
            · intro k h1 h2
              simp only [hrows2, List.getElem_map, List.getElem_mapIdx]
              split_ifs <;> rfl
          have hchk : check.length = rows.length - bound := by simp [hcheck, hlen2]
          have hstop_le : stop ≤ rows.length - bound := by
            rw [hstop]; split_ifs
            · omega
            · have := argminBool_le check; omega
          have hfedlen : fed.length = stop := by
            rw [hfed, List.length_take, List.length_drop]; omega
          have hrslen : refinedSafe.length = stop := by rw [hrs, List.length_map, hfedlen]
          have hrb_le : rb ≤ stop := by
            rw [hrb]; split_ifs
            · omega
            · have := argminBool_le refinedSafe; omega
            · omega
          set rows3 := rows2.mapIdx (fun k r =>
            if bound ≤ k ∧ k < bound + rb then { r with safe := true } else r) with hrows3
          have hlen3 : rows3.length = rows.length := by simp [hrows3, hlen2]
          have hidx3 : rows3.map (·.idx) = rows.map (·.idx) := by
            rw [hrows3, mapIdx_idx, hidx2]
            intro k r; split_ifs <;> rfl
          have hsafe3 : ∀ r ∈ rows3.take (bound + rb), r.safe = true := by
            intro r hr
            rw [List.mem_take_iff_getElem] at hr
            obtain ⟨k, hk, rfl⟩ := hr
            simp only [hrows3, List.getElem_mapIdx]
            by_cases hkb : bound ≤ k
            · rw [if_pos ⟨hkb, by omega⟩]
            · rw [if_neg (by omega)]
              have h1 : (rows2.map (·.safe))[k]'(by simp; omega) = (rows1.map (·.safe))[k]'(by simp; omega) := by
                simp only [hsafe2]
              simp only [List.getElem_map] at h1
              rw [h1]
              apply hsafe1
              rw [List.mem_take_iff_getElem]; exact ⟨k, by omega, rfl⟩
          by_cases hstopc : stop < check.length ∨ rb < stop
          · rw [if_pos hstopc] at h
            cases h
            refine ⟨bound + rb, ⟨?_, by omega, le_refl _, ?_, ?_⟩, by simp, by simp⟩
            · rw [clearFrom_idx, hidx3]
            · rw [map_safe_clearFrom _ _ hsafe3 (by omega), hlen3]; simp
            · intro q hq hok; have := hcert q hq hok; omega
          · rw [if_neg hstopc] at h
            cases h
            have he : bound + rb = rows.length := by omega
            refine ⟨rows.length, ⟨hidx3, le_refl _, le_refl _, ?_, fun q hq _ => hq⟩, fun _ => rfl, by simp⟩
            simp only [Nat.sub_self, List.replicate_zero, List.append_nil, List.drop_length, List.map_nil]
            rw [List.eq_replicate_iff]
            refine ⟨by simp [hlen3], ?_⟩
            intro x hx
            obtain ⟨r, hr, rfl⟩ := List.mem_map.mp hx
            apply hsafe3
            rw [he, ← hlen3, List.take_length]
            exact hr
      · rw [if_neg hna] at h
        cases h
        refine ⟨bound, ⟨?_, by omega, le_refl _, ?_, hcert⟩, by simp, by simp⟩
        · rw [clearFrom_idx, hidx1]
        · rw [map_safe_clearFrom _ _ hsafe1 (by omega), hlen1]; simp
    · rcases Nat.eq_zero_or_pos bound with h0 | h0
      · right
        rw [List.head?_eq_getElem?, List.getElem?_eq_getElem (by rw [← h0]; exact hlt)]
        congr 1
        convert hf using 2
        exact h0.symm
      · exact Or.inl h0

theorem batchLoop_shape (bs : List (ℕ × List (Row n))) (acc out : List (Row n))
    (last last' : Option (ℕ × ℕ × ℕ))
    (h : batchLoop W G s θ maxRef acc last bs = .ok (out, last')) :
    ∃ out' p e, out = acc ++ out' ∧ Shape W G θ (bs.flatMap (·.2)) out' p e := by
  induction bs generalizing acc last with
  | nil =>
    rw [batchLoop] at h
    cases h
    exact ⟨[], 0, 0, by simp, ⟨rfl, le_refl _, le_refl _, by simp, fun q hq _ => by simpa using hq⟩⟩
  | cons b bs ih =>
    obtain ⟨i, rows⟩ := b
    have hfc : ((i, rows) :: bs).flatMap (·.2) = rows ++ bs.flatMap (·.2) := rfl
    rw [hfc]
    rw [batchLoop] at h
    cases hs : batchStep W G s θ maxRef rows with
    | error e => rw [hs] at h; cases h
    | ok res =>
      rw [hs] at h
      simp only [] at h
      obtain ⟨p, hsh, hnb, hbb⟩ := batchStep_shape W G s θ maxRef rows res hs
      have hl : res.rows.length = rows.length := by
        have := congrArg List.length hsh.idx; simpa using this
      by_cases hb : res.brk = true
      · rw [if_pos hb] at h
        cases h
        refine ⟨res.rows ++ bs.flatMap (·.2), p, rows.length, by simp, ?_⟩
        refine ⟨?_, hsh.le, ?_, ?_, ?_⟩
        · rw [List.map_append, List.map_append, hsh.idx]
        · simp
        · rw [List.map_append, hsh.safe, List.drop_left]
          simp
        · intro q hq hok
          by_contra hc
          have h1 : min q rows.length ≤ p := by
            apply hsh.cert _ (by omega)
            intro r hr
            apply hok
            rw [List.take_append, List.mem_append]
            left
            rcases Nat.le_total q rows.length with h2 | h2
            · rwa [Nat.min_eq_left h2] at hr
            · rw [Nat.min_eq_right h2, List.take_length] at hr
              rw [List.take_of_length_le h2]; exact hr
          have hple := hsh.le
          have hpl : p = rows.length := by omega
          -- the loop stopped here, so not everything is safe
          by_cases hall : ∀ r ∈ rows, ok W G θ r
          · rw [batchStep_all W G s θ maxRef rows hall] at hs
            cases hs
            simp at hb
          · push Not at hall
            obtain ⟨r, hr, hno⟩ := hall
            apply hno
            apply hok
            rw [List.take_append, List.mem_append]
            left
            rw [List.take_of_length_le (by omega)]; exact hr
      · rw [if_neg hb] at h
        have hpl := hnb (by simpa using hb)
        subst hpl
        obtain ⟨out', p', e', rfl, hsh'⟩ := ih _ _ h
        refine ⟨res.rows ++ out', rows.length + p', rows.length + e', by simp, ?_⟩
        have hle := hsh'.le
        have hle' := hsh'.le_len
        refine ⟨?_, by omega, ?_, ?_, ?_⟩
        · rw [List.map_append, List.map_append, hsh.idx, hsh'.idx]
        · rw [List.length_append]; omega
        · rw [List.map_append, hsh.safe, hsh'.safe, List.drop_length_add_append]
          have : rows.length + e' - (rows.length + p') = e' - p' := by omega
          rw [this, List.replicate_add]
          simp only [Nat.sub_self, List.replicate_zero, List.append_nil, List.drop_length,
            List.map_nil, List.append_assoc]
        · intro q hq hok
          rw [List.length_append] at hq
          rcases Nat.le_total q rows.length with h2 | h2
          · omega
          · have := hsh'.cert (q - rows.length) (by omega) (by
              intro r hr
              apply hok
              rw [List.take_append, List.mem_append]
              exact Or.inr hr)
            omega

/-- Outcome of every `update_safe_set` call that does not raise: the safe set is the initial set,
a prefix of the value order which contains the certified prefix, and (only `can_shrink=False`, after
the batch in which the loop stopped) states that were safe before. -/
theorem updateSafeSet_shape (hW : W.SortContract) (batch : ℕ) (args : UpdateArgs K)
    (h : (updateSafeSet W batch args s θ).2 = .ok ()) :
    ∃ p e, p ≤ e ∧ e ≤ n ∧
      ((W.argsort s.values).takeWhile
        (good W (s.graphFor args.safetyFactor) θ s args.canShrink)).length ≤ p ∧
      (∀ j, (updateSafeSet W batch args s θ).1.safeSet j = true ↔ s.initialMem j = true ∨
        j ∈ (W.argsort s.values).take p ∨
        (j ∈ (W.argsort s.values).drop e ∧ s.startFlag args.canShrink j = true)) := by
  set G := s.graphFor args.safetyFactor with hG
  set order := W.argsort s.values with horder
  have hlen : order.length = n := argsort_length W hW s.values
  set sG : Lyap K Prog n := { s with graph := some G } with hsG
  set mk : Fin n → Row n := fun j => ⟨j, s.startFlag args.canShrink j, s.startRef args.canShrink j⟩
    with hmk
  have hrows : sG.startRows W args.canShrink = order.map mk := startRows_eq W s args.canShrink
  have hcall : updateSafeSet W batch args s θ =
      if G.adaptive ≠ sG.adaptive then (sG, .error .valueError) else
      match batchLoop W G sG θ args.maxRefinement [] none (batchify (order.map mk) batch) with
      | .error e => (sG, .error e)
      | .ok (rows, last) =>
        match sG.finish W rows last with
        | .error e => (sG, .error e)
        | .ok s' => (s', .ok ()) := by
    rw [← hrows]
    rfl
  rw [hcall] at h ⊢
  by_cases ha : G.adaptive ≠ sG.adaptive
  · rw [if_pos ha] at h; cases h
  rw [if_neg ha] at h ⊢
  cases hloop : batchLoop W G sG θ args.maxRefinement [] none (batchify (order.map mk) batch) with
  | error e => rw [hloop] at h; cases h
  | ok x =>
    obtain ⟨out, last⟩ := x
    rw [hloop] at h
    simp only [] at h ⊢
    cases hfin : sG.finish W out last with
    | error e => rw [hfin] at h; cases h
    | ok s' =>
      simp only []
      -- a positive batch size, otherwise `i` is unbound
      have hb : 0 < batch := by
        rcases Nat.eq_zero_or_pos batch with h0 | h0
        · subst h0
          unfold batchify at hloop
          rw [batchifyFrom_zero, batchLoop] at hloop
          cases hloop
          unfold finish at hfin
          cases hfin
        · exact h0
      obtain ⟨out', p, e, hout, hsh⟩ := batchLoop_shape W G sG θ args.maxRefinement _ _ _ _ _ hloop
      rw [List.nil_append] at hout
      subst hout
      have hfm : (batchify (order.map mk) batch).flatMap (·.2) = order.map mk := by
        unfold batchify; rw [batchifyFrom_flatMap _ hb]; simp
      rw [hfm] at hsh
      have hel := hsh.le_len
      rw [List.length_map, hlen] at hel
      have hpe := hsh.le
      have hidx : out.map (·.idx) = order := by
        rw [hsh.idx, List.map_map]
        conv_rhs => rw [← List.map_id order]
        apply List.map_congr_left; intro a _; simp [mk]
      have holen : out.length = n := by
        have := congrArg List.length hidx; simpa [hlen] using this
      refine ⟨p, e, hpe, hel, ?_, ?_⟩
      · apply hsh.cert
        · rw [List.length_map]; exact (List.takeWhile_sublist _).length_le
        · intro r hr
          rw [← List.map_take] at hr
          obtain ⟨j, hj, rfl⟩ := List.mem_map.mp hr
          rw [← List.prefix_iff_eq_take.mp (List.takeWhile_prefix _)] at hj
          have := List.mem_takeWhile_imp hj
          simpa [good, ok, mk] using this
      · have hs' : ∀ j, s'.safeSet j = (decide (j ∈ (out.filter (·.safe)).map (·.idx)) || s.initialMem j) := by
          unfold finish at hfin
          cases last with
          | none => cases hfin
          | some t =>
            obtain ⟨i, b, rb⟩ := t
            simp only [] at hfin
            cases hg : pyGet? (W.argsort sG.values) ((i : ℤ) + b + rb - 1) with
            | none => rw [hg] at hfin; cases hfin
            | some top =>
              rw [hg] at hfin
              simp only [Except.ok.injEq] at hfin
              intro j
              rw [← hfin]
              rfl
        intro j
        rw [hs' j]
        simp only [Bool.or_eq_true, decide_eq_true_eq, List.mem_map, List.mem_filter]
        have key : (∃ a, (a ∈ out ∧ a.safe = true) ∧ a.idx = j) ↔ (j ∈ order.take p ∨
            (j ∈ order.drop e ∧ s.startFlag args.canShrink j = true)) := by
          have hsafek : ∀ k (hk : k < n), (out[k]'(by omega)).safe =
              if k < p then true else if k < e then false
              else s.startFlag args.canShrink (order[k]'(by omega)) := by
            intro k hk
            have h1 : (out[k]'(by omega)).safe = (out.map (·.safe))[k]'(by simp; omega) := by simp
            rw [h1]
            simp only [hsh.safe, List.map_drop, List.map_map]
            rcases Nat.lt_or_ge k p with h2 | h2
            · rw [if_pos h2, List.getElem_append_left (by simp; omega),
                List.getElem_append_left (by simp; omega), List.getElem_replicate]
            · rw [if_neg (by omega)]
              rcases Nat.lt_or_ge k e with h3 | h3
              · rw [if_pos h3, List.getElem_append_left (by simp; omega),
                  List.getElem_append_right (by simp; omega), List.getElem_replicate]
              · rw [if_neg (by omega), List.getElem_append_right (by simp; omega)]
                simp only [List.length_append, List.length_replicate, List.getElem_drop,
                  List.getElem_map, Function.comp, mk]
                congr 2
                omega
          have hidxk : ∀ k (hk : k < n), (out[k]'(by omega)).idx = order[k]'(by omega) := by
            intro k hk
            have h1 : (out[k]'(by omega)).idx = (out.map (·.idx))[k]'(by simp; omega) := by simp
            rw [h1]
            simp only [hidx]
          constructor
          · rintro ⟨a, ⟨ha, hsafe⟩, rfl⟩
            obtain ⟨k, hk, rfl⟩ := List.getElem_of_mem ha
            rw [holen] at hk
            rw [hsafek k hk] at hsafe
            rw [hidxk k hk]
            by_cases h2 : k < p
            · left; rw [List.mem_take_iff_getElem]; exact ⟨k, by omega, rfl⟩
            · rw [if_neg h2] at hsafe
              by_cases h3 : k < e
              · rw [if_pos h3] at hsafe; cases hsafe
              · rw [if_neg h3] at hsafe
                right
                refine ⟨?_, hsafe⟩
                rw [List.mem_drop_iff_getElem]
                exact ⟨k - e, by omega, by congr 1; omega⟩
          · rintro (hj | ⟨hj, hf⟩)
            · rw [List.mem_take_iff_getElem] at hj
              obtain ⟨k, hk, rfl⟩ := hj
              refine ⟨out[k]'(by omega), ⟨List.getElem_mem _, ?_⟩, hidxk k (by omega)⟩
              rw [hsafek k (by omega), if_pos (by omega)]
            · rw [List.mem_drop_iff_getElem] at hj
              obtain ⟨k, hk, rfl⟩ := hj
              refine ⟨out[k + e]'(by omega), ⟨List.getElem_mem _, ?_⟩, ?_⟩
              · rw [hsafek (k + e) (by omega), if_neg (by omega), if_neg (by omega)]
                convert hf using 3; omega
              · rw [hidxk (k + e) (by omega)]; congr 1; omega
        rw [key]
        exact or_comm

end Lyap

end SafeLearning
