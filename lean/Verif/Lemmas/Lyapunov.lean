import Verif.Model.Lyapunov
import Verif.Lemmas.Batchify
set_option autoImplicit false

set_option linter.unusedSectionVars false

namespace SafeLearning

variable {K : Type} [Field K] [LinearOrder K] [IsStrictOrderedRing K]

namespace Lyap

variable {Prog Θ : Type} {n : ℕ}

theorem argminBool_all {l : List Bool} (h : ∀ b ∈ l, b = true) : argminBool l = 0 := by
  unfold argminBool
  rw [List.findIdx?_eq_none_iff.mpr]
  intro x hx; simp [h x hx]

theorem argminBool_first {l : List Bool} {m : ℕ} (hm : m < l.length)
    (h1 : ∀ b ∈ l.take m, b = true) (h2 : l[m] = false) : argminBool l = m := by
  unfold argminBool
  have : l.findIdx? (fun b => !b) = some m := by
    rw [List.findIdx?_eq_some_iff_getElem]
    refine ⟨hm, by simp [h2], ?_⟩
    intro j hj
    have : l[j] = true := h1 _ (by
      rw [List.mem_take_iff_getElem]; exact ⟨j, by omega, rfl⟩)
    simp [this]
  rw [this]

/-- The rows after `safe_batch |= negative; refine_batch[negative] = 1`. -/
def upd (W : World K Prog Θ n) (G : Graph K Prog) (θ : Θ) (r : Row n) : Row n :=
  if negative W G θ r.idx then { r with safe := true, refine := 1 } else r

def clr (r : Row n) : Row n := ⟨r.idx, false, 0⟩

/-- A row that is safe before or by the decrease condition. -/
def ok (W : World K Prog Θ n) (G : Graph K Prog) (θ : Θ) (r : Row n) : Prop :=
  r.safe = true ∨ negative W G θ r.idx = true

theorem upd_safe (W : World K Prog Θ n) (G : Graph K Prog) (θ : Θ) (r : Row n) :
    (upd W G θ r).safe = true ↔ ok W G θ r := by
  unfold upd ok; split_ifs with h <;> simp [h]

theorem upd_idx (W : World K Prog Θ n) (G : Graph K Prog) (θ : Θ) (r : Row n) :
    (upd W G θ r).idx = r.idx := by
  unfold upd; split_ifs <;> rfl

variable [FloorRing K]

theorem clearFrom_eq (m : ℕ) (rows : List (Row n)) :
    clearFrom m rows = rows.take m ++ (rows.drop m).map clr := by
  unfold clearFrom
  apply List.ext_getElem
  · simp; omega
  · intro k h1 h2
    rw [List.getElem_mapIdx]
    rcases Nat.lt_or_ge k m with hk | hk
    · rw [if_neg (by omega), List.getElem_append_left (by simp at h1 ⊢; omega)]; simp
    · have hlen : m ≤ rows.length := by simp at h1; omega
      rw [if_pos hk, List.getElem_append_right (by simp; omega)]
      simp [clr, hlen, Nat.add_sub_cancel' hk]

section NonAdaptive

variable (W : World K Prog Θ n) (G : Graph K Prog) (s : Lyap K Prog n) (θ : Θ) (maxRef : ℕ)

theorem batchStep_all (rows : List (Row n))
    (h : ∀ r ∈ rows, ok W G θ r) :
    batchStep W G s θ maxRef rows = .ok ⟨rows.map (upd W G θ), 0, 0, false⟩ := by
  unfold batchStep
  simp only []
  have e : (rows.map fun r => if negative W G θ r.idx then { r with safe := true, refine := 1 } else r)
      = rows.map (upd W G θ) := rfl
  rw [e]
  have hall : ∀ b ∈ (rows.map (upd W G θ)).map (·.safe), b = true := by
    intro b hb
    simp only [List.map_map, List.mem_map, Function.comp] at hb
    obtain ⟨r, hr, rfl⟩ := hb
    exact (upd_safe W G θ r).mpr (h r hr)
  rw [argminBool_all hall, if_neg]
  rintro (h0 | h0)
  · omega
  · have := hall false (List.mem_of_mem_head? h0)
    simp at this

theorem batchStep_bad (hna : ¬(s.adaptive ∧ 1 < maxRef)) (rows : List (Row n)) (m : ℕ)
    (hm : m < rows.length) (h1 : ∀ r ∈ rows.take m, ok W G θ r) (h2 : ¬ ok W G θ rows[m]) :
    batchStep W G s θ maxRef rows =
      .ok ⟨(rows.take m).map (upd W G θ) ++ (rows.drop m).map clr, m, 0, true⟩ := by
  unfold batchStep
  simp only []
  have e : (rows.map fun r => if negative W G θ r.idx then { r with safe := true, refine := 1 } else r)
      = rows.map (upd W G θ) := rfl
  rw [e]
  have hm' : m < ((rows.map (upd W G θ)).map (·.safe)).length := by simpa using hm
  have hbad : ((rows.map (upd W G θ)).map (·.safe))[m] = false := by
    simp only [List.getElem_map]
    rw [← Bool.not_eq_true, upd_safe]; exact h2
  have hb : argminBool ((rows.map (upd W G θ)).map (·.safe)) = m := by
    refine argminBool_first hm' ?_ hbad
    intro b hb
    rw [← List.map_take, ← List.map_take] at hb
    simp only [List.map_map, List.mem_map, Function.comp] at hb
    obtain ⟨r, hr, rfl⟩ := hb
    exact (upd_safe W G θ r).mpr (h1 r hr)
  rw [hb, if_pos, if_neg hna, clearFrom_eq]
  · congr 2
    rw [← List.map_take, ← List.map_drop, List.map_map]
    congr 1
    apply List.map_congr_left
    intro r _
    simp [clr, upd_idx]
  · rcases Nat.eq_zero_or_pos m with h0 | h0
    · right
      subst h0
      rw [List.head?_eq_getElem?, List.getElem?_eq_getElem hm', hbad]
    · exact Or.inl h0

theorem batchLoop_all (bs : List (ℕ × List (Row n))) (acc : List (Row n))
    (last : Option (ℕ × ℕ × ℕ)) (h : ∀ r ∈ bs.flatMap (·.2), ok W G θ r) :
    batchLoop W G s θ maxRef acc last bs =
      .ok (acc ++ (bs.flatMap (·.2)).map (upd W G θ),
        (bs.getLast?.map fun x => (x.1, 0, 0)).or last) := by
  induction bs generalizing acc last with
  | nil => simp [batchLoop]
  | cons b bs ih =>
    obtain ⟨i, rows⟩ := b
    simp only [List.flatMap_cons, List.mem_append] at h
    rw [batchLoop, batchStep_all W G s θ maxRef rows fun r hr => h r (Or.inl hr)]
    simp only [Bool.false_eq_true, if_false]
    rw [ih _ _ fun r hr => h r (Or.inr hr)]
    congr 1
    rw [List.flatMap_cons, List.map_append, List.append_assoc]
    congr 1
    cases bs with
    | nil => simp
    | cons c bs => simp [List.getLast?_cons]

theorem batchLoop_bad (hna : ¬(s.adaptive ∧ 1 < maxRef)) (pre post : List (ℕ × List (Row n)))
    (i : ℕ) (mid : List (Row n)) (m : ℕ) (acc : List (Row n)) (last : Option (ℕ × ℕ × ℕ))
    (hpre : ∀ r ∈ pre.flatMap (·.2), ok W G θ r)
    (hm : m < mid.length) (h1 : ∀ r ∈ mid.take m, ok W G θ r) (h2 : ¬ ok W G θ mid[m]) :
    batchLoop W G s θ maxRef acc last (pre ++ (i, mid) :: post) =
      .ok (acc ++ (pre.flatMap (·.2)).map (upd W G θ) ++
        ((mid.take m).map (upd W G θ) ++ (mid.drop m).map clr) ++ post.flatMap (·.2),
        some (i, m, 0)) := by
  induction pre generalizing acc last with
  | nil =>
    rw [List.nil_append, batchLoop, batchStep_bad W G s θ maxRef hna mid m hm h1 h2]
    simp
  | cons b pre ih =>
    obtain ⟨k, rows⟩ := b
    simp only [List.flatMap_cons, List.mem_append] at hpre
    rw [List.cons_append, batchLoop, batchStep_all W G s θ maxRef rows fun r hr => hpre r (Or.inl hr)]
    simp only [Bool.false_eq_true, if_false]
    rw [ih _ _ fun r hr => hpre r (Or.inr hr)]
    simp [List.append_assoc]

/-- Splitting a concatenation of batches at its first bad row. -/
theorem exists_bad_split {α : Type*} (P : α → Prop) (bs : List (ℕ × List α))
    (h : ∃ r ∈ bs.flatMap (·.2), ¬ P r) :
    ∃ (pre post : List (ℕ × List α)) (i : ℕ) (mid : List α) (m : ℕ) (hm : m < mid.length),
      bs = pre ++ (i, mid) :: post ∧
      (∀ r ∈ pre.flatMap (·.2), P r) ∧ (∀ r ∈ mid.take m, P r) ∧ ¬ P mid[m] := by
  classical
  induction bs with
  | nil => simp at h
  | cons b bs ih =>
    obtain ⟨i, rows⟩ := b
    by_cases hr : ∃ r ∈ rows, ¬ P r
    · -- first bad row within this batch
      have hlt : rows.findIdx (fun r => decide (¬ P r)) < rows.length := by
        rw [List.findIdx_lt_length]; simpa using hr
      refine ⟨[], bs, i, rows, rows.findIdx (fun r => decide (¬ P r)), hlt, rfl, by simp, ?_, ?_⟩
      · intro r hr'
        rw [List.mem_take_iff_getElem] at hr'
        obtain ⟨j, hj, rfl⟩ := hr'
        have := List.not_of_lt_findIdx (p := fun r => decide (¬ P r)) (xs := rows)
          (i := j) (by omega)
        simpa using this
      · have := List.findIdx_getElem (p := fun r => decide (¬ P r)) (xs := rows) (w := hlt)
        simpa using this
    · push Not at hr
      have h' : ∃ r ∈ bs.flatMap (·.2), ¬ P r := by
        obtain ⟨r, hr1, hr2⟩ := h
        rw [List.flatMap_cons, List.mem_append] at hr1
        rcases hr1 with h0 | h0
        · exact absurd (hr r h0) hr2
        · exact ⟨r, h0, hr2⟩
      obtain ⟨pre, post, k, mid, m, hm, rfl, h1, h2, h3⟩ := ih h'
      refine ⟨(i, rows) :: pre, post, k, mid, m, hm, rfl, ?_, h2, h3⟩
      intro r hr'
      rw [List.flatMap_cons, List.mem_append] at hr'
      rcases hr' with h0 | h0
      · exact hr r h0
      · exact h1 r h0

/-- **Main lemma**: the loop over the batches of `rows` computes the longest prefix. -/
theorem batchLoop_spec (hna : ¬(s.adaptive ∧ 1 < maxRef)) (batch : ℕ) (hb : 0 < batch)
    (rows : List (Row n)) (hne : rows ≠ []) :
    ((∀ r ∈ rows, ok W G θ r) ∧
      ∃ i, batchLoop W G s θ maxRef [] none (batchify rows batch) =
        .ok (rows.map (upd W G θ), some (i, 0, 0)) ∧ i < rows.length ∧ rows.length ≤ i + batch ∧
        ∃ q, i = q * batch) ∨
    (∃ p q i m, ∃ hp : p < rows.length, (∀ r ∈ rows.take p, ok W G θ r) ∧ ¬ ok W G θ rows[p] ∧
      1 ≤ q ∧ p + q ≤ rows.length ∧ i + m = p ∧ m < batch ∧ m + q ≤ batch ∧
      (p + q < rows.length → m + q = batch) ∧ (∃ c, i = c * batch) ∧
      batchLoop W G s θ maxRef [] none (batchify rows batch) =
        .ok ((rows.take p).map (upd W G θ) ++ ((rows.drop p).take q).map clr ++ rows.drop (p + q),
          some (i, m, 0))) := by
  have hfm : (batchify rows batch).flatMap (·.2) = rows := by
    unfold batchify; rw [batchifyFrom_flatMap _ hb]; simp
  by_cases hall : ∀ r ∈ rows, ok W G θ r
  · left
    refine ⟨hall, ?_⟩
    have hbne : batchify rows batch ≠ [] := by
      intro h; rw [h] at hfm; exact hne hfm.symm
    obtain ⟨pre, ⟨i, mid⟩, hpm⟩ : ∃ pre x, batchify rows batch = pre ++ [x] :=
      ⟨_, _, (List.dropLast_append_getLast hbne).symm⟩
    have hoff := batchifyFrom_offset batch rows 0 i pre [] mid hpm
    obtain ⟨hl1, -, q, hq, hlt⟩ := batchifyFrom_length batch rows 0 i pre [] mid hpm
    refine ⟨i, ?_, hlt, ?_, q, by omega⟩
    · rw [batchLoop_all W G s θ maxRef _ _ _ (by rw [hfm]; exact hall), hfm, hpm]
      simp
    · have : rows.length = (pre.flatMap (·.2)).length + mid.length := by
        conv_lhs => rw [← hfm, hpm]
        simp
      omega
  · right
    push Not at hall
    obtain ⟨pre, post, i, mid, m, hm, hsplit, h1, h2, h3⟩ :=
      exists_bad_split (ok W G θ) (batchify rows batch) (by rw [hfm]; exact hall)
    have hoff := batchifyFrom_offset batch rows 0 i pre post mid hsplit
    obtain ⟨hl1, hl2, c, hc, hlt⟩ := batchifyFrom_length batch rows 0 i pre post mid hsplit
    have hrows : rows = pre.flatMap (·.2) ++ (mid ++ post.flatMap (·.2)) := by
      conv_lhs => rw [← hfm, hsplit]
      simp
    set A := pre.flatMap (·.2) with hA
    set C := post.flatMap (·.2) with hC
    have hlen : rows.length = A.length + (mid.length + C.length) := by
      rw [hrows]; simp
    have htake : rows.take (A.length + m) = A ++ mid.take m := by
      rw [hrows, List.take_length_add_append, List.take_append_of_le_length (by omega)]
    have hdrop : rows.drop (A.length + m) = mid.drop m ++ C := by
      rw [hrows, List.drop_length_add_append, List.drop_append_of_le_length (by omega)]
    have hdt : (rows.drop (A.length + m)).take (mid.length - m) = mid.drop m := by
      rw [hdrop, List.take_append_of_le_length (by simp)]
      rw [List.take_of_length_le (by simp)]
    have hdd : rows.drop (A.length + m + (mid.length - m)) = C := by
      have : A.length + m + (mid.length - m) = A.length + mid.length := by omega
      rw [this, hrows, List.drop_length_add_append, List.drop_left]
    refine ⟨A.length + m, mid.length - m, i, m, by omega, ?_, ?_, by omega, by omega, by omega,
      by omega, by omega, ?_, ⟨c, by omega⟩, ?_⟩
    · intro r hr
      rw [htake, List.mem_append] at hr
      exact hr.elim (h1 r) (h2 r)
    · have : rows[A.length + m]'(by omega) = mid[m] := by
        simp [hrows, List.getElem_append_right, List.getElem_append_left, hm]
      rw [this]; exact h3
    · intro hlt'
      have hpne : post ≠ [] := by
        rintro rfl
        simp [hC] at hlen; omega
      have := hl2 hpne; omega
    · rw [hsplit, batchLoop_bad W G s θ maxRef hna pre post i mid m [] none h1 hm h2 h3,
        htake, hdt, hdd]
      simp [List.append_assoc, hA, hC]

end NonAdaptive

end Lyap

end SafeLearning
