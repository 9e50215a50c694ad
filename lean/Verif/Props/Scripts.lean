import Verif.Model.Scripts
import Mathlib.Tactic.Linarith
import Mathlib.Data.List.Basic
import Mathlib.Tactic.IntervalCases
set_option autoImplicit false

/-!
# C104, C105: the save hook for notebooks and `strip_consts`
-/

namespace SafeLearning

/-! ## C104 -/

theorem findKey_setKey (key key' : String) (v : Json) : ∀ items,
    findKey key' (setKey key v items) = if key' = key then some v else findKey key' items
  | [] => by
    simp only [setKey, findKey]
    by_cases h : key' = key
    · simp [h]
    · rw [if_neg h, if_neg fun h' => h h'.symm]
  | (k, w) :: items => by
    unfold setKey
    by_cases h : k = key
    · rw [if_pos h]
      simp only [findKey]
      by_cases h' : key' = key
      · rw [if_pos (h.trans h'.symm), if_pos h']
      · rw [if_neg fun e => h' (e.symm.trans h), if_neg h', if_neg fun e => h' (e.symm.trans h)]
    · rw [if_neg h]
      simp only [findKey, findKey_setKey key key' v items]
      by_cases h' : key' = key
      · simp [h', h]
      · simp only [if_neg h']

theorem setKey_setKey (key : String) (v w : Json) : ∀ items, setKey key w (setKey key v items) = setKey key w items
  | [] => by simp [setKey]
  | (k, u) :: items => by
    unfold setKey
    by_cases h : k = key
    · simp [h, setKey]
    · simp [h, setKey, setKey_setKey key v w items]

/-- Setting a key that exists commutes with setting another one. -/
theorem setKey_comm (a b : String) (hab : a ≠ b) (u v w : Json) : ∀ items,
    setKey a w (setKey b v (setKey a u items)) = setKey b v (setKey a w items)
  | [] => by simp [setKey, hab, hab.symm]
  | (k, x) :: items => by
    by_cases ha : k = a
    · subst ha
      simp [setKey, hab]
    · by_cases hb : k = b
      · subst hb
        simp [setKey, ha, setKey_setKey]
      · simp [setKey, ha, hb, setKey_comm a b hab u v w items]

/-- A JSON value is a dictionary. -/
def _root_.Spec.IsDict (d : Json) : Prop := ∃ items, d = .dict items

/-- `d` maps `key` to `v`. -/
def _root_.Spec.Maps (d : Json) (key : String) (v : Json) : Prop := ∃ items, d = .dict items ∧ findKey key items = some v

/-- The two dictionaries agree on `key`: same value, or absent from both. -/
def _root_.Spec.AgreeOn (d e : Json) (key : String) : Prop := ∀ v, Spec.Maps d key v ↔ Spec.Maps e key v

/-- `m` is a notebook in format 4 with the given cells. -/
structure _root_.Spec.Notebook4 (m content : Json) (cells : List Json) : Prop where
  type : Spec.Maps m "type" (.str "notebook")
  hasContent : Spec.Maps m "content" content
  nbformat : Spec.Maps content "nbformat" (.num 4)
  hasCells : Spec.Maps content "cells" (.list cells)

theorem get_ok {d : Json} {key : String} {v : Json} : d.get key = .ok v ↔ Spec.Maps d key v := by
  constructor
  · intro h
    cases d with
    | dict items =>
      simp only [Json.get] at h
      cases e : findKey key items with
      | none => rw [e] at h; cases h
      | some w =>
        rw [e] at h
        cases h
        exact ⟨items, rfl, e⟩
    | null => cases h
    | num n => cases h
    | str s => cases h
    | list l => cases h
  · rintro ⟨items, rfl, h⟩
    simp [Json.get, h]

theorem maps_set {d : Json} (hd : Spec.IsDict d) (key key' : String) (v w : Json) :
    Spec.Maps (d.set key v) key' w ↔ if key' = key then w = v else Spec.Maps d key' w := by
  obtain ⟨items, rfl⟩ := hd
  simp only [Json.set, Spec.Maps, Json.dict.injEq, exists_eq_left', findKey_setKey]
  split
  · rw [Option.some.injEq, eq_comm]
  · rfl

theorem isDict_set {d : Json} (hd : Spec.IsDict d) (key : String) (v : Json) : Spec.IsDict (d.set key v) := by
  obtain ⟨items, rfl⟩ := hd
  exact ⟨_, rfl⟩

theorem Json.isStr_iff (v : Json) (s : String) : v.isStr s = true ↔ v = .str s := by
  cases v <;> simp [Json.isStr]

theorem Json.isNum_iff (v : Json) (n : ℤ) : v.isNum n = true ↔ v = .num n := by
  cases v <;> simp [Json.isNum]

theorem maps_unique {d : Json} {key : String} {v w : Json} (h1 : Spec.Maps d key v) (h2 : Spec.Maps d key w) : v = w := by
  rw [← get_ok] at h1 h2
  rw [h1] at h2
  exact Except.ok.inj h2

theorem scrubOutput_notebook {m content : Json} {cells : List Json} (h : Spec.Notebook4 m content cells) :
    scrubOutput m = (m.set "content" (content.set "cells" (.list (scrubCells cells).1)), (scrubCells cells).2) := by
  unfold scrubOutput
  rw [get_ok.mpr h.type]
  simp only [(Json.isStr_iff _ _).mpr rfl, Bool.not_true, Bool.false_eq_true, if_false]
  rw [get_ok.mpr h.hasContent]
  simp only
  rw [get_ok.mpr h.nbformat]
  simp only [(Json.isNum_iff _ _).mpr rfl, Bool.not_true, Bool.false_eq_true, if_false]
  rw [get_ok.mpr h.hasCells]

theorem scrubCells_spec : ∀ cells : List Json, (∀ c ∈ cells, ∃ t, Spec.Maps c "cell_type" t) →
    (scrubCells cells).2 = none ∧ (scrubCells cells).1.length = cells.length ∧
    ∀ (i : ℕ) c, cells[i]? = some c → ∃ c', (scrubCells cells).1[i]? = some c' ∧
      (¬ Spec.Maps c "cell_type" (.str "code") → c' = c) ∧
      (Spec.Maps c "cell_type" (.str "code") → c' = scrubCell c)
  | [], _ => by simp [scrubCells]
  | c :: cells, h => by
    obtain ⟨t, ht⟩ := h c (by simp)
    obtain ⟨h1, h2, h3⟩ := scrubCells_spec cells fun c hc => h c (by simp [hc])
    unfold scrubCells
    rw [get_ok.mpr ht]
    refine ⟨h1, by simp [h2], ?_⟩
    rintro (_ | i) c' hc'
    · simp only [List.getElem?_cons_zero, Option.some.injEq] at hc' ⊢
      subst hc'
      refine ⟨_, rfl, fun hn => ?_, fun hc => ?_⟩
      · rw [if_neg]
        intro e
        rw [Json.isStr_iff] at e
        exact hn (e ▸ ht)
      · rw [if_pos ((Json.isStr_iff _ _).mpr (maps_unique ht hc))]
    · simp only [List.getElem?_cons_succ] at hc' ⊢
      exact h3 i c' hc'

theorem scrubCell_spec {c : Json} (hd : Spec.IsDict c) :
    Spec.Maps (scrubCell c) "outputs" (.list []) ∧ Spec.Maps (scrubCell c) "execution_count" .null ∧
    ∀ key, key ≠ "outputs" → key ≠ "execution_count" → Spec.AgreeOn (scrubCell c) c key := by
  unfold scrubCell
  have h1 := isDict_set hd "outputs" (.list [])
  refine ⟨?_, ?_, fun key k1 k2 v => ?_⟩
  · rw [maps_set h1, if_neg (by decide), maps_set hd, if_pos rfl]
  · rw [maps_set h1, if_pos rfl]
  · rw [maps_set h1, if_neg k2, maps_set hd, if_neg k1]

/-- **C104** The save hook leaves a file that is not a notebook, and a notebook in another format, as it is. In a notebook in format 4 all of whose cells have a type, it
empties the outputs and the execution count of every code cell, and changes nothing else. -/
theorem C104_scrub (m : Json) :
    (∀ t, Spec.Maps m "type" t → t ≠ .str "notebook" → scrubOutput m = (m, none)) ∧
    (∀ content v, Spec.Maps m "type" (.str "notebook") → Spec.Maps m "content" content → Spec.Maps content "nbformat" v →
      v ≠ .num 4 → scrubOutput m = (m, none)) ∧
    ∀ content cells, Spec.Notebook4 m content cells → (∀ c ∈ cells, ∃ t, Spec.Maps c "cell_type" t) →
      ∃ m' content' cells', scrubOutput m = (m', none) ∧ Spec.Notebook4 m' content' cells' ∧
        (∀ key, key ≠ "content" → Spec.AgreeOn m' m key) ∧
        (∀ key, key ≠ "cells" → Spec.AgreeOn content' content key) ∧
        cells'.length = cells.length ∧
        ∀ (i : ℕ) c c', cells[i]? = some c → cells'[i]? = some c' →
          (¬ Spec.Maps c "cell_type" (.str "code") → c' = c) ∧
          (Spec.Maps c "cell_type" (.str "code") →
            Spec.Maps c' "outputs" (.list []) ∧ Spec.Maps c' "execution_count" .null ∧
            ∀ key, key ≠ "outputs" → key ≠ "execution_count" → Spec.AgreeOn c' c key) := by
  refine ⟨fun t ht hn => ?_, fun content v h1 h2 h3 hn => ?_, fun content cells hm hc => ?_⟩
  · unfold scrubOutput
    rw [get_ok.mpr ht]
    have : t.isStr "notebook" = false := by
      rw [← Bool.not_eq_true, Json.isStr_iff]; exact hn
    simp [this]
  · unfold scrubOutput
    rw [get_ok.mpr h1]
    simp only [(Json.isStr_iff _ _).mpr rfl, Bool.not_true, Bool.false_eq_true, if_false]
    rw [get_ok.mpr h2]
    simp only
    rw [get_ok.mpr h3]
    have : v.isNum 4 = false := by
      rw [← Bool.not_eq_true, Json.isNum_iff]; exact hn
    simp [this]
  · obtain ⟨e1, e2, e3⟩ := scrubCells_spec cells hc
    have hd : Spec.IsDict m := by obtain ⟨i, h, -⟩ := hm.type; exact ⟨i, h⟩
    have hd' : Spec.IsDict content := by obtain ⟨i, h, -⟩ := hm.hasCells; exact ⟨i, h⟩
    refine ⟨_, content.set "cells" (.list (scrubCells cells).1), (scrubCells cells).1,
      by rw [scrubOutput_notebook hm, e1], ⟨?_, ?_, ?_, ?_⟩, fun key hk v => ?_, fun key hk v => ?_, e2, ?_⟩
    · rw [maps_set hd, if_neg (by decide)]; exact hm.type
    · rw [maps_set hd, if_pos rfl]
    · rw [maps_set hd', if_neg (by decide)]; exact hm.nbformat
    · rw [maps_set hd', if_pos rfl]
    · rw [maps_set hd, if_neg hk]
    · rw [maps_set hd', if_neg hk]
    · intro i c c' h1 h2
      obtain ⟨c'', h3, h4, h5⟩ := e3 i c h1
      rw [h2] at h3
      cases h3
      refine ⟨h4, fun h => ?_⟩
      rw [h5 h]
      obtain ⟨items, hi, -⟩ := h
      exact scrubCell_spec ⟨items, hi⟩

/-- A code cell with new outputs and a new execution count. -/
def _root_.Spec.rerun (cell outputs count : Json) : Json := (cell.set "outputs" outputs).set "execution_count" count

theorem scrubCell_rerun (c o n : Json) : scrubCell (Spec.rerun c o n) = scrubCell c := by
  cases c with
  | dict items =>
    simp only [scrubCell, Spec.rerun, Json.set]
    rw [setKey_comm "outputs" "execution_count" (by decide), setKey_setKey]
  | null => rfl
  | num n => rfl
  | str s => rfl
  | list l => rfl

/-- Running a cell changes the outputs and the execution count of code cells. -/
inductive _root_.Spec.RanCells : List Json → List Json → Prop
  | nil : Spec.RanCells [] []
  | keep (c) {l l'} : Spec.RanCells l l' → Spec.RanCells (c :: l) (c :: l')
  | run (c outputs count) {l l'} : Spec.Maps c "cell_type" (.str "code") → Spec.RanCells l l' →
      Spec.RanCells (c :: l) (Spec.rerun c outputs count :: l')

theorem rerun_maps {c : Json} (o n : Json) (hd : Spec.IsDict c) (v : Json) :
    Spec.Maps (Spec.rerun c o n) "cell_type" v ↔ Spec.Maps c "cell_type" v := by
  unfold Spec.rerun
  rw [maps_set (isDict_set hd _ _), if_neg (by decide), maps_set hd, if_neg (by decide)]

theorem scrubCells_ran {l l' : List Json} (h : Spec.RanCells l l') (hl : ∀ c ∈ l, ∃ t, Spec.Maps c "cell_type" t) :
    scrubCells l' = scrubCells l := by
  induction h with
  | nil => rfl
  | keep c h ih =>
    have := ih fun c hc => hl c (by simp [hc])
    obtain ⟨t, ht⟩ := hl c (by simp)
    unfold scrubCells
    rw [this, get_ok.mpr ht]
  | run c o n hc h ih =>
    have := ih fun c hc => hl c (by simp [hc])
    obtain ⟨items, hi, -⟩ := id hc
    unfold scrubCells
    rw [this, get_ok.mpr hc, get_ok.mpr ((rerun_maps o n ⟨items, hi⟩ _).mpr hc)]
    simp [Json.isStr, scrubCell_rerun]

/-- **C104** The saved notebook does not depend on what the cells printed: if running cells only changed outputs and execution counts, then the hook
produces the same notebook. -/
theorem C104_independent (m content : Json) (cells cells' : List Json) (hm : Spec.Notebook4 m content cells)
    (hc : ∀ c ∈ cells, ∃ t, Spec.Maps c "cell_type" t) (h : Spec.RanCells cells cells') :
    scrubOutput (m.set "content" (content.set "cells" (.list cells'))) = scrubOutput m := by
  obtain ⟨mi, rfl, h1⟩ := id hm.type
  obtain ⟨ci, rfl, h2⟩ := id hm.nbformat
  have hd : Spec.IsDict (.dict mi) := ⟨mi, rfl⟩
  have hd' : Spec.IsDict (.dict ci) := ⟨ci, rfl⟩
  have h' : Spec.Notebook4 ((Json.dict mi).set "content" ((Json.dict ci).set "cells" (.list cells')))
      ((Json.dict ci).set "cells" (.list cells')) cells' := by
    refine ⟨?_, ?_, ?_, ?_⟩
    · rw [maps_set hd, if_neg (by decide)]; exact hm.type
    · rw [maps_set hd, if_pos rfl]
    · rw [maps_set hd', if_neg (by decide)]; exact hm.nbformat
    · rw [maps_set hd', if_pos rfl]
  rw [scrubOutput_notebook h', scrubOutput_notebook hm, scrubCells_ran h hc]
  simp only [Json.set, setKey_setKey]

theorem scrubCell_scrubCell (c : Json) : scrubCell (scrubCell c) = scrubCell c := scrubCell_rerun c (.list []) .null

theorem scrubCell_get (c : Json) : (scrubCell c).get "cell_type" = c.get "cell_type" := by
  cases c with
  | dict items =>
    simp only [scrubCell, Json.set, Json.get, findKey_setKey]
    rw [if_neg (by decide), if_neg (by decide)]
  | null => rfl
  | num n => rfl
  | str s => rfl
  | list l => rfl

theorem scrubCells_scrubCells : ∀ l : List Json, scrubCells (scrubCells l).1 = scrubCells l
  | [] => rfl
  | c :: l => by
    cases e : c.get "cell_type" with
    | error err =>
      have h : scrubCells (c :: l) = (c :: l, some err) := by simp [scrubCells, e]
      rw [h, h]
    | ok t =>
      have h : scrubCells (c :: l) = ((if t.isStr "code" then scrubCell c else c) :: (scrubCells l).1, (scrubCells l).2) := by
        simp [scrubCells, e]
      have e' : (if t.isStr "code" then scrubCell c else c).get "cell_type" = .ok t := by
        split
        · rw [scrubCell_get, e]
        · exact e
      rw [h, scrubCells, e']
      simp only [scrubCells_scrubCells l]
      cases t.isStr "code" <;> simp [scrubCell_scrubCell]

theorem scrubOutput_cases (m : Json) : (scrubOutput m).1 = m ∨ ∃ content cells, Spec.Notebook4 m content cells := by
  unfold scrubOutput
  cases h1 : m.get "type" with
  | error e => exact Or.inl rfl
  | ok t =>
    simp only
    by_cases ht : t.isStr "notebook" = true
    · simp only [ht, Bool.not_true, Bool.false_eq_true, if_false]
      cases h2 : m.get "content" with
      | error e => exact Or.inl rfl
      | ok content =>
        simp only
        cases h3 : content.get "nbformat" with
        | error e => exact Or.inl rfl
        | ok v =>
          simp only
          by_cases hv : v.isNum 4 = true
          · simp only [hv, Bool.not_true, Bool.false_eq_true, if_false]
            cases h4 : content.get "cells" with
            | error e => exact Or.inl rfl
            | ok cs =>
              cases cs with
              | list cells =>
                rw [Json.isStr_iff] at ht
                rw [Json.isNum_iff] at hv
                exact Or.inr ⟨content, cells, get_ok.mp (ht ▸ h1), get_ok.mp h2, get_ok.mp (hv ▸ h3), get_ok.mp h4⟩
              | null => exact Or.inl rfl
              | num n => exact Or.inl rfl
              | str s => exact Or.inl rfl
              | dict d => exact Or.inl rfl
          · simp [hv]
    · simp [ht]

/-- **C104** Saving twice is saving once, whatever the model is: also after an exception, the second run changes nothing more and raises the same
exception. -/
theorem C104_idempotent (m : Json) : scrubOutput (scrubOutput m).1 = scrubOutput m := by
  rcases scrubOutput_cases m with h | ⟨content, cells, hm⟩
  · rw [h]
  · obtain ⟨mi, rfl, h1⟩ := id hm.type
    obtain ⟨ci, rfl, h2⟩ := id hm.nbformat
    have hd : Spec.IsDict (.dict mi) := ⟨mi, rfl⟩
    have hd' : Spec.IsDict (.dict ci) := ⟨ci, rfl⟩
    have h' : Spec.Notebook4 ((Json.dict mi).set "content" ((Json.dict ci).set "cells" (.list (scrubCells cells).1)))
        ((Json.dict ci).set "cells" (.list (scrubCells cells).1)) (scrubCells cells).1 := by
      refine ⟨?_, ?_, ?_, ?_⟩
      · rw [maps_set hd, if_neg (by decide)]; exact hm.type
      · rw [maps_set hd, if_pos rfl]
      · rw [maps_set hd', if_neg (by decide)]; exact hm.nbformat
      · rw [maps_set hd', if_pos rfl]
    rw [scrubOutput_notebook hm, scrubOutput_notebook h', scrubCells_scrubCells]
    simp only [Json.set, setKey_setKey]

theorem get_error {d : Json} {key : String} (h : ∀ v, ¬ Spec.Maps d key v) :
    (Spec.IsDict d → d.get key = .error .keyError) ∧ (¬ Spec.IsDict d → d.get key = .error .typeError) := by
  refine ⟨?_, fun hd => ?_⟩
  · rintro ⟨items, rfl⟩
    cases e : findKey key items with
    | none => simp [Json.get, e]
    | some v => exact absurd ⟨items, rfl, e⟩ (h v)
  · cases d with
    | dict items => exact absurd ⟨items, rfl⟩ hd
    | null => rfl
    | num n => rfl
    | str s => rfl
    | list l => rfl

theorem scrubCells_bad (bad : Json) (after : List Json) (e : PyErr) (he : bad.get "cell_type" = .error e) : ∀ before : List Json,
    (∀ c ∈ before, ∃ t, Spec.Maps c "cell_type" t) →
    scrubCells (before ++ bad :: after) = ((scrubCells before).1 ++ bad :: after, some e)
  | [], _ => by simp [scrubCells, he]
  | c :: before, h => by
    obtain ⟨t, ht⟩ := h c (by simp)
    have ih := scrubCells_bad bad after e he before fun c hc => h c (by simp [hc])
    simp only [List.cons_append, scrubCells, get_ok.mpr ht, ih]

/-- **C104 (errors).** A model that is not a dictionary raises `TypeError`, one without a type raises `KeyError`; nothing is changed. A cell without a type stops the
hook with an exception, `KeyError` if it is a dictionary: the code cells before it are emptied, it and all cells after it are kept. -/
theorem C104_raises (m : Json) :
    (¬ Spec.IsDict m → scrubOutput m = (m, some .typeError)) ∧
    (Spec.IsDict m → (∀ t, ¬ Spec.Maps m "type" t) → scrubOutput m = (m, some .keyError)) ∧
    ∀ content before bad after, Spec.Notebook4 m content (before ++ bad :: after) → (∀ c ∈ before, ∃ t, Spec.Maps c "cell_type" t) →
      (∀ t, ¬ Spec.Maps bad "cell_type" t) →
      ∃ m' content' before' e, scrubOutput m = (m', some e) ∧ Spec.Notebook4 m' content' (before' ++ bad :: after) ∧
        (Spec.IsDict bad → e = .keyError) ∧ (¬ Spec.IsDict bad → e = .typeError) ∧ before'.length = before.length ∧
        ∀ (i : ℕ) c c', before[i]? = some c → before'[i]? = some c' →
          (¬ Spec.Maps c "cell_type" (.str "code") → c' = c) ∧
          (Spec.Maps c "cell_type" (.str "code") → Spec.Maps c' "outputs" (.list []) ∧ Spec.Maps c' "execution_count" .null) := by
  refine ⟨fun h => ?_, fun h ht => ?_, fun content before bad after hm hb hbad => ?_⟩
  · have := (get_error (d := m) (key := "type") fun v => by rintro ⟨items, rfl, -⟩; exact h ⟨items, rfl⟩).2 h
    simp [scrubOutput, this]
  · simp [scrubOutput, (get_error ht).1 h]
  · obtain ⟨mi, rfl, h1⟩ := id hm.type
    obtain ⟨ci, rfl, h2⟩ := id hm.nbformat
    have hd : Spec.IsDict (.dict mi) := ⟨mi, rfl⟩
    have hd' : Spec.IsDict (.dict ci) := ⟨ci, rfl⟩
    obtain ⟨e, he⟩ : ∃ e, bad.get "cell_type" = .error e := by
      by_cases h : Spec.IsDict bad
      · exact ⟨_, (get_error hbad).1 h⟩
      · exact ⟨_, (get_error hbad).2 h⟩
    obtain ⟨-, h4, h5⟩ := scrubCells_spec before hb
    refine ⟨(Json.dict mi).set "content" ((Json.dict ci).set "cells" (.list ((scrubCells before).1 ++ bad :: after))),
      (Json.dict ci).set "cells" (.list ((scrubCells before).1 ++ bad :: after)), (scrubCells before).1, e, ?_,
      ⟨?_, ?_, ?_, ?_⟩, fun h => ?_, fun h => ?_, h4, fun i c c' hc hc' => ?_⟩
    · rw [scrubOutput_notebook hm, scrubCells_bad bad after e he before hb]
    · rw [maps_set hd, if_neg (by decide)]; exact hm.type
    · rw [maps_set hd, if_pos rfl]
    · rw [maps_set hd', if_neg (by decide)]; exact hm.nbformat
    · rw [maps_set hd', if_pos rfl]
    · exact Except.error.inj (he.symm.trans ((get_error hbad).1 h))
    · exact Except.error.inj (he.symm.trans ((get_error hbad).2 h))
    · obtain ⟨c'', e1, e2, e3⟩ := h5 i c hc
      obtain rfl : c'' = c' := Option.some.inj (e1.symm.trans hc')
      refine ⟨e2, fun hcode => ?_⟩
      rw [e3 hcode]
      obtain ⟨items, rfl, -⟩ := id hcode
      exact ⟨(scrubCell_spec ⟨items, rfl⟩).1, (scrubCell_spec ⟨items, rfl⟩).2.1⟩

/-- A notebook with a code cell, a text cell and a code cell that was never run. -/
def exampleNotebook : Json := .dict [("type", .str "notebook"), ("content", .dict [("nbformat", .num 4), ("cells", .list
  [.dict [("cell_type", .str "code"), ("execution_count", .num 3), ("source", .str "1 + 1"), ("outputs", .list [.str "2"])],
   .dict [("cell_type", .str "markdown"), ("outputs", .str "text")],
   .dict [("cell_type", .str "code")]])])]

example : scrubOutput exampleNotebook = (.dict [("type", .str "notebook"), ("content", .dict [("nbformat", .num 4), ("cells", .list
  [.dict [("cell_type", .str "code"), ("execution_count", .null), ("source", .str "1 + 1"), ("outputs", .list [])],
   .dict [("cell_type", .str "markdown"), ("outputs", .str "text")],
   .dict [("cell_type", .str "code"), ("outputs", .list []), ("execution_count", .null)]])])], none) := by
  rfl

/-- The hypotheses of `C104_scrub` and `C104_independent` hold for it. -/
example : ∃ content cells, Spec.Notebook4 exampleNotebook content cells ∧ cells.length = 3 ∧
    (∀ c ∈ cells, ∃ t, Spec.Maps c "cell_type" t) ∧ ∃ cells', Spec.RanCells cells cells' := by
  refine ⟨_, _, ⟨⟨_, rfl, rfl⟩, ⟨_, rfl, rfl⟩, ⟨_, rfl, rfl⟩, ⟨_, rfl, rfl⟩⟩, rfl, ?_, _,
    .run _ (.list [.str "3"]) (.num 4) ⟨_, rfl, rfl⟩ (.keep _ (.keep _ .nil))⟩
  intro c hc
  simp only [List.mem_cons, List.not_mem_nil, or_false] at hc
  rcases hc with rfl | rfl | rfl <;> exact ⟨_, _, rfl, rfl⟩

/-! ## C105 -/

/-- The number written by the ASCII codes of decimal digits. -/
def _root_.Spec.readDecimal (l : List UInt8) : ℕ := l.foldl (fun n b => 10 * n + (b.toNat - 48)) 0

theorem digit_toNat (n : ℕ) (h : n < 10) : ((48 + n).toUInt8).toNat - 48 = n := by
  interval_cases n <;> rfl

theorem readDecimal_decimal (n : ℕ) : Spec.readDecimal (decimal n) = n := by
  induction n using Nat.strong_induction_on with
  | _ n ih =>
    unfold decimal
    by_cases h : n < 10
    · rw [if_pos h]
      simp only [Spec.readDecimal, List.foldl_cons, List.foldl_nil, mul_zero, zero_add]
      exact digit_toNat n h
    · rw [if_neg h]
      have := ih (n / 10) (by omega)
      unfold Spec.readDecimal at this ⊢
      rw [List.foldl_append, this]
      simp only [List.foldl_cons, List.foldl_nil, digit_toNat (n % 10) (by omega)]
      omega

theorem decimal_length (k : ℕ) : ∀ n, n < 10 ^ (k + 1) → 1 ≤ (decimal n).length ∧ (decimal n).length ≤ k + 1 := by
  induction k with
  | zero =>
    intro n hn
    unfold decimal
    rw [if_pos (by simpa using hn)]
    simp
  | succ k ih =>
    intro n hn
    unfold decimal
    split
    · simp
    · have := ih (n / 10) (by rw [pow_succ] at hn; omega)
      simp only [List.length_append, List.length_cons, List.length_nil]
      omega

theorem strippedText_length (k n : ℕ) (h : n < 10 ^ (k + 1)) : 18 ≤ (strippedText n).length ∧ (strippedText n).length ≤ k + 18 := by
  have := decimal_length k n h
  have e1 : (ascii "<stripped ").length = 10 := by decide
  have e2 : (ascii " bytes>").length = 7 := by decide
  simp only [strippedText, List.length_append, e1, e2]
  omega

/-- The content of the attribute `value` of a node, if it is a tensor. -/
def _root_.Spec.HasContent (n : GraphNode) (fields : String) (content : List UInt8) : Prop :=
  ("value", AttrValue.tensor fields content) ∈ n.attr

/-- **C105** `strip_consts` with `max_const_size >= 0` keeps the number, the order, the names, the types and the inputs of the nodes, and all attributes except the value of
constants; nodes of other types are unchanged. The value of a constant keeps its type and shape; its content is unchanged if it has at most `max_const_size` bytes,
otherwise it is replaced by a text that gives its number of bytes. -/
theorem C105_strip (maxSize : ℕ) (nodes : List GraphNode) :
    (stripConsts maxSize nodes).length = nodes.length ∧
    ∀ (i : ℕ) n, nodes[i]? = some n → ∃ n', (stripConsts maxSize nodes)[i]? = some n' ∧
      n'.name = n.name ∧ n'.op = n.op ∧ n'.input = n.input ∧ (n.op ≠ "Const" → n' = n) ∧
      (∀ key v, key ≠ "value" → ((key, v) ∈ n'.attr ↔ (key, v) ∈ n.attr)) ∧
      (∀ raw, ("value", AttrValue.other raw) ∈ n'.attr ↔ ("value", AttrValue.other raw) ∈ n.attr) ∧
      (∀ fields content, n.op = "Const" → Spec.HasContent n fields content → content.length ≤ maxSize →
        Spec.HasContent n' fields content) ∧
      (∀ fields content, n.op = "Const" → Spec.HasContent n fields content → maxSize < content.length →
        ∃ digits, Spec.readDecimal digits = content.length ∧
          Spec.HasContent n' fields (ascii "<stripped " ++ digits ++ ascii " bytes>")) ∧
      ∀ fields content', n.op = "Const" → Spec.HasContent n' fields content' → ∃ content, Spec.HasContent n fields content ∧
        (content' = content ∧ content.length ≤ maxSize ∨ content' = strippedText content.length ∧ maxSize < content.length) := by
  refine ⟨by simp [stripConsts], fun i n hn => ⟨stripNode maxSize n, by simp [stripConsts, hn], ?_⟩⟩
  by_cases hop : n.op = "Const"
  · have htouch : ∀ key v, v ≠ AttrValue.unset → ((key, v) ∈ touchAttr "value" n.attr ↔ (key, v) ∈ n.attr) := by
      intro key v hv
      unfold touchAttr
      split
      · rfl
      · simp [hv]
    have htouch' : ∀ key v, key ≠ "value" → ((key, v) ∈ touchAttr "value" n.attr ↔ (key, v) ∈ n.attr) := by
      intro key v hk
      unfold touchAttr
      split
      · rfl
      · simp [hk]
    have hmem : ∀ v', ("value", v') ∈ (stripNode maxSize n).attr ↔
        ∃ v, ("value", v) ∈ touchAttr "value" n.attr ∧ stripValue maxSize v = v' := by
      intro v'
      simp only [stripNode, if_pos hop, List.mem_map, Prod.exists]
      constructor
      · rintro ⟨k, v, h1, h2⟩
        by_cases hk : k = "value"
        · subst hk
          rw [if_pos rfl] at h2
          exact ⟨v, h1, congrArg Prod.snd h2⟩
        · rw [if_neg hk] at h2
          exact absurd (congrArg Prod.fst h2) hk
      · rintro ⟨v, h1, rfl⟩
        exact ⟨"value", v, h1, by simp⟩
    have hneg : ¬ ((maxSize : ℤ) < 0) := by omega
    have hstrip : ∀ f c, stripValue maxSize (.tensor f c) =
        if maxSize < c.length then .tensor f (strippedText c.length) else .tensor f c := by
      intro f c
      simp [stripValue]
    refine ⟨by simp [stripNode, hop], by simp [stripNode, hop], by simp [stripNode, hop], fun h => absurd hop h,
      fun key v hk => ?_, fun raw => ?_, fun f c _ h1 h2 => ?_, fun f c _ h1 h2 => ?_, fun f c' _ h => ?_⟩
    · rw [← htouch' key v hk]
      simp only [stripNode, if_pos hop, List.mem_map, Prod.exists]
      constructor
      · rintro ⟨k, w, h1, h2⟩
        by_cases hk' : k = "value"
        · rw [if_pos hk'] at h2
          exact absurd ((congrArg Prod.fst h2).symm.trans hk') hk
        · rw [if_neg hk'] at h2
          exact h2 ▸ h1
      · intro h
        exact ⟨key, v, h, by rw [if_neg hk]⟩
    · rw [hmem, ← htouch _ _ (by simp)]
      constructor
      · rintro ⟨v, h1, h2⟩
        cases v with
        | unset => simp [stripValue, hneg] at h2
        | tensor f c =>
          rw [hstrip] at h2
          split at h2 <;> cases h2
        | other r =>
          simp only [stripValue, if_neg hneg] at h2
          exact h2 ▸ h1
      · intro h
        exact ⟨_, h, by simp [stripValue, hneg]⟩
    · exact (hmem _).mpr ⟨_, (htouch _ _ (by simp)).mpr h1, by rw [hstrip, if_neg (by omega)]⟩
    · exact ⟨decimal c.length, readDecimal_decimal _,
        (hmem _).mpr ⟨_, (htouch _ _ (by simp)).mpr h1, by rw [hstrip, if_pos h2]; rfl⟩⟩
    · obtain ⟨v, h1, h2⟩ := (hmem _).mp h
      cases v with
      | unset => simp [stripValue, hneg] at h2
      | other r => simp [stripValue, hneg] at h2
      | tensor f' c =>
        rw [hstrip] at h2
        split at h2
        · rename_i hlt
          cases h2
          exact ⟨c, (htouch _ _ (by simp)).mp h1, Or.inr ⟨rfl, hlt⟩⟩
        · rename_i hlt
          cases h2
          exact ⟨_, (htouch _ _ (by simp)).mp h1, Or.inl ⟨rfl, by omega⟩⟩
  · have e : stripNode maxSize n = n := by simp [stripNode, hop]
    rw [e]
    exact ⟨rfl, rfl, rfl, fun _ => rfl, fun _ _ _ => Iff.rfl, fun _ => Iff.rfl, fun _ _ h => absurd h hop,
      fun _ _ h => absurd h hop, fun _ _ h => absurd h hop⟩

/-- **C105** Reading the value of a constant that has none adds the attribute `value` at the end, unset; apart from that the keys of the attributes and their order are kept. -/
theorem C105_missing_value (maxSize : ℕ) (nodes : List GraphNode) (i : ℕ) (n : GraphNode) (hn : nodes[i]? = some n)
    (hop : n.op = "Const") :
    ∃ n', (stripConsts maxSize nodes)[i]? = some n' ∧
      ("value" ∈ n.attr.map Prod.fst → n'.attr.map Prod.fst = n.attr.map Prod.fst) ∧
      ("value" ∉ n.attr.map Prod.fst → n'.attr = n.attr ++ [("value", .unset)]) := by
  refine ⟨stripNode maxSize n, by simp [stripConsts, hn], fun h => ?_, fun h => ?_⟩
  · simp only [stripNode, if_pos hop, touchAttr, if_pos h, List.map_map]
    refine List.map_congr_left fun kv _ => ?_
    by_cases hk : kv.1 = "value" <;> simp [hk]
  · simp only [stripNode, if_pos hop, touchAttr, if_neg h, List.map_append]
    congr 1
    · refine (List.map_congr_left fun kv hkv => ?_).trans (List.map_id _)
      have : kv.1 ≠ "value" := fun e => h (List.mem_map.mpr ⟨kv, hkv, e⟩)
      simp [this]

/-- **C105, partial.** No constant of the result has more than `max_const_size` bytes, if `max_const_size >= 32` (the default) and all contents have less than
`10 ^ 15` bytes. Missing: smaller limits, see `C105_small_refuted`. -/
theorem C105_bound_partial (maxSize : ℕ) (hmax : 32 ≤ maxSize) (nodes : List GraphNode)
    (hsize : ∀ n ∈ nodes, ∀ fields content, Spec.HasContent n fields content → content.length < 10 ^ 15) :
    ∀ n' ∈ stripConsts maxSize nodes, n'.op = "Const" → ∀ fields content, Spec.HasContent n' fields content →
      content.length ≤ maxSize := by
  intro n' hn' hop f c' hc'
  obtain ⟨i, hi⟩ := List.mem_iff_getElem?.mp hn'
  obtain ⟨hl, h⟩ := C105_strip maxSize nodes
  have hlt : i < nodes.length := by rw [← hl]; exact (List.getElem?_eq_some_iff.mp hi).1
  obtain ⟨n'', e1, -, e3, -, -, -, -, -, -, e9⟩ := h i nodes[i] (List.getElem?_eq_getElem hlt)
  rw [hi] at e1
  cases e1
  obtain ⟨c, h1, ⟨e, h2⟩ | ⟨e, h2⟩⟩ := e9 f c' (e3 ▸ hop) hc'
  · exact e ▸ h2
  · have := (strippedText_length 14 c.length (hsize _ (List.getElem_mem hlt) f c h1)).2
    rw [e]
    omega

/-- **C105, refuted.** With `max_const_size = 10`, the text for a constant of 11 bytes has 19 bytes: the result is larger than the input, and a second call
replaces the size in the text by a wrong one. -/
theorem C105_small_refuted : ∃ nodes : List GraphNode,
    ∃ n ∈ nodes, ∃ n' ∈ stripConsts 10 nodes, ∃ n'' ∈ stripConsts 10 (stripConsts 10 nodes), ∃ fields content,
      n.op = "Const" ∧ Spec.HasContent n fields content ∧ content.length = 11 ∧
      Spec.HasContent n' fields (ascii "<stripped 11 bytes>") ∧ (ascii "<stripped 11 bytes>").length = 19 ∧
      Spec.HasContent n'' fields (ascii "<stripped 19 bytes>") := by
  refine ⟨[⟨"c", "Const", [], [("value", .tensor "float" (List.replicate 11 0))]⟩], _, List.mem_singleton_self _, _,
    List.mem_singleton_self _, _, List.mem_singleton_self _, "float", _, rfl, List.mem_singleton_self _, by decide, ?_, by decide, ?_⟩
  · simp only [Spec.HasContent]; decide +kernel
  · simp only [Spec.HasContent]; decide +kernel

example : stripConsts 32 [⟨"a", "Placeholder", [], [("dtype", .other "float")]⟩,
    ⟨"c", "Const", [], [("dtype", .other "float"), ("value", .tensor "float" (List.replicate 40 7))]⟩,
    ⟨"s", "Add", ["a", "c"], [("value", .tensor "" (List.replicate 40 7))]⟩] =
    [⟨"a", "Placeholder", [], [("dtype", .other "float")]⟩,
    ⟨"c", "Const", [], [("dtype", .other "float"), ("value", .tensor "float" (ascii "<stripped 40 bytes>"))]⟩,
    ⟨"s", "Add", ["a", "c"], [("value", .tensor "" (List.replicate 40 7))]⟩] := by
  decide +kernel

end SafeLearning
