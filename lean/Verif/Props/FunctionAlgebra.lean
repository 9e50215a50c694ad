import Verif.Model.Functions
import Verif.Spec.Functions
import Verif.Lemmas.Sparse
import Mathlib.Tactic.Linarith
import Mathlib.Tactic.Ring
set_option autoImplicit false

/-!
# C49, C50, C51: arithmetic of functions, copying of parameters and saturation
-/

namespace SafeLearning

set_option linter.unusedSectionVars false

variable {K : Type} [Field K] [LinearOrder K] [IsStrictOrderedRing K]

open Spec (Arith comp)

/-- Run the operators of a Python expression, operands from left to right. -/
def runExpr {ι : Type} (leaf : ι → Leaf K) : Arith ι K → Except PyErr (PyObj K)
  | .fn i => .ok (.fn (.leaf (leaf i)))
  | .const c => .ok (.fn (.const (some c)))
  | .num c => .ok (.num c)
  | .add a b => do
    let x ← runExpr leaf a
    let y ← runExpr leaf b
    x.add y
  | .mul a b => do
    let x ← runExpr leaf a
    let y ← runExpr leaf b
    x.mul y
  | .neg a => do
    let x ← runExpr leaf a
    return x.neg
  | .sub a b => do
    let x ← runExpr leaf a
    let y ← runExpr leaf b
    x.sub y

/-! ## Broadcasting -/

/-- Broadcast of two rows of compatible lengths. -/
def bc (op : K → K → K) (a b : List K) : List K :=
  if a.length = b.length then List.zipWith op a b
  else if a.length = 1 then b.map (op (a.getD 0 0))
  else a.map fun x => op x (b.getD 0 0)

theorem bcastRow_ok {op : K → K → K} {a b : List K}
    (h : a.length = b.length ∨ a.length = 1 ∨ b.length = 1) :
    bcastRow op a b = .ok (bc op a b) := by
  unfold bcastRow bcast bc
  by_cases h1 : a.length = b.length
  · rw [if_pos h1, if_pos h1, mapM_ok (g := fun p : K × K => op p.1 p.2) (fun _ _ => rfl)]
    congr 1
    rw [List.zip, List.map_zipWith]
  · rw [if_neg h1, if_neg h1]
    by_cases h2 : a.length = 1
    · obtain ⟨x, rfl⟩ := List.length_eq_one_iff.mp h2
      rw [if_pos h2]
      simp only
      rw [mapM_ok (g := fun y => op x y) (fun _ _ => rfl)]
      rfl
    · rw [if_neg h2]
      have h3 : b.length = 1 := by tauto
      obtain ⟨y, rfl⟩ := List.length_eq_one_iff.mp h3
      match a, h1, h2 with
      | [], _, _ => rfl
      | [_], _, h2 => exact absurd rfl h2
      | x :: x' :: a, _, _ =>
        simp only
        rw [mapM_ok (g := fun x => op x y) (fun _ _ => rfl)]
        rfl

theorem bc_spec {op : K → K → K} {o w w' : ℕ} {a b : List K} (ha : a.length = w)
    (hb : b.length = w') (hw : w = 1 ∨ w = o) (hw' : w' = 1 ∨ w' = o) :
    (bc op a b).length = (if w = 1 then w' else w) ∧
      ∀ j < o, comp (bc op a b) j = op (comp a j) (comp b j) := by
  subst ha hb
  unfold bc
  by_cases h1 : a.length = b.length
  · rw [if_pos h1]
    refine ⟨by rw [List.length_zipWith]; split_ifs <;> omega, fun j hj => ?_⟩
    unfold Spec.comp
    rw [List.length_zipWith, ← h1, min_self]
    by_cases h2 : a.length = 1
    · rw [if_pos h2, if_pos h2, if_pos h2]
      obtain ⟨x, rfl⟩ := List.length_eq_one_iff.mp h2
      obtain ⟨y, rfl⟩ := List.length_eq_one_iff.mp (h1 ▸ h2)
      rfl
    · rw [if_neg h2, if_neg h2, if_neg h2]
      have hl : j < a.length := by omega
      simp [List.getD, hl, h1 ▸ hl]
  · rw [if_neg h1]
    by_cases h2 : a.length = 1
    · rw [if_pos h2]
      obtain ⟨x, rfl⟩ := List.length_eq_one_iff.mp h2
      refine ⟨by simp, fun j hj => ?_⟩
      have hb1 : b.length ≠ 1 := fun h => h1 (h2.trans h.symm)
      unfold Spec.comp
      rw [List.length_map, if_neg hb1, if_neg hb1, if_pos h2]
      have : j < b.length := by omega
      simp [List.getD, this]
    · rw [if_neg h2]
      have hb1 : b.length = 1 := by omega
      obtain ⟨y, rfl⟩ := List.length_eq_one_iff.mp hb1
      refine ⟨by simp [h2], fun j hj => ?_⟩
      unfold Spec.comp
      rw [List.length_map, if_neg h2, if_neg h2, if_pos hb1]
      have : j < a.length := by omega
      simp [List.getD, this]

theorem bcast_map {α β γ P : Type} {op : α → β → Except PyErr γ} {R : P → α} {S : P → β}
    {T : P → γ} {pts : List P} (h : ∀ x ∈ pts, op (R x) (S x) = .ok (T x)) :
    bcast op (pts.map R) (pts.map S) = .ok (pts.map T) := by
  unfold bcast
  rw [if_pos (by simp)]
  have : (pts.map R).zip (pts.map S) = pts.map fun x => (R x, S x) := by
    rw [List.zip_map']
  rw [this]
  have h2 : (pts.map fun x => (R x, S x)).mapM (fun p => op p.1 p.2) =
      pts.mapM fun x => op (R x) (S x) := by
    rw [List.mapM_map]
    rfl
  rw [h2, mapM_ok h]

/-! ## C49 -/

/-- What it means that an evaluated function is the pointwise function `val`: the constant, or one row for every point in order, all
of one width, which is one or the number of outputs. -/
def Represents (o : ℕ) (val : List K → ℕ → K) (pts : List (List K)) : FnValue K → Prop
  | .none => False
  | .scalar c => ∀ x j, val x j = c
  | .rows m => ∃ (R : List K → List K) (w : ℕ), m = pts.map R ∧ (w = 1 ∨ w = o) ∧
      ∀ x ∈ pts, (R x).length = w ∧ ∀ j < o, comp (R x) j = val x j

theorem binary_represents {o : ℕ} {f g : List K → ℕ → K} {pts : List (List K)} {u v : FnValue K}
    (op : K → K → K) (hu : Represents o f pts u) (hv : Represents o g pts v) :
    ∃ t, u.binary op v = .ok t ∧ Represents o (fun x j => op (f x j) (g x j)) pts t ∧
      ((∃ c, t = .scalar c) ↔ (∃ c, u = .scalar c) ∧ ∃ c, v = .scalar c) := by
  cases u with
  | none => exact absurd hu id
  | scalar a =>
    cases v with
    | none => exact absurd hv id
    | scalar b =>
      refine ⟨_, rfl, fun x j => ?_, by simp⟩
      dsimp only
      rw [hu x j, hv x j]
    | rows m =>
      obtain ⟨R, w, rfl, hw, hR⟩ := hv
      refine ⟨_, rfl, ⟨fun x => (R x).map fun y => op a y, w, by rw [List.map_map]; rfl, hw,
        fun x hx => ⟨by rw [List.length_map]; exact (hR x hx).1, fun j hj => ?_⟩⟩, by simp⟩
      have h1 := (hR x hx).2 j hj
      have hl := (hR x hx).1
      dsimp only
      rw [hu x j, ← h1]
      unfold Spec.comp
      rw [List.length_map]
      split_ifs with h
      · have : 0 < (R x).length := by omega
        simp [List.getD, this]
      · have : j < (R x).length := by omega
        simp [List.getD, this]
  | rows m =>
    obtain ⟨R, w, rfl, hw, hR⟩ := hu
    cases v with
    | none => exact absurd hv id
    | scalar b =>
      refine ⟨_, rfl, ⟨fun x => (R x).map fun y => op y b, w, by rw [List.map_map]; rfl, hw,
        fun x hx => ⟨by rw [List.length_map]; exact (hR x hx).1, fun j hj => ?_⟩⟩, by simp⟩
      have h1 := (hR x hx).2 j hj
      have hl := (hR x hx).1
      dsimp only
      rw [hv x j, ← h1]
      unfold Spec.comp
      rw [List.length_map]
      split_ifs with h
      · have : 0 < (R x).length := by omega
        simp [List.getD, this]
      · have : j < (R x).length := by omega
        simp [List.getD, this]
    | rows m' =>
      obtain ⟨S, w', rfl, hw', hS⟩ := hv
      have h : bcast (bcastRow op) (pts.map R) (pts.map S) =
          .ok (pts.map fun x => bc op (R x) (S x)) := by
        apply bcast_map
        intro x hx
        apply bcastRow_ok
        have h1 := (hR x hx).1
        have h2 := (hS x hx).1
        omega
      refine ⟨.rows (pts.map fun x => bc op (R x) (S x)), ?_, ⟨_, if w = 1 then w' else w, rfl, ?_,
        fun x hx => ?_⟩, by simp⟩
      · simp only [FnValue.binary, h]
        rfl
      · split_ifs <;> assumption
      · obtain ⟨h1, h2⟩ := bc_spec (op := op) (hR x hx).1 (hS x hx).1 hw hw'
        exact ⟨h1, fun j hj => by rw [h2 j hj, (hR x hx).2 j hj, (hS x hx).2 j hj]⟩

/-- What holds for every object that an expression gives. -/
theorem runExpr_sound {ι : Type} (leaf : ι → Leaf K) (st : VarStore K) (pts : List (List K)) (o : ℕ)
    (val : ι → List K → List K) (width : ι → ℕ) (hw : ∀ i, width i = 1 ∨ width i = o)
    (hlen : ∀ i x, (val i x).length = width i)
    (hleaf : ∀ i, (leaf i).eval ((leaf i).vars.map st) pts = .ok (pts.map (val i))) :
    ∀ (e : Arith ι K) (t : PyObj K), runExpr leaf e = .ok t →
      (match t with
      | .num c => e.isNumber ∧ ∀ x j, e.value (fun i x j => comp (val i x) j) x j = c
      | .fn _ => ¬ e.isNumber) ∧
      (∃ v, t.toFn.evaluate st pts = .ok v ∧
        Represents o (e.value fun i x j => comp (val i x) j) pts v ∧
        ((∃ c, v = .scalar c) ↔ e.functions = [])) ∧
      t.toFn.parameters = e.functions.flatMap fun i => (leaf i).vars := by
  intro e
  induction e with
  | fn i =>
    intro t ht
    simp only [runExpr, Except.ok.injEq] at ht
    subst ht
    refine ⟨id, ⟨.rows (pts.map (val i)), ?_, ⟨val i, width i, rfl, hw i, fun x _ => ⟨hlen i x,
      fun j _ => rfl⟩⟩, by simp [Arith.functions]⟩, by simp [PyObj.toFn, Fn.parameters, Arith.functions]⟩
    simp only [PyObj.toFn, Fn.evaluate, hleaf i]
    rfl
  | const c =>
    intro t ht
    simp only [runExpr, Except.ok.injEq] at ht
    subst ht
    exact ⟨id, ⟨.scalar c, rfl, fun _ _ => rfl, by simp [Arith.functions]⟩, rfl⟩
  | num c =>
    intro t ht
    simp only [runExpr, Except.ok.injEq] at ht
    subst ht
    exact ⟨⟨trivial, fun _ _ => rfl⟩, ⟨.scalar c, rfl, fun _ _ => rfl, by simp [Arith.functions]⟩, rfl⟩
  | add a b iha ihb =>
    intro t ht
    simp only [runExpr, bind, Except.bind] at ht
    cases hx : runExpr leaf a with
    | error e => simp [hx] at ht
    | ok x =>
      cases hy : runExpr leaf b with
      | error e => simp [hx, hy] at ht
      | ok y =>
        simp only [hx, hy] at ht
        obtain ⟨ha1, ⟨u, hu1, hu2, hu3⟩, ha3⟩ := iha x hx
        obtain ⟨hb1, ⟨v, hv1, hv2, hv3⟩, hb3⟩ := ihb y hy
        obtain ⟨s, hs1, hs2, hs3⟩ := binary_represents (· + ·) hu2 hv2
        cases x with
        | num c =>
          cases y with
          | num c' =>
            simp only [PyObj.add, Except.ok.injEq] at ht
            subst ht
            have hval : ∀ x j, (Arith.add a b).value (fun i x j => comp (val i x) j) x j = c + c' :=
              fun x j => by rw [Arith.value, ha1.2 x j, hb1.2 x j]
            refine ⟨⟨⟨ha1.1, hb1.1⟩, hval⟩, ⟨.scalar (c + c'), rfl, hval, ?_⟩, ?_⟩
            · simp only [PyObj.toFn, Fn.evaluate, Except.ok.injEq] at hu1 hv1
              subst hu1 hv1
              simp only [FnValue.scalar.injEq, exists_eq', true_iff] at hu3 hv3
              simp [Arith.functions, hu3, hv3]
            · simp only [PyObj.toFn, Fn.parameters] at ha3 hb3 ⊢
              rw [Arith.functions, List.flatMap_append, ← ha3, ← hb3]
              rfl
          | fn g => simp [PyObj.add] at ht
        | fn f =>
          simp only [PyObj.add, Except.ok.injEq] at ht
          subst ht
          refine ⟨fun h => ha1 h.1, ⟨s, ?_, hs2, ?_⟩, ?_⟩
          · simp only [PyObj.toFn, Fn.evaluate] at hu1 hv1 ⊢
            rw [hu1, hv1]
            exact hs1
          · rw [hs3, hu3, hv3, Arith.functions, List.append_eq_nil_iff]
          · simp only [PyObj.toFn, Fn.parameters] at ha3 hb3 ⊢
            rw [Arith.functions, List.flatMap_append, ← ha3, ← hb3]
  | mul a b iha ihb =>
    intro t ht
    simp only [runExpr, bind, Except.bind] at ht
    cases hx : runExpr leaf a with
    | error e => simp [hx] at ht
    | ok x =>
      cases hy : runExpr leaf b with
      | error e => simp [hx, hy] at ht
      | ok y =>
        simp only [hx, hy] at ht
        obtain ⟨ha1, ⟨u, hu1, hu2, hu3⟩, ha3⟩ := iha x hx
        obtain ⟨hb1, ⟨v, hv1, hv2, hv3⟩, hb3⟩ := ihb y hy
        obtain ⟨s, hs1, hs2, hs3⟩ := binary_represents (· * ·) hu2 hv2
        cases x with
        | num c =>
          cases y with
          | num c' =>
            simp only [PyObj.mul, Except.ok.injEq] at ht
            subst ht
            have hval : ∀ x j, (Arith.mul a b).value (fun i x j => comp (val i x) j) x j = c * c' :=
              fun x j => by rw [Arith.value, ha1.2 x j, hb1.2 x j]
            refine ⟨⟨⟨ha1.1, hb1.1⟩, hval⟩, ⟨.scalar (c * c'), rfl, hval, ?_⟩, ?_⟩
            · simp only [PyObj.toFn, Fn.evaluate, Except.ok.injEq] at hu1 hv1
              subst hu1 hv1
              simp only [FnValue.scalar.injEq, exists_eq', true_iff] at hu3 hv3
              simp [Arith.functions, hu3, hv3]
            · simp only [PyObj.toFn, Fn.parameters] at ha3 hb3 ⊢
              rw [Arith.functions, List.flatMap_append, ← ha3, ← hb3]
              rfl
          | fn g => simp [PyObj.mul] at ht
        | fn f =>
          simp only [PyObj.mul, Except.ok.injEq] at ht
          subst ht
          refine ⟨fun h => ha1 h.1, ⟨s, ?_, hs2, ?_⟩, ?_⟩
          · simp only [PyObj.toFn, Fn.evaluate] at hu1 hv1 ⊢
            rw [hu1, hv1]
            exact hs1
          · rw [hs3, hu3, hv3, Arith.functions, List.append_eq_nil_iff]
          · simp only [PyObj.toFn, Fn.parameters] at ha3 hb3 ⊢
            rw [Arith.functions, List.flatMap_append, ← ha3, ← hb3]
  | neg a iha =>
    intro t ht
    simp only [runExpr, bind, Except.bind] at ht
    cases hx : runExpr leaf a with
    | error e => simp [hx] at ht
    | ok x =>
      simp only [hx, pure, Except.pure, Except.ok.injEq] at ht
      subst ht
      obtain ⟨ha1, ⟨u, hu1, hu2, hu3⟩, ha3⟩ := iha x hx
      cases x with
      | num c =>
        have hval : ∀ x j, (Arith.neg a).value (fun i x j => comp (val i x) j) x j = -c :=
          fun x j => by rw [Arith.value, ha1.2 x j]
        refine ⟨⟨ha1.1, hval⟩, ⟨.scalar (-c), rfl, hval, ?_⟩, ha3⟩
        simp only [PyObj.toFn, Fn.evaluate, Except.ok.injEq] at hu1
        subst hu1
        simpa [Arith.functions] using hu3
      | fn f =>
        have h1 : Represents o (fun _ _ => (-1 : K)) pts (.scalar (-1)) := fun _ _ => rfl
        obtain ⟨s, hs1, hs2, hs3⟩ := binary_represents (· * ·) hu2 h1
        refine ⟨ha1, ⟨s, ?_, ?_, ?_⟩, ?_⟩
        · simp only [PyObj.toFn, PyObj.neg, Fn.evaluate] at hu1 ⊢
          rw [hu1]
          exact hs1
        · have : (Arith.neg a).value (fun i x j => comp (val i x) j) =
              fun x j => a.value (fun i x j => comp (val i x) j) x j * -1 := by
            funext x j
            rw [Arith.value]
            ring
          rw [this]
          exact hs2
        · rw [hs3, hu3, Arith.functions]
          simp
        · simp only [PyObj.toFn, PyObj.neg, Fn.parameters] at ha3 ⊢
          rw [List.append_nil]
          exact ha3
  | sub a b iha ihb =>
    intro t ht
    simp only [runExpr, bind, Except.bind] at ht
    cases hx : runExpr leaf a with
    | error e => simp [hx] at ht
    | ok x =>
      cases hy : runExpr leaf b with
      | error e => simp [hx, hy] at ht
      | ok y =>
        simp only [hx, hy] at ht
        obtain ⟨ha1, ⟨u, hu1, hu2, hu3⟩, ha3⟩ := iha x hx
        obtain ⟨hb1, ⟨v, hv1, hv2, hv3⟩, hb3⟩ := ihb y hy
        cases x with
        | num c =>
          cases y with
          | num c' =>
            simp only [PyObj.sub, Except.ok.injEq] at ht
            subst ht
            have hval : ∀ x j, (Arith.sub a b).value (fun i x j => comp (val i x) j) x j = c - c' :=
              fun x j => by rw [Arith.value, ha1.2 x j, hb1.2 x j]
            refine ⟨⟨⟨ha1.1, hb1.1⟩, hval⟩, ⟨.scalar (c - c'), rfl, hval, ?_⟩, ?_⟩
            · simp only [PyObj.toFn, Fn.evaluate, Except.ok.injEq] at hu1 hv1
              subst hu1 hv1
              simp only [FnValue.scalar.injEq, exists_eq', true_iff] at hu3 hv3
              simp [Arith.functions, hu3, hv3]
            · simp only [PyObj.toFn, Fn.parameters] at ha3 hb3 ⊢
              rw [Arith.functions, List.flatMap_append, ← ha3, ← hb3]
              rfl
          | fn g => simp [PyObj.sub] at ht
        | fn f => simp [PyObj.sub] at ht

/-- Whether an expression of numbers only gives a number. -/
theorem runExpr_kind {ι : Type} (leaf : ι → Leaf K) : ∀ (e : Arith ι K),
    (e.supported → ∃ t, runExpr leaf e = .ok t ∧ ((∃ c, t = .num c) ↔ e.isNumber)) ∧
    (¬ e.supported → runExpr leaf e = .error .typeError) := by
  intro e
  induction e with
  | fn i => exact ⟨fun _ => ⟨_, rfl, by simp [Arith.isNumber]⟩, fun h => absurd trivial h⟩
  | const c => exact ⟨fun _ => ⟨_, rfl, by simp [Arith.isNumber]⟩, fun h => absurd trivial h⟩
  | num c => exact ⟨fun _ => ⟨_, rfl, by simp [Arith.isNumber]⟩, fun h => absurd trivial h⟩
  | neg a iha =>
    refine ⟨fun h => ?_, fun h => ?_⟩
    · obtain ⟨t, h1, h2⟩ := iha.1 h
      refine ⟨t.neg, by simp [runExpr, h1, bind, Except.bind, pure, Except.pure], ?_⟩
      rw [Arith.isNumber, ← h2]
      cases t <;> simp [PyObj.neg]
    · simp [runExpr, iha.2 h, bind, Except.bind]
  | add a b iha ihb =>
    by_cases ha : a.supported
    · obtain ⟨t, h1, h2⟩ := iha.1 ha
      by_cases hb : b.supported
      · obtain ⟨u, h3, h4⟩ := ihb.1 hb
        cases t with
        | num c =>
          have hna : a.isNumber := h2.mp ⟨c, rfl⟩
          cases u with
          | num c' =>
            have hnb : b.isNumber := h4.mp ⟨c', rfl⟩
            exact ⟨fun _ => ⟨.num (c + c'), by simp [runExpr, h1, h3, bind, Except.bind, PyObj.add],
              by simp [Arith.isNumber, hna, hnb]⟩, fun h => absurd ⟨ha, hb, fun _ => hnb⟩ h⟩
          | fn g =>
            have hnb : ¬ b.isNumber := fun h => by obtain ⟨c, hc⟩ := h4.mpr h; simp at hc
            exact ⟨fun h => absurd (h.2.2 hna) hnb, fun _ => by
              simp [runExpr, h1, h3, bind, Except.bind, PyObj.add]⟩
        | fn f =>
          have hna : ¬ a.isNumber := fun h => by obtain ⟨c, hc⟩ := h2.mpr h; simp at hc
          exact ⟨fun _ => ⟨_, by simp only [runExpr, h1, h3, bind, Except.bind, PyObj.add]; rfl,
            by simp [Arith.isNumber, hna]⟩, fun h => absurd ⟨ha, hb, fun h => absurd h hna⟩ h⟩
      · exact ⟨fun h => absurd h.2.1 hb, fun _ => by simp [runExpr, h1, ihb.2 hb, bind, Except.bind]⟩
    · exact ⟨fun h => absurd h.1 ha, fun _ => by simp [runExpr, iha.2 ha, bind, Except.bind]⟩
  | mul a b iha ihb =>
    by_cases ha : a.supported
    · obtain ⟨t, h1, h2⟩ := iha.1 ha
      by_cases hb : b.supported
      · obtain ⟨u, h3, h4⟩ := ihb.1 hb
        cases t with
        | num c =>
          have hna : a.isNumber := h2.mp ⟨c, rfl⟩
          cases u with
          | num c' =>
            have hnb : b.isNumber := h4.mp ⟨c', rfl⟩
            exact ⟨fun _ => ⟨.num (c * c'), by simp [runExpr, h1, h3, bind, Except.bind, PyObj.mul],
              by simp [Arith.isNumber, hna, hnb]⟩, fun h => absurd ⟨ha, hb, fun _ => hnb⟩ h⟩
          | fn g =>
            have hnb : ¬ b.isNumber := fun h => by obtain ⟨c, hc⟩ := h4.mpr h; simp at hc
            exact ⟨fun h => absurd (h.2.2 hna) hnb, fun _ => by
              simp [runExpr, h1, h3, bind, Except.bind, PyObj.mul]⟩
        | fn f =>
          have hna : ¬ a.isNumber := fun h => by obtain ⟨c, hc⟩ := h2.mpr h; simp at hc
          exact ⟨fun _ => ⟨_, by simp only [runExpr, h1, h3, bind, Except.bind, PyObj.mul]; rfl,
            by simp [Arith.isNumber, hna]⟩, fun h => absurd ⟨ha, hb, fun h => absurd h hna⟩ h⟩
      · exact ⟨fun h => absurd h.2.1 hb, fun _ => by simp [runExpr, h1, ihb.2 hb, bind, Except.bind]⟩
    · exact ⟨fun h => absurd h.1 ha, fun _ => by simp [runExpr, iha.2 ha, bind, Except.bind]⟩
  | sub a b iha ihb =>
    by_cases ha : a.supported
    · obtain ⟨t, h1, h2⟩ := iha.1 ha
      by_cases hb : b.supported
      · obtain ⟨u, h3, h4⟩ := ihb.1 hb
        cases t with
        | num c =>
          have hna : a.isNumber := h2.mp ⟨c, rfl⟩
          cases u with
          | num c' =>
            have hnb : b.isNumber := h4.mp ⟨c', rfl⟩
            exact ⟨fun _ => ⟨.num (c - c'), by simp [runExpr, h1, h3, bind, Except.bind, PyObj.sub],
              by simp [Arith.isNumber, hna, hnb]⟩, fun h => absurd ⟨ha, hb, hna, hnb⟩ h⟩
          | fn g =>
            have hnb : ¬ b.isNumber := fun h => by obtain ⟨c, hc⟩ := h4.mpr h; simp at hc
            exact ⟨fun h => absurd h.2.2.2 hnb, fun _ => by
              simp [runExpr, h1, h3, bind, Except.bind, PyObj.sub]⟩
        | fn f =>
          have hna : ¬ a.isNumber := fun h => by obtain ⟨c, hc⟩ := h2.mpr h; simp at hc
          exact ⟨fun h => absurd h.2.2.1 hna, fun _ => by
              simp [runExpr, h1, h3, bind, Except.bind, PyObj.sub]⟩
      · exact ⟨fun h => absurd h.2.1 hb, fun _ => by simp [runExpr, h1, ihb.2 hb, bind, Except.bind]⟩
    · exact ⟨fun h => absurd h.1 ha, fun _ => by simp [runExpr, iha.2 ha, bind, Except.bind]⟩

/-- **C49 (values).** For every expression over functions and numbers, however nested, that Python accepts and that gives a
function, evaluating this function on a batch gives the pointwise value of the expression at every point and in every output: one row for
each point in order. (An expression of `ConstantFunction`s only gives the bare number.) The operands are functions that give
one row per point, with one output or with `o` outputs. -/
theorem C49_pointwise {ι : Type} (leaf : ι → Leaf K) (st : VarStore K) (pts : List (List K)) (o : ℕ)
    (val : ι → List K → List K) (width : ι → ℕ) (hw : ∀ i, width i = 1 ∨ width i = o)
    (hlen : ∀ i x, (val i x).length = width i)
    (hleaf : ∀ i, (leaf i).eval ((leaf i).vars.map st) pts = .ok (pts.map (val i)))
    (e : Arith ι K) (F : Fn K) (hF : runExpr leaf e = .ok (.fn F)) :
    (e.functions ≠ [] → ∃ (R : List K → List K) (w : ℕ), F.evaluate st pts = .ok (.rows (pts.map R)) ∧
      (w = 1 ∨ w = o) ∧ ∀ x ∈ pts, (R x).length = w ∧
        ∀ j < o, comp (R x) j = e.value (fun i x j => comp (val i x) j) x j) ∧
    (e.functions = [] → ∃ c, F.evaluate st pts = .ok (.scalar c) ∧
        ∀ x j, e.value (fun i x j => comp (val i x) j) x j = c) := by
  obtain ⟨-, ⟨v, h1, h2, h3⟩, -⟩ := runExpr_sound leaf st pts o val width hw hlen hleaf e _ hF
  simp only [PyObj.toFn] at h1
  refine ⟨fun h => ?_, fun h => ?_⟩
  · cases v with
    | none => exact absurd h2 id
    | scalar c => exact absurd (h3.mp ⟨c, rfl⟩) h
    | rows m =>
      obtain ⟨R, w, rfl, hw', hR⟩ := h2
      exact ⟨R, w, h1, hw', hR⟩
  · obtain ⟨c, rfl⟩ := h3.mpr h
    exact ⟨c, h1, h2⟩

/-- **C49 (parameters).** The parameters of the function are those of all its operands from left to
right. -/
theorem C49_parameters {ι : Type} (leaf : ι → Leaf K) (e : Arith ι K) (F : Fn K)
    (hF : runExpr leaf e = .ok (.fn F)) :
    F.parameters = e.functions.flatMap fun i => (leaf i).vars := by
  have h : ∀ (e : Arith ι K) (t : PyObj K), runExpr leaf e = .ok t →
      t.toFn.parameters = e.functions.flatMap fun i => (leaf i).vars := by
    intro e t ht
    let leaf' : ι → Leaf K := fun i => { leaf i with eval := fun _ pts => .ok (pts.map fun _ => [0]) }
    have key : ∀ e : Arith ι K, ∀ t, runExpr leaf e = .ok t → ∃ t', runExpr leaf' e = .ok t' ∧
        t'.toFn.parameters = t.toFn.parameters ∧ ((∃ c, t = .num c) ↔ ∃ c, t' = .num c) := by
      intro e
      induction e with
      | fn i =>
        intro t ht
        simp only [runExpr, Except.ok.injEq] at ht
        subst ht
        exact ⟨_, rfl, rfl, by simp⟩
      | const c =>
        intro t ht
        simp only [runExpr, Except.ok.injEq] at ht
        subst ht
        exact ⟨_, rfl, rfl, by simp⟩
      | num c =>
        intro t ht
        simp only [runExpr, Except.ok.injEq] at ht
        subst ht
        exact ⟨_, rfl, rfl, by simp⟩
      | neg a iha =>
        intro t ht
        simp only [runExpr, bind, Except.bind] at ht
        cases hx : runExpr leaf a with
        | error e => simp [hx] at ht
        | ok x =>
          simp only [hx, pure, Except.pure, Except.ok.injEq] at ht
          subst ht
          obtain ⟨t', h1, h2, h3⟩ := iha x hx
          refine ⟨t'.neg, by simp [runExpr, h1, bind, Except.bind, pure, Except.pure], ?_, ?_⟩
          · cases x <;> cases t' <;> simp_all [PyObj.toFn, PyObj.neg, Fn.parameters]
          · cases x <;> cases t' <;> simp_all [PyObj.neg]
      | add a b iha ihb =>
        intro t ht
        simp only [runExpr, bind, Except.bind] at ht
        cases hx : runExpr leaf a with
        | error e => simp [hx] at ht
        | ok x =>
          cases hy : runExpr leaf b with
          | error e => simp [hx, hy] at ht
          | ok y =>
            simp only [hx, hy] at ht
            obtain ⟨x', h1, h2, h3⟩ := iha x hx
            obtain ⟨y', h4, h5, h6⟩ := ihb y hy
            simp only [runExpr, h1, h4, bind, Except.bind]
            cases x <;> cases x' <;> cases y <;> cases y' <;>
              simp_all [PyObj.toFn, PyObj.add, Fn.parameters]
            all_goals subst ht; simp_all [Fn.parameters]
      | mul a b iha ihb =>
        intro t ht
        simp only [runExpr, bind, Except.bind] at ht
        cases hx : runExpr leaf a with
        | error e => simp [hx] at ht
        | ok x =>
          cases hy : runExpr leaf b with
          | error e => simp [hx, hy] at ht
          | ok y =>
            simp only [hx, hy] at ht
            obtain ⟨x', h1, h2, h3⟩ := iha x hx
            obtain ⟨y', h4, h5, h6⟩ := ihb y hy
            simp only [runExpr, h1, h4, bind, Except.bind]
            cases x <;> cases x' <;> cases y <;> cases y' <;>
              simp_all [PyObj.toFn, PyObj.mul, Fn.parameters]
            all_goals subst ht; simp_all [Fn.parameters]
      | sub a b iha ihb =>
        intro t ht
        simp only [runExpr, bind, Except.bind] at ht
        cases hx : runExpr leaf a with
        | error e => simp [hx] at ht
        | ok x =>
          cases hy : runExpr leaf b with
          | error e => simp [hx, hy] at ht
          | ok y =>
            simp only [hx, hy] at ht
            obtain ⟨x', h1, h2, h3⟩ := iha x hx
            obtain ⟨y', h4, h5, h6⟩ := ihb y hy
            simp only [runExpr, h1, h4, bind, Except.bind]
            cases x <;> cases x' <;> cases y <;> cases y' <;>
              simp_all [PyObj.toFn, PyObj.sub, Fn.parameters]
            all_goals subst ht; simp_all [Fn.parameters]
    obtain ⟨t', h1, h2, -⟩ := key e t ht
    have := (runExpr_sound leaf' (fun _ => ⟨[], []⟩) [] 1 (fun _ _ => [0]) (fun _ => 1)
      (fun _ => .inl rfl) (fun _ _ => rfl) (fun _ => rfl) e t' h1).2.2
    rw [← h2, this]
  exact h e _ hF

/-- **C49 (accepted expressions).** Python raises a `TypeError` exactly for the expressions with a number on the left
of a function or with a difference of which one side is a function; all the others give a function, or a number if only
numbers occur. -/
theorem C49_supported {ι : Type} (leaf : ι → Leaf K) (e : Arith ι K) :
    (e.supported → e.isNumber → ∃ c, runExpr leaf e = .ok (.num c)) ∧
    (e.supported → ¬ e.isNumber → ∃ F, runExpr leaf e = .ok (.fn F)) ∧
    (¬ e.supported → runExpr leaf e = .error .typeError) := by
  obtain ⟨h1, h2⟩ := runExpr_kind leaf e
  refine ⟨fun h hn => ?_, fun h hn => ?_, h2⟩
  · obtain ⟨t, ht, h3⟩ := h1 h
    obtain ⟨c, rfl⟩ := h3.mpr hn
    exact ⟨c, ht⟩
  · obtain ⟨t, ht, h3⟩ := h1 h
    cases t with
    | num c => exact absurd (h3.mp ⟨c, rfl⟩) hn
    | fn F => exact ⟨F, ht⟩

/-- **C49 (constants without a value).** `ConstantFunction(None)`, as in the sum that `copy_parameters` of a sum returns, cannot be added to or multiplied with anything, on either side: `TypeError` if the other operand is a number or has no value, `ValueError` if it is a
tensor. -/
theorem C49_none (st : VarStore K) (pts : List (List K)) (f : Fn K) (v : FnValue K) (hf : f.evaluate st pts = .ok v) (F : Fn K)
    (hF : F ∈ [.added f (.const none), .added (.const none) f, .multiplied f (.const none), .multiplied (.const none) f]) :
    ((∃ m, v = .rows m) → F.evaluate st pts = .error .valueError) ∧ ((∀ m, v ≠ .rows m) → F.evaluate st pts = .error .typeError) := by
  simp only [List.mem_cons, List.not_mem_nil, or_false] at hF
  rcases hF with rfl | rfl | rfl | rfl <;>
    refine ⟨fun ⟨m, hm⟩ => ?_, fun hm => ?_⟩ <;>
    cases v <;> simp_all [Fn.evaluate, FnValue.binary, bind, Except.bind]

example := C49_none (fun _ => ⟨[], []⟩) [[1, 2]] (.const (some (3 : ℚ))) (.scalar 3) rfl (.added (.const (some 3)) (.const none)) (by simp)

/-- **C49 (widths).** Sums and products of functions whose outputs have different numbers of columns, neither of them one, raise `ValueError`. -/
theorem C49_widths (st : VarStore K) (pts : List (List K)) (hp : pts ≠ []) (f g : Fn K) (v w : List K → List K) (n m : ℕ)
    (hf : f.evaluate st pts = .ok (.rows (pts.map v))) (hg : g.evaluate st pts = .ok (.rows (pts.map w)))
    (hv : ∀ x, (v x).length = n) (hw : ∀ x, (w x).length = m) (hnm : n ≠ m) (hn : n ≠ 1) (hm : m ≠ 1) :
    (Fn.added f g).evaluate st pts = .error .valueError ∧ (Fn.multiplied f g).evaluate st pts = .error .valueError := by
  have row : ∀ (op : K → K → K) x y, bcastRow op (v x) (w y) = .error .valueError := by
    intro op x y
    have h1 := hv x
    have h2 := hw y
    unfold bcastRow bcast
    rw [if_neg (by rw [h1, h2]; exact hnm)]
    rcases hvx : v x with _ | ⟨a, _ | ⟨b, l⟩⟩ <;> rcases hwy : w y with _ | ⟨a', _ | ⟨b', l'⟩⟩ <;>
      simp_all <;> omega
  obtain ⟨x, rest, rfl⟩ : ∃ x rest, pts = x :: rest := by
    cases pts with
    | nil => exact absurd rfl hp
    | cons x rest => exact ⟨x, rest, rfl⟩
  have whole : ∀ op : K → K → K, FnValue.binary op (.rows ((x :: rest).map v)) (.rows ((x :: rest).map w)) = .error .valueError := by
    intro op
    have e : bcast (bcastRow op) ((x :: rest).map v) ((x :: rest).map w) = .error .valueError := by
      unfold bcast
      rw [if_pos (by simp)]
      simp only [List.map_cons, List.zip_cons_cons, List.mapM_cons, row]
      rfl
    simp only [FnValue.binary, e]
    rfl
  constructor
  · simp only [Fn.evaluate, hf, hg, bind, Except.bind]
    exact whole _
  · simp only [Fn.evaluate, hf, hg, bind, Except.bind]
    exact whole _

example := C49_widths (K := ℚ) (fun _ => ⟨[], []⟩) [[1, 2]] (by simp) (.leaf ⟨[], fun _ pts => .ok (pts.map fun _ => [1, 2]), true⟩)
  (.leaf ⟨[], fun _ pts => .ok (pts.map fun _ => [1, 2, 3]), true⟩) (fun _ => [1, 2]) (fun _ => [1, 2, 3]) 2 3 rfl rfl (fun _ => rfl) (fun _ => rfl)
  (by norm_num) (by norm_num) (by norm_num)

/-- The functions of the examples: two functions of one variable `θ` and a two-dimensional point, `f(x) = [θ x₀, x₁]` and
`g(x) = [x₀ + θ]`. -/
def exampleLeaf : Bool → Leaf ℚ
  | false => { vars := [0], hasDims := true,
               eval := fun θ pts => .ok (pts.map fun x =>
                 [((θ.getD 0 ⟨[], []⟩).data.getD 0 0) * x.getD 0 0, x.getD 1 0]) }
  | true => { vars := [1], hasDims := true,
              eval := fun θ pts => .ok (pts.map fun x =>
                [x.getD 0 0 + (θ.getD 0 ⟨[], []⟩).data.getD 0 0]) }

/-- The store of the examples. -/
def exampleStore : VarStore ℚ := fun v => ⟨[], [(v : ℚ) + 2]⟩

/-- `-(f + 3) * g` over the example functions. -/
def exampleExpr : Arith Bool ℚ := .mul (.neg (.add (.fn false) (.num 3))) (.fn true)

/-- The hypotheses of `C49_pointwise` hold for the example, which uses broadcasting of `g`. -/
example : ∃ F, runExpr exampleLeaf exampleExpr = .ok (.fn F) ∧
    F.parameters = [0, 1] ∧
    F.evaluate exampleStore [[1, 2], [5, 7]] = .ok (.rows [[-20, -20], [-104, -80]]) ∧
    exampleExpr.supported ∧ exampleExpr.functions ≠ [] ∧
    (∀ i, ∃ w, (w = 1 ∨ w = 2) ∧ ∃ val : List ℚ → List ℚ, (∀ x, (val x).length = w) ∧
      ∀ pts, (exampleLeaf i).eval ((exampleLeaf i).vars.map exampleStore) pts =
        .ok (pts.map val)) := by
  refine ⟨_, rfl, rfl, by decide +kernel, by simp [exampleExpr, Arith.supported, Arith.isNumber],
    by simp [exampleExpr, Arith.functions], ?_⟩
  intro i
  cases i with
  | false => exact ⟨2, .inr rfl, _, fun _ => rfl, fun _ => rfl⟩
  | true => exact ⟨1, .inl rfl, _, fun _ => rfl, fun _ => rfl⟩

/-! ## C50 -/

/-- Two function objects are built in the same way from the same classes: the corresponding functions evaluate in the same way from
their variables, of which they have the same number. -/
def _root_.Spec.SameStructure : Fn K → Fn K → Prop
  | .leaf l, .leaf l' => l.eval = l'.eval ∧ l.vars.length = l'.vars.length
  | .const c, .const c' => c = c'
  | .added f g, .added f' g' => Spec.SameStructure f f' ∧ Spec.SameStructure g g'
  | .multiplied f g, .multiplied f' g' => Spec.SameStructure f f' ∧ Spec.SameStructure g g'
  | .saturation f l u, .saturation f' l' u' => Spec.SameStructure f f' ∧ l = l' ∧ u = u'
  | _, _ => False

/-- The full property C50 for two objects and a store: `copy_parameters` returns, the variables of `f` then have the values of the
corresponding variables of `g`, no other variable changes, and both functions have the same values on every batch. -/
def _root_.Spec.CopiesParameters (f g : Fn K) (st : VarStore K) : Prop :=
  ∃ (st' : VarStore K) (r : Option (Fn K)), f.copyParameters g st = (st', .ok r) ∧
    f.parameters.map st' = g.parameters.map st ∧ (∀ v, v ∉ f.parameters → st' v = st v) ∧
    ∀ pts, f.evaluate st' pts = g.evaluate st' pts

/-- No sum and no saturation occurs in the function. -/
def _root_.Spec.OnlyProducts : Fn K → Prop
  | .leaf _ => True
  | .const _ => True
  | .added _ _ => False
  | .multiplied f g => Spec.OnlyProducts f ∧ Spec.OnlyProducts g
  | .saturation _ _ _ => False

theorem sameStructure_length : ∀ {f g : Fn K}, Spec.SameStructure f g →
    f.parameters.length = g.parameters.length := by
  intro f
  induction f with
  | leaf l =>
    intro g h
    cases g <;> first | exact h.2 | exact absurd h id
  | const c =>
    intro g h
    cases g <;> first | rfl | exact absurd h id
  | added f1 f2 ih1 ih2 =>
    intro g h
    cases g with
    | added g1 g2 => simp [Fn.parameters, ih1 h.1, ih2 h.2]
    | _ => exact absurd h id
  | multiplied f1 f2 ih1 ih2 =>
    intro g h
    cases g with
    | multiplied g1 g2 => simp [Fn.parameters, ih1 h.1, ih2 h.2]
    | _ => exact absurd h id
  | saturation f l u ih =>
    intro g h
    cases g with
    | saturation g' l' u' => exact ih (g := g') h.1
    | _ => exact absurd h id

theorem sameStructure_evaluate {st st' : VarStore K} : ∀ {f g : Fn K}, Spec.SameStructure f g →
    f.parameters.map st = g.parameters.map st' → ∀ pts, f.evaluate st pts = g.evaluate st' pts := by
  intro f
  induction f with
  | leaf l =>
    intro g h hp pts
    cases g with
    | leaf l' =>
      have hp' : l.vars.map st = l'.vars.map st' := hp
      simp only [Fn.evaluate, hp', h.1]
    | _ => exact absurd h id
  | const c =>
    intro g h hp pts
    cases g with
    | const c' =>
      have : c = c' := h
      subst this
      cases c <;> rfl
    | _ => exact absurd h id
  | added f1 f2 ih1 ih2 =>
    intro g h hp pts
    cases g with
    | added g1 g2 =>
      simp only [Fn.parameters, List.map_append] at hp
      obtain ⟨h1, h2⟩ := List.append_inj hp (by simp [sameStructure_length h.1])
      simp only [Fn.evaluate, ih1 h.1 h1 pts, ih2 h.2 h2 pts]
    | _ => exact absurd h id
  | multiplied f1 f2 ih1 ih2 =>
    intro g h hp pts
    cases g with
    | multiplied g1 g2 =>
      simp only [Fn.parameters, List.map_append] at hp
      obtain ⟨h1, h2⟩ := List.append_inj hp (by simp [sameStructure_length h.1])
      simp only [Fn.evaluate, ih1 h.1 h1 pts, ih2 h.2 h2 pts]
    | _ => exact absurd h id
  | saturation f l u ih =>
    intro g h hp pts
    cases g with
    | saturation g' l' u' =>
      obtain ⟨h1, rfl, rfl⟩ := h
      simp only [Fn.evaluate, ih h1 hp pts]
    | _ => exact absurd h id

theorem foldl_update (st : VarStore K) : ∀ (ts ss : List ℕ) (s0 : VarStore K), ts.Nodup →
    ts.length = ss.length →
    let s' := (ts.zip ss).foldl (fun s p => Function.update s p.1 (st p.2)) s0
    ts.map s' = ss.map st ∧ ∀ v, v ∉ ts → s' v = s0 v
  | [], [], s0, _, _ => by simp
  | [], _ :: _, _, _, h => by simp at h
  | _ :: _, [], _, _, h => by simp at h
  | t :: ts, a :: ss, s0, hn, hl => by
    rw [List.nodup_cons] at hn
    obtain ⟨h1, h2⟩ := foldl_update st ts ss (Function.update s0 t (st a)) hn.2 (by simpa using hl)
    dsimp only at h1 h2 ⊢
    rw [List.zip_cons_cons, List.foldl_cons]
    refine ⟨?_, fun v hv => ?_⟩
    · rw [List.map_cons, List.map_cons, h1, h2 t hn.1]
      simp
    · rw [List.mem_cons, not_or] at hv
      rw [h2 v hv.2, Function.update_of_ne hv.1]

theorem assignParameters_ok {ts ss : List ℕ} {st : VarStore K} (hn : ts.Nodup)
    (hs : ts.map (fun v => (st v).shape) = ss.map fun v => (st v).shape) :
    ∃ st', assignParameters ts ss st = (st', .ok ()) ∧ ts.map st' = ss.map st ∧
      ∀ v, v ∉ ts → st' v = st v := by
  have hl : ts.length = ss.length := by simpa using congrArg List.length hs
  have hall : (ts.zip ss).all (fun p => (st p.1).shape == (st p.2).shape) = true := by
    rw [List.all_eq_true]
    intro p hp
    rw [beq_iff_eq]
    obtain ⟨k, hk, rfl⟩ := List.mem_iff_getElem.mp hp
    have h1 : k < ts.length := by simp at hk; omega
    have h2 : k < ss.length := by simp at hk; omega
    have := congrArg (fun l => l[k]?) hs
    simp only [List.getElem?_map, List.getElem?_eq_getElem h1, List.getElem?_eq_getElem h2,
      Option.map_some, Option.some.injEq] at this
    simpa using this
  unfold assignParameters
  rw [if_pos hall]
  exact ⟨_, rfl, foldl_update st ts ss st hn hl⟩

theorem copyParameters_products : ∀ {f g : Fn K} {st : VarStore K}, Spec.SameStructure f g →
    Spec.OnlyProducts f →
    f.parameters.map (fun v => (st v).shape) = g.parameters.map (fun v => (st v).shape) →
    f.parameters.Nodup → List.Disjoint f.parameters g.parameters →
    ∃ (st' : VarStore K) (r : Option (Fn K)), f.copyParameters g st = (st', .ok r) ∧
      f.parameters.map st' = g.parameters.map st ∧ ∀ v, v ∉ f.parameters → st' v = st v := by
  intro f
  induction f with
  | leaf l =>
    intro g st h _ hs hn _
    obtain ⟨st', h1, h2, h3⟩ := assignParameters_ok hn hs
    refine ⟨st', none, ?_, h2, h3⟩
    simp only [Fn.parameters] at h1
    simp only [Fn.copyParameters, h1]
    rfl
  | const c =>
    intro g st h _ hs hn _
    obtain ⟨st', h1, h2, h3⟩ := assignParameters_ok hn hs
    refine ⟨st', none, ?_, h2, h3⟩
    simp only [Fn.copyParameters, h1]
    rfl
  | added f1 f2 ih1 ih2 =>
    intro g st _ h
    exact absurd h id
  | multiplied f1 f2 ih1 ih2 =>
    intro g st h hp hs hn hd
    cases g with
    | multiplied g1 g2 =>
      simp only [Fn.parameters, List.map_append] at hs hn hd
      obtain ⟨hs1, hs2⟩ := List.append_inj hs (by simp [sameStructure_length h.1])
      rw [List.nodup_append] at hn
      rw [List.disjoint_append_left, List.disjoint_append_right, List.disjoint_append_right] at hd
      obtain ⟨st1, r1, e1, m1, o1⟩ := ih1 (st := st) h.1 hp.1 hs1 hn.1 hd.1.1
      have hf2 : ∀ v ∈ f2.parameters, st1 v = st v := fun v hv =>
        o1 v fun hv' => hn.2.2 v hv' v hv rfl
      have hg2 : ∀ v ∈ g2.parameters, st1 v = st v := fun v hv =>
        o1 v fun hv' => hd.1.2 hv' hv
      obtain ⟨st2, r2, e2, m2, o2⟩ := ih2 (st := st1) h.2 hp.2
        (by
          rw [List.map_congr_left (g := fun v => (st v).shape) fun v hv => by rw [hf2 v hv],
            List.map_congr_left (l := g2.parameters) (g := fun v => (st v).shape)
              fun v hv => by rw [hg2 v hv]]
          exact hs2) hn.2.1 hd.2.2
      refine ⟨st2, some (.multiplied (operandOf r1) (operandOf r2)), ?_, ?_, ?_⟩
      · simp only [Fn.copyParameters, Fn.operands, e1, e2]
      · simp only [Fn.parameters, List.map_append]
        congr 1
        · rw [← m1]
          apply List.map_congr_left
          intro v hv
          exact o2 v fun hv' => hn.2.2 v hv v hv' rfl
        · rw [m2]
          exact List.map_congr_left hg2
      · intro v hv
        simp only [Fn.parameters, List.mem_append, not_or] at hv
        rw [o2 v hv.2, o1 v hv.1]
    | _ => exact absurd h id
  | saturation f l u ih =>
    intro g st _ h
    exact absurd h id

/-- **C50, partial.** For functions built in the same way from child classes, constants, products and negations,
with distinct variables that are not shared, `copy_parameters` returns, makes the variables equal and the functions the same.
Missing: sums and saturations, for which this is false (`C50_sum_refuted`, `C50_saturation_refuted`). -/
theorem C50_copy_parameters_partial {f g : Fn K} {st : VarStore K} (h : Spec.SameStructure f g)
    (hp : Spec.OnlyProducts f)
    (hs : f.parameters.map (fun v => (st v).shape) = g.parameters.map fun v => (st v).shape)
    (hn : f.parameters.Nodup) (hd : List.Disjoint f.parameters g.parameters) :
    Spec.CopiesParameters f g st := by
  obtain ⟨st', r, h1, h2, h3⟩ := copyParameters_products h hp hs hn hd
  refine ⟨st', r, h1, h2, h3, sameStructure_evaluate h ?_⟩
  rw [h2]
  apply List.map_congr_left
  intro v hv
  exact (h3 v fun hv' => hd hv' hv).symm

/-- **C50 for sums.** For sums of functions without further sums, the second operand receives the parameters of the
first operand of the other function (if the shapes allow it), whatever its second operand is. -/
theorem C50_sum_copies_first {f1 f2 g1 g2 : Fn K} {st : VarStore K} (h1 : Spec.SameStructure f1 g1)
    (h2 : Spec.SameStructure f2 g1) (hp1 : Spec.OnlyProducts f1) (hp2 : Spec.OnlyProducts f2)
    (hs1 : f1.parameters.map (fun v => (st v).shape) = g1.parameters.map fun v => (st v).shape)
    (hs2 : f2.parameters.map (fun v => (st v).shape) = g1.parameters.map fun v => (st v).shape)
    (hn : (f1.parameters ++ f2.parameters).Nodup)
    (hd : List.Disjoint (f1.parameters ++ f2.parameters) g1.parameters) :
    ∃ (st' : VarStore K) (r : Option (Fn K)),
      (Fn.added f1 f2).copyParameters (.added g1 g2) st = (st', .ok r) ∧
      f1.parameters.map st' = g1.parameters.map st ∧
      f2.parameters.map st' = g1.parameters.map st := by
  rw [List.nodup_append] at hn
  rw [List.disjoint_append_left] at hd
  obtain ⟨st1, r1, e1, m1, o1⟩ := copyParameters_products h1 hp1 hs1 hn.1 hd.1
  have hf2 : ∀ v ∈ f2.parameters, st1 v = st v := fun v hv =>
    o1 v fun hv' => hn.2.2 v hv' v hv rfl
  have hg : ∀ v ∈ g1.parameters, st1 v = st v := fun v hv => o1 v fun hv' => hd.1 hv' hv
  obtain ⟨st2, r2, e2, m2, o2⟩ := copyParameters_products (st := st1) h2 hp2
    (by
      rw [List.map_congr_left (g := fun v => (st v).shape) fun v hv => by rw [hf2 v hv],
        List.map_congr_left (l := g1.parameters) (g := fun v => (st v).shape)
          fun v hv => by rw [hg v hv]]
      exact hs2) hn.2.1 hd.2
  refine ⟨st2, some (.added (operandOf r1) (operandOf r2)), ?_, ?_, ?_⟩
  · simp only [Fn.copyParameters, Fn.operands, e1, e2]
  · rw [← m1]
    apply List.map_congr_left
    intro v hv
    exact o2 v fun hv' => hn.2.2 v hv v hv' rfl
  · rw [m2]
    exact List.map_congr_left hg

/-- A function with one scalar variable that is its value. -/
def varLeaf (v : ℕ) : Leaf ℚ where
  vars := [v]
  eval θ pts := .ok (pts.map fun _ => [(θ.getD 0 ⟨[], []⟩).data.getD 0 0])
  hasDims := true

/-- **C50, refuted for sums.** Copying the parameters of `c + d` to `a + b` gives `b` the parameter of `c`. -/
theorem C50_sum_refuted : ∃ (f g : Fn ℚ) (st : VarStore ℚ), Spec.SameStructure f g ∧
    f.parameters.map (fun v => (st v).shape) = g.parameters.map (fun v => (st v).shape) ∧
    f.parameters.Nodup ∧ List.Disjoint f.parameters g.parameters ∧
    ¬ Spec.CopiesParameters f g st := by
  refine ⟨.added (.leaf (varLeaf 0)) (.leaf (varLeaf 1)),
    .added (.leaf (varLeaf 2)) (.leaf (varLeaf 3)), exampleStore, ⟨⟨rfl, rfl⟩, rfl, rfl⟩, rfl,
    by decide, by simp [Fn.parameters, varLeaf, List.Disjoint], ?_⟩
  rintro ⟨st', r, h1, h2, -⟩
  obtain ⟨st'', r'', h3, -, h5⟩ := C50_sum_copies_first (f1 := .leaf (varLeaf 0))
    (f2 := .leaf (varLeaf 1)) (g1 := .leaf (varLeaf 2)) (g2 := .leaf (varLeaf 3))
    (st := exampleStore) ⟨rfl, rfl⟩ ⟨rfl, rfl⟩ trivial trivial rfl rfl (by decide)
    (by simp [Fn.parameters, varLeaf, List.Disjoint])
  rw [h1] at h3
  obtain ⟨rfl, -⟩ := Prod.mk.inj h3
  simp only [Fn.parameters, varLeaf, List.cons_append, List.nil_append, List.map_cons, List.map_nil,
    List.cons.injEq, and_true] at h2 h5
  rw [h2.2] at h5
  have : (exampleStore 3).data = (exampleStore 2).data := congrArg Tensor.data h5
  exact absurd this (by decide +kernel)

/-- **C50, refuted for saturations.** `copy_parameters` of a saturation always raises an exception. -/
theorem C50_saturation_refuted (f : Fn K) : ∀ (lower upper : List K) (g : Fn K) (st : VarStore K),
    (∃ e, ((Fn.saturation f lower upper).copyParameters g st).2 = .error e) ∧
    ¬ Spec.CopiesParameters (.saturation f lower upper) g st := by
  have main : ∀ (lower upper : List K) (g : Fn K) (st : VarStore K),
      ∃ e, ((Fn.saturation f lower upper).copyParameters g st).2 = .error e := by
    intro lower upper g st
    have dims : ∀ (f g : Fn K) (st : VarStore K) (c : Fn K), (f.copyParameters g st).2 = .ok (some c) →
        c.hasDims = false ∨ ∃ f' l u, f = .saturation f' l u := by
      intro f g st c hc
      cases f with
      | leaf l =>
        simp only [Fn.copyParameters] at hc
        cases h : (assignParameters l.vars g.parameters st).2 <;> simp [h, Except.map] at hc
      | const c' =>
        simp only [Fn.copyParameters] at hc
        cases h : (assignParameters (Fn.const c' : Fn K).parameters g.parameters st).2 <;>
          simp [h, Except.map] at hc
      | added f1 f2 =>
        left
        simp only [Fn.copyParameters] at hc
        split at hc
        · simp at hc
        · split at hc
          · simp at hc
          · split at hc
            · simp at hc
            · simp only [Except.ok.injEq, Option.some.injEq] at hc
              subst hc
              rfl
      | multiplied f1 f2 =>
        left
        simp only [Fn.copyParameters] at hc
        split at hc
        · simp at hc
        · split at hc
          · simp at hc
          · split at hc
            · simp at hc
            · simp only [Except.ok.injEq, Option.some.injEq] at hc
              subst hc
              rfl
      | saturation f' l u => exact .inr ⟨f', l, u, rfl⟩
    have gen : ∀ (f : Fn K), (¬ ∃ f' l u, f = .saturation f' l u) →
        ∀ (lower upper : List K) (g : Fn K) (st : VarStore K),
        ∃ e, ((Fn.saturation f lower upper).copyParameters g st).2 = .error e := by
      intro f hf lower upper g st
      cases g with
      | saturation g' l' u' =>
        rw [Fn.copyParameters]
        cases hc : (f.copyParameters g' st).2 with
        | error e => exact ⟨e, by simp only [hc]⟩
        | ok c =>
          refine ⟨.attributeError, ?_⟩
          simp only [hc]
          cases c with
          | none => rfl
          | some c =>
            rcases dims _ _ _ _ hc with h | h
            · simp [mkSaturation, h, Except.map]
            · exact absurd h hf
      | _ => exact ⟨_, rfl⟩
    have step : ∀ (f : Fn K) (lower upper : List K) (g : Fn K) (st : VarStore K),
        ∃ e, ((Fn.saturation f lower upper).copyParameters g st).2 = .error e := by
      intro f
      induction f with
      | saturation f' l u ih =>
        intro lower upper g st
        cases g with
        | saturation g' l' u' =>
          obtain ⟨e, he⟩ := ih l u g' st
          refine ⟨e, ?_⟩
          rw [Fn.copyParameters]
          simp only [he]
        | _ => exact ⟨_, rfl⟩
      | leaf l => exact gen _ (by simp)
      | const c => exact gen _ (by simp)
      | added f1 f2 _ _ => exact gen _ (by simp)
      | multiplied f1 f2 _ _ => exact gen _ (by simp)
    exact step f lower upper g st
  intro lower upper g st
  refine ⟨main lower upper g st, ?_⟩
  rintro ⟨st', r, h1, -⟩
  obtain ⟨e, he⟩ := main lower upper g st
  rw [h1] at he
  simp at he

/-- The hypotheses of `C50_copy_parameters_partial` hold for a negated product of two functions, whose parameters differ before. -/
example : ∃ (f g : Fn ℚ), Spec.SameStructure f g ∧ Spec.OnlyProducts f ∧
    f.parameters.map (fun v => (exampleStore v).shape) = g.parameters.map (fun v => (exampleStore v).shape) ∧
    f.parameters.Nodup ∧ List.Disjoint f.parameters g.parameters ∧
    f.parameters.length = 2 ∧
    f.parameters.map (fun v => (exampleStore v).data) ≠ g.parameters.map fun v => (exampleStore v).data :=
  ⟨.multiplied (.multiplied (.leaf (varLeaf 0)) (.leaf (varLeaf 1))) (.const (some (-1))),
   .multiplied (.multiplied (.leaf (varLeaf 2)) (.leaf (varLeaf 3))) (.const (some (-1))),
   ⟨⟨⟨rfl, rfl⟩, rfl, rfl⟩, rfl⟩, ⟨⟨trivial, trivial⟩, trivial⟩, rfl, by decide,
   by simp [Fn.parameters, varLeaf, List.Disjoint], rfl,
   by decide +kernel⟩

/-! ## C51 -/

theorem saturateRow_ok {o : ℕ} {lower upper r : List K} (hr : r.length = o)
    (hl : lower.length = 1 ∨ lower.length = o) (hu : upper.length = 1 ∨ upper.length = o) :
    ∃ r', saturateRow lower upper r = .ok r' ∧ r'.length = o ∧
      ∀ j < o, comp r' j = min (max (comp r j) (comp lower j)) (comp upper j) := by
  have h1 : bcastRow max r lower = .ok (bc max r lower) := bcastRow_ok (by omega)
  obtain ⟨l1, c1⟩ := bc_spec (op := max) hr rfl (.inr rfl) hl
  have l1' : (bc max r lower).length = o := by
    rw [l1]
    split_ifs <;> omega
  have h2 : bcastRow min (bc max r lower) upper = .ok (bc min (bc max r lower) upper) :=
    bcastRow_ok (by omega)
  obtain ⟨l2, c2⟩ := bc_spec (op := min) l1' rfl (.inr rfl) hu
  refine ⟨bc min (bc max r lower) upper, ?_, ?_, fun j hj => ?_⟩
  · simp only [saturateRow, h1, bind, Except.bind, h2]
  · rw [l2]
    split_ifs <;> omega
  · rw [c2 j hj, c1 j hj]

theorem comp_ext {o : ℕ} {r r' : List K} (h : r.length = o) (h' : r'.length = o)
    (hc : ∀ j < o, comp r j = comp r' j) : r = r' := by
  apply List.ext_getElem (h.trans h'.symm)
  intro j h1 h2
  have := hc j (h ▸ h1)
  unfold Spec.comp at this
  rw [h, h'] at this
  split_ifs at this with ho
  · have hj : j = 0 := by omega
    subst hj
    simpa [List.getD, h1, h2] using this
  · simpa [List.getD, h1, h2] using this

/-- **C51 (construction).** `Saturation` accepts functions with dimensions and saturations, and raises `AttributeError` for sums, products and constants. -/
theorem C51_construction (l : Leaf K) (f g : Fn K) (c : Option K) (lower upper lower' upper' : List K) :
    (l.hasDims = true → mkSaturation (some (.leaf l)) lower upper = .ok (.saturation (.leaf l) lower upper)) ∧
    mkSaturation (some (.saturation f lower' upper')) lower upper =
      .ok (.saturation (.saturation f lower' upper') lower upper) ∧
    mkSaturation (some (.added f g)) lower upper = .error .attributeError ∧
    mkSaturation (some (.multiplied f g)) lower upper = .error .attributeError ∧
    mkSaturation (some (.const c)) lower upper = .error .attributeError := by
  refine ⟨fun h => ?_, rfl, rfl, rfl, rfl⟩
  simp [mkSaturation, Fn.hasDims, h]

/-- **C51 (partial).** The saturation of a function that gives rows of `o` outputs gives the same number of rows of `o` outputs. With lower bounds at most
the upper bounds (single bounds or one per output) every output is within its bounds and closer to the output of the function than any other
number within the bounds; in particular it is the output of the function if that is within the bounds. Saturating the result again changes nothing.
If a lower bound is above the upper bound then the result is the upper bound. Missing: a saturated network has its own weights, see `C90_refuted`. -/
theorem C51_saturation_partial {st : VarStore K} {f : Fn K} {pts : List (List K)} {m : List (List K)} {o : ℕ}
    {lower upper : List K} (hf : f.evaluate st pts = .ok (.rows m)) (hm : ∀ r ∈ m, r.length = o)
    (hl : lower.length = 1 ∨ lower.length = o) (hu : upper.length = 1 ∨ upper.length = o) :
    ∃ m', (Fn.saturation f lower upper).evaluate st pts = .ok (.rows m') ∧
      (Fn.saturation (.saturation f lower upper) lower upper).evaluate st pts = .ok (.rows m') ∧
      m'.length = m.length ∧
      ∀ (i : ℕ) (r r' : List K), m[i]? = some r → m'[i]? = some r' → r'.length = o ∧ ∀ j < o,
        (comp lower j ≤ comp upper j → comp lower j ≤ comp r' j ∧ comp r' j ≤ comp upper j ∧
          ∀ z, comp lower j ≤ z → z ≤ comp upper j → |comp r' j - comp r j| ≤ |z - comp r j|) ∧
        (comp lower j ≤ comp r j → comp r j ≤ comp upper j → comp r' j = comp r j) ∧
        (comp upper j < comp lower j → comp r' j = comp upper j) := by
  have hs : ∀ r ∈ m, ∃ r', saturateRow lower upper r = .ok r' ∧ r'.length = o ∧
      ∀ j < o, comp r' j = min (max (comp r j) (comp lower j)) (comp upper j) :=
    fun r hr => saturateRow_ok (hm r hr) hl hu
  let S : List K → List K := fun r => match saturateRow lower upper r with
    | .ok r' => r'
    | .error _ => []
  have hS : ∀ r ∈ m, saturateRow lower upper r = .ok (S r) ∧ (S r).length = o ∧
      ∀ j < o, comp (S r) j = min (max (comp r j) (comp lower j)) (comp upper j) := by
    intro r hr
    obtain ⟨r', h1, h2⟩ := hs r hr
    have : S r = r' := by simp only [S, h1]
    rw [this]
    exact ⟨h1, h2⟩
  have h1 : m.mapM (saturateRow lower upper) = .ok (m.map S) := mapM_ok fun r hr => (hS r hr).1
  have e1 : (Fn.saturation f lower upper).evaluate st pts = .ok (.rows (m.map S)) := by
    simp only [Fn.evaluate, hf, bind, Except.bind, h1]
    rfl
  have h2 : (m.map S).mapM (saturateRow lower upper) = .ok (m.map S) := by
    have : ∀ r ∈ m.map S, saturateRow lower upper r = .ok (id r) := by
      intro r hr
      obtain ⟨q, hq, rfl⟩ := List.mem_map.mp hr
      obtain ⟨-, b1, b2⟩ := hS q hq
      obtain ⟨r', c1, c2, c3⟩ := saturateRow_ok b1 hl hu
      rw [c1]
      congr 1
      refine comp_ext c2 b1 fun j hj => ?_
      rw [id_eq, c3 j hj, b2 j hj]
      rcases le_total (comp lower j) (comp upper j) with h | h
      · have h3 : comp lower j ≤ min (max (comp q j) (comp lower j)) (comp upper j) :=
          le_min (le_max_right _ _) h
        rw [max_eq_left h3, min_eq_left (min_le_right _ _)]
      · have h3 : ∀ y, min (max y (comp lower j)) (comp upper j) = comp upper j := fun y =>
          min_eq_right (h.trans (le_max_right _ _))
        rw [h3, h3]
    rw [mapM_ok this, List.map_id]
  refine ⟨m.map S, e1, ?_, by simp, ?_⟩
  · rw [Fn.evaluate, e1]
    simp only [bind, Except.bind, h2]
    rfl
  · intro i r r' hi hi'
    rw [List.getElem?_map, hi, Option.map_some, Option.some.injEq] at hi'
    subst hi'
    obtain ⟨-, b1, b2⟩ := hS r (List.mem_of_getElem? hi)
    refine ⟨b1, fun j hj => ⟨fun h => ?_, fun h3 h4 => ?_, fun h => ?_⟩⟩
    · rw [b2 j hj]
      refine ⟨le_min (le_max_right _ _) h, min_le_right _ _, fun z hz1 hz2 => ?_⟩
      rcases le_total (comp r j) (comp lower j) with h3 | h3
      · rw [max_eq_right h3, min_eq_left h, abs_of_nonneg (by linarith), abs_of_nonneg (by linarith)]
        linarith
      · rw [max_eq_left h3]
        rcases le_total (comp r j) (comp upper j) with h4 | h4
        · rw [min_eq_left h4]
          simp
        · rw [min_eq_right h4, abs_of_nonpos (by linarith), abs_of_nonpos (by linarith)]
          linarith
    · rw [b2 j hj, max_eq_left h3, min_eq_left h4]
    · rw [b2 j hj, min_eq_right (h.le.trans (le_max_right _ _))]

/-- The hypotheses of `C51_saturation_partial` hold for a function with two outputs; here one output is above, one below and two are within the
bounds. -/
example : (Fn.leaf (exampleLeaf false)).evaluate exampleStore [[1, 2], [5, -7]] =
      .ok (.rows [[2, 2], [10, -7]]) ∧
    (Fn.saturation (.leaf (exampleLeaf false)) [-3] [4, 6]).evaluate exampleStore
        [[1, 2], [5, -7]] = .ok (.rows [[2, 2], [4, -3]]) := by decide +kernel

end SafeLearning
