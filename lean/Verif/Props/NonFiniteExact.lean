import Verif.Props.NonFinite
import Mathlib.Algebra.BigOperators.Fin
set_option autoImplicit false

set_option linter.unusedSectionVars false

/-!
# C110: on finite values without rounding, the floating point model is the exact model
-/

namespace SafeLearning.FltLyap

open Flt Spec

variable {K : Type} [Field K] [LinearOrder K] [IsStrictOrderedRing K] {Prog Θ : Type} {d n : ℕ}

/-- The number behind a finite floating point value. -/
def _root_.Spec.number : Flt K → K
  | .fin x => x
  | _ => 0

/-- A system of exact functions as a system of floating point functions. -/
def _root_.Spec.finiteWorld (sys : System K Prog Θ d) (g : GridWorld K d)
    (argsort : (Fin g.nindex → K) → List (Fin g.nindex)) (tauDiv : K → ℕ → K) :
    FWorld K Prog Θ d g.nindex where
  state k := fun i => .fin (gridState g k i)
  V θ x := .fin (sys.V θ fun i => Spec.number (x i))
  lv θ := match sys.lv θ with
    | .const c => .const (.fin c)
    | .scalar f => .scalar fun x => .fin (f fun i => Spec.number (x i))
    | .vector f => .vector fun x i => .fin (f (fun i => Spec.number (x i)) i)
  lf θ := match sys.lf θ with
    | .const c => .const (.fin c)
    | .scalar f => .scalar fun x => .fin (f fun i => Spec.number (x i))
  closedLoop p θ x := match sys.closedLoop p θ fun i => Spec.number (x i) with
    | .exact y => .exact fun i => .fin (y i)
    | .uncertain m e => .uncertain (fun i => .fin (m i)) fun i => .fin (e i)
  tauDiv t N := .fin (tauDiv (Spec.number t) N)
  argsort v := argsort fun i => Spec.number (v i)

/-- Exact arithmetic: no rounding, a quotient by zero is infinite, integers are converted as they are
and `+inf` becomes an integer below one. -/
structure _root_.Spec.ExactArith (A : Arith K) : Prop where
  rnd : ∀ x, A.rnd x = .fin x
  divZero : ∀ a, A.divZero a = .pinf ∨ A.divZero a = .ninf
  toInt : ∀ m : ℕ, A.toInt (.fin m) = m
  toIntInf : A.toInt .pinf = 0

/-- The attributes of an object in floating point numbers. -/
def _root_.Spec.finiteGraph (G : Graph K Prog) : Graph (Flt K) Prog :=
  ⟨G.prog, .fin G.tau, .fin G.safetyFactor, G.adaptive⟩

/-- The attributes of an object in floating point numbers. -/
def _root_.Spec.finiteLyap (s : Lyap K Prog n) : Lyap (Flt K) Prog n where
  prog := s.prog
  tau := .fin s.tau
  adaptive := s.adaptive
  initial := s.initial
  safeSet := s.safeSet
  refinement := s.refinement
  values := fun k => .fin (s.values k)
  cMax := .fin s.cMax
  graph := s.graph.map Spec.finiteGraph

/-- An operation in floating point numbers. -/
def _root_.Spec.finiteOp : Lyap.Op K Prog Θ → Lyap.Op (Flt K) Prog Θ
  | .update batch args θ => .update batch ⟨args.canShrink, args.maxRefinement, .fin args.safetyFactor⟩ θ
  | .updateValues θ => .updateValues θ
  | .setProg p => .setProg p
  | .setTau t => .setTau (.fin t)
  | .setAdaptive b => .setAdaptive b

section Exact

variable (A : Arith K) (hA : ExactArith A)
include hA

theorem foldl_fin (l : List K) (z : K) :
    (l.map fin).foldl (add A) (fin z) = fin (z + l.sum) := by
  induction l generalizing z with
  | nil => simp
  | cons a l ih =>
    rw [List.map_cons, List.foldl_cons, List.sum_cons]
    have : add A (fin z) (fin a) = fin (z + a) := hA.rnd _
    rw [this, ih, add_assoc]

theorem sum_fin (f : Fin d → K) : sum A (List.ofFn fun i => fin (f i)) = fin (∑ i, f i) := by
  have : (List.ofFn fun i => fin (f i)) = (List.ofFn f).map fin := by
    rw [List.map_ofFn]; rfl
  unfold sum
  rw [this, foldl_fin A hA, zero_add, List.sum_ofFn]

variable (sys : System K Prog Θ d) (g : GridWorld K d)
    (argsort : (Fin g.nindex → K) → List (Fin g.nindex)) (tauDiv : K → ℕ → K)

theorem number_fin (x : Fin d → K) : (fun i => Spec.number ((fun j => (fin (x j) : Flt K)) i)) = x := rfl

theorem lipEntry_fin (θ : Θ) (x : Fin d → K) (i : Fin d) :
    lipEntry ((finiteWorld sys g argsort tauDiv).lv θ) (fun i => fin (x i)) i =
      fin ((sys.lv θ).entry x i) := by
  simp only [finiteWorld]
  cases sys.lv θ <;> rfl

theorem decrease_fin (p : Prog) (θ : Θ) (k : Fin g.nindex) :
    decreaseAt A (finiteWorld sys g argsort tauDiv) p θ k =
      fin ((sys.world g argsort tauDiv).decrease p θ k) := by
  have hentry := lipEntry_fin A hA sys g argsort tauDiv θ
  unfold decreaseAt decrease
  simp only [System.world, vDecreaseBound, vDecreaseConfidence]
  have hcl : (finiteWorld sys g argsort tauDiv).closedLoop p θ
      ((finiteWorld sys g argsort tauDiv).state k) =
      match sys.closedLoop p θ (gridState g k) with
        | .exact y => .exact fun i => .fin (y i)
        | .uncertain m e => .uncertain (fun i => .fin (m i)) fun i => .fin (e i) := rfl
  rw [hcl]
  cases sys.closedLoop p θ (gridState g k) with
  | exact y =>
    simp only []
    have h1 : sub A ((finiteWorld sys g argsort tauDiv).V θ fun i => fin (y i))
        ((finiteWorld sys g argsort tauDiv).V θ ((finiteWorld sys g argsort tauDiv).state k)) =
        fin (sys.V θ y - sys.V θ (gridState g k)) := by
      rw [sub_eq_add_neg]; exact hA.rnd _
    rw [h1]
    exact hA.rnd _
  | uncertain m e =>
    simp only []
    have h1 : sub A ((finiteWorld sys g argsort tauDiv).V θ fun i => fin (m i))
        ((finiteWorld sys g argsort tauDiv).V θ ((finiteWorld sys g argsort tauDiv).state k)) =
        fin (sys.V θ m - sys.V θ (gridState g k)) := by
      rw [sub_eq_add_neg]; exact hA.rnd _
    have h2 : (List.ofFn fun i => mul A (lipEntry ((finiteWorld sys g argsort tauDiv).lv θ)
        (fun i => fin (m i)) i) (fin (e i))) =
        List.ofFn fun i => fin ((sys.lv θ).entry m i * e i) := by
      congr 1
      funext i
      rw [hentry]
      exact hA.rnd _
    rw [h1, h2, sum_fin A hA]
    exact hA.rnd _

theorem lipNorm_fin (θ : Θ) (x : Fin d → K) :
    lipNorm A ((finiteWorld sys g argsort tauDiv).lv θ) (fun i => fin (x i)) =
      fin ((sys.lv θ).forThreshold x) := by
  simp only [finiteWorld]
  cases sys.lv θ with
  | const c => rfl
  | scalar f => rfl
  | vector f =>
    simp only [lipNorm, LipArg.forThreshold]
    split_ifs with h1 h2
    · exact sum_fin A hA fun i => |f x i|
    · have : d = 1 := by omega
      subst this
      simp [Spec.number]
    · have : d = 0 := by omega
      subst this
      simp

theorem threshold_fin (θ : Θ) (k : Fin g.nindex) (tau : K) :
    thresholdOf A (finiteWorld sys g argsort tauDiv) θ k (fin tau) =
      fin ((sys.world g argsort tauDiv).threshold θ k tau) := by
  unfold thresholdOf threshold
  have h1 : lipNorm A ((finiteWorld sys g argsort tauDiv).lv θ)
      ((finiteWorld sys g argsort tauDiv).state k) =
      fin ((sys.lv θ).forThreshold (gridState g k)) :=
    lipNorm_fin A hA sys g argsort tauDiv θ (gridState g k)
  have h2 : lipDyn ((finiteWorld sys g argsort tauDiv).lf θ)
      ((finiteWorld sys g argsort tauDiv).state k) = fin ((sys.lf θ).at (gridState g k)) := by
    simp only [finiteWorld]
    cases sys.lf θ <;> rfl
  rw [h1, h2]
  have h3 : add A (fin 1) (fin ((sys.lf θ).at (gridState g k))) =
      fin (1 + (sys.lf θ).at (gridState g k)) := hA.rnd _
  rw [h3]
  have h4 : mul A (neg (fin ((sys.lv θ).forThreshold (gridState g k))))
      (fin (1 + (sys.lf θ).at (gridState g k))) =
      fin (-(sys.lv θ).forThreshold (gridState g k) * (1 + (sys.lf θ).at (gridState g k))) :=
    hA.rnd _
  rw [h4]
  exact hA.rnd _

variable [FloorRing K]

theorem negative_fin (G : Graph K Prog) (θ : Θ) (k : Fin g.nindex) :
    negative A (finiteWorld sys g argsort tauDiv) (finiteGraph G) θ k =
      Lyap.negative (sys.world g argsort tauDiv) G θ k := by
  unfold negative Lyap.negative
  simp only [finiteGraph]
  rw [decrease_fin A hA, threshold_fin A hA]
  rfl

theorem refined_fin (G : Graph K Prog) (θ : Θ) (fed : List (Fin g.nindex)) (c : Fin g.nindex)
    (N : ℕ) :
    refinedNegative A (finiteWorld sys g argsort tauDiv) (finiteGraph G) θ fed c N =
      Lyap.refinedNegative (sys.world g argsort tauDiv) G θ fed c N := by
  unfold refinedNegative Lyap.refinedNegative
  congr 1
  funext y
  have : (finiteWorld sys g argsort tauDiv).tauDiv (finiteGraph G).tau N =
      fin (tauDiv G.tau N) := rfl
  rw [this, decrease_fin A hA, threshold_fin A hA]
  rfl

theorem nReq_fin (G : Graph K Prog) (θ : Θ) (k : Fin g.nindex) :
    nReq A (finiteWorld sys g argsort tauDiv) (finiteGraph G) θ k =
      Lyap.nReq (sys.world g argsort tauDiv) G θ k := by
  have hd := decrease_fin A hA sys g argsort tauDiv G.prog θ k
  have ht := threshold_fin A hA sys g argsort tauDiv θ k G.tau
  unfold nReq Lyap.nReq
  have h1 : mul A (finiteGraph G).safetyFactor
      (thresholdOf A (finiteWorld sys g argsort tauDiv) θ k (finiteGraph G).tau) =
      fin (G.safetyFactor * (sys.world g argsort tauDiv).threshold θ k G.tau) := by
    have : thresholdOf A (finiteWorld sys g argsort tauDiv) θ k (finiteGraph G).tau = _ := ht
    rw [this]
    exact hA.rnd _
  have h2 : decreaseAt A (finiteWorld sys g argsort tauDiv) (finiteGraph G).prog θ k = _ := hd
  simp only [h1, h2]
  generalize (sys.world g argsort tauDiv).decrease G.prog θ k = D
  generalize (sys.world g argsort tauDiv).threshold θ k G.tau = T
  have h0 : A.toInt (fin (0 : K)) = 0 := by simpa using hA.toInt 0
  by_cases hD : D = 0
  · rw [if_pos hD]
    simp only [div, hD, if_true]
    by_cases hT : G.safetyFactor * T = 0
    · rw [if_pos hT]
      simp [lt, ceil, h0]
    · rw [if_neg hT]
      rcases hA.divZero (fin (G.safetyFactor * T)) with h | h <;> rw [h]
      · simp [lt, ceil, hA.toIntInf]
      · simp [lt, ceil, h0]
  · rw [if_neg hD]
    simp only [div, if_neg hD, hA.rnd]
    by_cases hn : G.safetyFactor * T / D < 0
    · have : lt (fin (G.safetyFactor * T / D)) (fin 0) = true := by simpa [lt] using hn
      rw [if_pos this, max_eq_right hn.le]
      simp [ceil, h0]
    · have : ¬ lt (fin (G.safetyFactor * T / D)) (fin 0) = true := by simpa [lt] using hn
      rw [if_neg this, max_eq_left (not_lt.mp hn)]
      simp only [ceil]
      have hc : (0 : ℤ) ≤ ⌈G.safetyFactor * T / D⌉ := Int.ceil_nonneg (not_lt.mp hn)
      have he : ((⌈G.safetyFactor * T / D⌉ : ℤ) : K) = ((⌈G.safetyFactor * T / D⌉₊ : ℕ) : K) := by
        rw [← Int.cast_natCast, ← Int.ceil_toNat, Int.toNat_of_nonneg hc]
      rw [he, hA.toInt]

omit hA in
theorem loop_eq (W : World K Prog Θ n) (G : Graph K Prog) (s : Lyap K Prog n) (θ : Θ) (maxRef : ℕ)
    (bs : List (ℕ × List (Lyap.Row n))) : ∀ acc last,
    loop ⟨Lyap.negative W G θ, Lyap.nReq W G θ, Lyap.refinedNegative W G θ⟩ s.adaptive s.initial
      maxRef acc last bs = Lyap.batchLoop W G s θ maxRef acc last bs := by
  induction bs with
  | nil => intro acc last; rfl
  | cons b bs ih =>
    obtain ⟨i, rows⟩ := b
    intro acc last
    rw [loop, Lyap.batchLoop]
    have : loopStep ⟨Lyap.negative W G θ, Lyap.nReq W G θ, Lyap.refinedNegative W G θ⟩ s.adaptive
        s.initial maxRef rows = Lyap.batchStep W G s θ maxRef rows := rfl
    rw [this]
    cases Lyap.batchStep W G s θ maxRef rows with
    | error e => rfl
    | ok res => simp only [ih]

theorem checks_fin (G : Graph K Prog) (θ : Θ) :
    checks A (finiteWorld sys g argsort tauDiv) (finiteGraph G) θ =
      ⟨Lyap.negative (sys.world g argsort tauDiv) G θ, Lyap.nReq (sys.world g argsort tauDiv) G θ,
        Lyap.refinedNegative (sys.world g argsort tauDiv) G θ⟩ := by
  unfold checks
  congr 1
  · funext k; exact negative_fin A hA sys g argsort tauDiv G θ k
  · funext k; exact nReq_fin A hA sys g argsort tauDiv G θ k
  · funext fed c N; exact refined_fin A hA sys g argsort tauDiv G θ fed c N

theorem graphFor_fin (s : Lyap K Prog n) (f : K) :
    graphFor (finiteLyap s) (fin f) = finiteGraph (s.graphFor f) := by
  unfold graphFor Lyap.graphFor
  simp only [finiteLyap]
  cases s.graph with
  | some G => rfl
  | none =>
    simp only [Option.map_none, finiteGraph, lt]
    by_cases h : f < 1
    · simp [h, h.le]
    · simp [h, max_eq_left (not_lt.mp h)]

/-- One call on finite values gives the attributes and the result of the exact call. -/
theorem update_fin (batch : ℕ) (args : Lyap.UpdateArgs K) (s : Lyap K Prog g.nindex) (θ : Θ) :
    updateSafeSet A (finiteWorld sys g argsort tauDiv) batch
        ⟨args.canShrink, args.maxRefinement, fin args.safetyFactor⟩ (finiteLyap s) θ =
      (finiteLyap (Lyap.updateSafeSet (sys.world g argsort tauDiv) batch args s θ).1,
        (Lyap.updateSafeSet (sys.world g argsort tauDiv) batch args s θ).2) := by
  unfold updateSafeSet Lyap.updateSafeSet
  simp only [graphFor_fin A hA]
  have hG : (finiteGraph (s.graphFor args.safetyFactor)).adaptive =
      (s.graphFor args.safetyFactor).adaptive := rfl
  rw [hG]
  by_cases h : (s.graphFor args.safetyFactor).adaptive ≠ s.adaptive
  · have h' : (s.graphFor args.safetyFactor).adaptive ≠ (finiteLyap s).adaptive := h
    rw [if_pos h, if_pos h']
    rfl
  · have h' : ¬ (s.graphFor args.safetyFactor).adaptive ≠ (finiteLyap s).adaptive := h
    rw [if_neg h, if_neg h', checks_fin A hA]
    have hl := loop_eq (sys.world g argsort tauDiv) (s.graphFor args.safetyFactor)
      { s with graph := some (s.graphFor args.safetyFactor) } θ args.maxRefinement
      (batchify (Lyap.startRows (sys.world g argsort tauDiv)
        { s with graph := some (s.graphFor args.safetyFactor) } args.canShrink) batch) [] none
    have hl' : loop ⟨Lyap.negative (sys.world g argsort tauDiv) (s.graphFor args.safetyFactor) θ,
        Lyap.nReq (sys.world g argsort tauDiv) (s.graphFor args.safetyFactor) θ,
        Lyap.refinedNegative (sys.world g argsort tauDiv) (s.graphFor args.safetyFactor) θ⟩
        (finiteLyap s).adaptive (finiteLyap s).initial args.maxRefinement [] none
        (batchify (startRows (finiteWorld sys g argsort tauDiv)
          { finiteLyap s with graph := some (finiteGraph (s.graphFor args.safetyFactor)) }
          args.canShrink) batch) = _ := hl
    simp only [hl']
    cases Lyap.batchLoop (sys.world g argsort tauDiv) (s.graphFor args.safetyFactor)
      { s with graph := some (s.graphFor args.safetyFactor) } θ args.maxRefinement [] none
      (batchify (Lyap.startRows (sys.world g argsort tauDiv)
        { s with graph := some (s.graphFor args.safetyFactor) } args.canShrink) batch) with
    | error e => rfl
    | ok res =>
      obtain ⟨rows, last⟩ := res
      cases last with
      | none => rfl
      | some q =>
        obtain ⟨i, bound, rb⟩ := q
        simp only [finish, Lyap.finish]
        have hv : (finiteWorld sys g argsort tauDiv).argsort (finiteLyap s).values =
            (sys.world g argsort tauDiv).argsort s.values := rfl
        simp only [hv]
        cases Lyap.pyGet? ((sys.world g argsort tauDiv).argsort s.values)
          ((i : ℤ) + bound + rb - 1) <;> rfl

/-- The new object on finite values is the exact new object. -/
theorem new_fin (p : Prog) (tau : K) (initial : Option (Fin g.nindex → Bool)) (ad : Bool) (θ : Θ) :
    new (finiteWorld sys g argsort tauDiv) p (fin tau) initial ad θ =
      finiteLyap (Lyap.new (sys.world g argsort tauDiv) p tau initial ad θ) := rfl

/-- **C110.** With exact arithmetic and functions of finite values, every history of operations on
the floating point object ends in the attributes of the exact object: the two models differ only in
rounding, overflow and NaN. -/
theorem C110_agrees_with_exact (p : Prog) (tau : K) (initial : Option (Fin g.nindex → Bool))
    (ad : Bool) (θ₀ : Θ) (ops : List (Lyap.Op K Prog Θ)) :
    run A (finiteWorld sys g argsort tauDiv)
        (new (finiteWorld sys g argsort tauDiv) p (fin tau) initial ad θ₀) (ops.map finiteOp) =
      finiteLyap (Lyap.run (sys.world g argsort tauDiv)
        (Lyap.new (sys.world g argsort tauDiv) p tau initial ad θ₀) ops) := by
  rw [new_fin A hA]
  generalize Lyap.new (sys.world g argsort tauDiv) p tau initial ad θ₀ = s
  unfold run Lyap.run
  induction ops generalizing s with
  | nil => rfl
  | cons op ops ih =>
    rw [List.map_cons, List.foldl_cons, List.foldl_cons]
    have hs : step A (finiteWorld sys g argsort tauDiv) (finiteLyap s) (finiteOp op) =
        finiteLyap (Lyap.step (sys.world g argsort tauDiv) s op) := by
      cases op with
      | update batch args θ =>
        have := update_fin A hA sys g argsort tauDiv batch args s θ
        exact congrArg Prod.fst this
      | _ => rfl
    rw [hs, ih]

end Exact

/-- Exact arithmetic on the rationals meets the hypothesis. -/
example : ExactArith (K := ℚ)
    ⟨fin, fun a => if lt (fin 0) a then .pinf else .ninf,
      fun a => match a with
        | .fin x => ⌊x⌋₊
        | _ => 0⟩ where
  rnd _ := rfl
  divZero a := by dsimp only; split_ifs <;> simp
  toInt m := by simp
  toIntInf := rfl

end SafeLearning.FltLyap
