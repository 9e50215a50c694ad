import Verif.Props.NonFiniteExact
import Verif.Props.NonFiniteSample
import Verif.Props.NonFiniteGrid
import Verif.Model.Triangulation
import Verif.Lemmas.Sparse
import Verif.Props.TriangulationExamples
set_option autoImplicit false

set_option linter.unusedSectionVars false

/-!
# C111 and C112: with finite values and exact arithmetic the floating point models of `get_safe_sample` and of triangulations are the exact models
-/

namespace Spec

open SafeLearning

variable {K : Type} [Field K] [LinearOrder K] [IsStrictOrderedRing K] {n m : ℕ}

/-- A vector of finite numbers. -/
def finVec (x : Fin n → K) : Fin n → Flt K := fun i => .fin (x i)

/-- A Lipschitz constant of the Lyapunov function that is finite where the state is. -/
def SameLip : LipArg K n → LipArg (Flt K) n → Prop
  | .const c, .const c' => c' = .fin c
  | .scalar f, .scalar f' => ∀ x, f' (finVec x) = .fin (f x)
  | .vector f, .vector f' => ∀ x, f' (finVec x) = finVec (f x)
  | _, _ => False

/-- A pair of a state and an action with finite entries. -/
def finPair (p : Pair K n m) : Pair (Flt K) n m := (finVec p.1, finVec p.2)

/-- A sample with finite entries. -/
def finResult (r : SampleSystem.Result K n m) : SampleSystem.Result (Flt K) n m := ⟨r.backup, finPair r.pair, .fin r.bound⟩

/-- The functions that `get_safe_sample` evaluates are those of an exact system: they map finite numbers to the same finite numbers. -/
structure SameSample [FloorRing K] (S' : FltLyap.FSample K n m) (S : SampleSystem K n m) : Prop where
  dynamics : ∀ p, S'.dynamics (finPair p) = (finVec (S.dynamics p).1, finVec (S.dynamics p).2)
  lv : SameLip S.lv S'.lv
  V : ∀ x, S'.V (finVec x) = .fin (S.V x)
  cMax : S'.cMax = .fin S.cMax
  inSafeSet : ∀ x, S'.inSafeSet (finVec x) = (S.grid.stateToIndex (List.ofFn x)).map S.safeSet

end Spec

namespace SafeLearning.FltLyap

open Flt Spec

variable {K : Type} [Field K] [LinearOrder K] [IsStrictOrderedRing K] {n m : ℕ}

section

variable {A : Arith K} (hA : ExactArith A)
include hA

theorem exact_add (x y : K) : add A (fin x) (fin y) = fin (x + y) := hA.rnd _

theorem exact_mul (x y : K) : mul A (fin x) (fin y) = fin (x * y) := hA.rnd _

theorem exact_sub (x y : K) : sub A (fin x) (fin y) = fin (x - y) := by
  rw [sub_eq_add_neg]; exact hA.rnd _

theorem exact_fold (l : List K) : ∀ z : K, (l.map fin).foldl (add A) (fin z) = fin (l.foldl (· + ·) z) := by
  induction l with
  | nil => intro z; rfl
  | cons a l ih => intro z; simp only [List.map_cons, List.foldl_cons, exact_add hA, ih]

theorem exact_sum (f : Fin n → K) (F : Fin n → Flt K) (h : ∀ i, F i = fin (f i)) : Flt.sum A (List.ofFn F) = fin (∑ i, f i) := by
  have e : List.ofFn F = (List.ofFn f).map fin := by
    rw [List.map_ofFn]; congr 1; funext i; exact h i
  unfold Flt.sum
  rw [e, exact_fold hA, ← List.sum_ofFn, List.sum_eq_foldl]

end

theorem argmaxNaN_fin (l : List K) : argmaxNaN (l.map fin) = argmaxFirst l := by
  cases l with
  | nil => rfl
  | cons a l =>
    simp only [List.map_cons, argmaxNaN, argmaxFirst]
    suffices h : ∀ (l : List K) (i j : ℕ) (a : K),
        (l.map fin).foldl (fun (s : ℕ × ℕ × Flt K) b => if s.2.2 ≠ nan ∧ (b = nan ∨ lt s.2.2 b = true) then (s.1 + 1, s.1, b) else (s.1 + 1, s.2.1, s.2.2)) (i, j, fin a) =
        ((l.foldl (fun (s : ℕ × ℕ × K) b => if s.2.2 < b then (s.1 + 1, s.1, b) else (s.1 + 1, s.2.1, s.2.2)) (i, j, a)).1,
          (l.foldl (fun (s : ℕ × ℕ × K) b => if s.2.2 < b then (s.1 + 1, s.1, b) else (s.1 + 1, s.2.1, s.2.2)) (i, j, a)).2.1,
          fin (l.foldl (fun (s : ℕ × ℕ × K) b => if s.2.2 < b then (s.1 + 1, s.1, b) else (s.1 + 1, s.2.1, s.2.2)) (i, j, a)).2.2) by
      rw [h]
    intro l
    induction l with
    | nil => intro i j a; rfl
    | cons b l ih =>
      intro i j a
      simp only [List.map_cons, List.foldl_cons]
      by_cases hb : a < b
      · rw [if_pos ⟨by simp, Or.inr (by simpa [lt] using hb)⟩, if_pos hb, ih]
      · rw [if_neg (by simp [lt, hb]), if_neg hb, ih]

section

variable [FloorRing K] {A : Arith K} (hA : ExactArith A) {S' : FSample K n m} {S : SampleSystem K n m} (hS : SameSample S' S)
include hA hS

theorem exact_sampleBound (p : Pair K n m) : sampleBound A S' (finPair p) = fin (S.bound p) := by
  unfold sampleBound SampleSystem.bound
  rw [hS.dynamics]
  exact exact_sum hA _ _ fun i => rfl

theorem exact_mapsInside (p : Pair K n m) : mapsInside A S' (finPair p) = S.mapsInside p := by
  unfold mapsInside SampleSystem.mapsInside
  rw [hS.dynamics]
  have he : ∀ i, lipEntry S'.lv (finVec (S.dynamics p).1) i = fin (S.lv.entry (S.dynamics p).1 i) := by
    intro i
    have h := hS.lv
    cases hl : S.lv <;> cases hl' : S'.lv <;> rw [hl, hl'] at h <;> simp only [SameLip] at h
    · exact h
    · exact h _
    · simp only [lipEntry, LipArg.entry, h]; rfl
  rw [hS.V, hS.cMax, exact_sum hA (fun i => S.lv.entry (S.dynamics p).1 i * (S.dynamics p).2 i) _
    (fun i => by rw [he]; exact exact_mul hA _ _), exact_add hA]
  rfl

theorem exact_accepted (positive : Bool) (p : Pair K n m) : accepted A S' positive (finPair p) = S.accepted positive p := by
  unfold accepted SampleSystem.accepted SampleSystem.safeInExpectation
  rw [exact_mapsInside hA hS, hS.dynamics]
  simp only [hS.inSafeSet]
  cases S.grid.stateToIndex (List.ofFn (S.dynamics p).1) <;> rfl

theorem exact_mostUncertain (backup : Bool) (l : List (Pair K n m)) :
    mostUncertain A S' backup (l.map finPair) = (S.mostUncertain backup l).map finResult := by
  unfold mostUncertain SampleSystem.mostUncertain
  have e : (l.map finPair).map (sampleBound A S') = (l.map S.bound).map fin := by
    simp only [List.map_map]
    exact List.map_congr_left fun p _ => exact_sampleBound hA hS p
  rw [e, argmaxNaN_fin]
  cases argmaxFirst (l.map S.bound) with
  | error e => rfl
  | ok k =>
    simp only [bind, Except.bind, List.getElem?_map]
    cases l[k]? with
    | none => rfl
    | some p => simp only [Option.map_some, exact_sampleBound hA hS]; rfl

/-- **C111 (finite values).** Where all functions map finite numbers to finite numbers and the arithmetic is exact, the selection of a sample in floating point numbers is that of `get_safe_sample` in exact numbers: the same pair, the same
bound, the same use of the backup policy, the same error. -/
theorem C111_finite {β : Type} [LinearOrder β] (key : Pair K n m → β) (ps : List (Fin m → K)) (limits : Option (Fin m → K × K)) (positive : Bool)
    (idx : Option (List ℕ)) (actions : List (Fin m → K)) (states : List (Fin n → K)) (hst : S.sampledStates idx = .ok states)
    (pairs backupPairs : List (Pair K n m)) (hp : perturbActions key states (states.map S.policy) ps limits = .ok pairs)
    (hb : perturbActions key states (states.map S.policy) [0] limits = .ok backupPairs) :
    selectSample A S' positive (pairs.map finPair) (backupPairs.map finPair) =
      (S.getSafeSample key (some ps) limits positive idx actions).map finResult := by
  unfold selectSample SampleSystem.getSafeSample SampleSystem.backupSample SampleSystem.candidates
  simp only [hst, hp, hb, bind, Except.bind]
  have hm : (pairs.map finPair).mapM (fun p => accepted A S' positive p) = pairs.mapM fun p => S.accepted positive p := by
    rw [List.mapM_map]
    congr 1
    funext p
    exact exact_accepted hA hS positive p
  rw [hm]
  cases pairs.mapM fun p => S.accepted positive p with
  | error e => rfl
  | ok mask =>
    simp only
    have hz : (((pairs.map finPair).zip mask).filter fun q => q.2).map (fun q => q.1) = (((pairs.zip mask).filter fun q => q.2).map fun q => q.1).map finPair := by
      rw [List.zip_map_left, List.filter_map, List.map_map, List.map_map]
      rfl
    rw [hz, List.length_map]
    split_ifs
    · exact exact_mostUncertain hA hS true backupPairs
    · exact exact_mostUncertain hA hS false _

end

/-- Exact rational arithmetic with infinities. -/
def rationalArith : Arith ℚ where
  rnd := fin
  divZero := fun a => if lt a (fin 0) then ninf else pinf
  toInt := fun a => match a with
    | fin x => ⌈x⌉.toNat
    | _ => 0

theorem rationalArith_exact : ExactArith rationalArith where
  rnd _ := rfl
  divZero a := by
    by_cases h : lt a (fin 0) = true
    · exact Or.inr (if_pos h)
    · exact Or.inl (if_neg h)
  toInt m := by simp [rationalArith]
  toIntInf := rfl

/-- A sample system that computes with the numbers in floating point vectors. -/
def liftSample [FloorRing K] (S : SampleSystem K n m) : FSample K n m where
  dynamics p := (finVec (S.dynamics (fun i => Spec.number (p.1 i), fun i => Spec.number (p.2 i))).1, finVec (S.dynamics (fun i => Spec.number (p.1 i), fun i => Spec.number (p.2 i))).2)
  lv := match S.lv with
    | .const c => .const (fin c)
    | .scalar f => .scalar fun x => fin (f fun i => Spec.number (x i))
    | .vector f => .vector fun x => finVec (f fun i => Spec.number (x i))
  V x := fin (S.V fun i => Spec.number (x i))
  cMax := fin S.cMax
  inSafeSet x := (S.grid.stateToIndex (List.ofFn fun i => Spec.number (x i))).map S.safeSet

theorem liftSample_same [FloorRing K] (S : SampleSystem K n m) : SameSample (liftSample S) S where
  dynamics _ := rfl
  lv := by
    simp only [liftSample]
    cases S.lv
    · rfl
    · intro x; rfl
    · intro x; rfl
  V _ := rfl
  cMax := rfl
  inSafeSet _ := rfl

/-- The states 0, 1, 2 with the dynamics `x + u`, of which 0 and 1 are safe. -/
def lineSample : SampleSystem ℚ 1 1 where
  grid := ⟨fun _ => 0, fun _ => 2, fun _ => 3⟩
  policy := fun _ _ => 0
  dynamics := fun p => (fun i => p.1 i + p.2 i, fun i => (p.1 i + 1) / 10)
  lv := .const 1
  V := fun x => |x 0|
  cMax := 3 / 2
  safeSet := fun k => decide (k ≤ 1)

/-- All hypotheses of `C111_finite` are met. -/
example : ∃ pairs backupPairs : List (Pair ℚ 1 1), selectSample rationalArith (liftSample lineSample) false (pairs.map finPair) (backupPairs.map finPair) =
    (lineSample.getSafeSample (fun p : Pair ℚ 1 1 => p.1 0 * 100 + p.2 0) (some [fun _ => -1, fun _ => 0]) none false none []).map finResult := by
  have h : ∀ ps : List (Fin 1 → ℚ), ∃ pairs, perturbActions (fun p : Pair ℚ 1 1 => p.1 0 * 100 + p.2 0) lineSample.safeStates
      (lineSample.safeStates.map lineSample.policy) ps none = .ok pairs := fun ps => by
    unfold perturbActions
    rw [if_pos (by simp)]
    exact ⟨_, rfl⟩
  obtain ⟨pairs, hp⟩ := h [fun _ => -1, fun _ => 0]
  obtain ⟨backupPairs, hb⟩ := h [0]
  exact ⟨pairs, backupPairs, C111_finite rationalArith_exact (liftSample_same lineSample) _ _ _ _ _ _ lineSample.safeStates rfl _ _ hp hb⟩

/-- The pair with the largest uncertainty is the state 1 with the action -1; the action 0 could leave the level set. -/
example : (lineSample.getSafeSample (fun p : Pair ℚ 1 1 => p.1 0 * 100 + p.2 0) (some [fun _ => -1, fun _ => 0]) none false none []).map
    (fun r => (r.backup, r.pair.1 0, r.pair.2 0, r.bound)) = .ok (false, 1, -1, 1 / 5) := by
  decide +kernel

end SafeLearning.FltLyap

namespace SafeLearning.FltGrid

open Flt Spec FltLyap GridWorld

variable {K : Type} [Field K] [LinearOrder K] [IsStrictOrderedRing K] {d o : ℕ}

theorem traverseFin_inv {α : Type} : ∀ {n : ℕ} {f : Fin n → Except PyErr α} {g : Fin n → α}, traverseFin f = .ok g → ∀ i, f i = .ok (g i)
  | 0, _, _, _ => fun i => i.elim0
  | n + 1, f, g, h => by
    rw [traverseFin] at h
    cases e : f 0 with
    | error e' => rw [e] at h; cases h
    | ok a =>
      cases e2 : traverseFin (Fin.tail f) with
      | error e' => simp only [e, e2, bind, Except.bind] at h; cases h
      | ok r =>
        simp only [e, e2, bind, Except.bind, pure, Except.pure] at h
        injection h with h
        subst h
        intro i
        refine Fin.cases ?_ (fun j => ?_) i
        · simpa using e
        · simp only [Fin.cons_succ]
          exact traverseFin_inv e2 j

/-- **C112 (finite values).** At finite points, and with exact arithmetic, the interpolation in floating point numbers on the simplex of the point is the exact one. -/
theorem C112_triangulation_finite [FloorRing K] {A : Arith K} (hA : ExactArith A) (t : Tri K d) (eps : K) (params : List (Fin o → K)) (x : Fin d → K)
    (value : Fin o → K) (h : t.evaluate eps params x = .ok value) :
    ∃ (id : ℤ) (simplex : Fin (d + 1) → ℕ) (origin : Fin d → K) (hyper : Matrix (Fin d) (Fin d) K) (corners : Fin (d + 1) → Fin o → K),
      t.findSimplex eps x = .ok id ∧ t.simplices id = .ok simplex ∧ t.disc.indexToState (simplex 0) = .ok origin ∧
      rowAt t.hyperplanes (id % (t.triangulation.nsimplex : ℤ)).toNat = .ok hyper ∧ (∀ j, rowAt params (simplex j) = .ok (corners j)) ∧
      ∀ l, evaluate A t.disc t.project (finVec origin) (fun i => finVec (hyper i)) (List.ofFn fun j => fin (corners j l)) (finVec x) = fin (value l) := by
  obtain ⟨id, hid⟩ : ∃ id, t.findSimplex eps x = .ok id := by
    unfold Tri.evaluate Tri.getWeights at h
    cases e : t.findSimplex eps x with
    | ok id => exact ⟨id, rfl⟩
    | error e' => rw [e] at h; cases h
  obtain ⟨simplex, hsim⟩ : ∃ simplex, t.simplices id = .ok simplex := by
    unfold Tri.evaluate Tri.getWeights at h
    cases e : t.simplices id with
    | ok id => exact ⟨id, rfl⟩
    | error e' => rw [hid] at h; simp only [bind, Except.bind, e] at h; cases h
  obtain ⟨origin, hor⟩ : ∃ origin, t.disc.indexToState (simplex 0) = .ok origin := by
    unfold Tri.evaluate Tri.getWeights at h
    cases e : t.disc.indexToState (simplex 0) with
    | ok id => exact ⟨id, rfl⟩
    | error e' => rw [hid] at h; simp only [bind, Except.bind, hsim, e] at h; cases h
  obtain ⟨hyper, hhy⟩ : ∃ hyper, rowAt t.hyperplanes (id % (t.triangulation.nsimplex : ℤ)).toNat = .ok hyper := by
    unfold Tri.evaluate Tri.getWeights at h
    cases e : rowAt t.hyperplanes (id % (t.triangulation.nsimplex : ℤ)).toNat with
    | ok id => exact ⟨id, rfl⟩
    | error e' => rw [hid] at h; simp only [bind, Except.bind, hsim, hor, e] at h; cases h
  have hw : t.getWeights eps x = .ok (Fin.cons (1 - ∑ j, ∑ i, (t.projected x i - origin i) * hyper i j)
      (fun j => ∑ i, (t.projected x i - origin i) * hyper i j), simplex) := by
    unfold Tri.getWeights
    simp only [hid, hsim, hor, hhy, bind, Except.bind]
    rfl
  obtain ⟨corners, hc⟩ : ∃ corners : Fin (d + 1) → Fin o → K, ∀ j, rowAt params (simplex j) = .ok (corners j) := by
    unfold Tri.evaluate at h
    rw [hw] at h
    cases e : traverseFin fun j => rowAt params (simplex j) with
    | ok c => exact ⟨c, traverseFin_inv e⟩
    | error e' => simp only [bind, Except.bind, e] at h; cases h
  refine ⟨id, simplex, origin, hyper, corners, hid, hsim, hor, hhy, hc, fun l => ?_⟩
  have hv : t.evaluate eps params x = .ok fun l => ∑ j, (Fin.cons (1 - ∑ j, ∑ i, (t.projected x i - origin i) * hyper i j)
      (fun j => ∑ i, (t.projected x i - origin i) * hyper i j) : Fin (d + 1) → K) j * corners j l := by
    unfold Tri.evaluate
    simp only [hw, bind, Except.bind]
    rw [traverseFin_ok hc]
    rfl
  rw [h] at hv
  injection hv with hv
  subst hv
  have hx : (if t.project then fun i => clip (finVec x i) (t.disc.lo i) (t.disc.hi i) else finVec x) = finVec (t.projected x) := by
    unfold Tri.projected
    split_ifs <;> rfl
  have hwts : weights A t.disc t.project (finVec origin) (fun i => finVec (hyper i)) (finVec x) =
      (List.ofFn (Fin.cons (1 - ∑ j, ∑ i, (t.projected x i - origin i) * hyper i j)
        (fun j => ∑ i, (t.projected x i - origin i) * hyper i j) : Fin (d + 1) → K)).map fin := by
    unfold weights
    simp only [hx]
    have h1 : ∀ k, Flt.sum A (List.ofFn fun i => mul A (sub A (finVec (t.projected x) i) (finVec origin i)) (finVec (hyper i) k)) =
        fin (∑ i, (t.projected x i - origin i) * hyper i k) := fun k =>
      exact_sum hA (fun i => (t.projected x i - origin i) * hyper i k) _ fun i => by
        simp only [finVec, exact_sub hA, exact_mul hA]
    simp only [h1]
    rw [exact_sum hA (fun k => ∑ i, (t.projected x i - origin i) * hyper i k) _ fun k => rfl, exact_sub hA, List.ofFn_succ, List.map_cons,
      List.map_ofFn]
    rfl
  unfold evaluate
  rw [hwts]
  generalize (Fin.cons (1 - ∑ j, ∑ i, (t.projected x i - origin i) * hyper i j)
    (fun j => ∑ i, (t.projected x i - origin i) * hyper i j) : Fin (d + 1) → K) = w
  have hz : List.zipWith (mul A) ((List.ofFn w).map fin) (List.ofFn fun j => fin (corners j l)) = List.ofFn fun j => fin (w j * corners j l) := by
    apply List.ext_getElem
    · simp
    · intro k h1 h2
      simp only [List.getElem_zipWith, List.getElem_map, List.getElem_ofFn, exact_mul hA]
  rw [hz]
  exact exact_sum hA _ _ fun j => rfl

/-- At the point `(0.3, 4.9)` the interpolation of an affine function on a grid with twelve points is `-13.1`, also in floating point numbers. -/
example (t : Tri ℚ 2) (ht : Tri.new exampleGrid (delaunay2D exampleGrid.unit) false = .ok t) :
    ∃ (origin : Fin 2 → ℚ) (hyper : Matrix (Fin 2) (Fin 2) ℚ) (corners : Fin 3 → Fin 1 → ℚ),
      evaluate rationalArith t.disc t.project (finVec origin) (fun i => finVec (hyper i)) (List.ofFn fun j => fin (corners j 0)) (finVec ![3 / 10, 49 / 10]) =
        fin (-131 / 10) := by
  have h : t.evaluate (1 / 1000) affineParams ![3 / 10, 49 / 10] = .ok fun _ => -131 / 10 := by
    rw [C10_affine_exact exampleSetup ht _ _ affineParams affineParams_length affineParams_spec]
    congr 1
    funext l
    simp [Fin.sum_univ_two]; norm_num
  obtain ⟨-, -, origin, hyper, corners, -, -, -, -, -, h⟩ := C112_triangulation_finite rationalArith_exact t _ _ _ _ h
  exact ⟨origin, hyper, corners, h 0⟩

end SafeLearning.FltGrid
