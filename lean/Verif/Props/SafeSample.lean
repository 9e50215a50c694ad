import Verif.Props.UniqueRows
import Verif.Props.Grid
import Mathlib.Data.Prod.Lex
set_option autoImplicit false

/-!
# Properties C34, C35, C36: `get_safe_sample`
-/

set_option linter.unusedSectionVars false

namespace SafeLearning

variable {K : Type} [Field K] [LinearOrder K] [IsStrictOrderedRing K] {n m : ℕ}

theorem argmax_foldl (l pre : List K) (k : ℕ) (v : K) (hk : pre[k]? = some v)
    (hle : ∀ x ∈ pre, x ≤ v) (hlt : ∀ j < k, ∀ x, pre[j]? = some x → x < v) :
    ∃ k' v', (l.foldl (fun (s : ℕ × ℕ × K) b =>
        if s.2.2 < b then (s.1 + 1, s.1, b) else (s.1 + 1, s.2.1, s.2.2)) (pre.length, k, v))
          = ((pre ++ l).length, k', v') ∧ (pre ++ l)[k']? = some v' ∧
      (∀ x ∈ pre ++ l, x ≤ v') ∧ ∀ j < k', ∀ x, (pre ++ l)[j]? = some x → x < v' := by
  induction l generalizing pre k v with
  | nil => exact ⟨k, v, by simp, by simpa using hk, by simpa using hle, by simpa using hlt⟩
  | cons b l ih =>
    have hklt : k < pre.length := (List.getElem?_eq_some_iff.mp hk).1
    have happ : pre ++ b :: l = (pre ++ [b]) ++ l := by simp
    rw [happ, List.foldl_cons]
    have hlen : pre.length + 1 = (pre ++ [b]).length := by simp
    by_cases hb : v < b
    · simp only [hb, if_true]
      rw [hlen]
      refine ih (pre ++ [b]) pre.length b (by simp) ?_ ?_
      · intro x hx
        rcases List.mem_append.mp hx with hx | hx
        · exact (hle x hx).trans hb.le
        · simp only [List.mem_singleton] at hx; rw [hx]
      · intro j hj x hx
        rw [List.getElem?_append_left hj] at hx
        exact (hle x (List.mem_of_getElem? hx)).trans_lt hb
    · simp only [hb, if_false]
      rw [hlen]
      refine ih (pre ++ [b]) k v (by rw [List.getElem?_append_left hklt, hk]) ?_ ?_
      · intro x hx
        rcases List.mem_append.mp hx with hx | hx
        · exact hle x hx
        · simp only [List.mem_singleton] at hx; rw [hx]; exact not_lt.mp hb
      · intro j hj x hx
        rw [List.getElem?_append_left (hj.trans hklt)] at hx
        exact hlt j hj x hx

/-- `argmaxFirst` returns the first position of a largest entry. -/
theorem argmaxFirst_spec (l : List K) (hl : l ≠ []) :
    ∃ k v, argmaxFirst l = .ok k ∧ l[k]? = some v ∧ (∀ x ∈ l, x ≤ v) ∧
      ∀ j < k, ∀ x, l[j]? = some x → x < v := by
  cases l with
  | nil => exact absurd rfl hl
  | cons a l =>
    obtain ⟨k, v, h1, h2, h3, h4⟩ := argmax_foldl l [a] 0 a rfl (by simp) (by simp)
    refine ⟨k, v, ?_, h2, h3, h4⟩
    rw [argmaxFirst]
    have : (1, 0, a) = (([a] : List K).length, 0, a) := rfl
    rw [this, h1]

namespace SampleSystem

variable (S : SampleSystem K n m)

theorem mostUncertain_ok (backup : Bool) (l : List (Pair K n m)) (hl : l ≠ []) :
    ∃ p ∈ l, S.mostUncertain backup l = .ok { backup := backup, pair := p, bound := S.bound p } ∧
      ∀ q ∈ l, S.bound q ≤ S.bound p := by
  obtain ⟨k, v, h1, h2, h3, -⟩ := argmaxFirst_spec (l.map S.bound) (by simpa using hl)
  rw [List.getElem?_map] at h2
  cases hk : l[k]? with
  | none => rw [hk] at h2; simp at h2
  | some p =>
    rw [hk] at h2
    simp only [Option.map_some, Option.some.injEq] at h2
    refine ⟨p, List.mem_of_getElem? hk, ?_, fun q hq => ?_⟩
    · unfold mostUncertain
      rw [h1]
      simp only [bind, Except.bind, hk]
      rfl
    · rw [h2]; exact h3 _ (List.mem_map_of_mem hq)

theorem mostUncertain_nil (backup : Bool) :
    S.mostUncertain backup [] = .error .valueError := rfl

/-- The test that a pair has to pass, in the words of the documentation: the upper bound of the next
value is below `c_max` and, unless `positive`, the expected next state is in the safe set. -/
def Passes [FloorRing K] (positive : Bool) (p : Pair K n m) : Prop :=
  S.V (S.dynamics p).1 + ∑ i, S.lv.entry (S.dynamics p).1 i * (S.dynamics p).2 i < S.cMax ∧
    (positive = false → ∃ k, S.grid.stateToIndex (List.ofFn (S.dynamics p).1) = .ok k ∧
      S.safeSet k = true)

theorem accepted_spec [FloorRing K] (h2 : ∀ i, 2 ≤ S.grid.num i)
    (hlt : ∀ i, S.grid.lo i < S.grid.hi i) (positive : Bool) (p : Pair K n m) :
    ∃ b, S.accepted positive p = .ok b ∧ (b = true ↔ S.Passes positive p) := by
  unfold accepted Passes
  cases positive with
  | true => exact ⟨_, rfl, by simp [mapsInside]⟩
  | false =>
    obtain ⟨k, q, hk, -⟩ := GridWorld.C02_state_to_index_nearest S.grid h2 hlt (S.dynamics p).1
    have : S.safeInExpectation p = .ok (S.safeSet k) := by
      unfold safeInExpectation; rw [hk]; rfl
    rw [this]
    refine ⟨_, rfl, ?_⟩
    simp [mapsInside, hk]

/-- The action after clipping to the limits, if there are any. -/
def _root_.Spec.limited (limits : Option (Fin m → K × K)) (u : Fin m → K) : Fin m → K :=
  match limits with
  | none => u
  | some l => fun j => min (max (u j) (l j).1) (l j).2

theorem mem_zip_map {α γ : Type} (l : List α) (f : α → γ) (q : α × γ) :
    q ∈ l.zip (l.map f) ↔ ∃ s ∈ l, q = (s, f s) := by
  induction l with
  | nil => simp
  | cons a l ih => simp [ih]

theorem perturbActions_mem {β : Type} [LinearOrder β] (key : Pair K n m → β)
    (hkey : Function.Injective key) (states : List (Fin n → K)) (policy : (Fin n → K) → Fin m → K)
    (ps : List (Fin m → K)) (limits : Option (Fin m → K × K)) :
    ∃ rows, perturbActions key states (states.map policy) ps limits = .ok rows ∧
      ∀ r, r ∈ rows ↔ ∃ s ∈ states, ∃ p ∈ ps, r = (s, Spec.limited limits (policy s + p)) := by
  have hmem : ∀ r, r ∈ ((states.zip (states.map policy)).flatMap fun sa =>
      ps.map fun p => ((sa.1, sa.2 + p) : Pair K n m)) ↔
      ∃ s ∈ states, ∃ p ∈ ps, r = (s, policy s + p) := by
    intro r
    simp only [List.mem_flatMap, List.mem_map, mem_zip_map]
    constructor
    · rintro ⟨_, ⟨s, hs, rfl⟩, p, hp, rfl⟩; exact ⟨s, hs, p, hp, rfl⟩
    · rintro ⟨s, hs, p, hp, rfl⟩; exact ⟨_, ⟨s, hs, rfl⟩, p, hp, rfl⟩
  rw [perturbActions, if_pos (by simp)]
  simp only [perturbed_eq states (states.map policy) ps (by simp)]
  cases limits with
  | none => exact ⟨_, rfl, hmem⟩
  | some l =>
    refine ⟨_, rfl, fun r => ?_⟩
    rw [(C42_unique_rows_values key hkey _).2, List.mem_map]
    constructor
    · rintro ⟨q, hq, rfl⟩
      obtain ⟨s, hs, p, hp, rfl⟩ := (hmem q).mp hq
      exact ⟨s, hs, p, hp, rfl⟩
    · rintro ⟨s, hs, p, hp, rfl⟩
      exact ⟨_, (hmem _).mpr ⟨s, hs, p, hp, rfl⟩, rfl⟩

theorem mem_safeStates (s : Fin n → K) :
    s ∈ S.safeStates ↔ ∃ k < S.grid.nindex, S.safeSet k = true ∧ s = gridState S.grid k := by
  simp only [safeStates, List.mem_map, List.mem_filter, List.mem_range]
  constructor
  · rintro ⟨k, ⟨h1, h2⟩, rfl⟩; exact ⟨k, h1, h2, rfl⟩
  · rintro ⟨k, h1, h2, rfl⟩; exact ⟨k, ⟨h1, h2⟩, rfl⟩

theorem mem_of_mapM_ok {α γ : Type} (f : α → Except PyErr γ) (l : List α) (r : List γ)
    (h : l.mapM f = .ok r) : ∀ y ∈ r, ∃ x ∈ l, f x = .ok y := by
  induction l generalizing r with
  | nil =>
    rw [List.mapM_nil] at h
    cases h; simp
  | cons a l ih =>
    rw [List.mapM_cons] at h
    cases ha : f a with
    | error e => rw [ha] at h; cases h
    | ok y =>
      cases hl : l.mapM f with
      | error e => rw [ha, hl] at h; cases h
      | ok ys =>
        rw [ha, hl] at h
        cases h
        intro z hz
        rcases List.mem_cons.mp hz with rfl | hz
        · exact ⟨a, by simp, ha⟩
        · obtain ⟨x, hx, hxz⟩ := ih ys hl z hz
          exact ⟨x, by simp [hx], hxz⟩

theorem sampledStates_sub {idx : Option (List ℕ)} {states} (h : S.sampledStates idx = .ok states) :
    ∀ s ∈ states, s ∈ S.safeStates := by
  cases idx with
  | none => cases h; exact fun s hs => hs
  | some l =>
    intro s hs
    obtain ⟨k, -, hk⟩ := mem_of_mapM_ok _ _ _ h s hs
    cases he : S.safeStates[k]? with
    | none => rw [he] at hk; cases hk
    | some x =>
      rw [he] at hk
      cases hk
      exact List.mem_of_getElem? he

theorem mask_filter [FloorRing K] (h2 : ∀ i, 2 ≤ S.grid.num i)
    (hlt : ∀ i, S.grid.lo i < S.grid.hi i) (positive : Bool) (l : List (Pair K n m)) :
    ∃ mask, l.mapM (fun p => S.accepted positive p) = .ok mask ∧
      ∀ q, q ∈ ((l.zip mask).filter fun q => q.2).map (fun q => q.1) ↔
        q ∈ l ∧ S.Passes positive q := by
  induction l with
  | nil => exact ⟨[], rfl, by simp⟩
  | cons a l ih =>
    obtain ⟨mask, hm, hq⟩ := ih
    obtain ⟨b, hb, hbp⟩ := S.accepted_spec h2 hlt positive a
    refine ⟨b :: mask, by rw [List.mapM_cons, hb, hm]; rfl, fun q => ?_⟩
    rw [List.zip_cons_cons, List.filter_cons]
    cases b with
    | true =>
      have ha := hbp.mp rfl
      simp only [if_true, List.map_cons, List.mem_cons, hq]
      constructor
      · rintro (rfl | ⟨h1, h2⟩)
        · exact ⟨.inl rfl, ha⟩
        · exact ⟨.inr h1, h2⟩
      · rintro ⟨rfl | h1, h2⟩
        · exact .inl rfl
        · exact .inr ⟨h1, h2⟩
    | false =>
      have ha : ¬ S.Passes positive a := fun h => by simpa using hbp.mpr h
      simp only [Bool.false_eq_true, if_false, hq, List.mem_cons]
      constructor
      · rintro ⟨h1, h2⟩; exact ⟨.inr h1, h2⟩
      · rintro ⟨rfl | h1, h2⟩
        · exact absurd h2 ha
        · exact ⟨h1, h2⟩

/-- The result of `get_safe_sample` in terms of the candidates. -/
theorem getSafeSample_spec [FloorRing K] {β : Type} [LinearOrder β] (key : Pair K n m → β)
    (h2 : ∀ i, 2 ≤ S.grid.num i) (hlt : ∀ i, S.grid.lo i < S.grid.hi i)
    (ps : Option (List (Fin m → K))) (limits : Option (Fin m → K × K)) (positive : Bool)
    (idx : Option (List ℕ)) (actions : List (Fin m → K))
    (states : List (Fin n → K)) (hs : S.sampledStates idx = .ok states)
    (cands : List (Pair K n m)) (hc : S.candidates key states ps limits actions = .ok cands) :
    (∃ p ∈ cands, S.Passes positive p ∧
        S.getSafeSample key ps limits positive idx actions
          = .ok { backup := false, pair := p, bound := S.bound p } ∧
        ∀ q ∈ cands, S.Passes positive q → S.bound q ≤ S.bound p) ∨
    ((∀ q ∈ cands, ¬ S.Passes positive q) ∧
      S.getSafeSample key ps limits positive idx actions
        = S.backupSample key states ps limits) := by
  obtain ⟨mask, hm, hq⟩ := S.mask_filter h2 hlt positive cands
  have hrun : S.getSafeSample key ps limits positive idx actions =
      (let safe := ((cands.zip mask).filter fun q => q.2).map fun q => q.1
      if safe.length = 0 then S.backupSample key states ps limits
      else S.mostUncertain false safe) := by
    unfold getSafeSample
    rw [hs]
    simp only [bind, Except.bind]
    rw [hc]
    simp only
    rw [hm]
  generalize hsafe : ((cands.zip mask).filter fun q => q.2).map (fun q => q.1) = safe at hq hrun
  simp only at hrun
  by_cases h0 : safe.length = 0
  · right
    rw [if_pos h0] at hrun
    refine ⟨fun q hqc hp => ?_, hrun⟩
    have := (hq q).mpr ⟨hqc, hp⟩
    rw [List.length_eq_zero_iff.mp h0] at this
    cases this
  · left
    rw [if_neg h0] at hrun
    obtain ⟨p, hp, hmu, hmax⟩ := S.mostUncertain_ok false safe
      (fun h => h0 (by rw [h]; rfl))
    obtain ⟨hpc, hpp⟩ := (hq p).mp hp
    exact ⟨p, hpc, hpp, hrun.trans hmu, fun q hqc hqp => hmax q ((hq q).mpr ⟨hqc, hqp⟩)⟩


theorem backupSample_spec {β : Type} [LinearOrder β] (key : Pair K n m → β)
    (hkey : Function.Injective key) (states : List (Fin n → K)) (ps : List (Fin m → K))
    (limits : Option (Fin m → K × K)) :
    (states = [] ∧ S.backupSample key states (some ps) limits = .error .valueError) ∨
    ∃ s ∈ states, S.backupSample key states (some ps) limits = .ok
        { backup := true, pair := (s, Spec.limited limits (S.policy s)),
          bound := S.bound (s, Spec.limited limits (S.policy s)) } ∧
      ∀ t ∈ states, S.bound (t, Spec.limited limits (S.policy t))
        ≤ S.bound (s, Spec.limited limits (S.policy s)) := by
  obtain ⟨rows, hr, hmem⟩ := perturbActions_mem key hkey states S.policy [0] limits
  have hmem' : ∀ r, r ∈ rows ↔ ∃ s ∈ states, r = (s, Spec.limited limits (S.policy s)) := by
    intro r; rw [hmem]; simp
  have hrun : S.backupSample key states (some ps) limits = S.mostUncertain true rows := by
    unfold backupSample; simp only [hr, bind, Except.bind]
  by_cases hrows : rows = []
  · left
    refine ⟨?_, by rw [hrun, hrows]; rfl⟩
    rcases states with _ | ⟨s, l⟩
    · rfl
    · have := (hmem' (s, Spec.limited limits (S.policy s))).mpr ⟨s, by simp, rfl⟩
      rw [hrows] at this; cases this
  · right
    obtain ⟨p, hp, hmu, hmax⟩ := S.mostUncertain_ok true rows hrows
    obtain ⟨s, hs, rfl⟩ := (hmem' p).mp hp
    exact ⟨s, hs, hrun.trans hmu, fun t ht => hmax _ ((hmem' _).mpr ⟨t, ht, rfl⟩)⟩

theorem candidates_some {β : Type} [LinearOrder β] (key : Pair K n m → β)
    (hkey : Function.Injective key) (states : List (Fin n → K)) (ps actions : List (Fin m → K))
    (limits : Option (Fin m → K × K)) :
    ∃ rows, S.candidates key states (some ps) limits actions = .ok rows ∧
      ∀ r, r ∈ rows ↔ ∃ s ∈ states, ∃ p ∈ ps, r = (s, Spec.limited limits (S.policy s + p)) :=
  perturbActions_mem key hkey states S.policy ps limits

theorem candidates_none {β : Type} [LinearOrder β] (key : Pair K n m → β)
    (states : List (Fin n → K)) (actions : List (Fin m → K)) (limits : Option (Fin m → K × K)) :
    S.candidates key states none limits actions = .error .valueError ∨
    ∃ rows, S.candidates key states none limits actions = .ok rows ∧ n = 1 ∧ m = 1 ∧
      ∀ r, r ∈ rows ↔ ∃ s ∈ states, ∃ a ∈ actions, r = (s, a) := by
  unfold candidates
  by_cases h : n = 1 ∧ m = 1
  · right
    refine ⟨_, if_pos h, h.1, h.2, fun r => ?_⟩
    simp only [List.mem_flatMap, List.mem_map]
    constructor
    · rintro ⟨s, hs, a, ha, rfl⟩; exact ⟨s, hs, a, ha, rfl⟩
    · rintro ⟨s, hs, a, ha, rfl⟩; exact ⟨s, hs, a, ha, rfl⟩
  · exact .inl (if_neg h)

/-- `x` is a grid point that belongs to the safe set. -/
def IsSafeGridState (x : Fin n → K) : Prop :=
  ∃ k, Spec.IsGridPoint S.grid.lo S.grid.hi S.grid.num k x ∧ S.safeSet k = true

theorem isSafeGridState_iff (x : Fin n → K) : S.IsSafeGridState x ↔ x ∈ S.safeStates := by
  rw [mem_safeStates]
  constructor
  · rintro ⟨k, ⟨ijk, h1, rfl, h2⟩, h3⟩
    rw [Spec.rowMajor, ← ravel_eq_sum] at h3
    refine ⟨_, ravel_lt _ _ h1, h3, ?_⟩
    funext i
    rw [h2 i, gridState, unravel_ravel _ _ h1, S.grid.ijkToState_eq_axisPoint]
  · rintro ⟨k, h1, h2, rfl⟩
    exact ⟨k, S.grid.isGridPoint_of_lt k h1, h2⟩

/-! ## C34 -/

/-- The next state expected by the model is mapped by `state_to_index` to a grid point in the safe set, and
that grid point is a nearest one in each coordinate. -/
def ExpectedInSafeSet (x : Fin n → K) : Prop :=
  ∃ p, S.IsSafeGridState p ∧ ∀ i j, j < S.grid.num i →
    |x i - p i| ≤ |x i - Spec.axisPoint (S.grid.lo i) (S.grid.hi i) (S.grid.num i) j|

theorem Passes.expected [FloorRing K] {S : SampleSystem K n m} (h2 : ∀ i, 2 ≤ S.grid.num i)
    (hlt : ∀ i, S.grid.lo i < S.grid.hi i) {positive : Bool} {p : Pair K n m}
    (h : S.Passes positive p) (hp : positive = false) : S.ExpectedInSafeSet (S.dynamics p).1 := by
  obtain ⟨k, hk, hsafe⟩ := h.2 hp
  obtain ⟨k', q, hk', -, -, hq, hnear, -⟩ :=
    GridWorld.C02_state_to_index_nearest S.grid h2 hlt (S.dynamics p).1
  rw [hk] at hk'
  cases hk'
  exact ⟨q, ⟨k, hq, hsafe⟩, hnear⟩

/-- **C34** Unless the backup policy is used, the returned state is a safe grid state, the action is the
policy plus one of the perturbations, clipped to the limits, the upper bound of the next value is
below `c_max` and, for `positive=False`, the expected next state is in the safe set. -/
theorem C34_safe_sample [FloorRing K] {β : Type} [LinearOrder β] (key : Pair K n m → β)
    (hkey : Function.Injective key) (h2 : ∀ i, 2 ≤ S.grid.num i)
    (hlt : ∀ i, S.grid.lo i < S.grid.hi i) (ps : List (Fin m → K))
    (limits : Option (Fin m → K × K)) (positive : Bool) (idx : Option (List ℕ))
    (actions : List (Fin m → K)) (r : Result K n m)
    (hr : S.getSafeSample key (some ps) limits positive idx actions = .ok r)
    (hb : r.backup = false) :
    S.IsSafeGridState r.pair.1 ∧
      (∃ p ∈ ps, r.pair.2 = Spec.limited limits (S.policy r.pair.1 + p)) ∧
      S.V (S.dynamics r.pair).1
        + ∑ i, S.lv.entry (S.dynamics r.pair).1 i * (S.dynamics r.pair).2 i < S.cMax ∧
      (positive = false → S.ExpectedInSafeSet (S.dynamics r.pair).1) := by
  cases hs : S.sampledStates idx with
  | error e => simp [getSafeSample, hs, bind, Except.bind] at hr
  | ok states =>
    obtain ⟨cands, hc, hmem⟩ := S.candidates_some key hkey states ps actions limits
    rcases S.getSafeSample_spec key h2 hlt (some ps) limits positive idx actions states hs cands hc
      with ⟨p, hp, hpass, hrun, -⟩ | ⟨-, hrun⟩
    · rw [hrun] at hr
      cases hr
      obtain ⟨s, hss, q, hq, rfl⟩ := (hmem p).mp hp
      exact ⟨(S.isSafeGridState_iff s).mpr (S.sampledStates_sub hs s hss), ⟨q, hq, rfl⟩, hpass.1,
        hpass.expected h2 hlt⟩
    · rw [hrun] at hr
      rcases S.backupSample_spec key hkey states ps limits with ⟨-, he⟩ | ⟨s, -, he, -⟩
      · rw [he] at hr; cases hr
      · rw [he] at hr; cases hr; cases hb

/-- **C34** with `perturbations=None`: the call returns only if states and actions have one dimension; the
returned state is safe, the action is one of the given actions, and the same tests are passed. -/
theorem C34_safe_sample_actions [FloorRing K] {β : Type} [LinearOrder β] (key : Pair K n m → β)
    (h2 : ∀ i, 2 ≤ S.grid.num i) (hlt : ∀ i, S.grid.lo i < S.grid.hi i)
    (limits : Option (Fin m → K × K)) (positive : Bool) (idx : Option (List ℕ))
    (actions : List (Fin m → K)) (r : Result K n m)
    (hr : S.getSafeSample key none limits positive idx actions = .ok r) :
    n = 1 ∧ m = 1 ∧ r.backup = false ∧ S.IsSafeGridState r.pair.1 ∧ r.pair.2 ∈ actions ∧
      S.V (S.dynamics r.pair).1
        + ∑ i, S.lv.entry (S.dynamics r.pair).1 i * (S.dynamics r.pair).2 i < S.cMax ∧
      (positive = false → S.ExpectedInSafeSet (S.dynamics r.pair).1) := by
  cases hs : S.sampledStates idx with
  | error e => simp [getSafeSample, hs, bind, Except.bind] at hr
  | ok states =>
    rcases S.candidates_none key states actions limits with hc | ⟨cands, hc, hn, hm, hmem⟩
    · simp [getSafeSample, hs, hc, bind, Except.bind] at hr
    · rcases S.getSafeSample_spec key h2 hlt none limits positive idx actions states hs cands hc
        with ⟨p, hp, hpass, hrun, -⟩ | ⟨-, hrun⟩
      · rw [hrun] at hr
        cases hr
        obtain ⟨s, hss, a, ha, rfl⟩ := (hmem p).mp hp
        exact ⟨hn, hm, rfl, (S.isSafeGridState_iff s).mpr (S.sampledStates_sub hs s hss), ha,
          hpass.1, hpass.expected h2 hlt⟩
      · rw [hrun] at hr; cases hr

/-- **C34**, what it is for: if the Lipschitz constant is valid at the predicted mean and the true next
state is within the error bounds, the true next state has a value below `c_max`. -/
theorem C34_true_next_state_inside [FloorRing K] {β : Type} [LinearOrder β]
    (key : Pair K n m → β) (hkey : Function.Injective key) (h2 : ∀ i, 2 ≤ S.grid.num i)
    (hlt : ∀ i, S.grid.lo i < S.grid.hi i) (ps : List (Fin m → K))
    (limits : Option (Fin m → K × K)) (positive : Bool) (idx : Option (List ℕ))
    (actions : List (Fin m → K)) (r : Result K n m)
    (hr : S.getSafeSample key (some ps) limits positive idx actions = .ok r)
    (hb : r.backup = false) (next : Fin n → K)
    (hnext : ∀ i, |next i - (S.dynamics r.pair).1 i| ≤ (S.dynamics r.pair).2 i)
    (hlv : ∀ i, 0 ≤ S.lv.entry (S.dynamics r.pair).1 i)
    (hlip : |S.V next - S.V (S.dynamics r.pair).1|
      ≤ ∑ i, S.lv.entry (S.dynamics r.pair).1 i * |next i - (S.dynamics r.pair).1 i|) :
    S.V next < S.cMax := by
  obtain ⟨-, -, h, -⟩ := S.C34_safe_sample key hkey h2 hlt ps limits positive idx actions r hr hb
  have h1 : ∑ i, S.lv.entry (S.dynamics r.pair).1 i * |next i - (S.dynamics r.pair).1 i|
      ≤ ∑ i, S.lv.entry (S.dynamics r.pair).1 i * (S.dynamics r.pair).2 i :=
    Finset.sum_le_sum fun i _ => mul_le_mul_of_nonneg_left (hnext i) (hlv i)
  have h3 := (abs_le.mp hlip).2
  linarith

/-! ## C35 -/

/-- **C35** The returned uncertainty is that of the returned pair and is maximal among all safe grid
states and perturbations that pass the test. -/
theorem C35_most_uncertain [FloorRing K] {β : Type} [LinearOrder β] (key : Pair K n m → β)
    (hkey : Function.Injective key) (h2 : ∀ i, 2 ≤ S.grid.num i)
    (hlt : ∀ i, S.grid.lo i < S.grid.hi i) (ps : List (Fin m → K))
    (limits : Option (Fin m → K × K)) (positive : Bool)
    (actions : List (Fin m → K)) (r : Result K n m)
    (hr : S.getSafeSample key (some ps) limits positive none actions = .ok r)
    (hb : r.backup = false) :
    r.bound = ∑ i, (S.dynamics r.pair).2 i ∧
      ∀ x, S.IsSafeGridState x → ∀ p ∈ ps,
        S.Passes positive (x, Spec.limited limits (S.policy x + p)) →
        ∑ i, (S.dynamics (x, Spec.limited limits (S.policy x + p))).2 i ≤ r.bound := by
  obtain ⟨cands, hc, hmem⟩ := S.candidates_some key hkey S.safeStates ps actions limits
  rcases S.getSafeSample_spec key h2 hlt (some ps) limits positive none actions S.safeStates rfl
    cands hc with ⟨p, hp, hpass, hrun, hmax⟩ | ⟨-, hrun⟩
  · rw [hrun] at hr
    cases hr
    refine ⟨rfl, fun x hx q hq hpq => ?_⟩
    exact hmax _ ((hmem _).mpr ⟨x, (S.isSafeGridState_iff x).mp hx, q, hq, rfl⟩) hpq
  · rw [hrun] at hr
    rcases S.backupSample_spec key hkey S.safeStates ps limits with ⟨-, he⟩ | ⟨s, -, he, -⟩
    · rw [he] at hr; cases hr
    · rw [he] at hr; cases hr; cases hb

/-- `x` is safe grid state number `k`: there are `k` safe grid states with a smaller index. -/
def IsSafeStateNumber (k : ℕ) (x : Fin n → K) : Prop :=
  ∃ j, Spec.IsGridPoint S.grid.lo S.grid.hi S.grid.num j x ∧ S.safeSet j = true ∧ (List.range j).countP S.safeSet = k

theorem filter_range_getElem? (p : ℕ → Bool) (N k j : ℕ) :
    ((List.range N).filter p)[k]? = some j ↔ j < N ∧ p j = true ∧ (List.range j).countP p = k := by
  induction N with
  | zero => simp
  | succ N ih =>
    rw [List.range_succ, List.filter_append]
    have hlen : ((List.range N).filter p).length = (List.range N).countP p := (List.countP_eq_length_filter).symm
    by_cases hk : k < ((List.range N).filter p).length
    · rw [List.getElem?_append_left hk, ih]
      constructor
      · rintro ⟨h1, h2, h3⟩
        exact ⟨by omega, h2, h3⟩
      · rintro ⟨h1, h2, h3⟩
        refine ⟨?_, h2, h3⟩
        by_contra h
        have : j = N := by omega
        subst this
        omega
    · rw [List.getElem?_append_right (by omega)]
      cases hp : p N with
      | false =>
        simp only [List.filter_cons, hp, List.filter_nil, Bool.false_eq_true, if_false, List.getElem?_nil, false_iff, reduceCtorEq]
        rintro ⟨h1, h2, h3⟩
        have hj : j < N := by
          rcases Nat.lt_succ_iff_lt_or_eq.mp h1 with h | rfl
          · exact h
          · rw [hp] at h2; cases h2
        have := ih.mpr ⟨hj, h2, h3⟩
        rw [List.getElem?_eq_some_iff] at this
        exact hk this.1
      | true =>
        simp only [List.filter_cons, hp, List.filter_nil, if_true]
        constructor
        · intro h
          rw [List.getElem?_eq_some_iff] at h
          obtain ⟨h1, h2⟩ := h
          simp only [List.length_singleton] at h1
          have : j = N := by simpa [show k - ((List.range N).filter p).length = 0 by omega] using h2.symm
          subst this
          exact ⟨by omega, hp, by omega⟩
        · rintro ⟨h1, h2, h3⟩
          have hj : j = N := by
            by_contra hne
            have := ih.mpr ⟨by omega, h2, h3⟩
            rw [List.getElem?_eq_some_iff] at this
            exact hk this.1
          subst hj
          simp [show k - ((List.range j).filter p).length = 0 by omega]

theorem safeStates_getElem? (k : ℕ) (x : Fin n → K) : S.safeStates[k]? = some x ↔ S.IsSafeStateNumber k x := by
  unfold safeStates IsSafeStateNumber
  rw [List.getElem?_map, Option.map_eq_some_iff]
  constructor
  · rintro ⟨j, h, rfl⟩
    obtain ⟨h1, h2, h3⟩ := (filter_range_getElem? _ _ _ _).mp h
    exact ⟨j, S.grid.isGridPoint_of_lt j h1, h2, h3⟩
  · rintro ⟨j, ⟨ijk, h1, rfl, h2⟩, h3, h4⟩
    rw [Spec.rowMajor, ← ravel_eq_sum] at h3 h4
    refine ⟨_, (filter_range_getElem? _ _ _ _).mpr ⟨ravel_lt _ _ h1, h3, h4⟩, ?_⟩
    funext i
    rw [h2 i, gridState, unravel_ravel _ _ h1, S.grid.ijkToState_eq_axisPoint]

theorem mem_sampledStates (idx : List ℕ) (states : List (Fin n → K)) (h : S.sampledStates (some idx) = .ok states) (x : Fin n → K) :
    x ∈ states ↔ ∃ k ∈ idx, S.IsSafeStateNumber k x := by
  simp only [← safeStates_getElem?]
  unfold sampledStates at h
  simp only at h
  induction idx generalizing states with
  | nil =>
    rw [List.mapM_nil] at h
    cases h
    simp
  | cons k idx ih =>
    rw [List.mapM_cons] at h
    cases hk : S.safeStates[k]? with
    | none => rw [hk] at h; simp [bind, Except.bind] at h
    | some y =>
      rw [hk] at h
      simp only [bind, Except.bind] at h
      split at h
      · cases h
      · rename_i rest hrest
        cases h
        rw [List.mem_cons, ih rest hrest]
        constructor
        · rintro (rfl | ⟨q, hq, hx⟩)
          · exact ⟨k, List.mem_cons_self, hk⟩
          · exact ⟨q, List.mem_cons_of_mem _ hq, hx⟩
        · rintro ⟨q, hq, hx⟩
          rcases List.mem_cons.mp hq with rfl | hq
          · rw [hk] at hx; cases hx; exact Or.inl rfl
          · exact Or.inr ⟨q, hq, hx⟩

/-- **C35** with subsampling of the safe states: the returned state is one of those with the drawn numbers, and the maximum is over these states. -/
theorem C35_most_uncertain_subsampled [FloorRing K] {β : Type} [LinearOrder β]
    (key : Pair K n m → β) (hkey : Function.Injective key) (h2 : ∀ i, 2 ≤ S.grid.num i)
    (hlt : ∀ i, S.grid.lo i < S.grid.hi i) (ps : List (Fin m → K))
    (limits : Option (Fin m → K × K)) (positive : Bool) (idx : List ℕ)
    (actions : List (Fin m → K)) (r : Result K n m)
    (hr : S.getSafeSample key (some ps) limits positive (some idx) actions = .ok r)
    (hb : r.backup = false) :
    r.bound = ∑ i, (S.dynamics r.pair).2 i ∧ (∃ k ∈ idx, S.IsSafeStateNumber k r.pair.1) ∧
      ∀ k ∈ idx, ∀ x, S.IsSafeStateNumber k x → ∀ p ∈ ps,
        S.Passes positive (x, Spec.limited limits (S.policy x + p)) →
        ∑ i, (S.dynamics (x, Spec.limited limits (S.policy x + p))).2 i ≤ r.bound := by
  cases hs : S.sampledStates (some idx) with
  | error e => simp [getSafeSample, hs, bind, Except.bind] at hr
  | ok states =>
    have hst := S.mem_sampledStates idx states hs
    obtain ⟨cands, hc, hmem⟩ := S.candidates_some key hkey states ps actions limits
    rcases S.getSafeSample_spec key h2 hlt (some ps) limits positive (some idx) actions states hs
      cands hc with ⟨p, hp, hpass, hrun, hmax⟩ | ⟨-, hrun⟩
    · rw [hrun] at hr
      cases hr
      refine ⟨rfl, ?_, fun k hk x hx q hq hpq => hmax _ ((hmem _).mpr ⟨x, (hst x).mpr ⟨k, hk, hx⟩, q, hq, rfl⟩) hpq⟩
      obtain ⟨x, hx, q, hq, rfl⟩ := (hmem p).mp hp
      exact (hst x).mp hx
    · rw [hrun] at hr
      rcases S.backupSample_spec key hkey states ps limits with ⟨-, he⟩ | ⟨s, -, he, -⟩
      · rw [he] at hr; cases hr
      · rw [he] at hr; cases hr; cases hb

/-! ## C36 -/

/-- **C36** The backup policy (with a warning) is used only if no pair passes the test; it returns a safe grid
state with the clipped action of the policy, of largest uncertainty among these. -/
theorem C36_backup [FloorRing K] {β : Type} [LinearOrder β] (key : Pair K n m → β)
    (hkey : Function.Injective key) (h2 : ∀ i, 2 ≤ S.grid.num i)
    (hlt : ∀ i, S.grid.lo i < S.grid.hi i) (ps : List (Fin m → K))
    (limits : Option (Fin m → K × K)) (positive : Bool)
    (actions : List (Fin m → K)) (r : Result K n m)
    (hr : S.getSafeSample key (some ps) limits positive none actions = .ok r) :
    (r.backup = true ↔ ∀ x, S.IsSafeGridState x → ∀ p ∈ ps,
        ¬ S.Passes positive (x, Spec.limited limits (S.policy x + p))) ∧
    (r.backup = true → S.IsSafeGridState r.pair.1 ∧
      r.pair.2 = Spec.limited limits (S.policy r.pair.1) ∧
      r.bound = ∑ i, (S.dynamics r.pair).2 i ∧
      ∀ x, S.IsSafeGridState x →
        ∑ i, (S.dynamics (x, Spec.limited limits (S.policy x))).2 i ≤ r.bound) := by
  obtain ⟨cands, hc, hmem⟩ := S.candidates_some key hkey S.safeStates ps actions limits
  rcases S.getSafeSample_spec key h2 hlt (some ps) limits positive none actions S.safeStates rfl
    cands hc with ⟨p, hp, hpass, hrun, hmax⟩ | ⟨hno, hrun⟩
  · rw [hrun] at hr
    cases hr
    refine ⟨⟨fun h => (by cases h), fun h => ?_⟩, fun h => (by cases h)⟩
    obtain ⟨s, hss, q, hq, rfl⟩ := (hmem p).mp hp
    exact absurd hpass (h s ((S.isSafeGridState_iff s).mpr hss) q hq)
  · rw [hrun] at hr
    rcases S.backupSample_spec key hkey S.safeStates ps limits with ⟨-, he⟩ | ⟨s, hss, he, hmax⟩
    · rw [he] at hr; cases hr
    · rw [he] at hr
      cases hr
      refine ⟨⟨fun _ x hx q hq => ?_, fun _ => rfl⟩, fun _ =>
        ⟨(S.isSafeGridState_iff s).mpr hss, rfl, rfl, fun x hx => ?_⟩⟩
      · exact hno _ ((hmem _).mpr ⟨x, (S.isSafeGridState_iff x).mp hx, q, hq, rfl⟩)
      · exact hmax x ((S.isSafeGridState_iff x).mp hx)

/-- **C36** with subsampling of the safe states: the backup policy is used exactly if no pair with a drawn state passes the test, and the result is
the most uncertain pair of a drawn state and its clipped action. -/
theorem C36_backup_subsampled [FloorRing K] {β : Type} [LinearOrder β] (key : Pair K n m → β)
    (hkey : Function.Injective key) (h2 : ∀ i, 2 ≤ S.grid.num i)
    (hlt : ∀ i, S.grid.lo i < S.grid.hi i) (ps : List (Fin m → K))
    (limits : Option (Fin m → K × K)) (positive : Bool) (idx : List ℕ)
    (actions : List (Fin m → K)) (r : Result K n m)
    (hr : S.getSafeSample key (some ps) limits positive (some idx) actions = .ok r) :
    (r.backup = true ↔ ∀ k ∈ idx, ∀ x, S.IsSafeStateNumber k x → ∀ p ∈ ps,
        ¬ S.Passes positive (x, Spec.limited limits (S.policy x + p))) ∧
    (r.backup = true → (∃ k ∈ idx, S.IsSafeStateNumber k r.pair.1) ∧
      r.pair.2 = Spec.limited limits (S.policy r.pair.1) ∧
      r.bound = ∑ i, (S.dynamics r.pair).2 i ∧
      ∀ k ∈ idx, ∀ x, S.IsSafeStateNumber k x →
        ∑ i, (S.dynamics (x, Spec.limited limits (S.policy x))).2 i ≤ r.bound) := by
  cases hs : S.sampledStates (some idx) with
  | error e => simp [getSafeSample, hs, bind, Except.bind] at hr
  | ok states =>
    have hst := S.mem_sampledStates idx states hs
    obtain ⟨cands, hc, hmem⟩ := S.candidates_some key hkey states ps actions limits
    rcases S.getSafeSample_spec key h2 hlt (some ps) limits positive (some idx) actions states hs
      cands hc with ⟨p, hp, hpass, hrun, hmax⟩ | ⟨hno, hrun⟩
    · rw [hrun] at hr
      cases hr
      refine ⟨⟨fun h => (by cases h), fun h => ?_⟩, fun h => (by cases h)⟩
      obtain ⟨x, hx, q, hq, rfl⟩ := (hmem p).mp hp
      obtain ⟨k, hk, hx⟩ := (hst x).mp hx
      exact absurd hpass (h k hk x hx q hq)
    · rw [hrun] at hr
      rcases S.backupSample_spec key hkey states ps limits with ⟨-, he⟩ | ⟨s, hss, he, hmax⟩
      · rw [he] at hr; cases hr
      · rw [he] at hr
        cases hr
        refine ⟨⟨fun _ k hk x hx q hq => ?_, fun _ => rfl⟩, fun _ =>
          ⟨(hst s).mp hss, rfl, rfl, fun k hk x hx => ?_⟩⟩
        · exact hno _ ((hmem _).mpr ⟨x, (hst x).mpr ⟨k, hk, hx⟩, q, hq, rfl⟩)
        · exact hmax x ((hst x).mpr ⟨k, hk, hx⟩)

/-- **C36** With perturbations and at least one safe grid state the call always returns. -/
theorem C36_returns [FloorRing K] {β : Type} [LinearOrder β] (key : Pair K n m → β)
    (hkey : Function.Injective key) (h2 : ∀ i, 2 ≤ S.grid.num i)
    (hlt : ∀ i, S.grid.lo i < S.grid.hi i) (ps : List (Fin m → K))
    (limits : Option (Fin m → K × K)) (positive : Bool) (actions : List (Fin m → K))
    (x : Fin n → K) (hx : S.IsSafeGridState x) :
    ∃ r, S.getSafeSample key (some ps) limits positive none actions = .ok r := by
  obtain ⟨cands, hc, hmem⟩ := S.candidates_some key hkey S.safeStates ps actions limits
  rcases S.getSafeSample_spec key h2 hlt (some ps) limits positive none actions S.safeStates rfl
    cands hc with ⟨p, hp, hpass, hrun, hmax⟩ | ⟨hno, hrun⟩
  · exact ⟨_, hrun⟩
  · rcases S.backupSample_spec key hkey S.safeStates ps limits with ⟨h, -⟩ | ⟨s, hss, he, hmax⟩
    · rw [S.isSafeGridState_iff, h] at hx; cases hx
    · exact ⟨_, hrun.trans he⟩

/-- **C36** fails for the `actions` variant: if no pair passes the test, the documented fallback is not
reached, the call raises `UnboundLocalError` instead. -/
theorem C36_actions_refuted [FloorRing K] {β : Type} [LinearOrder β] (S : SampleSystem K 1 1)
    (key : Pair K 1 1 → β) (h2 : ∀ i, 2 ≤ S.grid.num i) (hlt : ∀ i, S.grid.lo i < S.grid.hi i)
    (limits : Option (Fin 1 → K × K)) (positive : Bool) (actions : List (Fin 1 → K))
    (hno : ∀ x, S.IsSafeGridState x → ∀ a ∈ actions, ¬ S.Passes positive (x, a)) :
    S.getSafeSample key none limits positive none actions = .error .unboundLocal := by
  have hc : S.candidates key S.safeStates none limits actions
      = .ok (S.safeStates.flatMap fun s => actions.map fun a => (s, a)) := by
    unfold candidates; simp
  rcases S.getSafeSample_spec key h2 hlt none limits positive none actions S.safeStates rfl
    _ hc with ⟨p, hp, hpass, hrun, hmax⟩ | ⟨-, hrun⟩
  · simp only [List.mem_flatMap, List.mem_map] at hp
    obtain ⟨s, hs, a, ha, rfl⟩ := hp
    exact absurd hpass (hno s ((S.isSafeGridState_iff s).mpr hs) a ha)
  · rw [hrun]; rfl

/-! ## Concrete cases -/

/-- A line with five points in `[-1, 1]`, three of them safe, a contracting policy, and an uncertainty
that grows with the size of the action. -/
def exampleSample : SampleSystem ℚ 1 1 where
  grid := { lo := fun _ => -1, hi := fun _ => 1, num := fun _ => 5 }
  policy x := fun _ => -x 0 / 2
  dynamics p := (fun _ => p.1 0 + p.2 0, fun _ => 1 / 10 + |p.2 0| / 10)
  lv := .const 1
  V x := |x 0|
  cMax := 3 / 5
  safeSet k := decide (1 ≤ k ∧ k ≤ 3)

def exampleKey (p : Pair ℚ 1 1) : ℚ ×ₗ ℚ := toLex (p.1 0, p.2 0)

theorem exampleKey_injective : Function.Injective exampleKey := by
  rintro ⟨a, b⟩ ⟨c, e⟩ h
  have h := toLex.injective h
  simp only [Prod.mk.injEq] at h
  ext i <;> fin_cases i
  · exact h.1
  · exact h.2

theorem exampleSample_two_le : ∀ i, 2 ≤ exampleSample.grid.num i := fun _ => by
  simp [exampleSample]

theorem exampleSample_lt : ∀ i, exampleSample.grid.lo i < exampleSample.grid.hi i := fun _ => by
  simp [exampleSample]

/-- A sample is found: the largest uncertainty among the pairs that pass. -/
example : (match exampleSample.getSafeSample exampleKey (some [![-1/4], ![0], ![1/2]])
    (some fun _ => (-1, 1)) false none [] with
      | .ok r => (r.backup, r.pair.1 0, r.pair.2 0, r.bound)
      | .error _ => (true, 0, 0, 0)) = (false, -1/2, 3/4, 7/40) := by decide +kernel

/-- With large perturbations only, the backup policy is used. -/
example : (match exampleSample.getSafeSample exampleKey (some [![5]])
    (some fun _ => (-4, 4)) false none [] with
      | .ok r => (r.backup, r.pair.1 0, r.pair.2 0, r.bound)
      | .error _ => (true, 0, 0, 0)) = (true, -1/2, 1/4, 1/8) := by decide +kernel

example : ∃ r, exampleSample.getSafeSample exampleKey (some [![5]]) none false none [] = .ok r :=
  exampleSample.C36_returns exampleKey exampleKey_injective exampleSample_two_le exampleSample_lt
    _ _ _ _ ![0] ⟨2, ⟨![2], by intro i; fin_cases i; simp [exampleSample],
      by decide +kernel, by decide +kernel⟩, by decide +kernel⟩

end SampleSystem

end SafeLearning
