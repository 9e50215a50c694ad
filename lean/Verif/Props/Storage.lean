import Verif.Model.Utilities
import Verif.Spec.Utilities
set_option autoImplicit false

/-!
# C40, C41, C43: storage, feed dictionaries and trajectories
-/

namespace SafeLearning

set_option linter.unusedSectionVars false

/-! ## C40: get_storage and set_storage -/

/-- The dictionary after a history (oldest first) of `set_storage` calls, each made in a method and under an
index (or `None`). -/
def runStorage {I V : Type} [DecidableEq I] (history : List ((String × Option I) × V)) : Store I V :=
  history.foldl (fun s e => setStorage s e.1.1 e.2 e.1.2) fun _ => none

/-- What `get_storage` should return, given the latest value stored in that method under that index. -/
def _root_.Spec.stored {I V : Type} (index : Option I) (v : Option V) : Option (Stored I V) :=
  match index with
  | none => v.map fun v => .whole { base := some v, indexed := fun _ => none }
  | some _ => v.map .item

theorem Spec_latest_append {A V : Type} [DecidableEq A] (h : List (A × V)) (e : A × V) (a : A) :
    Spec.latest (h ++ [e]) a = if e.1 = a then some e.2 else Spec.latest h a := by
  simp [Spec.latest]

theorem Spec_latest_none {A V : Type} [DecidableEq A] (h : List (A × V)) (a : A)
    (hn : ∀ e ∈ h, e.1 ≠ a) : Spec.latest h a = none := by
  induction h using List.reverseRecOn with
  | nil => rfl
  | append_singleton h e ih =>
    rw [Spec_latest_append, if_neg (hn e (by simp))]
    exact ih fun e he => hn e (by simp [he])

/-- The entry of a method that is always used without index. -/
theorem runStorage_plain {I V : Type} [DecidableEq I] (history : List ((String × Option I) × V))
    (m : String) (hm : ∀ e ∈ history, e.1.1 = m → e.1.2 = none) :
    runStorage history m = (Spec.latest history (m, none)).map
      fun v => { base := some v, indexed := fun _ => none } := by
  induction history using List.reverseRecOn with
  | nil => rfl
  | append_singleton h e ih =>
    have ih := ih fun e he => hm e (by simp [he])
    rw [Spec_latest_append]
    unfold runStorage at ih ⊢
    rw [List.foldl_append, List.foldl_cons, List.foldl_nil]
    obtain ⟨⟨n, i⟩, v⟩ := e
    by_cases hn : n = m
    · have hi : i = none := hm ((n, i), v) (by simp) hn
      subst hn hi
      simp [setStorage]
    · have : ¬ m = n := fun h => hn h.symm
      simp only [setStorage, this, if_false, Prod.mk.injEq, hn, false_and]
      exact ih

/-- The entry of a method that is always used with an index. -/
theorem runStorage_indexed {I V : Type} [DecidableEq I] (history : List ((String × Option I) × V))
    (m : String) (hm : ∀ e ∈ history, e.1.1 = m → e.1.2 ≠ none) :
    (runStorage history m = none ∧ ∀ i, Spec.latest history (m, i) = none) ∨
    ∃ e, runStorage history m = some e ∧ e.base = none ∧
      ∀ i, e.indexed i = Spec.latest history (m, some i) := by
  induction history using List.reverseRecOn with
  | nil => exact .inl ⟨rfl, fun _ => rfl⟩
  | append_singleton h e ih =>
    have ih := ih fun e he => hm e (by simp [he])
    simp only [Spec_latest_append]
    unfold runStorage at ih ⊢
    rw [List.foldl_append, List.foldl_cons, List.foldl_nil]
    obtain ⟨⟨n, i⟩, v⟩ := e
    by_cases hn : n = m
    · have hi : i ≠ none := hm ((n, i), v) (by simp) hn
      obtain ⟨i, rfl⟩ := Option.ne_none_iff_exists'.mp hi
      subst hn
      right
      generalize List.foldl (fun s e => setStorage s e.1.1 e.2 e.1.2) (fun _ => none) h = s at ih ⊢
      have h0 : ((s n).getD { base := none, indexed := fun _ => none }).base = none ∧
          ∀ j, ((s n).getD { base := none, indexed := fun _ => none }).indexed j =
            Spec.latest h (n, some j) := by
        rcases ih with ⟨h1, h2⟩ | ⟨e, h1, h2, h3⟩
        · rw [h1]
          exact ⟨rfl, fun j => (h2 _).symm⟩
        · rw [h1]
          exact ⟨h2, h3⟩
      generalize hs : (s n).getD { base := none, indexed := fun _ => none } = e0 at h0
      refine ⟨{ e0 with indexed := fun j => if j = i then some v else e0.indexed j },
        by simp only [setStorage, if_true, hs], h0.1, fun j => ?_⟩
      by_cases hj : j = i
      · simp [hj]
      · have hj' : ¬ i = j := fun h => hj h.symm
        simp [hj, hj', h0.2]
    · have : ¬ m = n := fun h => hn h.symm
      simp only [setStorage, this, if_false, Prod.mk.injEq, hn, false_and]
      exact ih

/-- **C40 (partial).** For every history of `set_storage` calls, `get_storage` in a method returns the value
stored last in the same method under the same index, and `None` if there is none; calls in other
methods and under other indices have no effect. Proved for methods that are used either always
with or always without an index; `C40_mixed_refuted` shows that mixing both is not safe. -/
theorem C40_storage_partial {I V : Type} [DecidableEq I]
    (history : List ((String × Option I) × V)) (m : String) (i : Option I)
    (consistent : ∀ e ∈ history, e.1.1 = m → (e.1.2 = none ↔ i = none)) :
    getStorage (runStorage history) m i = Spec.stored i (Spec.latest history (m, i)) := by
  cases i with
  | none =>
    have := runStorage_plain history m fun e he h => (consistent e he h).mpr rfl
    simp only [getStorage, this, Spec.stored, Option.map_map]
    rfl
  | some i =>
    have := runStorage_indexed history m fun e he h hn => by
      simpa using (consistent e he h).mp hn
    rcases this with ⟨h1, h2⟩ | ⟨e, h1, h2, h3⟩
    · simp [getStorage, h1, Spec.stored, h2]
    · simp [getStorage, h1, Spec.stored, h3]

/-- **C40 is violated** when a method mixes calls with and without index: storing without index
drops everything that was stored under indices. -/
theorem C40_mixed_refuted :
    ∃ (history : List ((String × Option ℕ) × ℕ)) (m : String) (i : Option ℕ),
      Spec.latest history (m, i) = some 1 ∧ getStorage (runStorage history) m i = none :=
  ⟨[(("f", some 0), 1), (("f", none), 2)], "f", some 0, by decide, rfl⟩

/-- A concrete history: two methods, one with indices. -/
example : getStorage (runStorage (I := ℕ) (V := ℕ)
      [(("f", none), 1), (("g", some 0), 2), (("g", some 1), 3), (("f", none), 4), (("g", some 0), 5)])
      "g" (some 0) = some (.item 5) := by
  rw [C40_storage_partial _ _ _ (by decide)]
  rfl

/-! ## C41: get_feed_dict -/

/-- A call of `get_feed_dict`, or a write through a reference. -/
inductive FeedOp (G P V : Type) where
  | get (g : G)
  | write (r : ℕ) (p : P) (v : V)

/-- One operation. -/
def FeedOp.run {G P V : Type} [DecidableEq G] [DecidableEq P] (h : FeedHeap G P V) :
    FeedOp G P V → FeedHeap G P V
  | .get g => (getFeedDict h g).2
  | .write r p v => writeFeed h r p v

/-- The state after a history of operations, starting with graphs that have no feed dictionary. -/
def runFeed {G P V : Type} [DecidableEq G] [DecidableEq P] (ops : List (FeedOp G P V)) :
    FeedHeap G P V :=
  ops.foldl FeedOp.run { attr := fun _ => none, count := 0, content := fun _ _ => none }

/-- The invariant: references are to existing dictionaries, and different graphs have different ones. -/
structure FeedInv {G P V : Type} (h : FeedHeap G P V) : Prop where
  bound : ∀ g r, h.attr g = some r → r < h.count
  inj : ∀ g g' r, h.attr g = some r → h.attr g' = some r → g = g'

theorem FeedInv.run {G P V : Type} [DecidableEq G] [DecidableEq P] {h : FeedHeap G P V}
    (hi : FeedInv h) (op : FeedOp G P V) : FeedInv (op.run h) := by
  cases op with
  | write r p v => exact ⟨hi.bound, hi.inj⟩
  | get g =>
    simp only [FeedOp.run, getFeedDict]
    cases hg : h.attr g with
    | some r => exact hi
    | none =>
      refine ⟨fun g' r hr => ?_, fun g1 g2 r h1 h2 => ?_⟩
      · simp only at hr ⊢
        split_ifs at hr with hh
        · simp only [Option.some.injEq] at hr
          omega
        · have := hi.bound _ _ hr
          omega
      · simp only at h1 h2
        split_ifs at h1 h2 with e1 e2 e2
        · rw [e1, e2]
        · simp only [Option.some.injEq] at h1
          have := hi.bound _ _ h2
          omega
        · simp only [Option.some.injEq] at h2
          have := hi.bound _ _ h1
          omega
        · exact hi.inj _ _ _ h1 h2

theorem FeedInv.runs {G P V : Type} [DecidableEq G] [DecidableEq P] (ops : List (FeedOp G P V)) :
    ∀ {h : FeedHeap G P V}, FeedInv h → FeedInv (ops.foldl FeedOp.run h) := by
  induction ops with
  | nil => exact fun h => h
  | cons op ops ih => exact fun h => ih (h.run op)

theorem attr_stable {G P V : Type} [DecidableEq G] [DecidableEq P] (ops : List (FeedOp G P V)) :
    ∀ (h : FeedHeap G P V) (g : G) (r : ℕ), h.attr g = some r →
      (ops.foldl FeedOp.run h).attr g = some r := by
  induction ops with
  | nil => exact fun _ _ _ h => h
  | cons op ops ih =>
    intro h g r hr
    refine ih _ _ _ ?_
    cases op with
    | write r p v => exact hr
    | get g' =>
      simp only [FeedOp.run, getFeedDict]
      cases hg : h.attr g' with
      | some r => exact hr
      | none =>
        have : g ≠ g' := by
          rintro rfl
          simp [hr] at hg
        simpa [this] using hr

theorem getFeedDict_attr {G P V : Type} [DecidableEq G] (h : FeedHeap G P V) (g : G) :
    (getFeedDict h g).2.attr g = some (getFeedDict h g).1 := by
  unfold getFeedDict
  cases hg : h.attr g <;> simp [hg]

theorem getFeedDict_of_attr {G P V : Type} [DecidableEq G] {h : FeedHeap G P V} {g : G} {r : ℕ}
    (hr : h.attr g = some r) : getFeedDict h g = (r, h) := by
  unfold getFeedDict
  rw [hr]

/-- **C41.** Whatever happened before and happens between two calls, `get_feed_dict` of the same graph
returns the same dictionary object both times, and of a different graph a different object. -/
theorem C41_same_object {G P V : Type} [DecidableEq G] [DecidableEq P]
    (before between : List (FeedOp G P V)) (g g' : G) :
    let h1 := runFeed before
    let r1 := (getFeedDict h1 g).1
    let h2 := between.foldl FeedOp.run (getFeedDict h1 g).2
    let r2 := (getFeedDict h2 g').1
    r1 = r2 ↔ g = g' := by
  intro h1 r1 h2 r2
  have inv0 : FeedInv ({ attr := fun _ => none, count := 0, content := fun _ _ => none } :
      FeedHeap G P V) := ⟨by simp, by simp⟩
  have inv1 : FeedInv h1 := FeedInv.runs before inv0
  have inv1' : FeedInv (getFeedDict h1 g).2 := inv1.run (.get g)
  have hr1 : h2.attr g = some r1 := attr_stable between _ _ _ (getFeedDict_attr h1 g)
  have inv2 : FeedInv h2 := FeedInv.runs between inv1'
  have inv3 : FeedInv (getFeedDict h2 g').2 := inv2.run (.get g')
  have hr2 : (getFeedDict h2 g').2.attr g' = some r2 := getFeedDict_attr h2 g'
  have hr1' : (getFeedDict h2 g').2.attr g = some r1 := attr_stable [.get g'] _ _ _ hr1
  constructor
  · intro h
    exact inv3.inj _ _ _ hr1' (h ▸ hr2)
  · rintro rfl
    have := hr1'.symm.trans hr2
    simpa using this

/-- **C41.** After getting the dictionary of a graph, whatever is called in between, looking a
placeholder up in `get_feed_dict(graph)` gives the value that was written last through the
dictionary of this graph, and otherwise what the dictionary contained before; writes through the dictionaries
of other graphs do not matter. -/
theorem C41_writes_visible {G P V : Type} [DecidableEq G] [DecidableEq P]
    (before between : List (FeedOp G P V)) (g : G) (p : P) :
    let h1 := runFeed before
    let r := (getFeedDict h1 g).1
    let h2 := between.foldl FeedOp.run (getFeedDict h1 g).2
    let writes := between.filterMap fun
      | .write r p v => some ((r, p), v)
      | .get _ => none
    (getFeedDict h2 g).2.content (getFeedDict h2 g).1 p =
      (Spec.latest writes (r, p)).or ((getFeedDict h1 g).2.content r p) := by
  intro h1 r h2
  have inv0 : FeedInv ({ attr := fun _ => none, count := 0, content := fun _ _ => none } :
      FeedHeap G P V) := ⟨by simp, by simp⟩
  have inv1 : FeedInv (getFeedDict h1 g).2 := (FeedInv.runs before inv0).run (.get g)
  have hr : (getFeedDict h1 g).2.attr g = some r := getFeedDict_attr h1 g
  have hr1 : h2.attr g = some r := attr_stable between _ _ _ hr
  rw [getFeedDict_of_attr hr1]
  show h2.content r p = _
  have key : ∀ (ops : List (FeedOp G P V)) (h : FeedHeap G P V), FeedInv h → h.attr g = some r →
      (ops.foldl FeedOp.run h).content r p =
        (Spec.latest (ops.filterMap fun
          | .write r p v => some ((r, p), v)
          | .get _ => none) (r, p)).or (h.content r p) := by
    intro ops
    induction ops using List.reverseRecOn with
    | nil => intro h _ _; simp [Spec.latest]
    | append_singleton ops op ih =>
      intro h hi hg
      have ih := ih h hi hg
      have hi' := FeedInv.runs ops hi
      have hg' := attr_stable ops _ _ _ hg
      rw [List.foldl_append, List.foldl_cons, List.foldl_nil, List.filterMap_append]
      cases op with
      | write r' p' v =>
        simp only [List.filterMap_cons, List.filterMap_nil, Spec_latest_append, FeedOp.run,
          writeFeed, Prod.mk.injEq]
        by_cases hh : r' = r ∧ p' = p
        · simp [hh]
        · have : ¬ (r = r' ∧ p = p') := fun h => hh ⟨h.1.symm, h.2.symm⟩
          simp only [hh, this, if_false]
          exact ih
      | get g' =>
        simp only [List.filterMap_cons, List.filterMap_nil, List.append_nil, FeedOp.run]
        rw [← ih]
        unfold getFeedDict
        cases h' : (ops.foldl FeedOp.run h).attr g' with
        | some _ => rfl
        | none =>
          have := hi'.bound _ _ hg'
          have hne : r ≠ (ops.foldl FeedOp.run h).count := by omega
          simp [hne]
  exact key between _ inv1 hr

/-- **C41.** The first dictionary of a graph is empty. -/
theorem C41_fresh {G P V : Type} [DecidableEq G] [DecidableEq P] (h : FeedHeap G P V) (g : G)
    (hg : h.attr g = none) (p : P) :
    (getFeedDict h g).2.content (getFeedDict h g).1 p = none := by
  simp [getFeedDict, hg]

/-- A concrete history with two graphs. -/
example : (getFeedDict (runFeed (G := ℕ) (P := ℕ) (V := ℕ)
      [.get 0, .get 7, .write 0 3 5, .write 1 3 6, .get 7]) 0).1 = 0 ∧
    (getFeedDict (runFeed (G := ℕ) (P := ℕ) (V := ℕ)
      [.get 0, .get 7, .write 0 3 5, .write 1 3 6, .get 7]) 0).2.content 0 3 = some 5 := by
  constructor <;> decide

/-! ## C43: compute_trajectory -/

/-- A call of `compute_trajectory` (with the values of the TensorFlow variables at that time). -/
structure TrajCall (D P Θ S : Type) where
  d : D
  p : P
  θ : Θ
  x0 : S
  numSteps : ℕ

/-- The storage after a history of calls. -/
def runTraj {D P Θ S U : Type} [DecidableEq D] [DecidableEq P]
    (dynamicsOf : D → Θ → S → U → S) (policyOf : P → Θ → S → U)
    (calls : List (TrajCall D P Θ S)) : TrajCache D P Θ S U :=
  calls.foldl (fun c q => (computeTrajectory dynamicsOf policyOf c q.d q.p q.θ q.x0 q.numSteps).2)
    fun _ => none

theorem simulate_spec {Θ S U : Type} (gr : TrajGraph Θ S U) (θ : Θ) (x0 : S) (k : ℕ) :
    (simulate gr θ x0 k).1 = ((List.range (k + 1)).map fun i => (gr.next θ)^[i] x0).reverse ∧
    (simulate gr θ x0 k).2 =
      ((List.range k).map fun i => gr.action θ ((gr.next θ)^[i] x0)).reverse := by
  induction k with
  | zero => simp [simulate]
  | succ k ih =>
    obtain ⟨h1, h2⟩ := ih
    rw [List.range_succ, List.map_append, List.reverse_append] at h1
    simp only [List.map_cons, List.map_nil, List.reverse_cons, List.reverse_nil, List.nil_append,
      List.cons_append] at h1
    rw [simulate]
    cases hs : simulate gr θ x0 k with
    | mk s a =>
      rw [hs] at h1 h2
      simp only at h1 h2
      rw [h1]
      simp only
      refine ⟨?_, ?_⟩
      · rw [List.range_succ, List.map_append, List.reverse_append, List.range_succ, List.map_append,
          List.reverse_append]
        simp [Function.iterate_succ_apply']
      · rw [List.range_succ, List.map_append, List.reverse_append]
        simp [h2]

/-- **C43.** Whatever was simulated before, `compute_trajectory` returns `num_steps` states and one action
less, the first state is the initial state, each action is what the policy gives at the state
of that time, and each next state is what the dynamics give at that state and action. -/
theorem C43_trajectory {D P Θ S U : Type} [DecidableEq D] [DecidableEq P]
    (dynamicsOf : D → Θ → S → U → S) (policyOf : P → Θ → S → U)
    (before : List (TrajCall D P Θ S)) (d : D) (p : P) (θ : Θ) (x0 : S) (n : ℕ) (hn : 0 < n) :
    ∃ states actions,
      (computeTrajectory dynamicsOf policyOf (runTraj dynamicsOf policyOf before) d p θ x0 n).1 =
        .ok (states, actions) ∧
      states.length = n ∧ actions.length = n - 1 ∧ states[0]? = some x0 ∧
      ∀ i, i + 1 < n → ∃ x u, states[i]? = some x ∧ actions[i]? = some u ∧
        u = policyOf p θ x ∧ states[i + 1]? = some (dynamicsOf d θ x u) := by
  have inv : ∀ (calls : List (TrajCall D P Θ S)) (k : D × P) (gr : TrajGraph Θ S U),
      runTraj dynamicsOf policyOf calls k = some gr →
      gr = { action := policyOf k.2
             next := fun θ x => dynamicsOf k.1 θ x (policyOf k.2 θ x) } := by
    intro calls
    induction calls using List.reverseRecOn with
    | nil => intro k gr h; simp [runTraj] at h
    | append_singleton calls c ih =>
      intro k gr h
      unfold runTraj at ih h
      rw [List.foldl_append, List.foldl_cons, List.foldl_nil] at h
      generalize hcache : List.foldl (fun c q => (computeTrajectory dynamicsOf policyOf c q.d q.p q.θ
        q.x0 q.numSteps).2) (fun _ => none) calls = cache at ih h
      have h' : (if k = (c.d, c.p) then some (trajGraph dynamicsOf policyOf cache c.d c.p)
          else cache k) = some gr := by
        unfold computeTrajectory at h
        revert h
        cases c.numSteps <;> exact id
      split_ifs at h' with hk
      · subst hk
        simp only [Option.some.injEq] at h'
        rw [← h', trajGraph]
        cases hc : cache (c.d, c.p) with
        | none => rfl
        | some gr' => exact ih _ _ hc
      · exact ih _ _ h'
  obtain ⟨k, rfl⟩ : ∃ k, n = k + 1 := ⟨n - 1, by omega⟩
  have hgr : trajGraph dynamicsOf policyOf (runTraj dynamicsOf policyOf before) d p =
      { action := policyOf p, next := fun θ x => dynamicsOf d θ x (policyOf p θ x) } := by
    rw [trajGraph]
    cases hc : runTraj dynamicsOf policyOf before (d, p) with
    | none => rfl
    | some gr' => exact inv _ _ _ hc
  set gr : TrajGraph Θ S U :=
    { action := policyOf p, next := fun θ x => dynamicsOf d θ x (policyOf p θ x) } with hgrdef
  obtain ⟨h1, h2⟩ := simulate_spec gr θ x0 k
  refine ⟨(List.range (k + 1)).map fun i => (gr.next θ)^[i] x0,
    (List.range k).map fun i => gr.action θ ((gr.next θ)^[i] x0), ?_, by simp, by simp, by simp, ?_⟩
  · unfold computeTrajectory
    rw [hgr]
    simp only [h1, h2, List.reverse_reverse]
  · intro i hi
    refine ⟨(gr.next θ)^[i] x0, _, ?_, ?_, rfl, ?_⟩
    · rw [List.getElem?_map, List.getElem?_range (show i < k + 1 by omega)]
      rfl
    · rw [List.getElem?_map, List.getElem?_range (show i < k by omega)]
      rfl
    · simp only [List.getElem?_map, List.getElem?_range (show i + 1 < k + 1 by omega),
        Option.map_some, Function.iterate_succ_apply']
      rfl

/-- **C43 (no steps).** Whatever was simulated before, `compute_trajectory` with `num_steps = 0` raises `ValueError`, and later calls do not notice it. -/
theorem C43_no_steps {D P Θ S U : Type} [DecidableEq D] [DecidableEq P]
    (dynamicsOf : D → Θ → S → U → S) (policyOf : P → Θ → S → U)
    (before : List (TrajCall D P Θ S)) (d : D) (p : P) (θ : Θ) (x0 : S) :
    (computeTrajectory dynamicsOf policyOf (runTraj dynamicsOf policyOf before) d p θ x0 0).1 = .error .valueError ∧
    ∀ (d' : D) (p' : P) (θ' : Θ) (y : S) (n : ℕ),
      (computeTrajectory dynamicsOf policyOf (computeTrajectory dynamicsOf policyOf (runTraj dynamicsOf policyOf before) d p θ x0 0).2 d' p' θ' y n).1 =
        (computeTrajectory dynamicsOf policyOf (runTraj dynamicsOf policyOf before) d' p' θ' y n).1 := by
  refine ⟨rfl, fun d' p' θ' y n => ?_⟩
  obtain ⟨cache, hc⟩ : ∃ cache, cache = runTraj dynamicsOf policyOf before := ⟨_, rfl⟩
  rw [← hc]
  have h : trajGraph dynamicsOf policyOf (computeTrajectory dynamicsOf policyOf cache d p θ x0 0).2 d' p' = trajGraph dynamicsOf policyOf cache d' p' := by
    have e : (computeTrajectory dynamicsOf policyOf cache d p θ x0 0).2 = fun k => if k = (d, p) then some (trajGraph dynamicsOf policyOf cache d p) else cache k := rfl
    rw [e]
    by_cases hk : (d', p') = (d, p)
    · rw [trajGraph]
      simp only [if_pos hk]
      obtain ⟨rfl, rfl⟩ := Prod.mk.inj hk
      rfl
    · rw [trajGraph]
      simp only [if_neg hk]
      rfl
  cases n with
  | zero => rfl
  | succ n =>
    unfold computeTrajectory at h ⊢
    simp only [h]

/-- A concrete simulation, after one of the same system from another state. -/
example : (match (computeTrajectory (D := ℕ) (P := ℕ) (Θ := Unit) (S := ℤ) (U := ℤ)
      (fun d _ x u => x + d * u) (fun p _ x => p - x)
      (runTraj (fun d _ x u => x + d * u) (fun p _ x => p - x) [⟨2, 3, (), 9, 5⟩])
      2 3 () 1 4).1 with
    | .ok r => decide (r = ([1, 5, 1, 5], [2, -2, 2]))
    | .error _ => false) = true := by decide

end SafeLearning
