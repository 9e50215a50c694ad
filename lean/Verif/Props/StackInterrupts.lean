import Verif.Props.Interrupts
import Verif.Props.Confidence
import Verif.Props.FunctionStack
import Verif.Props.SafeSetMonotone
set_option autoImplicit false

/-!
# C136: histories of interrupted calls of `add_data_point`
-/

namespace SafeLearning

open Spec

noncomputable section

variable {o : ℕ}

/-! ## One Gaussian process -/

/-- The pairs of inputs and targets of a call. -/
def _root_.Spec.pairsOf (x y : Arr ℝ) : List (List ℝ × List ℝ) := x.rows.zip y.rows

/-- All pairs that were given to the process: those of the constructor and of all calls, whether they were stopped or not. -/
def _root_.Spec.submitted (X Y : List (List ℝ)) (calls : List StoppedAdd) : List (List ℝ × List ℝ) :=
  X.zip Y ++ calls.flatMap fun c => Spec.pairsOf c.x c.y

/-- Invariant: the pairs `P` were stored; the feed dictionary has, for each data holder, the value for some first pairs of them. If a call was stopped between its first two assignments there are more inputs than
targets, for ever. -/
structure StoredPairs (gp : GPModel o) (t : GPObject o) (P : List (List ℝ × List ℝ)) (a b c : ℕ) (cb cc : GPCache o) : Prop where
  ne : P ≠ []
  data : (t.data.X = P.map Prod.fst ∧ t.data.Y = P.map Prod.snd) ∨ (t.data.Y.length < t.data.X.length ∧ t.data.Y ≠ [])
  ha : a ≤ P.length
  hb : b ≤ P.length
  hc : c ≤ P.length
  inputs : t.feed.X = (P.take a).map Prod.fst
  cacheB : gp.computeCache ((P.take b).map Prod.fst) ((P.take b).map Prod.snd) = .ok cb
  chol : t.feed.chol = ⟨cb.n, cb.chol⟩
  cacheC : gp.computeCache ((P.take c).map Prod.fst) ((P.take c).map Prod.snd) = .ok cc
  alpha : t.feed.alpha = ⟨cc.n, cc.alpha⟩

theorem zip_unzip {α β : Type} {x : List α} {y : List β} (h : y.length = x.length) :
    (x.zip y).map Prod.fst = x ∧ (x.zip y).map Prod.snd = y :=
  ⟨List.map_fst_zip (by omega), List.map_snd_zip (by omega)⟩

theorem storedPairs_step (gp : GPModel o) (t : GPObject o) (P : List (List ℝ × List ℝ)) (a b c : ℕ) (cb cc : GPCache o)
    (h : StoredPairs gp t P a b c cb cc) (e : StoppedAdd) (hr : e.y.rows.length = e.x.rows.length) (hpos : e.x.rows ≠ []) :
    ∃ P' a' b' c' cb' cc', (P' = P ∨ P' = P ++ Spec.pairsOf e.x e.y) ∧
      StoredPairs gp (gp.interruptedAdd t e.x e.y e.order e.steps) P' a' b' c' cb' cc' := by
  obtain ⟨z1, z2⟩ := zip_unzip hr
  have hxl : e.x.rows.length ≠ 0 := fun h0 => hpos (List.length_eq_zero_iff.mp h0)
  -- nothing but the data changes
  have same : ∀ t' : GPObject o, t'.feed = t.feed →
      ((t'.data.X = t.data.X ∧ t'.data.Y = t.data.Y) ∨ (t'.data.X = t.data.X ++ e.x.rows ∧ t'.data.Y = t.data.Y) ∨
        (t'.data.X = t.data.X ++ e.x.rows ∧ t'.data.Y = t.data.Y ++ e.y.rows)) →
      ∃ P' a' b' c' cb' cc', (P' = P ∨ P' = P ++ Spec.pairsOf e.x e.y) ∧ StoredPairs gp t' P' a' b' c' cb' cc' := by
    intro t' hf hd
    have hlen : t.data.Y ≠ [] ∧ t.data.Y.length ≤ t.data.X.length := by
      rcases h.data with ⟨h1, h2⟩ | ⟨h1, h2⟩
      · rw [h1, h2]
        exact ⟨by simpa using h.ne, by simp⟩
      · exact ⟨h2, h1.le⟩
    rcases hd with ⟨d1, d2⟩ | ⟨d1, d2⟩ | ⟨d1, d2⟩
    · exact ⟨P, a, b, c, cb, cc, Or.inl rfl, h.ne, by rw [d1, d2]; exact h.data, h.ha, h.hb, h.hc, by rw [hf]; exact h.inputs, h.cacheB,
        by rw [hf]; exact h.chol, h.cacheC, by rw [hf]; exact h.alpha⟩
    · exact ⟨P, a, b, c, cb, cc, Or.inl rfl, h.ne, Or.inr (by rw [d1, d2, List.length_append]; exact ⟨by omega, hlen.1⟩), h.ha, h.hb, h.hc,
        by rw [hf]; exact h.inputs, h.cacheB, by rw [hf]; exact h.chol, h.cacheC, by rw [hf]; exact h.alpha⟩
    · rcases h.data with ⟨h1, h2⟩ | ⟨h1, h2⟩
      · refine ⟨P ++ Spec.pairsOf e.x e.y, a, b, c, cb, cc, Or.inr rfl, by simp [h.ne], Or.inl ⟨?_, ?_⟩, ?_, ?_, ?_, ?_, ?_, ?_, ?_, ?_⟩
        · rw [d1, h1, List.map_append, Spec.pairsOf, z1]
        · rw [d2, h2, List.map_append, Spec.pairsOf, z2]
        · exact h.ha.trans (by simp)
        · exact h.hb.trans (by simp)
        · exact h.hc.trans (by simp)
        · rw [hf, List.take_append_of_le_length h.ha]; exact h.inputs
        · rw [List.take_append_of_le_length h.hb]; exact h.cacheB
        · rw [hf]; exact h.chol
        · rw [List.take_append_of_le_length h.hc]; exact h.cacheC
        · rw [hf]; exact h.alpha
      · exact ⟨P, a, b, c, cb, cc, Or.inl rfl, h.ne, Or.inr (by
          rw [d1, d2, List.length_append, List.length_append]
          exact ⟨by omega, by simp [h2]⟩), h.ha, h.hb, h.hc, by rw [hf]; exact h.inputs, h.cacheB,
          by rw [hf]; exact h.chol, h.cacheC, by rw [hf]; exact h.alpha⟩
  rcases addDataWrites_cases gp t e.x e.y e.order with ⟨_, hw, -⟩ | ⟨_, hw, -⟩ | ⟨_, hw, -⟩ | ⟨cn, hcn, hx, hy, -⟩
  · unfold GPModel.interruptedAdd
    rw [hw]
    exact same _ (by simp [afterWrites]) (Or.inl (by simp [afterWrites]))
  · unfold GPModel.interruptedAdd
    rw [hw]
    rcases Nat.eq_zero_or_pos e.steps with h0 | h0
    · rw [h0]; exact same _ rfl (Or.inl ⟨rfl, rfl⟩)
    · rw [show afterWrites _ e.steps t = _ from afterWrites_all _ _ h0 t]
      exact same _ rfl (Or.inr (Or.inl ⟨rfl, rfl⟩))
  · unfold GPModel.interruptedAdd
    rw [hw]
    rcases Nat.lt_or_ge e.steps 2 with h0 | h0
    · interval_cases e.steps
      · exact same _ rfl (Or.inl ⟨rfl, rfl⟩)
      · exact same _ rfl (Or.inr (Or.inl ⟨rfl, rfl⟩))
    · rw [show afterWrites _ e.steps t = _ from afterWrites_all _ _ (by simpa using h0) t]
      exact same _ rfl (Or.inr (Or.inr ⟨rfl, rfl⟩))
  · obtain ⟨s0, s4, s1, sy1, sy2, sm⟩ := interruptedAdd_stages gp t e.x e.y e.order cn hcn hx hy
    by_cases hk : e.steps ≤ 4
    · refine same _ (s4 _ hk) ?_
      rcases Nat.lt_or_ge e.steps 2 with h0 | h0
      · rcases Nat.eq_zero_or_pos e.steps with h1 | h1
        · rw [h1, s0]; exact Or.inl ⟨rfl, rfl⟩
        · exact Or.inr (Or.inl ⟨s1 _ h1, sy1 _ (by omega)⟩)
      · exact Or.inr (Or.inr ⟨s1 _ (by omega), sy2 _ h0⟩)
    · obtain ⟨m, hm⟩ := Nat.exists_eq_add_of_le (Nat.le_of_not_le hk)
      obtain ⟨f1, f2, f3⟩ := sm m
      rw [← hm] at f1 f2 f3
      have hpair : t.data.X = P.map Prod.fst ∧ t.data.Y = P.map Prod.snd := by
        refine h.data.resolve_right fun ⟨h1, h2⟩ => ?_
        obtain ⟨hl, -⟩ := computeCache_inv hcn
        rw [List.length_append, List.length_append] at hl
        have : t.data.Y.length ≠ 0 := fun h0 => h2 (List.length_eq_zero_iff.mp h0)
        omega
      have eX : t.data.X ++ e.x.rows = (P ++ Spec.pairsOf e.x e.y).map Prod.fst := by
        rw [hpair.1, List.map_append, Spec.pairsOf, z1]
      have eY : t.data.Y ++ e.y.rows = (P ++ Spec.pairsOf e.x e.y).map Prod.snd := by
        rw [hpair.2, List.map_append, Spec.pairsOf, z2]
      have hle : P.length ≤ (P ++ Spec.pairsOf e.x e.y).length := by simp
      rw [eX, eY] at hcn
      obtain ⟨a', ha', ga⟩ : ∃ a' ≤ (P ++ Spec.pairsOf e.x e.y).length,
          (gp.interruptedAdd t e.x e.y e.order e.steps).feed.X = ((P ++ Spec.pairsOf e.x e.y).take a').map Prod.fst := by
        rw [f1]
        split_ifs
        · exact ⟨_, le_rfl, by rw [List.take_length, eX]⟩
        · exact ⟨a, h.ha.trans hle, by rw [List.take_append_of_le_length h.ha]; exact h.inputs⟩
      obtain ⟨b', cb', hb', gb1, gb2⟩ : ∃ b' cb', b' ≤ (P ++ Spec.pairsOf e.x e.y).length ∧
          gp.computeCache (((P ++ Spec.pairsOf e.x e.y).take b').map Prod.fst) (((P ++ Spec.pairsOf e.x e.y).take b').map Prod.snd) = .ok cb' ∧
          (gp.interruptedAdd t e.x e.y e.order e.steps).feed.chol = ⟨cb'.n, cb'.chol⟩ := by
        rw [f2]
        split_ifs
        · exact ⟨_, cn, le_rfl, by rw [List.take_length]; exact hcn, rfl⟩
        · exact ⟨b, cb, h.hb.trans hle, by rw [List.take_append_of_le_length h.hb]; exact h.cacheB, h.chol⟩
      obtain ⟨c', cc', hc', gc1, gc2⟩ : ∃ c' cc', c' ≤ (P ++ Spec.pairsOf e.x e.y).length ∧
          gp.computeCache (((P ++ Spec.pairsOf e.x e.y).take c').map Prod.fst) (((P ++ Spec.pairsOf e.x e.y).take c').map Prod.snd) = .ok cc' ∧
          (gp.interruptedAdd t e.x e.y e.order e.steps).feed.alpha = ⟨cc'.n, cc'.alpha⟩ := by
        rw [f3]
        split_ifs
        · exact ⟨_, cn, le_rfl, by rw [List.take_length]; exact hcn, rfl⟩
        · exact ⟨c, cc, h.hc.trans hle, by rw [List.take_append_of_le_length h.hc]; exact h.cacheC, h.alpha⟩
      exact ⟨P ++ Spec.pairsOf e.x e.y, a', b', c', cb', cc', Or.inr rfl, by simp [h.ne],
        Or.inl ⟨(s1 _ (by omega)).trans eX, (sy2 _ (by omega)).trans eY⟩, ha', hb', hc', ga, gb1, gb2, gc1, gc2⟩

theorem storedPairs_run (gp : GPModel o) (calls : List StoppedAdd)
    (hcalls : ∀ c ∈ calls, c.y.rows.length = c.x.rows.length ∧ c.x.rows ≠ []) :
    ∀ (t : GPObject o) (P : List (List ℝ × List ℝ)) (a b c : ℕ) (cb cc : GPCache o), StoredPairs gp t P a b c cb cc →
    ∃ P' a' b' c' cb' cc', P'.Sublist (P ++ calls.flatMap fun c => Spec.pairsOf c.x c.y) ∧
      StoredPairs gp (gp.runStopped t calls) P' a' b' c' cb' cc' := by
  induction calls with
  | nil => exact fun t P a b c cb cc h => ⟨P, a, b, c, cb, cc, by simp, h⟩
  | cons e calls ih =>
    intro t P a b c cb cc h
    obtain ⟨P₁, a₁, b₁, c₁, cb₁, cc₁, hP, h₁⟩ := storedPairs_step gp t P a b c cb cc h e (hcalls e (by simp)).1 (hcalls e (by simp)).2
    obtain ⟨P', a', b', c', cb', cc', hs, h'⟩ := ih (fun c hc => hcalls c (by simp [hc])) _ P₁ a₁ b₁ c₁ cb₁ cc₁ h₁
    refine ⟨P', a', b', c', cb', cc', hs.trans ?_, h'⟩
    rw [List.flatMap_cons, ← List.append_assoc]
    refine List.Sublist.append ?_ (List.Sublist.refl _)
    rcases hP with rfl | rfl
    · exact List.sublist_append_left _ _
    · exact List.Sublist.refl _

/-- **C136.** Let a Gaussian process be built from data, and let any number of `add_data_point` calls follow, each with at least one point and one measurement for each point, and each complete or stopped anywhere. Then
its predictions are those of the Gaussian process of some of the given pairs of points and measurements, in their order; or every evaluation raises. Points and measurements of different calls are never combined. -/
theorem C136_gp_history (gp : GPModel o) (beta : ℝ) (X Y : List (List ℝ)) (hX : X ≠ []) (hl : Y.length = X.length) (s : GPState o)
    (h : gp.init X Y = .ok s) (calls : List StoppedAdd) (hcalls : ∀ c ∈ calls, c.y.rows.length = c.x.rows.length ∧ c.x.rows ≠ []) :
    (∀ pts, gp.evaluateObject beta (gp.runStopped s.object calls) pts = .error .valueError) ∨
    ∃ (Q : List (List ℝ × List ℝ)) (s' : GPState o), Q.Sublist (Spec.submitted X Y calls) ∧ gp.init (Q.map Prod.fst) (Q.map Prod.snd) = .ok s' ∧
      ∀ pts, gp.evaluateObject beta (gp.runStopped s.object calls) pts = gp.evaluate beta s' pts := by
  obtain ⟨c₀, hc₀, rfl⟩ := init_inv h
  obtain ⟨z1, z2⟩ := zip_unzip hl
  have hzl : (X.zip Y).length = X.length := by simp [hl]
  have hcache : gp.computeCache (((X.zip Y).take (X.zip Y).length).map Prod.fst) (((X.zip Y).take (X.zip Y).length).map Prod.snd) = .ok c₀ := by
    rw [List.take_length, z1, z2]; exact hc₀
  have h0 : StoredPairs gp (GPState.object ⟨⟨X, Y, c₀⟩, ⟨X, Y, c₀⟩⟩) (X.zip Y) (X.zip Y).length (X.zip Y).length (X.zip Y).length c₀ c₀ :=
    ⟨fun h => hX (by rw [← z1, h]; rfl), Or.inl ⟨z1.symm, z2.symm⟩, le_rfl, le_rfl, le_rfl, by rw [List.take_length, z1]; rfl, hcache, rfl, hcache, rfl⟩
  obtain ⟨P, a, b, c, cb, cc, hP, hs⟩ := storedPairs_run gp calls hcalls _ _ _ _ _ _ _ h0
  set t := gp.runStopped (GPState.object ⟨⟨X, Y, c₀⟩, ⟨X, Y, c₀⟩⟩) calls
  have nb : cb.n = b := by
    obtain ⟨-, L, -, hL⟩ := computeCache_inv hs.cacheB
    rw [hL]; simp [hs.hb]
  have nc : cc.n = c := by
    obtain ⟨-, L, -, hL⟩ := computeCache_inv hs.cacheC
    rw [hL]; simp [hs.hc]
  by_cases hne : t.feed.alpha.1 ≠ t.feed.chol.1 ∨ t.feed.X.length ≠ t.feed.chol.1
  · exact Or.inl fun pts => evaluateObject_error gp beta _ pts hne
  · right
    rw [not_or, not_not, not_not, hs.alpha, hs.chol, hs.inputs] at hne
    obtain ⟨e1, e2⟩ := hne
    dsimp only at e1 e2
    rw [List.length_map, List.length_take, Nat.min_eq_left hs.ha] at e2
    obtain rfl : c = b := by omega
    obtain rfl : a = c := by omega
    have hcc : cc = cb := by
      have := hs.cacheC
      rw [hs.cacheB] at this
      exact (Except.ok.inj this).symm
    refine ⟨P.take a, ⟨⟨_, _, cb⟩, ⟨_, _, cb⟩⟩, (List.take_sublist _ _).trans hP, init_of_cache hs.cacheB, fun pts => ?_⟩
    refine evaluateObject_parts gp beta t pts ⟨⟨_, _, cb⟩, ⟨_, _, cb⟩⟩ hs.inputs hs.chol ?_
    rw [hs.alpha, hcc]

/-! ## Stacks -/

theorem afterWrites_onFirst (ws : List (GPObject 1 → GPObject 1)) (us : List (List StackItem → List StackItem)) (k : ℕ) (f : StackItem)
    (fs : List StackItem) :
    afterWrites (ws.map onFirst ++ us.map onRest) k (f :: fs) =
      { f with object := afterWrites ws k f.object } :: afterWrites us (k - ws.length) fs := by
  have h1 : ∀ (ws : List (GPObject 1 → GPObject 1)) (f : StackItem) (fs : List StackItem),
      (ws.map onFirst).foldl (fun t w => w t) (f :: fs) = { f with object := ws.foldl (fun t w => w t) f.object } :: fs := by
    intro ws
    induction ws with
    | nil => intro f fs; rfl
    | cons w ws ih => intro f fs; rw [List.map_cons, List.foldl_cons]; exact ih _ fs
  have h2 : ∀ (us : List (List StackItem → List StackItem)) (f : StackItem) (fs : List StackItem),
      (us.map onRest).foldl (fun t w => w t) (f :: fs) = f :: us.foldl (fun t w => w t) fs := by
    intro us
    induction us with
    | nil => intro f fs; rfl
    | cons w us ih => intro f fs; rw [List.map_cons, List.foldl_cons]; exact ih f _
  unfold afterWrites
  rw [List.take_append, List.foldl_append, ← List.map_take, h1, List.length_map, ← List.map_take, h2]

/-- After a stopped call, each function is in the state after a stopped call of its own `add_data_point`. -/
theorem stackLoop_components (x : Arr ℝ) (order : List Holder) : ∀ (fs : List StackItem) (ys : List (Arr ℝ)) (k : ℕ),
    (afterWrites (stackAddWritesLoop x order fs ys).1 k fs).length = fs.length ∧
    ∀ (i : ℕ) (f : StackItem) (y : Arr ℝ), fs[i]? = some f → ys[i]? = some y →
      ∃ m, (afterWrites (stackAddWritesLoop x order fs ys).1 k fs)[i]? = some { f with object := f.model.interruptedAdd f.object x y order m }
  | [], ys, k => by simp [stackAddWritesLoop, afterWrites]
  | f :: fs, [], k => by simp [stackAddWritesLoop, afterWrites]
  | f :: fs, y :: ys, k => by
    obtain ⟨ih1, ih2⟩ := stackLoop_components x order fs ys (k - (f.model.addDataWrites f.object x y order).1.length)
    have hgen : ∃ us, (stackAddWritesLoop x order (f :: fs) (y :: ys)).1 =
        (f.model.addDataWrites f.object x y order).1.map onFirst ++ us.map onRest ∧
        (us = [] ∨ us = (stackAddWritesLoop x order fs ys).1) := by
      rw [stackAddWritesLoop]
      split
      · rename_i ws e he
        exact ⟨[], by rw [he]; simp, Or.inl rfl⟩
      · rename_i ws he
        exact ⟨_, by rw [he], Or.inr rfl⟩
    obtain ⟨us, hus, hcase⟩ := hgen
    rw [hus, afterWrites_onFirst]
    constructor
    · rw [List.length_cons, List.length_cons]
      rcases hcase with rfl | rfl
      · simp [afterWrites]
      · rw [ih1]
    · intro i f' y' hf hy
      cases i with
      | zero =>
        simp only [List.getElem?_cons_zero, Option.some.injEq] at hf hy
        subst hf hy
        exact ⟨k, by rw [List.getElem?_cons_zero]; rfl⟩
      | succ i =>
        simp only [List.getElem?_cons_succ] at hf hy ⊢
        rcases hcase with rfl | rfl
        · refine ⟨0, ?_⟩
          simp only [afterWrites, List.take_nil, List.foldl_nil, hf]
          rfl
        · exact ih2 i f' y' hf hy

/-- **C136 (no interruption).** The assignments of a call of `FunctionStack.add_data_point`, executed completely, are the model of the call (C52), whether it raises or not. -/
theorem C136_stack_complete (fs : List (GPModel 1 × ℝ × GPState 1)) (x : Arr ℝ) (y : List (List ℝ)) (order : List Holder) (ho : ∀ h, h ∈ order) :
    addToStack (fs.map fun f => ⟨f.1, f.2.1, f.2.2.object⟩) x y order =
      (List.zipWith (fun f s => ⟨f.1, f.2.1, s.object⟩) fs (stackAddDataPoint (fs.map fun f => (f.1, f.2.2)) x y).1,
        (stackAddDataPoint (fs.map fun f => (f.1, f.2.2)) x y).2) := by
  have hid : ∀ fs : List (GPModel 1 × ℝ × GPState 1), fs.map (fun f => (⟨f.1, f.2.1, f.2.2.object⟩ : StackItem)) =
      List.zipWith (fun f s => ⟨f.1, f.2.1, s.object⟩) fs ((fs.map fun f => (f.1, f.2.2)).map Prod.snd) := by
    intro fs
    induction fs with
    | nil => rfl
    | cons f fs ih => simp only [List.map_cons, List.zipWith_cons_cons]; rw [ih]
  unfold addToStack stackAddWrites stackAddDataPoint
  cases squeezeItems y with
  | error e => exact Prod.ext (hid fs) rfl
  | ok items =>
    dsimp only
    induction fs generalizing items with
    | nil => rfl
    | cons f fs ih =>
      cases items with
      | nil =>
        have e1 := hid (f :: fs)
        simp only [List.map_cons] at e1 ⊢
        simp only [stackAddWritesLoop, stackAddLoop, List.foldl_nil, List.map_cons, Prod.mk.injEq, and_true]
        exact e1
      | cons y ys =>
        have hone := C135_gp_complete f.1 f.2.2 x y order ho
        unfold GPModel.addToObject at hone
        have hall : ∀ (ws : List (List StackItem → List StackItem)) (l : List StackItem),
            ws.foldl (fun t w => w t) l = afterWrites ws ws.length l := fun ws l => by unfold afterWrites; rw [List.take_length]
        simp only [List.map_cons]
        rw [stackAddWritesLoop, stackAddLoop]
        rw [Prod.mk.injEq] at hone
        obtain ⟨h1, h2⟩ := hone
        dsimp only at h1 h2 ⊢
        rcases hw : f.1.addDataWrites f.2.2.object x y order with ⟨ws, r⟩
        rcases ha : f.1.addDataPoint f.2.2 x y with ⟨s', r'⟩
        rw [hw, ha] at h1 h2
        dsimp only at h1 h2
        subst h2
        have hfirst : ∀ us : List (List StackItem → List StackItem), ∀ l : List StackItem,
            (ws.map onFirst ++ us.map onRest).foldl (fun t w => w t) ((⟨f.1, f.2.1, f.2.2.object⟩ : StackItem) :: l) =
            ⟨f.1, f.2.1, s'.object⟩ :: us.foldl (fun t w => w t) l := by
          intro us l
          rw [hall, afterWrites_onFirst, afterWrites_all _ _ (by simp), afterWrites_all _ _ (by simp)]
          rw [h1]
        cases r with
        | error e =>
          dsimp only
          have := hfirst [] (fs.map fun f => ⟨f.1, f.2.1, f.2.2.object⟩)
          rw [List.map_nil, List.append_nil] at this
          rw [this]
          simp only [List.foldl_nil, List.zipWith_cons_cons]
          rw [hid fs]
        | ok u =>
          dsimp only
          rw [hfirst]
          obtain ⟨i1, i2⟩ := Prod.mk.inj (ih ys)
          rw [i1, i2]
          rfl

/-- **C136 (order of the functions).** Wherever a call of `FunctionStack.add_data_point` is stopped or raises, there is a number `j` such that the functions before the `j`-th one are as after a complete call and the functions after it are as
before the call. -/
theorem C136_stack_progress (fs : List StackItem) (x : Arr ℝ) (y : List (List ℝ)) (order : List Holder) (k : ℕ) :
    ∃ j : ℕ, ∀ i : ℕ, (i < j → (interruptedStackAdd fs x y order k)[i]? = (addToStack fs x y order).1[i]?) ∧
      (j < i → (interruptedStackAdd fs x y order k)[i]? = fs[i]?) := by
  unfold interruptedStackAdd addToStack stackAddWrites
  cases squeezeItems y with
  | error e => exact ⟨0, fun i => ⟨fun h => absurd h (Nat.not_lt_zero _), fun _ => by simp [afterWrites]⟩⟩
  | ok items =>
    dsimp only
    induction fs generalizing items k with
    | nil => exact ⟨0, fun i => ⟨fun h => absurd h (Nat.not_lt_zero _), fun _ => by simp [stackAddWritesLoop, afterWrites]⟩⟩
    | cons f fs ih =>
      cases items with
      | nil => exact ⟨0, fun i => ⟨fun h => absurd h (Nat.not_lt_zero _), fun _ => by simp [stackAddWritesLoop, afterWrites]⟩⟩
      | cons y ys =>
        rcases hw : f.model.addDataWrites f.object x y order with ⟨ws, r⟩
        rw [stackAddWritesLoop, hw]
        cases r with
        | error e =>
          dsimp only
          refine ⟨0, fun i => ⟨fun h => absurd h (Nat.not_lt_zero _), fun hi => ?_⟩⟩
          have := afterWrites_onFirst ws [] k f fs
          rw [List.map_nil, List.append_nil] at this
          rw [this]
          obtain ⟨i, rfl⟩ := Nat.exists_eq_add_of_lt hi
          simp [afterWrites]
        | ok u =>
          dsimp only
          by_cases hk : k ≤ ws.length
          · refine ⟨0, fun i => ⟨fun h => absurd h (Nat.not_lt_zero _), fun hi => ?_⟩⟩
            rw [afterWrites_onFirst, Nat.sub_eq_zero_of_le hk]
            obtain ⟨i, rfl⟩ := Nat.exists_eq_add_of_lt hi
            simp [afterWrites]
          · obtain ⟨j, hj⟩ := ih (k - ws.length) ys
            refine ⟨j + 1, fun i => ?_⟩
            have hall : ∀ (ws : List (List StackItem → List StackItem)) (l : List StackItem),
                ws.foldl (fun t w => w t) l = afterWrites ws ws.length l := fun ws l => by unfold afterWrites; rw [List.take_length]
            rw [afterWrites_onFirst, hall, afterWrites_onFirst, afterWrites_all ws k (by omega), afterWrites_all ws _ (by simp),
              afterWrites_all _ (List.length _ - ws.length) (by simp)]
            cases i with
            | zero => simp
            | succ i =>
              simp only [List.getElem?_cons_succ]
              exact ⟨fun h => (hj i).1 (by omega), fun h => (hj i).2 (by omega)⟩

/-- The pairs that were given to function `i` of a stack: those of its constructor and the `i`-th measurement of each call, whether it was stopped or not. -/
def _root_.Spec.submittedTo (X Y : List (List ℝ)) (calls : List StoppedStackAdd) (i : ℕ) : List (List ℝ × List ℝ) :=
  X.zip Y ++ calls.map fun c => (c.x, [c.y.getD i 0])

theorem squeeze_row {r : List ℝ} (h : 2 ≤ r.length) : squeezeItems [r] = .ok (r.map .scalar) := by
  match r, h with
  | a :: b :: r, _ => rfl

/-- Each function of a stack goes through a history of its own. -/
theorem stack_histories {d : ℕ} (hd : 2 ≤ d) (items : Fin d → StackItem) (calls : List StoppedStackAdd) (hcalls : ∀ c ∈ calls, c.y.length = d) :
    ∃ cs : Fin d → List StoppedAdd, (∀ i, (cs i).flatMap (fun c => Spec.pairsOf c.x c.y) = calls.map fun c => (c.x, [c.y.getD i 0])) ∧
      (∀ i, ∀ c ∈ cs i, c.y.rows.length = c.x.rows.length ∧ c.x.rows ≠ []) ∧
      runStoppedStack (List.ofFn items) calls =
        List.ofFn fun i => { items i with object := (items i).model.runStopped (items i).object (cs i) } := by
  induction calls generalizing items with
  | nil => exact ⟨fun _ => [], fun _ => rfl, fun _ c h => absurd h (by simp), rfl⟩
  | cons c calls ih =>
    have hy : c.y.length = d := hcalls c (by simp)
    obtain ⟨hlen, hcomp⟩ := stackLoop_components (.matrix [c.x]) c.order (List.ofFn items) (c.y.map .scalar) c.steps
    have hcall : interruptedStackAdd (List.ofFn items) (.matrix [c.x]) [c.y] c.order c.steps =
        afterWrites (stackAddWritesLoop (.matrix [c.x]) c.order (List.ofFn items) (c.y.map .scalar)).1 c.steps (List.ofFn items) := by
      unfold interruptedStackAdd stackAddWrites
      rw [squeeze_row (by omega)]
    have hm : ∀ i : Fin d, ∃ m, (interruptedStackAdd (List.ofFn items) (.matrix [c.x]) [c.y] c.order c.steps)[(i : ℕ)]? =
        some { items i with object := (items i).model.interruptedAdd (items i).object (.matrix [c.x]) (.scalar (c.y.getD i 0)) c.order m } := by
      intro i
      rw [hcall]
      refine hcomp i (items i) (.scalar (c.y.getD i 0)) (by simp) ?_
      rw [List.getElem?_map, List.getElem?_eq_getElem (by omega)]
      simp [hy]
    choose m hm using hm
    have hstep : interruptedStackAdd (List.ofFn items) (.matrix [c.x]) [c.y] c.order c.steps = List.ofFn fun i =>
        { items i with object := (items i).model.interruptedAdd (items i).object (.matrix [c.x]) (.scalar (c.y.getD i 0)) c.order (m i) } := by
      refine List.ext_getElem? fun i => ?_
      by_cases hi : i < d
      · rw [hm ⟨i, hi⟩]
        simp [hi]
      · rw [List.getElem?_eq_none (by rw [hcall, hlen, List.length_ofFn]; omega), List.getElem?_eq_none (by rw [List.length_ofFn]; omega)]
    obtain ⟨cs, h1, h2, h3⟩ := ih (fun i =>
      { items i with object := (items i).model.interruptedAdd (items i).object (.matrix [c.x]) (.scalar (c.y.getD i 0)) c.order (m i) })
      (fun c' hc' => hcalls c' (by simp [hc']))
    refine ⟨fun i => ⟨.matrix [c.x], .scalar (c.y.getD i 0), c.order, m i⟩ :: cs i, fun i => ?_, fun i e he => ?_, ?_⟩
    · rw [List.flatMap_cons, h1]
      rfl
    · rcases List.mem_cons.mp he with rfl | he
      · exact ⟨rfl, by simp [Arr.rows]⟩
      · exact h2 i e he
    · unfold runStoppedStack
      rw [List.foldl_cons, hstep]
      exact h3

theorem errors_sum (P : List (List ℝ × List ℝ)) (f : List ℝ → ℝ) :
    ∑ i : Fin (P.map Prod.fst).length, (entryOf (P.map Prod.snd) i 0 - f ((P.map Prod.fst).get i)) ^ 2 =
      (P.map fun p => (p.2.getD 0 0 - f p.1) ^ 2).sum := by
  rw [← List.sum_ofFn]
  congr 1
  refine List.ext_getElem (by simp) fun i h1 h2 => ?_
  simp [entryOf]

/-- What is known of the true system for all pairs is known for some of them. -/
theorem covered_sublist {gp : GPModel 1} {beta : ℝ} {P Q : List (List ℝ × List ℝ)} {f : List ℝ → ℝ} {B R : ℝ} (hQ : Q.Sublist P)
    (h : Spec.Covered gp beta (P.map Prod.fst) (P.map Prod.snd) f B R) : Spec.Covered gp beta (Q.map Prod.fst) (Q.map Prod.snd) f B R := by
  refine ⟨h.kernel, h.noise_nonneg, h.scale_ne, by simp, h.norm, ?_, h.beta_nonneg, h.factor⟩
  have := h.errors
  rw [errors_sum] at this ⊢
  refine le_trans (List.Sublist.sum_le_sum (hQ.map _) ?_) this
  intro a ha
  obtain ⟨p, -, rfl⟩ := List.mem_map.mp ha
  exact sq_nonneg _

theorem stackEvaluate_valueError (funs : List UncertainEval) (pts : List (List ℝ)) (hall : ∀ f ∈ funs, (∃ r, f pts = .ok r) ∨ f pts = .error .valueError)
    (hex : ∃ f ∈ funs, f pts = .error .valueError) : stackEvaluate funs pts = .error .valueError := by
  have h : (funs.mapM fun f => f pts) = .error .valueError := by
    induction funs with
    | nil => simp at hex
    | cons f fs ih =>
      rw [List.mapM_cons]
      rcases hall f (by simp) with ⟨r, hr⟩ | he
      · rw [hr]
        obtain ⟨g, hg, hge⟩ := hex
        rcases List.mem_cons.mp hg with rfl | hg
        · rw [hr] at hge; cases hge
        · have := ih (fun f hf => hall f (by simp [hf])) ⟨g, hg, hge⟩
          simp [Bind.bind, Except.bind, this]
      · rw [he]; rfl
  unfold stackEvaluate
  rw [h]
  rfl

/-- The functions of a stack after a history with stopped calls: one of them raises, or all of them are Gaussian processes of some of their pairs. -/
theorem stack_alternatives {d : ℕ} (hd : 2 ≤ d) (gps : Fin d → GPModel 1) (beta : Fin d → ℝ) (s : Fin d → GPState 1) (X Y : Fin d → List (List ℝ))
    (hX : ∀ i, X i ≠ []) (hl : ∀ i, (Y i).length = (X i).length) (hs : ∀ i, (gps i).init (X i) (Y i) = .ok (s i))
    (calls : List StoppedStackAdd) (hcalls : ∀ c ∈ calls, c.y.length = d) :
    let t := runStoppedStack (List.ofFn fun i => ⟨gps i, beta i, (s i).object⟩) calls
    (∀ pts, stackEvaluate (t.map StackItem.evaluateRows) pts = .error .valueError) ∨
    ∃ (Q : Fin d → List (List ℝ × List ℝ)) (s' : Fin d → GPState 1), (∀ i, (Q i).Sublist (Spec.submittedTo (X i) (Y i) calls i)) ∧
      (∀ i, (gps i).init ((Q i).map Prod.fst) ((Q i).map Prod.snd) = .ok (s' i)) ∧
      ∀ pts, stackEvaluate (t.map StackItem.evaluateRows) pts = stackEvaluate (List.ofFn fun i => (gps i).evaluateRows (beta i) (s' i)) pts := by
  intro t
  obtain ⟨cs, h1, h2, h3⟩ := stack_histories hd (fun i => ⟨gps i, beta i, (s i).object⟩) calls hcalls
  have ht : t.map StackItem.evaluateRows = List.ofFn fun i =>
      StackItem.evaluateRows ⟨gps i, beta i, (gps i).runStopped (s i).object (cs i)⟩ := by
    change (runStoppedStack _ calls).map _ = _
    rw [h3, List.map_ofFn]
    rfl
  have halt := fun i => C136_gp_history (gps i) (beta i) (X i) (Y i) (hX i) (hl i) (s i) (hs i) (cs i) (h2 i)
  have herr : ∀ i pts, (gps i).evaluateObject (beta i) ((gps i).runStopped (s i).object (cs i)) pts = .error .valueError →
      StackItem.evaluateRows ⟨gps i, beta i, (gps i).runStopped (s i).object (cs i)⟩ pts = .error .valueError := by
    intro i pts h
    unfold StackItem.evaluateRows
    dsimp only
    rw [h]
    rfl
  by_cases hex : ∃ i, ∀ pts, (gps i).evaluateObject (beta i) ((gps i).runStopped (s i).object (cs i)) pts = .error .valueError
  · left
    intro pts
    rw [ht]
    refine stackEvaluate_valueError _ pts (fun f hf => ?_) ?_
    · obtain ⟨i, rfl⟩ := (List.mem_ofFn' _ _).mp hf
      rcases hm : (gps i).evaluateObject (beta i) ((gps i).runStopped (s i).object (cs i)) pts with e | p
      · rcases halt i with h | ⟨Q, s', -, hinit, h⟩
        · exact Or.inr (herr i pts (h pts))
        · rw [h pts] at hm
          obtain ⟨cache, hcache, rfl⟩ := init_inv hinit
          unfold GPModel.evaluate at hm
          obtain ⟨-, L, -, rfl⟩ := computeCache_inv hcache
          unfold GPModel.buildPredict at hm
          rw [if_pos rfl] at hm
          cases hm
      · left
        unfold StackItem.evaluateRows
        dsimp only
        rw [hm]
        exact ⟨_, rfl⟩
    · obtain ⟨i, hi⟩ := hex
      exact ⟨_, (List.mem_ofFn' _ _).mpr ⟨i, rfl⟩, herr i pts (hi pts)⟩
  · right
    have halt' := fun i => (halt i).resolve_left fun h => hex ⟨i, h⟩
    choose Q s' hQ hinit heval using halt'
    refine ⟨Q, s', fun i => ?_, hinit, fun pts => ?_⟩
    · have := hQ i
      unfold Spec.submitted at this
      rw [h1] at this
      exact this
    · rw [ht]
      congr 2
      funext i pts
      unfold StackItem.evaluateRows GPModel.evaluateRows
      dsimp only
      rw [heval]

theorem trainedOn_init {gp : GPModel o} {s : GPState o} {X Y : List (List ℝ)} (h : gp.init X Y = .ok s) : Spec.TrainedOn gp s X Y :=
  ⟨X, Y, s, [], h, rfl, by simp, by simp⟩

/-- **C136 (stacks).** Let the dynamics be a stack of Gaussian processes, and let any number of calls of `add_data_point` follow, each complete or stopped anywhere. Let each component of the true dynamics `F` be
covered by the factor of its process with all pairs that were ever given to it. Then each prediction of the stack contains the true dynamics, or every evaluation raises: some functions have a measurement that others do not have, but all intervals are
correct. -/
theorem C136_stack_history {d : ℕ} (hd : 2 ≤ d) (gps : Fin d → GPModel 1) (beta : Fin d → ℝ) (s : Fin d → GPState 1) (X Y : Fin d → List (List ℝ))
    (hX : ∀ i, X i ≠ []) (hl : ∀ i, (Y i).length = (X i).length) (hs : ∀ i, (gps i).init (X i) (Y i) = .ok (s i))
    (calls : List StoppedStackAdd) (hcalls : ∀ c ∈ calls, c.y.length = d) (F : List ℝ → Fin d → ℝ) (B R : Fin d → ℝ)
    (hcov : ∀ i, Spec.Covered (gps i) (beta i) ((Spec.submittedTo (X i) (Y i) calls i).map Prod.fst)
      ((Spec.submittedTo (X i) (Y i) calls i).map Prod.snd) (fun x => F x i) (B i) (R i)) :
    let t := runStoppedStack (List.ofFn fun i => ⟨gps i, beta i, (s i).object⟩) calls
    (∀ pts, stackEvaluate (t.map StackItem.evaluateRows) pts = .error .valueError) ∨
    ∀ pts, ∃ mean error : Fin pts.length → Fin d → ℝ, stackEvaluate (t.map StackItem.evaluateRows) pts =
        .ok (List.ofFn fun r => List.ofFn (mean r), List.ofFn fun r => List.ofFn (error r)) ∧
      ∀ r i, |F (pts.get r) i - mean r i| ≤ error r i := by
  intro t
  refine (stack_alternatives hd gps beta s X Y hX hl hs calls hcalls).imp_right fun ⟨Q, s', hQ, hinit, heval⟩ pts => ?_
  rw [heval pts]
  exact C129_stack (by omega) gps beta s' _ _ F B R (fun i => trainedOn_init (hinit i)) (fun i => covered_sublist (hQ i) (hcov i)) pts

/-- **C136 (region of attraction).** The guarantee of C129 at any point of such a history: if evaluations return, the dynamics of `update_safe_set` are the current predictions of the stack, and the safe set that it returns promises what it
promises for the true system. -/
theorem C136_region {d : ℕ} {Prog Θ : Type} (hd : 2 ≤ d) (gps : Fin d → GPModel 1) (beta : Fin d → ℝ) (st : Fin d → GPState 1)
    (X Y : Fin d → List (List ℝ)) (hX : ∀ i, X i ≠ []) (hl : ∀ i, (Y i).length = (X i).length) (hs : ∀ i, (gps i).init (X i) (Y i) = .ok (st i))
    (calls : List StoppedStackAdd) (hcalls : ∀ c ∈ calls, c.y.length = d) (F : List ℝ → Fin d → ℝ) (B R : Fin d → ℝ)
    (hcov : ∀ i, Spec.Covered (gps i) (beta i) ((Spec.submittedTo (X i) (Y i) calls i).map Prod.fst)
      ((Spec.submittedTo (X i) (Y i) calls i).map Prod.snd) (fun x => F x i) (B i) (R i))
    (sys : System ℝ Prog Θ d) (g : GridWorld ℝ d)
    (argsort : (Fin g.nindex → ℝ) → List (Fin g.nindex)) (tauDiv : ℝ → ℕ → ℝ)
    (hW : (sys.world g argsort tauDiv).SortContract) (prog : Prog) (θ : Θ) (policy : (Fin d → ℝ) → List ℝ)
    (hloop : ∀ x, ∃ mean error,
      stackEvaluate ((runStoppedStack (List.ofFn fun i => ⟨gps i, beta i, (st i).object⟩) calls).map StackItem.evaluateRows)
        [List.ofFn x ++ policy x] = .ok ([List.ofFn mean], [List.ofFn error]) ∧ sys.closedLoop prog θ x = .uncertain mean error)
    (Lv Lf tau : ℝ) (h2 : ∀ i, 2 ≤ g.num i) (hlt : ∀ i, g.lo i < g.hi i) (hlv : sys.lv θ = .const Lv) (hlf : sys.lf θ = .const Lf)
    (hLv : 0 ≤ Lv) (hLf : 0 ≤ Lf) (hV : ∀ y z, |sys.V θ y - sys.V θ z| ≤ Lv * ∑ i, |y i - z i|)
    (hF : ∀ y z : Fin d → ℝ, ∑ i, |F (List.ofFn y ++ policy y) i - F (List.ofFn z ++ policy z) i| ≤ Lf * ∑ i, |y i - z i|)
    (htau : ∑ i, (g.hi i - g.lo i) / ((g.num i : ℝ) - 1) / 2 ≤ tau)
    (initial : Option (Fin g.nindex → Bool)) (adaptive : Bool) (θ₀ : Θ)
    (history : List (Lyap.Op ℝ Prog Θ)) (hh : ∀ op ∈ history, op.IsMethod)
    (batch : ℕ) (hb : 0 < batch) (args : Lyap.UpdateArgs ℝ) (hcs : args.canShrink = true)
    (hna : ¬(adaptive = true ∧ 1 < args.maxRefinement)) :
    let f : (Fin d → ℝ) → Fin d → ℝ := fun x => F (List.ofFn x ++ policy x)
    let W := sys.world g argsort tauDiv
    let s := Lyap.run W (Lyap.new W prog tau initial adaptive θ₀) history
    let r := Lyap.updateSafeSet W batch args s θ
    (∀ j, s.values j = sys.V θ (gridState g j)) →
    ∀ c, (∀ j, s.values j < c → r.1.safeSet j = true) →
    (∀ x, sys.V θ x < c - Lv * tau → ∀ i, g.lo i ≤ x i ∧ x i ≤ g.hi i) →
    ∃ ε, 0 < ε ∧ ∀ x₀, sys.V θ x₀ < c - Lv * tau →
      ∃ T, (∀ t < T, sys.V θ (f^[t + 1] x₀) ≤ sys.V θ (f^[t] x₀) - ε) ∧
        (∀ t ≤ T, sys.V θ (f^[t] x₀) < c - Lv * tau) ∧
        ∃ j, InInitial initial j ∧ ∑ i, |f^[T] x₀ i - gridState g j i| ≤ tau := by
  intro f
  refine C27_reaches_initial_set sys g argsort tauDiv hW prog θ f Lv Lf tau
    ⟨h2, hlt, hlv, hlf, hLv, hLf, hV, hF, fun k => ?_, htau⟩ initial adaptive θ₀ history hh batch hb args hcs hna
  obtain ⟨mean, error, e, hcl⟩ := hloop (gridState g k)
  rw [hcl]
  rcases C136_stack_history hd gps beta st X Y hX hl hs calls hcalls F B R hcov with h | h
  · rw [h] at e; cases e
  · obtain ⟨mean', error', e', hc⟩ := h [List.ofFn (gridState g k) ++ policy (gridState g k)]
    rw [e] at e'
    injection e' with e'
    rw [Prod.mk.injEq] at e'
    obtain ⟨e1, e2⟩ := e'
    have hm : mean = mean' 0 := by simpa [List.ofFn_inj] using e1
    have he : error = error' 0 := by simpa [List.ofFn_inj] using e2
    rw [hm, he]
    exact fun i => hc 0 i

/-! ## Repeating a stopped call -/

theorem addDataWrites_ok (gp : GPModel o) (t : GPObject o) (x y : Arr ℝ) (order : List Holder) (ho : ∀ h, h ∈ order)
    (hx : ∀ r ∈ x.rows, r.length = gp.xdim) (hy : ∀ r ∈ y.rows, r.length = o) (s' : GPState o)
    (hs : gp.init (t.data.X ++ x.rows) (t.data.Y ++ y.rows) = .ok s') :
    ∃ ws, gp.addDataWrites t x y order = (ws, .ok ()) ∧ ws.length = 4 + order.length ∧ ws.foldl (fun t w => w t) t = s'.object := by
  have h := addToObject_ok gp t x y order ho hx hy s' hs
  unfold GPModel.addToObject at h
  obtain ⟨h1, h2⟩ := Prod.mk.inj h
  obtain ⟨c, hc, rfl⟩ := init_inv hs
  refine ⟨_, Prod.ext rfl h2, ?_, h1⟩
  rcases addDataWrites_cases gp t x y order with ⟨e, hw, -⟩ | ⟨e, hw, -⟩ | ⟨e, hw, -⟩ | ⟨c', -, -, -, hw⟩
  · rw [hw] at h2; cases h2
  · rw [hw] at h2; cases h2
  · rw [hw] at h2; cases h2
  · rw [hw]; simp; omega

/-- A stack of two processes: with `L` assignments for each function, a call that is stopped after `L` assignments has changed the first function only, and one that is stopped after `2 L` assignments is complete. -/
theorem stack_two (f g : StackItem) (x : List ℝ) (a b : ℝ) (order : List Holder) (ho : ∀ h, h ∈ order) (hx : x.length = f.model.xdim)
    (hx' : x.length = g.model.xdim) (sf sg : GPState 1) (hf : f.model.init (f.object.data.X ++ [x]) (f.object.data.Y ++ [[a]]) = .ok sf)
    (hg : g.model.init (g.object.data.X ++ [x]) (g.object.data.Y ++ [[b]]) = .ok sg) :
    interruptedStackAdd [f, g] (.matrix [x]) [[a, b]] order (4 + order.length) = [{ f with object := sf.object }, g] ∧
    interruptedStackAdd [f, g] (.matrix [x]) [[a, b]] order (2 * (4 + order.length)) =
      [{ f with object := sf.object }, { g with object := sg.object }] := by
  obtain ⟨ws, hw, hwl, hwf⟩ := addDataWrites_ok f.model f.object (.matrix [x]) (.scalar a) order ho (by simp [Arr.rows, hx]) (by simp [Arr.rows]) sf hf
  obtain ⟨us, hu, hul, huf⟩ := addDataWrites_ok g.model g.object (.matrix [x]) (.scalar b) order ho (by simp [Arr.rows, hx']) (by simp [Arr.rows]) sg hg
  have hrest : stackAddWritesLoop (.matrix [x]) order [g] [.scalar b] = (us.map onFirst, .ok ()) := by
    rw [stackAddWritesLoop, hu]
    simp [stackAddWritesLoop]
  have hwrites : (stackAddWrites [f, g] (.matrix [x]) [[a, b]] order).1 = ws.map onFirst ++ (us.map onFirst).map onRest := by
    unfold stackAddWrites
    rw [squeeze_row (by simp)]
    simp only [List.map_cons, List.map_nil]
    rw [stackAddWritesLoop, hw, hrest]
  have hone : ∀ k, afterWrites (us.map onFirst) k [g] = [{ g with object := afterWrites us k g.object }] := by
    intro k
    have := afterWrites_onFirst us [] k g []
    rw [List.map_nil, List.append_nil] at this
    rw [this]
    simp [afterWrites]
  unfold interruptedStackAdd
  rw [hwrites, afterWrites_onFirst, afterWrites_onFirst, hwl, Nat.sub_self, hone, hone, afterWrites_all ws _ (by omega),
    afterWrites_all ws _ (by omega), hwf, afterWrites_all us (2 * (4 + order.length) - (4 + order.length)) (by omega), huf]
  exact ⟨rfl, rfl⟩

theorem evaluate_beta (gp : GPModel o) (beta : ℝ) (s : GPState o) (pts : List (List ℝ)) (mean error : Matrix (Fin pts.length) (Fin o) ℝ)
    (h : gp.evaluate 1 s pts = .ok (mean, error)) : gp.evaluate beta s pts = .ok (mean, fun i l => beta * error i l) := by
  unfold GPModel.evaluate at h ⊢
  cases hp : gp.buildPredict s.feed pts with
  | error e => rw [hp] at h; cases h
  | ok p =>
    rw [hp] at h
    simp only [Bind.bind, Except.bind, Pure.pure, Except.pure, one_mul, Except.ok.injEq] at h ⊢
    obtain ⟨h1, h2⟩ := Prod.mk.inj h
    rw [← h1, ← h2]

theorem constant_rows (n : ℕ) (beta : ℝ) (s : GPState 1) (hs : (constantGP 1).init (List.replicate n [0]) (List.replicate n [1]) = .ok s)
    (z : List ℝ) : StackItem.evaluateRows ⟨constantGP 1, beta, s.object⟩ [z] = .ok ([[(n : ℝ) / (n + 1)]], [[beta * Real.sqrt (1 / ((n : ℝ) + 1))]]) := by
  unfold StackItem.evaluateRows
  dsimp only
  rw [evaluateObject_object, evaluate_beta _ beta s _ _ _ (constant_evaluate n s hs [z])]
  simp [Bind.bind, Except.bind, Pure.pure, Except.pure]

theorem stackEvaluate_two (f g : UncertainEval) (pts : List (List ℝ)) (a b c e : ℝ) (hf : f pts = .ok ([[a]], [[b]])) (hg : g pts = .ok ([[c]], [[e]])) :
    stackEvaluate [f, g] pts = .ok ([[a, c]], [[b, e]]) := by
  unfold stackEvaluate
  simp [hf, hg, Bind.bind, Except.bind, Pure.pure, Except.pure, hstack]

/-- **C136, refuted for repeated calls.** Repeating a call of `FunctionStack.add_data_point` that was stopped is not safe: the functions that had finished have the measurement twice. Two processes with the
constant kernel 1, noise 1 and one measurement each are given a second one. The factor `√2` covers the true function 0 with both measurements, but after the call was stopped between the two functions and repeated, the interval of the
first component excludes it. -/
theorem C136_retry_refuted (order : List Holder) (ho : ∀ h, h ∈ order) : ∃ s : GPState 1, (constantGP 1).init [[0]] [[1]] = .ok s ∧
    Spec.Covered (constantGP 1) (Real.sqrt 2) [[0], [0]] [[1], [1]] (fun _ => 0) 0 (Real.sqrt 2) ∧
    let stack : List StackItem := [⟨constantGP 1, Real.sqrt 2, s.object⟩, ⟨constantGP 1, Real.sqrt 2, s.object⟩]
    let call (steps : ℕ) : StoppedStackAdd := ⟨[0], [1, 1], order, steps⟩
    (∃ mean error : Fin 2 → ℝ,
      stackEvaluate ((runStoppedStack stack [call (2 * (4 + order.length))]).map StackItem.evaluateRows) [[0]] =
        .ok ([List.ofFn mean], [List.ofFn error]) ∧ ∀ i, |0 - mean i| ≤ error i) ∧
    ∃ mean error : Fin 2 → ℝ,
      stackEvaluate ((runStoppedStack stack [call (4 + order.length), call (2 * (4 + order.length))]).map StackItem.evaluateRows) [[0]] =
        .ok ([List.ofFn mean], [List.ofFn error]) ∧ error 0 < |0 - mean 0| := by
  have hdef : ∀ n, ∃ s, (constantGP 1).init (List.replicate n [0]) (List.replicate n [1]) = .ok s := fun n =>
    C53_defined (constantGP 1) (constantKernel_isKernel zero_le_one) (by norm_num [constantGP]) (by norm_num [constantGP]) _ _ (by simp)
  obtain ⟨s1, hs1⟩ := hdef 1
  obtain ⟨s2, hs2⟩ := hdef 2
  obtain ⟨s3, hs3⟩ := hdef 3
  have d1 : s1.object.data.X = [[0]] ∧ s1.object.data.Y = [[1]] := by obtain ⟨c, -, rfl⟩ := init_inv hs1; exact ⟨rfl, rfl⟩
  have d2 : s2.object.data.X = [[0], [0]] ∧ s2.object.data.Y = [[1], [1]] := by obtain ⟨c, -, rfl⟩ := init_inv hs2; exact ⟨rfl, rfl⟩
  have hx : ([0] : List ℝ).length = (constantGP 1).xdim := rfl
  have n11 := stack_two ⟨constantGP 1, Real.sqrt 2, s1.object⟩ ⟨constantGP 1, Real.sqrt 2, s1.object⟩ [0] 1 1 order ho hx hx s2 s2
    (by rw [d1.1, d1.2]; exact hs2) (by rw [d1.1, d1.2]; exact hs2)
  have n21 := stack_two ⟨constantGP 1, Real.sqrt 2, s2.object⟩ ⟨constantGP 1, Real.sqrt 2, s1.object⟩ [0] 1 1 order ho hx hx s3 s2
    (by rw [d2.1, d2.2]; exact hs3) (by rw [d1.1, d1.2]; exact hs2)
  refine ⟨s1, hs1, ?_, ?_, ?_⟩
  · refine ⟨constantKernel_isKernel zero_le_one, by norm_num [constantGP], by norm_num [constantGP], rfl, ?_, ?_, Real.sqrt_nonneg _, by simp⟩
    · have := normAtMost_span (k := (constantGP 1).kern) (constantKernel_isKernel zero_le_one) (N := 1) (fun _ => [0]) (fun _ => 0) (B := 0) le_rfl (by
        norm_num [Spec.kernelForm, constantGP])
      convert this using 2 with x
      norm_num [constantGP]
    · have := errors_sum [([0], [1]), ([0], [1])] fun _ => 0
      refine (show _ = _ from this).trans_le ?_
      norm_num [constantGP]
  · refine ⟨![2 / 3, 2 / 3], ![Real.sqrt 2 * Real.sqrt (1 / 3), Real.sqrt 2 * Real.sqrt (1 / 3)], ?_, ?_⟩
    · simp only [runStoppedStack, List.foldl_cons, List.foldl_nil]
      rw [n11.2]
      simp only [List.map_cons, List.map_nil]
      rw [stackEvaluate_two _ _ _ _ _ _ _ (constant_rows 2 _ s2 hs2 [0]) (constant_rows 2 _ s2 hs2 [0])]
      norm_num
    · intro i
      have h : |(0 : ℝ) - 2 / 3| ≤ Real.sqrt 2 * Real.sqrt (1 / 3) := by
        rw [← Real.sqrt_mul (by norm_num), zero_sub, abs_neg, abs_of_nonneg (by norm_num)]
        exact Real.le_sqrt_of_sq_le (by norm_num)
      fin_cases i <;> exact h
  · refine ⟨![3 / 4, 2 / 3], ![Real.sqrt 2 * Real.sqrt (1 / 4), Real.sqrt 2 * Real.sqrt (1 / 3)], ?_, ?_⟩
    · simp only [runStoppedStack, List.foldl_cons, List.foldl_nil]
      rw [n11.1]
      dsimp only
      rw [n21.2]
      simp only [List.map_cons, List.map_nil]
      rw [stackEvaluate_two _ _ _ _ _ _ _ (constant_rows 3 _ s3 hs3 [0]) (constant_rows 2 _ s2 hs2 [0])]
      norm_num
    · change Real.sqrt 2 * Real.sqrt (1 / 4) < |0 - 3 / 4|
      rw [← Real.sqrt_mul (by norm_num), zero_sub, abs_neg, abs_of_nonneg (by norm_num), Real.sqrt_lt' (by norm_num)]
      norm_num

/-! ## Concrete cases -/

/-- A stopped call, a complete one and one that is stopped while the feed dictionary is updated, for a process with one measurement. -/
example : ∃ s, exampleGP.init [[1]] [[5]] = .ok s ∧
    let calls : List StoppedAdd := [⟨.vector [2], .scalar 7, [.X, .Y, .cholesky, .alpha], 3⟩, ⟨.vector [3], .scalar 8, [.X, .Y, .cholesky, .alpha], 8⟩,
      ⟨.vector [4], .scalar 9, [.X, .Y, .cholesky, .alpha], 6⟩]
    ((∀ pts, exampleGP.evaluateObject 2 (exampleGP.runStopped s.object calls) pts = .error .valueError) ∨
    ∃ (Q : List (List ℝ × List ℝ)) (s' : GPState 1), Q.Sublist [([1], [5]), ([2], [7]), ([3], [8]), ([4], [9])] ∧
      exampleGP.init (Q.map Prod.fst) (Q.map Prod.snd) = .ok s' ∧
      ∀ pts, exampleGP.evaluateObject 2 (exampleGP.runStopped s.object calls) pts = exampleGP.evaluate 2 s' pts) := by
  obtain ⟨s, hs⟩ := C53_defined exampleGP linearKernel_isKernel (by norm_num [exampleGP]) (by norm_num [exampleGP]) [[1]] [[5]] rfl
  exact ⟨s, hs, C136_gp_history exampleGP 2 [[1]] [[5]] (by simp) rfl s hs _ (by simp [Arr.rows])⟩

/-- Two processes with the constant kernel; a call is stopped between the two functions. -/
theorem stoppedPair_eq (s1 s2 : GPState 1) (h1 : (constantGP 1).init [[0]] [[1]] = .ok s1) (h2 : (constantGP 1).init [[0], [0]] [[1], [1]] = .ok s2) :
    runStoppedStack (List.ofFn fun _ : Fin 2 => ⟨constantGP 1, 1, s1.object⟩) [⟨[0], [1, 1], [.X, .Y, .cholesky, .alpha], 8⟩] =
      [⟨constantGP 1, 1, s2.object⟩, ⟨constantGP 1, 1, s1.object⟩] := by
  have d1 : s1.object.data.X = [[0]] ∧ s1.object.data.Y = [[1]] := by obtain ⟨c, -, rfl⟩ := init_inv h1; exact ⟨rfl, rfl⟩
  exact (stack_two ⟨constantGP 1, 1, s1.object⟩ ⟨constantGP 1, 1, s1.object⟩ [0] 1 1 [.X, .Y, .cholesky, .alpha] (fun h => by cases h <;> simp)
    rfl rfl s2 s2 (by rw [d1.1, d1.2]; exact h2) (by rw [d1.1, d1.2]; exact h2)).1

/-- The plane from -8 to 8 with five by five states. -/
def widePlane : GridWorld ℝ 2 where
  lo := ![-8, -8]
  hi := ![8, 8]
  num := ![5, 5]

theorem sorted_world {d : ℕ} (sys : System ℝ Unit Unit d) (g : GridWorld ℝ d) :
    (sys.world g (fun v => (List.finRange _).insertionSort fun i j => v i ≤ v j) fun t k => t / k).SortContract :=
  sortContract_insertionSort _ rfl

/-- `V(x) = |x₀| + |x₁|` and the predictions of a stack of two functions. -/
noncomputable def stackSystem (fs : List StackItem) : System ℝ Unit Unit 2 where
  V := fun _ x => |x 0| + |x 1|
  lv := fun _ => .const 1
  lf := fun _ => .const 0
  closedLoop := fun _ _ x =>
    match stackEvaluate (fs.map StackItem.evaluateRows) [List.ofFn x] with
    | .ok (mean, error) => .uncertain (fun i => entryOf mean 0 i) (fun i => entryOf error 0 i)
    | .error _ => .exact x

/-- All hypotheses of `C136_stack_history` and `C136_region` are met after a call was stopped between two functions: every trajectory of the true system `f(x) = (1, 1)` from `|x₀| + |x₁| < 8` comes close to an initial state. -/
example : ∃ ε : ℝ, 0 < ε ∧ ∀ x₀ : Fin 2 → ℝ, |x₀ 0| + |x₀ 1| < 12 - 1 * 4 → ∃ T : ℕ,
    ∃ j : Fin widePlane.nindex, |gridState widePlane j 0| + |gridState widePlane j 1| < 8 ∧
      ∑ i, |(fun _ : Fin 2 → ℝ => fun _ : Fin 2 => (1 : ℝ))^[T] x₀ i - gridState widePlane j i| ≤ 4 := by
  have hdef : ∀ n, ∃ s, (constantGP 1).init (List.replicate n [0]) (List.replicate n [1]) = .ok s := fun n =>
    C53_defined (constantGP 1) (constantKernel_isKernel zero_le_one) (by norm_num [constantGP]) (by norm_num [constantGP]) _ _ (by simp)
  obtain ⟨s1, hs1⟩ := hdef 1
  obtain ⟨s2, hs2⟩ := hdef 2
  have hstack := stoppedPair_eq s1 s2 hs1 hs2
  have hpred : ∀ z, stackEvaluate ([⟨constantGP 1, 1, s2.object⟩, ⟨constantGP 1, 1, s1.object⟩].map StackItem.evaluateRows) [z] =
      .ok ([[2 / 3, 1 / 2]], [[Real.sqrt (1 / 3), Real.sqrt (1 / 2)]]) := by
    intro z
    simp only [List.map_cons, List.map_nil]
    rw [stackEvaluate_two _ _ _ _ _ _ _ (constant_rows 2 1 s2 hs2 z) (constant_rows 1 1 s1 hs1 z)]
    norm_num
  set sys := stackSystem [⟨constantGP 1, 1, s2.object⟩, ⟨constantGP 1, 1, s1.object⟩] with hsys
  have hloop : ∀ x, sys.closedLoop () () x = .uncertain ![2 / 3, 1 / 2] ![Real.sqrt (1 / 3), Real.sqrt (1 / 2)] := by
    intro x
    simp only [hsys, stackSystem, hpred]
    congr 1 <;> (funext i; fin_cases i <;> simp [entryOf])
  have hsort := sorted_world sys widePlane
  let initial : Option (Fin widePlane.nindex → Bool) := some fun k => decide (|gridState widePlane k 0| + |gridState widePlane k 1| < 8)
  have hn : 0 < widePlane.nindex := by simp [GridWorld.nindex, shapeProd, widePlane]
  have hgood : ∀ j : Fin widePlane.nindex, InInitial initial j ∨
      (sys.world widePlane (fun v => (List.finRange _).insertionSort fun i j => v i ≤ v j) fun t k => t / k).decrease () () j <
      (sys.world widePlane (fun v => (List.finRange _).insertionSort fun i j => v i ≤ v j) fun t k => t / k).threshold () j 4 := by
    intro j
    by_cases h8 : |gridState widePlane j 0| + |gridState widePlane j 1| < 8
    · exact Or.inl ⟨_, rfl, by simpa using h8⟩
    · right
      simp only [System.world, hloop]
      simp only [vDecreaseBound, vDecreaseConfidence, thresholdAt, hsys, stackSystem, LipArg.forThreshold, LipArg.entry, LipDyn.at, Fin.sum_univ_two]
      have r1 : Real.sqrt (1 / 3) ≤ 1 := Real.sqrt_le_one.mpr (by norm_num)
      have r2 : Real.sqrt (1 / 2) ≤ 1 := Real.sqrt_le_one.mpr (by norm_num)
      simp only [Matrix.cons_val_zero, Matrix.cons_val_one]
      rw [abs_of_nonneg (by norm_num : (0 : ℝ) ≤ 2 / 3), abs_of_nonneg (by norm_num : (0 : ℝ) ≤ 1 / 2)]
      linarith
  obtain ⟨ε, hε, h⟩ := C136_region (d := 2) le_rfl (fun _ => constantGP 1) (fun _ => 1) (fun _ => s1) (fun _ => [[0]]) (fun _ => [[1]]) (by simp) (by simp)
    (fun _ => hs1) [⟨[0], [1, 1], [.X, .Y, .cholesky, .alpha], 8⟩] (by simp) (fun _ _ => 1) (fun _ => 1) (fun _ => 0)
    (fun i => by fin_cases i <;> exact constant_covered 2)
    sys widePlane (fun v => (List.finRange _).insertionSort fun i j => v i ≤ v j) (fun t k => t / k) hsort () () (fun _ => [])
    (fun x => ⟨![2 / 3, 1 / 2], ![Real.sqrt (1 / 3), Real.sqrt (1 / 2)], by rw [hstack, hpred]; simp, hloop x⟩)
    1 0 4 (by intro i; fin_cases i <;> simp [widePlane]) (by intro i; fin_cases i <;> simp [widePlane]) rfl rfl (by norm_num) (by norm_num)
    (by
      intro y z
      simp only [Fin.sum_univ_two, one_mul, hsys, stackSystem]
      have a1 := abs_abs_sub_abs_le (y 0) (z 0)
      have a2 := abs_abs_sub_abs_le (y 1) (z 1)
      rw [abs_le] at a1 a2 ⊢
      constructor <;> linarith)
    (by intro y z; simp)
    (by norm_num [widePlane, Fin.sum_univ_two])
    initial false () [] (by simp) 10 (by decide) ⟨true, 1, 1⟩ rfl (by simp) (fun j => rfl) 12
    (by
      intro j _
      obtain ⟨Q, hQ, hsafe⟩ := Lyap.C20_largest_level_set (sys.world widePlane (fun v => (List.finRange _).insertionSort fun i j => v i ≤ v j) fun t k => t / k)
        hsort hn () 4 initial false () [] (by simp) 10 (by decide) ⟨true, 1, 1⟩ rfl () (by simp)
      refine (hsafe j).mpr (Or.inr ?_)
      rcases hQ.maximal with h | ⟨b, -, hb, -⟩
      · exact h j
      · exact absurd (hgood b) hb)
    (by
      intro x hx i
      have h1 : |x 0| + |x 1| < 12 - 1 * 4 := hx
      have h2 := neg_abs_le (x 0)
      have h3 := neg_abs_le (x 1)
      have h4 := le_abs_self (x 0)
      have h5 := le_abs_self (x 1)
      have h6 := abs_nonneg (x 0)
      have h7 := abs_nonneg (x 1)
      fin_cases i
      · change -8 ≤ x 0 ∧ x 0 ≤ 8
        constructor <;> linarith
      · change -8 ≤ x 1 ∧ x 1 ≤ 8
        constructor <;> linarith)
  refine ⟨ε, hε, fun x₀ hx => ?_⟩
  obtain ⟨T, -, -, j, ⟨I, hI, hj⟩, hT⟩ := h x₀ hx
  refine ⟨T, j, ?_, hT⟩
  rw [← Option.some.inj (show initial = some I from hI)] at hj
  simpa using hj

end

end SafeLearning
