import Verif.Model.TfFun
import Mathlib.Data.Fintype.Card
import Mathlib.Data.List.Infix
import Mathlib.Tactic.IntervalCases
set_option autoImplicit false

/-!
# C116: gradients of functions made with `make_tf_fun`
-/

namespace SafeLearning

/-! ## Names -/

/-- The number that a list of digits writes. -/
def readChars (l : TFName) : ℕ := l.foldl (fun n c => 10 * n + (c.toNat - 48)) 0

theorem digitChar_toNat (n : ℕ) (h : n < 10) : (Char.ofNat (48 + n)).toNat - 48 = n := by
  interval_cases n <;> rfl

theorem readChars_digitChars (n : ℕ) : readChars (digitChars n) = n := by
  induction n using Nat.strong_induction_on with
  | _ n ih =>
    unfold digitChars
    by_cases h : n < 10
    · rw [if_pos h]
      simp only [readChars, List.foldl_cons, List.foldl_nil, mul_zero, zero_add]
      exact digitChar_toNat n h
    · rw [if_neg h]
      have := ih (n / 10) (by omega)
      unfold readChars at this ⊢
      rw [List.foldl_append, this]
      simp only [List.foldl_cons, List.foldl_nil, digitChar_toNat (n % 10) (by omega)]
      omega

theorem numbered_injective (base : TFName) : Function.Injective (numbered base) := by
  intro i j h
  unfold numbered at h
  have := List.append_cancel_left h
  rw [List.cons.injEq] at this
  rw [← readChars_digitChars i, this.2, readChars_digitChars]

theorem firstFree_numbered (u : NamesInUse) (base : TFName) (fuel : ℕ) : ∀ i,
    ∃ j, firstFree u base fuel i = numbered base j := by
  induction fuel with
  | zero => intro i; exact ⟨i, rfl⟩
  | succ fuel ih =>
    intro i
    unfold firstFree
    split_ifs
    · exact ih _
    · exact ⟨i, rfl⟩

theorem firstFree_used (u : NamesInUse) (base : TFName) (fuel : ℕ) : ∀ i,
    firstFree u base fuel i ∈ u.map Prod.fst → ∀ j, j ≤ fuel → numbered base (i + j) ∈ u.map Prod.fst := by
  induction fuel with
  | zero =>
    intro i h j hj
    obtain rfl : j = 0 := by omega
    exact h
  | succ fuel ih =>
    intro i h j hj
    unfold firstFree at h
    split_ifs at h with hc
    · cases j with
      | zero => exact hc
      | succ j =>
        have := ih (i + 1) h j (by omega)
        rwa [show i + 1 + j = i + (j + 1) by omega] at this
    · exact absurd h hc

theorem firstFree_fresh (u : NamesInUse) (base : TFName) (i : ℕ) :
    firstFree u base (u.length + 1) i ∉ u.map Prod.fst := by
  intro h
  have hall := firstFree_used u base _ i h
  have hsub : (List.range (u.length + 2)).map (fun j => numbered base (i + j)) ⊆ u.map Prod.fst := by
    intro x hx
    obtain ⟨j, hj, rfl⟩ := List.mem_map.mp hx
    exact hall j (by have := List.mem_range.mp hj; omega)
  have hnd : ((List.range (u.length + 2)).map fun j => numbered base (i + j)).Nodup := by
    refine List.Nodup.map (fun a b hab => ?_) List.nodup_range
    have := numbered_injective base hab
    omega
  have := (hnd.subperm hsub).length_le
  simp at this

/-- All counters of a graph are positive. -/
def NamesInUse.Positive (u : NamesInUse) : Prop := ∀ p ∈ u, 1 ≤ p.2

theorem count_zero {u : NamesInUse} (h : u.Positive) {n : TFName} (hc : u.count n = 0) : n ∉ u.map Prod.fst := by
  intro hm
  obtain ⟨p, hp, rfl⟩ := List.mem_map.mp hm
  unfold NamesInUse.count at hc
  split at hc
  · rename_i q hq
    have := h q (List.mem_of_find?_eq_some hq)
    omega
  · rename_i hq
    have := List.find?_eq_none.mp hq p hp
    simp at this

theorem count_pos {u : NamesInUse} {n : TFName} (hc : u.count n ≠ 0) : n ∈ u.map Prod.fst := by
  unfold NamesInUse.count at hc
  split at hc
  · rename_i q hq
    have h1 := List.find?_some hq
    have h2 := List.mem_of_find?_eq_some hq
    simp only [decide_eq_true_eq] at h1
    exact List.mem_map.mpr ⟨q, h2, h1⟩
  · exact absurd rfl hc

theorem uniqueName_spec {u : NamesInUse} (h : u.Positive) (name : TFName) :
    (uniqueName u name).1.Positive ∧ (uniqueName u name).2 ∉ u.map Prod.fst ∧
      (uniqueName u name).2 ∈ (uniqueName u name).1.map Prod.fst ∧
      (∀ n ∈ u.map Prod.fst, n ∈ (uniqueName u name).1.map Prod.fst) ∧
      ((uniqueName u name).2 = name ∨ ∃ i, (uniqueName u name).2 = numbered name i) := by
  have hpos : NamesInUse.Positive ((name, u.count name + 1) :: u) := by
    intro p hp
    rcases List.mem_cons.mp hp with rfl | hp
    · simp
    · exact h p hp
  unfold uniqueName
  dsimp only
  by_cases hc : u.count name = 0
  · rw [if_pos hc]
    refine ⟨hpos, count_zero h hc, by simp, fun n hn => ?_, Or.inl rfl⟩
    rw [List.map_cons]
    exact List.mem_cons_of_mem _ hn
  · rw [if_neg hc]
    have hf := firstFree_fresh ((name, u.count name + 1) :: u) name (u.count name)
    refine ⟨?_, ?_, by simp, fun n hn => ?_, Or.inr (firstFree_numbered _ _ _ _)⟩
    · intro p hp
      rcases List.mem_cons.mp hp with rfl | hp
      · exact le_refl 1
      · exact hpos p hp
    · intro hm
      apply hf
      rw [List.map_cons]
      exact List.mem_cons_of_mem _ hm
    · rw [List.map_cons, List.map_cons]
      exact List.mem_cons_of_mem _ (List.mem_cons_of_mem _ hn)

variable {F G : Type} [DecidableEq G]

/-! ## Specification -/

/-- The name contains `_gradient`. -/
def _root_.Spec.MentionsGradient (n : TFName) : Prop := ['_', 'g', 'r', 'a', 'd', 'i', 'e', 'n', 't'] <:+: n

/-- A program that works with one graph. -/
def _root_.Spec.OnGraph (g : G) : TfStmt F G → Prop
  | .call h _ _ => h = g
  | .other h _ => h = g

/-- The functions that a program calls, in this order. -/
def _root_.Spec.calledFunctions (prog : List (TfStmt F G)) : List (PyFun F) :=
  prog.filterMap fun
    | .call _ _ f => some f
    | .other _ _ => none

/-- The gradient that a function was decorated with; the documentation says that there is none for `stateful=False`. -/
def _root_.Spec.intendedGradient (f : PyFun F) : Option F := if f.stateful then f.gradient else none

/-! ## One graph -/

/-- Everything registered is in use in the graph or was registered before; operations find their gradients. -/
structure TfInv (g : G) (R₀ : List (TFName × F)) (w : TfWorld F G) : Prop where
  positive : (w.names g).Positive
  registered : ∀ k ∈ w.registry.map Prod.fst, k ∈ (w.names g).map Prod.fst ∨ k ∈ R₀.map Prod.fst
  nodup : ∀ op ∈ w.ops, ∀ key, op.override = some key → key ∈ w.registry.map Prod.fst
  gradients : ∀ op ∈ w.ops, w.gradientOf op = Spec.intendedGradient op.function

theorem unique_inv {g : G} {R₀ : List (TFName × F)} {w : TfWorld F G} (h : TfInv g R₀ w) (name : TFName) :
    TfInv g R₀ (w.unique g name).1 := by
  obtain ⟨h1, h2, h3, h4, h5⟩ := uniqueName_spec h.positive name
  refine ⟨?_, ?_, h.nodup, h.gradients⟩
  · simpa [TfWorld.unique] using h1
  · intro k hk
    rcases h.registered k hk with hk | hk
    · left
      simpa [TfWorld.unique] using h4 k hk
    · exact Or.inr hk

theorem pyFunc_inv {g : G} {R₀ : List (TFName × F)} {w : TfWorld F G} (h : TfInv g R₀ w) (scope : TFName) (f : PyFun F)
    (o : Option TFName) (ho : ∀ key, o = some key → key ∈ w.registry.map Prod.fst)
    (hg : w.gradientOf ⟨g, f, if f.stateful then o else none⟩ = Spec.intendedGradient f) :
    TfInv g R₀ (w.pyFunc g scope f o) := by
  have hu := unique_inv h (scope ++ f.opName)
  refine ⟨hu.positive, hu.registered, ?_, ?_⟩
  · intro op hop key hkey
    rcases List.mem_append.mp hop with hop | hop
    · exact hu.nodup op hop key hkey
    · rw [List.mem_singleton.mp hop] at hkey
      dsimp only at hkey
      split_ifs at hkey
      exact ho key hkey
  · intro op hop
    rcases List.mem_append.mp hop with hop | hop
    · exact hu.gradients op hop
    · rw [List.mem_singleton.mp hop]
      exact hg

theorem mentions_unique {u : NamesInUse} (h : u.Positive) (scope a : TFName) :
    Spec.MentionsGradient (uniqueName u (scope ++ (a ++ gradientSuffix))).2 := by
  rcases (uniqueName_spec h (scope ++ (a ++ gradientSuffix))).2.2.2.2 with h | ⟨i, h⟩ <;> rw [h]
  · exact ⟨scope ++ a, [], by simp [gradientSuffix]⟩
  · exact ⟨scope ++ a, '_' :: digitChars i, by simp [numbered, gradientSuffix]⟩

theorem call_ok {g : G} {R₀ : List (TFName × F)} (hR : ∀ k ∈ R₀.map Prod.fst, ¬ Spec.MentionsGradient k)
    {w : TfWorld F G} (h : TfInv g R₀ w) (scope : TFName) (f : PyFun F) :
    (w.call g scope f).2 = .ok () ∧ TfInv g R₀ (w.call g scope f).1 ∧
      (w.call g scope f).1.ops.map PyFuncOp.function = w.ops.map PyFuncOp.function ++ [f] := by
  unfold TfWorld.call
  cases hf : f.gradient with
  | none =>
    refine ⟨rfl, pyFunc_inv h scope f none (by simp) ?_, by simp [TfWorld.pyFunc, TfWorld.unique]⟩
    simp [TfWorld.gradientOf, Spec.intendedGradient, hf]
  | some d =>
    dsimp only
    obtain ⟨h1, h2, h3, h4, h5⟩ := uniqueName_spec h.positive (scope ++ (f.opName ++ gradientSuffix))
    have hkey : (w.unique g (scope ++ (f.opName ++ gradientSuffix))).2 ∉ w.registry.map Prod.fst := by
      intro hm
      rcases h.registered _ hm with hm | hm
      · exact h2 hm
      · exact hR _ hm (mentions_unique h.positive scope f.opName)
    have hu := unique_inv h (scope ++ (f.opName ++ gradientSuffix))
    have hreg : (w.unique g (scope ++ (f.opName ++ gradientSuffix))).1.registry = w.registry := rfl
    rw [if_neg (by rw [hreg]; exact hkey)]
    set key := (w.unique g (scope ++ (f.opName ++ gradientSuffix))).2
    set w1 := (w.unique g (scope ++ (f.opName ++ gradientSuffix))).1
    have hinv : TfInv g R₀ { w1 with registry := (key, d) :: w1.registry } := by
      refine ⟨hu.positive, ?_, ?_, ?_⟩
      · intro k hk
        rw [List.map_cons] at hk
        rcases List.mem_cons.mp hk with rfl | hk
        · left
          have : w1.names g = (uniqueName (w.names g) (scope ++ (f.opName ++ gradientSuffix))).1 := by
            simp [w1, TfWorld.unique]
          show key ∈ (w1.names g).map Prod.fst
          rw [this]
          exact h3
        · exact hu.registered k hk
      · intro op hop k hk
        rw [List.map_cons]
        exact List.mem_cons_of_mem _ (hu.nodup op hop k hk)
      · intro op hop
        have hold := hu.gradients op hop
        rw [← hold]
        unfold TfWorld.gradientOf
        cases hov : op.override with
        | none => rfl
        | some k =>
          have hk := hu.nodup op hop k hov
          have hne : key ≠ k := by
            rintro rfl
            exact hkey hk
          simp [hne]
    refine ⟨rfl, pyFunc_inv hinv scope f (some key) (by rintro k ⟨rfl⟩; simp) ?_, ?_⟩
    · unfold TfWorld.gradientOf Spec.intendedGradient
      cases f.stateful <;> simp [hf]
    · simp [TfWorld.pyFunc, TfWorld.unique, w1]

theorem exec_ok {g : G} {R₀ : List (TFName × F)} (hR : ∀ k ∈ R₀.map Prod.fst, ¬ Spec.MentionsGradient k)
    (prog : List (TfStmt F G)) (hp : ∀ s ∈ prog, Spec.OnGraph g s) : ∀ w : TfWorld F G, TfInv g R₀ w →
    (w.execAll prog).2 = .ok () ∧ TfInv g R₀ (w.execAll prog).1 ∧
      (w.execAll prog).1.ops.map PyFuncOp.function = w.ops.map PyFuncOp.function ++ Spec.calledFunctions prog := by
  induction prog with
  | nil => intro w h; exact ⟨rfl, h, by simp [TfWorld.execAll, Spec.calledFunctions]⟩
  | cons s rest ih =>
    intro w h
    have ih := ih fun s hs => hp s (List.mem_cons_of_mem _ hs)
    have hs := hp s List.mem_cons_self
    cases s with
    | call g' scope f =>
      obtain rfl : g' = g := hs
      obtain ⟨h1, h2, h3⟩ := call_ok hR h scope f
      have he : w.execAll (.call g' scope f :: rest) = (w.call g' scope f).1.execAll rest := by
        rw [TfWorld.execAll]
        show (match w.call g' scope f with
          | (w, .ok ()) => w.execAll rest
          | (w, .error e) => (w, .error e)) = _
        rcases hw : w.call g' scope f with ⟨w', r⟩
        rw [hw] at h1
        dsimp only at h1
        subst h1
        rfl
      rw [he]
      obtain ⟨k1, k2, k3⟩ := ih _ h2
      refine ⟨k1, k2, ?_⟩
      rw [k3, h3, List.append_assoc]
      rfl
    | other g' name =>
      obtain rfl : g' = g := hs
      have he : w.execAll (.other g' name :: rest) = (w.unique g' name).1.execAll rest := rfl
      rw [he]
      exact ih _ (unique_inv h name)

/-- **C116.** In a program that works with one graph no call of a decorated function raises, and every operation, in the order of the calls, is
differentiated with the gradient that its own function was decorated with, whatever the names of the functions, scopes and other operations are.
Operations with `stateful=False` have no gradient. -/
theorem C116_gradients_partial (g : G) (R₀ : List (TFName × F)) (hR : ∀ k ∈ R₀.map Prod.fst, ¬ Spec.MentionsGradient k)
    (prog : List (TfStmt F G)) (hp : ∀ s ∈ prog, Spec.OnGraph g s) :
    let r := TfWorld.execAll (⟨R₀, fun _ => [], []⟩ : TfWorld F G) prog
    r.2 = .ok () ∧
      r.1.ops.map r.1.gradientOf = (Spec.calledFunctions prog).map Spec.intendedGradient := by
  have hinv : TfInv g R₀ (⟨R₀, fun _ => [], []⟩ : TfWorld F G) :=
    ⟨by simp [NamesInUse.Positive], fun k hk => Or.inr hk, by simp, by simp⟩
  obtain ⟨h1, h2, h3⟩ := exec_ok hR prog hp _ hinv
  refine ⟨h1, ?_⟩
  rw [List.map_nil, List.nil_append] at h3
  rw [← h3, List.map_map]
  exact List.map_congr_left h2.gradients

/-- **C116, refuted for several graphs.** The registry is global but names are only unique in a graph: once a function with a gradient was used in a
graph, its first use in a new graph raises `KeyError` and makes no operation. -/
theorem C116_second_graph_refuted (g g' : G) (hg : g' ≠ g) (scope : TFName) (f : PyFun F) (d : F) (hf : f.gradient = some d) :
    let w := ((⟨[], fun _ => [], []⟩ : TfWorld F G).call g scope f).1
    (w.call g' scope f).2 = .error .keyError ∧ (w.call g' scope f).1.ops = w.ops := by
  have hu : ∀ n, uniqueName [] n = ([(n, 1)], n) := fun n => rfl
  have h1 : ((⟨[], fun _ => [], []⟩ : TfWorld F G).call g scope f).1.registry =
      [(scope ++ (f.opName ++ gradientSuffix), d)] := by
    unfold TfWorld.call
    rw [hf]
    rfl
  have h2 : ((⟨[], fun _ => [], []⟩ : TfWorld F G).call g scope f).1.names g' = [] := by
    unfold TfWorld.call
    rw [hf]
    simp [TfWorld.unique, TfWorld.pyFunc, hg]
  generalize ((⟨[], fun _ => [], []⟩ : TfWorld F G).call g scope f).1 = w at h1 h2
  dsimp only
  unfold TfWorld.call
  rw [hf]
  simp only [TfWorld.unique, h1, h2, hu, List.map_cons, List.map_nil, List.mem_singleton, if_true, and_self]

/-- Functions with the same name in one graph, also with a name that looks like a numbered one. -/
def gradientProgram : List (TfStmt ℕ ℕ) :=
  [.call 0 [] ⟨['_', 'f'], some 1, true⟩, .other 0 (['f'] ++ gradientSuffix ++ ['_', '1']),
    .call 0 [] ⟨['f'], some 2, true⟩, .call 0 [] ⟨['f'], some 3, false⟩]

example : (∀ s ∈ gradientProgram, Spec.OnGraph 0 s) ∧
    Spec.calledFunctions gradientProgram = [⟨['_', 'f'], some 1, true⟩, ⟨['f'], some 2, true⟩, ⟨['f'], some 3, false⟩] := by
  refine ⟨?_, by decide +kernel⟩
  intro s hs
  simp only [gradientProgram, List.mem_cons, List.not_mem_nil, or_false] at hs
  rcases hs with rfl | rfl | rfl | rfl <;> rfl

example : (TfWorld.execAll (⟨[(['M', 'a', 't', 'M', 'u', 'l'], 7)], fun _ => [], []⟩ : TfWorld ℕ ℕ) gradientProgram).1.registry.map
    Prod.fst = [['f'] ++ gradientSuffix ++ ['_', '3'], ['f'] ++ gradientSuffix ++ ['_', '2'], ['f'] ++ gradientSuffix,
      ['M', 'a', 't', 'M', 'u', 'l']] := by
  decide +kernel

example : ∀ k ∈ [((['M', 'a', 't', 'M', 'u', 'l'] : TFName), 7)].map Prod.fst, ¬ Spec.MentionsGradient k := by
  unfold Spec.MentionsGradient
  decide

end SafeLearning
