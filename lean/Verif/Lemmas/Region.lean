import Verif.Model.Region
import Verif.Spec.Region
import Verif.Lemmas.Grid
import Mathlib.Logic.Relation
import Mathlib.Data.Fintype.Pi
import Mathlib.Tactic.Linarith
set_option autoImplicit false

/-! Helper lemmas for `get_lyapunov_region`. -/

set_option linter.unusedSectionVars false

namespace SafeLearning

variable {K : Type} [Field K] [LinearOrder K] [IsStrictOrderedRing K] {d : ℕ}

theorem popMin_eq_none {q : List (QueueEntry K d)} : popMin q = none ↔ q = [] := by
  cases q with
  | nil => simp [popMin]
  | cons a l =>
    simp only [popMin, reduceCtorEq, iff_false]
    split
    · simp
    · split_ifs <;> simp

theorem popMin_spec {q : List (QueueEntry K d)} {e : QueueEntry K d} {rest}
    (h : popMin q = some (e, rest)) : q.Perm (e :: rest) ∧ ∀ a ∈ rest, e.value ≤ a.value := by
  induction q generalizing e rest with
  | nil => simp [popMin] at h
  | cons a l ih =>
    rw [popMin] at h
    split at h
    · rename_i h0
      rw [popMin_eq_none] at h0
      subst h0
      simp only [Option.some.injEq, Prod.mk.injEq] at h
      obtain ⟨rfl, rfl⟩ := h
      simp
    · rename_i m r h0
      obtain ⟨hp, hm⟩ := ih h0
      split_ifs at h with hb
      · simp only [Option.some.injEq, Prod.mk.injEq] at h
        obtain ⟨rfl, rfl⟩ := h
        refine ⟨hp.cons _, ?_⟩
        have ham : a.value ≤ m.value := by
          simp only [QueueEntry.before, Bool.or_eq_true, decide_eq_true_eq, Bool.and_eq_true] at hb
          rcases hb with hb | hb
          · exact hb.le
          · exact hb.1
        intro b hb
        rcases List.mem_cons.mp hb with rfl | hb
        · exact ham
        · exact ham.trans (hm b hb)
      · simp only [Option.some.injEq, Prod.mk.injEq] at h
        obtain ⟨rfl, rfl⟩ := h
        refine ⟨(hp.cons a).trans (List.Perm.swap _ _ _), ?_⟩
        have hma : m.value ≤ a.value := by
          by_contra hlt
          exact hb (by simp [QueueEntry.before, not_le.mp hlt])
        intro b hb
        rcases List.mem_cons.mp hb with rfl | hb
        · exact hma
        · exact hm b hb

theorem meshIJ_nodup {α : Type*} : ∀ {d : ℕ} (axes : Fin d → List α), (∀ i, (axes i).Nodup) →
    (meshIJ axes).Nodup
  | 0, _, _ => by simp [meshIJ]
  | d + 1, axes, h => by
    rw [meshIJ, List.nodup_flatMap]
    refine ⟨fun x _ => (meshIJ_nodup _ fun i => h i.succ).map fun a b hab => ?_, ?_⟩
    · exact (Fin.cons_inj.mp hab).2
    · refine (h 0).imp fun {a b} hab => ?_
      rw [Function.onFun, List.disjoint_left]
      rintro x hx hx'
      obtain ⟨r, -, rfl⟩ := List.mem_map.mp hx
      obtain ⟨r', -, hr⟩ := List.mem_map.mp hx'
      exact hab ((Fin.cons_inj.mp hr).1).symm

theorem mem_meshIJ {α : Type*} : ∀ {d : ℕ} (axes : Fin d → List α) (r : Fin d → α),
    r ∈ meshIJ axes ↔ ∀ i, r i ∈ axes i
  | 0, axes, r => by
    simp only [meshIJ, List.mem_singleton, IsEmpty.forall_iff, iff_true]
    exact Subsingleton.elim _ _
  | d + 1, axes, r => by
    simp only [meshIJ, List.mem_flatMap, List.mem_map, Fin.forall_fin_succ]
    constructor
    · rintro ⟨x, hx, r', hr', rfl⟩
      exact ⟨by simpa using hx, by simpa [Fin.tail] using (mem_meshIJ _ r').mp hr'⟩
    · rintro ⟨h0, hs⟩
      exact ⟨r 0, h0, Fin.tail r, (mem_meshIJ _ _).mpr hs, Fin.cons_self_tail r⟩

theorem meshIJ_offsets (d : ℕ) :
    (meshIJ fun _ : Fin d => [(0 : ℤ), -1, 1]) = (fun _ => 0) :: neighborOffsets d := by
  have h : ∀ d : ℕ, ∃ t, (meshIJ fun _ : Fin d => [(0 : ℤ), -1, 1]) = (fun _ => 0) :: t := by
    intro d
    induction d with
    | zero => exact ⟨[], by simp only [meshIJ, List.cons.injEq, and_true]; exact Subsingleton.elim _ _⟩
    | succ d ih =>
      obtain ⟨t, ht⟩ := ih
      rw [meshIJ]
      have : Fin.tail (fun _ : Fin (d + 1) => [(0 : ℤ), -1, 1]) = fun _ => [0, -1, 1] := rfl
      rw [this, ht]
      have hz : (Fin.cons 0 (fun _ => 0) : Fin (d + 1) → ℤ) = fun _ => 0 := by
        funext i; exact Fin.cases rfl (fun j => rfl) i
      simp only [List.flatMap_cons, List.map_cons, List.cons_append]
      rw [hz]
      exact ⟨_, rfl⟩
  obtain ⟨t, ht⟩ := h d
  rw [neighborOffsets, ht, List.tail_cons]

theorem neighborOffsets_nodup (d : ℕ) : (neighborOffsets d).Nodup := by
  have := meshIJ_nodup (fun _ : Fin d => [(0 : ℤ), -1, 1]) (fun _ => by decide)
  rw [meshIJ_offsets] at this
  exact (List.nodup_cons.mp this).2

theorem mem_neighborOffsets (δ : Fin d → ℤ) :
    δ ∈ neighborOffsets d ↔ δ ≠ 0 ∧ ∀ i, |δ i| ≤ 1 := by
  have hn := meshIJ_nodup (fun _ : Fin d => [(0 : ℤ), -1, 1]) (fun _ => by decide)
  have hm := mem_meshIJ (fun _ : Fin d => [(0 : ℤ), -1, 1]) δ
  rw [meshIJ_offsets] at hn hm
  have h1 : ∀ z : ℤ, z ∈ [(0 : ℤ), -1, 1] ↔ |z| ≤ 1 := by
    intro z; simp only [List.mem_cons, List.not_mem_nil, or_false, abs_le]; omega
  simp only [h1, List.mem_cons] at hm
  rw [← hm]
  constructor
  · intro h
    refine ⟨?_, .inr h⟩
    rintro rfl
    exact (List.nodup_cons.mp hn).1 h
  · rintro ⟨h0, h | h⟩
    · exact absurd h h0
    · exact h

/-- The multi-index as integers. -/
def toNode (x : Fin d → ℕ) : Fin d → ℤ := fun i => (x i : ℤ)

theorem toNode_injective : Function.Injective (toNode (d := d)) := by
  intro a b h; funext i; have := congrFun h i; simpa [toNode] using this

theorem wrapNode_ok {num : Fin d → ℕ} {x : Fin d → ℕ} (h : ∀ i, x i < num i) :
    wrapNode num (toNode x) = .ok x := by
  rw [wrapNode, if_pos]
  · congr 1
  · intro i; have := h i; simp only [toNode]; omega


theorem mapM_ok_of_forall {α β : Type} (f : α → Except PyErr β) (g : α → β) (l : List α)
    (h : ∀ a ∈ l, f a = .ok (g a)) : l.mapM f = .ok (l.map g) := by
  induction l with
  | nil => rfl
  | cons a l ih =>
    rw [List.mapM_cons, h a (by simp), ih fun b hb => h b (by simp [hb])]
    rfl

theorem foldl_update_true {α : Type} [DecidableEq α] (l : List α) (v : α → Bool) (y : α) :
    l.foldl (fun v p => assign v p true) v y = true ↔ v y = true ∨ y ∈ l := by
  induction l generalizing v with
  | nil => simp
  | cons a l ih =>
    rw [List.foldl_cons, ih, assign]
    by_cases h : y = a
    · simp [h]
    · simp [h]

theorem pushNode_foldl (val : (Fin d → ℕ) → K) (l : List (Fin d → ℕ)) (s : Search K d) :
    ∃ es, l.foldl (fun s y => pushNode val s (toNode y, y)) s =
        { s with count := s.count + l.length, queue := es ++ s.queue } ∧
      es.map (·.node) = l.reverse.map toNode ∧
      ∀ e ∈ es, ∃ y ∈ l, e.node = toNode y ∧ e.value = val y ∧ e.isTuple = false := by
  induction l generalizing s with
  | nil => exact ⟨[], rfl, rfl, by simp⟩
  | cons a l ih =>
    obtain ⟨es, h1, h2, h3⟩ := ih (pushNode val s (toNode a, a))
    refine ⟨es ++ [{ value := val a, count := s.count, node := toNode a, isTuple := false }],
      ?_, ?_, ?_⟩
    · rw [List.foldl_cons, h1]
      simp [pushNode]; omega
    · simp [h2]
    · intro e he
      rcases List.mem_append.mp he with he | he
      · obtain ⟨y, hy, h⟩ := h3 e he
        exact ⟨y, by simp [hy], h⟩
      · simp only [List.mem_singleton] at he
        subst he
        exact ⟨a, by simp, rfl, rfl, rfl⟩

open Spec

theorem expand_ok {num : Fin d → ℕ} (val : (Fin d → ℕ) → K) (s : Search K d) {x : Fin d → ℕ}
    (hx : IsInterior num x) :
    ∃ (new : List (Fin d → ℕ)) (s' : Search K d) (es : List (QueueEntry K d)),
      expand num val s (toNode x) = .ok s' ∧ new.Nodup ∧
      (∀ y, y ∈ new ↔ Adjacent x y ∧ s.visited y = false) ∧
      (∀ y ∈ new, IsNode num y) ∧
      (∀ y, s'.visited y = true ↔ s.visited y = true ∨ y ∈ new) ∧ s'.last = s.last ∧
      s'.queue = es ++ s.queue ∧ es.map (·.node) = new.reverse.map toNode ∧
      ∀ e ∈ es, ∃ y ∈ new, e.node = toNode y ∧ e.value = val y ∧ e.isTuple = false := by
  classical
  -- the neighbours as natural numbers
  let nbrs : List (Fin d → ℕ) := (neighborOffsets d).map fun δ i => ((x i : ℤ) + δ i).toNat
  have hpos : ∀ δ ∈ neighborOffsets d, toNode (fun i => ((x i : ℤ) + δ i).toNat) = toNode x + δ := by
    intro δ hδ
    funext i
    have h1 := (mem_neighborOffsets δ).mp hδ |>.2 i
    have h2 := hx i
    rw [abs_le] at h1
    simp only [toNode, Pi.add_apply]
    omega
  have hmem : ∀ y, y ∈ nbrs ↔ Adjacent x y := by
    intro y
    simp only [nbrs, List.mem_map]
    constructor
    · rintro ⟨δ, hδ, rfl⟩
      have he := hpos δ hδ
      obtain ⟨h0, h1⟩ := (mem_neighborOffsets δ).mp hδ
      refine ⟨?_, fun i => ?_⟩
      · intro hxe
        rw [← hxe] at he
        exact h0 (by simpa using he.symm)
      · have := congrFun he i
        simp only [toNode, Pi.add_apply] at this
        rw [this]
        have h1 := h1 i
        rw [abs_le] at h1 ⊢
        omega
    · rintro ⟨h0, h1⟩
      refine ⟨fun i => (y i : ℤ) - x i, (mem_neighborOffsets _).mpr ⟨?_, fun i => ?_⟩, ?_⟩
      · intro h
        apply h0
        funext i
        have := congrFun h i
        simp only [Pi.zero_apply] at this
        omega
      · have := h1 i
        rw [abs_le] at this ⊢
        omega
      · funext i
        simp
  have hnode : ∀ y ∈ nbrs, IsNode num y := by
    intro y hy i
    have h1 := (hmem y).mp hy |>.2 i
    have h2 := hx i
    rw [abs_le] at h1
    omega
  have hnd : nbrs.Nodup := by
    refine List.Nodup.map_on ?_ (neighborOffsets_nodup d)
    intro a ha b hb hab
    have h1 := hpos a ha
    have h2 := hpos b hb
    rw [hab, h2] at h1
    exact (add_left_cancel h1).symm
  have hmapM : ((neighborOffsets d).map fun δ => toNode x + δ).mapM (fun y => do
      let idx ← wrapNode num y
      return (y, idx)) = Except.ok (nbrs.map fun y => (toNode y, y)) := by
    have : ((neighborOffsets d).map fun δ => toNode x + δ) = nbrs.map toNode := by
      simp only [nbrs, List.map_map]
      exact List.map_congr_left fun δ hδ => (hpos δ hδ).symm
    rw [this]
    have := mapM_ok_of_forall (fun y => do
      let idx ← wrapNode num y
      return (y, idx)) (fun y => (y, fun i => (y i).toNat)) (nbrs.map toNode) ?_
    · rw [this, List.map_map]
      congr 1
    · intro a ha
      obtain ⟨y, hy, rfl⟩ := List.mem_map.mp ha
      rw [wrapNode_ok (hnode y hy)]
      rfl
  set new := nbrs.filter fun y => !s.visited y with hnew
  obtain ⟨es, h1, h2, h3⟩ := pushNode_foldl val new
    { s with visited := new.foldl (fun v p => assign v p true) s.visited }
  refine ⟨new, { s with
      visited := new.foldl (fun v p => assign v p true) s.visited
      count := s.count + new.length
      queue := es ++ s.queue }, es, ?_, hnd.filter _, ?_, ?_, ?_, rfl, rfl, h2, h3⟩
  · unfold expand
    dsimp only
    rw [hmapM]
    simp only [bind, Except.bind, pure, Except.pure]
    rw [List.filter_map]
    have : (List.filter ((fun p : (Fin d → ℤ) × (Fin d → ℕ) => !s.visited p.2) ∘
        fun y => (toNode y, y)) nbrs) = new := rfl
    rw [this, List.foldl_map, List.foldl_map]
    rw [h1]
  · intro y
    simp only [hnew, List.mem_filter, hmem, Bool.not_eq_true']
  · intro y hy
    exact hnode y (List.mem_filter.mp hy).1
  · intro y
    exact foldl_update_true new s.visited y

theorem prune_ok {num : Fin d → ℕ} (q : List (QueueEntry K d)) (v : (Fin d → ℕ) → Bool)
    (h : ∀ e ∈ q, ∃ y, IsNode num y ∧ e.node = toNode y) :
    ∃ v', prune num v q = .ok v' ∧
      ∀ y, v' y = true ↔ v y = true ∧ toNode y ∉ q.map (·.node) := by
  induction q generalizing v with
  | nil => exact ⟨v, rfl, by simp⟩
  | cons e q ih =>
    obtain ⟨y, hy, he⟩ := h e (by simp)
    obtain ⟨v', h1, h2⟩ := ih (assign v y false) fun a ha => h a (by simp [ha])
    refine ⟨v', ?_, fun z => ?_⟩
    · rw [prune, List.foldlM_cons, setVisited, he, wrapNode_ok hy]
      exact h1
    · rw [h2, assign]
      by_cases hz : z = y
      · subst hz; simp [he]
      · have : toNode z ≠ e.node := by
          rw [he]; exact fun hh => hz (toNode_injective hh)
        simp [hz, this]


/-- The invariant of the search from the interior node `x0`. The nodes that are marked and no longer
in the queue are the expanded ones. -/
structure SearchInv (num : Fin d → ℕ) (val : (Fin d → ℕ) → K) (x0 : Fin d → ℕ)
    (s : Search K d) (R : Finset (Fin d → ℕ)) : Prop where
  mem_R : ∀ y, y ∈ R ↔ s.visited y = true ∧ toNode y ∉ s.queue.map (·.node)
  queue : ∀ e ∈ s.queue, ∃ y, IsNode num y ∧ s.visited y = true ∧ e.node = toNode y ∧
    e.value = val y ∧ (e.isTuple = true → y = x0)
  nodup : (s.queue.map (·.node)).Nodup
  node : ∀ y, s.visited y = true → IsNode num y
  interior : ∀ y ∈ R, IsInterior num y
  reach : ∀ y, s.visited y = true →
    Relation.ReflTransGen (fun a b => a ∈ R ∧ Adjacent a b) x0 y
  closed : ∀ y ∈ R, ∀ z, Adjacent y z → s.visited z = true
  start : x0 ∈ R ∨ (R = ∅ ∧ s.last = val x0 ∧
    ∃ e, s.queue = [e] ∧ e.node = toNode x0 ∧ e.value = val x0)
  low : ∀ y ∈ R, val x0 ≤ val y
  high : ∀ y ∈ R, val y ≤ s.last
  last : s.last = val x0 ∨ ∃ y ∈ R, s.last = val y
  start_le : val x0 ≤ s.last

/-- What holds for the returned region. -/
structure RegionPost (num : Fin d → ℕ) (val : (Fin d → ℕ) → K) (x0 : Fin d → ℕ)
    (v : (Fin d → ℕ) → Bool) : Prop where
  start : v x0 = true
  interior : ∀ y, v y = true → IsInterior num y
  connected : ∀ y, v y = true → ConnectedIn {y | v y = true} x0 y
  increasing :
    ((∀ y, v y = true → val x0 ≤ val y) ∧
      ∀ y z, v y = true → v z = false → Adjacent y z → ∀ w, v w = true → val w ≤ val z) ∨
    (∃ t, (∃ y, v y = true ∧ Adjacent y t) ∧ (∃ w, v w = true ∧ val t < val w) ∧
      (v t = true ∨ IsBorder num t) ∧ (∀ y, v y = true → y ≠ t → val x0 ≤ val y) ∧
      ∀ y z, v y = true → y ≠ t → v z = false → Adjacent y z → val t ≤ val z)

theorem connected_of_reach {R : Set (Fin d → ℕ)} {x y : Fin d → ℕ} (hy : y ∈ R)
    (h : Relation.ReflTransGen (fun a b => a ∈ R ∧ Adjacent a b) x y) : ConnectedIn R x y := by
  unfold ConnectedIn
  suffices (x ∈ R ∨ x = y) ∧ Relation.ReflTransGen (fun a b => a ∈ R ∧ b ∈ R ∧ Adjacent a b) x y
    from this.2
  induction h using Relation.ReflTransGen.head_induction_on with
  | refl => exact ⟨.inr rfl, .refl⟩
  | head h1 h2 ih =>
    refine ⟨.inl h1.1, .head ⟨h1.1, ?_, h1.2⟩ ih.2⟩
    rcases ih.1 with h | h
    · exact h
    · rw [h]; exact hy

theorem isInterior_of_not_onBoundary {num : Fin d → ℕ} {e : QueueEntry K d} {x x0 : Fin d → ℕ}
    (hx : IsNode num x) (he : e.node = toNode x) (ht : e.isTuple = true → x = x0)
    (h0 : IsInterior num x0) (h : ¬ onBoundary num e) : IsInterior num x := by
  intro i
  have hb : ¬ ∃ i, e.node i = (num i : ℤ) - 1 := fun hh => h (.inr hh)
  have hx := hx i
  constructor
  · cases htt : e.isTuple with
    | true => rw [ht htt]; exact (h0 i).1
    | false =>
      by_contra hc
      exact h (.inl ⟨htt, i, by rw [he]; simp only [toNode]; omega⟩)
  · by_contra hc
    exact hb ⟨i, by rw [he]; simp only [toNode]; omega⟩

theorem isBorder_of_onBoundary {num : Fin d → ℕ} {e : QueueEntry K d} {x : Fin d → ℕ}
    (hx : IsNode num x) (he : e.node = toNode x) (h : onBoundary num e) : IsBorder num x := by
  refine ⟨hx, ?_⟩
  rcases h with ⟨-, i, hi⟩ | ⟨i, hi⟩
  · exact ⟨i, .inl (by rw [he] at hi; simp only [toNode] at hi; omega)⟩
  · exact ⟨i, .inr (by rw [he] at hi; simp only [toNode] at hi; omega)⟩

theorem not_interior_of_border {num : Fin d → ℕ} {x : Fin d → ℕ} (h : IsBorder num x) :
    ¬ IsInterior num x := by
  obtain ⟨-, i, hi⟩ := h
  intro h
  have := h i
  omega

theorem exists_pred_of_reach {R : Set (Fin d → ℕ)} {x y : Fin d → ℕ}
    (h : Relation.ReflTransGen (fun a b => a ∈ R ∧ Adjacent a b) x y) (hne : x ≠ y) :
    ∃ z ∈ R, Adjacent z y := by
  rcases Relation.ReflTransGen.cases_tail h with h | ⟨z, -, hz⟩
  · exact absurd h.symm hne
  · exact ⟨z, hz⟩

end SafeLearning
