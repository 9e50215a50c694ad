import Verif.Model.NameScopes
import Mathlib.Tactic.Common
set_option autoImplicit false

/-!
# C143: functions decorated with `with_scope` compute the same and leave the scopes as they found them
-/

namespace SafeLearning

/-! ## Specification -/

/-- What TensorFlow's `unique_name` promises: a new name that starts with the requested one. -/
structure _root_.Spec.UniqueName (unique : List TFName → TFName → TFName) : Prop where
  fresh : ∀ used name, unique used name ∉ used
  starts : ∀ used name, name <+: unique used name

/-- The names of all operations are different, and in use. -/
structure _root_.Spec.NamesDistinct {V : Type} (s : ScopeState V) : Prop where
  nodup : (s.ops.map Prod.fst).Nodup
  used : ∀ n ∈ s.ops.map Prod.fst, n ∈ s.names

variable {V : Type} {unique : List TFName → TFName → TFName}

/-- **C143 (scopes are closed).** After a body has returned or raised, the open name scope is the one from before. -/
theorem C143_restores (unique : List TFName → TFName → TFName) (decorated : Bool) (b : Body V) (s : ScopeState V) : (b.run unique decorated s).2.current = s.current := by
  induction b generalizing s with
  | op name value => rfl
  | raise e => rfl
  | seq p q ihp ihq =>
    have h := ihp s
    unfold Body.run
    match hr : p.run unique decorated s with
    | (.ok _, t) =>
      rw [hr] at h
      simp only
      rw [ihq t, h]
    | (.error e, t) =>
      rw [hr] at h
      exact h
  | handle p q ihp ihq =>
    have h := ihp s
    unfold Body.run
    match hr : p.run unique decorated s with
    | (.ok _, t) =>
      rw [hr] at h
      exact h
    | (.error e, t) =>
      rw [hr] at h
      simp only
      rw [ihq e t, h]
  | call scope body ih =>
    unfold Body.run
    split_ifs
    · rfl
    · exact ih s

/-- **C143 (same computation).** With the decorators a body returns or raises the same and makes operations that compute the same, in the same order, as without them. -/
theorem C143_transparent (unique : List TFName → TFName → TFName) (b : Body V) (s : ScopeState V) :
    (b.run unique true s).1 = (b.run unique false s).1 ∧
    (b.run unique true s).2.ops.map Prod.snd = (b.run unique false s).2.ops.map Prod.snd := by
  suffices key : ∀ s t : ScopeState V, s.ops.map Prod.snd = t.ops.map Prod.snd → (b.run unique true s).1 = (b.run unique false t).1 ∧
      (b.run unique true s).2.ops.map Prod.snd = (b.run unique false t).2.ops.map Prod.snd from key s s rfl
  induction b with
  | op name value =>
    intro s t h
    exact ⟨rfl, by simp [Body.run, h]⟩
  | raise e => exact fun s t h => ⟨rfl, h⟩
  | seq p q ihp ihq =>
    intro s t h
    obtain ⟨h1, h2⟩ := ihp s t h
    unfold Body.run
    match hr : p.run unique true s, hr' : p.run unique false t with
    | (.ok _, a), (.ok _, b) =>
      rw [hr, hr'] at h2
      exact ihq a b h2
    | (.error e, a), (.error e', b) =>
      rw [hr, hr'] at h1 h2
      exact ⟨h1, h2⟩
    | (.ok _, a), (.error e', b) => rw [hr, hr'] at h1; simp at h1
    | (.error e, a), (.ok _, b) => rw [hr, hr'] at h1; simp at h1
  | handle p q ihp ihq =>
    intro s t h
    obtain ⟨h1, h2⟩ := ihp s t h
    unfold Body.run
    match hr : p.run unique true s, hr' : p.run unique false t with
    | (.ok _, a), (.ok _, b) =>
      rw [hr, hr'] at h2
      exact ⟨rfl, h2⟩
    | (.error e, a), (.error e', b) =>
      rw [hr, hr'] at h1 h2
      simp only [Except.error.injEq] at h1
      subst h1
      exact ihq e a b h2
    | (.ok _, a), (.error e', b) => rw [hr, hr'] at h1; simp at h1
    | (.error e, a), (.ok _, b) => rw [hr, hr'] at h1; simp at h1
  | call scope body ih =>
    intro s t h
    unfold Body.run
    simp only [if_true, Bool.false_eq_true, if_false, withScope]
    exact ih _ t h

/-- Operations are only added, names stay in use, and new operations have names below the open scope. -/
theorem scope_run (hu : Spec.UniqueName unique) (b : Body V) (s : ScopeState V) (hs : Spec.NamesDistinct s) :
    Spec.NamesDistinct (b.run unique true s).2 ∧ (∀ n ∈ s.names, n ∈ (b.run unique true s).2.names) ∧
    ∃ new, (b.run unique true s).2.ops = s.ops ++ new ∧ ∀ o ∈ new, s.current <+: o.1 := by
  induction b generalizing s with
  | op name value =>
    refine ⟨⟨?_, ?_⟩, fun n hn => List.mem_cons_of_mem _ hn, [_], rfl, ?_⟩
    · simp only [Body.run, List.map_append, List.map_cons, List.map_nil]
      refine List.nodup_append.mpr ⟨hs.nodup, by simp, ?_⟩
      intro a ha b hb
      rw [List.mem_singleton] at hb
      rintro rfl
      exact hu.fresh _ _ (hb ▸ hs.used _ ha)
    · intro n hn
      simp only [Body.run, List.map_append, List.map_cons, List.map_nil, List.mem_append, List.mem_singleton] at hn ⊢
      rcases hn with hn | rfl
      · exact List.mem_cons_of_mem _ (hs.used _ hn)
      · exact List.mem_cons_self
    · intro o ho
      rw [List.mem_singleton.mp ho]
      exact (List.prefix_append _ _).trans (hu.starts _ _)
  | raise e => exact ⟨hs, fun n hn => hn, [], by simp [Body.run], by simp⟩
  | seq p q ihp ihq =>
    obtain ⟨h1, h2, new, h3, h4⟩ := ihp s hs
    have hc := C143_restores unique true p s
    unfold Body.run
    match hr : p.run unique true s with
    | (.ok _, t) =>
      rw [hr] at h1 h2 h3 hc
      obtain ⟨k1, k2, new', k3, k4⟩ := ihq t h1
      refine ⟨k1, fun n hn => k2 n (h2 n hn), new ++ new', ?_, ?_⟩
      · simp only at h3
        simp only [k3, h3, List.append_assoc]
      · intro o ho
        rcases List.mem_append.mp ho with h | h
        · exact h4 o h
        · have := k4 o h
          simp only at hc
          rwa [hc] at this
    | (.error e, t) =>
      rw [hr] at h1 h2 h3
      exact ⟨h1, h2, new, h3, h4⟩
  | handle p q ihp ihq =>
    obtain ⟨h1, h2, new, h3, h4⟩ := ihp s hs
    have hc := C143_restores unique true p s
    unfold Body.run
    match hr : p.run unique true s with
    | (.ok _, t) =>
      rw [hr] at h1 h2 h3
      exact ⟨h1, h2, new, h3, h4⟩
    | (.error e, t) =>
      rw [hr] at h1 h2 h3 hc
      obtain ⟨k1, k2, new', k3, k4⟩ := ihq e t h1
      refine ⟨k1, fun n hn => k2 n (h2 n hn), new ++ new', ?_, ?_⟩
      · simp only at h3
        simp only [k3, h3, List.append_assoc]
      · intro o ho
        rcases List.mem_append.mp ho with h | h
        · exact h4 o h
        · have := k4 o h
          simp only at hc
          rwa [hc] at this
  | call scope body ih =>
    unfold Body.run
    simp only [if_true, withScope]
    obtain ⟨h1, h2, new, h3, h4⟩ := ih { s with names := unique s.names (s.current ++ scope) :: s.names, current := unique s.names (s.current ++ scope) ++ ['/'] }
      ⟨hs.nodup, fun n hn => List.mem_cons_of_mem _ (hs.used n hn)⟩
    refine ⟨⟨h1.nodup, h1.used⟩, fun n hn => h2 n (List.mem_cons_of_mem _ hn), new, h3, fun o ho => ?_⟩
    refine ((List.prefix_append _ _).trans (hu.starts _ _)).trans ((List.prefix_append _ _).trans (h4 o ho))

/-- **C143 (names).** The operations of a whole program have different names, and all operations that a call of a decorated function makes, in whatever functions it calls, have names in
one scope, which starts with the open scope and the name given to the decorator, and whose name was not in use. -/
theorem C143_names (hu : Spec.UniqueName unique) (scope : TFName) (body : Body V) (s : ScopeState V) (hs : Spec.NamesDistinct s) :
    Spec.NamesDistinct ((Body.call scope body).run unique true s).2 ∧
    ∃ u new, u ∉ s.names ∧ (s.current ++ scope) <+: u ∧ ((Body.call scope body).run unique true s).2.ops = s.ops ++ new ∧ ∀ o ∈ new, (u ++ ['/']) <+: o.1 := by
  refine ⟨(scope_run hu _ s hs).1, unique s.names (s.current ++ scope), ?_⟩
  obtain ⟨-, -, new, h3, h4⟩ := scope_run hu body { s with names := unique s.names (s.current ++ scope) :: s.names, current := unique s.names (s.current ++ scope) ++ ['/'] }
      ⟨hs.nodup, fun n hn => List.mem_cons_of_mem _ (hs.used n hn)⟩
  refine ⟨new, hu.fresh _ _, hu.starts _ _, ?_, h4⟩
  simp only [Body.run, if_true, withScope]
  exact h3

/-- A simple `unique_name`: underscores are added until the name is longer than all names in use or new. -/
def underscores (used : List TFName) (name : TFName) : TFName :=
  if name ∈ used then name ++ List.replicate ((used.map List.length).sum + 1) '_' else name

theorem underscores_unique : Spec.UniqueName underscores := by
  constructor
  · intro used name
    unfold underscores
    split_ifs with h
    · intro h1
      have h2 : ∀ (l : List TFName) (x : TFName), x ∈ l → x.length ≤ (l.map List.length).sum := by
        intro l
        induction l with
        | nil => simp
        | cons a l ih =>
          intro x hx
          rcases List.mem_cons.mp hx with rfl | hx
          · simp
          · have := ih x hx
            simp only [List.map_cons, List.sum_cons]
            omega
      have := h2 _ _ h1
      simp only [List.length_append, List.length_replicate] at this
      omega
    · exact h
  · intro used name
    unfold underscores
    split_ifs
    · exact List.prefix_append _ _
    · exact List.prefix_refl _

/-- A program with two calls of `f`, the first of which raises in an inner function. -/
def exampleBody : Body ℕ :=
  .seq (.handle (.call "f".toList (.seq (.op "x".toList 1) (.call "g".toList (.seq (.op "y".toList 2) (.raise .valueError))))) fun _ => .op "z".toList 3)
    (.call "f".toList (.op "x".toList 4))

/-- The operations of the example. -/
example : (exampleBody.run underscores true ⟨[], [], []⟩).2.ops.map (fun o => (String.ofList o.1, o.2)) = [("f/x", 1), ("f/g/y", 2), ("z", 3), ("f______________/x", 4)] := by
  decide +kernel

example : Spec.NamesDistinct (⟨[], [], []⟩ : ScopeState ℕ) := ⟨by simp, by simp⟩

end SafeLearning
