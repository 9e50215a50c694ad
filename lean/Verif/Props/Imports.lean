import Verif.Model.Imports
import Mathlib.Tactic.Common
set_option autoImplicit false

/-!
# C142: what `import_from_directory` returns and changes
-/

namespace SafeLearning

variable {Dir Name : Type} [DecidableEq Name]

/-! ## Specification -/

/-- The directory that `import library` uses: the first one in `path` with such a module. -/
def _root_.Spec.FirstWith (fs : FileSystem Dir Name) (path : List Dir) (library : Name) (d : Dir) : Prop :=
  ∃ before after, path = before ++ d :: after ∧ (fs d library).isSome ∧ ∀ e ∈ before, fs e library = none

/-- One call of `import_from_directory`: the library, the folder and whether it is Python 2. -/
structure ImportCall (Dir Name : Type) where
  library : Name
  folder : Dir
  python2 : Bool

/-- The state after a sequence of calls, whether they raise or not. -/
def importRun (fs : FileSystem Dir Name) (s : Interpreter Dir Name) (calls : List (ImportCall Dir Name)) : Interpreter Dir Name :=
  calls.foldl (fun s c => (importFromDirectory fs c.python2 c.library c.folder s).2) s

/-! ## Lemmas -/

theorem findModule_some {fs : FileSystem Dir Name} {path : List Dir} {library : Name} {d : Dir} {r : Option ImportExc} (h : findModule fs path library = some (d, r)) :
    Spec.FirstWith fs path library d ∧ fs d library = some r := by
  induction path with
  | nil => simp [findModule] at h
  | cons e path ih =>
    unfold findModule at h ih
    rw [List.findSome?_cons] at h
    cases he : fs e library with
    | none =>
      rw [he] at h
      obtain ⟨⟨b, a, h1, h2, h3⟩, h4⟩ := ih h
      refine ⟨⟨e :: b, a, by rw [h1]; rfl, h2, ?_⟩, h4⟩
      intro x hx
      rcases List.mem_cons.mp hx with rfl | hx
      · exact he
      · exact h3 x hx
    | some q =>
      rw [he] at h
      simp only [Option.map_some, Option.some.injEq, Prod.mk.injEq] at h
      obtain ⟨rfl, rfl⟩ := h
      exact ⟨⟨[], path, rfl, by simp [he], by simp⟩, he⟩

theorem findModule_none {fs : FileSystem Dir Name} {path : List Dir} {library : Name} : findModule fs path library = none ↔ ∀ d ∈ path, fs d library = none := by
  simp [findModule, List.findSome?_eq_none_iff]

theorem findModule_append {fs : FileSystem Dir Name} {path : List Dir} {library : Name} {x : Dir × Option ImportExc} (h : findModule fs path library = some x) (more : List Dir) :
    findModule fs (path ++ more) library = some x := by
  unfold findModule at *
  rw [List.findSome?_append, h]
  rfl

theorem findModule_iff {fs : FileSystem Dir Name} {path : List Dir} {library : Name} {d : Dir} :
    Spec.FirstWith fs path library d ↔ ∃ r, findModule fs path library = some (d, r) := by
  constructor
  · rintro ⟨b, a, rfl, h2, h3⟩
    obtain ⟨r, hr⟩ := Option.isSome_iff_exists.mp h2
    refine ⟨r, ?_⟩
    have : findModule fs b library = none := findModule_none.mpr h3
    unfold findModule at *
    rw [List.findSome?_append, this, Option.none_or, List.findSome?_cons, hr]
    rfl
  · rintro ⟨r, h⟩
    exact (findModule_some h).1

/-- A call for a library that cannot be imported. -/
theorem import_fallback {fs : FileSystem Dir Name} {s : Interpreter Dir Name} {library : Name} (hm : s.modules library = none)
    (hx : findModule fs s.path library = none ∨ ∃ d, findModule fs s.path library = some (d, some .importError)) (python2 : Bool) (folder : Dir) :
    importFromDirectory fs python2 library folder s =
      if python2 then loadModule s library (findModule fs [folder] library)
      else loadModule { s with path := s.path ++ [folder] } library (findModule fs (s.path ++ [folder]) library) := by
  have h1 : importModule fs library s = (.error .importError, s) := by
    unfold importModule
    rw [hm]
    rcases hx with hx | ⟨d, hx⟩ <;> simp only [hx, loadModule]
  have h2 : importModule fs library { s with path := s.path ++ [folder] } =
      loadModule { s with path := s.path ++ [folder] } library (findModule fs (s.path ++ [folder]) library) := by
    unfold importModule
    simp only [hm]
  unfold importFromDirectory
  rw [h1]
  simp only [h2]

/-- What one call can do to the state. -/
theorem import_step (fs : FileSystem Dir Name) (s : Interpreter Dir Name) (c : ImportCall Dir Name) :
    (∀ n m, s.modules n = some m → (importFromDirectory fs c.python2 c.library c.folder s).2.modules n = some m) ∧
    ∃ more, (importFromDirectory fs c.python2 c.library c.folder s).2.path = s.path ++ more := by
  have hload : ∀ (s : Interpreter Dir Name), s.modules c.library = none → ∀ x, (∀ n m, s.modules n = some m → (loadModule s c.library x).2.modules n = some m) ∧
      (loadModule s c.library x).2.path = s.path := by
    intro s hs x
    match x with
    | none => exact ⟨fun n m h => h, rfl⟩
    | some (_, some e) => exact ⟨fun n m h => h, rfl⟩
    | some (d, none) =>
      refine ⟨fun n m h => ?_, rfl⟩
      simp only [loadModule]
      rw [if_neg]
      · exact h
      · rintro rfl
        rw [hs] at h
        simp at h
  cases hm : s.modules c.library with
  | some m =>
    simp only [importFromDirectory, importModule, hm]
    exact ⟨fun n m h => h, [], by simp⟩
  | none =>
    have hfall : (findModule fs s.path c.library = none ∨ ∃ d, findModule fs s.path c.library = some (d, some .importError)) →
        (∀ n m, s.modules n = some m → (importFromDirectory fs c.python2 c.library c.folder s).2.modules n = some m) ∧
        ∃ more, (importFromDirectory fs c.python2 c.library c.folder s).2.path = s.path ++ more := by
      intro hx
      rw [import_fallback hm hx]
      split_ifs
      · exact ⟨(hload s hm _).1, [], by rw [(hload s hm _).2, List.append_nil]⟩
      · exact ⟨(hload { s with path := s.path ++ [c.folder] } hm _).1, [c.folder], (hload { s with path := s.path ++ [c.folder] } hm _).2⟩
    match hx : findModule fs s.path c.library with
    | none => exact hfall (Or.inl hx)
    | some (d, some .importError) => exact hfall (Or.inr ⟨d, hx⟩)
    | some (d, some .other) =>
      simp only [importFromDirectory, importModule, hm, hx, loadModule]
      exact ⟨fun n m h => h, [], by simp⟩
    | some (d, none) =>
      have := hload s hm (some (d, none))
      simp only [importFromDirectory, importModule, hm, hx]
      exact ⟨this.1, [], by rw [List.append_nil]; exact this.2⟩

/-! ## Theorems -/

/-- **C142 (what is returned).** In Python 3 a call that returns gives the module in `sys.modules`, or a new one from the first directory of `sys.path`, followed by the folder, that has
the library. -/
theorem C142_result (fs : FileSystem Dir Name) (library : Name) (folder : Dir) (s s' : Interpreter Dir Name) (m : ℕ) (h : importFromDirectory fs false library folder s = (.ok m, s')) :
    s'.modules library = some m ∧
    ((s.modules library = some m ∧ s' = s) ∨
      s.modules library = none ∧ m = s.objects.length ∧ ∃ d, s'.objects = s.objects ++ [(d, library)] ∧ Spec.FirstWith fs (s.path ++ [folder]) library d) := by
  cases hm : s.modules library with
  | some k =>
    simp only [importFromDirectory, importModule, hm, Prod.mk.injEq, Except.ok.injEq] at h
    obtain ⟨rfl, rfl⟩ := h
    exact ⟨hm, Or.inl ⟨rfl, rfl⟩⟩
  | none =>
    have hlast : ∀ x, loadModule { s with path := s.path ++ [folder] } library x = (.ok m, s') → findModule fs (s.path ++ [folder]) library = x →
        s'.modules library = some m ∧ (m = s.objects.length ∧ ∃ d, s'.objects = s.objects ++ [(d, library)] ∧ Spec.FirstWith fs (s.path ++ [folder]) library d) := by
      intro x h hx
      match x with
      | none => simp [loadModule] at h
      | some (d, some e) => simp [loadModule] at h
      | some (d, none) =>
        simp only [loadModule, Prod.mk.injEq, Except.ok.injEq] at h
        obtain ⟨rfl, rfl⟩ := h
        exact ⟨if_pos rfl, rfl, d, rfl, (findModule_some hx).1⟩
    match hx : findModule fs s.path library with
    | none =>
      rw [import_fallback hm (Or.inl hx)] at h
      exact (hlast _ h rfl).imp id fun h => Or.inr ⟨rfl, h⟩
    | some (d, some .importError) =>
      rw [import_fallback hm (Or.inr ⟨d, hx⟩)] at h
      exact (hlast _ h rfl).imp id fun h => Or.inr ⟨rfl, h⟩
    | some (d, some .other) => simp [importFromDirectory, importModule, hm, hx, loadModule] at h
    | some (d, none) =>
      simp only [importFromDirectory, importModule, hm, hx, loadModule, Prod.mk.injEq, Except.ok.injEq] at h
      obtain ⟨rfl, rfl⟩ := h
      exact ⟨if_pos rfl, Or.inr ⟨rfl, rfl, d, rfl, (findModule_some (findModule_append hx [folder])).1⟩⟩

/-- **C142 (the same module).** Once a call has returned a module, every later call for the same library returns the same object and changes nothing, whatever calls come in between and
whatever folder is given. -/
theorem C142_same_object (fs : FileSystem Dir Name) (c c' : ImportCall Dir Name) (hc : c'.library = c.library) (s : Interpreter Dir Name) (m : ℕ)
    (h : (importFromDirectory fs c.python2 c.library c.folder s).1 = .ok m) (calls : List (ImportCall Dir Name)) :
    let s' := importRun fs (importFromDirectory fs c.python2 c.library c.folder s).2 calls
    importFromDirectory fs c'.python2 c'.library c'.folder s' = (.ok m, s') := by
  intro s'
  have h1 : (importFromDirectory fs c.python2 c.library c.folder s).2.modules c.library = some m := by
    have hload : ∀ (s : Interpreter Dir Name) x, (loadModule s c.library x).1 = .ok m → (loadModule s c.library x).2.modules c.library = some m := by
      intro s x hx
      match x with
      | none => simp [loadModule] at hx
      | some (d, some e) => simp [loadModule] at hx
      | some (d, none) =>
        simp only [loadModule, Except.ok.injEq, if_true] at hx ⊢
        rw [hx]
    have himp : ∀ (s : Interpreter Dir Name), (importModule fs c.library s).1 = .ok m → (importModule fs c.library s).2.modules c.library = some m := by
      intro s hs
      unfold importModule at hs ⊢
      cases hm : s.modules c.library with
      | some k =>
        simp only [hm, Except.ok.injEq] at hs ⊢
        rw [← hs]
      | none =>
        simp only [hm] at hs ⊢
        exact hload _ _ hs
    have key := himp s
    unfold importFromDirectory at h ⊢
    match hi : importModule fs c.library s with
    | (.error .importError, s₁) =>
      simp only [hi] at h ⊢
      split_ifs at h ⊢
      · exact hload _ _ h
      · exact himp _ h
    | (.error .other, s₁) => simp [hi] at h
    | (.ok k, s₁) =>
      rw [hi] at key
      simp only [hi] at h ⊢
      exact key h
  have h2 : ∀ (calls : List (ImportCall Dir Name)) (s : Interpreter Dir Name), s.modules c.library = some m → (importRun fs s calls).modules c.library = some m := by
    intro calls
    induction calls with
    | nil => exact fun s h => h
    | cons a calls ih => exact fun s h => ih _ ((import_step fs s a).1 _ _ h)
  have h3 := h2 calls _ h1
  unfold importFromDirectory importModule
  rw [hc, h3]

/-- **C142 (other imports).** No sequence of calls changes which file `import` uses for a library that was found in `sys.path` before, and modules that were loaded stay loaded. -/
theorem C142_other_imports (fs : FileSystem Dir Name) (s : Interpreter Dir Name) (calls : List (ImportCall Dir Name)) (library : Name) :
    (∀ m, s.modules library = some m → (importRun fs s calls).modules library = some m) ∧
    ∀ d, Spec.FirstWith fs s.path library d → Spec.FirstWith fs (importRun fs s calls).path library d := by
  induction calls generalizing s with
  | nil => exact ⟨fun m h => h, fun d h => h⟩
  | cons a calls ih =>
    obtain ⟨h1, more, h2⟩ := import_step fs s a
    refine ⟨fun m h => (ih _).1 m (h1 _ _ h), fun d h => (ih _).2 d ?_⟩
    rw [findModule_iff] at h ⊢
    obtain ⟨r, h⟩ := h
    exact ⟨r, by rw [h2]; exact findModule_append h more⟩

/-- **C142 (the folder), partial.** If the library is neither loaded nor in a directory of `sys.path`, and the folder has it, the call returns a new module from the folder (or raises what
its file raises). Missing: libraries that are found elsewhere, see `C142_folder_refuted`. -/
theorem C142_folder_partial (fs : FileSystem Dir Name) (python2 : Bool) (library : Name) (folder : Dir) (s : Interpreter Dir Name) (hm : s.modules library = none)
    (hp : ∀ d ∈ s.path, fs d library = none) :
    (fs folder library = some none →
      (importFromDirectory fs python2 library folder s).1 = .ok s.objects.length ∧
      (importFromDirectory fs python2 library folder s).2.objects = s.objects ++ [(folder, library)]) ∧
    ∀ e, fs folder library = some (some e) → (importFromDirectory fs python2 library folder s).1 = .error e := by
  have h1 : findModule fs s.path library = none := findModule_none.mpr hp
  have h2 : findModule fs (s.path ++ [folder]) library = findModule fs [folder] library := by
    unfold findModule at *
    rw [List.findSome?_append, h1, Option.none_or]
  have h3 : findModule fs [folder] library = (fs folder library).map fun r => (folder, r) := by
    unfold findModule
    rw [List.findSome?_cons]
    cases fs folder library <;> rfl
  constructor
  · intro hf
    cases python2 <;> simp [importFromDirectory, importModule, hm, h1, h2, h3, hf, loadModule]
  · intro e hf
    cases python2 <;> simp [importFromDirectory, importModule, hm, h1, h2, h3, hf, loadModule]

/-- **C142 (failures), partial.** A call in Python 3 that raises because the library is missing leaves the folder in `sys.path`, each time. Missing: that a failed call leaves no trace, see
`C142_failure_refuted`. -/
theorem C142_failure_partial (fs : FileSystem Dir Name) (library : Name) (folder : Dir) (s : Interpreter Dir Name) (hm : s.modules library = none)
    (hp : ∀ d ∈ s.path, fs d library = none) (hf : fs folder library = none) (k : ℕ) :
    let calls := List.replicate k (⟨library, folder, false⟩ : ImportCall Dir Name)
    (importRun fs s calls).path = s.path ++ List.replicate k folder ∧ (importRun fs s calls).modules = s.modules ∧
      (importFromDirectory fs false library folder (importRun fs s calls)).1 = .error .importError := by
  have h1 : ∀ (s : Interpreter Dir Name), s.modules library = none → (∀ d ∈ s.path, fs d library = none) →
      importFromDirectory fs false library folder s = (.error .importError, { s with path := s.path ++ [folder] }) := by
    intro s hm hp
    have h1 : findModule fs s.path library = none := findModule_none.mpr hp
    have h2 : findModule fs (s.path ++ [folder]) library = none := by
      refine findModule_none.mpr fun d hd => ?_
      rcases List.mem_append.mp hd with h | h
      · exact hp d h
      · rw [List.mem_singleton.mp h]; exact hf
    simp [importFromDirectory, importModule, hm, h1, h2, loadModule]
  intro calls
  have key : ∀ (k : ℕ) (s : Interpreter Dir Name), s.modules library = none → (∀ d ∈ s.path, fs d library = none) →
      let s' := importRun fs s (List.replicate k (⟨library, folder, false⟩ : ImportCall Dir Name))
      s'.path = s.path ++ List.replicate k folder ∧ s'.modules = s.modules := by
    intro k
    induction k with
    | zero => intro s _ _; simp [importRun]
    | succ k ih =>
      intro s hm hp
      have hp' : ∀ d ∈ s.path ++ [folder], fs d library = none := fun d hd => by
        rcases List.mem_append.mp hd with h | h
        · exact hp d h
        · rw [List.mem_singleton.mp h]; exact hf
      have := ih { s with path := s.path ++ [folder] } hm hp'
      simp only [importRun, List.replicate_succ, List.foldl_cons, h1 s hm hp] at this ⊢
      refine ⟨?_, this.2⟩
      rw [this.1, List.append_assoc]
      rfl
  obtain ⟨e1, e2⟩ := key k s hm hp
  refine ⟨e1, e2, ?_⟩
  rw [h1]
  · rw [e2]; exact hm
  · intro d hd
    rw [e1] at hd
    rcases List.mem_append.mp hd with h | h
    · exact hp d h
    · rw [List.eq_of_mem_replicate h]; exact hf

/-- Directory 0 is in `sys.path`, folder 1 is not; both have a module 7. Nothing has a module 8. -/
def twoFolders : FileSystem ℕ ℕ := fun d n => if n = 7 ∧ d ≤ 1 then some none else none

/-- **C142 refuted**: the module of the given folder is not used if a directory of `sys.path` has one of the same name. -/
theorem C142_folder_refuted : ∃ (fs : FileSystem ℕ ℕ) (s : Interpreter ℕ ℕ) (library folder : ℕ), fs folder library = some none ∧
    (importFromDirectory fs false library folder s).2.objects = [(0, library)] ∧ folder ≠ 0 :=
  ⟨twoFolders, ⟨fun _ => none, [0], []⟩, 7, 1, by decide +kernel, by decide +kernel, by decide⟩

/-- **C142 refuted**: a call that raises changes `sys.path`. -/
theorem C142_failure_refuted : ∃ (fs : FileSystem ℕ ℕ) (s : Interpreter ℕ ℕ) (library folder : ℕ),
    (importFromDirectory fs false library folder s).1 = .error .importError ∧ (importFromDirectory fs false library folder s).2.path ≠ s.path :=
  ⟨twoFolders, ⟨fun _ => none, [0], []⟩, 8, 1, by rfl, by decide +kernel⟩

/-- The hypotheses of the theorems are met: the folder is used, and then the same object is returned for another folder. -/
example : (importFromDirectory twoFolders false 7 1 ⟨fun _ => none, [2], []⟩).1 = .ok 0 := rfl

example := C142_result twoFolders 7 1 ⟨fun _ => none, [2], []⟩ _ 0 rfl

example := C142_same_object twoFolders ⟨7, 1, false⟩ ⟨7, 0, true⟩ rfl ⟨fun _ => none, [2], []⟩ 0 rfl [⟨8, 1, false⟩]

example := (C142_folder_partial twoFolders false 7 1 ⟨fun _ => none, [2], []⟩ rfl (by decide +kernel)).1 (by decide +kernel)

example := C142_failure_partial twoFolders 8 1 ⟨fun _ => none, [2], []⟩ rfl (by decide +kernel) (by decide +kernel) 3

example := (C142_other_imports twoFolders ⟨fun _ => none, [2, 0], []⟩ [⟨8, 1, false⟩, ⟨7, 1, false⟩] 7).2 0 ⟨[2], [], rfl, by decide +kernel, by decide +kernel⟩

end SafeLearning
