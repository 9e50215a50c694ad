import Mathlib.Data.List.Basic
set_option autoImplicit false

/-!
# Model of `import_from_directory` (examples/utilities.py:23-45)

Modules are numbered in the order in which they are loaded. Simplifications: loading a module does not load others and does not change `sys.path`; no packages, no entries `None` in
`sys.modules` and no caches of directory listings.
-/

namespace SafeLearning

/-- Exceptions when a module is imported (examples/utilities.py:34-36): `ImportError` and its subclasses, or another one. -/
inductive ImportExc where
  | importError
  | other
  deriving DecidableEq

/-- The part of the interpreter that imports use (examples/utilities.py:35, 41-45): `sys.modules`, `sys.path` and, for each module object, its directory and name. -/
structure Interpreter (Dir Name : Type) where
  modules : Name → Option ℕ
  path : List Dir
  objects : List (Dir × Name)

variable {Dir Name : Type} [DecidableEq Name]

/-- The file of a module and what running it raises, if anything: `none` if the directory has no such module (examples/utilities.py:35, 41). -/
abbrev FileSystem (Dir Name : Type) := Dir → Name → Option (Option ImportExc)

/-- The first directory with the module (examples/utilities.py:35, 41). -/
def findModule (fs : FileSystem Dir Name) (path : List Dir) (library : Name) : Option (Dir × Option ImportExc) :=
  path.findSome? fun d => (fs d library).map fun r => (d, r)

/-- Running the file of a module: it is entered in `sys.modules` unless it raises (examples/utilities.py:35, 42, 45). -/
def loadModule (s : Interpreter Dir Name) (library : Name) : Option (Dir × Option ImportExc) → Except ImportExc ℕ × Interpreter Dir Name
  | none => (.error .importError, s)
  | some (_, some e) => (.error e, s)
  | some (d, none) =>
    (.ok s.objects.length, { s with modules := fun n => if n = library then some s.objects.length else s.modules n, objects := s.objects ++ [(d, library)] })

/-- `importlib.import_module(library)` (examples/utilities.py:35, 45). -/
def importModule (fs : FileSystem Dir Name) (library : Name) (s : Interpreter Dir Name) : Except ImportExc ℕ × Interpreter Dir Name :=
  match s.modules library with
  | some m => (.ok m, s)
  | none => loadModule s library (findModule fs s.path library)

/-- `import_from_directory(library, path)` (examples/utilities.py:34-45); `folder` is the absolute path, `python2` whether `sys.version_info.major == 2`. -/
def importFromDirectory (fs : FileSystem Dir Name) (python2 : Bool) (library : Name) (folder : Dir) (s : Interpreter Dir Name) :
    Except ImportExc ℕ × Interpreter Dir Name :=
  match importModule fs library s with
  | (.error .importError, s) =>
    if python2 then loadModule s library (findModule fs [folder] library)
    else importModule fs library { s with path := s.path ++ [folder] }
  | r => r

end SafeLearning
