import Verif.Base.Text

/-!
# Model of the package of a task's file

`find_package_root` (rocketry/pybox/pkg/path.py:4-20), the module name made by `get_module` (rocketry/tasks/func.py:15-25)
and the path appended to `sys.path` by `FuncTask.get_func` (tasks/func.py:233-237).

Simplified: paths are POSIX paths without `..`; the file system answers whether a path is a file and does not change
meanwhile; `path.absolute()` puts the working directory in front.  `with_suffix` is that of Python before 3.14.
-/

namespace Rocketry.Package

/-- A `pathlib.Path`: whether it begins with `/`, and the names. -/
structure FPath where
  abs : Bool
  names : List (List Char)
  deriving DecidableEq, Repr

/-- `path / name`. -/
def FPath.child (p : FPath) (n : List Char) : FPath := { p with names := p.names ++ [n] }

/-- `path.parts`. -/
def FPath.parts (p : FPath) : List (List Char) := (if p.abs then [['/']] else []) ++ p.names

/-- `path.parents`: the nearest first; those of a relative path end with `.`. -/
def FPath.parents (p : FPath) : List FPath :=
  (List.range p.names.length).reverse.map (fun k => { p with names := p.names.take k })

/-- `__init__.py`. -/
def initName : List Char := ['_', '_', 'i', 'n', 'i', 't', '_', '_', '.', 'p', 'y']

/-- What `find_package_root` gives: `None`, a path, or the exception `FileExistsError`. -/
inductive Found where
  | none
  | root (p : FPath)
  | missing
  deriving DecidableEq, Repr

/-- The loop of `find_package_root`, pkg/path.py:10-19; `first` is `i == 0`. -/
def findLoop (isFile : FPath → Bool) (first : Bool) : List FPath → Found
  | [] => .missing
  | p :: ps => if !isFile (p.child initName) then (if first then .none else .root p) else findLoop isFile false ps

/-- `find_package_root(path)`, pkg/path.py:4-20. -/
def findPackageRoot (isFile : FPath → Bool) (p : FPath) : Found := findLoop isFile true p.parents

/-- The length of `suffix` of a name: from the last dot on, unless the dot is the first or the last character. -/
def suffixLen (n : List Char) : Nat :=
  let tail := n.reverse.takeWhile (fun c => decide (c ≠ '.'))
  let i := n.length - 1 - tail.length
  if tail.length < n.length ∧ 0 < i ∧ i < n.length - 1 then tail.length + 1 else 0

/-- `path.with_suffix('')`. -/
def FPath.noSuffix (p : FPath) : FPath :=
  { p with names := p.names.dropLast ++ (p.names.getLast?.map (fun n => n.take (n.length - suffixLen n))).toList }

/-- The name of the module, `get_module`, tasks/func.py:15-23. -/
def moduleName (p : FPath) : Option FPath → List Char
  | some r => joinWith ['.'] (p.noSuffix.parts.drop r.parts.length)
  | none => p.names.getLastD []

/-- `Path.absolute()` with the working directory `cwd`. -/
def FPath.absolute (cwd : List (List Char)) (p : FPath) : FPath :=
  if p.abs then p else ⟨true, cwd ++ p.names⟩

/-- `path.parent`. -/
def FPath.parent (p : FPath) : FPath := { p with names := p.names.dropLast }

/-- The directory appended to `sys.path` by `get_func`, tasks/func.py:235-239, and the name of the module; `none`: the
exception. -/
def getFunc (isFile : FPath → Bool) (cwd : List (List Char)) (p : FPath) : Option (FPath × List Char) :=
  match findPackageRoot isFile p with
  | .missing => none
  | .none => some (p.parent.absolute cwd, moduleName p none)
  | .root r => some (r, moduleName p (some r))

end Rocketry.Package
