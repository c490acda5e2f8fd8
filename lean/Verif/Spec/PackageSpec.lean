import Verif.Task.PackageRoot

/-!
# Where Python finds a module

A dotted name is looked up from a directory: every part but the last names a package, that is, a directory with the file
`__init__.py`, and the last one a file.  Independently of that: the package root of a file is the nearest directory above
the package.
-/

namespace Rocketry.Spec

open Rocketry.Package

/-- `p` with more names. -/
def under (p : FPath) (ns : List (List Char)) : FPath := { p with names := p.names ++ ns }

/-- The directory has an `__init__.py`. -/
def IsPackage (isFile : FPath → Bool) (p : FPath) : Prop := isFile (under p [initName]) = true

/-- Importing `name` with the directory `r` on `sys.path` takes the file `p`. -/
def ImportsFrom (isFile : FPath → Bool) (r : FPath) (name : List Char) (p : FPath) : Prop :=
  ∃ pkgs last, splitChar '.' name = pkgs ++ [last] ∧
    (∀ k, k < pkgs.length → IsPackage isFile (under r (pkgs.take (k + 1)))) ∧
    p = under r (pkgs ++ [last ++ ['.', 'p', 'y']])

/-- `r` is the directory above the package that the file `p` is in: the directories from that of the file up to `r` are
packages, and `r` is none. -/
def PackageRootOf (isFile : FPath → Bool) (r p : FPath) : Prop :=
  ∃ dirs file, dirs ≠ [] ∧ p = under r (dirs ++ [file]) ∧ ¬ IsPackage isFile r ∧
    ∀ k, k < dirs.length → IsPackage isFile (under r (dirs.take (k + 1)))

end Rocketry.Spec
