import Verif.Session.DefaultName

/-!
# Names that tell what a task runs, in plain words
-/

namespace Rocketry.Spec
open Rocketry Rocketry.Session

/-- The path of a file `stem.py` in directories, written without dots and colons in the names; no name but the first
begins with "py". -/
structure PlainFile (dirs : List (List Char)) (stem : List Char) : Prop where
  chars : ∀ w ∈ dirs ++ [stem], '.' ∉ w ∧ ':' ∉ w
  noPy : ∀ w ∈ (dirs ++ [stem]).tail, ¬ c!"py" <+: w

/-- A source whose default name tells it: a function given to `FuncTask`, or a function of a plain file that is named. -/
inductive Telling : Source → Prop
  | func {m f : List Char} (hm : ':' ∉ m) (hf : ':' ∉ f) : Telling (.func m f false)
  | path {dirs : List (List Char)} {stem f : List Char} (hp : PlainFile dirs stem) (hf : ':' ∉ f) :
      Telling (.path (dirs ++ [stem ++ c!".py"]) (some f))

/-- The function a source names: the parts of its module, and its name.  The modules of functions are given with dots; a
function of the program itself (`__main__`) has no module. -/
def target : Source → Option (List (List Char) × List Char)
  | .func m f _ => some (if m = c!"__main__" then [] else splitChar '.' m, f)
  | .path ps f => some (ps.dropLast ++ [(ps.getLastD []).take ((ps.getLastD []).length - 3)], f.getD c!"main")
  | _ => none

end Rocketry.Spec
