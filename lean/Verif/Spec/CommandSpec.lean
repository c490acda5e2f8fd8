import Verif.Task.Command

/-!
# The command line of a run
-/

namespace Rocketry.Spec
open Rocketry.Command

/-- The option for a parameter in a style. -/
def optionText (style p : String) : String := if p.startsWith "-" then p else style ++ p

/-- The command line of a run: the configured command followed by the run's parameters. -/
def commandLine (style : String) (c : Cmd) (params : List (String × String)) : Cmd := match c with
  | .text s => .text (s ++ String.join (params.map fun x => " " ++ optionText style x.1 ++ " \"" ++ x.2 ++ "\""))
  | .words l => .words (l ++ params.flatMap fun x => [optionText style x.1, x.2])

end Rocketry.Spec
