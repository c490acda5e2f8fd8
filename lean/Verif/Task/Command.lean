/-!
# Model of command tasks

`CommandTask.execute` (rocketry/tasks/command.py:71-87) as far as the command line is concerned, and what a run leaves
in the attribute `command`.  The parameters are those of the run, as pairs of texts in order: session parameters are
never passed, as `execute` names no parameter (rocketry/core/utils/meta.py:6-24).
-/

namespace Rocketry.Command

/-- `command: Union[str, List[str]]`, command.py:44. -/
inductive Cmd where
  | text (s : String)
  | words (l : List String)
  deriving DecidableEq, Repr

/-- Lines 76-77: `argform` is the value of the attribute; `None + param` raises TypeError. -/
def flag (argform : Option String) (p : String) : Option String :=
  if p.startsWith "-" then some p else argform.map (· ++ p)

/-- Lines 79-82. -/
def Cmd.add (c : Cmd) (p v : String) : Cmd := match c with
  | .text s => .text (s ++ (" " ++ p ++ " \"" ++ v ++ "\""))
  | .words l => .words (l ++ [p, v])

/-- The loop, lines 75-82: the command built so far, and whether an exception was raised. -/
def build (argform : Option String) : Cmd → List (String × String) → Cmd × Bool
  | c, [] => (c, false)
  | c, (p, v) :: rest => match flag argform p with
    | none => (c, true)
    | some p => build argform (c.add p v) rest

/-- `execute`: the command line given to `Popen` (`none`: TypeError), and the attribute `command` afterwards.  `+=`
makes a new text but changes a list in place, and that list is the attribute itself. -/
def execute (argform : Option String) (command : Cmd) (params : List (String × String)) : Option Cmd × Cmd :=
  match build argform command params with
  | (c, raised) => (if raised then none else some c, match command with
    | .text s => .text s
    | .words _ => c)

/-- A run: in a child process the attribute of a copy of the task changes (core/task.py:707-735). -/
def run (argform : Option String) (command : Cmd) (process : Bool) (params : List (String × String)) :
    Option Cmd × Cmd := match execute argform command params with
  | (line, c) => (line, if process then command else c)

/-- A sequence of runs: their command lines. -/
def runs (argform : Option String) : Cmd → List (Bool × List (String × String)) → List (Option Cmd)
  | _, [] => []
  | c, (process, params) :: rest => match run argform c process params with
    | (line, c') => line :: runs argform c' rest

end Rocketry.Command
