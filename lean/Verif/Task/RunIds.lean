import Verif.Task.Conditions
import Verif.Session.Names

/-!
# Model of the run ids in the log of a task

`Task.start_async` asks for the id of each run (rocketry/core/task.py:479-485, `get_run_id` 949-952); all records of the
run carry it (1169).  The option `func_run_id` is `uuid` by default or `increment` (rocketry/tasks/run_id.py).

Simplified: all log writes succeed and every record carries the id of its run (those that do not are in
`Verif/Task/Run.lean`); a run leaves the run stack with its outcome record (the scheduler cleans the stack at each turn of
the task, core/schedule.py:175).
-/

namespace Rocketry.RunIds
open Rocketry

/-- The ids of the runs in `_run_stack`, and the log. -/
structure IdSt where
  stack : List String
  log : List Record
  deriving DecidableEq, Repr

/-- A run is started, with the random id that `uuid` would give; a run ends with an outcome; another task logs
something. -/
inductive IdEv where
  | starts (random : String) (now : Int)
  | ends (id : String) (a : Action) (now : Int)
  | other (r : Record)
  deriving DecidableEq, Repr

/-- `get_run_id` with `func_run_id=increment` (`inc`) or `uuid`, core/task.py:949-952, tasks/run_id.py:4-13. -/
def runId (inc : Bool) (s : IdSt) (random : String) : Option String :=
  if inc then Session.increment (s.stack.map some) else some random

/-- One step: task.py:485-500 with 1155-1184 for the start, 1163-1184 for the outcome. -/
def idStep (inc : Bool) (name : String) (s : IdSt) : IdEv → IdSt
  | .starts u now => match runId inc s u with
    | none => s
    | some i => ⟨s.stack ++ [i], s.log ++ [⟨name, .run, now, now, some i⟩]⟩
  | .ends i a now => if i ∈ s.stack ∧ a ≠ .run
      then ⟨s.stack.filter (fun j => decide (j ≠ i)), s.log ++ [⟨name, a, now, now, some i⟩]⟩ else s
  | .other r => if r.task ≠ name then { s with log := s.log ++ [r] } else s

/-- A history from a new task on. -/
def idSteps (inc : Bool) (name : String) (l : List IdEv) : IdSt := l.foldl (idStep inc name) ⟨[], []⟩

end Rocketry.RunIds
