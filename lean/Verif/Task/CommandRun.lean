import Verif.Task.Command

/-!
# Model of the run of a command task: waiting for the command

`CommandTask.execute`, rocketry/tasks/command.py:83-99, and what becomes of the command when the run is terminated.
-/

namespace Rocketry.Command

/-- What the computer does with a command line: it cannot be started (`Popen` raises OSError), it ends after some time with
an exit code and what it wrote, or it goes on for ever. -/
inductive Behaviour where
  | missing
  | ends (after : Nat) (code : Int) (out : String)
  | endless
  deriving DecidableEq, Repr

/-- The value of `self.timeout`, rocketry/core/task.py:230, 290-298: `None` or a `datetime.timedelta`, never a number. -/
inductive Limit where
  | none
  | delta (micros : Int)
  deriving DecidableEq, Repr

/-- How `execute` comes to its end: with a value, with an exception (then also whether the command is still there), or not
at all. -/
inductive Ending where
  | value (at_ : Nat) (out : String)
  | raised (at_ : Nat)
  | waits
  deriving DecidableEq, Repr

/-- `pipe.communicate(timeout=self.timeout)` and what follows, command.py:85-99.  With a timeout Python's `communicate`
begins with `endtime = time.monotonic() + timeout`, which raises TypeError for a timedelta; this is not the
`TimeoutExpired` that line 88 waits for. -/
def wait (limit : Limit) (b : Behaviour) : Ending := match b with
  | .missing => .raised 0
  | .ends n code out => match limit with
    | .none => if code = 0 then .value n out else .raised n
    | .delta _ => .raised 0
  | .endless => match limit with
    | .none => .waits
    | .delta _ => .raised 0

/-- `execute` on a computer that does `computer line` with the command line `line`. -/
def executeOn (computer : Cmd → Behaviour) (argform : Option String) (limit : Limit) (command : Cmd)
    (params : List (String × String)) : Ending := match (execute argform command params).1 with
  | none => .raised 0
  | some line => wait limit (computer line)

/-- Whether a command is still there at some time after its start; nothing but its own end ends it (`pipe.kill()`,
command.py:90, is not reached). -/
def running (b : Behaviour) (time : Nat) : Bool := match b with
  | .missing => false
  | .ends n _ _ => decide (time < n)
  | .endless => true

/-- Ways of execution.  On `main` and `async` the scheduler itself waits in `execute`. -/
inductive Way where
  | main
  | async
  | thread
  | process
  deriving DecidableEq, Repr

/-- The record with which a run ends, and when. -/
inductive Outcome where
  | success (at_ : Nat) (out : String)
  | fail (at_ : Nat)
  | terminate (at_ : Nat)
  | none
  deriving DecidableEq, Repr

/-- The outcome when nobody terminates the run: rocketry/core/task.py:579-661. -/
def outcome : Ending → Outcome
  | .value n out => .success n out
  | .raised n => .fail n
  | .waits => .none

/-- The outcome when the scheduler terminates the run at a time before its end (task.py:1020-1032 and `TaskRun.terminate`,
task.py:58-80): the process of a task is killed, and nothing else; a thread is only told (`execute` does not ask); on
`main` and `async` the scheduler does not come to it before `execute` has ended. -/
def outcomeTerminated (way : Way) (at_ : Nat) (e : Ending) : Outcome := match way with
  | .process => match e with
    | .value n out => if n ≤ at_ then .success n out else .terminate at_
    | .raised n => if n ≤ at_ then .fail n else .terminate at_
    | .waits => .terminate at_
  | _ => outcome e

/-- `get_kwargs_popen`, command.py:50-59: the options for `Popen`, those of the task (`kwds_popen`) coming last. -/
def popenOptions (cwd : Option String) (shell : Bool) (own : List (String × String)) (k : String) : Option String :=
  match own.reverse.find? (fun p => decide (p.1 = k)) with
  | some p => some p.2
  | none =>
    if k = "cwd" then cwd
    else if k = "shell" then some (if shell then "True" else "False")
    else if k = "stdin" ∨ k = "stdout" ∨ k = "stderr" then some "PIPE"
    else none

/-- `parse_argform`, command.py:61-69, of a value that is given (the validator is not called for a value left out, which
stays `None`). -/
def parseArgform : String → Option String
  | "long" => some "--"
  | "--" => some "--"
  | "short" => some "-"
  | "-" => some "-"
  | _ => none

end Rocketry.Command
