import Verif.Task.Log

/-!
# Model of `Task.is_running` and `Task.is_alive` while runs of a task begin and end

`Task.is_running`, `is_alive`, `n_alive` (rocketry/core/task.py:424-445) for one task with any number of runs at a time
(`multilaunch`, or `end` of a thread that does not come).  Each record is written with `_set_status` or `log_record`
(`Verif/Task/Log.lean`), whose effect on the status is the same; it is written at the same moment at which the run begins
or ends.  Loggers do not fail.
-/

namespace Rocketry

/-- What happens to the runs of a task.  `killed`: the run ends without a record (its process or the whole program was
killed). -/
inductive RunEv where
  | began (i : Nat) (now created : Int)
  | ended (i : Nat) (a : Action) (now created : Int)
  | killed (i : Nat)
  deriving DecidableEq, Repr

/-- A task: what it remembers, its log, and the runs of its run stack that are alive. -/
structure RunSt where
  mem : TaskMem
  repo : List Record
  alive : List Nat

namespace RunSt

/-- A new task with an empty log. -/
def init : RunSt := ⟨.fresh, [], []⟩

/-- `_set_status`, core/task.py:1148-1195, and the run stack, core/task.py:479-484, 1000-1010. -/
def step (fromLogs : Bool) (name : String) (s : RunSt) : RunEv → RunSt
  | .began i now created =>
    let l := setStatus fromLogs name s.mem s.repo .run (some (Nat.repr i)) now created .ok
    ⟨l.mem, l.repo, i :: s.alive⟩
  | .ended i a now created =>
    let l := setStatus fromLogs name s.mem s.repo a (some (Nat.repr i)) now created .ok
    ⟨l.mem, l.repo, s.alive.filter (fun j => decide (j ≠ i))⟩
  | .killed i => { s with alive := s.alive.filter (fun j => decide (j ≠ i)) }

def run (fromLogs : Bool) (name : String) (s : RunSt) (l : List RunEv) : RunSt := l.foldl (step fromLogs name) s

/-- `Task.is_running`, core/task.py:424-427. -/
def isRunning (fromLogs : Bool) (name : String) (s : RunSt) : Bool :=
  decide ((getStatus fromLogs s.repo name s.mem).1 = some .run)

/-- `Task.is_alive`, core/task.py:429-435. -/
def isAlive (s : RunSt) : Bool := !s.alive.isEmpty

/-- The program ended; the next one starts with this log: a new task and `set_cached`, core/task.py:916-942. -/
def restarted (fromLogs : Bool) (name : String) (s : RunSt) (now created : Int) : Logged :=
  setCached fromLogs name .fresh s.repo now created .ok

end RunSt

end Rocketry
