import Verif.Task.Conditions

/-!
# Model of tasks whose names change

Records refer to tasks by name (`TaskAdapter`, rocketry/core/log/adapter.py:29-31, 53-59; a new adapter with the present
name is made at each use of `Task.logger`, rocketry/core/task.py:300-303), while the status and the times of the last
actions are attributes of the task object.
-/

namespace Rocketry

/-- A session: `ids` are the task objects in it; name and memory of each object, the log, and
`config.force_status_from_logs`.  All tasks use the same logger (the default, core/task.py:225, 279-296). -/
structure Named where
  fromLogs : Bool
  ids : List Nat
  name : Nat → String
  mem : Nat → TaskMem
  repo : List Record

namespace Named

/-- What happens to the tasks. -/
inductive Op where
  /-- the task logs an action (`_set_status`): the clock read in `_set_status` and when the record is created -/
  | log (id : Nat) (a : Action) (now created : Int)
  /-- `task.name = v` -/
  | rename (id : Nat) (v : String)
  /-- `session.remove_task(task)` -/
  | remove (id : Nat)
  deriving DecidableEq, Repr

/-- `v in session`, rocketry/session.py:235-242. -/
def taken (s : Named) (v : String) : Bool := s.ids.any (fun i => decide (s.name i = v))

/-- `_set_status`, core/task.py:1148-1195, with a logger that works; the run ids are left out. -/
def log (s : Named) (id : Nat) (a : Action) (now created : Int) : Named :=
  let l := setStatus s.fromLogs (s.name id) (s.mem id) s.repo a none now created .ok
  { s with mem := fun i => if i = id then l.mem else s.mem i, repo := l.repo }

/-- Assignment to `name`, core/task.py:342-372, for the default policy `raise` (`Verif/Session/Names.lean` has the
others): refused if a task of the session has the name, also if it is the task itself. -/
def rename (s : Named) (id : Nat) (v : String) : Named :=
  if s.taken v then s else { s with name := fun i => if i = id then v else s.name i }

/-- `remove_task`, session.py:435-439: the object is taken out of the session; the log stays. -/
def remove (s : Named) (id : Nat) : Named := { s with ids := s.ids.filter (fun i => decide (i ≠ id)) }

def step (s : Named) : Op → Named
  | .log id a now created => s.log id a now created
  | .rename id v => s.rename id v
  | .remove id => s.remove id

def run (s : Named) (l : List Op) : Named := l.foldl step s

/-- The scheduler is started again: `set_cached`, core/task.py:916-942. -/
def restart (s : Named) (id : Nat) (now created : Int) : Named :=
  let l := setCached s.fromLogs (s.name id) (s.mem id) s.repo now created .ok
  { s with mem := fun i => if i = id then l.mem else s.mem i, repo := l.repo }

/-- New tasks with an empty log. -/
def init (fromLogs : Bool) (ids : List Nat) (name : Nat → String) : Named :=
  ⟨fromLogs, ids, name, fun _ => .fresh, []⟩

end Named

end Rocketry
