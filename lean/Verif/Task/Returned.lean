import Verif.Task.Run
import Verif.Task.Queue
import Verif.Time.Interval

/-!
# Model of return values on their way from task to task

`Task._handle_return` (rocketry/core/task.py:1334-1336), its callers `_run_as_async` (645-649) and
`Scheduler.handle_logs` (rocketry/core/schedule.py:255-287), `_lock_to_run_log` (task.py:1039-1072), which does not call
it, and `Return.get_value` (rocketry/args/builtin.py:166-183).  Any number of runs of any number of tasks go on at once;
what one run does is the subject of `Verif/Task/Run.lean`.
-/

namespace Rocketry.Returned
open Rocketry Rocketry.Run

/-- A run: the task object it belongs to, its execution type, its course. -/
structure Info where
  task : Nat
  exec : Exec
  course : Course
  deriving DecidableEq, Repr

/-- The runs by number; which values can be pickled; which values are argument objects, with what `get_value()` without
task and session gives for them (core/parameters/parameters.py:65-70). -/
structure Setup where
  runs : Nat → Info
  pickles : String → Bool
  arg : String → Option (Except PyErr String)

/-- What a run does next: log an action; `_handle_return` (task.py:647-648); both without an `await` in between
(647-649); send a record to the scheduler (the value of a success is `none` if it is the TaskRun, task.py:606). -/
inductive Act where
  | log (a : Action)
  | store (v : String)
  | both (v : String)
  | send (a : Action) (ret : Option String)
  deriving DecidableEq, Repr

/-- A record in runs of the event loop (`main` and `async`): nothing else happens between lines 648 and 649. -/
def inLoop (value : Option String) (k : Rec) : List Act :=
  if k.action = .success then match value with
    | some v => [.both v]
    | none => [.log .success]
  else [.log k.action]

/-- The same in a thread, beside which other threads go on. -/
def inThread (value : Option String) (k : Rec) : List Act :=
  if k.action = .success then match value with
    | some v => [.store v, .log .success]
    | none => [.log .success]
  else [.log k.action]

/-- The same in a process: `_set_status` puts the value into the record, task.py:1170-1176. -/
def inProcess (value : Option String) (k : Rec) : List Act :=
  [.send k.action (if k.action = .success then value else none)]

/-- All that a run does, task.py:454-783.  Terminations of processes and asyncio tasks are steps of their own. -/
def todoOf (i : Info) : List Act :=
  match i.exec with
  | .main => (runMain i.course).1.flatMap (inLoop (runMain i.course).2)
  | .async => (runAsync false i.course).1.flatMap (inLoop (runAsync false i.course).2)
  | .thread => (runThread i.course).1.flatMap (inThread (runThread i.course).2)
  | .process => (runProcess none i.course).1.flatMap (inProcess (runProcess none i.course).2)

/-- A record in the queue; `name` is `record.task_name`. -/
structure Msg where
  run : Nat
  name : String
  action : Action
  ret : Option String
  deriving DecidableEq, Repr

/-- A record in the log of a task. -/
structure Entered where
  task : Nat
  run : Nat
  action : Action
  deriving DecidableEq, Repr

/-- `tasks`: the task objects of the session with their names; `returns`: `session.returns`, whose keys are task objects
(`Task.__hash__` is their identity, task.py:387-388); `nameAt`: the name of the task when the run was started, which is
the one in the copy in the process; `stored`: the calls of `_handle_return`, task and run. -/
structure St where
  tasks : List (Nat × String)
  returns : Nat → Option String
  queue : List Msg
  todo : Nat → List Act
  started : Nat → Bool
  nameAt : Nat → String
  log : List Entered
  stored : List (Nat × Nat)

/-- `session[name]`, rocketry/session.py:227-233: the task object with the name. -/
def taskNamed (s : St) (n : String) : Option Nat := (s.tasks.find? (fun p => decide (p.2 = n))).map (·.1)

/-- The name of a task object. -/
def nameOf (s : St) (x : Nat) : Option String := (s.tasks.find? (fun p => decide (p.1 = x))).map (·.2)

/-- `Task._handle_return`, task.py:1334-1336, by run `r`. -/
def handleReturn (s : St) (x r : Nat) (v : String) : St :=
  { s with returns := Queue.setAt s.returns x (some v), stored := s.stored ++ [(x, r)] }

/-- A record for the log of a task, `_set_status` (task.py:1148-1195) and `log_record` (1104-1128); with `ok = false` the
logger raises an exception and there is no record. -/
def write (s : St) (x r : Nat) (a : Action) (ok : Bool) : St := if ok then { s with log := s.log ++ [⟨x, r, a⟩] } else s

/-- Whether a record gets through the queue: `multiprocessing.Queue` pickles it in a thread of its own, which drops (and
prints) what cannot be pickled.  The TaskRun has the process object as `task` (task.py:730), which cannot be. -/
def getsThrough (S : Setup) (a : Action) (ret : Option String) : Bool :=
  if a = .success then match ret with
    | some v => S.pickles v
    | none => false
  else true

/-- One act of run `r`; `ok`: the logger works.  A thread whose `run` record is not written does nothing else
(task.py:683-693); the other records that follow a failing logger are the subject of `Verif/Task/Log.lean` and none of
them is a success. -/
def perform (S : Setup) (s : St) (r : Nat) (ok : Bool) (a : Act) : St :=
  match a with
  | .log a =>
    let s := write s (S.runs r).task r a ok
    if !ok && decide (a = .run) && decide ((S.runs r).exec = .thread) then { s with todo := Queue.setAt s.todo r [] } else s
  | .store v => handleReturn s (S.runs r).task r v
  | .both v => write (handleReturn s (S.runs r).task r v) (S.runs r).task r .success ok
  | .send a ret => if getsThrough S a ret then { s with queue := s.queue ++ [⟨r, s.nameAt r, a, ret⟩] } else s

/-- What happens in a session: a run is started; a run does its next act; a process or asyncio task is ended
(`_terminate_run`, task.py:1026-1036: the termination is logged; threads are only asked to end and `main` runs cannot be ended); `handle_logs` takes a record (schedule.py:255-287);
`_lock_to_run_log` takes one (task.py:1039-1072); a task is renamed (`validate_name`, task.py:362-372), removed or
added (session.py:417-439), with the policy `raise`. -/
inductive Step where
  | start (r : Nat)
  | act (r : Nat) (ok : Bool)
  | kill (r : Nat) (ok : Bool)
  | handle (ok : Bool)
  | lock (ok : Bool)
  | rename (x : Nat) (n : String)
  | remove (x : Nat)
  | add (x : Nat) (n : String)
  deriving DecidableEq, Repr

def step (S : Setup) (s : St) : Step → St
  | .start r =>
    if s.started r then s
    else match nameOf s (S.runs r).task with
      | none => s
      | some n => { s with started := Queue.setAt s.started r true, nameAt := Queue.setAt s.nameAt r n,
                           todo := Queue.setAt s.todo r (todoOf (S.runs r)) }
  | .act r ok =>
    match s.todo r with
    | [] => s
    | a :: l => perform S { s with todo := Queue.setAt s.todo r l } r ok a
  | .kill r ok =>
    if s.todo r = [] ∨ (S.runs r).exec = .main ∨ (S.runs r).exec = .thread then s
    else write { s with todo := Queue.setAt s.todo r [] } (S.runs r).task r .terminate ok
  | .handle ok =>
    match s.queue with
    | [] => s
    | m :: q =>
      let s := { s with queue := q }
      match taskNamed s m.name with
      | none => s
      | some x =>
        let s := if m.action = .success then match m.ret with
          | some v => handleReturn s x m.run v
          | none => s
          else s
        write s x m.run m.action ok
  | .lock ok =>
    match s.queue with
    | [] => s
    | m :: q =>
      let s := { s with queue := q }
      match taskNamed s m.name with
      | none => s
      | some x => write s x m.run m.action ok
  | .rename x n =>
    if (taskNamed s n).isSome then s
    else { s with tasks := s.tasks.map (fun p => if p.1 = x then (x, n) else p) }
  | .remove x => { s with tasks := s.tasks.filter (fun p => decide (p.1 ≠ x)) }
  | .add x n => if (taskNamed s n).isSome || (nameOf s x).isSome then s else { s with tasks := s.tasks ++ [(x, n)] }

/-- An execution. -/
def exec (S : Setup) (s : St) (l : List Step) : St := l.foldl (step S) s

/-- A session in which nothing has happened. -/
def St.init (tasks : List (Nat × String)) : St :=
  ⟨tasks, fun _ => none, [], fun _ => [], fun _ => false, fun _ => "", [], []⟩

/-- `session.returns[task]`, parameters.py:65-70: an argument object is asked for its value. -/
def held (S : Setup) (s : St) (x : Nat) : Except PyErr String :=
  match s.returns x with
  | none => .error .key
  | some v => match S.arg v with
    | none => .ok v
    | some e => e

/-- `Return(name, default).get_value`, args/builtin.py:170-183. -/
def readReturn (S : Setup) (s : St) (n : String) (default : Option String) : Except PyErr String :=
  match taskNamed s n with
  | none => .error .value
  | some x => match held S s x with
    | .error .key => match default with
      | none => .error .key
      | some d => .ok d
    | e => e

end Rocketry.Returned
