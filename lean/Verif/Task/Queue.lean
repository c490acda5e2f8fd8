import Verif.Task.Log

/-!
# Model of the log queue: records sent by task processes

`Scheduler.handle_logs` (rocketry/core/schedule.py:255-287), `Task._lock_to_run_log` (rocketry/core/task.py:1039-1072)
and the part of `Task._set_status` (1148-1195) that runs in the processes.  A `multiprocessing.Queue` has a buffer in
each sending process, from which a thread writes to the common pipe: records of one process arrive in the order in
which they were logged, those of different processes in any order; what is still in the buffer of a process that is
terminated is lost.
-/

namespace Rocketry.Queue
open Rocketry

/-- A record on its way.  `proc` identifies the sending process, `task` is `record.task_name`, `ret` is
`record.__return__` (a value stands for itself). -/
structure Msg where
  proc : Nat
  task : String
  action : Action
  ret : Option String
  deriving DecidableEq, Repr

/-- Who takes records from the queue. -/
inductive Reader where | scheduler | lock
  deriving DecidableEq, Repr

/-- A record handed to `log_record` of the task called `task`; `ok`: the logger accepted it. -/
structure Entry where
  task : String
  msg : Msg
  reader : Reader
  ok : Bool
  deriving DecidableEq, Repr

/-- What happens outside of the scheduler. -/
inductive Env where
  /-- process `p` logs an action; `v` is the return value of a success -/
  | logs (p : Nat) (a : Action) (v : String)
  /-- the feeder thread of process `p` writes the next record to the pipe -/
  | feeds (p : Nat)
  /-- process `p` is terminated -/
  | dies (p : Nat)
  /-- `session.remove_task` -/
  | remove (task : String)
  deriving DecidableEq, Repr

/-- What is observed of an execution. -/
inductive Obs where
  | sent (m : Msg)
  | arrived (m : Msg)
  | died (p : Nat)
  | removed (task : String)
  deriving DecidableEq, Repr

/-- The session: `tasks` are the names of its tasks, `silence` is `silence_task_logging`, `returns` is
`session.returns`, `written` what was handed to the loggers. -/
structure St where
  tasks : List String
  silence : Bool
  dead : Nat → Bool
  buffer : Nat → List Msg
  queue : List Msg
  written : List Entry
  returns : String → Option String
  trace : List Obs

/-- `f` changed at `a`. -/
def setAt {α β : Type} [DecidableEq α] (f : α → β) (a : α) (b : β) : α → β := fun x => if x = a then b else f x

/-- The record made by `_set_status` in the process (core/task.py:1148-1176) and the logger adapter of the task
(core/log/adapter.py:47-51): only successes carry the return value.  `name` is the task of the process. -/
def message (name : String) (p : Nat) (a : Action) (v : String) : Msg :=
  ⟨p, name, a, if a = .success then some v else none⟩

/-- The effect of an event; `taskOf` gives the task of each process. -/
def St.happen (taskOf : Nat → String) (s : St) : Env → St
  | .logs p a v =>
    if s.dead p then s
    else { s with buffer := setAt s.buffer p (s.buffer p ++ [message (taskOf p) p a v]),
                  trace := s.trace ++ [.sent (message (taskOf p) p a v)] }
  | .feeds p => match s.buffer p with
    | [] => s
    | m :: l => { s with buffer := setAt s.buffer p l, queue := s.queue ++ [m], trace := s.trace ++ [.arrived m] }
  | .dies p => { s with dead := setAt s.dead p true, buffer := setAt s.buffer p [], trace := s.trace ++ [.died p] }
  | .remove n => { s with tasks := s.tasks.filter (fun x => decide (x ≠ n)), trace := s.trace ++ [.removed n] }

inductive Res where | ok | raised | cut
  deriving DecidableEq, Repr

/-- `Task.log_record`, core/task.py:1104-1128 (the status is the subject of `Verif/Task/Log.lean`). -/
def St.logRecord (s : St) (task : String) (m : Msg) (reader : Reader) (ok : Bool) : St :=
  { s with written := s.written ++ [⟨task, m, reader, ok⟩] }

/-- `Task._handle_return`, core/task.py:1334-1336. -/
def St.handleReturn (s : St) (task : String) (v : Option String) : St := { s with returns := setAt s.returns task v }

/-- What happens before a record is taken from the queue, and how this goes: `fails`: the logger raises an exception;
`alive`: some run of the task is alive (only asked when the queue stays empty). -/
structure Round where
  events : List Env
  fails : Bool
  alive : Bool

/-- `Scheduler.handle_logs`, schedule.py:255-287, with `_log_task` 510-517; the changes of the texts of failure
records are in `Verif/Task/RecordText.lean`.  One round for each `queue.get`. -/
def handleLogs (taskOf : Nat → String) : List Round → St → Res × St
  | [], s => (.cut, s)
  | r :: l, s =>
    let s := r.events.foldl (St.happen taskOf) s
    match s.queue with
    | [] => (.ok, s)
    | m :: q =>
      let s := { s with queue := q }
      if m.task ∈ s.tasks then
        let s := if m.action = .success then s.handleReturn m.task m.ret else s
        let s := s.logRecord m.task m .scheduler (!r.fails)
        if r.fails && !s.silence then (.raised, s) else handleLogs taskOf l s
      else (.raised, s)

/-- `Task._lock_to_run_log`, core/task.py:1039-1072; `err`: an exception was put aside. -/
def lockToRunLog (taskOf : Nat → String) : List Round → Bool → St → Res × St
  | [], _, s => (.cut, s)
  | r :: l, err, s =>
    let s := r.events.foldl (St.happen taskOf) s
    match s.queue with
    | [] => if r.alive then lockToRunLog taskOf l err s else (.raised, s)
    | m :: q =>
      let s := { s with queue := q }
      if m.task ∈ s.tasks then
        let s := s.logRecord m.task m .lock (!r.fails)
        let err := err || r.fails
        if m.action = .run then (if err then .raised else .ok, s) else lockToRunLog taskOf l err s
      else (.raised, s)

/-- A step of an execution. -/
inductive Step where
  | env (e : Env)
  | handle (l : List Round)
  | start (l : List Round)

def step (taskOf : Nat → String) (s : St) : Step → St
  | .env e => s.happen taskOf e
  | .handle l => (handleLogs taskOf l s).2
  | .start l => (lockToRunLog taskOf l false s).2

/-- An execution. -/
def exec (taskOf : Nat → String) (s : St) (l : List Step) : St := l.foldl (step taskOf) s

/-- Nothing was sent yet. -/
def St.init (tasks : List String) (silence : Bool) : St :=
  ⟨tasks, silence, fun _ => false, fun _ => [], [], [], fun _ => none, []⟩

end Rocketry.Queue
