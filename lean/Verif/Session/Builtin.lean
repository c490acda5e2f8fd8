import Verif.Session.Args

/-!
# Model of the arguments that represent objects of the session

`Session`, `Task`, `Config`, `TaskLogger` and `SchedulerLogger` (rocketry/args/builtin.py:72-134), alone, in the signature
of the function of a `FuncArg` (builtin.py:237-248) and in a `PipeArg` (rocketry/core/parameters/arguments.py:104-118).
Their `get_value` has arguments in its own signature (`session=Session(default=None)`); `Parameters.materialize` fills these
in by `get_kwargs` (rocketry/core/parameters/parameters.py:100-112, 213-216), other callers do not, and then `get_value`
sees the argument itself.

Objects are numbers; what a function of a `FuncArg` returns is given from outside.  The positional and keyword arguments
of a `FuncArg` are part of its function.  The warning of `TaskAdapter` for a logger that cannot be read is left out.
-/

namespace Rocketry.Builtin

open Rocketry.Args (Err)

/-- Values of arguments: None, a session, a task, the configuration of a session, a `TaskAdapter` with the name of its
logger and its task (rocketry/core/log/adapter.py:29-31), a logger, and other values. -/
inductive Obj where
  | none
  | session (s : Nat)
  | task (t : Nat)
  | config (s : Nat)
  | adapter (logger : String) (task : Option Nat)
  | logger (name : String)
  | other (v : Nat)
  deriving DecidableEq, Repr

/-- The objects: the names of the loggers in the configuration of a session (`task_logger_basename` and
`scheduler_logger_basename`), its tasks, the name, the session and the `logger_name` of a task, the session of a
scheduler, and what the functions of `FuncArg` return. -/
structure Heap where
  taskBase : Nat → String
  schedBase : Nat → String
  tasks : Nat → List Nat
  name : Nat → String
  sessionOf : Nat → Nat
  loggerName : Nat → String
  schedSession : Nat → Nat
  call : Nat → List Obj → Except Err Obj

/-- The arguments; `default` is `none` for NOTSET. -/
inductive BArg where
  /-- `Session(default)`, builtin.py:72-90 -/
  | session (default : Option Obj)
  /-- `Task(name, default)`, builtin.py:92-113 -/
  | task (name : Option String) (default : Option Obj)
  /-- `Config()`, builtin.py:115-119 -/
  | config
  /-- `TaskLogger()`, builtin.py:121-127 -/
  | taskLogger
  /-- `SchedulerLogger()`, builtin.py:129-134 -/
  | schedLogger
  /-- `FuncArg(func)`, builtin.py:191-260: the function and the arguments of its signature -/
  | func (f : Nat) (sig : List BArg)
  /-- `PipeArg(args)`, arguments.py:104-118 -/
  | pipe (args : List BArg)

/-- A keyword of a call: not passed, None, or an object. -/
inductive Slot where | unset | null | ref (n : Nat)
  deriving DecidableEq, Repr

/-- The keywords of a call of `get_value` or `materialize`. -/
structure Kw where
  task : Slot := .unset
  session : Slot := .unset
  scheduler : Slot := .unset

/-- `Session.get_value`, builtin.py:78-87; all three keywords are None when they are not passed. -/
def sessionValue (h : Heap) (kw : Kw) (default : Option Obj) : Except Err Obj :=
  match kw.session with
  | .ref s => .ok (.session s)
  | _ => match kw.scheduler with
    | .ref c => .ok (.session (h.schedSession c))
    | _ => match kw.task with
      | .ref t => .ok (.session (h.sessionOf t))
      | _ => match default with
        | some d => .ok d
        | none => .error .type

/-- `session[name]`, rocketry/session.py:227-233. -/
def lookup (h : Heap) (s : Nat) (n : String) : Except Err Obj :=
  match (h.tasks s).find? (fun t => h.name t == n) with
  | some t => .ok (.task t)
  | none => .error .key

/-- `Task.get_value`, builtin.py:99-110.  When `session` is not passed it is an argument, which has no items: TypeError;
when it is None, the task is asked, and `None.session` raises AttributeError. -/
def taskValue (h : Heap) (kw : Kw) (name : Option String) (default : Option Obj) : Except Err Obj :=
  match name with
  | none => match kw.task with
    | .ref t => .ok (.task t)
    | _ => match default with
      | some d => .ok d
      | none => .error .type
  | some n => match kw.session with
    | .ref s => lookup h s n
    | .unset => .error .type
    | .null => match kw.task with
      | .ref t => lookup h (h.sessionOf t) n
      | _ => .error .attr

/-- `Config.get_value`, builtin.py:118-119: neither an argument nor None has a `config`. -/
def configValue (kw : Kw) : Except Err Obj :=
  match kw.session with
  | .ref s => .ok (.config s)
  | _ => .error .attr

/-- `TaskLogger.get_value`, builtin.py:124-127, with `TaskAdapter.__init__`, adapter.py:29-31.  When `task` is not passed
it is an argument, `Task(default=None)`, whose `name` is None: the adapter is for no task, as with None. -/
def taskLoggerValue (h : Heap) (kw : Kw) : Except Err Obj :=
  let task := match kw.task with
    | .ref t => some t
    | _ => none
  match kw.session with
  | .ref s => .ok (.adapter (h.taskBase s) task)
  | .null => .ok (.adapter "rocketry.task" task)
  | .unset => .error .attr

/-- `SchedulerLogger.get_value`, builtin.py:132-134. -/
def schedLoggerValue (h : Heap) (kw : Kw) : Except Err Obj :=
  match kw.session with
  | .ref s => .ok (.logger (h.schedBase s))
  | .null => .ok (.logger "rocketry.scheduler")
  | .unset => .error .attr

/-- The keyword that the value of an argument makes. -/
def toSlot : Obj → Slot
  | .session s => .ref s
  | .task t => .ref t
  | _ => .null

/-- `{**sig_kwargs, **kwargs}`, parameters.py:216: what is passed goes before what the signature gives. -/
def Slot.over (given sig : Slot) : Slot :=
  match given with
  | .unset => sig
  | s => s

/-- `get_kwargs(value.get_value, **kwargs)`, parameters.py:213-216, for the signatures of builtin.py:78, 99, 118, 124, 132,
242 and arguments.py:112.  The arguments of the signature are evaluated also when the keyword is passed. -/
def fill (h : Heap) (kw : Kw) : BArg → Except Err Kw
  | .config => match sessionValue h kw none with
    | .error e => .error e
    | .ok s => .ok { kw with session := kw.session.over (toSlot s) }
  | .task _ _ | .schedLogger => match sessionValue h kw (some .none) with
    | .error e => .error e
    | .ok s => .ok { kw with session := kw.session.over (toSlot s) }
  | .taskLogger => match sessionValue h kw (some .none) with
    | .error e => .error e
    | .ok s => match taskValue h { kw with session := kw.session.over (toSlot s) } none (some .none) with
      | .error e => .error e
      | .ok t => .ok { kw with session := kw.session.over (toSlot s), task := kw.task.over (toSlot t) }
  | _ => .ok kw

mutual
/-- `get_value(**kwargs)`; for a `FuncArg` builtin.py:242-248, for a `PipeArg` arguments.py:112-118. -/
def getValue (h : Heap) : Kw → BArg → Except Err Obj
  | kw, .session d => sessionValue h kw d
  | kw, .task n d => taskValue h kw n d
  | kw, .config => configValue kw
  | kw, .taskLogger => taskLoggerValue h kw
  | kw, .schedLogger => schedLoggerValue h kw
  | kw, .func f sig => match matList h kw sig with
    | .error e => .error e
    | .ok vs => h.call f vs
  | kw, .pipe l => firstVal h kw l
/-- `Parameters.materialize`, parameters.py:100-112: the values in order, or the first exception. -/
def matList (h : Heap) : Kw → List BArg → Except Err (List Obj)
  | _, [] => .ok []
  | kw, a :: l => match fill h kw a with
    | .error e => .error e
    | .ok kw' => match getValue h kw' a with
      | .error e => .error e
      | .ok v => match matList h kw l with
        | .error e => .error e
        | .ok vs => .ok (v :: vs)
/-- The loop of `PipeArg.get_value`, arguments.py:113-118. -/
def firstVal (h : Heap) : Kw → List BArg → Except Err Obj
  | _, [] => .error .key
  | kw, a :: l => match getValue h kw a with
    | .error .key => firstVal h kw l
    | r => r
end

/-- One entry of `Parameters.materialize`, parameters.py:106-112. -/
def materialized (h : Heap) (kw : Kw) (a : BArg) : Except Err Obj :=
  match fill h kw a with
  | .error e => .error e
  | .ok kw' => getValue h kw' a

/-- The places where the arguments of a task or of a condition are evaluated. -/
inductive Site where
  /-- `_run_as_async`, core/task.py:593: parameters of a task on main or async -/
  | main
  /-- `run_as_thread` and `run_as_process`, core/task.py:663-664, 712-713: parameters of a task in a thread or process -/
  | staged
  /-- `is_runnable`, core/task.py:566: arguments in a start condition -/
  | start
  /-- `_is_terminated`, core/task.py:975: arguments in an end condition -/
  | finish
  deriving DecidableEq, Repr

/-- What the argument is evaluated to at a place, for task `t`.  `stage`, arguments.py:49-78, is `get_value` with the
keywords as they are (core/parameters/parameters.py:91-97); a `FuncArg` that is left to the child is in
`Session/Where.lean`.  Conditions: `BaseCondition.observe` and `FuncCond.observe`, core/condition/base.py:63-67,
conditions/func.py:101-104. -/
def valueAt (h : Heap) (t : Nat) : Site → BArg → Except Err Obj
  | .main, a => materialized h { task := .ref t, session := .ref (h.sessionOf t) } a
  | .staged, a => getValue h { task := .ref t, session := .ref (h.sessionOf t) } a
  | .start, a => materialized h { task := .ref t } a
  | .finish, a => materialized h { task := .ref t, session := .ref (h.sessionOf t) } a

/-- The value in the condition of the scheduler to shut down, core/schedule.py:197. -/
def valueShut (h : Heap) (c : Nat) (a : BArg) : Except Err Obj :=
  materialized h { scheduler := .ref c, session := .ref (h.schedSession c) } a

/-- `repr` and `==` of `BaseArgument`, arguments.py:80-88, and `Parameters.__getitem__`, parameters.py:83-85:
`get_value()` without keywords. -/
def shown (h : Heap) (a : BArg) : Except Err Obj := getValue h {} a

/-- The logger of a run in a process, core/task.py:755-768. -/
def processLogger (own : String) : String := own ++ "._process"

/-- Whether a record of the logger `name` gets to the queue of the process: its logger is the one with the handler
(core/task.py:757-764) or one below it.  Simplified: loggers below it propagate. -/
def reachesQueue (own name : String) : Prop :=
  name = processLogger own ∨ ∃ rest, name = processLogger own ++ "." ++ rest

end Rocketry.Builtin
