/-!
# Model of the task log of a session: which records it shows, and whose clock they carry

`Session.get_task_loggers`, `get_task_log`, `_wrap_log_record_creation`, `get_time` (rocketry/session.py:369-380, 462-511,
600-618), `TaskAdapter._get_repo`, `_modify_record` (rocketry/core/log/adapter.py:36-45, 93-100) and `Task.logger`,
`Task.parse_logger_name` (rocketry/core/task.py:275-303), over the loggers of Python's `logging`.

Simplified: the loggers, their handlers and their levels do not change while records are logged; every level passes.  A
handler is the repository it writes to, or none if it cannot be read.  A name is a list of characters.  Reading all records
of a repository gives them in the order in which they were written (an in-memory repository).
-/

namespace Rocketry.Session

/-- The name of a logger. -/
abbrev LogName := List Char

/-- An entry of `logging.root.manager.loggerDict`: a placeholder stands for a parent nobody has asked for. -/
structure Lg where
  name : LogName
  placeholder : Bool
  handlers : List (Option Nat)
  propagate : Bool
  deriving DecidableEq, Repr

/-- A record: the task, a number to tell records apart, the time. -/
structure LRec where
  task : String
  num : Nat
  created : Int
  deriving DecidableEq, Repr

/-- The loggers, the handlers of the root logger, and the repositories. -/
structure LogWorld where
  loggers : List Lg
  root : List (Option Nat)
  repos : Nat → List LRec

/-- The names above a name, nearest first (Python's `logging.Manager`: the text before each dot, from the right). -/
def above (n : LogName) : List LogName :=
  (List.range n.length).reverse.filterMap (fun k => if n[k]? = some '.' then some (n.take k) else none)

/-- The logger of a name. -/
def LogWorld.get (w : LogWorld) (n : LogName) : Option Lg := w.loggers.find? (fun l => decide (l.name = n))

/-- Python's `Logger.callHandlers`: the repositories a record goes to, on the way up. -/
def LogWorld.upward (w : LogWorld) : List LogName → List Nat
  | [] => w.root.filterMap id
  | n :: ns => match w.get n with
    | none => w.upward ns
    | some l => if l.placeholder then w.upward ns
      else l.handlers.filterMap id ++ (if l.propagate then w.upward ns else [])

/-- The repositories that get a record logged with the logger of a name. -/
def LogWorld.sinks (w : LogWorld) (n : LogName) : List Nat := w.upward (n :: above n)

/-- `logger.info(...)`, task.py:1179-1184. -/
def LogWorld.log (w : LogWorld) (n : LogName) (r : LRec) : LogWorld :=
  { w with repos := fun k => w.repos k ++ List.replicate ((w.sinks n).count k) r }

/-- A sequence of log calls. -/
def LogWorld.logs : LogWorld → List (LogName × LRec) → LogWorld
  | w, [] => w
  | w, x :: l => (w.log x.1 x.2).logs l

/-- `TaskAdapter._get_repo`, adapter.py:93-100 (`none`: AttributeError). -/
def Lg.repo (l : Lg) : Option Nat := l.handlers.findSome? id

/-- `get_task_loggers`, session.py:479-487. -/
def LogWorld.taskLoggers (w : LogWorld) (base : LogName) : List Lg :=
  w.loggers.filter (fun l => base.isPrefixOf l.name && !l.placeholder && !("_process".toList).isSuffixOf l.name)

/-- The records of some loggers one after the other, session.py:505-509 (`none`: AttributeError). -/
def LogWorld.chained (w : LogWorld) : List Lg → Option (List LRec)
  | [] => some []
  | l :: ls => match l.repo with
    | none => none
    | some k => match w.chained ls with
      | none => none
      | some rs => some (w.repos k ++ rs)

/-- `get_task_log()`, session.py:490-509. -/
def LogWorld.taskLog (w : LogWorld) (base : LogName) : Option (List LRec) := w.chained (w.taskLoggers base)

/-- `task.logger.get_records()`, adapter.py:53-79: the records of the task in the repository of its own logger. -/
def LogWorld.taskRecords (w : LogWorld) (n : LogName) (task : String) : Option (List LRec) :=
  match w.get n with
  | none => none
  | some l => l.repo.map (fun k => (w.repos k).filter (fun r => decide (r.task = task)))

/-! ### the clock -/

/-- A session: the base name of its loggers and whether it has a clock of its own (`time_func`). -/
structure ClockSession where
  base : LogName
  own : Bool
  deriving DecidableEq, Repr

/-- The sessions, and for each logger the session whose clock was put into its `makeRecord`
(`__rocketry_wrapped__`). -/
structure ClockSt where
  sessions : List ClockSession
  wrapped : LogName → Option Nat

/-- The clock a reading comes from: the time function of a session, or the real time. -/
inductive ClockSource where
  | real
  | session (i : Nat)
  deriving DecidableEq, Repr

/-- `get_time`, session.py:608-612. -/
def ClockSt.time (s : ClockSt) (i : Nat) : ClockSource := if (s.sessions[i]?.map (·.own)).getD false then .session i else .real

/-- `get_current_time`, session.py:600-606. -/
def ClockSt.currentTime (_ : ClockSt) (_ : Nat) : ClockSource := .real

/-- `_wrap_log_record_creation`, session.py:369-380, called at the start of the scheduler of a session
(session.py:244-260, 342-344). -/
def ClockSt.start (s : ClockSt) (i : Nat) : ClockSt :=
  match s.sessions[i]? with
  | none => s
  | some x => if x.own && (s.wrapped x.base).isNone then
      { s with wrapped := fun n => if n = x.base then some i else s.wrapped n }
    else s

/-- The clock of the time `created` of a record logged with the logger of a name, adapter.py:36-45: `makeRecord` is an
attribute of the one logger. -/
def ClockSt.created (s : ClockSt) (n : LogName) : ClockSource :=
  match s.wrapped n with
  | none => .real
  | some i => s.time i

/-- The sessions whose schedulers were started, in this order. -/
def ClockSt.starts : ClockSt → List Nat → ClockSt
  | s, [] => s
  | s, i :: l => (s.start i).starts l

end Rocketry.Session
