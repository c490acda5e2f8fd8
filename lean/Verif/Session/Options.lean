import Verif.Text.Duration
import Verif.Base.Dict
import Verif.Base.CharList

/-!
# Model of the options of sessions and tasks

`Config` (rocketry/session.py:42-119), `Session._get_config` (190-197), `Session.__init__` (213-225),
`Rocketry.__init__` and `Rocketry.run` (rocketry/application.py:48-62), and the places where a setting of a task falls back
to the one of its session (rocketry/core/task.py:290-298, 718, 949-952, 989, 1239-1242; rocketry/core/schedule.py:246-249).

`Config` is a pydantic (version 1) model with `validate_assignment`.  Pydantic is not part of the repository: checking a
value against the declared type of a field is a parameter (`Pyd.coerce`), and so is the parser of conditions
(`Pyd.parseCond`); what pydantic does around them (the validator of the whole dictionary first, then field by field the
validators marked `pre`, then the declared type; unknown names are dropped; defaults are checked only with
`always=True`) is written out.  Pydantic collects the errors of all the fields in a `ValidationError`; the model has the
first of them.  The first step of `Rocketry.__init__` about loggers is not modelled here (see `Session/Loggers.lean`).
-/

namespace Rocketry.Options

/-- Values of options: `None`, a boolean, a number, a text, a `timedelta` (in microseconds), or another object (a
condition, a function, a class, a timezone). -/
inductive OptVal where
  | none | bool (b : Bool) | num (q : Rat) | text (s : List Char) | span (us : Int) | obj (n : Nat)
  deriving DecidableEq

/-- `uuid` of rocketry/tasks/run_id.py, `threading.Lock` and `AlwaysFalse()`. -/
def uuidFunc : OptVal := .obj 0
@[inherit_doc uuidFunc] def lockClass : OptVal := .obj 1
@[inherit_doc uuidFunc] def alwaysFalse : OptVal := .obj 2

/-- What is outside of the repository or modelled elsewhere. -/
structure Pyd where
  /-- Check of a value against the declared type of the field. -/
  coerce : String → OptVal → Except PyErr OptVal
  /-- `parse_condition`, rocketry/parse/condition.py:21-24. -/
  parseCond : OptVal → Except PyErr OptVal
  /-- `cpu_count()` -/
  cpus : Nat

/-- The fields of `Config` and their defaults, session.py:48-77. -/
def defaults (E : Pyd) : Dict OptVal :=
  [("use_instance_naming", .bool false), ("task_priority", .num 0), ("execution", .none),
   ("task_pre_exist", .text c!"raise"), ("force_status_from_logs", .bool false),
   ("task_logger_basename", .text c!"rocketry.task"), ("scheduler_logger_basename", .text c!"rocketry.scheduler"),
   ("silence_task_prerun", .bool false), ("silence_task_logging", .bool false), ("silence_cond_check", .bool false),
   ("cycle_sleep", .num (1 / 10)), ("debug", .bool false), ("multilaunch", .bool false), ("func_run_id", uuidFunc),
   ("max_process_count", .num E.cpus), ("tasks_as_daemon", .bool true), ("restarting", .text c!"replace"),
   ("instant_shutdown", .bool false), ("timeout", .span 1800000000), ("shut_cond", .none), ("cls_lock", lockClass),
   ("param_materialize", .text c!"post"), ("timezone", .none), ("time_func", .none)]

/-- `Config.parse_timeout`, session.py:93-99 (`bool` is an `int`). -/
def parseTimeout : OptVal → Except PyErr OptVal
  | .text s => (stringToTimedelta s).map .span
  | .num q => .ok (.span (roundHalfEven (q * 1000000)))
  | .bool b => .ok (.span (if b then 1000000 else 0))
  | v => .ok v

/-- The validators marked `pre` of a field, session.py:79-99. -/
def preParse (E : Pyd) (f : String) (v : OptVal) : Except PyErr OptVal :=
  if f = "execution" then .ok (if v = .none then .text c!"async" else v)
  else if f = "shut_cond" then (if v = .none then .ok alwaysFalse else E.parseCond v)
  else if f = "timeout" then parseTimeout v
  else .ok v

/-- Validation of the value of a field. -/
def checkField (E : Pyd) (f : String) (v : OptVal) : Except PyErr OptVal := (preParse E f v).bind (E.coerce f)

/-- `Config.set_deprecated`, session.py:110-119. -/
def setDeprecated (d : Dict OptVal) : Dict OptVal :=
  match d.find "task_execution" with
  | none => d
  | some v => Dict.put (d.filter fun a => a.1 ≠ "task_execution") "execution" v

/-- One field of a new `Config`: the given value, or the default, which is checked for the fields whose validator is
marked `always` (session.py:79, 93). -/
def buildField (E : Pyd) (d : Dict OptVal) (a : String × OptVal) : Except PyErr (String × OptVal) :=
  match d.find a.1 with
  | some v => (checkField E a.1 v).map fun w => (a.1, w)
  | none =>
    if a.1 = "execution" ∨ a.1 = "timeout" then (checkField E a.1 a.2).map fun w => (a.1, w) else .ok a

/-- The fields of a new `Config`, one after another. -/
def buildFields (E : Pyd) (d : Dict OptVal) : Dict OptVal → Except PyErr (Dict OptVal)
  | [] => .ok []
  | a :: l =>
    match buildField E d a with
    | .error e => .error e
    | .ok b =>
      match buildFields E d l with
      | .error e => .error e
      | .ok bs => .ok (b :: bs)

/-- `Config(**d)`. -/
def build (E : Pyd) (d : Dict OptVal) : Except PyErr (Dict OptVal) := buildFields E (setDeprecated d) (defaults E)

/-- `config.f = v`: pydantic refuses names that are not fields. -/
def assign (E : Pyd) (c : Dict OptVal) (f : String) (v : OptVal) : Except PyErr (Dict OptVal) :=
  if f ∈ (defaults E).keys then (checkField E f v).map fun w => c.put f w else .error .value

/-- The `Config` objects of a program and the one of each session, in the order of their creation. -/
structure World where
  configs : List (Dict OptVal)
  sessions : List Nat

/-- The argument `config` of a session. -/
inductive CfgArg where
  | none | dict (d : Dict OptVal) | obj (r : Nat) | other

/-- `Session._get_config`, session.py:190-197, with the object that is in `configs` afterwards. -/
def getConfig (E : Pyd) (w : World) (arg : CfgArg) (kw : Dict OptVal) : Except PyErr (List (Dict OptVal) × Nat) :=
  match arg with
  | .none => (build E kw).map fun c => (w.configs ++ [c], w.configs.length)
  | .dict d =>
    if d.any (fun a => decide (a.1 ∈ kw.keys)) then .error .type
    else (build E (d ++ kw)).map fun c => (w.configs ++ [c], w.configs.length)
  | .obj r => if r < w.configs.length then .ok (w.configs, r) else .error .type
  | .other => .error .type

/-- What a program does. -/
inductive Op where
  /-- `Config(**kw)` -/
  | config (kw : Dict OptVal)
  /-- `Session(config=arg, **kw)` -/
  | session (arg : CfgArg) (kw : Dict OptVal)
  /-- `Rocketry(session=s, config=arg, **kw)` -/
  | app (s : Option Nat) (arg : CfgArg) (kw : Dict OptVal)
  /-- `config.f = v` -/
  | set (r : Nat) (f : String) (v : OptVal)
  /-- `app.run(debug=b)` or `app.serve(debug=b)` of an application of the session, up to the start of the session -/
  | run (s : Nat) (debug : Bool)

/-- `Session(config=arg, **kw)`, session.py:213-215; the remaining parts of a session are not modelled. -/
def newSession (E : Pyd) (w : World) (arg : CfgArg) (kw : Dict OptVal) : Except PyErr World :=
  (getConfig E w arg kw).map fun x => ⟨x.1, w.sessions ++ [x.2]⟩

/-- One operation; a failing one raises and changes nothing. -/
def step (E : Pyd) (w : World) : Op → Except PyErr World
  | .config kw => (build E kw).map fun c => ⟨w.configs ++ [c], w.sessions⟩
  | .session arg kw => newSession E w arg kw
  | .app s arg kw =>
    match s with
    | some i => if i < w.sessions.length then .ok w else .error .type
    | none => newSession E w arg kw
  | .set r f v =>
    match w.configs[r]? with
    | none => .error .type
    | some c => (assign E c f v).map fun c' => ⟨w.configs.set r c', w.sessions⟩
  | .run s b =>
    match w.sessions[s]? with
    | none => .error .type
    | some r =>
      match w.configs[r]? with
      | none => .error .type
      | some c => (assign E c "debug" (.bool b)).map fun c' => ⟨w.configs.set r c', w.sessions⟩

/-- A program; after a failing operation it goes on with the next. -/
def runOps (E : Pyd) (w : World) : List Op → World
  | [] => w
  | o :: os =>
    match step E w o with
    | .ok w' => runOps E w' os
    | .error _ => runOps E w os

/-- Reading an option, `config.f`; `task_execution` is a property, session.py:101-108. -/
def readOpt (c : Dict OptVal) (f : String) : Option OptVal :=
  if f = "task_execution" then c.find "execution" else c.find f

/-- The option of a session. -/
def World.opt (w : World) (s : Nat) (f : String) : Option OptVal :=
  match w.sessions[s]? with
  | none => none
  | some r => (w.configs[r]?).bind fun c => readOpt c f

/-- `timedelta.max` -/
def maxSpan : Int := 86399999999999999999

/-- `Task.parse_timeout`, core/task.py:290-298. -/
def taskTimeout : OptVal → Except PyErr OptVal
  | .text s => if s = c!"never" then .ok (.span maxSpan) else (stringToTimedelta s).map .span
  | .num q => .ok (.span (roundHalfEven (q * 1000000)))
  | .bool b => .ok (.span (if b then 1000000 else 0))
  | .none => .ok .none
  | .span d => .ok (.span d)
  | .obj _ => .error .type

/-- The settings of a task that have a counterpart in the session, core/task.py:214-240: those not given are `none`.
(`timeout` is the value after `Task.parse_timeout`.) -/
structure TaskOpts where
  execution : OptVal := .none
  timeout : OptVal := .none
  multilaunch : OptVal := .none
  daemon : OptVal := .none
  funcRunId : OptVal := .none
  priority : OptVal := .none

/-- `Task.get_execution`, core/task.py:1239-1242. -/
def executionOf (c : Dict OptVal) (t : TaskOpts) : Option OptVal :=
  if t.execution = .none then c.find "execution" else some t.execution

/-- `self.timeout if self.timeout else self.session.config.timeout`, core/task.py:989: `timedelta(0)` is false. -/
def timeoutOf (c : Dict OptVal) (t : TaskOpts) : Option OptVal :=
  if t.timeout = .none ∨ t.timeout = .span 0 then c.find "timeout" else some t.timeout

/-- `allow_multilaunch`, core/schedule.py:246-249. -/
def multilaunchOf (c : Dict OptVal) (t : TaskOpts) : Option OptVal :=
  if t.multilaunch = .none then c.find "multilaunch" else some t.multilaunch

/-- `daemon`, core/task.py:718. -/
def daemonOf (c : Dict OptVal) (t : TaskOpts) : Option OptVal :=
  if t.daemon ≠ .none then some t.daemon else c.find "tasks_as_daemon"

/-- The function called by `Task.get_run_id`, core/task.py:949-952. -/
def funcRunIdOf (c : Dict OptVal) (t : TaskOpts) : Option OptVal :=
  if t.funcRunId ≠ .none then some t.funcRunId else c.find "func_run_id"

/-- `task.priority`, core/task.py:225: a field with default 0.  The option `task_priority` of the session
(session.py:49) is read nowhere. -/
def priorityOf (_c : Dict OptVal) (t : TaskOpts) : Option OptVal :=
  if t.priority = .none then some (.num 0) else some t.priority

end Rocketry.Options
