import Verif.Task.Bare
import Verif.Task.CronCond
import Verif.Sched.Cycles

/-!
# Model of `get_state` of the built-in conditions in a situation

What an observation looks at: the session's tasks, the log, the runs, the scheduler and the session parameters.  The
clock stands still during one observation (every reading gives the same time); the theorems about histories (C25 to C30)
are about readings that differ.
-/

namespace Rocketry

/-- What the conditions read. -/
structure Sit where
  /-- `config.force_status_from_logs` (of the default session, which is taken to be the session), conditions/task/utils.py:66,
  conditions/task/task.py:170 -/
  fromLogs : Bool
  /-- the reading of the clock -/
  now : Int
  /-- the argument `task`: the task whose start or end condition is observed, none for the shut condition -/
  self : Option String
  /-- `session.tasks`, the names -/
  tasks : List String
  /-- the log (`session.get_task_log`) -/
  repo : List Record
  /-- the times kept in the tasks (`Task._last_…`) -/
  mem : String → TaskMem
  /-- `start_cond` of the tasks -/
  startCond : String → Cond Builtin
  /-- `_run_stack` of the tasks: start of the run, whether it is alive -/
  runs : String → List (Int × Bool)
  /-- the records of the log have the field `run_id`, conditions/task/task.py:187-200 -/
  hasRunId : Bool
  /-- `scheduler.startup_time`, if it is set -/
  startup : Option Int
  /-- `scheduler.n_cycles` -/
  nCycles : Nat
  /-- `session.parameters`: key and value; none for a value that is not a text -/
  params : List (List Char × Option (List Char))

namespace Sit

/-- `session[name]`, rocketry/session.py:227-233: `KeyError` for a task that is not in the session. -/
def lookup (v : Sit) (name : String) (f : String → Except PyErr Bool) : Except PyErr Bool :=
  if name ∈ v.tasks then f name else .error .key

/-- `TaskStatusMixin.get_measurement` and `observe` for the task object `name`, conditions/task/utils.py:62-111. -/
def statusOf (v : Sit) (fuel : Nat) (acts : Acts) (comps : Comps) (period : Option Period) (name : String) : Except PyErr Bool :=
  match period with
  | some p => statusCond fuel v.fromLogs acts comps (some p) v.now name (v.mem name) v.repo
  | none => bareStatus fuel v.fromLogs acts comps (v.startCond name) v.now name (v.mem name) v.repo

/-- The same without a task: `task` is `None`, so the first use of it (utils.py:64, 72, 79, 104) raises
`AttributeError`, after the period has been rolled back. -/
def statusNone (v : Sit) (fuel : Nat) (period : Option Period) : Except PyErr Bool :=
  match period with
  | some p =>
    match Period.periodSpan fuel (some p) v.now with
    | .error e => .error e
    | .ok _ => .error .attribute
  | none => .error .attribute

/-- A status condition, utils.py:62-63: the task named, or the one passed. -/
def status (v : Sit) (fuel : Nat) (acts : Acts) (comps : Comps) (period : Option Period) :
    Option (List Char) → Except PyErr Bool
  | some t => v.lookup (String.ofList t) (v.statusOf fuel acts comps period)
  | none =>
    match v.self with
    | some name => v.statusOf fuel acts comps period name
    | none => v.statusNone fuel period

/-- The five clock readings of one `TaskExecutable.get_state` are one. -/
def reads (v : Sit) : ExecReads := ⟨v.now, v.now, v.now, v.now, v.now⟩

/-- `TaskExecutable.get_state`, conditions/task/task.py:285-311; the sub-conditions get the task object as `task`, which
they look up in the session (utils.py:63). -/
def executable (v : Sit) (fuel : Nat) (p : Period) : Except PyErr Bool :=
  match v.self with
  | none => andThen (isinPeriod fuel p v.now) (v.statusNone fuel (some p))
  | some name =>
    if name ∈ v.tasks then Rocketry.executable fuel v.fromLogs none p v.reads name (v.mem name) v.repo
    else andThen (isinPeriod fuel p v.now) (.error .key)

/-- `TaskRunnable.get_state` with a `Cron` period, task.py:346-361; the fields are read whenever the period is used
(rocketry/time/cron.py:29-35). -/
def cron (v : Sit) (fuel : Nat) (c : CronExpr) : Except PyErr Bool :=
  match v.self with
  | none => andThen (c.contains fuel v.now) (bindE (c.rollback fuel v.now) fun _ => .error .attribute)
  | some name =>
    if name ∈ v.tasks then cronRunnable fuel v.fromLogs c v.now v.now name (v.mem name) v.repo
    else andThen (c.contains fuel v.now) (.error .key)

/-- `TaskRunning.get_measurement` and `observe` without a period, task.py:167-222: `get_period_span(None)` is the time
from `TimePeriod.min` to `TimePeriod.max`. -/
def running (v : Sit) (name : String) : Except PyErr Bool :=
  let n := if v.fromLogs then runningCount v.hasRunId v.repo name (MINT, MAXT)
    else ((v.runs name).filter (fun r => r.2 && within MINT MAXT r.1)).length
  .ok (compState [] n)

/-- `_dep_actions`, task.py:389, 418, 446. -/
def depActs : DepKind → List Action
  | .success => dependSuccess
  | .failure => dependFailure
  | .finish => dependFinish

/-- `DependMixin.get_state`, utils.py:36-51. -/
def depend (v : Sit) (k : DepKind) (name : String) : Except PyErr Bool :=
  v.lookup name fun d =>
    match v.self with
    | none => .error .attribute
    | some a => .ok (dependState v.repo a d (depActs k))

/-- `IsEnv.get_state`, conditions/parameter.py:39-40. -/
def env (v : Sit) (e : List Char) : Bool :=
  match v.params.find? (fun p => decide (p.1 = c!"env")) with
  | some p => decide (p.2 = some e)
  | none => false

/-- `Cron(minute, hour, day_of_month, month, day_of_week)` from five texts, rocketry/time/cron.py:11-22. -/
def cronOf : List (List Char) → Except PyErr CronExpr
  | [mi, h, dom, mo, dow] =>
    parseCron (String.ofList mi) (String.ofList h) (String.ofList dom) (String.ofList mo) (String.ofList dow)
  | _ => .error .type

/-- `observe` of the built-in conditions (`BaseCondition.observe`, core/condition/base.py:63-67, `BaseComparable.observe`,
265-272).  `ParamExists` (conditions/parameter.py:42-104) has no `get_state` of its own, only `__bool__`: the inherited
one returns `None`, which counts as false. -/
def leaf (v : Sit) (fuel : Nat) : Builtin → Except PyErr Bool
  | .wrapper sc => v.executable fuel (.anchored ⟨sc, 0, sc.max⟩)
  | .executable p => v.executable fuel (.anchored p)
  | .executableFor past => v.executable fuel (Period.mkDelta (some past) none)
  | .isPeriod p => (Period.anchored p).contains fuel v.now
  | .status vb task period comps => v.status fuel vb.acts comps period task
  | .schedStarted past => schedulerStarted fuel (some (Period.mkDelta (some past) none)) v.startup v.now
  | .cycles comps => .ok (Sched.cyclesState comps v.nCycles)
  | .cron fields => bindE (cronOf fields) (v.cron fuel)
  | .running task => v.lookup (String.ofList task) v.running
  | .depend k task => v.depend k (String.ofList task)
  | .env e => .ok (v.env e)
  | .params _ => .ok false
  | .paramIs _ _ => .ok false

/-- The same as an observation (nothing changes). -/
def obs (v : Sit) (fuel : Nat) (b : Builtin) : Cond.Obs Unit := fun s => (v.leaf fuel b, s)

end Sit

end Rocketry
