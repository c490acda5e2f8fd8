import Verif.Text.CondItems

/-!
# Model of the condition functions and objects of `rocketry/conditions/api.py`

Arguments that name points of time are given as values (`AVal`), durations as texts.
-/

namespace Rocketry.Api

/-- A `TimeCondWrapper`, api.py:31-36: the class of the condition with its keyword arguments and the class of the
period. -/
structure TimeWrapper where
  make : Anchored → Builtin
  sc : Scope

/-- `_get_cond(period)`, api.py:72-73. -/
def TimeWrapper.cond (w : TimeWrapper) (p : Except PyErr Anchored) : Except PyErr (Cond Builtin) :=
  bindE p fun a => .ok (.leaf (w.make a))

/-- `between(start, end)`, api.py:38-40. -/
def TimeWrapper.between (w : TimeWrapper) (a b : AVal) := w.cond (Anchored.init w.sc (some a) (some b))

/-- `before(end)`, api.py:42-44. -/
def TimeWrapper.before (w : TimeWrapper) (b : AVal) := w.cond (Anchored.init w.sc none (some b))

/-- `after(start)`, api.py:46-48. -/
def TimeWrapper.after (w : TimeWrapper) (a : AVal) := w.cond (Anchored.init w.sc (some a) none)

/-- `at(span)` and `on(span)`, api.py:50-57. -/
def TimeWrapper.at (w : TimeWrapper) (a : AVal) := w.cond (Anchored.init w.sc (some a) none (timePoint := true))

/-- `starting(start)`, api.py:59-61. -/
def TimeWrapper.starting (w : TimeWrapper) (a : AVal) := w.cond (Anchored.starting w.sc a)

/-- `get_cond()`, api.py:67-70: what is observed when the wrapper itself is (63-65). -/
def TimeWrapper.whole (w : TimeWrapper) := w.cond (Anchored.init w.sc none none)

/-- `secondly`, `minutely`, `hourly`, `daily`, `weekly`, `monthly`, api.py:204-209. -/
def executing (sc : Scope) : TimeWrapper := ⟨.executable, sc⟩

/-- `time_of_second`, …, `time_of_month`, api.py:214-219. -/
def timeOf (sc : Scope) : TimeWrapper := ⟨.isPeriod, sc⟩

/-- A `TimeActionWrapper`, api.py:81-85: `started`, `failed`, `succeeded`, `finished` (290-293). -/
structure ActionWrapper where
  verb : Verb
  task : Option (List Char)

/-- `failed(task)`, api.py:91-92. -/
def ActionWrapper.call (w : ActionWrapper) (task : List Char) : ActionWrapper := { w with task := some task }

/-- `this_minute`, `this_hour`, `this_day`, `today`, `this_week`, `this_month`, api.py:94-119. -/
def ActionWrapper.this (w : ActionWrapper) (sc : Scope) : TimeWrapper :=
  ⟨fun p => .status w.verb w.task (some (.anchored p)) [], sc⟩

/-- `get_cond()`, api.py:121-123: what is observed when the wrapper itself is (87-89). -/
def ActionWrapper.whole (w : ActionWrapper) : Cond Builtin := .leaf (.status w.verb w.task none [])

/-- `every(past, based)`, api.py:221-231. -/
def every (past : List Char) (based : String) : Except PyErr (Cond Builtin) :=
  if based = "run" then bindE (readDelta past) fun us => .ok (.leaf (.status .started none (some (.delta us 0)) [(.eq, 0)]))
  else if based = "success" then
    bindE (readDelta past) fun us => .ok (.leaf (.status .succeeded none (some (.delta us 0)) [(.eq, 0)]))
  else if based = "fail" then
    bindE (readDelta past) fun us => .ok (.leaf (.status .failed none (some (.delta us 0)) [(.eq, 0)]))
  else if based = "finish" then bindE (readDelta past) fun us => .ok (.leaf (.executableFor us))
  else .error .value

/-- `cron(expr)`, api.py:233-240. -/
def cron (expr : List Char) : Except PyErr (Cond Builtin) :=
  if expr = [] then .ok (.leaf (.cron (List.replicate 5 ['*'])))
  else bindE (cronFields expr) fun fs => .ok (.leaf (.cron fs))

/-- `after_success(task)`, `after_fail(task)`, `after_finish(task)`, api.py:254-261. -/
def after (k : DepKind) (task : List Char) : Cond Builtin := .leaf (.depend k task)

/-- `after_all_success(*tasks)` etc., api.py:264-271. -/
def afterAll (k : DepKind) (tasks : List (List Char)) : Cond Builtin := Cond.mkAll (tasks.map (after k))

/-- `after_any_success(*tasks)` etc., api.py:274-281. -/
def afterAny (k : DepKind) (tasks : List (List Char)) : Cond Builtin := Cond.mkAny (tasks.map (after k))

/-- `running(task)`, api.py:145-156, 173-175. -/
def running (task : List Char) : Cond Builtin := .leaf (.running task)

/-- `scheduler_cycles(more_than, less_than)`, api.py:301-307. -/
def schedulerCycles (more less : Option Int) : Cond Builtin :=
  .leaf (.cycles ((match more with | some n => [(.gt, n)] | none => []) ++ (match less with | some n => [(.lt, n)] | none => [])))

/-- `true`, `false`, api.py:198-199. -/
def const (b : Bool) : Cond Builtin := if b then .alwaysTrue else .alwaysFalse

end Rocketry.Api
