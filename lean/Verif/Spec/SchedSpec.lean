import Verif.Sched.State

/-!
# Specification vocabulary for the scheduler
-/

namespace Rocketry.Spec
open Rocketry.Sched

/-- All runs of the task that were started and are not over. -/
def liveRuns (t : TaskSt) : List Run := (t.stack ++ t.strays).filter Run.alive

/-- Number of processes of tasks that are alive, whether or not the tasks are still in the session. -/
def liveProcesses (s : Sys) : Nat := (s.tasks.map (fun t => (liveRuns t).countP (fun r => decide (r.kind = .process)))).sum

/-- Multiple launch is allowed for the task: by its own setting or, if it has none, by the session's. -/
def Multilaunch (cfg : Config) (t : TaskSt) : Prop :=
  t.multilaunch = some true ∨ (t.multilaunch = none ∧ cfg.multilaunch = true)

/-- A session before anything was started. -/
structure Fresh (s : Sys) : Prop where
  names : (s.tasks.map TaskSt.name).Nodup
  stacks : ∀ t ∈ s.tasks, t.stack = [] ∧ t.strays = []
  members : ∀ t ∈ s.tasks, t.member = true

/-! ## The order of events in an execution -/

/-- The parts of an execution: before a session or after it is over, the startup, the cycles, the shutdown. -/
inductive Phase where | off | startup | cycles | closing
  deriving DecidableEq, Repr

/-- What happened so far in this session: its part, the tasks started in the startup or in the shutdown, and whether
shutdown was requested. -/
structure Progress where
  phase : Phase
  seen : List String
  asked : Bool
  deriving DecidableEq, Repr

/-- What may happen next: a session begins with its startup, in which each task is started at most once; cycles follow,
but none after a request to shut down; then comes the shutdown, in which each task is started at most once; then
another session. -/
def Progress.step (p : Progress) : Obs → Option Progress
  | .serve => if p.phase = .off ∨ p.phase = .closing then some ⟨.startup, [], false⟩ else none
  | .cycle => if (p.phase = .startup ∨ p.phase = .cycles) ∧ p.asked = false then some { p with phase := .cycles } else none
  | .shutdown => if p.phase = .startup ∨ p.phase = .cycles then some { p with phase := .closing, seen := [] } else none
  | .started n _ .startup => if p.phase = .startup ∧ n ∉ p.seen then some { p with seen := n :: p.seen } else none
  | .started _ _ .cycle => if p.phase = .cycles then some p else none
  | .started n _ .shutdown => if p.phase = .closing ∧ n ∉ p.seen then some { p with seen := n :: p.seen } else none
  | .env (.shutDown _) => some { p with asked := true }
  | _ => some p

/-- The progress after all that was observed, if everything came in order. -/
def progress (l : List Obs) : Option Progress := l.foldlM Progress.step ⟨.off, [], false⟩

/-- The task belongs into this part of a session. -/
def Belongs : Part → TaskSt → Prop
  | .startup, t => t.onStartup = true
  | .cycle, t => t.onStartup = false ∧ t.onShutdown = false
  | .shutdown, t => t.onShutdown = true

/-! ## Termination -/

/-- The time after which a run of the task is too old: the task's own timeout or, if it has none, the session's. -/
def TimeoutIs (cfg : Config) (t : TaskSt) (x : Int) : Prop :=
  t.timeout = some x ∨ (t.timeout = none ∧ x = cfg.timeout)

/-- The end condition holds; one that cannot be evaluated counts as true if such errors are silenced. -/
def EndCond (cfg : Config) (c : Choice) : Prop := c.cond = some true ∨ (c.cond = none ∧ cfg.silenceCond = true)

/-- The run must be terminated now: on request, by the end condition, or for its age. -/
def MustEnd (cfg : Config) (c : Choice) (t : TaskSt) (r : Run) : Prop :=
  (t.forceTerm = true ∧ (c.cond ≠ none ∨ cfg.silenceCond = true)) ∨ EndCond cfg c ∨
    (c.cond ≠ none ∧ t.permanent = false ∧ ∃ x, TimeoutIs cfg t x ∧ c.time - r.start > x)

/-! ## Shutdown -/

/-- No run that the scheduler tracks is alive. -/
def NoneTracked (s : Sys) : Prop := ∀ t ∈ s.tasks, t.member = true → ∀ r ∈ t.stack, r.alive = false

/-- The shutdown leaves running tasks time to finish: it is neither immediate nor forced, and was not caused by an
error. -/
def Waits (s : Sys) (e : Option Exc) : Prop :=
  s.cfg.instantShutdown = false ∧ s.forceExit = false ∧ (e = none ∨ e = some .restart)

/-- Why the run `p` of a task was terminated while the shutdown waits: in one of the states `l` its task was permanent
or the run had to end then (or the task has a timeout of zero). -/
def Why (l : List Sys) (env : Nat → Choice) (p : String × Nat) : Prop :=
  ∃ x ∈ l, ∃ t ∈ x.tasks, t.name = p.1 ∧ ∃ r ∈ t.stack, r.id = p.2 ∧
    (t.permanent = true ∨ t.timeout = some 0 ∨ ∃ i, MustEnd x.cfg (env i) t r)

/-! ## Starting in a cycle -/

/-- The starts in `l`. -/
def starts (l : List Obs) : List (String × Part) :=
  l.filterMap (fun o => match o with | .started n _ part => some (n, part) | _ => none)

/-- Fewer processes than allowed are alive, as far as tracked. -/
def FreeSlot (s : Sys) : Prop :=
  (((s.tasks.filter TaskSt.member).flatMap TaskSt.stack).countP (fun r => decide (r.kind = .process) && r.alive) : Int) <
    s.cfg.maxProcess

/-- The task is to be started in this cycle, `c` being the start condition: the scheduler is not on hold; the task is
no startup or shutdown task, does not run already (unless it may do so several times, or runs in the main process)
and there is a slot for its process; a manual run is pending, or the task is enabled and its condition holds. -/
structure MayStart (s : Sys) (t : TaskSt) (c : Option Bool) : Prop where
  on : s.enabled = true
  ordinary : t.onStartup = false ∧ t.onShutdown = false
  slot : t.execution = .process → FreeSlot s
  idle : t.execution ≠ .main → ¬ Multilaunch s.cfg t → ∀ r ∈ t.stack, r.alive = false
  due : t.batches ≠ [] ∨ (t.disabled = false ∧ c = some true)

/-- The same, without regard to whether the scheduler is on hold and whether the task is started at startup or
shutdown. -/
structure Ready (s : Sys) (t : TaskSt) (c : Option Bool) : Prop where
  slot : t.execution = .process → FreeSlot s
  idle : t.execution ≠ .main → ¬ Multilaunch s.cfg t → ∀ r ∈ t.stack, r.alive = false
  due : t.batches ≠ [] ∨ (t.disabled = false ∧ c = some true)

/-- A task that is started at startup or shutdown is to be started: it does not run already and there is a slot for its
process; a manual run is pending, or the task is enabled and either has no start condition at all or has one that
holds. -/
structure SpecialDue (s : Sys) (t : TaskSt) (c : Option Bool) : Prop where
  slot : t.execution = .process → FreeSlot s
  idle : t.execution ≠ .main → ¬ Multilaunch s.cfg t → ∀ r ∈ t.stack, r.alive = false
  due : t.batches ≠ [] ∨ (t.disabled = false ∧ (t.noCond = true ∨ c = some true))

/-- The tasks inspected in `l`, in this order. -/
def inspections (l : List Obs) : List String :=
  l.filterMap (fun o => match o with | .inspected n => some n | _ => none)

/-! ## Manual runs -/

/-- The requests for runs of the task `n`; `none` as long as there is no such task. -/
def asked (n : String) (start : Option (List Batch)) (l : List Obs) : Option (List Batch) :=
  l.foldl (fun a o => match o with
    | .env (.request m b) => if m = n then a.map (· ++ [b]) else a
    | .env (.add t) => if t.name = n then some (a.getD []) else a
    | _ => a) start

/-- The requests taken from the queue of the task `n`. -/
def taken (n : String) (l : List Obs) : List Batch :=
  l.filterMap (fun o => match o with | .popped m b => if m = n then some b else none | _ => none)

/-- The parameters requested for the runs of the task `n`: the request was taken and the run started right away. -/
def servedWith (n : String) (l : List Obs) : List Batch × Option Batch :=
  l.foldl (fun a o => match o with
    | .popped m b => (a.1, if m = n then some b else none)
    | .started m _ _ => (if m = n then a.1 ++ a.2.toList else a.1, none)
    | _ => (a.1, none)) ([], none)

/-- The requests that led to a run, in the order of the runs. -/
def served (n : String) (l : List Obs) : List Batch := (servedWith n l).1

end Rocketry.Spec
