import Verif.Spec.SchedSpec

/-!
# When a requested run has to be started
-/

namespace Rocketry.Spec
open Rocketry.Sched

/-- Nothing keeps a requested run of the task from being started: the scheduler is not on hold, the task is in the
session, is no startup or shutdown task, has a request and does not run already (unless it may run several times, or
runs in the main process). -/
structure Requested (s : Sys) (t : TaskSt) : Prop where
  on : s.enabled = true
  inSession : t.member = true
  ordinary : t.onStartup = false ∧ t.onShutdown = false
  request : t.batches ≠ []
  idle : t.execution ≠ .main → ¬ Multilaunch s.cfg t → ∀ r ∈ t.stack, r.alive = false

/-- Nobody puts the scheduler on hold, and no setup of a task fails. -/
def Untroubled (env : Nat → Choice) : Prop :=
  ∀ i, (∀ e ∈ (env i).events, e ≠ .hold true) ∧ (env i).fault ≠ some .params ∧ (env i).fault ≠ some .setup

/-- There are as many slots as tasks that are executed as processes, none of these may run several times, and no such
task is added later.  The first four hold of a session before anything was started, and ever after. -/
structure Roomy (s : Sys) (env : Nat → Choice) : Prop where
  names : (s.tasks.map TaskSt.name).Nodup
  kinds : ∀ t ∈ s.tasks, ∀ r ∈ t.stack, r.kind = t.execution ∧ r.kind ≠ .main
  strays : ∀ t ∈ s.tasks, t.strays ≠ [] → t.execution = .main
  single : ∀ t ∈ s.tasks, t.execution ≠ .main → ¬ Multilaunch s.cfg t → (liveRuns t).length ≤ 1
  once : ∀ t ∈ s.tasks, t.execution = .process → ¬ Multilaunch s.cfg t
  slots : ((s.tasks.countP (fun t => decide (t.execution = .process)) : Nat) : Int) ≤ s.cfg.maxProcess
  added : ∀ i, ∀ e ∈ (env i).events, ∀ t, e = .add t → t.execution ≠ .process

end Rocketry.Spec
