import Verif.Spec.SchedSpec
import Verif.Spec.DenoteSpec

/-!
# When a task with a start text is to be started
-/

namespace Rocketry.Spec
open Sched Props

/-- Nothing stands in the way of a start in this cycle: the scheduler is not on hold, the task is no startup or shutdown
task, there is a slot for its process, and no run of it goes on (unless it may run several times, or runs in the main
process). -/
structure Unhindered (s : Sys) (t : TaskSt) : Prop where
  on : s.enabled = true
  ordinary : t.onStartup = false ∧ t.onShutdown = false
  slot : t.execution = .process → FreeSlot s
  idle : t.execution ≠ .main → ¬ Multilaunch s.cfg t → ∀ r ∈ t.stack, r.alive = false

/-- What the scheduler gets from observing the start condition: its value, or an exception. -/
def answered : Except PyErr Bool → Option Bool
  | .ok b => some b
  | .error _ => none

/-- The situation is that of the task at a check: the log and the cached times are those of the program. -/
structure SitAt (v : Sit) (name : String) (fromLogs : Bool) (w : LogWorld) (clock : Int) : Prop where
  self : v.self = some name
  mode : v.fromLogs = fromLogs
  mem : v.mem = w.mem
  repo : v.repo = w.repo
  clock : clock ≤ v.now
  last : v.now ≤ MAXT
  /-- the years are those of `datetime` -/
  times : ∀ r ∈ v.repo, MINT ≤ r.noted
  first : MINT ≤ v.now
  runs : v.fromLogs = false → ∀ n, ∀ r ∈ v.runs n, MINT ≤ r.1 ∧ r.1 ≤ MAXT
  log : v.fromLogs = true → v.hasRunId = true ∧ ∀ n, RunLog n v.repo
  params : ∀ p ∈ v.params, ∀ q ∈ v.params, p.1 = q.1 → p = q
  known : name ∈ v.tasks

end Rocketry.Spec
