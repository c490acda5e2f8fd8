import Verif.Task.Situation

/-!
# Specification for C95: which tasks a condition is about
-/

namespace Rocketry.Spec
open Rocketry

/-- The tasks that a condition names. -/
def namedTasks : Builtin → List String
  | .status _ (some t) _ _ => [String.ofList t]
  | .running t => [String.ofList t]
  | .depend _ t => [String.ofList t]
  | _ => []

/-- A task is named somewhere in a condition. -/
inductive NamesTask (n : String) : Cond Builtin → Prop
  | leaf {b : Builtin} : n ∈ namedTasks b → NamesTask n (.leaf b)
  | any {cs : List (Cond Builtin)} {c : Cond Builtin} : c ∈ cs → NamesTask n c → NamesTask n (.any cs)
  | all {cs : List (Cond Builtin)} {c : Cond Builtin} : c ∈ cs → NamesTask n c → NamesTask n (.all cs)
  | not {c : Cond Builtin} : NamesTask n c → NamesTask n (.not c)

/-- Two situations show the same of a task: the same records in the same order, the same times kept, the same runs and start
condition. -/
structure SameTask (v w : Sit) (n : String) : Prop where
  records : v.repo.filter (fun r => decide (r.task = n)) = w.repo.filter (fun r => decide (r.task = n))
  mem : v.mem n = w.mem n
  start : v.startCond n = w.startCond n
  runs : v.runs n = w.runs n

/-- Two situations show the same of the task that is asked about and of the tasks of the session that `P` holds of; they also have the
same options, clock, scheduler and session parameters. -/
structure SameOf (P : String → Prop) (v w : Sit) : Prop where
  fromLogs : v.fromLogs = w.fromLogs
  now : v.now = w.now
  self : v.self = w.self
  hasRunId : v.hasRunId = w.hasRunId
  startup : v.startup = w.startup
  nCycles : v.nCycles = w.nCycles
  params : v.params = w.params
  selfTask : ∀ n, v.self = some n → (n ∈ v.tasks ↔ n ∈ w.tasks) ∧ SameTask v w n
  named : ∀ n, P n → (n ∈ v.tasks ↔ n ∈ w.tasks) ∧ (n ∈ v.tasks → SameTask v w n)

end Rocketry.Spec
