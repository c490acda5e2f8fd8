import Verif.Spec.DenoteSpec
import Verif.Sched.Scheduler

/-!
# When a session with a shut text is to be shut down
-/

namespace Rocketry.Spec
open Sched Props

/-- The situation is that of the session at a check of its shut condition: the log and the cached times are those of the
program, and there is no task whose condition it is. -/
structure SessionAt (v : Sit) (fromLogs : Bool) (w : LogWorld) (clock : Int) : Prop where
  self : v.self = none
  mode : v.fromLogs = fromLogs
  mem : v.mem = w.mem
  repo : v.repo = w.repo
  clock : clock ≤ v.now
  last : v.now ≤ MAXT
  /-- the years are those of `datetime` -/
  times : ∀ r ∈ v.repo, MINT ≤ r.noted
  first : MINT ≤ v.now
  runs : v.fromLogs = false → ∀ n, ∀ r ∈ v.runs n, MINT ≤ r.1 ∧ r.1 ≤ MAXT
  log : v.fromLogs = true → v.hasRunId = true ∧ ∀ n, RunLog n v.repo
  params : ∀ p ∈ v.params, ∀ q ∈ v.params, p.1 = q.1 → p = q

/-- The phrase is about the task whose condition it is (that of a period, like `daily`, only while the period lasts). -/
def AboutOwn (v : Sit) : Saying → Prop
  | .has task _ => task = none
  | .hasIn task _ _ _ => task = none
  | .hasPast task _ _ _ _ => task = none
  | .exec sc w => v.Says (.timeOf sc w)
  | .every _ _ => True
  | .afterTask _ _ _ => True
  | .afterTasks _ _ _ _ => True
  | _ => False

/-- What one round of the loop of the scheduler does if the shut condition says `P`: if it holds, the loop ends and nothing is
done; otherwise a cycle begins, unless a shutdown or restart was requested. -/
structure ShutsBy (P : Prop) (w : World) (res : Res Unit × World) : Prop where
  stops : P → res.1 = .ok () ∧ res.2.trace = w.trace ++ (w.env w.pos).events.map Obs.env
  goes : ¬ P → ∀ w2, hibernate (choose w).2 = (.ok (), w2) → w2.st.shutdown = false → w2.st.restart = false →
    ∃ o, res.2.trace = w2.trace ++ .cycle :: o
  requested : ¬ P → ∀ w2, hibernate (choose w).2 = (.ok (), w2) → w2.st.shutdown = true ∨ w2.st.restart = true →
    res.2.trace = w2.trace

end Rocketry.Spec
