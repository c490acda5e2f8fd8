import Verif.Sched.Scheduler
import Verif.Task.Run

/-!
# Tasks that end or restart the scheduler, in plain words

The maintenance tasks `ShutDown` and `Restart` (rocketry/tasks/maintain/os.py:5-30) run in the main process and raise
`SchedulerExit` or `SchedulerRestart`; so may any other task.
-/

namespace Rocketry.Spec
open Sched

/-- What these tasks raise. -/
def IsCall (e : Exc) : Prop := e = .exit ∨ e = .restart

/-- The task is being started, in the main process and with nothing amiss, and at its end raises `e`. -/
def RunsAndRaises (name : String) (e : Exc) (w : World) : Prop :=
  (w.env w.pos).fault = none ∧ (w.env (w.pos + 1)).fault = some (.exc e) ∧
    ∃ t, (choose w).2.st.find name = some t ∧ t.execution = .main

/-- The task is being started with nothing amiss, but not in the main process. -/
def RunsElsewhere (name : String) (w : World) : Prop :=
  (w.env w.pos).fault = none ∧ ∃ t, (choose w).2.st.find name = some t ∧ t.execution ≠ .main

/-- In a cycle that began in `w` the scheduler has come to the task `name`, behind which `post` would be next: the task
is looked at, may be run, and is being started in `w'`. -/
inductive ComesUp (name : String) (post : List String) (w w' : World) : Prop where
  | mk (pre : List String) (w1 w2 : World) (t : TaskSt)
      (sorted : w.st.sorted.map TaskSt.name = pre ++ name :: post)
      (before : (do emit .cycle; forEach pre inspectTask : M Unit) w = (.ok (), w1))
      (look : (do emit (.inspected name); handleLogs; cleanRunStack name : M Unit) w1 = (.ok (), w2))
      (found : w2.st.find name = some t) (normal : t.onStartup = false ∧ t.onShutdown = false) (enabled : w2.st.enabled = true)
      (runnable : isTaskRunnable name w2 = (.ok true, w'))

/-- The loop of the scheduler comes from `w` with `n` rounds left to `w'` with `m` rounds left: all rounds between went
well. -/
inductive LoopsTo : Nat → World → Nat → World → Prop where
  | here (n : Nat) (w : World) : LoopsTo n w n w
  | round {n m : Nat} {w w1 w2 w3 w' : World} (goOn : checkShutCond w = (.ok false, w1)) (rest : hibernate w1 = (.ok (), w2))
      (notAsked : w2.st.shutdown = false ∧ w2.st.restart = false) (cycle : runCycle w2 = (.ok (), w3))
      (later : LoopsTo n w3 m w') : LoopsTo (n + 1) w m w'

/-- A round begins in `w`, and its cycle in `w'`. -/
def RoundBegins (w w' : World) : Prop :=
  ∃ w1, checkShutCond w = (.ok false, w1) ∧ hibernate w1 = (.ok (), w') ∧ w'.st.shutdown = false ∧ w'.st.restart = false

/-- Seen while a task is started and runs in the main process. -/
def OfRun (name : String) (part : Part) : Obs → Prop
  | .env _ => True
  | .popped n _ => n = name
  | .started n _ p => n = name ∧ p = part
  | _ => False

/-- Seen while the scheduler shuts down for good: only shutdown tasks are started, there is no further cycle and no
restart. -/
def Winding : Obs → Prop
  | .env _ => True
  | .popped .. => True
  | .started _ _ p => p = .shutdown
  | .terminated .. => True
  | .checked .. => True
  | .failedSetup _ => True
  | .mainEnded .. => True
  | _ => False

end Rocketry.Spec
