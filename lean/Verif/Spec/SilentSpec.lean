import Verif.Spec.SchedSpec

/-!
# Errors that are silenced
-/

namespace Rocketry.Spec
open Sched

/-- The options `silence_cond_check`, `silence_task_logging` and `silence_task_prerun` are on. -/
structure Silenced (c : Config) : Prop where
  cond : c.silenceCond = true
  logging : c.silenceLogging = true
  prerun : c.silencePrerun = true

/-- Conditions may raise, parameters may fail to be made, the setup of a run or its process may fail, and log records may
fail to be written; but no task asks for the end of the scheduler (or exits the interpreter), no cancelled asyncio task
raises something else, and no record in the queue is of an unknown task. -/
def Harmless (c : Choice) : Prop := ∀ e, c.fault ≠ some (.exc e)

/-- The last thing that was done is the termination of a run, and a log record has failed. -/
def LostTermination (w : World) : Prop :=
  (∃ l name id, ∃ evs : List EnvEv, w.trace = l ++ .terminated name id :: evs.map Obs.env) ∧ ∃ i, (w.env i).fault = some .logging

/-- Between the cycles: nothing but events since the execution was at `start`, or since a cycle was completed. -/
def BetweenCycles (start : List Obs) (now : List Obs) : Prop :=
  ∃ l, ∃ evs : List EnvEv, now = l ++ evs.map Obs.env ∧ (l = start ∨ ∃ l', l = l' ++ [.cycleDone])

/-- The two errors that are not silenced: a failed record of a termination, and a condition that raised where it is not
the condition of a task. -/
def Unsilenced (e : Exc) (w : World) : Prop :=
  (e = .logging ∧ (∃ name id, .terminated name id ∈ w.trace) ∧ ∃ i, (w.env i).fault = some .logging) ∨
    (e = .other ∧ ∃ i, (w.env i).cond = none)

end Rocketry.Spec
