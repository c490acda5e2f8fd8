import Verif.Props.LogProps

/-!
# Execution histories: what the tasks of a session write into the log, in which order and when

The transition system covers one task after another being checked and started by `Scheduler.run_cycle`
(rocketry/core/schedule.py:156-191) and the runs' log records (rocketry/core/task.py:454-783).  It allows more than
the code does (any task may be checked at any time; other tasks' records may be logged between the check of a task
and its start; a run may end without an outcome record), so that what is proved for all its histories holds for
those of the code.  Single-launch tasks only; log writes succeed.
-/

namespace Rocketry
open Props

/-- `f` with the value `v` at `name`. -/
def upd {α : Type} (f : String → α) (name : String) (v : α) : String → α := fun n => if n = name then v else f n

/-- Where a task is: not running; running; running, but an outcome was already logged (or put into the queue). -/
inductive Phase where | idle | running | ending
  deriving DecidableEq, Repr

/-- The state of a session. -/
structure HState where
  /-- not before any clock reading so far -/
  clock : Int
  log : LogWorld
  phase : String → Phase
  /-- the task was found runnable (for the given reason) and is being started -/
  ready : String → Option Nat
  /-- `Scheduler._log_queue`: records of runs in child processes that were not yet handled -/
  queue : List Record
  /-- after a restart: `set_cached` was not yet called -/
  cold : String → Bool

/-- `S name reason first last w`: the start condition of the task holds (for `reason`) when evaluated with clock
readings between `first` and `last` and the log and memories `w`. -/
abbrev StartCond := String → Nat → Int → Int → LogWorld → Prop

/-- How the session is set up. -/
structure Setup where
  /-- `config.force_status_from_logs` -/
  fromLogs : Bool
  start : StartCond
  /-- the task runs in a child process -/
  isProc : String → Bool
  /-- no task is checked or terminated while a record of it waits in the queue -/
  drained : Bool

/-- What is visible of a step. -/
inductive Ev where
  | other
  | began (name : String) (reason : Nat)
  | logged (name : String) (a : Action)
  deriving DecidableEq, Repr

/-- The queue holds no record of the task. -/
def HState.NoneWaiting (h : HState) (name : String) : Prop := ∀ r ∈ h.queue, r.task ≠ name

/-- The log after `_set_status(a)` of a task. -/
def HState.write (S : Setup) (h : HState) (name : String) (a : Action) (id : Option String) (noted created : Int) : LogWorld :=
  h.log.step S.fromLogs (.set name a id noted created .ok)

/-- One step. -/
inductive HStep (S : Setup) : HState → Ev → HState → Prop where
  /-- time passes -/
  | tick (h : HState) (c : Int) : h.clock ≤ c → HStep S h .other { h with clock := c }
  /-- `is_task_runnable` was true (schedule.py:180, 237-253): the task is not alive and its condition holds -/
  | check (h : HState) (name : String) (reason : Nat) (first last : Int) : h.clock ≤ first → first ≤ last →
      h.phase name = .idle → h.cold name = false → (S.drained = true → h.NoneWaiting name) →
      S.start name reason first last h.log →
      HStep S h .other { h with clock := last, ready := upd h.ready name (some reason) }
  /-- `log_running` of `start_async` (task.py:500), of the new thread (681) or, through the queue, of the child
  process (772, 1039-1072; then `noted = created`).  The early write of `_last_run` at task.py:673 is left out. -/
  | begin (h : HState) (name : String) (reason : Nat) (id : Option String) (noted created : Int) :
      h.ready name = some reason → h.clock ≤ noted → noted ≤ created →
      HStep S h (.began name reason) { h with
        clock := created, log := h.write S name .run id noted created,
        phase := upd h.phase name .running, ready := upd h.ready name none }
  /-- the first outcome record of a run in the scheduler's process (task.py:603-651), also the failure of any run
  whose setup fails (529-537) -/
  | outcome (h : HState) (name : String) (a : Action) (id : Option String) (noted created : Int) :
      h.phase name = .running → a ≠ .run → h.clock ≤ noted → noted ≤ created →
      HStep S h (.logged name a) { h with
        clock := created, log := h.write S name a id noted created, phase := upd h.phase name .ending }
  /-- a further outcome record of the same run (e.g. task.py:700), never a success -/
  | more (h : HState) (name : String) (a : Action) (id : Option String) (noted created : Int) :
      h.phase name = .ending → S.isProc name = false → a ≠ .run → a ≠ .success → h.clock ≤ noted → noted ≤ created →
      HStep S h (.logged name a) { h with clock := created, log := h.write S name a id noted created }
  /-- the outcome record of a run in a child process is put into the queue -/
  | put (h : HState) (name : String) (a : Action) (id : Option String) (created : Int) :
      h.phase name = .running → S.isProc name = true → a ≠ .run → h.clock ≤ created →
      HStep S h .other { h with
        clock := created, queue := h.queue ++ [⟨name, a, created, created, id⟩], phase := upd h.phase name .ending }
  /-- a further one (task.py:779) -/
  | putMore (h : HState) (name : String) (a : Action) (id : Option String) (created : Int) :
      h.phase name = .ending → S.isProc name = true → a ≠ .run → a ≠ .success → h.clock ≤ created →
      HStep S h .other { h with clock := created, queue := h.queue ++ [⟨name, a, created, created, id⟩] }
  /-- `handle_logs` (schedule.py:255-287) or `_lock_to_run_log` (task.py:1039-1072) takes a record -/
  | drain (h : HState) (r : Record) (q : List Record) : h.queue = r :: q →
      HStep S h (.logged r.task r.action) { h with
        log := h.log.step S.fromLogs (.received r.task r.action r.runId r.created .ok), queue := q }
  /-- the run is over (`TaskRun.is_alive` is false, task.py:59-64) -/
  | die (h : HState) (name : String) : h.phase name ≠ .idle →
      HStep S h .other { h with phase := upd h.phase name .idle }
  /-- `_terminate_run` of a process or of an async run (task.py:1026-1036), also when that run is over, or the failure
  of a setup when the task's status is "run" (task.py:529-537, then no start is logged) -/
  | kill (h : HState) (name : String) (a : Action) (id : Option String) (noted created : Int) :
      a = .terminate ∨ a = .fail → (S.drained = true → h.NoneWaiting name) → h.clock ≤ noted → noted ≤ created →
      HStep S h (.logged name a) { h with
        clock := created, log := h.write S name a id noted created, phase := upd h.phase name .idle,
        ready := upd h.ready name none }
  /-- the program ends at any point and is started anew: tasks without cache, only the log remains -/
  | reboot (h : HState) (c : Int) : h.clock ≤ c →
      HStep S h .other ⟨c, ⟨fun _ => .fresh, h.log.repo⟩, fun _ => .idle, fun _ => none, [], fun _ => true⟩
  /-- `set_cached` of a task at startup (schedule.py:312-318), also when the scheduler is started again in the same
  program; never between the check of a task and its start -/
  | recover (h : HState) (name : String) (noted created : Int) : (S.drained = true → h.NoneWaiting name) →
      h.clock ≤ noted → noted ≤ created →
      HStep S h (if latestAction (cachedTimes h.log.repo name) = some .run then .logged name .crash else .other) { h with
        clock := created, log := h.log.step S.fromLogs (.cached name noted created .ok), ready := upd h.ready name none,
        cold := upd h.cold name false }
  /-- `get_status` or `_get_last_action` is called -/
  | look (h : HState) (op : LogOp) : (∃ name, op = .status name) ∨ (∃ name a, op = .lastAction name a) →
      HStep S h .other { h with log := h.log.step S.fromLogs op }

/-- A new session at time `c`. -/
def HState.init (c : Int) : HState := ⟨c, .fresh, fun _ => .idle, fun _ => none, [], fun _ => false⟩

/-- Histories, with their visible events. -/
inductive Hist (S : Setup) : List Ev → HState → Prop where
  | init (c : Int) : Hist S [] (.init c)
  | step {es : List Ev} {h h' : HState} {e : Ev} : Hist S es h → HStep S h e h' → Hist S (es ++ [e]) h'

end Rocketry
