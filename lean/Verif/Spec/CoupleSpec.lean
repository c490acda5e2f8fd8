import Verif.Sched.State
import Verif.Task.History

/-!
# What the record of an execution of the scheduler says about the runs and the log

`Coupled` relates the record of an execution (`Verif/Sched`) and what is written into the log meanwhile
(`Verif/Task/History.lean`).  In contrast to `HStep` nothing is assumed about when the scheduler checks or starts a
task; that has to follow from the order of the observations.
-/

namespace Rocketry.Spec
open Rocketry Rocketry.Sched

/-- The runs of the task `n` that go on (`K n`: how the task is executed), one observation later. -/
def goingStep (K : String → Exec) (n : String) (ids : List Nat) : Obs → List Nat
  | .started m id _ => if m = n then ids ++ [id] else ids
  | .env (.ends m id _) => if m = n ∧ K n ≠ .main then ids.filter (fun i => decide (i ≠ id)) else ids
  | .terminated m id => if m = n ∧ K n ≠ .thread then ids.filter (fun i => decide (i ≠ id)) else ids
  | .mainEnded m id => if m = n then ids.filter (fun i => decide (i ≠ id)) else ids
  | _ => ids

/-- The runs of the task `n` that go on: started and neither ended nor (if they can be) terminated. -/
def going (K : String → Exec) (tr : List Obs) (n : String) : List Nat := tr.foldl (goingStep K n) []

/-- Whether the task `n` was found runnable and not yet started, one observation later. -/
def armedStep (n : String) (b : Bool) : Obs → Bool
  | .checked m _ (some true) => if m = n then true else b
  | .started m _ _ => if m = n then false else b
  | .failedSetup m => if m = n then false else b
  | .cached m => if m = n then false else b
  | _ => b

/-- The task `n` was found runnable and not started since (nor were its times read from the log). -/
def armed (tr : List Obs) (n : String) : Bool := tr.foldl (armedStep n) false

/-- The observation may come after `tr`: no task is found runnable while a run of it goes on, and only a task found
runnable is started (or fails to). -/
def FitsIn (K : String → Exec) (tr : List Obs) : Obs → Prop
  | .checked n _ (some true) => going K tr n = []
  | .started n _ _ => armed tr n = true
  | .failedSetup n => armed tr n = true
  | _ => True

/-- Every observation may come where it does. -/
def Orderly (K : String → Exec) (tr : List Obs) : Prop := ∀ a o b, tr = a ++ o :: b → FitsIn K a o

/-- No task is found runnable before its `set_cached`. -/
def Prepared (tr : List Obs) : Prop := ∀ a o b, tr = a ++ o :: b →
  ∀ n m, o = .checked n m (some true) → Obs.cached n ∈ a

/-- What is written into the log (and where the tasks are) at an observation that comes after `tr`.  `R`: the reason of
runs by request. -/
inductive Moves (S : Setup) (K : String → Exec) (R : Nat) (tr : List Obs) : HState → Obs → List Ev → HState → Prop where
  /-- the start condition was evaluated and holds, or the task was requested to run -/
  | found (h : HState) (n : String) (manual : Bool) (reason : Nat) (first last : Int) : h.clock ≤ first → first ≤ last →
      (S.drained = true → h.NoneWaiting n) → (reason = R ↔ manual = true) → S.start n reason first last h.log →
      Moves S K R tr h (.checked n manual (some true)) [.other]
        { h with clock := last, ready := upd h.ready n (some reason) }
  /-- `set_cached` reads the log, and writes a crash record if the last record is a start -/
  | cached (h : HState) (n : String) (noted created : Int) : (S.drained = true → h.NoneWaiting n) → h.clock ≤ noted →
      noted ≤ created →
      Moves S K R tr h (.cached n) [if latestAction (cachedTimes h.log.repo n) = some .run then .logged n .crash else .other] { h with
        clock := created, log := h.log.step S.fromLogs (.cached n noted created .ok), ready := upd h.ready n none,
        cold := upd h.cold n false }
  /-- the start is logged -/
  | started (h : HState) (n : String) (i : Nat) (part : Sched.Part) (reason : Nat) (id : Option String) (noted created : Int) :
      (∀ r, h.ready n = some r → r = reason) → h.clock ≤ noted → noted ≤ created →
      Moves S K R tr h (.started n i part) [.began n reason] { h with
        clock := created, log := h.write S n .run id noted created,
        phase := upd h.phase n .running, ready := upd h.ready n none }
  /-- the start and the failure of a run whose setup failed are logged -/
  | failed (h : HState) (n : String) (reason : Nat) (id : Option String) (noted created noted' created' : Int) (h1 : HState) :
      (∀ r, h.ready n = some r → r = reason) → h.clock ≤ noted → noted ≤ created → created ≤ noted' → noted' ≤ created' →
      h1 = { h with
        clock := created, log := h.write S n .run id noted created,
        phase := upd h.phase n .running, ready := upd h.ready n none } →
      Moves S K R tr h (.failedSetup n) [.began n reason, .logged n .fail, .other] { h1 with
        clock := created', log := h1.write S n .fail id noted' created', phase := upd h.phase n .idle }
  /-- only the failure is logged: the task's status is "run" although no run goes on -/
  | stale (h : HState) (n : String) (id : Option String) (noted created : Int) :
      (S.drained = true → h.NoneWaiting n) → h.clock ≤ noted → noted ≤ created →
      Moves S K R tr h (.failedSetup n) [.logged n .fail] { h with
        clock := created, log := h.write S n .fail id noted created,
        phase := upd h.phase n .idle, ready := upd h.ready n none }
  /-- a run is over -/
  | over (h : HState) (n : String) (i : Nat) (o : Obs) :
      ((∃ exc, o = .env (.ends n i exc) ∧ K n ≠ .main) ∨ (o = .terminated n i ∧ K n ≠ .thread) ∨ o = .mainEnded n i) →
      i ∈ going K tr n →
      Moves S K R tr h o [.other] { h with phase := upd h.phase n .idle }
  /-- nothing happens to the runs and the log -/
  | nothing (h : HState) (o : Obs) :
      (∀ n, going K (tr ++ [o]) n = going K tr n ∧ armed (tr ++ [o]) n = armed tr n ∧ o ≠ .cached n) →
      Moves S K R tr h o [] h

/-- An execution of the scheduler with the observations `tr` and, meanwhile, the log of the program: it is started with
the log of earlier programs, and records of runs are written at any time. -/
inductive Coupled (S : Setup) (K : String → Exec) (R : Nat) : List Obs → List Ev → HState → Prop where
  | init {es : List Ev} {h : HState} (c : Int) : Hist S es h → h.clock ≤ c →
      Coupled S K R [] (es ++ [.other]) ⟨c, ⟨fun _ => .fresh, h.log.repo⟩, fun _ => .idle, fun _ => none, [], fun _ => true⟩
  | quiet {tr : List Obs} {es : List Ev} {e : Ev} {h h' : HState} : Coupled S K R tr es h → HStep S h e h' →
      h'.ready = h.ready → h'.cold = h.cold → (∀ n, h'.phase n = .idle ↔ h.phase n = .idle) →
      Coupled S K R tr (es ++ [e]) h'
  | obs {tr : List Obs} {es es' : List Ev} {o : Obs} {h h' : HState} : Coupled S K R tr es h →
      Moves S K R tr h o es' h' → Coupled S K R (tr ++ [o]) (es ++ es') h'

/-- What is assumed about the environment: no task is added, log writes and the creation of processes succeed. -/
structure Reliable (c : Choice) : Prop where
  add : ∀ t, EnvEv.add t ∉ c.events
  logging : c.fault ≠ some .logging
  spawn : c.fault ≠ some .spawn

/-- What is assumed about the session at the start of the program: its tasks have one run at a time, none of them is
`on_shutdown`, and nothing runs. -/
structure Managed (K : String → Exec) (s : Sys) : Prop where
  names : (s.tasks.map TaskSt.name).Nodup
  execution : ∀ t ∈ s.tasks, t.execution = K t.name
  single : ∀ t ∈ s.tasks, t.multilaunch.getD s.cfg.multilaunch = false
  stack : ∀ t ∈ s.tasks, t.stack = []
  ending : ∀ t ∈ s.tasks, t.onShutdown = false

end Rocketry.Spec
