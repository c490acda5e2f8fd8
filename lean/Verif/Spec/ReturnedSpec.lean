import Verif.Task.Returned

/-!
# What is expected of return values (C113)
-/

namespace Rocketry.Spec
open Rocketry Rocketry.Returned

/-- The run got to the end of its function, which returned the value, and `process_success` had no objection. -/
structure Gave (c : Run.Course) (v : String) : Prop where
  pre : c.prerun = true
  params : c.params = true
  value : c.ending = .returns v
  success : c.successFails = false

/-- The run ends by raising SchedulerRestart or SchedulerExit. -/
def RunRestarts (c : Run.Course) : Prop := c.prerun = true ∧ c.params = true ∧ c.ending = .restart

/-- The run of the latest success of a task. -/
def latestSuccess (x : Nat) : List Entered → Option Nat
  | [] => none
  | k :: l => match latestSuccess x l with
    | some r => some r
    | none => if k.task = x ∧ k.action = .success then some k.run else none

/-- The log tells which value: that of the run of the latest success. -/
def LogTellsValue (S : Returned.Setup) (x : Nat) (log : List Entered) (got : Option String) : Prop :=
  match latestSuccess x log with
  | none => got = none
  | some r => ∃ v, Gave (S.runs r).course v ∧ got = some v

/-- A thread of the task has stored its value and has not logged its success yet. -/
def StoredNotLogged (S : Returned.Setup) (s : Returned.St) (x : Nat) : Prop :=
  ∃ r l, (S.runs r).task = x ∧ (S.runs r).exec = .thread ∧ s.todo r = .log .success :: l

/-- No thread of the task but possibly `r` is under way. -/
def NoThreadBut (S : Returned.Setup) (s : Returned.St) (x r : Nat) : Prop :=
  ∀ r', r' ≠ r → (S.runs r').task = x → (S.runs r').exec = .thread → s.todo r' = []

/-- How the next step has to be for task `x` to have its values told by its log: while a thread of the task is under way
no other thread of it is started and no other run of it succeeds; records of successes are written; no record of a
success is read by `_lock_to_run_log`. -/
def OrderlyStep (S : Returned.Setup) (x : Nat) (s : Returned.St) : Returned.Step → Prop
  | .start r => (S.runs r).task = x → (S.runs r).exec = .thread → NoThreadBut S s x r
  | .act r ok => (S.runs r).task = x →
      (∀ v l, s.todo r = .both v :: l → ok = true ∧ NoThreadBut S s x r) ∧ (∀ l, s.todo r = .log .success :: l → ok = true)
  | .handle ok => ∀ m q, s.queue = m :: q → m.action = .success → taskNamed s m.name = some x →
      ok = true ∧ NoThreadBut S s x m.run
  | .lock _ => ∀ m q, s.queue = m :: q → m.action = .success → taskNamed s m.name ≠ some x
  | _ => True

/-- The same for all steps of an execution. -/
def OrderlyValues (S : Returned.Setup) (x : Nat) : Returned.St → List Returned.Step → Prop
  | _, [] => True
  | s, a :: l => OrderlyStep S x s a ∧ OrderlyValues S x (Returned.step S s a) l

/-- The run that handed over the last value of a task, in a list of such events. -/
def lastGiver (x : Nat) : List (Nat × Nat) → Option Nat
  | [] => none
  | k :: l => match lastGiver x l with
    | some r => some r
    | none => if k.1 = x then some k.2 else none

/-- How often the task has succeeded. -/
def successesOf (x : Nat) (log : List Entered) : Nat :=
  (log.filter (fun k => decide (k.task = x) && decide (k.action = .success))).length

/-- No record of a success of task `x` is read by `_lock_to_run_log`. -/
def NotByLock (x : Nat) (s : Returned.St) : Returned.Step → Prop
  | .lock _ => ∀ m q, s.queue = m :: q → m.action = .success → taskNamed s m.name ≠ some x
  | _ => True

/-- The same for all steps of an execution. -/
def NeverByLock (S : Returned.Setup) (x : Nat) : Returned.St → List Returned.Step → Prop
  | _, [] => True
  | s, a :: l => NotByLock x s a ∧ NeverByLock S x (Returned.step S s a) l

end Rocketry.Spec
