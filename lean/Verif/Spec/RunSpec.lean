import Verif.Task.Run

/-!
# Specification of the records of a run
-/

namespace Rocketry.Spec
open Rocketry Rocketry.Run

/-- The outcome that a run should have: a failure if the function could not be called; else according to how it
ended.  A restart or exit of the scheduler counts as a success, a death of the thread or process as a failure. -/
def properOutcome (c : Course) : Action :=
  if c.prerun = true ∧ c.params = true then
    match c.ending with
    | .returns _ => if c.successFails then .fail else .success
    | .restart => .success
    | .inaction => .inaction
    | .terminated => .terminate
    | .fails => .fail
    | .dies => .fail
  else .fail

/-- The value to be stored. -/
def properValue (c : Course) : Option String :=
  match c.ending with
  | .returns v => if properOutcome c = .success then some v else none
  | _ => none

/-- A `run` record and one record of the outcome `a`, both with the run's id. -/
def Complete (a : Action) (l : List Rec) : Prop := l = [⟨.run, true⟩, ⟨a, true⟩]

/-- Nothing unusual: the function was called, did not ask for a restart nor die. -/
structure Ordinary (c : Course) : Prop where
  prerun : c.prerun = true
  params : c.params = true
  restart : c.ending ≠ .restart
  dies : c.ending ≠ .dies

end Rocketry.Spec
