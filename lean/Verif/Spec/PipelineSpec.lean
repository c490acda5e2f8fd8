import Verif.Spec.PromiseSpec

/-!
# Tasks that wait for each other

When the start text of a task waits for the success of another one, and how often a task has started or succeeded.
-/

namespace Rocketry.Spec
open Props

/-- How many records of this kind the task has. -/
def tally (name : String) (a : Action) (l : List Record) : Nat :=
  (l.filter (fun r => decide (r.task = name ∧ r.action = a))).length

/-- The text insists on a success of the task `d`: `after task 'd'`, or one of the tasks of `after tasks …`. -/
def WaitsFor (sayingOf : Txt → Saying) (e : Written) (d : String) : Prop :=
  ∃ x, e.Asks x true ∧
    ((∃ t said, sayingOf x = .afterTask t .success said ∧ String.ofList t = d) ∨
     ∃ ts said, sayingOf x = .afterTasks false ts .success said ∧ ∃ t ∈ ts, String.ofList t = d)

/-- The text insists on a success of a task of the set: of a certain one, or of any of some (`after any tasks …`), all of
which are in the set. -/
def WaitsWithin (sayingOf : Txt → Saying) (e : Written) (D : String → Prop) : Prop :=
  (∃ d, D d ∧ WaitsFor sayingOf e d) ∨
  ∃ x ts said, e.Asks x true ∧ sayingOf x = .afterTasks true ts .success said ∧ ∀ t ∈ ts, D (String.ofList t)

end Rocketry.Spec
