import Verif.Session.Group
import Verif.Spec.CondSpec
import Verif.Spec.NamesSpec

/-!
# Including a group, in plain words
-/

namespace Rocketry.Spec
open Rocketry.Session Rocketry.Cond

variable {L P : Type}

/-- What the inclusion of a group `g` that had the tasks of `w.group` makes of `w`. -/
structure Included (w w' : World L P) (g : Grp L) : Prop where
  /-- each task of the group is found in the session under prefix and name -/
  found : ∀ o ∈ w.group.tasks, w'.app.get (g.pre ++ o.name) = some ⟨o.id, g.pre ++ o.name⟩
  /-- the tasks the session had are still there, and there are no others -/
  kept : ∀ x ∈ w.app.tasks, x ∈ w'.app.tasks
  only : ∀ x ∈ w'.app.tasks, x ∈ w.app.tasks ∨ ∃ o ∈ w.group.tasks, x = ⟨o.id, g.pre ++ o.name⟩
  /-- the start condition holds if the own one and then the one of the group holds -/
  both : ∀ o ∈ w.group.tasks, ∀ d, g.start = some d → ∀ (σ : Type) (f : L → Obs σ),
    observe f (w'.cond o.id) = thenAnd (observe f (w.cond o.id)) (observe f d)
  own : g.start = none → ∀ o ∈ w.group.tasks, w'.cond o.id = w.cond o.id
  /-- the execution of the group is used unless the task has its own -/
  execution : ∀ o ∈ w.group.tasks, (∀ e, w.exec o.id = some e → w'.exec o.id = some e) ∧
    (w.exec o.id = none → w'.exec o.id = g.exec)
  /-- other tasks are as before -/
  others : ∀ id, (∀ o ∈ w.group.tasks, o.id ≠ id) → w'.cond id = w.cond id ∧ w'.exec id = w.exec id
  /-- the parameters of the group are set, the others are as before -/
  params : ∀ k, (∀ v, Dict.find w.groupParams k = some v → Dict.find w'.appParams k = some v) ∧
    (Dict.find w.groupParams k = none → Dict.find w'.appParams k = Dict.find w.appParams k)

end Rocketry.Spec
