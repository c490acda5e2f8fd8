import Verif.Task.Log

/-!
# Specification vocabulary for logs (independent of the reading functions)
-/

namespace Rocketry.Spec

/-- `r` is the latest record of the log that satisfies `P`. -/
def IsLatest (repo : List Record) (P : Record → Prop) (r : Record) : Prop :=
  ∃ pre post, repo = pre ++ r :: post ∧ P r ∧ ∀ x ∈ post, ¬ P x

/-- The times of the records that satisfy `P` strictly increase along the log. -/
def Increasing (repo : List Record) (P : Record → Prop) : Prop :=
  repo.Pairwise (fun r s => P r → P s → r.created < s.created)

/-- The times of the records that satisfy `P` do not decrease along the log. -/
def Ordered (repo : List Record) (P : Record → Prop) : Prop :=
  repo.Pairwise (fun r s => P r → P s → r.created ≤ s.created)

/-- Records of the task `name`. -/
def Of (name : String) (r : Record) : Prop := r.task = name

/-- Records of the task `name` with action `a`. -/
def OfAction (name : String) (a : Action) (r : Record) : Prop := r.task = name ∧ r.action = a

instance (name : String) : DecidablePred (Of name) := fun r => by unfold Of; infer_instance
instance (name : String) (a : Action) : DecidablePred (OfAction name a) := fun r => by unfold OfAction; infer_instance

end Rocketry.Spec
