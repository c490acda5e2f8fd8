import Verif.Session.Names

/-!
# Names of tasks and run ids, in plain words
-/

namespace Rocketry.Spec
open Rocketry.Session

/-- A name is taken in a session. -/
def Taken (s : Sess) (n : String) : Prop := ∃ o ∈ s.tasks, o.name = n

/-- No two tasks of the session have the same name. -/
def Unique (s : Sess) : Prop := ∀ a ∈ s.tasks, ∀ b ∈ s.tasks, a.name = b.name → a = b

/-- Lookup by name finds the task of that name, and nothing for a name that is not taken. -/
def LooksUp (s : Sess) : Prop :=
  (∀ o ∈ s.tasks, s.get o.name = some o) ∧ ∀ n, ¬ Taken s n → s.get n = none

/-- In the sequence of operations no task is renamed to a name that is taken while the policy is `ignore`. -/
def NoClash (s : Sess) (l : List Op) : Prop :=
  ∀ pre post id n, l = pre ++ .rename id n :: post → (s.run pre).policy = .ignore → ¬ Taken (s.run pre) n

/-- The runs of a task that are tracked: a run starts with the id given by `increment`, and some runs are dropped
(core/task.py:485-499, 542, 671, 732, 997-1016). -/
inductive Tracked : List (Option String) → Prop
  | nil : Tracked []
  | start {l : List (Option String)} {i : String} : Tracked l → increment l = some i → Tracked (l ++ [some i])
  | drop {l l' : List (Option String)} : Tracked l → l'.Sublist l → Tracked l'

end Rocketry.Spec
