import Verif.Sched.State

/-!
# What is expected after a task was removed from the session
-/

namespace Rocketry.Spec
open Rocketry.Sched

/-- How a task stands in the session, judged by the record of what happened: `leaving` while the round in which it was
removed goes on, `gone` once another one has begun. -/
inductive Standing where | present | leaving | gone
  deriving DecidableEq, Repr

/-- What an observation means for the task called `n`. -/
def Standing.step (n : String) (p : Standing) : Obs → Standing
  | .env (.remove m) => if m = n ∧ p = .present then .leaving else p
  | .env (.add t) => if t.name = n then .present else p
  | .serve => if p = .leaving then .gone else p
  | .cycle => if p = .leaving then .gone else p
  | .shutdown => if p = .leaving then .gone else p
  | _ => p

/-- How the task stands after a record. -/
def standing (n : String) (l : List Obs) : Standing := l.foldl (Standing.step n) .present

/-- A run of the task begins, or one of its requests is taken. -/
def Begins (n : String) : Obs → Prop
  | .started m _ _ => m = n
  | .popped m _ => m = n
  | _ => False

/-- The task is left alone once it is gone. -/
def LeftAlone (n : String) (l : List Obs) : Prop :=
  ∀ pre o suf, l = pre ++ o :: suf → standing n pre = .gone → ¬ Begins n o

end Rocketry.Spec
