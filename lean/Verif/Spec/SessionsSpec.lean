import Verif.Task.Sessions
import Verif.Spec.DenoteSpec

/-!
# Independence of sessions
-/

namespace Rocketry.Spec
open Rocketry.Cond

/-- What a session's conditions would read if nothing but the session counted. -/
def ownAnswer (m : Sessions) (s : Nat) (fuel : Nat) (c : Cond Builtin) : Except PyErr Bool :=
  (observe ((m.sit s).obs fuel) c ()).1

/-- Conditions that do not ask for what has happened to tasks, other than by `after_…`. -/
def Builtin.Still : Builtin → Prop
  | .isPeriod _ => True
  | .schedStarted _ => True
  | .cycles _ => True
  | .depend _ _ => True
  | .env _ => True
  | .params _ => True
  | .paramIs _ _ => True
  | _ => False

mutual
/-- All simple conditions in a compound one are of a kind. -/
def EachLeaf (P : Builtin → Prop) : Cond Builtin → Prop
  | .leaf l => P l
  | .alwaysTrue => True
  | .alwaysFalse => True
  | .any cs => EachLeafs P cs
  | .all cs => EachLeafs P cs
  | .not c => EachLeaf P c
def EachLeafs (P : Builtin → Prop) : List (Cond Builtin) → Prop
  | [] => True
  | c :: cs => EachLeaf P c ∧ EachLeafs P cs
end

/-- A phrase that does not ask whether a task is running. -/
def Saying.NotRunning : Saying → Prop
  | .running _ _ => False
  | _ => True

/-- The session keeps its state so that both ways of looking at it are right. -/
def KeptBothWays (v : Sit) : Prop := ∀ b, Sit.Kept { v with fromLogs := b }

end Rocketry.Spec
