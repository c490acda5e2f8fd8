import Verif.Task.RunIds
import Verif.Spec.LogSpec

/-!
# What is expected of run ids
-/

namespace Rocketry.Spec
open Rocketry Rocketry.RunIds

/-- The time of an event. -/
def eventTime : IdEv → Int
  | .starts _ now => now
  | .ends _ _ now => now
  | .other r => r.created

/-- The clock does not go back. -/
def ClockOn (l : List IdEv) : Prop := l.Pairwise (fun a b => eventTime a ≤ eventTime b)

/-- The random ids given to runs. -/
def randomIds : List IdEv → List String
  | [] => []
  | .starts u _ :: l => u :: randomIds l
  | _ :: l => randomIds l

/-- Random ids are not empty and never the same. -/
def Random (l : List IdEv) : Prop := (randomIds l).Nodup ∧ "" ∉ randomIds l

end Rocketry.Spec
