import Verif.Task.Hooks

/-!
# What hooks should do
-/

namespace Rocketry.Spec
open Rocketry.Hooks

/-- The hook is a generator that yields, so that it has a part to run afterwards. -/
def HasPost (h : Hook) : Bool := match h.gen with
  | some (.yields, _) => true
  | _ => false

/-- The part of the hook before the task ends without an exception. -/
def PreOk (h : Hook) : Prop := h.fails = false ∧ ∀ p, h.gen ≠ some (.raises, p)

/-- The part of the hook after the task ends without an exception. -/
def PostOk (h : Hook) : Prop := h.gen ≠ some (.yields, .raises)

/-- What a run should look like: the first parts of all hooks in order, the task, and the second parts of the waiting
ones in order, all with the same outcome. -/
def properTrace {α : Type} (hooks : List Hook) (info : α) : List (Ev α) :=
  hooks.map (fun h => .pre h.id) ++ [.task] ++ (hooks.filter HasPost).map (fun h => .post h.id info)

end Rocketry.Spec
