import Verif.Task.Delayed

/-!
# Runs of a function given by path, in plain words
-/

namespace Rocketry.Spec
open Rocketry.Task

/-- What is in the file after the changes. -/
def fileAfter : Option Nat → List FuncEv → Option Nat
  | f, [] => f
  | _, .edit v :: es => fileAfter v es
  | f, _ :: es => fileAfter f es

/-- The step of a run that may keep the function for later steps. -/
def Keeps : FuncEv → Prop
  | .filter _ | .exec _ => True
  | _ => False

/-- Every step in `pre` that keeps the function is followed by the end of some run. -/
def Released (pre mid : List FuncEv) : Prop := ∀ a e b, pre = a ++ e :: b → Keeps e → ∃ k, FuncEv.finish k ∈ b ++ mid

/-- The run is not between the filtering of its parameters and its end: it has only begun, or it is over. -/
def AtRest : FuncPhase → Prop
  | .begun _ | .over _ _ | .broken => True
  | _ => False

end Rocketry.Spec
