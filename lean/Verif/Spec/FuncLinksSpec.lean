import Verif.Session.FuncLinks

/-!
# Finding tasks and parameters by their functions

What a program says about a function, read off the program.
-/

namespace Rocketry.Spec
open Rocketry.Links

/-- The action decorates the function `f`, as a task or as a parameter, in whatever session. -/
def Decorates (f : Nat) : Act → Prop
  | .decorate _ g _ => g = f
  | .param _ g _ => g = f
  | _ => False

/-- The action makes a task of the function `f` with the name `n`. -/
def MakesTask (f : Nat) (n : String) : Act → Prop
  | .decorate _ g m => g = f ∧ m = n
  | .create _ g m => g = f ∧ m = n
  | _ => False

/-- The action gives the parameter `n` of the session `s` a value. -/
def SetsParam (s : Nat) (n : String) : Act → Prop
  | .param i _ m => i = s ∧ m = n
  | .assign i m _ => i = s ∧ m = n
  | _ => False

/-- No name is given to tasks of two functions, not even in different sessions. -/
def NamesApart (l : List Act) : Prop :=
  ∀ a ∈ l, ∀ b ∈ l, ∀ f g n, MakesTask f n a → MakesTask g n b → f = g

end Rocketry.Spec
