import Verif.Session.Builtin

/-!
# What the arguments for objects of the session stand for

`Represents h t s a v`: in a session `s`, for a task `t` (or for none), argument `a` stands for the object `v`.  Nothing is
said about keywords, signatures or places.
-/

namespace Rocketry.Spec

open Rocketry.Builtin

mutual
/-- What an argument stands for. -/
inductive Represents (h : Heap) (t : Option Nat) (s : Nat) : BArg → Obj → Prop
  /-- the session -/
  | session (d : Option Obj) : Represents h t s (.session d) (.session s)
  /-- the task -/
  | task (d : Option Obj) (t' : Nat) : t = some t' → Represents h t s (.task none d) (.task t')
  /-- the task of that name -/
  | named (n : String) (d : Option Obj) (t' : Nat) : t' ∈ h.tasks s → h.name t' = n →
      Represents h t s (.task (some n) d) (.task t')
  /-- the configuration of the session -/
  | config : Represents h t s .config (.config s)
  /-- the logger of tasks, for the task -/
  | taskLogger : Represents h t s .taskLogger (.adapter (h.taskBase s) t)
  /-- the logger of the scheduler -/
  | schedLogger : Represents h t s .schedLogger (.logger (h.schedBase s))
  /-- what the function returns for what its arguments stand for -/
  | func (f : Nat) (sig : List BArg) (vs : List Obj) (v : Obj) : RepresentsAll h t s sig vs →
      h.call f vs = .ok v → Represents h t s (.func f sig) v
  /-- the first of a pipe -/
  | pipeHere (a : BArg) (l : List BArg) (v : Obj) : Represents h t s a v → Represents h t s (.pipe (a :: l)) v
  /-- the next one, when the first names a task that is not there -/
  | pipeNext (n : String) (d : Option Obj) (l : List BArg) (v : Obj) : (∀ t' ∈ h.tasks s, h.name t' ≠ n) →
      Represents h t s (.pipe l) v → Represents h t s (.pipe (.task (some n) d :: l)) v
/-- The same for a list of arguments. -/
inductive RepresentsAll (h : Heap) (t : Option Nat) (s : Nat) : List BArg → List Obj → Prop
  | nil : RepresentsAll h t s [] []
  | cons (a : BArg) (l : List BArg) (v : Obj) (vs : List Obj) : Represents h t s a v → RepresentsAll h t s l vs →
      RepresentsAll h t s (a :: l) (v :: vs)
end

/-- No two tasks of the session have the same name. -/
def DistinctNames (h : Heap) (s : Nat) : Prop :=
  ∀ t ∈ h.tasks s, ∀ t' ∈ h.tasks s, h.name t = h.name t' → t = t'

mutual
/-- No pipe is in the argument. -/
inductive Unpiped : BArg → Prop
  | session (d : Option Obj) : Unpiped (.session d)
  | task (n : Option String) (d : Option Obj) : Unpiped (.task n d)
  | config : Unpiped .config
  | taskLogger : Unpiped .taskLogger
  | schedLogger : Unpiped .schedLogger
  | func (f : Nat) (sig : List BArg) : UnpipedAll sig → Unpiped (.func f sig)
/-- The same for a list of arguments. -/
inductive UnpipedAll : List BArg → Prop
  | nil : UnpipedAll []
  | cons (a : BArg) (l : List BArg) : Unpiped a → UnpipedAll l → UnpipedAll (a :: l)
end

/-- The arguments that are neither functions nor pipes. -/
def LeafArg : BArg → Prop
  | .func _ _ | .pipe _ => False
  | _ => True

end Rocketry.Spec
