import Verif.Session.Names
import Verif.Task.Hooks

/-!
# Model of the creation of tasks: hooks, default session and default names

`Task.__init__` and `Task._get_name` (rocketry/core/task.py:305-340), `Session.set_as_default`, `Session.hook_task_init`
(rocketry/session.py:559-568, 588-592) and `RedBase.session` (rocketry/_base.py:6-8).  The names of the tasks are those
of `Verif.Session.Names`, the hooks those of `Verif.Task.Hooks`.
-/

namespace Rocketry.Creation
open Rocketry.Hooks Rocketry.Session

/-- The sessions of a program, by number: their tasks, `hooks.task_init`, `config.use_instance_naming`, and the
session that `RedBase.session` refers to. -/
structure World where
  sess : Nat → Sess
  hooks : Nat → List Hook
  naming : Nat → Bool
  dflt : Nat

/-- What a program does. -/
inductive Act where
  /-- `session.set_as_default()`; also done by `app.run()` and `app.serve()`, application.py:57-67 -/
  | makeDefault (s : Nat)
  /-- `session.hook_task_init()(hook)` -/
  | hook (s : Nat) (h : Hook)
  /-- `session.config.use_instance_naming = b` -/
  | naming (s : Nat) (b : Bool)
  /-- an operation on the tasks of a session -/
  | tasks (s : Nat) (op : Op)
  /-- a task is created in session `s`, with a name or without; `auto` is the result of `get_default_name`, `ident` is
  the text of `id(self)` -/
  | create (s : Nat) (name : Option String) (auto ident : String)
  deriving DecidableEq, Repr

/-- The creation of a task: the session, the events (`task`: the task is registered), the name of the task if it is
registered, and whether an exception was raised. -/
structure Report where
  sess : Nat
  events : List (Ev Unit)
  name : Option String
  raised : Bool
  deriving DecidableEq, Repr

/-- `_get_name`, core/task.py:334-340: at this point `self.session` is the attribute of the class `RedBase`, as the
fields of the task are not set yet. -/
def World.getName (w : World) (name : Option String) (auto ident : String) : String := match name with
  | some n => n
  | none => if w.naming w.dflt then ident else auto

/-- `f` with another value at `a`. -/
def put {β : Type} (f : Nat → β) (a : Nat) (b : β) : Nat → β := fun x => if x = a then b else f x

/-- `Task.__init__`, core/task.py:305-332: the hooks are those of `self.session`, which is `RedBase.session` (see
`getName`).  If a first part fails, or the task is refused, the exception leaves `__init__` and no second part is
run.  The creation of a task without a session (task.py:310-312) is the creation in a session that is used for nothing
else. -/
def World.initTask (w : World) (s : Nat) (name : Option String) (auto ident : String) : World × Report :=
  match prerun (α := Unit) (w.hooks w.dflt) with
  | (e, _, true) => (w, ⟨s, e, none, true⟩)
  | (e, kept, false) =>
    match (w.sess s).create (w.getName name auto ident) none with
    | (_, true) => (w, ⟨s, e, none, true⟩)
    | (x, false) =>
      ({ w with sess := put w.sess s x },
        ⟨s, e ++ [.task] ++ (postrun () kept).1, (w.sess s).checkName (w.getName name auto ident), (postrun () kept).2⟩)

/-- One step of the program. -/
def World.act (w : World) : Act → World × List Report
  | .makeDefault s => ({ w with dflt := s }, [])
  | .hook s h => ({ w with hooks := put w.hooks s (w.hooks s ++ [h]) }, [])
  | .naming s b => ({ w with naming := put w.naming s b }, [])
  | .tasks s op => ({ w with sess := put w.sess s ((w.sess s).step op).1 }, [])
  | .create s n a i => match w.initTask s n a i with
    | (w', r) => (w', [r])

/-- A program: the state it leaves and its creations in order. -/
def World.run (w : World) : List Act → World × List Report
  | [] => (w, [])
  | a :: as => match w.act a with
    | (w', r) => match w'.run as with
      | (w'', rs) => (w'', r ++ rs)

/-- At the start: no tasks, no hooks, no instance naming (session.py:48, 121-127), and session 0 made by
rocketry/__init__.py:23-24 is the default. -/
def World.init (p : Nat → Policy) : World := ⟨fun s => Sess.init (p s), fun _ => [], fun _ => false, 0⟩

end Rocketry.Creation
