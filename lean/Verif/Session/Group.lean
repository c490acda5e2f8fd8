import Verif.Session.Names
import Verif.Cond.Cond
import Verif.Base.Dict

/-!
# Model of groups

`include_grouper` (rocketry/application.py:34-43) with the group class (application.py:93-101).
-/

namespace Rocketry.Session
open Rocketry

/-- The options of a group, application.py:95-98; `start` is the condition given. -/
structure Grp (L : Type) where
  pre : String
  start : Option (Cond L)
  exec : Option String

/-- The session of a group and the one of the application, which refer to the same task objects after the inclusion.
`cond` and `exec` are the attributes `start_cond` and `execution` of the task objects, by identity. -/
structure World (L P : Type) where
  group : Sess
  app : Sess
  cond : Nat → Cond L
  exec : Nat → Option String
  groupParams : Dict P
  appParams : Dict P

variable {L P : Type}

/-- `task.name = group.prefix + task.name` if there is a prefix, application.py:36-37.  A missing prefix is the empty
one.  The validators look at the session of the task, which is the one of the group. -/
def World.renamed (w : World L P) (g : Grp L) (o : Obj) : World L P × Bool :=
  if g.pre = "" then (w, false)
  else ({ w with group := (w.group.rename o.id (g.pre ++ o.name)).1 }, (w.group.rename o.id (g.pre ++ o.name)).2)

/-- The name of the object as the session of the group has it (attribute `name`). -/
def World.nameOf (w : World L P) (o : Obj) : String := match w.group.tasks.find? (fun x => decide (x.id = o.id)) with
  | none => o.name
  | some x => x.name

/-- The condition of the task after `task.start_cond &= group.start_cond`, application.py:38-39.
Simplified: the copy of the top node by the validator (core/task.py:255-263) is the same tree here. -/
def joined (g : Grp L) (c : Cond L) : Cond L := match g.start with
  | none => c
  | some d => Cond.and c d

/-- `f` changed at `a`. -/
def setAt {α : Type} (f : Nat → α) (a : Nat) (v : α) : Nat → α := fun x => if x = a then v else f x

/-- Lines 38-40 of application.py. -/
def World.options (w : World L P) (g : Grp L) (o : Obj) : World L P :=
  { w with cond := setAt w.cond o.id (joined g (w.cond o.id)),
           exec := setAt w.exec o.id (match w.exec o.id with
             | none => g.exec
             | some e => some e) }

/-- `self.session.add_task(task)`, application.py:42. -/
def World.added (w : World L P) (o : Obj) : World L P × Bool :=
  ({ w with app := (w.app.addTask ⟨o.id, w.nameOf o⟩).1 }, (w.app.addTask ⟨o.id, w.nameOf o⟩).2)

/-- One turn of the loop, application.py:35-42, and whether it raised an exception. -/
def World.include1 (w : World L P) (g : Grp L) (o : Obj) : World L P × Bool := match w.renamed g o with
  | (w, true) => (w, true)
  | (w, false) => (w.options g o).added o

/-- The loop, application.py:35-42: an exception ends it. -/
def World.includeAll (w : World L P) (g : Grp L) : List Obj → World L P × Bool
  | [] => (w, false)
  | o :: l => match w.include1 g o with
    | (w, true) => (w, true)
    | (w, false) => w.includeAll g l

/-- `include_grouper`, application.py:34-43.  The iteration over the set of tasks is in some order; here in the order of
the list, which is arbitrary. -/
def World.includeGroup (w : World L P) (g : Grp L) : World L P × Bool := match w.includeAll g w.group.tasks with
  | (w, true) => (w, true)
  | (w, false) => ({ w with appParams := Dict.update w.appParams w.groupParams }, false)

end Rocketry.Session
