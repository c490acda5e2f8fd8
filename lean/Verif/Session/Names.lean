import Verif.Base.Free

/-!
# Model of the tasks of a session and their names

`Session.__getitem__`, `__contains__`, `add_task`, `remove_task`, `clear` (rocketry/session.py:199-242, 417-439,
518-524), the validators of `Task.name` (rocketry/core/task.py:342-372, used at creation and, as the model validates
assignments, when `name` is assigned) and the link from a decorated function to its task (rocketry/tasks/func.py:190-207).
-/

namespace Rocketry.Session

/-- `config.task_pre_exist`, session.py:51: any text is accepted. -/
inductive Policy where | raise | rename | ignore | replace | other
  deriving DecidableEq, Repr

/-- A task object.  Sets of tasks compare by identity (core/task.py:387-388). -/
structure Obj where
  id : Nat
  name : String
  deriving DecidableEq, Repr

/-- A session: `outside` are the task objects that are not (or no longer) in the session, `fn` gives the name stored in
the attribute `__rocketry__` of a function. -/
structure Sess where
  policy : Policy
  tasks : List Obj
  outside : List Obj
  fn : Nat → Option String
  next : Nat

/-- `session[name]`, session.py:227-233. -/
def Sess.get (s : Sess) (n : String) : Option Obj := s.tasks.find? (fun o => decide (o.name = n))

/-- `name in session`, session.py:235-242. -/
def Sess.has (s : Sess) (n : String) : Bool := (s.get n).isSome

/-- `session[function]`, session.py:199-212, 227-233. -/
def Sess.getFn (s : Sess) (f : Nat) : Option Obj := match s.fn f with
  | none => none
  | some n => s.get n

/-- `f"{basename} - {num}"`, core/task.py:358. -/
def numbered (base : String) (n : Nat) : String := base ++ " - " ++ Nat.repr n

/-- The loop of `parse_name`, core/task.py:352-359, for a name that exists. -/
def Sess.freshName (s : Sess) (base : String) : Option String :=
  (seek (fun i => s.has (numbered base i)) (s.tasks.length + 1) 1).map (numbered base)

/-- `parse_name`, core/task.py:342-360; `none`: an exception. -/
def Sess.parseName (s : Sess) (v : String) : Option String :=
  if s.has v then match s.policy with
    | .ignore => some v
    | .raise => none
    | .rename => s.freshName v
    | _ => some v
  else some v

/-- `validate_name`, core/task.py:362-372. -/
def Sess.validateName (s : Sess) (v : String) : Option String :=
  if s.has v then if s.policy = .ignore then some v else none
  else some v

/-- Both validators. -/
def Sess.checkName (s : Sess) (v : String) : Option String := match s.parseName v with
  | none => none
  | some v => s.validateName v

/-- `add_task`, session.py:417-433, for an object that is outside of the session or, with `inside`, in it: the
session and whether an exception was raised.  A name that exists: `replace` removes the given object (KeyError if it is
not in the session) and adds it again; with another policy than the four named nothing happens. -/
def Sess.addTask (s : Sess) (o : Obj) : Sess × Bool :=
  if s.has o.name then match s.policy with
    | .ignore => (s, false)
    | .replace => if o ∈ s.tasks then (s, false) else (s, true)
    | .raise => (s, true)
    | _ => (s, false)
  else ({ s with tasks := o :: s.tasks, outside := s.outside.filter (fun x => decide (x.id ≠ o.id)) }, false)

/-- Operations on a session. -/
inductive Op where
  /-- a task is created under a name; by decoration of a function -/
  | create (name : String) (fn : Option Nat)
  /-- `session.add_task(task)` -/
  | add (id : Nat)
  /-- `task.name = ...` -/
  | rename (id : Nat) (name : String)
  /-- `session.remove_task(task)` -/
  | removeObj (id : Nat)
  /-- `session.remove_task(name)` -/
  | removeName (name : String)
  | clear
  /-- assignment to `config.task_pre_exist` -/
  | setPolicy (p : Policy)
  deriving DecidableEq, Repr

/-- `f` changed at `a`. -/
def setFn (fn : Nat → Option String) (f : Option Nat) (n : String) : Nat → Option String := match f with
  | none => fn
  | some f => fun x => if x = f then some n else fn x

/-- A new task object, not registered yet. -/
def Sess.born (s : Sess) (v : String) : Sess :=
  { s with outside := (⟨s.next, v⟩ : Obj) :: s.outside, next := s.next + 1 }

/-- `Task.__init__`, core/task.py:305-332 with `register` 901-906, and `FuncTask.__call__`, tasks/func.py:190-207. -/
def Sess.create (s : Sess) (name : String) (f : Option Nat) : Sess × Bool :=
  match s.checkName name with
  | none => (s, true)
  | some v => match (s.born v).addTask ⟨s.next, v⟩ with
    | (_, true) => (s, true)
    | (s', false) => ({ s' with fn := setFn s'.fn f v }, false)

/-- Objects taken out of the session. -/
def Sess.removeBy (s : Sess) (p : Obj → Bool) : Sess :=
  { s with tasks := s.tasks.filter (fun o => !p o), outside := s.tasks.filter p ++ s.outside }

/-- The object with a given identity. -/
def Sess.object (s : Sess) (id : Nat) : Option Obj := (s.tasks ++ s.outside).find? (fun o => decide (o.id = id))

/-- `session.add_task(task)`. -/
def Sess.addId (s : Sess) (id : Nat) : Sess × Bool := match s.object id with
  | none => (s, false)
  | some o => s.addTask o

/-- The object with a new name. -/
def Obj.renamed (id : Nat) (v : String) (o : Obj) : Obj := if o.id = id then { o with name := v } else o

/-- `task.name = ...`: both validators of `name` run, as `Config.validate_assignment` is set (core/task.py:195-198). -/
def Sess.rename (s : Sess) (id : Nat) (n : String) : Sess × Bool := match s.checkName n with
  | none => (s, true)
  | some v =>
    ({ s with tasks := s.tasks.map (Obj.renamed id v), outside := s.outside.map (Obj.renamed id v) }, false)

/-- `session.remove_task(task)`, session.py:435-439; KeyError if the task is not in the session. -/
def Sess.removeObj (s : Sess) (id : Nat) : Sess × Bool :=
  if s.tasks.any (fun o => decide (o.id = id)) then (s.removeBy (fun o => decide (o.id = id)), false)
  else (s, true)

/-- `session.remove_task(name)`, session.py:435-439. -/
def Sess.removeName (s : Sess) (n : String) : Sess × Bool := match s.get n with
  | none => (s, true)
  | some x => (s.removeBy (fun o => decide (o.id = x.id)), false)

/-- `session.clear()`, session.py:518-524. -/
def Sess.clear (s : Sess) : Sess := { s with tasks := [], outside := s.tasks ++ s.outside }

/-- The effect of an operation, and whether it raises an exception. -/
def Sess.step (s : Sess) : Op → Sess × Bool
  | .create n f => s.create n f
  | .add id => s.addId id
  | .rename id n => s.rename id n
  | .removeObj id => s.removeObj id
  | .removeName n => s.removeName n
  | .clear => (s.clear, false)
  | .setPolicy p => ({ s with policy := p }, false)

/-- A sequence of operations (exceptions are caught by the program). -/
def Sess.run (s : Sess) (l : List Op) : Sess := l.foldl (fun s op => (s.step op).1) s

/-- A new session. -/
def Sess.init (p : Policy) : Sess := ⟨p, [], [], fun _ => none, 0⟩

/-- `increment`, rocketry/tasks/run_id.py:4-10; `ids` are the ids of the runs in the run stack. -/
def increment (ids : List (Option String)) : Option String :=
  (seek (fun i => ids.contains (some (Nat.repr i))) (ids.length + 1) 1).map Nat.repr

end Rocketry.Session
