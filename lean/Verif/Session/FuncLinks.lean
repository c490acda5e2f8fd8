import Verif.Time.Interval

/-!
# Model of the attribute `__rocketry__` of functions

Decorators that make tasks or session parameters of a function note the name in an attribute of the function, by which
`session[func]` and `session.parameters[func]` find the task and the parameter again.  There may be several sessions.
-/

namespace Rocketry.Links

/-- What `func.__rocketry__` says: `{'name': ...}` (rocketry/tasks/func.py:205) or `{'param_name': ...}`
(rocketry/parameters/func.py:43). -/
inductive Link where
  | task (name : String)
  | param (name : String)
  deriving DecidableEq, Repr

/-- A task in a session: its identity, its function and its name (`session.tasks`). -/
structure TaskObj where
  id : Nat
  func : Nat
  name : String
  deriving DecidableEq, Repr

/-- A value in `session.parameters`: `FuncArg(func)`, or something else. -/
inductive PValue where
  | func (f : Nat)
  | other (v : Nat)
  deriving DecidableEq, Repr

structure Session where
  tasks : List TaskObj
  params : List (String × PValue)
  deriving Repr

/-- All sessions and functions (both numbered), and the number of the next task. -/
structure World where
  session : Nat → Session
  link : Nat → Option Link
  next : Nat

def World.init : World := ⟨fun _ => ⟨[], []⟩, fun _ => none, 0⟩

/-- `session.tasks` has a task of this name. -/
def Session.has (s : Session) (n : String) : Bool := s.tasks.any fun t => decide (t.name = n)

/-- `params[name] = value` of a dict. -/
def Session.setParam (s : Session) (n : String) (v : PValue) : Session :=
  { s with params := (n, v) :: s.params.filter fun p => !decide (p.1 = n) }

def World.setSession (w : World) (i : Nat) (s : Session) : World :=
  { w with session := fun j => if j = i then s else w.session j }

def World.setLink (w : World) (f : Nat) (l : Link) : World :=
  { w with link := fun g => if g = f then some l else w.link g }

/-- What programs do.  `decorate`: `@FuncTask(name=..., session=...)`, `@app.task(...)` applied to a function; `create`:
`FuncTask(func, ...)`; `param`: `@FuncParam(name, session)`, `@app.param(...)`; `assign`: `session.parameters[name] = value`;
`remove`: `session.remove_task(...)`. -/
inductive Act where
  | decorate (s f : Nat) (name : String)
  | create (s f : Nat) (name : String)
  | param (s f : Nat) (name : String)
  | assign (s : Nat) (name : String) (v : Nat)
  | remove (s : Nat) (name : String)
  deriving DecidableEq, Repr

/-- Adding a task to a session, rocketry/session.py:417-433 with the option `task_pre_exist="raise"` (the default):
refused if there is one of the name. -/
def addTask (w : World) (s f : Nat) (name : String) : Option World :=
  if (w.session s).has name then none
  else some { w.setSession s { w.session s with tasks := (w.session s).tasks ++ [⟨w.next, f, name⟩] } with next := w.next + 1 }

/-- One step: rocketry/tasks/func.py:190-207 (the attribute is set when the task has been made), 165-188 (no attribute),
rocketry/parameters/func.py:38-44, rocketry/session.py:435-439 (`remove_task`).  A refused step changes nothing. -/
def step (w : World) : Act → World
  | .decorate s f name => match addTask w s f name with
    | none => w
    | some w' => w'.setLink f (.task name)
  | .create s f name => (addTask w s f name).getD w
  | .param s f name => (w.setSession s ((w.session s).setParam name (.func f))).setLink f (.param name)
  | .assign s name v => w.setSession s ((w.session s).setParam name (.other v))
  | .remove s name => w.setSession s { w.session s with tasks := (w.session s).tasks.filter fun t => !decide (t.name = name) }

def run (w : World) (l : List Act) : World := l.foldl step w

/-- `session[func]`, rocketry/session.py:199-212, 227-233: the attribute has to be there (TypeError), to have a name
(KeyError), and there has to be a task of that name (KeyError). -/
def getTask (w : World) (s f : Nat) : Except PyErr TaskObj := match w.link f with
  | none => .error .type
  | some (.param _) => .error .key
  | some (.task n) => match (w.session s).tasks.find? fun t => decide (t.name = n) with
    | none => .error .key
    | some t => .ok t

/-- `func in session`, rocketry/session.py:235-242: only KeyError is caught. -/
def hasTask (w : World) (s f : Nat) : Except PyErr Bool := match getTask w s f with
  | .ok _ => .ok true
  | .error .key => .ok false
  | .error e => .error e

/-- `session.parameters[func]` before the argument is evaluated, rocketry/core/parameters/parameters.py:70-75: without a
parameter name in the attribute the function itself is the key, which is not in the dict. -/
def getParam (w : World) (s f : Nat) : Except PyErr PValue := match w.link f with
  | some (.param n) => match (w.session s).params.find? fun p => decide (p.1 = n) with
    | none => .error .key
    | some p => .ok p.2
  | _ => .error .key

end Rocketry.Links
