import Verif.Base.Dict

/-!
# Model of the ways to make a task of a function, `FuncTask.__init__`, `FuncTask.__call__` and `FuncTask.validate_func`
(rocketry/tasks/func.py:144-207)

`@app.task(...)` is `FuncTask(name_include_module=False, _name_template=..., session=..., start_cond=..., name=...)`
applied to the function (rocketry/application.py:18-20, session.py:402-415).
-/

namespace Rocketry.Decorate

/-- Keyword arguments; a value stands for itself. -/
abbrev Opts := List (String × String)

/-- A function: whether it is a lambda. -/
structure Fn where
  id : Nat
  lam : Bool
  deriving DecidableEq, Repr

/-- A task: its function (`none`: imported when it runs) and what it was given. -/
structure Made where
  func : Option Fn
  opts : Opts
  deriving DecidableEq, Repr

/-- A `FuncTask` object: `shell`: created without a function, tasks/func.py:160-167. -/
inductive Thing where
  | shell (opts : Opts)
  | task (m : Made)
  deriving DecidableEq, Repr

/-- The objects of a program, the tasks in the session, and the log: tasks with a failed run. -/
structure World where
  things : List Thing
  tasks : List Made
  failed : List Made
  deriving DecidableEq, Repr

/-- What the program gets: an object, the function, or an exception. -/
inductive Answer where
  | thing (i : Nat)
  | fn (f : Fn)
  | error
  deriving DecidableEq, Repr

/-- `dict.get`. -/
def opt (o : Opts) (k : String) : Option String := (o.find? (fun p => decide (p.1 = k))).map Prod.snd

/-- `validate_func`, tasks/func.py:144-154: `values.get('execution')` is what was given to this task. -/
def refusesLambda (m : Made) : Bool := match m.func with
  | some f => decide (opt m.opts "execution" = some "process") && f.lam
  | none => false

/-- `Task.__init__` (core/task.py:305-332): the task is put to the session, unless it is refused.  `accept`: the other
checks (name, conditions, ...), which may depend on the tasks there are.  Simplified: a refused task leaves nothing
behind. -/
def make (accept : List Made → Made → Bool) (w : World) (m : Made) : Option World :=
  if refusesLambda m then none
  else if accept w.tasks m then some { w with tasks := w.tasks ++ [m] }
  else none

/-- `FuncTask(func, **opts)`, tasks/func.py:156-180. -/
def construct (accept : List Made → Made → Bool) (w : World) (func : Option Fn) (opts : Opts) : World × Answer :=
  match func with
  | none =>
    if opt opts "path" = none then ({ w with things := w.things ++ [.shell opts] }, .thing w.things.length)
    else match make accept w ⟨none, opts⟩ with
      | some w => ({ w with things := w.things ++ [.task ⟨none, opts⟩] }, .thing w.things.length)
      | none => (w, .error)
  | some f =>
    let opts := if opts = [] then [("execution", "thread")] else opts
    match make accept w ⟨some f, opts⟩ with
    | some w => ({ w with things := w.things ++ [.task ⟨some f, opts⟩] }, .thing w.things.length)
    | none => (w, .error)

/-- `thing(f)`, tasks/func.py:182-203: a shell becomes the task of the function, which is returned; a task is run, with the
function for its parameters: `Parameters(f)` raises a TypeError, so that a failed run is logged and TaskSetupError
raised (core/task.py:447-453, 482, 529-537, 793). -/
def call (accept : List Made → Made → Bool) (w : World) (i : Nat) (f : Fn) : World × Answer :=
  match w.things[i]? with
  | none => (w, .error)
  | some (.shell opts) => match make accept w ⟨some f, opts⟩ with
    | some w => ({ w with things := w.things.set i (.task ⟨some f, opts⟩) }, .fn f)
    | none => (w, .error)
  | some (.task m) => ({ w with failed := w.failed ++ [m] }, .error)

/-- What a program does. -/
inductive Act where
  | construct (func : Option Fn) (opts : Opts)
  | call (i : Nat) (f : Fn)
  deriving DecidableEq, Repr

/-- One step. -/
def step (accept : List Made → Made → Bool) (w : World) : Act → World × Answer
  | .construct f o => construct accept w f o
  | .call i f => call accept w i f

/-- A program (exceptions are caught). -/
def run (accept : List Made → Made → Bool) (w : World) (l : List Act) : World := l.foldl (fun w a => (step accept w a).1) w

/-- At the start. -/
def World.init : World := ⟨[], [], []⟩

end Rocketry.Decorate
