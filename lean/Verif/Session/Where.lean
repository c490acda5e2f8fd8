import Verif.Session.Args

/-!
# Model of the arguments of a task in threads and processes

`Arg`, `Return`, `FuncArg` with the arguments in the signature of its function, `TerminationFlag` (rocketry/args/builtin.py:38-70,
136-189, 191-260, 262-275) and `PipeArg` (rocketry/core/parameters/arguments.py:104-118); `stage` and `get_value` are
called at different places of a run: `_run_as_async` (rocketry/core/task.py:577-593), `run_as_thread` (658-675) with
`_run_as_thread` (677-705), `run_as_process` (707-739) with `_run_as_process` (741-783).  A process that is forked has the
session as it is; one that is spawned has a copy that went through `Task.__getstate__` (core/task.py:1277-1332) and
`Session._copy_pickle` (rocketry/session.py:538-548).

Compared to `Session/Args.lean` the functions of `FuncArg` get values for the arguments in their signature, so that it
matters in which session they are evaluated.  Parameters are taken to be picklable (see C49 for the others), functions
give the same result in parent and child, and nothing changes between the two calls.
-/

namespace Rocketry.Args

/-- Parameters of a run: values that are no arguments, and arguments. -/
inductive WArg (V : Type) where
  /-- not an argument -/
  | plain (v : V)
  /-- `SimpleArg(value)`, builtin.py:23-36 -/
  | simple (v : V)
  /-- `Arg(key, default)`, builtin.py:38-70 -/
  | sess (key : String) (default : Option V)
  /-- `Return(task_name, default)`, builtin.py:136-189 -/
  | ret (task : String) (default : Option V)
  /-- `FuncArg(func, materialize=...)`, builtin.py:191-260: the number of the function, whether it is evaluated in the
  child, and the arguments among the defaults of its signature -/
  | func (f : Nat) (post : Option Bool) (sig : List (WArg V))
  /-- `PipeArg(args)`, arguments.py:104-118 -/
  | pipe (args : List (WArg V))

/-- The session in which arguments are evaluated: its parameters (`none`: the attribute is None), the names of its tasks,
the return values, and what functions give for the values of their arguments. -/
structure WCtx (V : Type) where
  params : Option (Dict (WArg V))
  tasks : List String
  returns : Dict V
  call : Nat → List V → Except Err V

variable {V : Type}

/-- `Parameters._from_signature(func).materialize(...)`, builtin.py:246-247: the values in order, or the first
exception. -/
def values (f : WArg V → Except Err V) : List (WArg V) → Except Err (List V)
  | [] => .ok []
  | a :: l => match f a with
    | .error e => .error e
    | .ok v => match values f l with
      | .error e => .error e
      | .ok vs => .ok (v :: vs)

/-- The loop of `PipeArg.get_value`, arguments.py:112-118. -/
def firstOf (f : WArg V → Except Err V) : List (WArg V) → Except Err V
  | [] => .error .key
  | a :: rest => match f a with
    | .error .key => firstOf f rest
    | r => r

/-- `get_value(task=task, session=session)`, with the depth of the Python stack as fuel; `None._get` raises
AttributeError. -/
def wvalue : Nat → WCtx V → WArg V → Except Err V
  | 0, _, _ => .error .recursion
  | n + 1, c, a => match a with
    | .plain v => .ok v
    | .simple v => .ok v
    | .sess key d => match c.params with
      | none => .error .attr
      | some p => orDefault d (match Dict.find p key with
        | none => .error .key
        | some a => wvalue n c a)
    | .ret t d => if c.tasks.contains t then orDefault d (item c.returns t) else .error .value
    | .func f _ sig => match values (wvalue n c) sig with
      | .error e => .error e
      | .ok vs => c.call f vs
    | .pipe l => firstOf (wvalue n c) l

/-- `stage` of `Parameters.pre_materialize` (parameters.py:87-98), arguments.py:49-78 and builtin.py:250-256;
`postDefault` is whether `config.param_materialize` is "post". -/
def wstage (n : Nat) (c : WCtx V) (postDefault : Bool) : WArg V → Except Err (WArg V)
  | .plain v => .ok (.plain v)
  | .func f post sig =>
    if post.getD postDefault then .ok (.func f post sig) else (wvalue n c (.func f post sig)).map .plain
  | a => (wvalue n c a).map .plain

/-- Where a task is run; processes are forked or spawned, as the platform does. -/
inductive Place where | main | async | thread | fork | spawn
  deriving DecidableEq, Repr

/-- The session of a spawned process: `Session._copy_pickle`, session.py:538-548, sets the tasks and the parameters to
None; then `Session.__getstate__`, session.py:526-536, makes the tasks an empty set. -/
def WCtx.child (c : WCtx V) : WCtx V := { c with params := none, tasks := [] }

/-- What the function of the task gets for a parameter, core/task.py:593, 663-664, 712-713, 776. -/
def received (n : Nat) (c : WCtx V) (postDefault : Bool) (w : Place) (a : WArg V) : Except Err V :=
  match w with
  | .main | .async => wvalue n c a
  | .thread | .fork => match wstage n c postDefault a with
    | .error e => .error e
    | .ok b => wvalue n c b
  | .spawn => match wstage n c postDefault a with
    | .error e => .error e
    | .ok b => wvalue n c.child b

/-- What a function gets for a termination flag: the event of its run, another event that nobody sets, or None. -/
inductive Flag where | own | fresh | none
  deriving DecidableEq, Repr

/-- `TerminationFlag.get_value`, builtin.py:264-269; `own` is `task.execution`, which is None when it is the one of the
session; `event` is whether the event of the run is passed. -/
def flagValue (own : Option Execution) (event : Bool) : Flag :=
  if own = some .process ∨ own = some .main then .fresh else if event then .own else .none

/-- The flag in a run with execution `e`: evaluated by `stage` in threads, with the event, and in processes, without it
(core/task.py:663-664, 712-713), otherwise by `materialize` (593). -/
def runFlag (own : Option Execution) (session : Execution) : Flag :=
  match own.getD session with
  | .thread => flagValue own true
  | _ => flagValue own false

end Rocketry.Args
