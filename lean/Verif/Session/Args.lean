import Verif.Base.Dict

/-!
# Model of arguments

`BaseArgument`, `PipeArg` (rocketry/core/parameters/arguments.py:9-118), the arguments of rocketry/args/builtin.py and
`Private` (rocketry/args/secret.py).  Values are of an arbitrary type `V`; what functions return is given from outside.
`Session`, `Config`, `TaskLogger` and `SchedulerLogger` are in `Session/Builtin.lean`, `TerminationFlag` in `Session/Where.lean`.
-/

namespace Rocketry.Args

/-- Kinds of exceptions. -/
inductive Err where | key | value | index | attr | type | recursion | other
  deriving DecidableEq, Repr

/-- Arguments. -/
inductive Arg (V : Type) where
  /-- `SimpleArg(value)`, builtin.py:23-36 -/
  | simple (v : V)
  /-- `Private(value)`, secret.py:4-33 -/
  | priv (v : V)
  /-- `Arg(key, default)`, builtin.py:38-70 -/
  | sess (key : String) (default : Option V)
  /-- `Return(task_name, default)`, builtin.py:136-189 -/
  | ret (task : String) (default : Option V)
  /-- `EnvArg(var, default)`, builtin.py:277-290 -/
  | env (var : String) (default : Option V)
  /-- `CliArg(param, default)`, builtin.py:292-314 -/
  | cli (param : String) (default : Option V)
  /-- `FuncArg(func, materialize=...)`, builtin.py:191-260; the function is given by a number, `post` tells whether it
  is materialised in the child -/
  | func (f : Nat) (post : Option Bool)
  /-- `Task()`, builtin.py:92-113, without a name -/
  | task
  /-- `PipeArg(args)`, arguments.py:104-118 -/
  | pipe (args : List (Arg V))

/-- A value of a parameter: an object or an argument. -/
inductive PVal (V : Type) where
  | plain (v : V)
  | arg (a : Arg V)

/-- The surroundings in which an argument is evaluated: whether `task` and `session` are passed to `get_value`, the
parameters, tasks and return values of the session, the environment variables and the command line; `txt` makes a value
from a text, `func` gives what the functions return (or raise) with the same keywords, `self` is the task. -/
structure Ctx (V : Type) where
  task : Bool
  session : Bool
  params : Dict (PVal V)
  tasks : List String
  returns : Dict V
  environ : Dict V
  argv : List String
  txt : String → V
  func : Nat → Bool → Bool → Except Err V
  self : V

variable {V : Type}

/-- `except KeyError: if self.default is NOTSET: raise; return self.default`. -/
def orDefault (default : Option V) (r : Except Err V) : Except Err V := match r, default with
  | .error .key, some v => .ok v
  | r, _ => r

/-- `d[k]`. -/
def item {α : Type} (d : Dict α) (k : String) : Except Err α := match Dict.find d k with
  | none => .error .key
  | some v => .ok v

/-- `CliArg._get_arg`, builtin.py:304-314. -/
def cliValue (txt : String → V) (param : String) (default : Option V) : List String → Except Err V
  | [] => match default with
    | none => .error .key
    | some v => .ok v
  | a :: rest => if a = param then match rest with
      | [] => .error .index
      | b :: _ => .ok (txt b)
    else cliValue txt param default rest

/-- The loop of `PipeArg.get_value`, arguments.py:112-118. -/
def firstValue (f : Arg V → Except Err V) : List (Arg V) → Except Err V
  | [] => .error .key
  | a :: rest => match f a with
    | .error .key => firstValue f rest
    | r => r

/-- The text that hides a secret, secret.py:11. -/
def hidden : String := "*****"

/-- `get_value`, with the depth of the Python stack as fuel. -/
def getValue : Nat → Ctx V → Arg V → Except Err V
  | 0, _, _ => .error .recursion
  | n + 1, c, a => match a with
    | .simple v => .ok v
    | .priv v => .ok (if c.task then v else c.txt hidden)
    | .sess key d =>
      if c.session || c.task then
        orDefault d (match Dict.find c.params key with
          | none => .error .key
          | some (.plain v) => .ok v
          | some (.arg a) => getValue n { c with session := true } a)
      else .error .attr
    | .ret t d =>
      if c.session || c.task then
        if c.tasks.contains t then orDefault d (item c.returns t) else .error .value
      else .error .attr
    | .env var d => orDefault d (item c.environ var)
    | .cli param d => cliValue c.txt param d c.argv
    | .func f _ => c.func f c.task c.session
    | .task => if c.task then .ok c.self else .error .type
    | .pipe l => firstValue (getValue n c) l

/-- The arguments of a pipe, arguments.py:97-101. -/
def parts : Arg V → List (Arg V)
  | .pipe l => l
  | a => [a]

/-- `a >> b`, arguments.py:93-102. -/
def shift (a b : Arg V) : Arg V := .pipe (parts a ++ parts b)

/-- Neither a task nor a session is passed, as in `self.get_value()`. -/
def Ctx.bare (c : Ctx V) : Ctx V := { c with task := false, session := false }

/-- `repr(arg)`; `rep` is `repr` of values and `name` gives the names of functions.  arguments.py:86-88, builtin.py:64,
112, 185, 258, secret.py:27-29. -/
def argRepr (n : Nat) (c : Ctx V) (rep : V → String) (repText : String → String) (name : Nat → String) :
    Arg V → Except Err String
  | .simple v => .ok ("SimpleArg(" ++ rep v ++ ")")
  | .priv _ => .ok ("Private(" ++ hidden ++ ")")
  | .sess key _ => .ok ("session.parameters[" ++ repText key ++ "]")
  | .ret t d => .ok ("Return(" ++ repText t ++ ", default=" ++ (match d with
      | none => "NOTSET"
      | some v => rep v) ++ ")")
  | .func f _ => .ok ("FuncArg(" ++ name f ++ ")")
  | .task => .ok "Task()"
  | .env x d => (getValue n c.bare (.env x d)).map fun v => "EnvArg(" ++ rep v ++ ")"
  | .cli x d => (getValue n c.bare (.cli x d)).map fun v => "CliArg(" ++ rep v ++ ")"
  | .pipe l => (getValue n c.bare (.pipe l)).map fun v => "PipeArg(" ++ rep v ++ ")"

/-- `str(arg)`; `str` is `str` of values.  arguments.py:90-91, builtin.py:61-62, 188-189, secret.py:31-32. -/
def argStr (n : Nat) (c : Ctx V) (str : V → String) (repText : String → String) : Arg V → Except Err String
  | .priv _ => .ok hidden
  | .sess key _ => .ok key
  | .ret t _ => .ok ("Return of " ++ repText t)
  | a => (getValue n c.bare a).map str

/-! ### Parameters -/

/-- `Parameters`, core/parameters/parameters.py:16-48. -/
abbrev Params (V : Type) := Dict (PVal V)

/-- The value of a parameter. -/
def pvalue (n : Nat) (c : Ctx V) : PVal V → Except Err V
  | .plain v => .ok v
  | .arg a => getValue n c a

/-- A value made for every item, in order; the first exception ends it. -/
def mapItems {α β : Type} (f : α → Except Err β) : Dict α → Except Err (Dict β)
  | [] => .ok []
  | (k, a) :: d => match f a with
    | .error e => .error e
    | .ok b => match mapItems f d with
      | .error e => .error e
      | .ok d => .ok ((k, b) :: d)

/-- `params[key]`, parameters.py:70-85: nothing is passed to `get_value`. -/
def getItem (n : Nat) (c : Ctx V) (p : Params V) (k : String) : Except Err V := match item p k with
  | .error e => .error e
  | .ok v => pvalue n c.bare v

/-- `materialize`, parameters.py:100-112. -/
def materialize (n : Nat) (c : Ctx V) (p : Params V) : Except Err (Dict V) := mapItems (pvalue n c) p

/-- `stage`, arguments.py:49-78, and `FuncArg.stage`, builtin.py:250-256; `postDefault` is whether
`config.param_materialize` is "post". -/
def stage (n : Nat) (c : Ctx V) (postDefault : Bool) : PVal V → Except Err (PVal V)
  | .plain v => .ok (.plain v)
  | .arg (.func f post) => if (post.getD postDefault) then .ok (.arg (.func f post))
      else (getValue n c (.func f post)).map .plain
  | .arg a => (getValue n c a).map .plain

/-- `pre_materialize`, parameters.py:87-98. -/
def preMaterialize (n : Nat) (c : Ctx V) (postDefault : Bool) (p : Params V) : Except Err (Params V) :=
  mapItems (stage n c postDefault) p

/-- `repr(params)`, parameters.py:149-152. -/
def reprParams (n : Nat) (c : Ctx V) (rep : V → String) (repText : String → String) (name : Nat → String)
    (p : Params V) : Except Err String :=
  (mapItems (fun v => match v with
    | .plain v => .ok (rep v)
    | .arg a => argRepr n c rep repText name a) p).map
      fun d => "Parameters(" ++ ", ".intercalate (d.map fun x => x.1 ++ "=" ++ x.2) ++ ")"

/-! ### The union of parameters -/

/-- What Python objects are to the constructor of `Parameters`: whether they are None, the items of those that are
mappings, and what they do when called with one value. -/
structure Special (V : Type) where
  isNone : PVal V → Bool
  items : PVal V → Option (Params V)
  call : PVal V → PVal V → Except Err (PVal V)

/-- `Parameters(**kw)`, parameters.py:36-48: the names `self`, `_param` and `type_` are those of its own parameters. -/
def construct (o : Special V) (kw : Params V) : Except Err (Params V) :=
  if (Dict.find kw "self").isSome then .error .type
  else
    let rest := kw.filter fun x => x.1 ≠ "_param" ∧ x.1 ≠ "type_"
    let all : Except Err (Params V) := match Dict.find kw "_param" with
      | none => .ok rest
      | some v => if o.isNone v then .ok rest else match o.items v with
        | none => .error .type
        | some m => .ok (Dict.update rest m)
    match all with
    | .error e => .error e
    | .ok all => match Dict.find kw "type_" with
      | none => .ok all
      | some t => if o.isNone t then .ok all else mapItems (o.call t) all

/-- `p | q`, parameters.py:154-160. -/
def union (o : Special V) (p q : Params V) : Except Err (Params V) := construct o (Dict.update p q)

/-! ### The parameters of a run -/

inductive Execution where | main | async | thread | process
  deriving DecidableEq, Repr

/-- A task with a function (`FuncTask`; `delayed`: given by a path, tasks/func.py:210-220) or another class of task with
its own `execute`. -/
inductive Kind where
  | func (delayed : Bool)
  | cls
  deriving DecidableEq, Repr

/-- What a run gets its parameters from: the names in the signature of the function (or of `execute`) that can be
keywords, the arguments among its defaults (`_from_signature`, parameters.py:50-61; none for classes), the parameters of
the task, of the batch, those passed to `start_async` and the extra ones (`_session_`, `_task_`, `_thread_terminate_`).
Session parameters are those of the surroundings. -/
structure Setup (V : Type) where
  kind : Kind
  names : List String
  defaults : Params V
  own : Params V
  batch : Params V
  passed : Params V
  extra : Params V
  execution : Execution
  postDefault : Bool
  picklable : PVal V → Bool
  special : Special V

/-- `prefilter_params`: FuncTask tasks/func.py:286-297; other classes core/task.py:813-832 with
core/utils/meta.py:6-24, where `kwargs.update(_params)` reads the items of the Parameters, which evaluates them
without a task. -/
def prefilter (n : Nat) (c : Ctx V) (s : Setup V) (p : Params V) : Except Err (Params V) := match s.kind with
  | .func false => .ok (p.filter fun x => s.names.contains x.1)
  | .func true => .ok p
  | .cls => match mapItems (pvalue n c.bare) p with
    | .error e => .error e
    | .ok d => .ok ((d.map fun x => (x.1, PVal.plain x.2)).filter fun x => s.names.contains x.1)

/-- `postfilter_params`: tasks/func.py:299-306; core/task.py:834-854. -/
def postfilter (s : Setup V) (p : Params V) : Params V := match s.kind with
  | .func true => p.filter fun x => s.names.contains x.1
  | _ => p

/-- `get_extra_params`, core/task.py:785-801. -/
def extraParams (n : Nat) (c : Ctx V) (s : Setup V) : Except Err (Params V) :=
  match union s.special c.params s.passed with
  | .error e => .error e
  | .ok p => match union s.special p s.extra with
    | .error e => .error e
    | .ok p => prefilter n c s p

/-- `_get_direct_params`, core/task.py:803-811 and tasks/func.py:210-220, 273-284.  For a function that is given the
union is made once, when the task is created (tasks/func.py:218-219). -/
def directParams (s : Setup V) : Except Err (Params V) := match s.kind with
  | .cls => .ok (Dict.update s.own s.batch)
  | .func _ => match union s.special s.defaults s.own with
    | .error e => .error e
    | .ok p => .ok (Dict.update p s.batch)

/-- `Parameters.__getstate__`, parameters.py:175-185: what does not pickle is dropped on the way to a process. -/
def sent (s : Setup V) (p : Params V) : Params V := if s.execution = .process then p.filter fun x => s.picklable x.2 else p

/-- The staging of threads and processes, core/task.py:663-664, 712-713. -/
def staged (n : Nat) (c : Ctx V) (s : Setup V) (p : Params V) : Except Err (Params V) := match s.execution with
  | .thread | .process => preMaterialize n c s.postDefault p
  | _ => .ok p

/-- What `execute` is called with: core/task.py:482-516 and 591-599.  `c` has the task and the session. -/
def callParams (n : Nat) (c : Ctx V) (s : Setup V) : Except Err (Dict V) := match extraParams n c s with
  | .error e => .error e
  | .ok p => match directParams s with
    | .error e => .error e
    | .ok q => match union s.special p q with
      | .error e => .error e
      | .ok _ => match staged n c s p with
        | .error e => .error e
        | .ok p => match staged n c s q with
          | .error e => .error e
          | .ok q => match union s.special (postfilter s (sent s p)) (sent s q) with
            | .error e => .error e
            | .ok r => materialize n c r

end Rocketry.Args
