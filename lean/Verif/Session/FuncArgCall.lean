import Verif.Session.FuncCond

/-!
# Model of the call of the function of a `FuncArg`

`FuncArg.__init__` and `__call__` (rocketry/args/builtin.py:236-248), `argument` (builtin.py:315-318) and
`Parameters.param_func` (rocketry/core/parameters/parameters.py:122-147).  Signatures and calls are those of
`Session/FuncCond.lean`; the result is the call, that is the values with which the body of the function is run.
-/

namespace Rocketry.FuncConds

open Rocketry.Args

variable {V : Type}

/-- A `FuncArg`: the signature of its function, the arguments for it, and where it is evaluated. -/
structure FArg (V : Type) where
  sig : Sig V
  args : List V
  kwargs : Dict V
  place : Option V

/-- `FuncArg(func, *args, **kw)`, builtin.py:236-240, and `@argument(**kw)`, 315-318: the keyword `materialize` is taken
out. -/
def FArg.make (sig : Sig V) (args : List V) (kw : Dict V) : FArg V :=
  ⟨sig, args, kw.filter (fun x => !decide (x.1 = "materialize")), Dict.find kw "materialize"⟩

/-- `__call__`, builtin.py:245-248, up to the body of the function. -/
def FArg.called (n : Nat) (c : Ctx V) (x : FArg V) : Except Err (Call V) :=
  match materialize n c x.sig.argDefaults with
  | .error e => .error e
  | .ok d => match joinKw d x.kwargs with
    | .error e => .error e
    | .ok kw => x.sig.bind x.args kw

/-- `param_func`, parameters.py:140-141, with `filter_keyword_args` (rocketry/core/utils/meta.py:6-24): `default` is
`self.session`, the session that is the default at the time (rocketry/_base.py:8). -/
def paramFunc (default : V) (sig : Sig V) : FArg V :=
  FArg.make sig [] (if (sig.pars.map (·.name)).contains "session" then [("session", default)] else [])

end Rocketry.FuncConds
