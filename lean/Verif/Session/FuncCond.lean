import Verif.Session.Args

/-!
# Model of conditions made from functions

`FuncCond` (rocketry/conditions/func.py), with what Python does when a function is called with positional and keyword
arguments.  Values are of an arbitrary type `V`; the bodies of functions are given from outside.
-/

namespace Rocketry.FuncConds

open Rocketry.Args

variable {V : Type}

/-- A parameter of a function: its name, whether it can only be given by keyword, its default.  Not modelled: parameters
that can only be given by position. -/
structure Par (V : Type) where
  name : String
  kwOnly : Bool
  default : Option (PVal V)

/-- A signature: the parameters, whether there is a `*args` and whether there is a `**kwargs`. -/
structure Sig (V : Type) where
  pars : List (Par V)
  varArgs : Bool
  varKw : Bool

/-- The values a function gets: of its parameters, in `*args`, in `**kwargs`. -/
structure Call (V : Type) where
  vals : Dict (PVal V)
  rest : List V
  extra : Dict V

/-- The parameters that can be given by position. -/
def Sig.positional (s : Sig V) : List String := (s.pars.filter (fun p => !p.kwOnly)).map (·.name)

/-- The keywords are not those of parameters given by position, and they are known or there is a `**kwargs`. -/
def Sig.accepts (s : Sig V) (taken : List String) (kw : Dict V) : Bool :=
  kw.all (fun x => !taken.contains x.1 && ((s.pars.map (·.name)).contains x.1 || s.varKw))

/-- The values of the parameters: given, or the default; without both `TypeError`. -/
def Sig.fill (given : Dict V) : List (Par V) → Except Err (Dict (PVal V))
  | [] => .ok []
  | p :: ps => match (match Dict.find given p.name with | some v => some (PVal.plain v) | none => p.default) with
    | none => .error .type
    | some v => match Sig.fill given ps with
      | .error e => .error e
      | .ok d => .ok ((p.name, v) :: d)

/-- `func(*args, **kw)`: the semantics of calls of Python (the keywords of `kw` are distinct). -/
def Sig.bind (s : Sig V) (args : List V) (kw : Dict V) : Except Err (Call V) :=
  if s.positional.length < args.length && !s.varArgs then .error .type
  else if !s.accepts (s.positional.take args.length) kw then .error .type
  else match Sig.fill (s.positional.zip args ++ kw) s.pars with
    | .error e => .error e
    | .ok d => .ok ⟨d, args.drop s.positional.length,
        kw.filter (fun x => !(s.pars.map (·.name)).contains x.1)⟩

/-- A function: its signature and what it does. -/
structure Func (V : Type) where
  sig : Sig V
  body : Call V → Except Err Bool

def Func.call (f : Func V) (args : List V) (kw : Dict V) : Except Err Bool := match f.sig.bind args kw with
  | .error e => .error e
  | .ok c => f.body c

/-- `Parameters._from_signature(func)`, rocketry/core/parameters/parameters.py:50-61: the parameters whose default is an
argument. -/
def Sig.argDefaults (s : Sig V) : Params V := s.pars.filterMap (fun p => match p.default with
  | some (.arg a) => some (p.name, .arg a)
  | _ => none)

/-- `f(**a, **b)`: `TypeError` if a keyword is given twice. -/
def joinKw (a b : Dict V) : Except Err (Dict V) :=
  if b.any (fun x => a.keys.contains x.1) then .error .type else .ok (a ++ b)

/-- A `FuncCond`, func.py:60-76; `func` is none until it has decorated a function. -/
structure FCond (V : Type) where
  func : Option (Func V)
  args : List V
  kwargs : Dict V

/-- `FuncCond.observe`, func.py:101-107.  `inspect.signature(None)` raises `TypeError`; so does a keyword named `self`,
which is a parameter of `get_state` itself. -/
def FCond.observe (n : Nat) (c : Ctx V) (x : FCond V) : Except Err Bool := match x.func with
  | none => .error .type
  | some f => match materialize n c f.sig.argDefaults with
    | .error e => .error e
    | .ok d => match joinKw x.kwargs d with
      | .error e => .error e
      | .ok kw => if kw.keys.contains "self" then .error .type else f.call x.args kw

/-- `FuncCond.__bool__`, func.py:98-99. -/
def FCond.bool (x : FCond V) : Except Err Bool := match x.func with
  | none => .error .type
  | some f => f.call x.args x.kwargs

/-- `_recreate`, func.py:78-83: a copy with other arguments. -/
def FCond.recreate (x : FCond V) (args : List V) (kw : Dict V) : FCond V := ⟨x.func, args, kw⟩

/-! ### conditions in a session -/

/-- A session as far as these conditions are concerned: the `FuncCond` objects that exist, the entries of `_cond_parsers`
made by them (the syntax and the object whose `_recreate` is called). -/
structure FSess (V : Type) where
  conds : List (FCond V)
  parsers : Dict Nat

/-- What happens: an object is made, with its syntaxes (func.py:60-76, 109-115); it is called while it has no function,
which decorates one, or afterwards, which makes a copy (func.py:85-95); a text is read
(rocketry/parse/_condition/condition_item.py:22-48). -/
inductive FEv (V : Type) where
  | make (func : Option (Func V)) (syntaxes : List String) (args : List V) (kw : Dict V)
  | decorate (i : Nat) (f : Func V)
  | call (i : Nat) (args : List V) (kw : Dict V)
  | text (t : String)

/-- The loop of `parse_condition_item`; `groups` tells whether a syntax matches a text and with which groups. -/
def found (groups : String → String → Option (Dict V)) : Dict Nat → String → Option (Nat × Dict V)
  | [], _ => none
  | (syn, i) :: l, t => match groups syn t with
    | some g => some (i, g)
    | none => found groups l t

/-- What one event does; a new object is the last one.  A keyword named `self` is an exception (`TypeError`), as is a call
of an object without a function that does not decorate one (func.py:86-87).  An object with a function is not decorated:
giving it a function is a call. -/
def FSess.step (groups : String → String → Option (Dict V)) (s : FSess V) : FEv V → FSess V
  | .make func syns args kw =>
    ⟨s.conds ++ [⟨func, args, kw⟩], syns.foldl (fun d syn => d.put syn s.conds.length) s.parsers⟩
  | .decorate i f => match s.conds[i]? with
    | some x => if x.func.isNone then ⟨s.conds.set i { x with func := some f }, s.parsers⟩ else s
    | none => s
  | .call i args kw => match s.conds[i]? with
    | some x => if x.func.isNone || kw.keys.contains "self" then s else ⟨s.conds ++ [x.recreate args kw], s.parsers⟩
    | none => s
  | .text t => match found groups s.parsers t with
    | none => s
    | some (i, g) => match s.conds[i]? with
      | some x => if g.keys.contains "self" then s else ⟨s.conds ++ [x.recreate [] g], s.parsers⟩
      | none => s

def FSess.run (groups : String → String → Option (Dict V)) (s : FSess V) (l : List (FEv V)) : FSess V :=
  l.foldl (FSess.step groups) s

end Rocketry.FuncConds
