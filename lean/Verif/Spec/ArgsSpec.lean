import Verif.Session.Args

/-!
# Arguments and parameters, in plain words
-/

namespace Rocketry.Spec
open Rocketry.Args

variable {V : Type}

/-- Arguments joined by `>>`, with any brackets. -/
inductive Chain (V : Type) where
  | one (a : Arg V)
  | join (l r : Chain V)

/-- The arguments of a chain, from left to right. -/
def Chain.args : Chain V → List (Arg V)
  | .one a => [a]
  | .join l r => l.args ++ r.args

/-- The Python object. -/
def Chain.build : Chain V → Arg V
  | .one a => a
  | .join l r => shift l.build r.build

/-- The argument is not a pipe itself. -/
def Single (a : Arg V) : Prop := ∀ l, a ≠ .pipe l

mutual
/-- Two arguments that differ only in the values of `Private` arguments. -/
inductive SameArg : Arg V → Arg V → Prop
  | priv (v w : V) : SameArg (.priv v) (.priv w)
  | pipe {l m : List (Arg V)} : SameArgs l m → SameArg (.pipe l) (.pipe m)
  | refl (a : Arg V) : SameArg a a
inductive SameArgs : List (Arg V) → List (Arg V) → Prop
  | nil : SameArgs [] []
  | cons {a b : Arg V} {l m : List (Arg V)} : SameArg a b → SameArgs l m → SameArgs (a :: l) (b :: m)
end

/-- The same for parameters. -/
inductive SameVal : PVal V → PVal V → Prop
  | plain (v : V) : SameVal (.plain v) (.plain v)
  | arg {a b : Arg V} : SameArg a b → SameVal (.arg a) (.arg b)

inductive SameParams : Params V → Params V → Prop
  | nil : SameParams [] []
  | cons (k : String) {a b : PVal V} {p q : Params V} : SameVal a b → SameParams p q →
    SameParams ((k, a) :: p) ((k, b) :: q)

/-- Surroundings that differ only in the values of `Private` session parameters. -/
def SameCtx (c d : Ctx V) : Prop := SameParams c.params d.params ∧ d = { c with params := d.params }

/-- Where the value of a parameter comes from: the batch, the task, the arguments among the defaults of the function,
and, if the name is in the signature, the extra parameters, those passed to the start and those of the session. -/
def source (c : Ctx V) (s : Setup V) (k : String) : Option (PVal V) :=
  (Dict.find s.batch k).or <| (Dict.find s.own k).or <| (Dict.find s.defaults k).or <|
    if k ∈ s.names then (Dict.find s.extra k).or <| (Dict.find s.passed k).or <| Dict.find c.params k else none

/-- The dictionaries of a run are dictionaries. -/
def Proper (c : Ctx V) (s : Setup V) : Prop :=
  Dict.Ok s.batch ∧ Dict.Ok s.own ∧ Dict.Ok s.defaults ∧ Dict.Ok s.extra ∧ Dict.Ok s.passed ∧ Dict.Ok c.params

/-- No parameter has one of the names that the constructor of `Parameters` uses itself. -/
def Unreserved (p : Params V) : Prop := ∀ x ∈ p, x.1 ≠ "self" ∧ x.1 ≠ "_param" ∧ x.1 ≠ "type_"

/-- The same for all parameters of a run. -/
def NoReserved (c : Ctx V) (s : Setup V) : Prop := Unreserved s.batch ∧ Unreserved s.own ∧ Unreserved s.defaults ∧
  Unreserved s.extra ∧ Unreserved s.passed ∧ Unreserved c.params

/-- Everything that goes to a process can be pickled, as it is and with arguments replaced by their values. -/
def Pickles (s : Setup V) : Prop := s.execution = .process → ∀ v, s.picklable v = true

end Rocketry.Spec
