import Verif.Session.Args

/-!
# Model of `==` of arguments and parameters

`BaseArgument.__eq__` (rocketry/core/parameters/arguments.py:81-84), `Arg.__eq__` (rocketry/args/builtin.py:67-70),
`Private.__eq__` (rocketry/args/secret.py:22-25), `Parameters.__eq__` (rocketry/core/parameters/parameters.py:162-166).
`==` of the values themselves is the equality of `V`; no value is equal to an argument that is not `Private`.
Python skips the comparison of an object with itself inside of dictionaries; the model compares copies.
-/

namespace Rocketry.Args

variable {V : Type} [DecidableEq V]

/-- Whether two arguments have the same class. -/
def sameClass : Arg V → Arg V → Bool
  | .simple _, .simple _ => true
  | .priv _, .priv _ => true
  | .sess _ _, .sess _ _ => true
  | .ret _ _, .ret _ _ => true
  | .env _ _, .env _ _ => true
  | .cli _ _, .cli _ _ => true
  | .func _ _, .func _ _ => true
  | .task, .task => true
  | .pipe _, .pipe _ => true
  | _, _ => false

/-- `a == b` of two arguments: `Private` (secret.py:22-25) and `Arg` (builtin.py:67-70) have their own, the others compare
what `get_value()` gives, without task and session (arguments.py:81-84).  None is derived from another. -/
def argEq (n : Nat) (c : Ctx V) (a b : Arg V) : Except Err Bool := match a, b with
  | .priv u, .priv v => .ok (decide (u = v))
  | .sess k _, .sess k' _ => .ok (decide (k = k'))
  | a, b => if sameClass a b then match getValue n c.bare a with
      | .error e => .error e
      | .ok u => match getValue n c.bare b with
        | .error e => .error e
        | .ok v => .ok (decide (u = v))
    else .ok false

/-- `==` of two values of parameters.  A plain value on the left does not know arguments, so that Python asks the argument
on the right: only `Private` compares with plain values (secret.py:25). -/
def pvalEq (n : Nat) (c : Ctx V) : PVal V → PVal V → Except Err Bool
  | .plain u, .plain v => .ok (decide (u = v))
  | .plain u, .arg (.priv v) => .ok (decide (v = u))
  | .arg (.priv u), .plain v => .ok (decide (u = v))
  | .plain _, .arg _ => .ok false
  | .arg _, .plain _ => .ok false
  | .arg a, .arg b => argEq n c a b

/-- The items of a dictionary one after another: the first that is missing or different ends the comparison. -/
def itemsEq (n : Nat) (c : Ctx V) : Params V → Params V → Except Err Bool
  | [], _ => .ok true
  | (k, u) :: p, q => match Dict.find q k with
    | none => .ok false
    | some v => match pvalEq n c u v with
      | .ok true => itemsEq n c p q
      | r => r

/-- `p == q` of two Parameters objects, parameters.py:162-166: `==` of their dictionaries. -/
def paramsEq (n : Nat) (c : Ctx V) (p q : Params V) : Except Err Bool :=
  if p.length = q.length then itemsEq n c p q else .ok false

end Rocketry.Args
