import Verif.Task.Query

/-!
# Model of the keyword form of a query

`QueryBase.to_pykwargs`, rocketry/pybox/query/base.py:17-52.
-/

namespace Rocketry.Query

/-- `_get_key_value`, base.py:20-29: which side is the key is forgotten. -/
def keyValue : Operand → Operand → Except QErr (String × Val)
  | .key _, .key _ => .error .value
  | .key k, .val v => .ok (k, v)
  | .val v, .key k => .ok (k, v)
  | .val _, .val _ => .error .value

/-- `py_query.get(key, (None, None))[0]` and `[1]`, base.py:40-41.  A value that is a text is indexed too and gives its first two
characters (`IndexError` for shorter ones, a `LookupError`, here `.key`); a number cannot be indexed.  Lists do not occur. -/
def pastBounds (d : Dict Filter) (k : String) : Except QErr (Option Val × Option Val) :=
  match Dict.find d k with
  | none => .ok (none, none)
  | some (.range lo hi) => .ok (lo, hi)
  | some (.is (.text s)) => match s.toList with
    | a :: b :: _ => .ok (some (.text (String.ofList [a])), some (.text (String.ofList [b])))
    | _ => .error .key
  | some (.is (.num _)) => .error .type
  | some (.oneOf _) => .error .type

/-- The body of the loop, base.py:35-51. -/
def kwargsStep (d : Dict Filter) : Expr → Except QErr (Dict Filter)
  | .cmp .eq l r => match keyValue l r with
    | .error e => .error e
    | .ok (k, v) => .ok (d.put k (.is v))
  | .cmp .ge l r => match keyValue l r with
    | .error e => .error e
    | .ok (k, v) => match pastBounds d k with
      | .error e => .error e
      | .ok (_, hi) => .ok (d.put k (.range (some v) hi))
  | .cmp .le l r => match keyValue l r with
    | .error e => .error e
    | .ok (k, v) => match pastBounds d k with
      | .error e => .error e
      | .ok (lo, _) => .ok (d.put k (.range lo (some v)))
  | _ => .error .type

/-- The loop, base.py:35-52. -/
def kwargsLoop (d : Dict Filter) : List Expr → Except QErr (Dict Filter)
  | [] => .ok d
  | e :: l => match kwargsStep d e with
    | .error x => .error x
    | .ok d => kwargsLoop d l

/-- `to_pykwargs`, base.py:17-52; `true` is the object of that name, base.py:275. -/
def toKwargs (e : Expr) : Except QErr (Dict Filter) := match e with
  | .bool true => .ok []
  | .all l => kwargsLoop [] l
  | e => kwargsLoop [] [e]

end Rocketry.Query
