import Verif.Task.Query

/-!
# Model of queries that are written with operators

The operators of `Key` and `Expression`, rocketry/pybox/query/base.py:56-112: `Key("a") >= 3`, `3 <= Key("a")`, `q & r`,
`q | r`, `~q`, and `Regex(Key("a"), pattern)` (rocketry/pybox/query/string.py:23-25).
-/

namespace Rocketry.Query

/-- A query as it is written in Python. -/
inductive QWritten where
  /-- `Key(k) <op> right` -/
  | field (k : String) (op : Op) (right : Operand)
  /-- `value <op> Key(k)` -/
  | value (v : Val) (op : Op) (k : String)
  /-- `value <op> Key(k) <op'> value'`, a comparison of three -/
  | chain (v : Val) (op : Op) (k : String) (op' : Op) (v' : Val)
  /-- `Regex(Key(k), pattern)` -/
  | regex (k : String) (pattern : Val)
  | and (a b : QWritten)
  | or (a b : QWritten)
  | not (a : QWritten)

/-- The method of the right operand that Python calls when the left one does not know how to compare: `v < key` is
`key > v`. -/
def Op.reflected : Op → Op
  | .eq => .eq
  | .ne => .ne
  | .gt => .lt
  | .ge => .le
  | .lt => .gt
  | .le => .ge

/-- What an operand of `|` contributes, base.py:98-101. -/
def orParts : Expr → List Expr
  | .any l => l
  | e => [e]

/-- `a | b`, base.py:97-102. -/
def Expr.or (a b : Expr) : Expr := .any (orParts a ++ orParts b)

/-- The object that the expression makes: `Key.__eq__` to `Key.__le__` (base.py:61-77), `__and__`, `__or__`, `__invert__`
(90-105).  Python reads a comparison of three as `(v <op> key) and (key <op'> v')`; an `Expression` has no `__bool__` and
counts as true, so that `and` gives the second one. -/
def QWritten.build : QWritten → Expr
  | .field k op r => .cmp op (.key k) r
  | .value v op k => .cmp op.reflected (.key k) (.val v)
  | .chain _ _ k op' v' => .cmp op' (.key k) (.val v')
  | .regex k p => .regex k p
  | .and a b => Expr.and a.build b.build
  | .or a b => Expr.or a.build b.build
  | .not a => .not a.build

end Rocketry.Query
