import Verif.Cond.Api

/-!
# Model of comparisons written on conditions

`started`, `succeeded.today`, `daily`, `running`, `retry` (rocketry/conditions/api.py:31-193, 204-219, 290-298) are wrappers:
conditions that make the condition they stand for when they are observed.  `BaseComparable`
(rocketry/core/condition/base.py:258-351) are the conditions that count something.
-/

namespace Rocketry.Compared

/-- What a comparable condition counts: actions of a task in a period, runs of a task that go on, cycles of the
scheduler.  Periods are given by a number. -/
inductive Counts where
  | actions (v : Verb) (task : Option String) (period : Option Nat)
  | runs (task : Option String) (period : Option Nat)
  | cycles
  deriving DecidableEq, Repr

/-- What a program can write down. -/
inductive Written where
  /-- `TimeActionWrapper`: `succeeded`, `succeeded('task')` -/
  | action (v : Verb) (task : Option String)
  /-- `TimeCondWrapper` of a status condition: `succeeded.today` -/
  | timed (v : Verb) (task : Option String) (period : Nat)
  /-- `TimeCondWrapper` of `TaskExecutable`, `IsPeriod`: `daily`, `time_of_day` -/
  | plain (cls : Nat) (period : Nat)
  /-- `RetryWrapper`: `retry` -/
  | retry
  /-- `RunningWrapper`: `running`, `running('task')` -/
  | running (task : Option String)
  /-- a condition that counts, with its comparisons -/
  | counting (c : Counts) (comps : Comps)
  deriving DecidableEq, Repr

/-- What an expression gives. -/
inductive Val where
  | cond (r : Written)
  | bool (b : Bool)
  | typeError
  deriving DecidableEq, Repr

/-- `r == n`, `r < n` etc. for a number `n`.  `BaseComparable`: base.py:309-338, where the condition is new, so that its
dictionary is not shared (see C22); `RunningWrapper` makes a new condition, api.py:177-193; the other wrappers inherit
`BaseCondition.__eq__` (base.py:96-110), which gives False for what is not of the same class, Python's `!=`, which is the
negation of `==`, and have no other comparison. -/
def compareTo (op : Comp) (r : Written) (n : Int) : Val := match r with
  | .counting c comps => .cond (.counting c (Comps.set comps op n))
  | .running t => .cond (.counting (.runs t none) (Comps.set [] op n))
  | _ => match op with
    | .eq => .bool false
    | .ne => .bool true
    | _ => .typeError

/-- `r == r'` for two conditions: base.py:96-110, 309-316; api.py:189-190. -/
def equal (r r' : Written) : Bool := match r with
  | .running t => decide (r' = .counting (.runs t none) [])
  | _ => decide (r = r')

/-- `observe` of what was written down: base.py:268-288; `m` are the measured numbers.  `none`: AttributeError (a boolean
has no `observe`).  The wrappers observe the condition they stand for, api.py:63-73, 87-89, 121-123, 130-135, 142-143,
173-175; `other` are the answers of the conditions that do not count (and `retry`). -/
def observe (m : Counts → Int) (other : Written → Bool) : Val → Option Bool
  | .cond (.counting c comps) => some (compState comps (m c))
  | .cond (.running t) => some (compState [] (m (.runs t none)))
  | .cond (.action v t) => some (compState [] (m (.actions v t none)))
  | .cond (.timed v t p) => some (compState [] (m (.actions v t (some p))))
  | .cond r => some (other r)
  | .bool _ => none
  | .typeError => none

/-- `start_cond=...`, rocketry/core/task.py:234, 255-263: what is not a condition is refused by pydantic (the declared
type is `Optional[BaseCondition]`). -/
def accepted : Val → Bool
  | .cond _ => true
  | _ => false

/-- `observe` of `left & right`: `All`, base.py:166-183; the operands are not checked when the condition is made. -/
def observeAnd (m : Counts → Int) (other : Written → Bool) (left : Written) (right : Val) : Option Bool :=
  match observe m other (.cond left) with
  | none => none
  | some false => some false
  | some true => observe m other right

end Rocketry.Compared
