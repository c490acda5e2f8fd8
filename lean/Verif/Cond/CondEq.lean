import Verif.Text.CondItems

/-!
# Model of `==` of conditions, `rocketry/core/condition/base.py`
-/

namespace Rocketry

namespace Cond

variable {L : Type}

/-- `c == d`: `BaseCondition.__eq__` (base.py:98-113; `AlwaysTrue`, `AlwaysFalse` have no attributes),
`_ConditionContainer.__eq__` (131-136), `Not.__eq__` (220-229).  `leafEq` is `==` of leaves.  The answers are never
`NotImplemented`, so that only the left side is asked (no class of conditions is derived from one of these five).
`eqList` is `==` of two lists of the same length: the first difference ends it (Python skips the comparison of an object
with itself, which would give `True`, see `C68_reflexive`). -/
def eqE (leafEq : L → L → Except PyErr Bool) : Cond L → Cond L → Except PyErr Bool
  | .leaf a, d => match d with | .leaf b => leafEq a b | _ => .ok false
  | .alwaysTrue, d => match d with | .alwaysTrue => .ok true | _ => .ok false
  | .alwaysFalse, d => match d with | .alwaysFalse => .ok true | _ => .ok false
  | .any xs, d => match d with
    | .any ys => if xs.length = ys.length then eqList leafEq xs ys else .ok false
    | _ => .ok false
  | .all xs, d => match d with
    | .all ys => if xs.length = ys.length then eqList leafEq xs ys else .ok false
    | _ => .ok false
  | .not c, d => match d with
    | .alwaysTrue => match c with | .alwaysFalse => .ok true | _ => .ok false
    | .alwaysFalse => match c with | .alwaysTrue => .ok true | _ => .ok false
    | .not d => eqE leafEq c d
    | _ => .ok false
where
  eqList (leafEq : L → L → Except PyErr Bool) : List (Cond L) → List (Cond L) → Except PyErr Bool
    | [], _ => .ok true
    | c :: cs, ds => match ds with
      | [] => .ok true
      | d :: ds => match eqE leafEq c d with
        | .ok true => eqList leafEq cs ds
        | r => r

end Cond

/-- `None == None`, `None == p`, `p == None`, `p == q`. -/
def optPeriodEq : Option Period → Option Period → Except PyErr Bool
  | none, none => .ok true
  | some p, some q => p.pyEq q
  | _, _ => .ok false

/-- `==` of the built-in conditions, core/condition/base.py:98-113 (same class and equal attributes, in the order in which
`__init__` sets them: a difference ends the comparison), 309-316; the classes have no equality of their own.
`TimeCondWrapper`: conditions/api.py:33-36; `TaskExecutable`: conditions/task/task.py:272-276; `IsPeriod`:
conditions/time.py:31-34; status conditions: conditions/task/utils.py:57-60, `_comps` compared as dictionaries;
`SchedulerStarted`: conditions/scheduler.py:53-55; `Cron`: rocketry/time/cron.py:8-15; `DependMixin`:
conditions/task/utils.py:15-18; `IsEnv`, `ParamExists`: conditions/parameter.py:36-37, 81-83. -/
def Builtin.eqE : Builtin → Builtin → Except PyErr Bool
  | .wrapper sc, .wrapper sc' => .ok (decide (sc = sc'))
  | .executable p, .executable p' => (Period.anchored p).pyEq (.anchored p')
  | .executableFor d, .executableFor d' => (Period.mkDelta (some d) none).pyEq (Period.mkDelta (some d') none)
  | .isPeriod p, .isPeriod p' => (Period.anchored p).pyEq (.anchored p')
  | .status v t p c, .status v' t' p' c' =>
    if v = v' ∧ t = t' then
      match optPeriodEq p p' with
      | .ok true => .ok (decide (compEntries c = compEntries c'))
      | r => r
    else .ok false
  | .schedStarted d, .schedStarted d' => (Period.mkDelta (some d) none).pyEq (Period.mkDelta (some d') none)
  | .cycles c, .cycles c' => .ok (decide (compEntries c = compEntries c'))
  | .cron f, .cron f' => .ok (decide (f = f'))
  | .running t, .running t' => .ok (decide (t = t'))
  | .depend k t, .depend k' t' => .ok (decide (k = k') && decide (t = t'))
  | .env e, .env e' => .ok (decide (e = e'))
  | .params k, .params k' => .ok (decide (k = k'))
  | .paramIs k v, .paramIs k' v' => .ok (decide (k = k') && decide (v = v'))
  | _, _ => .ok false

end Rocketry
