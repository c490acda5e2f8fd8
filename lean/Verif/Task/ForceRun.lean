import Verif.Sched.Scheduler
import Verif.Base.ExceptEq
import Verif.Time.Interval

/-!
# The attribute `force_run` of a task

`Task.force_run` and the queue `Task.batches` (rocketry/core/task.py:215-218, 227), the validator of the attribute
(380-385), `Task.run` (390-411) and what `start_async` and the scheduler do with the two.
-/

namespace Rocketry.ForceRun
open Rocketry.Sched (Batch)

/-- The two attributes of a task. -/
structure Forced where
  flag : Bool
  batches : List Batch
  deriving DecidableEq, Repr

/-- What can be seen from outside: the attribute was assigned, `run` was called, a run was started with the batch it
took (or without). -/
inductive Note where
  | assigned (v : Bool)
  | asked (b : Batch)
  | took (b : Option Batch)
  deriving DecidableEq, Repr

/-- What the code that owns the task does. -/
inductive Owner where
  | assign (v : Bool)
  | run (b : Batch)
  deriving DecidableEq, Repr

/-- `Task.parse_force_run`, core/task.py:380-385, called by pydantic at each assignment (`validate_assignment`, 198):
a true value appends an empty batch; any value is stored.  Not modelled: the deprecation warning, and values that are
no booleans. -/
def Forced.assign (s : Forced) (v : Bool) : Forced :=
  { flag := v, batches := if v then s.batches ++ [[]] else s.batches }

/-- `Task.run`, core/task.py:390-411: the parameters are put behind the others. -/
def Forced.run (s : Forced) (b : Batch) : Forced := { s with batches := s.batches ++ [b] }

/-- The task is created, core/task.py:215-227: the fields are validated in the order of the class, `batches` first.
`none`: the argument `batches` is invalid, and is missing in `values` (384).  The validator is not called for the
default. -/
def construct (batches : Option (List Batch)) (force : Bool) : Except PyErr Forced :=
  match batches, force with
  | some bs, force => .ok (Forced.assign ⟨false, bs⟩ force)
  | none, true => .error .key
  | none, false => .error .value

/-- The owner acts. -/
def own (s : Forced) : Owner → Forced × List Note
  | .assign v => (s.assign v, [.assigned v])
  | .run b => (s.run b, [.asked b])

/-- The owner acts several times. -/
def owns (s : Forced) : List Owner → Forced × List Note
  | [] => (s, [])
  | o :: os =>
    let (s1, l1) := own s o
    let (s2, l2) := owns s1 os
    (s2, l1 ++ l2)

/-- `_get_direct_params`, core/task.py:803-807. -/
def Forced.take (s : Forced) : Forced × List Note :=
  match s.batches with
  | [] => (s, [.took none])
  | b :: bs => ({ s with batches := bs }, [.took (some b)])

/-- `Task.is_runnable`, core/task.py:547-568: the attribute itself is not looked at. -/
def Forced.runnable (s : Forced) (disabled cond : Bool) : Bool :=
  if s.batches ≠ [] then true else if disabled then false else cond

/-- `Task.start_async`, core/task.py:454-542: the attribute is reset (481), the parameters are collected (482-483);
`early`: what the owner does between the two (in another thread or in a function of a parameter), `late`: afterwards
until `start_async` returns.  `params`: `get_extra_params` (482) does not fail. -/
def start (s : Forced) (early late : List Owner) (params : Bool) : Forced × List Note :=
  let (s1, l1) := owns (s.assign false) early
  if params then
    let (s2, l2) := s1.take
    let (s3, l3) := owns s2 late
    (s3, l1 ++ (l2 ++ l3))
  else (s1, l1)

/-- What happens to a task: its owner acts, it gets its turn in a cycle of the scheduler, or it is started otherwise
(at startup, at shutdown or by `task.start`). -/
inductive Doing where
  | own (o : Owner)
  | turn (disabled cond : Bool) (early late : List Owner) (params : Bool)
  | start (early late : List Owner) (params : Bool)
  deriving DecidableEq, Repr

/-- One of these; for a turn see `run_cycle`, core/schedule.py:174-185 (the scheduler is not on hold, the task does not
run already, and its failures are silenced). -/
def step (s : Forced) : Doing → Forced × List Note
  | .own o => own s o
  | .turn disabled cond early late params =>
    if s.runnable disabled cond then
      let (s1, l) := start s early late params
      (s1.assign false, l)
    else (s, [])
  | .start early late params => start s early late params

/-- A whole history. -/
def steps (s : Forced) : List Doing → Forced × List Note
  | [] => (s, [])
  | d :: ds =>
    let (s1, l1) := step s d
    let (s2, l2) := steps s1 ds
    (s2, l1 ++ l2)

end Rocketry.ForceRun
