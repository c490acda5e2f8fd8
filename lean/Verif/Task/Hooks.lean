/-!
# Model of hooks

`_Hooker.prerun` and `_Hooker.postrun` (rocketry/core/hook.py:12-28) and the way they wrap a run in `_run_as_async`
(rocketry/core/task.py:577-656).
-/

namespace Rocketry.Hooks

/-- What a generator does at `next` or `send`. -/
inductive Resume where | yields | returns | raises
  deriving DecidableEq, Repr

/-- A hook: `gen` is `none` for a function, and for a generator function what it does up to its first `yield` and
after it.  `fails`: its arguments cannot be materialised, or the function raises an exception (hook.py:16-17). -/
structure Hook where
  id : Nat
  fails : Bool
  gen : Option (Resume × Resume)
  deriving DecidableEq, Repr

/-- What happens, in order; `post` carries the arguments of `postrun`. -/
inductive Ev (α : Type) where
  | pre (id : Nat)
  | task
  | post (id : Nat) (info : α)
  deriving DecidableEq, Repr

variable {α : Type}

/-- `prerun`, hook.py:12-21: the events, the generators kept, and whether an exception was raised.  The call of a
generator function runs nothing; its first part runs at `next(gener, None)`, and the generator is kept even if it has
ended there. -/
def prerun : List Hook → List (Ev α) × List Hook × Bool
  | [] => ([], [], false)
  | h :: hs =>
    if h.fails then (if h.gen.isNone then [.pre h.id] else [], [], true)
    else match h.gen with
      | none => match prerun hs with
        | (e, k, b) => (.pre h.id :: e, k, b)
      | some (.raises, _) => ([.pre h.id], [], true)
      | some _ => match prerun hs with
        | (e, k, b) => (.pre h.id :: e, h :: k, b)

/-- `postrun`, hook.py:23-28: a generator that has ended raises StopIteration at once, which is caught. -/
def postrun (info : α) : List Hook → List (Ev α) × Bool
  | [] => ([], false)
  | h :: hs => match h.gen with
    | some (.yields, .raises) => ([.post h.id info], true)
    | some (.yields, _) => match postrun info hs with
      | (e, b) => (.post h.id info :: e, b)
    | _ => postrun info hs

/-- A run, as far as hooks are concerned: whether the parameters materialise (task.py:591-593), the outcome passed to
the hooks, and whether `process_finish` raises an exception (task.py:655). -/
structure Run (α : Type) where
  paramsOk : Bool
  info : α
  finishFails : Bool

/-- `_run_as_async`, task.py:585-656: the hooks run before the `try`, and so does the materialisation; `postrun` is
called in its `finally`, after `process_finish`. -/
def wrapped (hooks : List Hook) (r : Run α) : List (Ev α) := match prerun (α := α) hooks with
  | (e, _, true) => e
  | (e, kept, false) =>
    if !r.paramsOk then e
    else if r.finishFails then e ++ [.task]
    else e ++ [.task] ++ (postrun r.info kept).1

end Rocketry.Hooks
