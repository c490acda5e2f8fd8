/-!
# Model of the function of a task given by path (a "delayed" function)

`FuncTask.get_func`, its uses during a run, and `FuncTask.process_finish` (rocketry/tasks/func.py:222-248, 263-307, 322-334;
rocketry/core/task.py:480-490, 588-602, 654-655).  The content of the file is a version (a number), or none if it cannot be imported or
has no such function.  Runs in the main thread, async runs and threads of one task work on the same task object; each call
of `get_func` is one step.

Simplified: a call of `get_func` is not interrupted by other threads (the import and the assignment are one step).  Runs
in a process work on a copy of the task and are not modelled here.  What the function does is not
modelled.
-/

namespace Rocketry.Task

/-- Where a run of the task is: after `get_task_params` (func.py:273-284) with the version whose signature it used; after
`postfilter_params` (func.py:299-307, core/task.py:591); after `get_func` in `execute` (func.py:224), with the version it
executes, or none if this failed; after `process_finish` (func.py:263-268); or broken off before the `try`
(core/task.py:588-594), where `process_finish` is not called. -/
inductive FuncPhase where
  | begun (sig : Nat)
  | filtered (sig : Nat)
  | executing (sig : Nat) (v : Option Nat)
  | over (sig : Nat) (v : Option Nat)
  | broken
  deriving DecidableEq, Repr

/-- The file, the attribute `func` of the task, the attribute `cache` of the task (func.py:135) and the runs. -/
structure FuncSt where
  file : Option Nat
  func : Option Nat
  cache : Bool
  runs : List FuncPhase
  deriving DecidableEq, Repr

/-- A task with `path` just made: `func` is None. -/
def FuncSt.init (file : Option Nat) (cache : Bool) : FuncSt := ⟨file, none, cache, []⟩

/-- What happens: the file is changed; a run begins (`get_task_params`); the next steps of run `i`; run `i` breaks off
between `postfilter_params` and the `try` (an argument of the function that cannot be materialized, core/task.py:593). -/
inductive FuncEv where
  | edit (v : Option Nat)
  | begin
  | filter (i : Nat)
  | broke (i : Nat)
  | exec (i : Nat)
  | finish (i : Nat)
  deriving DecidableEq, Repr

/-- The function `get_func` returns (func.py:233-248): the attribute if set, otherwise that of the file. -/
def FuncSt.got (s : FuncSt) : Option Nat :=
  match s.func with
  | some v => some v
  | none => s.file

/-- `get_func(cache)`: the state after it (func.py:244-245). -/
def FuncSt.getFunc (s : FuncSt) (cache : Bool) : FuncSt := if cache then { s with func := s.got } else s

/-- Set the phase of a run. -/
def FuncSt.put (s : FuncSt) (i : Nat) (p : FuncPhase) : FuncSt := { s with runs := s.runs.set i p }

/-- One step; none if it cannot happen now. -/
def FuncSt.step (s : FuncSt) : FuncEv → Option FuncSt
  | .edit v => some { s with file := v }
  -- func.py:278-279: `cache = self.path is None` is False here
  | .begin => match s.got with
    | none => some { s with runs := s.runs ++ [.broken] }
    | some v => some { s.getFunc false with runs := s.runs ++ [.begun v] }
  -- func.py:299-307 and 324: `kw_args` calls `get_func()` with `cache=True`; there are always parameters to filter
  -- (core/task.py:795)
  | .filter i => match s.runs[i]? with
    | some (.begun sig) => match s.got with
      | none => some (s.put i .broken)
      | some _ => some ((s.getFunc true).put i (.filtered sig))
    | _ => none
  | .broke i => match s.runs[i]? with
    | some (.filtered _) => some (s.put i .broken)
    | _ => none
  -- func.py:224
  | .exec i => match s.runs[i]? with
    | some (.filtered sig) => match s.got with
      | none => some (s.put i (.executing sig none))
      | some v => some ((s.getFunc s.cache).put i (.executing sig (some v)))
    | _ => none
  -- func.py:263-268
  | .finish i => match s.runs[i]? with
    | some (.executing sig v) => some ({ s with func := none }.put i (.over sig v))
    | _ => none

/-- A sequence of steps. -/
def FuncSt.run : FuncSt → List FuncEv → Option FuncSt
  | s, [] => some s
  | s, e :: es => match s.step e with
    | none => none
    | some s' => s'.run es

end Rocketry.Task
