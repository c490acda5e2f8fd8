import Verif.Task.Situation

/-!
# Model of one observation of a condition while the clock goes on

`Verif/Task/Situation.lean` with the readings of the clock one after the other: `r i` is the reading number `i` of the
observation.  A condition that reads the clock less often (because an earlier part of it was false) leaves readings out.
-/

namespace Rocketry.Sit

/-- `TaskExecutable.get_state`, conditions/task/task.py:285-311, with its five readings of the clock. -/
def executableAt (v : Sit) (fuel : Nat) (p : Period) (now : ExecReads) : Except PyErr Bool :=
  match v.self with
  | none => andThen (isinPeriod fuel p now.isin) ({ v with now := now.inacted }.statusNone fuel (some p))
  | some name =>
    if name ∈ v.tasks then Rocketry.executable fuel v.fromLogs none p now name (v.mem name) v.repo
    else andThen (isinPeriod fuel p now.isin) (.error .key)

/-- `TaskRunnable.get_state` with a `Cron` period, task.py:346-361, with its two readings of the clock. -/
def cronAt (v : Sit) (fuel : Nat) (now now' : Int) (c : CronExpr) : Except PyErr Bool :=
  match v.self with
  | none => andThen (c.contains fuel now) (bindE (c.rollback fuel now') fun _ => .error .attribute)
  | some name =>
    if name ∈ v.tasks then cronRunnable fuel v.fromLogs c now now' name (v.mem name) v.repo
    else andThen (c.contains fuel now) (.error .key)

/-- `observe` of the built-in conditions (`BaseCondition.observe`, core/condition/base.py:63-67); the state is the number
of readings so far.  Simplified: a status condition without a period, which looks for the periods in the start condition
of the task, reads the clock once. -/
def clocked (v : Sit) (fuel : Nat) (r : Nat → Int) (b : Builtin) : Cond.Obs Nat := fun i =>
  match b with
  | .wrapper sc => (v.executableAt fuel (.anchored ⟨sc, 0, sc.max⟩) ⟨r i, r (i + 1), r (i + 2), r (i + 3), r (i + 4)⟩, i + 5)
  | .executable p => (v.executableAt fuel (.anchored p) ⟨r i, r (i + 1), r (i + 2), r (i + 3), r (i + 4)⟩, i + 5)
  | .executableFor past =>
    (v.executableAt fuel (Period.mkDelta (some past) none) ⟨r i, r (i + 1), r (i + 2), r (i + 3), r (i + 4)⟩, i + 5)
  | .cron fields => (bindE (cronOf fields) (v.cronAt fuel (r i) (r (i + 1))), i + 2)
  | b => ({ v with now := r i }.leaf fuel b, i + 1)

/-- When the clock stands still, this is the observation in the situation. -/
theorem clocked_still (v : Sit) (fuel : Nat) (b : Builtin) (i : Nat) :
    (v.clocked fuel (fun _ => v.now) b i).1 = v.leaf fuel b := by
  cases b <;> rfl

end Rocketry.Sit
