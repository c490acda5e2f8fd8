import Verif.Time.Period
import Verif.Task.Conditions

/-!
# Model of sessions without the option `timezone` on a computer whose local clock is changed

Without the option, `Session._format_timestamp` (rocketry/session.py:617-618) makes naive datetimes of local time, and
`to_timestamp` (rocketry/pybox/time/convert.py:33-36) makes timestamps of them again.  When the clock is put back (end of
summer time) it shows some times twice; a datetime has a field `fold` for the second of them, which `fromtimestamp` sets,
`timestamp` reads, and arithmetic and comparisons ignore.  Times are microseconds.
-/

namespace Rocketry.Local

/-- A naive `datetime.datetime`: what calendar and clock show, and `fold`. -/
structure LDT where
  wall : Int
  fold : Bool
  deriving DecidableEq, Repr

/-- `time.localtime`: what calendar and clock of the computer show at an instant. -/
abbrev Clock := Int → Int

/-- `datetime.datetime.fromtimestamp(ts)` of Python's library, rocketry/session.py:617-618 without the option `timezone`:
`fold` is set if the clock has been put back during the last 24 hours and showed the same time before. -/
def fromStamp (c : Clock) (ts : Int) : LDT :=
  let trans := c ts - c (ts - DAY) - DAY
  ⟨c ts, decide (trans < 0) && decide (c (ts + trans) = c ts)⟩

/-- `dt.timestamp()` of Python's library (`datetime._mktime`), called at rocketry/pybox/time/convert.py:33-36: search for
an instant at which the clock shows `dt`. -/
def toStamp (c : Clock) (d : LDT) : Int :=
  let t := d.wall
  let a := c t - t
  let u1 := t - a
  let second (b : Int) : Int :=
    let u2 := t - b
    if c u2 = t then u2
    else if c u1 = t then u1
    else if d.fold then min u1 u2 else max u1 u2
  if c u1 = t then
    let probe := if d.fold then u1 + DAY else u1 - DAY
    let b := c probe - probe
    if a = b then u1 else second b
  else second (c u1 - u1)

/-- The periods of this model: a `TimeOf…` period and `TimeDelta(past)`.  Combinations, dates and `TimeSpanDelta` are not
in it. -/
inductive LPeriod where
  | anchored (a : Anchored)
  | delta (past : Int)

/-- `period.rollback(dt)`: rocketry/core/time/base.py:153-176 with anchor.py:230-234 (`rollend` returns `dt` itself if it
belongs to the period, with its `fold`; the other bounds are made by arithmetic, without), and base.py:225-230. -/
def rollback (p : LPeriod) (dt : LDT) : Except PyErr (LDT × LDT) := match p with
  | .anchored a => match a.rollback dt.wall with
    | .error e => .error e
    | .ok i => .ok (⟨i.left, false⟩, if a.contains dt.wall then dt else ⟨i.right, false⟩)
  | .delta past => match Interval.make (dt.wall - (past.natAbs : Int)) dt.wall .left with
    | .error e => .error e
    | .ok i => .ok (⟨i.left, false⟩, dt)

/-- `TaskStatusMixin.get_measurement` (rocketry/conditions/task/utils.py:62-111) and `BaseComparable.observe` with the
bounds `s` and `e`: cached times are formatted (rocketry/core/task.py:1197-1237) and compared as naive datetimes, the
records are queried with timestamps. -/
def observe (c : Clock) (fromLogs : Bool) (acts : Acts) (comps : Comps) (s e : LDT) (name : String) (t : TaskMem)
    (repo : List Record) : Bool :=
  let counted := compState comps (measuredTimes repo name acts (toStamp c s) (toStamp c e)).length
  if fromLogs then counted
  else
    let f := cachedFeatures (fun a => (t.last a).map fun x => (fromStamp c x).wall) s.wall e.wall acts
    if isEqualZero comps && f.2 then true
    else if isEqualZero comps && f.1 then false
    else if isAnyOverZero comps && f.2 then false
    else if isAnyOverZero comps && f.1 then true
    else counted

/-- A status condition over a period at the instant `now`: `get_period_span`, rocketry/core/time/utils.py:8-32. -/
def status (c : Clock) (fromLogs : Bool) (acts : Acts) (comps : Comps) (p : LPeriod) (now : Int) (name : String)
    (t : TaskMem) (repo : List Record) : Except PyErr Bool := match rollback p (fromStamp c now) with
  | .error e => .error e
  | .ok (s, e) => .ok (observe c fromLogs acts comps s e name t repo)

/-- `every(past)` with the bases "run", "success", "fail", rocketry/conditions/api.py:221-228. -/
def every (c : Clock) (fromLogs : Bool) (base : Action) (past : Int) (now : Int) (name : String) (t : TaskMem)
    (repo : List Record) : Except PyErr Bool :=
  status c fromLogs (.one base) [(.eq, 0)] (.delta past) now name t repo

/-- `isin_period`, rocketry/conditions/task/task.py:296-303 with rocketry/conditions/time.py:36-38. -/
def isin (c : Clock) (p : LPeriod) (now : Int) : Bool := match p with
  | .anchored a => a.contains (fromStamp c now).wall
  | .delta _ => true

/-- `TaskExecutable.get_state` (`minutely`, `hourly`, `daily`, …), task.py:285-311. -/
def executable (c : Clock) (fromLogs : Bool) (retries : Option Int) (p : LPeriod) (now : ExecReads) (name : String)
    (t : TaskMem) (repo : List Record) : Except PyErr Bool :=
  let retries := retries.getD 0
  andThen (.ok (isin c p now.isin))
    (andThen (status c fromLogs (.one .inaction) [(.eq, 0)] p now.inacted name t repo)
      (andThen (status c fromLogs (.one .success) [(.eq, 0)] p now.succeeded name t repo)
        (andThen (status c fromLogs (.one .fail) [(.le, retries)] p now.failed name t repo)
          (status c fromLogs (.one .terminate) [(.eq, 0)] p now.terminated name t repo))))

end Rocketry.Local
