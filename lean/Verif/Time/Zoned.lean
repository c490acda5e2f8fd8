import Verif.Time.Period
import Verif.Task.Conditions

/-!
# Model of time periods and conditions with the option `timezone`

`Session._format_timestamp` (rocketry/session.py:614-618) makes datetimes with the zone of the option `timezone`, which
is a `datetime.timezone`, a fixed offset from UTC (docs/handbooks/config.rst:144-147), or naive datetimes without the
option.  Python raises TypeError when a naive and an aware datetime are ordered; `TimePeriod.min`, `TimePeriod.max` and
the dates of most static periods are naive.  Times and offsets are microseconds, timestamps too (floats in the code).
-/

namespace Rocketry.Zoned

/-- A `datetime.datetime`: naive, or aware with an offset from UTC; both with what calendar and clock show. -/
inductive DT where
  | naive (wall : Int)
  | aware (off wall : Int)
  deriving DecidableEq, Repr

/-- `a < b`: two aware datetimes are compared as instants. -/
def DT.lt : DT → DT → Except PyErr Bool
  | .naive v, .naive w => .ok (decide (v < w))
  | .aware o v, .aware p w => .ok (decide (v - o < w - p))
  | _, _ => .error .type

/-- `a <= b`. -/
def DT.le : DT → DT → Except PyErr Bool
  | .naive v, .naive w => .ok (decide (v ≤ w))
  | .aware o v, .aware p w => .ok (decide (v - o ≤ w - p))
  | _, _ => .error .type

/-- `a == b`: False for a naive and an aware datetime. -/
def DT.eq : DT → DT → Bool
  | .naive v, .naive w => decide (v = w)
  | .aware o v, .aware p w => decide (v - o = w - p)
  | _, _ => false

/-- `dt + timedelta`: calendar and clock are moved, the zone stays. -/
def DT.add : DT → Int → DT
  | .naive w, d => .naive (w + d)
  | .aware o w, d => .aware o (w + d)

/-- What calendar and clock show. -/
def DT.wall : DT → Int
  | .naive w => w
  | .aware _ w => w

/-- Another reading of calendar and clock in the same zone (or without zone). -/
def DT.at : DT → Int → DT
  | .naive _, w => .naive w
  | .aware o _, w => .aware o w

/-- Whether two datetimes can be ordered. -/
def DT.isAware : DT → Bool
  | .naive _ => false
  | .aware _ _ => true

/-- The local time of the computer: the timestamp of a naive datetime (`dt.timestamp()`), and the naive datetime of a
timestamp (`datetime.fromtimestamp(ts)`). -/
structure Machine where
  stamp : Int → Int
  wall : Int → Int

/-- `dt.timestamp()`, rocketry/pybox/time/convert.py:33-36. -/
def Machine.toStamp (m : Machine) : DT → Int
  | .naive w => m.stamp w
  | .aware o w => w - o

/-- `session._format_timestamp(ts)`, rocketry/session.py:617-618; `zone` is the option `timezone`. -/
def Machine.format (m : Machine) (zone : Option Int) (ts : Int) : DT := match zone with
  | none => .naive (m.wall ts)
  | some o => .aware o (ts + o)

/-- `to_datetime(s, timezone=dt.tzinfo)`, convert.py:38-56, for datetimes: a naive datetime is taken as local time of the
computer (`astimezone`). -/
def Machine.inZoneOf (m : Machine) (dt s : DT) : DT := match dt with
  | .naive _ => s
  | .aware o _ => .aware o (m.toStamp s + o)

/-- `class Interval`, rocketry/pybox/time/interval.py:9-15, of datetimes. -/
structure ZInterval where
  left : DT
  right : DT
  closed : Closed := .left
  deriving DecidableEq, Repr

/-- `Interval.__post_init__`, interval.py:17-19. -/
def ZInterval.make (l r : DT) (c : Closed := .left) : Except PyErr ZInterval := match DT.lt r l with
  | .error e => .error e
  | .ok true => .error .value
  | .ok false => .ok ⟨l, r, c⟩

/-- `a op b op c` with two comparisons, the second only if the first is true. -/
def both (a b : Except PyErr Bool) : Except PyErr Bool := match a with
  | .ok true => b
  | r => r

/-- `Interval.__contains__`, interval.py:25-32. -/
def ZInterval.contains (i : ZInterval) (dt : DT) : Except PyErr Bool := match i.closed with
  | .right => both (DT.lt i.left dt) (DT.le dt i.right)
  | .left => both (DT.le i.left dt) (DT.lt dt i.right)
  | .both => both (DT.le i.left dt) (DT.le dt i.right)
  | .neither => both (DT.lt i.left dt) (DT.lt dt i.right)

/-- `Interval.overlaps`, interval.py:34-72. -/
def ZInterval.overlaps (self other : ZInterval) : Except PyErr Bool := match DT.lt self.right other.left with
  | .error e => .error e
  | .ok a => match DT.lt other.right self.left with
    | .error e => .error e
    | .ok b =>
      if a || b then .ok false
      else if DT.eq self.right other.left &&
          ((self.closed = .left || self.closed = .neither) ||
           (other.closed = .right || other.closed = .neither)) then .ok false
      else if DT.eq self.left other.right &&
          ((self.closed = .right || self.closed = .neither) ||
           (other.closed = .left || other.closed = .neither)) then .ok false
      else .ok true

/-- `if a > b: x elif a < b: y else: z` -/
def pick {α : Type} (a b : DT) (x y z : α) : Except PyErr α := match DT.lt b a with
  | .error e => .error e
  | .ok true => .ok x
  | .ok false => match DT.lt a b with
    | .error e => .error e
    | .ok true => .ok y
    | .ok false => .ok z

/-- `Interval.__and__`, interval.py:74-106. -/
def ZInterval.and (self other : ZInterval) : Except PyErr ZInterval :=
  match pick self.left other.left (self.left, self.closed.incLeft) (other.left, other.closed.incLeft)
      (self.left, self.closed.incLeft && other.closed.incLeft) with
  | .error e => .error e
  | .ok (l, lc) =>
    match pick self.right other.right (other.right, other.closed.incRight) (self.right, self.closed.incRight)
        (self.right, self.closed.incRight && other.closed.incRight) with
    | .error e => .error e
    | .ok (r, rc) =>
      ZInterval.make l r (if lc && rc then .both else if lc then .left else if rc then .right else .neither)

/-- `all(a.overlaps(b) for b in l)` -/
def overlapsAll (a : ZInterval) : List ZInterval → Except PyErr Bool
  | [] => .ok true
  | b :: l => both (a.overlaps b) (overlapsAll a l)

/-- `all(a.overlaps(b) for a, b in itertools.combinations(intervals, 2))`, rocketry/core/time/base.py:309,342. -/
def allOverlap : List ZInterval → Except PyErr Bool
  | [] => .ok true
  | a :: l => both (overlapsAll a l) (allOverlap l)

/-- Left fold of `&` over intervals. -/
def reduceFrom (a : ZInterval) : List ZInterval → Except PyErr ZInterval
  | [] => .ok a
  | b :: l => match a.and b with
    | .error e => .error e
    | .ok c => reduceFrom c l

/-- `reduce(lambda a, b: a & b, intervals)`, base.py:311,344. -/
def reduceAnd : List ZInterval → Except PyErr ZInterval
  | [] => .error .type
  | a :: l => reduceFrom a l

/-- `max(x, *l)`: the first of the greatest. -/
def maxOf (x : DT) : List DT → Except PyErr DT
  | [] => .ok x
  | y :: l => match DT.lt x y with
    | .error e => .error e
    | .ok true => maxOf y l
    | .ok false => maxOf x l

/-- `min(x, *l)`: the first of the least. -/
def minOf (x : DT) : List DT → Except PyErr DT
  | [] => .ok x
  | y :: l => match DT.lt y x with
    | .error e => .error e
    | .ok true => minOf y l
    | .ok false => minOf x l

/-- `max(intervals, key=lambda x: x.left).left`, base.py:352. -/
def maxLeft : List ZInterval → Except PyErr DT
  | [] => .error .value
  | a :: l => maxOf a.left (l.map (·.left))

/-- `min(intervals, key=lambda x: x.right).right`, base.py:319. -/
def minRight : List ZInterval → Except PyErr DT
  | [] => .error .value
  | a :: l => minOf a.right (l.map (·.right))

/-- `sorted(intervals, key=...)`: with naive and aware keys some comparison of the two kinds has to be made, which
raises; `reverse` keeps equal ones in order. -/
def sortedBy (key : ZInterval → DT) (reverse : Bool) (l : List ZInterval) : Except PyErr (List ZInterval) :=
  if (l.all fun i => (key i).isAware) || (l.all fun i => !(key i).isAware) then
    .ok (pySorted (fun a b => (if reverse then DT.le (key b) (key a) else DT.le (key a) (key b)) == .ok true) l)
  else .error .type

/-- The loop of `Any.rollforward`, base.py:469-474. -/
def extendRight (curr : ZInterval) : List ZInterval → Except PyErr ZInterval
  | [] => .ok curr
  | i :: l => match both (DT.lt curr.right i.right) (i.overlaps curr) with
    | .error e => .error e
    | .ok true => extendRight i l
    | .ok false => .ok curr

/-- The loop of `Any.rollback`, base.py:440-445. -/
def extendLeft (curr : ZInterval) : List ZInterval → Except PyErr ZInterval
  | [] => .ok curr
  | i :: l => match both (DT.lt i.left curr.left) (i.overlaps curr) with
    | .error e => .error e
    | .ok true => extendLeft i l
    | .ok false => .ok curr

/-- `Any.rollforward` after the members have been rolled, base.py:464-479. -/
def mergeForward (is : List ZInterval) : Except PyErr ZInterval := match sortedBy (·.left) false is with
  | .error e => .error e
  | .ok [] => .error .index
  | .ok (c :: l) => match extendRight c l with
    | .error e => .error e
    | .ok d => ZInterval.make c.left d.right

/-- `Any.rollback` after the members have been rolled, base.py:434-450. -/
def mergeBack (is : List ZInterval) : Except PyErr ZInterval := match sortedBy (·.right) true is with
  | .error e => .error e
  | .ok [] => .error .index
  | .ok (c :: l) => match extendLeft c l with
    | .error e => .error e
    | .ok d => ZInterval.make d.left c.right

/-- `TimePeriod.min` and `TimePeriod.max` are naive, base.py:25-26. -/
def ZMIN : DT := .naive MINT
def ZMAX : DT := .naive MAXT

/-- `StaticInterval.rollforward`, base.py:517-524: no conversion to the zone of `dt`. -/
def staticForward (s e dt : DT) : Except PyErr ZInterval := match DT.lt e dt with
  | .error x => .error x
  | .ok true => ZInterval.make ZMAX ZMAX
  | .ok false => match maxOf s [dt] with
    | .error x => .error x
    | .ok l => ZInterval.make l e

/-- `StaticInterval.rollback`, base.py:506-515. -/
def staticBack (m : Machine) (s e dt : DT) : Except PyErr ZInterval :=
  let s' := m.inZoneOf dt s
  match DT.lt dt s' with
  | .error x => .error x
  | .ok true => ZInterval.make ZMIN ZMIN
  | .ok false => match minOf (m.inZoneOf dt e) [dt] with
    | .error x => .error x
    | .ok r => ZInterval.make s' r

/-- `TimePeriod` objects as in `Period`, with naive or aware dates in static periods (`always` is
`static ZMIN ZMAX`). -/
inductive ZPeriod where
  | anchored (a : Anchored)
  | static (s e : DT)
  | delta (past future : Int)
  | span (near : Int) (far : Option Int)
  | relday (off startTime endTime : Int)
  | all (ps : List ZPeriod)
  | any (ps : List ZPeriod)

/-- An interval on calendar and clock of the zone of `dt`. -/
def DT.interval (dt : DT) (i : Interval) : ZInterval := ⟨dt.at i.left, dt.at i.right, i.closed⟩

/-- The result for a `TimeOf…` period: these read the fields of the datetime and add durations to it
(rocketry/core/time/anchor.py:191-398, base.py:128-176), so that all datetimes are in the zone of the given one and are
compared by their fields. -/
def onWall (dt : DT) (r : Except PyErr Interval) : Except PyErr ZInterval := match r with
  | .error e => .error e
  | .ok i => .ok (dt.interval i)

namespace ZPeriod

/-- `rollforward`, see `Period.rollforward` for the lines. -/
def rollforward : Nat → ZPeriod → DT → Except PyErr ZInterval
  | 0, _, _ => .error .recursion
  | n + 1, .anchored a, dt => onWall dt (Anchored.rollforward (n + 1) a dt.wall)
  | _ + 1, .static s e, dt => staticForward s e dt
  | _ + 1, .delta _ future, dt => ZInterval.make dt (dt.add (future.natAbs : Int))
  | _ + 1, .span near far, dt => ZInterval.make (dt.add near) (match far with | some f => dt.add f | none => ZMAX)
  | _ + 1, .relday _ _ _, _ => .error .attribute
  | n + 1, .all ps, dt =>
    match mapE (fun p => rollforward n p dt) ps with
    | .error e => .error e
    | .ok is => match allOverlap is with
      | .error e => .error e
      | .ok true => reduceAnd is
      | .ok false => match maxLeft is with
        | .error e => .error e
        | .ok next =>
          let opened := is.any (fun i => DT.eq i.left next && !i.closed.incLeft)
          rollforward n (.all ps) (if opened then next.add (-1) else next)
  | n + 1, .any ps, dt =>
    match mapE (fun p => rollforward n p dt) ps with
    | .error e => .error e
    | .ok is => mergeForward is

/-- `rollback`, see `Period.rollback` for the lines; `RelativeDay` combines a date with times without zone, the result
is naive (rocketry/time/interval.py:431-437). -/
def rollback (m : Machine) : Nat → ZPeriod → DT → Except PyErr ZInterval
  | 0, _, _ => .error .recursion
  | _ + 1, .anchored a, dt => onWall dt (a.rollback dt.wall)
  | _ + 1, .static s e, dt => staticBack m s e dt
  | _ + 1, .delta past _, dt => ZInterval.make (dt.add (-(past.natAbs : Int))) dt
  | _ + 1, .span near far, dt => ZInterval.make (match far with | some f => dt.add (-f) | none => ZMIN) (dt.add (-near))
  | _ + 1, .relday off st en, dt =>
    let d := (dt.wall - off) / DAY * DAY
    ZInterval.make (.naive (d + st)) (.naive (d + en))
  | n + 1, .all ps, dt =>
    match mapE (fun p => rollback m n p dt) ps with
    | .error e => .error e
    | .ok is => match allOverlap is with
      | .error e => .error e
      | .ok true => reduceAnd is
      | .ok false => match minRight is with
        | .error e => .error e
        | .ok next => rollback m n (.all ps) (if DT.eq dt next then next.add (-1) else next)
  | n + 1, .any ps, dt =>
    match mapE (fun p => rollback m n p dt) ps with
    | .error e => .error e
    | .ok is => mergeBack is

/-- `dt in period`, see `Period.contains` for the lines. -/
def contains (n : Nat) (p : ZPeriod) (dt : DT) : Except PyErr Bool := match p with
  | .anchored a => .ok (a.contains dt.wall)
  | .delta _ _ => .error .type
  | .span _ _ => .error .type
  | .relday _ _ _ => .error .runtime
  | p => match rollforward n p dt with
    | .error e => .error e
    | .ok i => i.contains dt

/-- `isinstance(period, TimeDelta)`. -/
def isDelta : ZPeriod → Bool
  | .delta _ _ => true
  | .span _ _ => true
  | _ => false

end ZPeriod

/-! ### Conditions in a session with the option `timezone` -/

/-- `get_period_span(period, session)` at the timestamp `now`, rocketry/core/time/utils.py:8-32. -/
def span (m : Machine) (zone : Option Int) (n : Nat) (p : Option ZPeriod) (now : Int) : Except PyErr (DT × DT) :=
  match p with
  | none => .ok (ZMIN, ZMAX)
  | some p => match p.rollback m n (m.format zone now) with
    | .error e => .error e
    | .ok i => .ok (i.left, i.right)

/-- `start <= t <= end`. -/
def within (s e t : DT) : Except PyErr Bool := both (DT.le s t) (DT.le t e)

/-- The loop over several actions, rocketry/conditions/task/utils.py:77-87. -/
def scanActions (last : Action → Option DT) (s e : DT) : List Action → Bool → Except PyErr (Bool × Bool)
  | [], cannot => .ok (false, cannot)
  | a :: l, cannot => match last a with
    | none => scanActions last s e l cannot
    | some t => match within s e t with
      | .error x => .error x
      | .ok true => .ok (true, false)
      | .ok false => match DT.le s t with
        | .error x => .error x
        | .ok true => scanActions last s e l false
        | .ok false => scanActions last s e l cannot

/-- `(occurred_on_period, cannot_have_occurred)`, utils.py:70-87. -/
def cachedFeatures (last : Action → Option DT) (s e : DT) : Acts → Except PyErr (Bool × Bool)
  | .one a => match last a with
    | none => .ok (false, true)
    | some t => match within s e t with
      | .error x => .error x
      | .ok o => match DT.lt t s with
        | .error x => .error x
        | .ok c => .ok (o, c)
  | .many as => scanActions last s e as true

/-- A status condition: `TaskStatusMixin.get_measurement` (utils.py:62-111) and `BaseComparable.observe`.  The cached
times and the times of the records are timestamps; `task.last_run` etc. are formatted (rocketry/core/task.py:1197-1237),
the bounds of the query are timestamps (utils.py:104-105). -/
def status (m : Machine) (zone : Option Int) (n : Nat) (fromLogs : Bool) (acts : Acts) (comps : Comps) (p : Option ZPeriod)
    (now : Int) (name : String) (t : TaskMem) (repo : List Record) : Except PyErr Bool :=
  match span m zone n p now with
  | .error e => .error e
  | .ok (s, e) =>
    let counted := compState comps (measuredTimes repo name acts (m.toStamp s) (m.toStamp e)).length
    if fromLogs then .ok counted
    else match cachedFeatures (fun a => (t.last a).map (m.format zone)) s e acts with
      | .error e => .error e
      | .ok f =>
        if isEqualZero comps && f.2 then .ok true
        else if isEqualZero comps && f.1 then .ok false
        else if isAnyOverZero comps && f.2 then .ok false
        else if isAnyOverZero comps && f.1 then .ok true
        else .ok counted

/-- `IsPeriod.get_state`, rocketry/conditions/time.py:36-38. -/
def isPeriod (m : Machine) (zone : Option Int) (n : Nat) (p : ZPeriod) (now : Int) : Except PyErr Bool :=
  p.contains n (m.format zone now)

/-- `isin_period`, rocketry/conditions/task/task.py:296-303, 352-356. -/
def isin (m : Machine) (zone : Option Int) (n : Nat) (p : ZPeriod) (now : Int) : Except PyErr Bool :=
  if p.isDelta then .ok true else isPeriod m zone n p now

/-- `TaskExecutable.get_state`, task.py:285-311. -/
def executable (m : Machine) (zone : Option Int) (n : Nat) (fromLogs : Bool) (retries : Option Int) (p : ZPeriod)
    (now : ExecReads) (name : String) (t : TaskMem) (repo : List Record) : Except PyErr Bool :=
  let retries := retries.getD 0
  andThen (isin m zone n p now.isin)
    (andThen (status m zone n fromLogs (.one .inaction) [(.eq, 0)] (some p) now.inacted name t repo)
      (andThen (status m zone n fromLogs (.one .success) [(.eq, 0)] (some p) now.succeeded name t repo)
        (andThen (status m zone n fromLogs (.one .fail) [(.le, retries)] (some p) now.failed name t repo)
          (status m zone n fromLogs (.one .terminate) [(.eq, 0)] (some p) now.terminated name t repo))))

/-- `TaskRunnable.get_state`, task.py:346-361. -/
def runnable (m : Machine) (zone : Option Int) (n : Nat) (fromLogs : Bool) (p : ZPeriod) (now now' : Int) (name : String)
    (t : TaskMem) (repo : List Record) : Except PyErr Bool :=
  andThen (isin m zone n p now) (status m zone n fromLogs (.one .run) [(.eq, 0)] (some p) now' name t repo)

/-- A run in `_run_stack`: the timestamp of its start and whether it is alive. -/
structure StackRun where
  start : Int
  alive : Bool
  deriving DecidableEq, Repr

/-- The runs measured by `TaskRunning.get_measurement` from the run stack, task.py:172-179. -/
def aliveWithin (m : Machine) (zone : Option Int) (s e : DT) : List StackRun → Except PyErr (List StackRun)
  | [] => .ok []
  | r :: l => match both (.ok r.alive) (within s e (m.format zone r.start)) with
    | .error x => .error x
    | .ok b => match aliveWithin m zone s e l with
      | .error x => .error x
      | .ok l => .ok (if b then r :: l else l)

/-- `TaskRunning` (task.py:147-179, without force_status_from_logs) compared with numbers. -/
def running (m : Machine) (zone : Option Int) (n : Nat) (comps : Comps) (p : Option ZPeriod) (now : Int)
    (runs : List StackRun) : Except PyErr Bool := match span m zone n p now with
  | .error e => .error e
  | .ok (s, e) => match aliveWithin m zone s e runs with
    | .error x => .error x
    | .ok l => .ok (compState comps l.length)

/-- `SchedulerStarted.get_state`, rocketry/conditions/scheduler.py:57-60; the startup time is formatted
(rocketry/core/schedule.py:309). -/
def schedulerStarted (m : Machine) (zone : Option Int) (n : Nat) (p : Option ZPeriod) (now startup : Int) :
    Except PyErr Bool := match span m zone n p now with
  | .error e => .error e
  | .ok (s, e) => within s e (m.format zone startup)

/-- `running(task).more_than(d)`, `.less_than(d)`, `.between(a, b)`, rocketry/conditions/api.py:158-171, and
`scheduler_running(more_than, less_than)`, 298-299: the period. -/
def spanDelta (moreThan lessThan : Option Int) : ZPeriod :=
  .span ((moreThan.getD 0).natAbs : Int) (lessThan.map fun f => (f.natAbs : Int))

end Rocketry.Zoned
