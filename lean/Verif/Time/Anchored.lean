import Verif.Time.Interval
import Verif.Time.Calendar

/-!
# Model of `rocketry/core/time/anchor.py` and `rocketry/time/interval.py`

`AnchoredInterval` and its subclasses `TimeOfSecond … TimeOfYear`.
-/

namespace Rocketry

/-- The subclasses of `AnchoredInterval`, rocketry/time/interval.py:
`TimeOfSecond` 14-40, `TimeOfMinute` 42-71, `TimeOfHour` 74-109, `TimeOfDay` 111-147,
`TimeOfWeek` 149-216, `TimeOfMonth` 219-297, `TimeOfYear` 299-402. -/
inductive Scope where
  | second | minute | hour | day | week | month | year
  deriving DecidableEq, Repr

namespace Scope

/-- `_scope_max`, rocketry/time/interval.py:25,52,86,123,161,235,315. -/
def max : Scope → Int
  | second => toMicroseconds 0 0 0 1 0 0
  | minute => toMicroseconds 0 0 1 0 0 0
  | hour => toMicroseconds 0 1 0 0 0 0
  | day => toMicroseconds 1 0 0 0 0 0
  | week => toMicroseconds 7 0 0 0 0 0
  | month => toMicroseconds 31 0 0 0 0 0
  | year => toMicroseconds 1 0 0 0 0 0 * 366

/-- `_unit_resolution`, rocketry/time/interval.py:26,53,87,124,162,236
(`TimeOfYear` has none; its users are overridden, so the value 0 here is never read). -/
def unit : Scope → Int
  | second => toMicroseconds 0 0 0 0 1 0
  | minute => toMicroseconds 0 0 0 1 0 0
  | hour => toMicroseconds 0 0 1 0 0 0
  | day => toMicroseconds 0 1 0 0 0 0
  | week => toMicroseconds 1 0 0 0 0 0
  | month => toMicroseconds 1 0 0 0 0 0
  | year => 0

end Scope

/-- `TimeOfYear._month_start_mapping`, rocketry/time/interval.py:326-341 (`none`: `KeyError`). -/
def monthStart? (m : Int) : Option Int :=
  if m = 0 then some 0
  else if m = 1 then some (31 * DAY) else if m = 2 then some (60 * DAY)
  else if m = 3 then some (91 * DAY) else if m = 4 then some (121 * DAY)
  else if m = 5 then some (152 * DAY) else if m = 6 then some (182 * DAY)
  else if m = 7 then some (213 * DAY) else if m = 8 then some (244 * DAY)
  else if m = 9 then some (274 * DAY) else if m = 10 then some (305 * DAY)
  else if m = 11 then some (335 * DAY) else if m = 12 then some (366 * DAY)
  else none

/-- `TimeOfYear._year_start_mapping`, rocketry/time/interval.py:343 (inverse of the above). -/
def monthOfStart? (ms : Int) : Option Int :=
  if ms = 0 then some 0
  else if ms = 31 * DAY then some 1 else if ms = 60 * DAY then some 2
  else if ms = 91 * DAY then some 3 else if ms = 121 * DAY then some 4
  else if ms = 152 * DAY then some 5 else if ms = 182 * DAY then some 6
  else if ms = 213 * DAY then some 7 else if ms = 244 * DAY then some 8
  else if ms = 274 * DAY then some 9 else if ms = 305 * DAY then some 10
  else if ms = 335 * DAY then some 11 else if ms = 366 * DAY then some 12
  else none

/-- `anchor_dt`: rocketry/core/time/anchor.py:97-108 (second, minute, hour),
rocketry/time/interval.py:139-147 (day), 207-216 (week), 275-287 (month), 390-402 (year).
The month lookup of `TimeOfYear` cannot fail for a real month; the `0` default is unreachable
(`month_range`). -/
def anchorDt : Scope → Int → Int
  | .second, t => toMicroseconds 0 0 0 0 0 (microsecond t)
  | .minute, t => toMicroseconds 0 0 0 (second t) 0 (microsecond t)
  | .hour, t => toMicroseconds 0 0 (minute t) (second t) 0 (microsecond t)
  | .day, t => toMicroseconds 0 (hour t) (minute t) (second t) 0 (microsecond t)
  | .week, t => toMicroseconds 0 (hour t) (minute t) (second t) 0 (microsecond t)
      + weekday t * toMicroseconds 1 0 0 0 0 0
  | .month, t => toMicroseconds (day t - 1) (hour t) (minute t) (second t) 0 (microsecond t)
  | .year, t => (monthStart? (month t - 1)).getD 0 +
      toMicroseconds (day t - 1) (hour t) (minute t) (second t) 0 (microsecond t)

/-- `get_scope_forward`: anchor.py:220-222 (constant), rocketry/time/interval.py:289-291 (month). -/
def scopeForward : Scope → Int → Int
  | .month, t => DAY * Cal.daysInMonth (year t) (month t)
  | sc, _ => sc.max

/-- `get_scope_back`: anchor.py:216-218 (constant), rocketry/time/interval.py:293-297 (month). -/
def scopeBack : Scope → Int → Int
  | .month, t =>
    let m := if month t = 1 then 12 else month t - 1
    let y := if month t = 1 then year t - 1 else year t
    DAY * Cal.daysInMonth y m
  | sc, _ => sc.max

/-- An `AnchoredInterval` object: its class, `_start` and `_end` (anchor.py:40-41). -/
structure Anchored where
  scope : Scope
  start : Int
  stop : Int
  deriving DecidableEq, Repr

/-! ### Construction -/

/-- Argument accepted by `anchor` (anchor.py:66-82).
* `int i`: an integer;
* `clock n`: a string that names the point `n` microseconds after the start of the cycle (for
  second/minute/hour/day classes: "30.5", "15:00", "10:00"); the reading of the
  text is `readTime` in Verif/Text/TimeText.lean;
* `named u off`: a string naming the 0-based unit `u` (weekday, day of month, month) with an optional offset
  into the unit in microseconds ("Mon 10:00", "5th 12:30", "Jan 3rd").
Not modelled: dicts, floats and "1 quarter". -/
inductive AVal where
  | int (i : Int)
  | clock (n : Int)
  | named (u : Int) (off : Option Int)
  deriving DecidableEq, Repr

/-- the `side` argument of `anchor` (anchor.py:127,141). -/
inductive Side where | start | stop
  deriving DecidableEq, Repr

/-- `AnchoredInterval.anchor_int`, anchor.py:87-90. -/
def anchorIntBase (sc : Scope) (i : Int) : Side → Int
  | .stop => (i + 1) * sc.unit
  | .start => i * sc.unit

/-- `anchor_int` of the classes: rocketry/time/interval.py:32-35, 59-62, 90-93, 127-130, 179-185,
241-246, 380-388. -/
def anchorInt (sc : Scope) (i : Int) (side : Side) : Except PyErr Int :=
  match sc with
  | .second => if 0 ≤ i ∧ i ≤ 1000 then .ok (anchorIntBase sc i side) else .error .value
  | .minute => if 0 ≤ i ∧ i ≤ 59 then .ok (anchorIntBase sc i side) else .error .value
  | .hour => if 0 ≤ i ∧ i ≤ 59 then .ok (anchorIntBase sc i side) else .error .value
  | .day => if 0 ≤ i ∧ i ≤ 23 then .ok (anchorIntBase sc i side) else .error .value
  | .week => if 1 ≤ i ∧ i ≤ 7 then .ok (anchorIntBase sc (i - 1) side) else .error .value
  | .month => if 1 ≤ i ∧ i ≤ 31 then .ok (anchorIntBase sc (i - 1) side) else .error .value
  | .year =>
    if 1 ≤ i ∧ i ≤ 12 then
      match side with
      | .stop => match monthStart? (i - 1 + 1) with
        | some m => .ok (m - 1)
        | none => .error .key
      | .start => match monthStart? (i - 1) with
        | some m => .ok m
        | none => .error .key
    else .error .value

/-- `anchor` (anchor.py:66-82) with `anchor_str` of the classes: rocketry/time/interval.py:37-40, 64-71,
95-109, 132-137, 187-205, 248-273, 347-370. -/
def anchorVal (sc : Scope) (v : AVal) (side : Side) : Except PyErr Int :=
  match v with
  | .int i => anchorInt sc i side
  | .clock n =>
    match sc with
    | .second | .minute | .hour | .day => .ok n
    | _ => .error .value
  | .named u off =>
    match sc with
    | .week =>
      if 0 ≤ u ∧ u ≤ 6 then
        match off with
        | some o => .ok (DAY * u + o)
        | none => .ok (DAY * u + (if side = .stop then DAY else 0))
      else .error .value
    | .month =>
      match off with
      | some o => .ok (DAY * u + o)
      | none => .ok (DAY * u + (if side = .stop then DAY else 0))
    | .year =>
      if 0 ≤ u ∧ u ≤ 11 then
        match off, side with
        | none, .stop => match monthStart? (u + 1) with
          | some m => .ok (m - 1)
          | none => .error .key
        | _, _ => match monthStart? u with
          | some m => .ok (m + off.getD 0)
          | none => .error .key
      else .error .key
    | _ => .error .value

/-- `_validate`, anchor.py:163-165. -/
def validate (sc : Scope) (n : Int) : Except PyErr Unit :=
  if n < 0 ∨ n > sc.max then .error .value else .ok ()

/-- `to_timepoint`: anchor.py:152-161; `TimeOfYear`: rocketry/time/interval.py:372-378. -/
def toTimepoint (sc : Scope) (ms : Int) : Except PyErr Int :=
  match sc with
  | .year => match monthOfStart? ms with
    | some k => match monthStart? (k + 1) with
      | some m => .ok (m - 1)
      | none => .error .key
    | none => .error .key
  | sc =>
    let e := ms + sc.unit
    .ok (if e ≥ sc.max then e - sc.max else e)

/-- `set_start`, anchor.py:123-130. -/
def setStart (sc : Scope) (v : Option AVal) : Except PyErr Int := do
  let ms ← match v with
    | none => .ok 0
    | some v => anchorVal sc v .start
  validate sc ms
  return ms

/-- `set_end`, anchor.py:132-150. -/
def setEnd (sc : Scope) (start : Int) (v : Option AVal) (timePoint starting rightClosed : Bool) :
    Except PyErr Int := do
  let ms ← match v with
    | none =>
      if timePoint then toTimepoint sc start
      else if starting then .ok start
      else .ok sc.max
    | some v => anchorVal sc v .stop
  let ms := if rightClosed then ms + 1 else ms
  validate sc ms
  return ms

/-- `AnchoredInterval.__init__`, anchor.py:55-64. -/
def Anchored.init (sc : Scope) (start stop : Option AVal) (timePoint starting rightClosed : Bool := false) :
    Except PyErr Anchored :=
  if start.isNone && stop.isNone then
    if timePoint then .error .value else .ok ⟨sc, 0, sc.max⟩
  else do
    let s ← setStart sc start
    let e ← setEnd sc s stop timePoint starting rightClosed
    return ⟨sc, s, e⟩

/-- `cls.at(value)`, anchor.py:425-427. -/
def Anchored.at (sc : Scope) (v : AVal) : Except PyErr Anchored :=
  Anchored.init sc (some v) none (timePoint := true)

/-- `cls.starting(value)`, anchor.py:429-431. -/
def Anchored.starting (sc : Scope) (v : AVal) : Except PyErr Anchored :=
  Anchored.init sc (some v) none (starting := true)

namespace Anchored

/-! ### Membership and rolling -/

/-- `is_full`, anchor.py:212-214. -/
def isFull (p : Anchored) : Bool :=
  p.start = p.stop || (p.start = 0 && p.stop = p.scope.max)

/-- `__contains__`, anchor.py:191-210. -/
def contains (p : Anchored) (dt : Int) : Bool :=
  if p.isFull then true
  else
    let ms := anchorDt p.scope dt
    if ¬ p.start > p.stop then decide (p.start ≤ ms) && decide (ms < p.stop)
    else decide (ms ≥ p.start) || decide (ms < p.stop)

/-- `next_start`, anchor.py:236-275. -/
def nextStart (p : Anchored) (dt : Int) : Int :=
  let ms := anchorDt p.scope dt
  if ms < p.start then dt + (p.start - ms)
  else dt + (p.start - ms + scopeForward p.scope dt)

/-- `next_end`, anchor.py:277-316. -/
def nextEnd (p : Anchored) (dt : Int) : Int :=
  let ms := anchorDt p.scope dt
  if ms < p.stop then dt + (p.stop - ms)
  else dt + (p.stop - ms + scopeForward p.scope dt)

/-- `prev_start`, anchor.py:318-356. -/
def prevStart (p : Anchored) (dt : Int) : Int :=
  let ms := anchorDt p.scope dt
  if ms < p.start then dt + (p.start - ms - scopeBack p.scope dt)
  else dt + (p.start - ms)

/-- `prev_end`, anchor.py:358-397. -/
def prevEnd (p : Anchored) (dt : Int) : Int :=
  let ms := anchorDt p.scope dt
  if ms < p.stop then dt + (p.stop - ms - scopeBack p.scope dt)
  else dt + (p.stop - ms)

/-- `rollstart`, anchor.py:224-228. -/
def rollstart (p : Anchored) (dt : Int) : Int := if p.contains dt then dt else p.nextStart dt

/-- `rollend`, anchor.py:230-234. -/
def rollend (p : Anchored) (dt : Int) : Int := if p.contains dt then dt else p.prevEnd dt

/-- `TimeInterval.rollforward`, rocketry/core/time/base.py:128-151.  The first argument bounds the
recursion depth (`RecursionError` when exhausted); `resolution` is one microsecond (base.py:24). -/
def rollforward : Nat → Anchored → Int → Except PyErr Interval
  | 0, _, _ => .error .recursion
  | n + 1, p, dt =>
    if p.isFull then
      let e := p.nextEnd dt
      let e := if e = dt then p.nextEnd (dt + 1) else e
      Interval.make dt e .left
    else
      let s := p.rollstart dt
      let e := p.nextEnd dt
      if s = e then rollforward n p (e + 1)
      else Interval.make s e .left

/-- `TimeInterval.rollback`, rocketry/core/time/base.py:153-176. -/
def rollback (p : Anchored) (dt : Int) : Except PyErr Interval :=
  if p.isFull then
    let s := p.prevStart dt
    let s := if dt = s then p.prevStart (dt - 1) else s
    Interval.make s dt .left
  else
    let e := p.rollend dt
    let s := p.prevStart dt
    Interval.make s e (if s = e then .both else .left)

end Anchored
end Rocketry
