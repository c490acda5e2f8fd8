import Verif.Task.RunTimes

/-!
# Model of the records of a log read with times: `TaskLogRecord` and `TaskRunRecord`

The validators of rocketry/log/log_record.py:48-64 with `to_datetime` and `to_timedelta` (rocketry/pybox/time/convert.py:38-66,
216-222), applied to the fields that `Task._set_status` gives a record (core/task.py:1155-1168): `start`, `end` and
`runtime` are numbers of seconds.

Simplified: numbers are exact and given in microseconds, that is, with six decimals (a float of today's seconds has about
that precision); instants are microseconds of the clock; texts are not read.
-/

namespace Rocketry.Task
open Rocketry

/-- A value of a field: a number of seconds (in millionths), a `datetime`, a `timedelta`. -/
inductive RecVal where
  | num (millionths : Int)
  | time (t : Int)
  | span (d : Int)
  deriving DecidableEq, Repr

/-- Rounding to the nearest integer, halves to the even one: how `timedelta` rounds microseconds. -/
def roundHalfEven (a b : Int) : Int :=
  let q := a / b
  let r := a % b
  if 2 * r < b then q else if b < 2 * r then q + 1 else if q % 2 = 0 then q else q + 1

/-- The units of `numb_to_timedelta`: `ABBREVIATIONS`, convert.py:5-20. -/
inductive NumUnit where
  | microsecond | millisecond | second | minute | hour
  deriving DecidableEq, Repr

/-- The microseconds of a unit: `timedelta(**{unit + "s": 1})`. -/
def NumUnit.micros : NumUnit → Int
  | .microsecond => 1
  | .millisecond => 1000
  | .second => 1000000
  | .minute => 60000000
  | .hour => 3600000000

/-- `numb_to_timedelta(n, unit)`, convert.py:216-222, for a number `n` in millionths. -/
def numbToTimedelta (n : Int) (u : NumUnit) : Int := roundHalfEven (n * u.micros) 1000000

/-- `to_timedelta(value)`, convert.py:57-65, without a unit: the default unit of `numb_to_timedelta` is the microsecond.
`none`: TypeError. -/
def toTimedelta : RecVal → Option RecVal
  | .span d => some (.span d)
  | .num n => some (.span (numbToTimedelta n .microsecond))
  | .time _ => none

/-- `to_datetime(value)`, convert.py:38-55: `datetime.fromtimestamp` of a number. `none`: TypeError. -/
def toDatetime : RecVal → Option RecVal
  | .time t => some (.time t)
  | .num n => some (.time n)
  | .span _ => none

/-- `format_start` and `format_end`, log_record.py:48-58; `none`: a ValidationError. -/
def formatInstant : Option RecVal → Option (Option RecVal)
  | none => some none
  | some v => (toDatetime v).map some

/-- `format_runtime`, log_record.py:60-64. -/
def formatRuntime : Option RecVal → Option (Option RecVal)
  | none => some none
  | some v => (toTimedelta v).map some

/-- The fields of a record that concern times, as given to the record model. -/
structure RecFields where
  action : Action
  run : Option Nat
  created : Int
  start : Option RecVal
  stop : Option RecVal
  runtime : Option RecVal
  deriving DecidableEq, Repr

/-- The fields that `_set_status` gives to the record, core/task.py:1157-1168. -/
def writtenFields (r : TimedRec) : RecFields :=
  ⟨r.action, r.run, r.created, r.start.map .num, r.stop.map .num, r.runtime.map .num⟩

/-- `TaskLogRecord(**fields)` and `TaskRunRecord(**fields)`, log_record.py:39-73. -/
def taskLogRecord (f : RecFields) : Option RecFields :=
  match formatInstant f.start, formatInstant f.stop, formatRuntime f.runtime with
  | some a, some b, some c => some { f with start := a, stop := b, runtime := c }
  | _, _, _ => none

end Rocketry.Task
