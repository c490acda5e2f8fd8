import Verif.Time.Period
import Verif.Base.Text

/-!
# Model of `rocketry/time/cron.py`

A field text is split at commas, each item at `/` and `-` (`parseField`, section "text"); the items are then turned
into periods (`fieldPeriod`).
-/

namespace Rocketry

/-- A value of a cron field: digits, or a name given by its 0-based position in `_unit_mapping`
(rocketry/time/interval.py:167-177 weekdays, 319-324 months). -/
inductive CVal where
  | num (n : Int)
  | name (k : Int)
  deriving DecidableEq, Repr

/-- One comma-separated item of a cron field.  `step` is the number after `/` (a natural number here; negative
steps are not modelled). -/
inductive CItem where
  | star
  | starStep (step : Nat)
  | at (v : CVal) (step : Option Nat)
  | range (a b : CVal) (step : Option Nat)
  deriving DecidableEq, Repr

/-- Length of `_unit_names`: rocketry/time/interval.py:88 (60 minutes), 125 (24 hours), 163 (weekdays), 237 (days),
316 (months).  `TimeOfSecond` and `TimeOfMinute` are not used by cron. -/
def unitCount : Scope → Int
  | .hour => 60 | .day => 24 | .week => 7 | .month => 31 | .year => 12
  | .second => 0 | .minute => 0

/-- The value that `_unit_names[k]` (e.g. "05:00", "Fri", "3rd", "Mar") stands for. -/
def unitName (sc : Scope) (k : Int) : AVal :=
  match sc with
  | .week | .month | .year => .named k none
  | sc => .clock (k * sc.unit)

/-- The indices selected by `xs[start:stop:step]` for `len(xs) = len`, `start, stop ≥ 0`, `step ≥ 0`
(zero: `ValueError`). -/
def sliceIdx (len : Int) (start stop : Option Int) (step : Nat) : Except PyErr (List Int) :=
  if step = 0 then .error .value
  else
    let lo := start.getD 0
    .ok (((List.range len.toNat).map Int.ofNat).filter fun k =>
      decide (lo ≤ k) && decide (k < stop.getD len) && decide ((k - lo) % (step : Int) = 0))

/-- `cls.at(value)` as a period. -/
def atPeriod (sc : Scope) (v : AVal) : Except PyErr Period :=
  match Anchored.at sc v with
  | .error e => .error e
  | .ok a => .ok (.anchored a)

/-- `AnchoredInterval.create_range`, rocketry/core/time/anchor.py:110-121 (`start`, `end` already converted to
positions). -/
def createRange (sc : Scope) (start stop : Option Int) (step : Nat) : Except PyErr Period :=
  match sliceIdx (unitCount sc) start stop step with
  | .error e => .error e
  | .ok ks =>
    match mapE (fun k => atPeriod sc (unitName sc k)) ks with
    | .error e => .error e
    | .ok ps => Period.mkAny ps

/-- `Cron._convert_day_of_week`, rocketry/time/cron.py:89-91; identity for the other fields (line 39). -/
def cronConv (sc : Scope) (i : Int) : Int :=
  match sc with
  | .week => if i = 0 then 7 else i
  | _ => i

/-- A value as argument of `cls(...)`/`cls.at(...)`, cron.py:55-58, 74. -/
def cronVal (sc : Scope) : CVal → AVal
  | .num n => .int (cronConv sc n)
  | .name k => .named k none

/-- A value as argument of `create_range`: numbers are passed as they are, names through `_unit_mapping`
(cron.py:55-58, 65-67; anchor.py:111-114). -/
def cronIdx (sc : Scope) : CVal → Int
  | .num n => cronConv sc n
  | .name k => k

/-- The body of the loop of `Cron._get_period_from_expr`, cron.py:43-78; `none` for `*` (`continue`). -/
def itemPeriod (sc : Scope) : CItem → Except PyErr (Option Period)
  | .star => .ok none
  | .starStep n =>
    match createRange sc none none n with
    | .error e => .error e
    | .ok p => .ok (some p)
  | .at v none =>
    match atPeriod sc (cronVal sc v) with
    | .error e => .error e
    | .ok p => .ok (some p)
  | .at v (some n) =>
    match createRange sc none none n with
    | .error e => .error e
    | .ok q =>
      match atPeriod sc (cronVal sc v) with
      | .error e => .error e
      | .ok p =>
        match p.and q with
        | .error e => .error e
        | .ok r => .ok (some r)
  | .range a b none =>
    match Anchored.init sc (some (cronVal sc a)) (some (cronVal sc b)) with
    | .error e => .error e
    | .ok p => .ok (some (.anchored p))
  | .range a b (some n) =>
    match createRange sc none none n with
    | .error e => .error e
    | .ok _ =>
      match createRange sc (some (cronIdx sc a)) (some (cronIdx sc b + 1)) n with
      | .error e => .error e
      | .ok p => .ok (some p)

/-- The loop of `Cron._get_period_from_expr`, cron.py:40-87, with the periods of the items so far. -/
def fieldLoop (sc : Scope) (acc : Option Period) : List CItem → Except PyErr (Option Period)
  | [] => .ok acc
  | i :: l =>
    match itemPeriod sc i with
    | .error e => .error e
    | .ok none => fieldLoop sc acc l
    | .ok (some p) =>
      match acc with
      | none => fieldLoop sc (some p) l
      | some q =>
        match q.or p with
        | .error e => .error e
        | .ok r => fieldLoop sc (some r) l

/-- `Cron._get_period_from_expr`, cron.py:37-87 (default `always`). -/
def fieldPeriod (sc : Scope) (items : List CItem) : Except PyErr Period :=
  match fieldLoop sc none items with
  | .error e => .error e
  | .ok (some p) => .ok p
  | .ok none => .ok .always

/-- `Cron`, cron.py:9-22. -/
structure CronExpr where
  minute : List CItem
  hour : List CItem
  dayOfMonth : List CItem
  month : List CItem
  dayOfWeek : List CItem
  deriving Repr

/-- Sequencing of two computations that may raise. -/
def bindE {α β : Type} (x : Except PyErr α) (f : α → Except PyErr β) : Except PyErr β :=
  match x with
  | .error e => .error e
  | .ok a => f a

/-- The choice in cron.py:99-104. -/
def cronDays : Period → Period → Except PyErr Period
  | .always, q => Period.and .always q
  | p, .always => Period.and p .always
  | p, q => Period.or p q

/-- `Cron.get_subperiod`, cron.py:93-111.  `TimeOfMinute()` is the full minute. -/
def CronExpr.subperiod (c : CronExpr) : Except PyErr Period :=
  bindE (fieldPeriod .month c.dayOfMonth) fun dom =>
  bindE (fieldPeriod .week c.dayOfWeek) fun dow =>
  bindE (cronDays dom dow) fun days =>
  bindE (fieldPeriod .hour c.minute) fun mi =>
  bindE (mi.and (.anchored ⟨.minute, 0, Scope.minute.max⟩)) fun p1 =>
  bindE (fieldPeriod .day c.hour) fun h =>
  bindE (p1.and h) fun p2 =>
  bindE (fieldPeriod .year c.month) fun mo =>
  bindE (p2.and mo) fun p3 =>
  p3.and days

/-- `Cron.rollforward`, cron.py:29-31. -/
def CronExpr.rollforward (c : CronExpr) (n : Nat) (dt : Int) : Except PyErr Interval :=
  bindE c.subperiod fun p => p.rollforward n dt

/-- `Cron.rollback`, cron.py:33-35. -/
def CronExpr.rollback (c : CronExpr) (n : Nat) (dt : Int) : Except PyErr Interval :=
  bindE c.subperiod fun p => p.rollback n dt

/-- `dt in Cron(...)`: `TimePeriod.__contains__`, rocketry/core/time/base.py:28-32. -/
def CronExpr.contains (c : CronExpr) (n : Nat) (dt : Int) : Except PyErr Bool :=
  bindE (c.rollforward n dt) fun i => .ok (i.contains dt)

/-! ### text -/

/-- `_unit_mapping` of weekdays and months, rocketry/time/interval.py:165-177, 318-324 (string keys). -/
def unitKeys : Scope → List (String × Int)
  | .week => [("mon", 0), ("tue", 1), ("wed", 2), ("thu", 3), ("fri", 4), ("sat", 5), ("sun", 6),
      ("monday", 0), ("tuesday", 1), ("wednesday", 2), ("thursday", 3), ("friday", 4), ("saturday", 5),
      ("sunday", 6)]
  | .year => [("january", 0), ("february", 1), ("march", 2), ("april", 3), ("may", 4), ("june", 5), ("july", 6),
      ("august", 7), ("september", 8), ("october", 9), ("november", 10), ("december", 11),
      ("jan", 0), ("feb", 1), ("mar", 2), ("apr", 3), ("jun", 5), ("jul", 6), ("aug", 7), ("sep", 8),
      ("oct", 9), ("nov", 10), ("dec", 11)]
  | _ => []

/-- Digits become numbers (cron.py:55-58, 74), other texts are looked up in `_unit_mapping` in lower case.  Texts
with a time of day ("Mon 10:00") are not modelled (`ValueError` here). -/
def parseVal (sc : Scope) (l : List Char) : Except PyErr CVal :=
  if isDigits l then .ok (.num (digitsVal l))
  else
    match (unitKeys sc).find? (fun kv => kv.1.toList = l.map lowerChar) with
    | some kv => .ok (.name kv.2)
    | none => .error .value

/-- The part of an item before `/`, cron.py:51-78. -/
def parseRange (sc : Scope) (l : List Char) (step : Option Nat) : Except PyErr CItem :=
  if '-' ∈ l then
    match splitChar '-' l with
    | [a, b] =>
      bindE (parseVal sc a) fun a => bindE (parseVal sc b) fun b => .ok (.range a b step)
    | _ => .error .value
  else if l = ['*'] then
    match step with
    | none => .ok .star
    | some n => .ok (.starStep n)
  else bindE (parseVal sc l) fun v => .ok (.at v step)

/-- One item, cron.py:43-50. -/
def parseItem (sc : Scope) (l : List Char) : Except PyErr CItem :=
  if '/' ∈ l then
    match splitChar '/' l with
    | [e, s] => if isDigits s then parseRange sc e (some (digitsVal s)) else .error .value
    | _ => .error .value
  else parseRange sc l none

/-- A whole field text, cron.py:40-43.  All items are read before the first period is built: when several items
are invalid, the exception reported may be another one than in Python. -/
def parseField (sc : Scope) (s : String) : Except PyErr (List CItem) :=
  mapE (parseItem sc) (splitChar ',' s.toList)

/-- `Cron(minute, hour, day_of_month, month, day_of_week)` with texts. -/
def parseCron (mi h dom mo dow : String) : Except PyErr CronExpr :=
  bindE (parseField .hour mi) fun mi =>
  bindE (parseField .day h) fun h =>
  bindE (parseField .month dom) fun dom =>
  bindE (parseField .year mo) fun mo =>
  bindE (parseField .week dow) fun dow =>
  .ok ⟨mi, h, dom, mo, dow⟩

end Rocketry
