import Verif.Time.Calendar
import Verif.Time.Anchored
import Verif.Base.CharList
import Verif.Base.Text

/-!
# Texts that name a time of a cycle

Written from the docstrings and comments of rocketry/time/interval.py and docs/condition_syntax: the texts, the point
of the cycle each names, and the moments at which the cycle is at that point.
-/

namespace Rocketry.Spec

/-- A number below 100 with two digits. -/
def twoDigits (n : Nat) : List Char := [Nat.digitChar (n / 10), Nat.digitChar (n % 10)]

/-- The digits of a fraction of a second. -/
def fracText (ds : List Nat) : List Char := ds.map Nat.digitChar

/-- Microseconds of a fraction: the first digit counts `scale`, the next a tenth of it. -/
def fracPoint : Nat → List Nat → Nat
  | _, [] => 0
  | scale, d :: ds => d * scale + fracPoint (scale / 10) ds

/-- Seconds, possibly with a fraction: `30`, `30.5`. -/
structure SecondsText where
  sec : Nat
  frac : List Nat := []

def SecondsText.text (s : SecondsText) : List Char :=
  twoDigits s.sec ++ (if s.frac = [] then [] else '.' :: fracText s.frac)

def SecondsText.Proper (s : SecondsText) : Prop := s.sec < 60 ∧ s.frac.length ≤ 6 ∧ ∀ d ∈ s.frac, d < 10

/-- Microseconds beyond the second. -/
def SecondsText.micro (s : SecondsText) : Nat := fracPoint 100000 s.frac

def SecondsText.point (s : SecondsText) : Int := s.sec * 1000000 + s.micro

/-- A time of the day: `10:00`, `10:00:15`, `10:00:15.5`. -/
structure ClockText where
  hour : Nat
  min : Nat
  secs : Option SecondsText := none

def ClockText.text (c : ClockText) : List Char :=
  twoDigits c.hour ++ ':' :: twoDigits c.min ++
    match c.secs with
    | none => []
    | some s => ':' :: s.text

def ClockText.Proper (c : ClockText) : Prop := c.hour < 24 ∧ c.min < 60 ∧ ∀ s ∈ c.secs, s.Proper

def ClockText.sec (c : ClockText) : Nat := match c.secs with
  | none => 0
  | some s => s.sec

def ClockText.micro (c : ClockText) : Nat := match c.secs with
  | none => 0
  | some s => s.micro

def ClockText.point (c : ClockText) : Int := ((c.hour * 60 + c.min) * 60 + c.sec) * 1000000 + c.micro

/-- The names of the days of the week, from Monday. -/
def weekdayNames : List (List Char) := [c!"monday", c!"tuesday", c!"wednesday", c!"thursday", c!"friday", c!"saturday", c!"sunday"]

def monthLongNames : List (List Char) :=
  [c!"january", c!"february", c!"march", c!"april", c!"may", c!"june", c!"july", c!"august", c!"september", c!"october",
   c!"november", c!"december"]

/-- `s` is, in upper or lower case, the `k`th of the names or its first three letters. -/
def NameOf (names : List (List Char)) (k : Nat) (s : List Char) : Prop :=
  ∃ n, names[k]? = some n ∧ (s.map lowerChar = n ∨ s.map lowerChar = n.take 3)

/-- A day of the month: `5`, `5th`, `1st 10:00`. -/
structure DayText where
  num : Nat
  ord : List Char := []
  clock : Option ClockText := none

def clockTail : Option ClockText → List Char
  | none => []
  | some c => ' ' :: c.text

def DayText.text (d : DayText) : List Char := showNat d.num ++ d.ord ++ clockTail d.clock

def DayText.Proper (d : DayText) : Prop :=
  1 ≤ d.num ∧ d.num ≤ 31 ∧ d.ord.map lowerChar ∈ [[], c!"st", c!"nd", c!"rd", c!"th", c!"."] ∧ ∀ c ∈ d.clock, c.Proper

/-- The texts, by the cycle. -/
inductive TimeText where
  /-- `30`, `30.5` -/
  | minute (s : SecondsText)
  /-- `15:00`, `15:00.5` -/
  | hour (m : Nat) (s : SecondsText)
  /-- `10:00` -/
  | day (c : ClockText)
  /-- `Mon`, `Monday 10:00`; the number of the day, Monday is 0, and how it is written -/
  | week (k : Nat) (name : List Char) (c : Option ClockText)
  /-- `5th`, `3rd 12:30:00` -/
  | month (d : DayText)
  /-- `Jan`, `December 5th 10:00`; the number of the month, January is 0 -/
  | year (k : Nat) (name : List Char) (d : Option DayText)

namespace TimeText

def scope : TimeText → Scope
  | minute _ => .minute | hour .. => .hour | day _ => .day | week .. => .week | month _ => .month | year .. => .year

def text : TimeText → List Char
  | minute s => s.text
  | hour m s => twoDigits m ++ ':' :: s.text
  | day c => c.text
  | week _ name c => name ++ clockTail c
  | month d => d.text
  | year _ name d => name ++ match d with
    | none => []
    | some d => ' ' :: d.text

def Proper : TimeText → Prop
  | minute s => s.Proper
  | hour m s => m < 60 ∧ s.Proper
  | day c => c.Proper
  | week k name c => NameOf weekdayNames k name ∧ ∀ c' ∈ c, c'.Proper
  | month d => d.Proper
  | year k name d => NameOf monthLongNames k name ∧
      ∀ d' ∈ d, d'.Proper ∧ d'.num ≤ Cal.daysInMonth 2024 (k + 1)

/-- A point of time is meant, not a whole day or month. -/
def Exact : TimeText → Prop
  | week _ _ c => c ≠ none
  | month d => d.clock ≠ none
  | year _ _ d => ∃ d', d = some d' ∧ d'.clock ≠ none
  | _ => True

/-- The time of the day that is said, or midnight. -/
def clockOf : Option ClockText → Int
  | none => 0
  | some c => c.point

/-- Where in the cycle the time (or the day or month) begins.  Years are counted as leap years. -/
def first : TimeText → Int
  | minute s => s.point
  | hour m s => m * 60000000 + s.point
  | day c => c.point
  | week k _ c => k * 86400000000 + clockOf c
  | month d => (d.num - 1) * 86400000000 + clockOf d.clock
  | year k _ d => Cal.daysBeforeMonth 2024 (k + 1) * 86400000000 +
    match d with
    | none => 0
    | some d => (d.num - 1) * 86400000000 + clockOf d.clock

/-- Where it ends: with the day or month if a day or month is named, as "until Friday" includes Friday. -/
def last : TimeText → Int
  | week k _ none => (k + 1) * 86400000000
  | month ⟨n, _, none⟩ => n * 86400000000
  | year k _ none => Cal.daysBeforeMonth 2024 (k + 2) * 86400000000
  | year k _ (some ⟨n, _, none⟩) => Cal.daysBeforeMonth 2024 (k + 1) * 86400000000 + n * 86400000000
  | t => t.first

/-- The clock shows the time `c` (midnight if none). -/
def ShowsClock (c : Option ClockText) (t : Int) : Prop := match c with
  | none => Rocketry.hour t = 0 ∧ Rocketry.minute t = 0 ∧ second t = 0 ∧ microsecond t = 0
  | some c => Rocketry.hour t = c.hour ∧ Rocketry.minute t = c.min ∧ second t = c.sec ∧ microsecond t = c.micro

/-- The moment `t` begins the named time: calendar and clock show it. -/
def Shows : TimeText → Int → Prop
  | minute s, t => second t = s.sec ∧ microsecond t = s.micro
  | hour m s, t => Rocketry.minute t = m ∧ second t = s.sec ∧ microsecond t = s.micro
  | day c, t => ShowsClock (some c) t
  | week k _ c, t => weekday t = k ∧ ShowsClock c t
  | month d, t => Rocketry.day t = d.num ∧ ShowsClock d.clock t
  | year k _ d, t => Rocketry.month t = k + 1 ∧
    match d with
    | none => Rocketry.day t = 1 ∧ ShowsClock none t
    | some d => Rocketry.day t = d.num ∧ ShowsClock d.clock t

end TimeText

end Rocketry.Spec
