import Verif.Time.Calendar
import Verif.Time.Anchored

/-!
# Specifications for time periods (independent of the rolling code)
-/

namespace Rocketry.Spec

/-- Length in microseconds of the clock cycles of fixed length. -/
def cycleLen : Scope → Option Int
  | .second => some 1000000
  | .minute => some (60 * 1000000)
  | .hour => some (60 * 60 * 1000000)
  | .day => some (24 * 60 * 60 * 1000000)
  | .week => some (7 * 24 * 60 * 60 * 1000000)
  | .month => none
  | .year => none

/-- `t` lies in the arc of a cycle of length `L` that starts at `s` and ends at `e`: the time elapsed since the
latest occurrence of `s` is less than the length of the arc.  Equal ends, and the pair `0, L`, mean the whole
cycle.  (Cycles are counted from 0001-01-01 00:00, a Monday.) -/
def InArc (L s e t : Int) : Prop := s = e ∨ (s = 0 ∧ e = L) ∨ (t - s) % L < (e - s) % L

/-- `[l, r)` is the first maximal stretch of `In` at or after `dt`. -/
structure FirstRun (In : Int → Prop) (dt l r : Int) : Prop where
  ge : dt ≤ l
  nonempty : l < r
  none_before : ∀ x, dt ≤ x → x < l → ¬ In x
  inside : ∀ x, l ≤ x → x < r → In x
  exit : ¬ In r

/-- `[l, r)` is the last stretch of `In` before `dt`, cut at `dt`, complete to the left; when it is degenerate
(`l = r`), it is the single instant `dt`. -/
structure LastRun (In : Int → Prop) (dt l r : Int) : Prop where
  le : r ≤ dt
  ordered : l ≤ r
  degenerate : l = r → r = dt ∧ In dt
  none_after : ∀ x, r ≤ x → x < dt → ¬ In x
  inside : ∀ x, l ≤ x → x < r → In x
  cut : In dt → r = dt
  entry : In l ∧ ¬ In (l - 1)

/-- `r` is the first instant after `dt` at which the cycle position is `b`. -/
structure NextOccurrence (L b dt r : Int) : Prop where
  gt : dt < r
  occurs : (r - b) % L = 0
  least : ∀ x, dt < x → x < r → (x - b) % L ≠ 0

/-- `r` is the last instant not after `dt` at which the cycle position is `b`. -/
structure PrevOccurrence (L b dt r : Int) : Prop where
  le : r ≤ dt
  occurs : (r - b) % L = 0
  greatest : ∀ x, r < x → x ≤ dt → (x - b) % L ≠ 0

/-- The number by which users refer to the unit of the cycle that contains `t`: millisecond of second, second of
minute, minute of hour, hour of day, weekday (Monday = 1), day of month, month. -/
def unitNumber : Scope → Int → Int
  | .second, t => microsecond t / 1000
  | .minute, t => second t
  | .hour, t => minute t
  | .day, t => hour t
  | .week, t => weekday t + 1
  | .month, t => day t
  | .year, t => month t

/-- Smallest and largest unit number. -/
def unitRange : Scope → Int × Int
  | .second => (0, 999) | .minute => (0, 59) | .hour => (0, 59) | .day => (0, 23) | .week => (1, 7)
  | .month => (1, 31) | .year => (1, 12)

/-- `n` lies in the inclusive range `a..b`, wrapping around when `a > b`. -/
def InUnits (a b n : Int) : Prop := if a ≤ b then a ≤ n ∧ n ≤ b else a ≤ n ∨ n ≤ b

instance (a b n : Int) : Decidable (InUnits a b n) := by unfold InUnits; infer_instance

/-- Position `p` lies between `s` and `e`, wrapping around when `s ≥ e`. -/
def Between (s e p : Int) : Prop := if s < e then s ≤ p ∧ p < e else s ≤ p ∨ p < e

instance (s e p : Int) : Decidable (Between s e p) := by unfold Between; infer_instance

/-- Time since the start of the calendar month. -/
def sinceMonthStart (t : Int) : Int := t - datetime (year t) (month t) 1

/-- In-month membership: equal bounds and `0..31 days` mean the whole month. -/
def InMonth (s e t : Int) : Prop := s = e ∨ (s = 0 ∧ e = 31 * DAY) ∨ Between s e (sinceMonthStart t)

def nextMonth (y m : Int) : Int × Int := if m = 12 then (y + 1, 1) else (y, m + 1)
def prevMonth (y m : Int) : Int × Int := if m = 1 then (y - 1, 12) else (y, m - 1)

/-- Length of the calendar month of `t`, of the next and of the previous one. -/
def monthLen (t : Int) : Int := DAY * Cal.daysInMonth (year t) (month t)
def nextMonthLen (t : Int) : Int :=
  DAY * Cal.daysInMonth (nextMonth (year t) (month t)).1 (nextMonth (year t) (month t)).2
def prevMonthLen (t : Int) : Int :=
  DAY * Cal.daysInMonth (prevMonth (year t) (month t)).1 (prevMonth (year t) (month t)).2

/-- The bounds `s`, `e` are proper bounds in a month of length `len`: neither lies beyond the end of the month,
and together they cover neither the whole nor nothing of it. -/
def Fits (s e len : Int) : Prop := s ≤ len ∧ e ≤ len ∧ ¬ (s = 0 ∧ e = len) ∧ ¬ (s = len ∧ e = 0)

instance (s e len : Int) : Decidable (Fits s e len) := by unfold Fits; infer_instance

end Rocketry.Spec
