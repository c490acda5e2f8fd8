import Verif.Spec.LogSpec
import Verif.Spec.TimeSpec

/-!
# Specification vocabulary for periodic tasks
-/

namespace Rocketry.Spec

/-- The number of the occurrence of a periodic span to which `t` belongs: occurrences of a cycle of length `L` begin
whenever the cycle position is `s`. -/
def occurrence (L s t : Int) : Int := (t - s) / L

/-- The record is of the task, has one of the actions, and its time lies in the same occurrence as `now`. -/
def InOccurrence (L s now : Int) (name : String) (acts : List Action) (r : Record) : Prop :=
  r.task = name ∧ r.action ∈ acts ∧ occurrence L s r.created = occurrence L s now

instance (L s now : Int) (name : String) (acts : List Action) (r : Record) : Decidable (InOccurrence L s now name acts r) := by
  unfold InOccurrence; infer_instance

/-- Number of such records. -/
def countOccurrence (L s now : Int) (name : String) (acts : List Action) (repo : List Record) : Nat :=
  (repo.filter (fun r => decide (InOccurrence L s now name acts r))).length

/-- The calendar month to which `t` belongs, counted from year 0. -/
def monthNumber (t : Int) : Int := year t * 12 + month t

/-- The month in which the occurrence to which `t` belongs has begun; occurrences begin in every month at the time `s`
since the start of the month. -/
def monthOccurrence (s t : Int) : Int := if s ≤ sinceMonthStart t then monthNumber t else monthNumber t - 1

/-- The record is of the task, has one of the actions, and its time lies in the same monthly occurrence as `now`. -/
def InMonthly (s now : Int) (name : String) (acts : List Action) (r : Record) : Prop :=
  r.task = name ∧ r.action ∈ acts ∧ monthOccurrence s r.created = monthOccurrence s now

instance (s now : Int) (name : String) (acts : List Action) (r : Record) : Decidable (InMonthly s now name acts r) := by
  unfold InMonthly; infer_instance

/-- The start of the calendar month with that number. -/
def monthStartOf (k : Int) : Int := datetime ((k - 1) / 12) ((k - 1) % 12 + 1) 1

/-- `t` lies in the latest occurrence, seen from `now`, of the part of the months from `s` to `e` (including its end). -/
def InLatestMonth (s e now t : Int) : Prop :=
  t ≤ now ∧ monthOccurrence s t = monthOccurrence s now ∧
    (s = e ∨ (s = 0 ∧ e = 31 * DAY) ∨ Between s e (sinceMonthStart t) ∨ sinceMonthStart t = e)

/-- The year in which the occurrence to which `t` belongs has begun; occurrences begin in every year with month `a`. -/
def yearOccurrence (a t : Int) : Int := if a ≤ month t then year t else year t - 1

/-- The first instant of the occurrence to which `t` belongs. -/
def yearBegin (a t : Int) : Int := datetime (yearOccurrence a t) a 1

/-- How many years without a 29 February have their end of February between the first instant of the occurrence to which
`t` belongs and `t`. -/
def skippedLeapDays (a t : Int) : Int :=
  (if a ≤ 2 ∧ (3 ≤ month t ∨ month t < a) ∧ Cal.isLeap (yearOccurrence a t) = false then 1 else 0) +
  (if month t < a ∧ 3 ≤ month t ∧ Cal.isLeap (year t) = false then 1 else 0)

/-- The record is of the task, has one of the actions, and its time lies in the same yearly occurrence as `now`. -/
def InYearly (a now : Int) (name : String) (acts : List Action) (r : Record) : Prop :=
  r.task = name ∧ r.action ∈ acts ∧ yearOccurrence a r.created = yearOccurrence a now

instance (a now : Int) (name : String) (acts : List Action) (r : Record) : Decidable (InYearly a now name acts r) := by
  unfold InYearly; infer_instance

end Rocketry.Spec
