import Verif.Time.Cron
import Verif.Spec.TimeSpec

/-!
# What a cron expression means

Independent of periods: a field selects numbers; an instant matches when its minute, hour, month and day numbers
are selected.
-/

namespace Rocketry.Spec

/-- The number a value stands for: weekday 0 is Sunday (7), names count from the first unit. -/
def cronNumber (sc : Scope) : CVal → Int
  | .num n => if sc = .week ∧ n = 0 then 7 else n
  | .name k => (unitRange sc).1 + k

/-- The numbers selected by an item: `*` all; `*` with step `n`: every `n`-th counted from the first; a range is
inclusive and wraps around; `a-b` with step `n`: `a, a+n, …` up to `b`. -/
def itemSelects (sc : Scope) (i : CItem) (v : Int) : Prop :=
  match i with
  | .star => True
  | .starStep n => (v - (unitRange sc).1) % (n : Int) = 0
  | .at x none => v = cronNumber sc x
  | .at x (some n) => v = cronNumber sc x ∧ (v - (unitRange sc).1) % (n : Int) = 0
  | .range a b none => InUnits (cronNumber sc a) (cronNumber sc b) v
  | .range a b (some n) =>
    cronNumber sc a ≤ v ∧ v ≤ cronNumber sc b ∧ (v - cronNumber sc a) % (n : Int) = 0

/-- A list selects what one of its items selects. -/
def fieldSelects (sc : Scope) (items : List CItem) (v : Int) : Prop := ∃ i ∈ items, itemSelects sc i v

/-- A field that is only `*`. -/
def Unrestricted (items : List CItem) : Prop := ∀ i ∈ items, i = .star

/-- When cron fires: minute, hour and month match, and the day matches in the month or in the week when both
are restricted, otherwise in both (one of which is `*`). -/
def CronMatches (c : CronExpr) (t : Int) : Prop :=
  fieldSelects .hour c.minute (minute t) ∧ fieldSelects .day c.hour (hour t) ∧
  fieldSelects .year c.month (month t) ∧
  ((¬ Unrestricted c.dayOfMonth ∧ ¬ Unrestricted c.dayOfWeek ∧
      (fieldSelects .month c.dayOfMonth (day t) ∨ fieldSelects .week c.dayOfWeek (weekday t + 1))) ∨
   ((Unrestricted c.dayOfMonth ∨ Unrestricted c.dayOfWeek) ∧
      fieldSelects .month c.dayOfMonth (day t) ∧ fieldSelects .week c.dayOfWeek (weekday t + 1)))

/-- A value that exists in the field: the number is in range; names are for weekdays and months. -/
def ValidVal (sc : Scope) (v : CVal) : Prop :=
  (unitRange sc).1 ≤ cronNumber sc v ∧ cronNumber sc v ≤ (unitRange sc).2 ∧
  ((∃ k, v = .name k) → sc = .week ∨ sc = .year)

/-- Items whose meaning the code follows: not `x/n` with a single number (see `C18_single_step`), and no numeric
stepped ranges in the fields that count from 1 (see C19). -/
def ValidItem (sc : Scope) (i : CItem) : Prop :=
  match i with
  | .star => True
  | .starStep n => 0 < n
  | .at x none => ValidVal sc x
  | .at _ (some _) => False
  | .range a b none => ValidVal sc a ∧ ValidVal sc b
  | .range a b (some n) => 0 < n ∧ ValidVal sc a ∧ ValidVal sc b ∧ cronNumber sc a ≤ cronNumber sc b ∧
      (sc = .hour ∨ sc = .day ∨ ((∃ k, a = .name k) ∧ ∃ k, b = .name k))

/-- Days of the month that every month has, given singly or as ranges (`1-28`, which is a whole February,
excluded); anything in the minute, hour and weekday fields; nothing in the month field. -/
def EarlyItem (sc : Scope) (i : CItem) : Prop :=
  match sc with
  | .year => False
  | .month =>
    match i with
    | .star => True
    | .at v none => cronNumber .month v ≤ 28
    | .range a b none => cronNumber .month a ≤ 28 ∧ cronNumber .month b ≤ 28 ∧
        ¬ (cronNumber .month a = 1 ∧ cronNumber .month b = 28)
    | _ => False
  | _ => True

/-- A field: only `*`, or items other than `*`. -/
def ValidField (sc : Scope) (items : List CItem) : Prop :=
  items ≠ [] ∧ ((∀ i ∈ items, i = .star) ∨ ∀ i ∈ items, i ≠ .star ∧ ValidItem sc i)

structure ValidCron (c : CronExpr) : Prop where
  minute : ValidField .hour c.minute
  hour : ValidField .day c.hour
  dayOfMonth : ValidField .month c.dayOfMonth
  month : ValidField .year c.month
  dayOfWeek : ValidField .week c.dayOfWeek

/-! ### texts -/

/-- Short names of weekdays and months. -/
def cronNames : Scope → List String
  | .week => ["mon", "tue", "wed", "thu", "fri", "sat", "sun"]
  | .year => ["jan", "feb", "mar", "apr", "may", "jun", "jul", "aug", "sep", "oct", "nov", "dec"]
  | _ => []

/-- A value as it is written in a cron field. -/
def showVal (sc : Scope) : CVal → List Char
  | .num n => showNat n.toNat
  | .name k => ((cronNames sc)[k.toNat]?.getD "").toList

def showStep : Option Nat → List Char
  | none => []
  | some n => '/' :: showNat n

/-- An item as it is written. -/
def showItem (sc : Scope) : CItem → List Char
  | .star => ['*']
  | .starStep n => '*' :: '/' :: showNat n
  | .at v st => showVal sc v ++ showStep st
  | .range a b st => showVal sc a ++ '-' :: showVal sc b ++ showStep st

/-- A field as it is written. -/
def showField (sc : Scope) (items : List CItem) : String :=
  String.ofList (joinWith [','] (items.map (showItem sc)))

/-- Can be written: no negative numbers, only existing names. -/
def Writable (sc : Scope) : CVal → Prop
  | .num n => 0 ≤ n
  | .name k => 0 ≤ k ∧ k < (cronNames sc).length

def WritableItem (sc : Scope) : CItem → Prop
  | .at v _ => Writable sc v
  | .range a b _ => Writable sc a ∧ Writable sc b
  | _ => True

end Rocketry.Spec
