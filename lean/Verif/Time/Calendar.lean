/-!
# Proleptic Gregorian calendar and datetime fields

Trusted base: Python's `datetime` represents the proleptic Gregorian calendar.  A naive datetime is an
`Int` number of microseconds since 0001-01-01 00:00:00 (which is a Monday).  The fields are *defined* here
and *proved* to be the calendar fields (`dayNum_ymd`, `ymd_unique`).
Years are unbounded (Python's limits 1..9999 are not modelled).
-/

namespace Rocketry

/-- microseconds per unit; `to_microseconds`, rocketry/pybox/time/convert.py:336-338. -/
abbrev MS : Int := 1000
abbrev SEC : Int := 1000000
abbrev MIN : Int := 60000000
abbrev HOUR : Int := 3600000000
abbrev DAY : Int := 86400000000

/-- `to_microseconds(day, hour, minute, second, millisecond, microsecond)`,
rocketry/pybox/time/convert.py:336-338. -/
def toMicroseconds (day hour minute second millisecond microsecond : Int) : Int :=
  microsecond + millisecond * 1000 + second * 1000000 + minute * 60000000 +
    hour * 3600000000 + day * 86400000000

namespace Cal

/-- Gregorian leap year (`calendar.isleap`). -/
def isLeap (y : Int) : Bool := y % 4 = 0 && (y % 100 ≠ 0 || y % 400 = 0)

/-- Days before January 1st of year `y`, counted from 0001-01-01 (`datetime._days_before_year`). -/
def daysBeforeYear (y : Int) : Int := (y - 1) * 365 + (y - 1) / 4 - (y - 1) / 100 + (y - 1) / 400

/-- Days of month `m` (1..12) of year `y` (`calendar.monthrange(y, m)[1]`). -/
def daysInMonth (y m : Int) : Int :=
  if m = 2 then (if isLeap y then 29 else 28)
  else if m = 4 ∨ m = 6 ∨ m = 9 ∨ m = 11 then 30 else 31

/-- Days in year `y` before month `m` (1..13). -/
def daysBeforeMonth (y m : Int) : Int :=
  let lp : Int := if isLeap y then 1 else 0
  if m ≤ 1 then 0 else if m = 2 then 31 else if m = 3 then 59 + lp else if m = 4 then 90 + lp
  else if m = 5 then 120 + lp else if m = 6 then 151 + lp else if m = 7 then 181 + lp
  else if m = 8 then 212 + lp else if m = 9 then 243 + lp else if m = 10 then 273 + lp
  else if m = 11 then 304 + lp else if m = 12 then 334 + lp else 365 + lp

/-- Day number (0 = 0001-01-01) of a date (`date.toordinal() - 1`). -/
def dayNum (y m d : Int) : Int := daysBeforeYear y + daysBeforeMonth y m + (d - 1)

/-- Year containing day number `n`. -/
def yearOfDay (n : Int) : Int :=
  let y := n * 400 / 146097 + 1
  if n < daysBeforeYear y then y - 1
  else if daysBeforeYear (y + 1) ≤ n then y + 1
  else y

/-- Month of the year for a 0-based day of year. -/
def monthOfYday (y k : Int) : Int :=
  let lp : Int := if isLeap y then 1 else 0
  if k < 31 then 1 else if k < 59 + lp then 2 else if k < 90 + lp then 3 else if k < 120 + lp then 4
  else if k < 151 + lp then 5 else if k < 181 + lp then 6 else if k < 212 + lp then 7
  else if k < 243 + lp then 8 else if k < 273 + lp then 9 else if k < 304 + lp then 10
  else if k < 334 + lp then 11 else 12

theorem daysBeforeYear_succ (y : Int) :
    daysBeforeYear (y + 1) = daysBeforeYear y + 365 + (if isLeap y then 1 else 0) := by
  unfold daysBeforeYear isLeap
  simp only [Bool.and_eq_true, Bool.or_eq_true, decide_eq_true_eq]
  split <;> omega

theorem yearOfDay_spec (n : Int) :
    daysBeforeYear (yearOfDay n) ≤ n ∧ n < daysBeforeYear (yearOfDay n + 1) := by
  unfold yearOfDay
  simp only []
  split
  · rename_i h
    refine ⟨?_, by rw [Int.sub_add_cancel]; exact h⟩
    unfold daysBeforeYear at *
    omega
  · split
    · rename_i h1 h2
      refine ⟨h2, ?_⟩
      unfold daysBeforeYear at *
      omega
    · omega

theorem daysBeforeYear_lt {a b : Int} (h : a < b) : daysBeforeYear a + 365 ≤ daysBeforeYear b := by
  unfold daysBeforeYear; omega

theorem yearOfDay_unique {n y : Int} (h1 : daysBeforeYear y ≤ n) (h2 : n < daysBeforeYear (y + 1)) :
    yearOfDay n = y := by
  have ⟨h3, h4⟩ := yearOfDay_spec n
  rcases Int.lt_trichotomy (yearOfDay n) y with h | h | h
  · rcases Int.lt_or_le (yearOfDay n + 1) y with h5 | h5
    · have := daysBeforeYear_lt h5; omega
    · have : yearOfDay n + 1 = y := by omega
      rw [this] at h4; omega
  · exact h
  · rcases Int.lt_or_le (y + 1) (yearOfDay n) with h5 | h5
    · have := daysBeforeYear_lt h5; omega
    · have : y + 1 = yearOfDay n := by omega
      rw [this] at h2; omega

theorem daysBeforeMonth_succ (y m : Int) (h1 : 1 ≤ m) (h2 : m ≤ 12) :
    daysBeforeMonth y (m + 1) = daysBeforeMonth y m + daysInMonth y m := by
  have : m = 1 ∨ m = 2 ∨ m = 3 ∨ m = 4 ∨ m = 5 ∨ m = 6 ∨ m = 7 ∨ m = 8 ∨ m = 9 ∨ m = 10 ∨ m = 11 ∨
    m = 12 := by omega
  rcases this with h | h | h | h | h | h | h | h | h | h | h | h <;> subst h <;>
    simp [daysBeforeMonth, daysInMonth] <;> split <;> omega

theorem daysBeforeMonth_13 (y : Int) :
    daysBeforeMonth y 13 = 365 + (if isLeap y then 1 else 0) := by
  simp [daysBeforeMonth]

theorem monthOfYday_range (y k : Int) : 1 ≤ monthOfYday y k ∧ monthOfYday y k ≤ 12 := by
  unfold monthOfYday
  simp only []
  generalize (if isLeap y = true then (1 : Int) else 0) = lp
  repeat' split
  all_goals omega

theorem monthOfYday_spec (y k : Int) (h0 : 0 ≤ k) (h1 : k < 365 + (if isLeap y then 1 else 0)) :
    daysBeforeMonth y (monthOfYday y k) ≤ k ∧ k < daysBeforeMonth y (monthOfYday y k + 1) := by
  unfold monthOfYday daysBeforeMonth
  simp only []
  generalize hlp : (if isLeap y = true then (1 : Int) else 0) = lp at *
  have : lp = 0 ∨ lp = 1 := by subst hlp; split <;> simp
  repeat' split
  all_goals omega

theorem daysInMonth_range (y m : Int) : 28 ≤ daysInMonth y m ∧ daysInMonth y m ≤ 31 := by
  unfold daysInMonth
  repeat' split
  all_goals omega

theorem daysBeforeMonth_mono (y a : Int) (k : Nat) (h1 : 1 ≤ a) (h2 : a + k ≤ 13) :
    daysBeforeMonth y a ≤ daysBeforeMonth y (a + k) := by
  induction k with
  | zero => simp
  | succ k ih =>
    have := ih (by omega)
    have h3 := daysBeforeMonth_succ y (a + k) (by omega) (by omega)
    have h4 := daysInMonth_range y (a + k)
    rw [show a + ((k + 1 : Nat) : Int) = a + k + 1 by omega, h3]
    omega

theorem daysBeforeMonth_mono' (y a b : Int) (h1 : 1 ≤ a) (h2 : a ≤ b) (h3 : b ≤ 13) :
    daysBeforeMonth y a ≤ daysBeforeMonth y b := by
  have := daysBeforeMonth_mono y a (b - a).toNat h1 (by omega)
  rwa [show a + ((b - a).toNat : Int) = b by omega] at this

theorem monthOfYday_unique (y k m : Int) (hm : 1 ≤ m ∧ m ≤ 12) (h0 : daysBeforeMonth y m ≤ k)
    (h1 : k < daysBeforeMonth y (m + 1)) : monthOfYday y k = m := by
  have hr := monthOfYday_range y k
  have h2 := daysBeforeMonth_mono' y 1 m (by omega) hm.1 (by omega)
  have h3 := daysBeforeMonth_mono' y (m + 1) 13 (by omega) (by omega) (by omega)
  have h4 : daysBeforeMonth y 1 = 0 := by simp [daysBeforeMonth]
  rw [daysBeforeMonth_13] at h3
  have hs := monthOfYday_spec y k (by omega) (by omega)
  rcases Int.lt_trichotomy (monthOfYday y k) m with h | h | h
  · have := daysBeforeMonth_mono' y (monthOfYday y k + 1) m (by omega) (by omega) (by omega)
    omega
  · exact h
  · have := daysBeforeMonth_mono' y (m + 1) (monthOfYday y k) (by omega) (by omega) (by omega)
    omega

end Cal

/-! ### Fields of a datetime -/

/-- day number of an instant -/
def dayOf (t : Int) : Int := t / DAY
/-- `dt.year` -/
def year (t : Int) : Int := Cal.yearOfDay (dayOf t)
/-- 0-based day of year -/
def yday (t : Int) : Int := dayOf t - Cal.daysBeforeYear (year t)
/-- `dt.month` -/
def month (t : Int) : Int := Cal.monthOfYday (year t) (yday t)
/-- `dt.day` -/
def day (t : Int) : Int := yday t - Cal.daysBeforeMonth (year t) (month t) + 1
/-- `dt.hour` -/
def hour (t : Int) : Int := t % DAY / HOUR
/-- `dt.minute` -/
def minute (t : Int) : Int := t % HOUR / MIN
/-- `dt.second` -/
def second (t : Int) : Int := t % MIN / SEC
/-- `dt.microsecond` -/
def microsecond (t : Int) : Int := t % SEC
/-- `dt.weekday()` (Monday = 0); 0001-01-01 is a Monday. -/
def weekday (t : Int) : Int := dayOf t % 7

/-- `datetime.datetime(y, m, d, h, mi, s, us)` -/
def datetime (y m d : Int) (h mi s us : Int := 0) : Int :=
  Cal.dayNum y m d * DAY + toMicroseconds 0 h mi s 0 us

theorem yday_range (t : Int) : 0 ≤ yday t ∧ yday t < 365 + (if Cal.isLeap (year t) then 1 else 0) := by
  have h := Cal.yearOfDay_spec (dayOf t)
  rw [Cal.daysBeforeYear_succ] at h
  unfold yday year
  omega

theorem month_range (t : Int) : 1 ≤ month t ∧ month t ≤ 12 := Cal.monthOfYday_range _ _

theorem yday_month (t : Int) : Cal.daysBeforeMonth (year t) (month t) ≤ yday t ∧
    yday t < Cal.daysBeforeMonth (year t) (month t) + Cal.daysInMonth (year t) (month t) := by
  have h := yday_range t
  have h2 := Cal.monthOfYday_spec (year t) (yday t) h.1 h.2
  have h3 := month_range t
  rw [show Cal.monthOfYday (year t) (yday t) = month t from rfl] at h2
  rw [Cal.daysBeforeMonth_succ _ _ h3.1 h3.2] at h2
  exact h2

theorem day_range (t : Int) : 1 ≤ day t ∧ day t ≤ Cal.daysInMonth (year t) (month t) := by
  have h := yday_month t
  unfold day
  omega

/-- The fields recompose to the day number: date fields are the calendar date. -/
theorem dayNum_ymd (t : Int) : Cal.dayNum (year t) (month t) (day t) = dayOf t := by
  unfold Cal.dayNum day yday
  omega

theorem daysBeforeMonth_bounds (y m : Int) (h1 : 1 ≤ m) (h2 : m ≤ 12) :
    0 ≤ Cal.daysBeforeMonth y m ∧
    Cal.daysBeforeMonth y m + Cal.daysInMonth y m ≤ 365 + (if Cal.isLeap y then 1 else 0) := by
  have : m = 1 ∨ m = 2 ∨ m = 3 ∨ m = 4 ∨ m = 5 ∨ m = 6 ∨ m = 7 ∨ m = 8 ∨ m = 9 ∨ m = 10 ∨ m = 11 ∨
    m = 12 := by omega
  rcases this with h | h | h | h | h | h | h | h | h | h | h | h <;> subst h <;>
    simp [Cal.daysBeforeMonth, Cal.daysInMonth] <;> split <;> omega

/-- Any valid date is the date of its day number (uniqueness of the decomposition). -/
theorem ymd_unique (t y m d : Int) (hm : 1 ≤ m ∧ m ≤ 12) (hd : 1 ≤ d ∧ d ≤ Cal.daysInMonth y m)
    (h : dayOf t = Cal.dayNum y m d) : year t = y ∧ month t = m ∧ day t = d := by
  have hb := daysBeforeMonth_bounds y m hm.1 hm.2
  have hy : year t = y := by
    unfold year
    apply Cal.yearOfDay_unique
    · rw [h]; unfold Cal.dayNum; omega
    · rw [h, Cal.daysBeforeYear_succ]; unfold Cal.dayNum; omega
  have hk : yday t = Cal.daysBeforeMonth y m + (d - 1) := by
    unfold yday; rw [hy, h]; unfold Cal.dayNum; omega
  have hmo : month t = m := by
    unfold month
    rw [hy]
    apply Cal.monthOfYday_unique _ _ _ hm
    · omega
    · rw [Cal.daysBeforeMonth_succ _ _ hm.1 hm.2]; omega
  refine ⟨hy, hmo, ?_⟩
  unfold day
  rw [hy, hmo, hk]
  omega

theorem hour_range (t : Int) : 0 ≤ hour t ∧ hour t < 24 := by unfold hour; simp only [DAY, HOUR]; omega
theorem minute_range (t : Int) : 0 ≤ minute t ∧ minute t < 60 := by
  unfold minute; simp only [HOUR, MIN]; omega
theorem second_range (t : Int) : 0 ≤ second t ∧ second t < 60 := by
  unfold second; simp only [MIN, SEC]; omega
theorem microsecond_range (t : Int) : 0 ≤ microsecond t ∧ microsecond t < 1000000 := by
  unfold microsecond; simp only [SEC]; omega
theorem weekday_range (t : Int) : 0 ≤ weekday t ∧ weekday t < 7 := by unfold weekday; omega

/-- The clock fields recompose to the time of day. -/
theorem clock_recompose (t : Int) :
    toMicroseconds 0 (hour t) (minute t) (second t) 0 (microsecond t) = t % DAY := by
  unfold toMicroseconds hour minute second microsecond
  simp only [DAY, HOUR, MIN, SEC]
  omega

/-- `datetime(...)` followed by reading the fields gives the arguments back. -/
theorem datetime_fields (y m d h mi s us : Int) (hm : 1 ≤ m ∧ m ≤ 12)
    (hd : 1 ≤ d ∧ d ≤ Cal.daysInMonth y m) (hh : 0 ≤ h ∧ h < 24) (hmi : 0 ≤ mi ∧ mi < 60)
    (hs : 0 ≤ s ∧ s < 60) (hus : 0 ≤ us ∧ us < 1000000) :
    let t := datetime y m d h mi s us
    year t = y ∧ month t = m ∧ day t = d ∧ hour t = h ∧ minute t = mi ∧ second t = s ∧
      microsecond t = us := by
  intro t
  have ht : t = Cal.dayNum y m d * DAY + toMicroseconds 0 h mi s 0 us := rfl
  have h1 : dayOf t = Cal.dayNum y m d := by
    rw [ht]; unfold dayOf toMicroseconds; simp only [DAY]; omega
  have ⟨a, b, c⟩ := ymd_unique t y m d hm hd h1
  refine ⟨a, b, c, ?_, ?_, ?_, ?_⟩
  · rw [ht]; unfold hour toMicroseconds; simp only [DAY, HOUR]; omega
  · rw [ht]; unfold minute toMicroseconds; simp only [DAY, HOUR, MIN]; omega
  · rw [ht]; unfold second toMicroseconds; simp only [DAY, MIN, SEC]; omega
  · rw [ht]; unfold microsecond toMicroseconds; simp only [DAY, SEC]; omega

example : year (datetime 2024 2 29) = 2024 ∧ month (datetime 2024 2 29) = 2 ∧
    day (datetime 2024 2 29) = 29 ∧ weekday (datetime 2024 2 29) = 3 := by decide

end Rocketry
