import Verif.Time.MonthLemmas
import Verif.Props.MonthProps

/-!
# C08: yearly periods follow the calendar year
-/

set_option linter.unusedSimpArgs false

namespace Rocketry.Props
open Rocketry Spec

/-- Number of days of month `m` on the 366-day axis. -/
def longestMonth (m : Int) : Int := Cal.daysInMonth 2024 m

/-- The last microsecond of month `m` on the longest (leap) year axis. -/
def IsLastMicro (m t : Int) : Prop :=
  month t = m ∧ day t = longestMonth m ∧ t % DAY = DAY - 1

instance (m t : Int) : Decidable (IsLastMicro m t) := by unfold IsLastMicro; infer_instance

theorem month12 {m : Int} (h : 1 ≤ m ∧ m ≤ 12) : m = 1 ∨ m = 2 ∨ m = 3 ∨ m = 4 ∨ m = 5 ∨ m = 6 ∨
    m = 7 ∨ m = 8 ∨ m = 9 ∨ m = 10 ∨ m = 11 ∨ m = 12 := by omega

/-- start of month `m` on the 366-day axis -/
def axisStart (m : Int) : Int := Cal.daysBeforeMonth 2024 m * DAY

theorem monthStart_eq (m : Int) (h : 1 ≤ m ∧ m ≤ 12) : monthStart? (m - 1) = some (axisStart m) := by
  rcases month12 h with h | h | h | h | h | h | h | h | h | h | h | h <;> subst h <;> rfl

theorem monthStart_next (m : Int) (h : 1 ≤ m ∧ m ≤ 12) :
    monthStart? (m - 1 + 1) = some (axisStart m + longestMonth m * DAY) := by
  rcases month12 h with h | h | h | h | h | h | h | h | h | h | h | h <;> subst h <;> rfl

theorem monthOfStart_eq (m : Int) (h : 1 ≤ m ∧ m ≤ 12) : monthOfStart? (axisStart m) = some (m - 1) := by
  rcases month12 h with h | h | h | h | h | h | h | h | h | h | h | h <;> subst h <;> rfl

theorem axis_bounds (m : Int) (h : 1 ≤ m ∧ m ≤ 12) :
    0 ≤ axisStart m ∧ axisStart m + longestMonth m * DAY ≤ 366 * DAY ∧ 29 ≤ longestMonth m := by
  rcases month12 h with h | h | h | h | h | h | h | h | h | h | h | h <;> subst h <;> decide

theorem axis_mono (a b : Int) (ha : 1 ≤ a) (hab : a < b) (hb : b ≤ 12) :
    axisStart a + longestMonth a * DAY ≤ axisStart b := by
  have h1 := Cal.daysBeforeMonth_succ 2024 a ha (by omega)
  have h2 := Cal.daysBeforeMonth_mono' 2024 (a + 1) b (by omega) (by omega) (by omega)
  unfold axisStart longestMonth
  simp only [DAY]
  omega

theorem anchorDt_year (t : Int) :
    anchorDt .year t = axisStart (month t) + (day t - 1) * DAY + t % DAY := by
  have h2 := clock_recompose t
  simp only [anchorDt, monthStart_eq _ (month_range t), Option.getD_some]
  rw [← h2]
  simp only [toMicroseconds, DAY]
  omega

theorem day_longest (t : Int) : 1 ≤ day t ∧ day t ≤ longestMonth (month t) := by
  have h := day_range t
  refine ⟨h.1, Int.le_trans h.2 ?_⟩
  rcases month12 (month_range t) with h | h | h | h | h | h | h | h | h | h | h | h <;> rw [h] <;>
    simp [longestMonth, Cal.daysInMonth, Cal.isLeap] <;> split <;> omega

/-- position before the start / end of a month -/
theorem year_pos_start (m t : Int) (h : 1 ≤ m ∧ m ≤ 12) :
    (axisStart m ≤ anchorDt .year t ↔ m ≤ month t) := by
  have hd := day_longest t
  have hm := month_range t
  have ho : 0 ≤ t % DAY ∧ t % DAY < DAY := ⟨Int.emod_nonneg _ (by decide), Int.emod_lt_of_pos _ (by decide)⟩
  rw [anchorDt_year]
  constructor
  · intro hle
    by_contra hc
    have := axis_mono (month t) m hm.1 (by omega) h.2
    simp only [DAY] at *
    omega
  · intro hle
    by_cases he : m = month t
    · subst he; simp only [DAY] at *; omega
    · have h1 := axis_mono m (month t) h.1 (by omega) hm.2
      have h2 := axis_bounds m h
      simp only [DAY] at *; omega

theorem year_pos_end (m t : Int) (h : 1 ≤ m ∧ m ≤ 12) :
    (anchorDt .year t < axisStart m + longestMonth m * DAY - 1 ↔ month t ≤ m ∧ ¬ IsLastMicro m t) := by
  have hd := day_longest t
  have hm := month_range t
  have ho : 0 ≤ t % DAY ∧ t % DAY < DAY := ⟨Int.emod_nonneg _ (by decide), Int.emod_lt_of_pos _ (by decide)⟩
  unfold IsLastMicro
  rw [anchorDt_year]
  by_cases he : month t = m
  · rw [he] at hd ⊢
    simp only [true_and, Int.le_refl]
    simp only [DAY] at *
    constructor
    · intro h1 h2; omega
    · intro h1
      by_contra h2
      exact h1 (by omega)
  · by_cases hlt : month t < m
    · have h1 := axis_mono (month t) m hm.1 hlt h.2
      have h2 := axis_bounds m h
      simp only [DAY] at *; omega
    · have h1 := axis_mono m (month t) h.1 (by omega) hm.2
      simp only [DAY] at *; omega

/-- The object built by `TimeOfYear(a, b)` with month numbers (or names). -/
theorem year_init (a b : Int) (ha : 1 ≤ a ∧ a ≤ 12) (hb : 1 ≤ b ∧ b ≤ 12) :
    Anchored.init .year (some (.int a)) (some (.int b)) =
      .ok ⟨.year, axisStart a, axisStart b + longestMonth b * DAY - 1⟩ ∧
    Anchored.init .year (some (.named (a - 1) none)) (some (.named (b - 1) none)) =
      .ok ⟨.year, axisStart a, axisStart b + longestMonth b * DAY - 1⟩ := by
  have h1 := axis_bounds a ha
  have h2 := axis_bounds b hb
  have hmax : Scope.year.max = 366 * DAY := rfl
  have e1 : ¬ (axisStart a < 0 ∨ axisStart a > 366 * DAY) := by simp only [DAY] at *; omega
  have e2 : ¬ (axisStart b + longestMonth b * DAY - 1 < 0 ∨
      axisStart b + longestMonth b * DAY - 1 > 366 * DAY) := by simp only [DAY] at *; omega
  constructor
  · simp only [Anchored.init, setStart, setEnd, anchorVal, anchorInt, ha, hb, and_self, if_true,
      monthStart_eq a ha, monthStart_next b hb, bind, Except.bind, pure, Except.pure, validate, hmax,
      Option.isNone, Bool.and_self, Bool.false_eq_true, if_false, if_neg e1]
    rw [if_neg e2]
  · have i1 : (0 ≤ a - 1 ∧ a - 1 ≤ 11) := by omega
    have i2 : (0 ≤ b - 1 ∧ b - 1 ≤ 11) := by omega
    simp only [Anchored.init, setStart, setEnd, anchorVal, i1, i2, and_self, if_true, Option.getD_none,
      monthStart_eq a ha, monthStart_next b hb, bind, Except.bind, pure, Except.pure, validate, hmax,
      Option.isNone, Bool.and_self, Bool.false_eq_true, if_false, if_neg e1, Int.add_zero]
    rw [if_neg e2]

/-- C08 (membership), exact: `TimeOfYear(a, b)` contains `t` iff the month of `t` is in the range `a..b` (wrapping),
except at the last microsecond of month `b`.  Missing from the claim: that microsecond. -/
theorem C08_contains_partial (a b : Int) (ha : 1 ≤ a ∧ a ≤ 12) (hb : 1 ≤ b ∧ b ≤ 12) :
    ∃ p, Anchored.init .year (some (.int a)) (some (.int b)) = .ok p ∧
      Anchored.init .year (some (.named (a - 1) none)) (some (.named (b - 1) none)) = .ok p ∧
      ∀ t, p.contains t = true ↔ InUnits a b (month t) ∧ ¬ IsLastMicro b t := by
  refine ⟨_, (year_init a b ha hb).1, (year_init a b ha hb).2, ?_⟩
  intro t
  have h1 := axis_bounds a ha
  have h2 := axis_bounds b hb
  have hs := year_pos_start a t ha
  have he := year_pos_end b t hb
  have hlast : IsLastMicro b t → month t = b := fun h => h.1
  have hmax : Scope.year.max = 366 * DAY := rfl
  have hord : a ≤ b ↔ axisStart a < axisStart b + longestMonth b * DAY - 1 := by
    constructor
    · intro h
      by_cases hab : a = b
      · subst hab; simp only [DAY] at *; omega
      · have := axis_mono a b ha.1 (by omega) hb.2
        simp only [DAY] at *; omega
    · intro h
      by_contra hc
      have := axis_mono b a hb.1 (by omega) ha.2
      simp only [DAY] at *; omega
  have hne : axisStart a ≠ axisStart b + longestMonth b * DAY - 1 := by
    intro h
    by_cases hab : a ≤ b
    · have := hord.1 hab; omega
    · have := axis_mono b a hb.1 (by omega) ha.2
      simp only [DAY] at *; omega
  have hf : Anchored.isFull ⟨.year, axisStart a, axisStart b + longestMonth b * DAY - 1⟩ = false := by
    simp only [Anchored.isFull, hmax, Bool.or_eq_false_iff, Bool.and_eq_false_iff, decide_eq_false_iff_not]
    refine ⟨hne, Or.inr ?_⟩
    omega
  unfold Anchored.contains InUnits
  rw [hf]
  simp only [Bool.false_eq_true, if_false]
  by_cases hab : a ≤ b
  · have := hord.1 hab
    rw [if_pos (by omega), if_pos hab]
    simp only [Bool.and_eq_true, decide_eq_true_eq, hs, he]
    tauto
  · have : ¬ _ := fun h => hab (hord.2 h)
    rw [if_neg (by omega), if_neg hab]
    simp only [Bool.or_eq_true, decide_eq_true_eq, hs, he, ge_iff_le]
    constructor
    · rintro (h | h)
      · exact ⟨Or.inl h, fun hl => by have := hlast hl; omega⟩
      · exact ⟨Or.inr h.1, h.2⟩
    · rintro ⟨h | h, h'⟩
      · exact Or.inl h
      · exact Or.inr ⟨h, h'⟩

/-- `TimeOfYear("nov", "feb")` wraps around the new year. -/
example : InUnits 11 2 (month (datetime 2023 1 15)) ∧ ¬ InUnits 11 2 (month (datetime 2023 3 1)) ∧
    ¬ IsLastMicro 2 (datetime 2023 1 15) := by decide

/-- C08, finding: the last microsecond of the end month is not in the period. -/
theorem C08_contains_violated :
    ∃ p, Anchored.init .year (some (.int 1)) (some (.int 3)) = .ok p ∧
      month (datetime 2023 3 31 23 59 59 999999) = 3 ∧
      p.contains (datetime 2023 3 31 23 59 59 999999) = false :=
  ⟨⟨.year, 0, 91 * DAY - 1⟩, by decide, by decide, by decide⟩

/-- The object built by `TimeOfYear.at(m)`. -/
theorem year_at (m : Int) (h : 1 ≤ m ∧ m ≤ 12) :
    Anchored.at .year (.int m) = .ok ⟨.year, axisStart m, axisStart m + longestMonth m * DAY - 1⟩ := by
  have h1 := axis_bounds m h
  have hmax : Scope.year.max = 366 * DAY := rfl
  have e1 : ¬ (axisStart m < 0 ∨ axisStart m > 366 * DAY) := by simp only [DAY] at *; omega
  have e2 : ¬ (axisStart m + longestMonth m * DAY - 1 < 0 ∨
      axisStart m + longestMonth m * DAY - 1 > 366 * DAY) := by simp only [DAY] at *; omega
  simp only [Anchored.at, Anchored.init, setStart, setEnd, anchorVal, anchorInt, h, and_self, if_true,
    monthStart_eq m h, bind, Except.bind, pure, Except.pure, validate, hmax,
    Option.isNone, Bool.and_self, Bool.false_eq_true, if_false, if_neg e1, toTimepoint, monthOfStart_eq m h,
    monthStart_next m h, Bool.false_and]
  rw [if_neg e2]

/-- C08: `TimeOfYear.at(m)` contains exactly the instants of month `m`, except its last microsecond. -/
theorem C08_at_partial (m : Int) (h : 1 ≤ m ∧ m ≤ 12) :
    ∃ p, Anchored.at .year (.int m) = .ok p ∧
      ∀ t, p.contains t = true ↔ month t = m ∧ ¬ IsLastMicro m t := by
  obtain ⟨p, hp1, -, hp2⟩ := C08_contains_partial m m h h
  rw [(year_init m m h h).1] at hp1
  have hp : ⟨.year, axisStart m, axisStart m + longestMonth m * DAY - 1⟩ = p := Except.ok.inj hp1
  refine ⟨p, by rw [year_at m h, hp], ?_⟩
  intro t
  rw [hp2 t]
  unfold InUnits
  rw [if_pos (by omega)]
  constructor
  · rintro ⟨h1, h2⟩; exact ⟨by omega, h2⟩
  · rintro ⟨h1, h2⟩; exact ⟨by omega, h2⟩

example : Anchored.at .year (.int 2) = .ok ⟨.year, 31 * DAY, 60 * DAY - 1⟩ := rfl

/-- `y` has no 29 February. -/
abbrev NonLeap (y : Int) : Prop := ¬ Cal.isLeap y = true

/-- How many non-existing 29 Februaries lie between `t` and the first instant of month `a` of year `y`
(`y` = year of `t` or the next one). -/
def missingLeapDays (t a y : Int) : Int :=
  if y = year t then (if NonLeap y ∧ month t ≤ 2 ∧ 3 ≤ a then 1 else 0)
  else (if NonLeap (year t) ∧ month t ≤ 2 then 1 else 0) + (if NonLeap y ∧ 3 ≤ a then 1 else 0)

theorem axisStart_real (y m : Int) (h : 1 ≤ m ∧ m ≤ 12) :
    axisStart m = (Cal.daysBeforeMonth y m + if NonLeap y ∧ 3 ≤ m then 1 else 0) * DAY := by
  unfold axisStart NonLeap
  have hl : Cal.isLeap 2024 = true := by decide
  by_cases hy : Cal.isLeap y = true <;>
    rcases month12 h with h | h | h | h | h | h | h | h | h | h | h | h <;> subst h <;>
    simp [Cal.daysBeforeMonth, hl, hy]

/-- time since the start of the year -/
theorem year_base (t : Int) :
    t = (Cal.daysBeforeYear (year t) + Cal.daysBeforeMonth (year t) (month t) + (day t - 1)) * DAY + t % DAY := by
  have h1 := dayNum_ymd t
  unfold Cal.dayNum dayOf at h1
  simp only [DAY] at *
  omega

/-- C08 (forward roll), exact: the next start of month `a` computed by `TimeOfYear` is the true first instant of the
month, plus one day for each 29 February that the code assumes but the calendar does not have. -/
theorem C08_next_start_exact (a e : Int) (ha : 1 ≤ a ∧ a ≤ 12) (dt : Int) :
    Anchored.nextStart ⟨.year, axisStart a, e⟩ dt =
      (if month dt < a then datetime (year dt) a 1 + missingLeapDays dt a (year dt) * DAY
       else datetime (year dt + 1) a 1 + missingLeapDays dt a (year dt + 1) * DAY) := by
  have hs := year_pos_start a dt ha
  have hm := month_range dt
  have hb := year_base dt
  have hr1 := axisStart_real (year dt) a ha
  have hr2 := axisStart_real (year dt + 1) a ha
  have hr3 := axisStart_real (year dt) (month dt) hm
  have hy := Cal.daysBeforeYear_succ (year dt)
  have hpos := anchorDt_year dt
  unfold Anchored.nextStart
  simp only [show scopeForward .year dt = 366 * DAY from rfl]
  by_cases hlt : month dt < a
  · rw [if_pos (by omega), if_pos hlt]
    unfold missingLeapDays datetime Cal.dayNum toMicroseconds
    rw [if_pos rfl]
    simp only [DAY] at *
    by_cases hl : NonLeap (year dt)
    · by_cases c1 : 3 ≤ month dt
      · rw [if_pos ⟨hl, c1⟩] at hr3
        rw [if_pos ⟨hl, by omega⟩] at hr1
        rw [if_neg (by omega)]; omega
      · rw [if_neg (by omega)] at hr3
        by_cases c2 : 3 ≤ a
        · rw [if_pos ⟨hl, c2⟩] at hr1; rw [if_pos ⟨hl, by omega, c2⟩]; omega
        · rw [if_neg (by omega)] at hr1; rw [if_neg (by omega)]; omega
    · rw [if_neg (fun h => hl h.1)] at hr1 hr3
      rw [if_neg (fun h => hl h.1)]
      omega
  · rw [if_neg (by omega), if_neg hlt]
    unfold missingLeapDays datetime Cal.dayNum toMicroseconds
    rw [if_neg (by omega)]
    simp only [DAY] at *
    generalize (if NonLeap (year dt + 1) ∧ 3 ≤ a then (1 : Int) else 0) = g at hr2 ⊢
    by_cases hl : NonLeap (year dt)
    · rw [if_neg hl] at hy
      by_cases c1 : 3 ≤ month dt
      · rw [if_pos ⟨hl, c1⟩] at hr3; rw [if_neg (by omega)]; omega
      · rw [if_neg (by omega)] at hr3; rw [if_pos ⟨hl, by omega⟩]; omega
    · rw [if_neg (fun h => hl h.1)] at hr3
      rw [if_neg (fun h => hl h.1)]
      rw [if_pos (by simpa using hl)] at hy
      omega

/-- C08 (forward roll), part: when no missing 29 February lies in between, a period starting in month `a` rolls
forward to the true first instant of that month.  Missing: the other cases, where the roll is off by days
(`C08_rolls_violated`, exactly by `C08_next_start_exact`). -/
theorem C08_rollforward_partial (a b : Int) (ha : 1 ≤ a ∧ a ≤ 12) (hb : 1 ≤ b ∧ b ≤ 12) (dt : Int) (n : Nat)
    (hm : missingLeapDays dt a (if month dt < a then year dt else year dt + 1) = 0) :
    ∃ p l r, Anchored.init .year (some (.int a)) (some (.int b)) = .ok p ∧
      Anchored.rollforward (n + 1) p dt = .ok ⟨l, r, .left⟩ ∧ l < r ∧
      (InUnits a b (month dt) ∧ ¬ IsLastMicro b dt → l = dt) ∧
      (¬ (InUnits a b (month dt) ∧ ¬ IsLastMicro b dt) →
        l = datetime (if month dt < a then year dt else year dt + 1) a 1) := by
  obtain ⟨p, hp1, -, hp2⟩ := C08_contains_partial a b ha hb
  have hinit := (year_init a b ha hb).1
  rw [hinit] at hp1
  have hp := Except.ok.inj hp1
  subst hp
  have hns := C08_next_start_exact a (axisStart b + longestMonth b * DAY - 1) ha dt
  have h1 := axis_bounds a ha
  have h2 := axis_bounds b hb
  have hs := year_pos_start a dt ha
  have he := year_pos_end b dt hb
  have hpos := anchorDt_year dt
  have hd := day_longest dt
  have hmr := axis_bounds (month dt) (month_range dt)
  have ho : 0 ≤ dt % DAY ∧ dt % DAY < DAY := ⟨Int.emod_nonneg _ (by decide), Int.emod_lt_of_pos _ (by decide)⟩
  have hlt366 : anchorDt .year dt < 366 * DAY := by simp only [DAY] at *; omega
  have hpos0 : 0 ≤ anchorDt .year dt := by simp only [DAY] at *; omega
  have hf : Anchored.isFull ⟨.year, axisStart a, axisStart b + longestMonth b * DAY - 1⟩ = false := by
    by_contra hc
    have hc : Anchored.isFull ⟨.year, axisStart a, axisStart b + longestMonth b * DAY - 1⟩ = true := by
      simpa using hc
    simp only [Anchored.isFull, show Scope.year.max = 366 * DAY from rfl, Bool.or_eq_true, Bool.and_eq_true,
      decide_eq_true_eq] at hc
    rcases hc with hc | hc
    · by_cases hab : a ≤ b
      · by_cases hab' : a = b
        · subst hab'; simp only [DAY] at *; omega
        · have := axis_mono a b ha.1 (by omega) hb.2
          simp only [DAY] at *; omega
      · have := axis_mono b a hb.1 (by omega) ha.2
        simp only [DAY] at *; omega
    · omega
  have hcond : Anchored.contains ⟨.year, axisStart a, axisStart b + longestMonth b * DAY - 1⟩ dt = true ↔
      InUnits a b (month dt) ∧ ¬ IsLastMicro b dt := hp2 dt
  have q1 : 0 < axisStart b + longestMonth b * DAY - 1 := by simp only [DAY] at *; omega
  have q2 : axisStart b + longestMonth b * DAY - 1 ≤ 366 * DAY := by simp only [DAY] at *; omega
  have q3 : axisStart a < 366 * DAY := by simp only [DAY] at *; omega
  have q4 : axisStart a ≠ axisStart b + longestMonth b * DAY - 1 := by
    intro h
    simp [Anchored.isFull, h] at hf
  have q5 : (0 : Int) ≤ axisStart a := h1.1
  have hrs : Anchored.rollstart ⟨.year, axisStart a, axisStart b + longestMonth b * DAY - 1⟩ dt <
      Anchored.nextEnd ⟨.year, axisStart a, axisStart b + longestMonth b * DAY - 1⟩ dt := by
    clear hpos hmr hd ho hcond hs he hns h1 h2 hp2 hp1 hinit hm
    generalize axisStart b + longestMonth b * DAY - 1 = e at *
    generalize axisStart a = s at *
    simp only [DAY] at *
    unfold Anchored.rollstart Anchored.nextStart Anchored.nextEnd
    simp only [show scopeForward .year dt = 366 * 86400000000 from rfl]
    by_cases hc : Anchored.contains ⟨.year, s, e⟩ dt = true
    · rw [if_pos hc]; split <;> omega
    · rw [if_neg hc]
      unfold Anchored.contains at hc
      rw [hf] at hc
      simp only [Bool.false_eq_true, if_false] at hc
      split at hc
      · simp only [Bool.and_eq_true, decide_eq_true_eq] at hc
        split <;> split <;> omega
      · simp only [Bool.or_eq_true, decide_eq_true_eq] at hc
        split <;> split <;> omega
  refine ⟨_, _, _, hinit, ?_, hrs, ?_, ?_⟩
  · unfold Anchored.rollforward
    rw [hf]
    simp only [Bool.false_eq_true, if_false]
    rw [if_neg (by omega)]
    exact Interval.make_ok.2 ⟨by omega, rfl⟩
  · intro h
    unfold Anchored.rollstart
    rw [if_pos (hcond.2 h)]
  · intro h
    unfold Anchored.rollstart
    rw [if_neg (fun h' => h (hcond.1 h')), hns]
    split
    · rename_i hlt
      rw [if_pos hlt] at hm
      rw [hm]; omega
    · rename_i hlt
      rw [if_neg hlt] at hm
      rw [hm]; omega

/-- From 10 April 2023 the period "feb - mar" rolls to 1 February 2024; from February 2024 "mar" rolls to 1 March. -/
example : missingLeapDays (datetime 2023 4 10) 2 2024 = 0 ∧ missingLeapDays (datetime 2024 2 10) 3 2024 = 0 := by
  decide

/-- C08, finding: from 10 February 2023 the period "mar" rolls forward to 2 March instead of 1 March, and from
10 March 2023 the period "feb" rolls back to a span that starts on 31 January. -/
theorem C08_rolls_violated :
    (∃ p, Anchored.at .year (.int 3) = .ok p ∧
      Anchored.rollforward 10 p (datetime 2023 2 10) =
        .ok ⟨datetime 2023 3 2, datetime 2023 4 1 - 1 + DAY, .left⟩ ∧
      p.contains (datetime 2023 3 1) = true ∧
      missingLeapDays (datetime 2023 2 10) 3 2023 = 1) ∧
    (∃ p, Anchored.at .year (.int 2) = .ok p ∧
      p.rollback (datetime 2023 3 10) = .ok ⟨datetime 2023 1 31, datetime 2023 3 1 - 1, .left⟩ ∧
      p.contains (datetime 2023 1 31) = false) :=
  ⟨⟨⟨.year, 60 * DAY, 91 * DAY - 1⟩, by decide, by decide, by decide, by decide⟩,
   ⟨⟨.year, 31 * DAY, 60 * DAY - 1⟩, by decide, by decide, by decide⟩⟩

end Rocketry.Props
