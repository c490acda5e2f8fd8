import Verif.Time.Axis
import Verif.Spec.TimeSpec

/-! # Helper lemmas: calendar months as an axis -/

namespace Rocketry
open Spec

theorem dayNum_next (y m : Int) (h1 : 1 ≤ m) (h2 : m ≤ 12) :
    Cal.dayNum (nextMonth y m).1 (nextMonth y m).2 1 = Cal.dayNum y m 1 + Cal.daysInMonth y m := by
  have h := Cal.daysBeforeMonth_succ y m h1 h2
  unfold nextMonth Cal.dayNum
  split
  · rename_i h12
    have h13 := Cal.daysBeforeMonth_13 y
    have hy := Cal.daysBeforeYear_succ y
    subst h12
    simp only [show (12 : Int) + 1 = 13 from rfl] at h
    have : Cal.daysBeforeMonth (y + 1) 1 = 0 := by simp [Cal.daysBeforeMonth]
    simp only [this]
    omega
  · simp only []; omega

theorem nextMonth_range (y m : Int) (h1 : 1 ≤ m) (h2 : m ≤ 12) :
    1 ≤ (nextMonth y m).2 ∧ (nextMonth y m).2 ≤ 12 := by
  unfold nextMonth; split <;> simp only [] <;> omega

theorem prevMonth_range (y m : Int) (h1 : 1 ≤ m) (h2 : m ≤ 12) :
    1 ≤ (prevMonth y m).2 ∧ (prevMonth y m).2 ≤ 12 := by
  unfold prevMonth; split <;> simp only [] <;> omega

theorem next_prevMonth (y m : Int) (h1 : 1 ≤ m) (h2 : m ≤ 12) :
    nextMonth (prevMonth y m).1 (prevMonth y m).2 = (y, m) := by
  unfold prevMonth nextMonth
  split
  · rename_i h; subst h; simp
  · simp only []; rw [if_neg (by omega)]; simp

theorem prev_nextMonth (y m : Int) (h1 : 1 ≤ m) (h2 : m ≤ 12) :
    prevMonth (nextMonth y m).1 (nextMonth y m).2 = (y, m) := by
  unfold prevMonth nextMonth
  split
  · rename_i h; subst h; simp
  · simp only []; rw [if_neg (by omega)]; simp

theorem dayNum_prev (y m : Int) (h1 : 1 ≤ m) (h2 : m ≤ 12) :
    Cal.dayNum (prevMonth y m).1 (prevMonth y m).2 1 +
      Cal.daysInMonth (prevMonth y m).1 (prevMonth y m).2 = Cal.dayNum y m 1 := by
  have hr := prevMonth_range y m h1 h2
  have h := dayNum_next (prevMonth y m).1 (prevMonth y m).2 hr.1 hr.2
  rw [next_prevMonth y m h1 h2] at h
  exact h.symm

theorem dayNum_first (y m d : Int) : Cal.dayNum y m d = Cal.dayNum y m 1 + (d - 1) := by
  unfold Cal.dayNum; omega

/-- The month and the offset inside it. -/
theorem month_base (t : Int) :
    t - anchorDt .month t = Cal.dayNum (year t) (month t) 1 * DAY := by
  have h1 := dayNum_ymd t
  rw [dayNum_first] at h1
  have h2 := clock_recompose t
  have h3 : anchorDt .month t = (day t - 1) * DAY + t % DAY := by
    rw [← h2]; simp only [anchorDt, toMicroseconds, DAY]; omega
  rw [h3]
  unfold dayOf at h1
  simp only [DAY] at *
  omega

theorem sinceMonthStart_eq (t : Int) : sinceMonthStart t = anchorDt .month t := by
  have h := month_base t
  unfold sinceMonthStart datetime toMicroseconds
  omega

theorem fields_of_month (u y m : Int) (hm : 1 ≤ m ∧ m ≤ 12) (h1 : Cal.dayNum y m 1 * DAY ≤ u)
    (h2 : u < Cal.dayNum y m 1 * DAY + DAY * Cal.daysInMonth y m) : year u = y ∧ month u = m := by
  have h := ymd_unique u y m (dayOf u - Cal.dayNum y m 1 + 1) hm
    (by unfold dayOf; simp only [DAY] at *; omega)
    (by rw [dayNum_first y m (dayOf u - Cal.dayNum y m 1 + 1)]; omega)
  exact ⟨h.1, h.2.1⟩

theorem scopeBack_month (t : Int) : scopeBack .month t = prevMonthLen t := by
  simp only [scopeBack, prevMonthLen, prevMonth]
  split <;> rfl

theorem scopeForward_month (t : Int) : scopeForward .month t = monthLen t := rfl

theorem anchorDt_month_nonneg (t : Int) : 0 ≤ anchorDt .month t := by
  have h1 := day_range t
  have h2 := clock_recompose t
  have h3 : anchorDt .month t = (day t - 1) * DAY + t % DAY := by
    rw [← h2]; simp only [anchorDt, toMicroseconds, DAY]; omega
  rw [h3]; simp only [DAY]; omega

theorem anchorDt_month_lt (t : Int) : anchorDt .month t < monthLen t := by
  have h1 := day_range t
  have h2 := clock_recompose t
  have h3 : anchorDt .month t = (day t - 1) * DAY + t % DAY := by
    rw [← h2]; simp only [anchorDt, toMicroseconds, DAY]; omega
  rw [h3]; unfold monthLen; simp only [DAY]; omega

theorem month_next_fields (t : Int) :
    year (t - anchorDt .month t + monthLen t) = (nextMonth (year t) (month t)).1 ∧
    month (t - anchorDt .month t + monthLen t) = (nextMonth (year t) (month t)).2 := by
  have hm := month_range t
  have hn := dayNum_next (year t) (month t) hm.1 hm.2
  have hr := nextMonth_range (year t) (month t) hm.1 hm.2
  have hd := Cal.daysInMonth_range (nextMonth (year t) (month t)).1 (nextMonth (year t) (month t)).2
  have e : t - anchorDt .month t + monthLen t =
      Cal.dayNum (nextMonth (year t) (month t)).1 (nextMonth (year t) (month t)).2 1 * DAY := by
    rw [month_base, hn]; unfold monthLen; rw [Int.add_mul, Int.mul_comm DAY]
  apply fields_of_month _ _ _ hr
  · omega
  · rw [e]; simp only [DAY]; omega

theorem month_prev_fields (t : Int) :
    year (t - anchorDt .month t - prevMonthLen t) = (prevMonth (year t) (month t)).1 ∧
    month (t - anchorDt .month t - prevMonthLen t) = (prevMonth (year t) (month t)).2 := by
  have hm := month_range t
  have hn := dayNum_prev (year t) (month t) hm.1 hm.2
  have hr := prevMonth_range (year t) (month t) hm.1 hm.2
  have hd := Cal.daysInMonth_range (prevMonth (year t) (month t)).1 (prevMonth (year t) (month t)).2
  have e : t - anchorDt .month t - prevMonthLen t =
      Cal.dayNum (prevMonth (year t) (month t)).1 (prevMonth (year t) (month t)).2 1 * DAY := by
    rw [month_base, ← hn]; unfold prevMonthLen; rw [Int.add_mul, Int.mul_comm DAY]; omega
  apply fields_of_month _ _ _ hr
  · omega
  · rw [e]; simp only [DAY]; omega

theorem axis_month : Axis (anchorDt .month) monthLen prevMonthLen where
  nonneg := anchorDt_month_nonneg
  lt := anchorDt_month_lt
  same t u h1 h2 := by
    rw [month_base] at h1 h2
    have hf := fields_of_month u (year t) (month t) (month_range t) h1 h2
    refine ⟨?_, ?_, ?_⟩
    · have := month_base u
      rw [hf.1, hf.2, ← month_base t] at this
      omega
    · unfold monthLen; rw [hf.1, hf.2]
    · unfold prevMonthLen; rw [hf.1, hf.2]
  next_pos t := by
    have hf := month_next_fields t
    have hm := month_range t
    have := month_base (t - anchorDt .month t + monthLen t)
    rw [hf.1, hf.2, dayNum_next _ _ hm.1 hm.2, Int.add_mul, ← month_base t] at this
    unfold monthLen at *
    rw [Int.mul_comm DAY] at *
    omega
  next_back t := by
    have hf := month_next_fields t
    have hm := month_range t
    unfold prevMonthLen
    rw [hf.1, hf.2, prev_nextMonth _ _ hm.1 hm.2]
    rfl
  back_pos t := by
    have hd := Cal.daysInMonth_range (prevMonth (year t) (month t)).1 (prevMonth (year t) (month t)).2
    unfold prevMonthLen; simp only [DAY]; omega
  prev_pos t := by
    have hf := month_prev_fields t
    have hm := month_range t
    have := month_base (t - anchorDt .month t - prevMonthLen t)
    have hn := dayNum_prev (year t) (month t) hm.1 hm.2
    have hb := month_base t
    rw [hf.1, hf.2] at this
    rw [← hn, Int.add_mul] at hb
    unfold prevMonthLen at *
    rw [Int.mul_comm DAY] at *
    omega
  prev_fwd t := by
    have hf := month_prev_fields t
    rw [monthLen, hf.1, hf.2]
    rfl

theorem next_monthLen (t : Int) : monthLen (t - anchorDt .month t + monthLen t) = nextMonthLen t := by
  have hf := month_next_fields t
  unfold nextMonthLen
  rw [monthLen, hf.1, hf.2]

end Rocketry
