import Verif.Time.MonthLemmas
import Verif.Props.UnitProps

/-!
# C07: monthly periods follow the calendar month
-/

namespace Rocketry.Props
open Rocketry Spec

theorem month_full_iff {s e : Int} :
    Anchored.isFull ⟨.month, s, e⟩ = true ↔ (s = e ∨ (s = 0 ∧ e = 31 * DAY)) := by
  simp [Anchored.isFull, show Scope.month.max = 31 * DAY from rfl]

theorem month_contains_inC {s e : Int} (hf : Anchored.isFull ⟨.month, s, e⟩ = false) (t : Int) :
    Anchored.contains ⟨.month, s, e⟩ t = true ↔ InC s e (anchorDt .month t) := by
  have hne : s ≠ e := by
    intro he
    have := month_full_iff.2 (Or.inl he)
    rw [hf] at this
    exact absurd this (by simp)
  unfold Anchored.contains InC
  rw [hf]
  simp only [Bool.false_eq_true, if_false]
  split <;> split <;> simp <;> omega

/-- C07: membership depends on the time since the start of the calendar month, for all bounds. -/
theorem C07_contains (s e t : Int) :
    Anchored.contains ⟨.month, s, e⟩ t = true ↔ InMonth s e t := by
  by_cases hf : Anchored.isFull ⟨.month, s, e⟩ = true
  · have := month_full_iff.1 hf
    unfold Anchored.contains InMonth
    simp only [hf, if_true, true_iff]
    tauto
  · have hf' : Anchored.isFull ⟨.month, s, e⟩ = false := by simpa using hf
    have hn : ¬ _ := fun h => hf (month_full_iff.2 h)
    rw [month_contains_inC hf', ← sinceMonthStart_eq]
    unfold InMonth
    constructor
    · intro h; exact Or.inr (Or.inr h)
    · rintro (h | h | h)
      · exact absurd (Or.inl h) hn
      · exact absurd (Or.inr h) hn
      · exact h

/-- Bounds 28th to 2nd (wrapping) contain 29 February and 1 March. -/
example : Anchored.contains ⟨.month, 27 * DAY, 2 * DAY⟩ (datetime 2024 2 29 12) = true ∧
    Anchored.contains ⟨.month, 27 * DAY, 2 * DAY⟩ (datetime 2024 3 1 12) = true ∧
    Anchored.contains ⟨.month, 27 * DAY, 2 * DAY⟩ (datetime 2024 2 27 12) = false := by decide

/-- C07 (forward roll), part: bounds that fit in the month of `dt` and in the next month.  Missing: bounds beyond
the end of one of these months, for which the claim is false (`C07_rolls_violated`). -/
theorem C07_rollforward_partial (s e : Int) (hs : 0 ≤ s) (he : 0 ≤ e) (dt : Int)
    (hf : Anchored.isFull ⟨.month, s, e⟩ = false)
    (h1 : Fits s e (monthLen dt)) (h2 : Fits s e (nextMonthLen dt)) (n : Nat) :
    ∃ l r, Anchored.rollforward (n + 1) ⟨.month, s, e⟩ dt = .ok ⟨l, r, .left⟩ ∧
      FirstRun (InMonth s e) dt l r := by
  have hn : ¬ (s = e ∨ (s = 0 ∧ e = 31 * DAY)) := by
    intro h
    have := month_full_iff.2 h
    rw [hf] at this
    exact absurd this (by simp)
  have hin : ∀ t, InC s e (anchorDt .month t) ↔ InMonth s e t := fun t => by
    rw [← month_contains_inC hf, C07_contains]
  obtain ⟨c1, c2, c3, c4⟩ := h1
  obtain ⟨d1, d2, d3, d4⟩ := h2
  have key := Axis.forward_local axis_month s e dt hs he (fun h => hn (Or.inl h)) c1 c2 c3 c4
    (by rw [next_monthLen]; exact d1) (by rw [next_monthLen]; exact d2)
    (by rw [next_monthLen]; exact d3) (by rw [next_monthLen]; exact d4)
    (Anchored.rollstart ⟨.month, s, e⟩ dt) (Anchored.nextEnd ⟨.month, s, e⟩ dt)
    (by
      unfold Anchored.rollstart Anchored.nextStart
      by_cases h : InC s e (anchorDt .month dt)
      · simp only [(month_contains_inC hf dt).2 h, if_true, h]
      · have : ¬ Anchored.contains ⟨.month, s, e⟩ dt = true := fun h' => h ((month_contains_inC hf dt).1 h')
        simp only [this, h, if_false, Bool.false_eq_true]
        rfl)
    (by unfold Anchored.nextEnd; rfl)
  obtain ⟨k1, k2, k3, k4, k5⟩ := key
  refine ⟨_, _, ?_, ⟨k1, k2, ?_, ?_, ?_⟩⟩
  · unfold Anchored.rollforward
    rw [hf]
    simp only [Bool.false_eq_true, if_false]
    rw [if_neg (by omega)]
    exact Interval.make_ok.2 ⟨by omega, rfl⟩
  · intro x hx1 hx2 hx3; exact k3 x hx1 hx2 ((hin x).2 hx3)
  · intro x hx1 hx2; exact (hin x).1 (k4 x hx1 hx2)
  · intro h; exact k5 ((hin _).2 h)

/-- From 10 January 2023 the period 28th 12:00 - 5th rolls to 28 January, ending 5 February. -/
example : Fits (27 * DAY + 12 * HOUR) (4 * DAY) (monthLen (datetime 2023 1 10)) ∧
    Fits (27 * DAY + 12 * HOUR) (4 * DAY) (nextMonthLen (datetime 2023 1 10)) ∧
    Anchored.rollforward 1 ⟨.month, 27 * DAY + 12 * HOUR, 4 * DAY⟩ (datetime 2023 1 10) =
      .ok ⟨datetime 2023 1 28 12, datetime 2023 2 5, .left⟩ := by decide

/-- C07 (backward roll), part: bounds that fit in the month of `dt` and in the previous month. -/
theorem C07_rollback_partial (s e : Int) (hs : 0 ≤ s) (he : 0 ≤ e) (dt : Int)
    (hf : Anchored.isFull ⟨.month, s, e⟩ = false)
    (h1 : Fits s e (monthLen dt)) (h2 : Fits s e (prevMonthLen dt)) :
    ∃ l r, Anchored.rollback ⟨.month, s, e⟩ dt = .ok ⟨l, r, if l = r then .both else .left⟩ ∧
      LastRun (InMonth s e) dt l r := by
  have hn : ¬ (s = e ∨ (s = 0 ∧ e = 31 * DAY)) := by
    intro h
    have := month_full_iff.2 h
    rw [hf] at this
    exact absurd this (by simp)
  have hin : ∀ t, InC s e (anchorDt .month t) ↔ InMonth s e t := fun t => by
    rw [← month_contains_inC hf, C07_contains]
  have hcut : InC s e (anchorDt .month dt) → Anchored.rollend ⟨.month, s, e⟩ dt = dt := by
    intro h
    unfold Anchored.rollend
    simp only [(month_contains_inC hf dt).2 h, if_true]
  obtain ⟨c1, c2, c3, c4⟩ := h1
  obtain ⟨d1, d2, d3, d4⟩ := h2
  have key := Axis.backward_local axis_month s e dt hs he (fun h => hn (Or.inl h)) c1 c2 c3 c4 d1 d2 d3 d4
    (Anchored.prevStart ⟨.month, s, e⟩ dt) (Anchored.rollend ⟨.month, s, e⟩ dt)
    (by
      unfold Anchored.rollend Anchored.prevEnd
      by_cases h : InC s e (anchorDt .month dt)
      · simp only [(month_contains_inC hf dt).2 h, if_true, h]
      · have : ¬ Anchored.contains ⟨.month, s, e⟩ dt = true := fun h' => h ((month_contains_inC hf dt).1 h')
        simp only [this, h, if_false, Bool.false_eq_true, scopeBack_month])
    (by unfold Anchored.prevStart; simp only [scopeBack_month])
  obtain ⟨k1, k2, k3, k4, k5, k6, k7⟩ := key
  refine ⟨_, _, ?_, ⟨k1, k2, ?_, ?_, ?_, ?_, ?_, ?_⟩⟩
  · unfold Anchored.rollback
    rw [hf]
    simp only [Bool.false_eq_true, if_false]
    exact Interval.make_ok.2 ⟨k2, rfl⟩
  · intro h; exact ⟨(k3 h).1, (hin _).1 (k3 h).2⟩
  · intro x hx1 hx2 hx3; exact k4 x hx1 hx2 ((hin x).2 hx3)
  · intro x hx1 hx2; exact (hin x).1 (k5 x hx1 hx2)
  · intro h; exact hcut ((hin _).2 h)
  · exact (hin _).1 k6
  · intro h; exact k7 ((hin _).2 h)

/-- From 1 March 2024 the period 28th-5th rolls back to 28 February. -/
example : Fits (27 * DAY) (4 * DAY) (monthLen (datetime 2024 3 1 6)) ∧
    Fits (27 * DAY) (4 * DAY) (prevMonthLen (datetime 2024 3 1 6)) ∧
    Anchored.rollback ⟨.month, 27 * DAY, 4 * DAY⟩ (datetime 2024 3 1 6) =
      .ok ⟨datetime 2024 2 28, datetime 2024 3 1 6, .left⟩ := by decide

/-- C07: bounds up to the 28th always fit, so forward and backward rolls are right in every month of every year. -/
theorem C07_up_to_28th (s e : Int) (hs : 0 ≤ s) (hs' : s ≤ 28 * DAY) (he : 0 ≤ e) (he' : e ≤ 28 * DAY)
    (hne : s ≠ e) (hz : ¬ (s = 0 ∧ e = 28 * DAY)) (hz' : ¬ (s = 28 * DAY ∧ e = 0)) (dt : Int) (n : Nat) :
    (∃ l r, Anchored.rollforward (n + 1) ⟨.month, s, e⟩ dt = .ok ⟨l, r, .left⟩ ∧
      FirstRun (InMonth s e) dt l r) ∧
    (∃ l r, Anchored.rollback ⟨.month, s, e⟩ dt = .ok ⟨l, r, if l = r then .both else .left⟩ ∧
      LastRun (InMonth s e) dt l r) := by
  have hf : Anchored.isFull ⟨.month, s, e⟩ = false := by
    by_contra h
    have := month_full_iff.1 (by simpa using h)
    simp only [DAY] at *
    omega
  have fits : ∀ y m, Fits s e (DAY * Cal.daysInMonth y m) := by
    intro y m
    have hd := Cal.daysInMonth_range y m
    unfold Fits
    simp only [DAY] at *
    omega
  exact ⟨C07_rollforward_partial s e hs he dt hf (fits _ _) (fits _ _) n,
    C07_rollback_partial s e hs he dt hf (fits _ _) (fits _ _)⟩

example : (0 : Int) ≤ 4 * DAY ∧ 4 * DAY ≤ 28 * DAY ∧ 4 * DAY ≠ 20 * DAY := by decide

/-- C07: the full month rolls back to the start of the calendar month (of the instant just before). -/
theorem C07_rollback_full (dt : Int) :
    Anchored.rollback ⟨.month, 0, 31 * DAY⟩ dt =
      .ok ⟨datetime (year (dt - 1)) (month (dt - 1)) 1, dt, .left⟩ := by
  have hf : Anchored.isFull ⟨.month, 0, 31 * DAY⟩ = true := month_full_iff.2 (Or.inr ⟨rfl, rfl⟩)
  have a0 := anchorDt_month_nonneg dt
  have a1 := anchorDt_month_nonneg (dt - 1)
  have s1 := sinceMonthStart_eq (dt - 1)
  have s2 := sinceMonthStart_eq dt
  unfold sinceMonthStart at s1 s2
  have pS : ∀ u, Anchored.prevStart ⟨.month, 0, 31 * DAY⟩ u = u - anchorDt .month u := by
    intro u
    have := anchorDt_month_nonneg u
    unfold Anchored.prevStart
    simp only []
    rw [if_neg (by omega)]
    omega
  unfold Anchored.rollback
  rw [hf]
  simp only [if_true, pS]
  split
  · exact Interval.make_ok.2 ⟨by omega, by congr 1; omega⟩
  · rename_i h
    have hsame := axis_month.same dt (dt - 1) (by omega) (by have := anchorDt_month_lt dt; omega)
    refine Interval.make_ok.2 ⟨by omega, ?_⟩
    congr 1
    omega

example : Anchored.rollback ⟨.month, 0, 31 * DAY⟩ (datetime 2024 3 10) =
    .ok ⟨datetime 2024 3 1, datetime 2024 3 10, .left⟩ := by decide

/-- C07, finding: with bounds beyond the end of a month the forward roll is wrong or fails.
1. `TimeOfMonth.at(30)` rolled forward in February 2023 gives 2 March, which is not a 30th.
2. `TimeOfMonth.at(31)` rolled forward in February 2024 raises `ValueError`.
3. `TimeOfMonth()` (whole month) rolled forward in February 2024 ends on 3 March.
4. `TimeOfMonth.at(31)` rolled back from 1 March 2023 raises `ValueError`.
5. `TimeOfMonth.at(30)` rolled back from 1 March 2023 01:00 gives 2 March, which lies after that instant. -/
theorem C07_rolls_violated :
    (∃ p, Anchored.at .month (.int 30) = .ok p ∧
      Anchored.rollforward 10 p (datetime 2023 2 10) = .ok ⟨datetime 2023 3 2, datetime 2023 3 3, .left⟩ ∧
      day (datetime 2023 3 2) ≠ 30) ∧
    (∃ p, Anchored.at .month (.int 31) = .ok p ∧
      Anchored.rollforward 10 p (datetime 2024 2 10) = .error .value) ∧
    (∃ p, Anchored.init .month none none = .ok p ∧
      Anchored.rollforward 10 p (datetime 2024 2 10) =
        .ok ⟨datetime 2024 2 10, datetime 2024 3 3, .left⟩) ∧
    (∃ p, Anchored.at .month (.int 31) = .ok p ∧ p.rollback (datetime 2023 3 1) = .error .value) ∧
    (∃ p, Anchored.at .month (.int 30) = .ok p ∧
      p.rollback (datetime 2023 3 1 1) = .ok ⟨datetime 2023 3 2, datetime 2023 3 3, .left⟩) :=
  ⟨⟨⟨.month, 29 * DAY, 30 * DAY⟩, by decide, by decide, by decide⟩,
   ⟨⟨.month, 30 * DAY, 0⟩, by decide, by decide⟩,
   ⟨⟨.month, 0, 31 * DAY⟩, by decide, by decide⟩,
   ⟨⟨.month, 30 * DAY, 0⟩, by decide, by decide⟩,
   ⟨⟨.month, 29 * DAY, 30 * DAY⟩, by decide, by decide⟩⟩

end Rocketry.Props
