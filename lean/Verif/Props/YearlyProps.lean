import Verif.Props.MonthlyProps
import Verif.Props.YearProps

/-!
# C08, C26, C27: tasks that run yearly
-/

namespace Rocketry.Props
open Spec

/-! ### the occurrences of a yearly period -/

theorem datetime_first (y m : Int) : datetime y m 1 = Cal.dayNum y m 1 * DAY := by
  unfold datetime toMicroseconds; omega

theorem first_fields (y m : Int) (hm : 1 ≤ m ∧ m ≤ 12) : year (datetime y m 1) = y ∧ month (datetime y m 1) = m := by
  have hd := Cal.daysInMonth_range y m
  rw [datetime_first]
  exact fields_of_month _ _ _ hm (by omega) (by simp only [DAY]; omega)

/-- A month has begun exactly when the month of the instant is not an earlier one. -/
theorem first_le_iff (y m u : Int) (hm : 1 ≤ m ∧ m ≤ 12) : datetime y m 1 ≤ u ↔ 12 * y + m ≤ 12 * year u + month u := by
  obtain ⟨f1, f2⟩ := first_fields y m hm
  constructor
  · intro h
    have := monthNumber_mono h
    unfold monthNumber at this
    rw [f1, f2] at this
    omega
  · intro h
    by_contra hlt
    have h2 := monthNumber_mono (show u ≤ datetime y m 1 by omega)
    have hr := month_range u
    unfold monthNumber at h2
    rw [f1, f2] at h2
    have e1 : year u = y := by omega
    have e2 : month u = m := by omega
    have := monthStart_le u
    rw [e1, e2, ← datetime_first] at this
    omega

theorem yearOccurrence_mono (a : Int) {t u : Int} (h : t ≤ u) : yearOccurrence a t ≤ yearOccurrence a u := by
  have hm := monthNumber_mono h
  have h1 := month_range t
  have h2 := month_range u
  unfold monthNumber at hm
  unfold yearOccurrence
  split <;> split <;> omega

/-- What has happened since the beginning of the occurrence of `now` are the instants of that occurrence. -/
theorem yearBegin_iff {a : Int} (ha : 1 ≤ a ∧ a ≤ 12) {u now : Int} (hu : u ≤ now) :
    yearBegin a now ≤ u ↔ yearOccurrence a u = yearOccurrence a now := by
  have hm := yearOccurrence_mono a hu
  have h1 := month_range u
  unfold yearBegin
  rw [first_le_iff _ _ _ ha]
  generalize yearOccurrence a now = k at hm ⊢
  unfold yearOccurrence at hm ⊢
  split at hm <;> omega

theorem yearBegin_le {a : Int} (ha : 1 ≤ a ∧ a ≤ 12) (t : Int) : yearBegin a t ≤ t :=
  (yearBegin_iff ha (Int.le_refl t)).2 rfl

/-- The position on the axis of 366 days. -/
theorem year_real (t : Int) :
    t = Cal.daysBeforeYear (year t) * DAY + anchorDt .year t - (if NonLeap (year t) ∧ 3 ≤ month t then DAY else 0) := by
  have hb := year_base t
  have hr := axisStart_real (year t) (month t) (month_range t)
  rw [anchorDt_year]
  simp only [DAY] at *
  split
  · rename_i h; rw [if_pos h] at hr; omega
  · rename_i h; rw [if_neg h] at hr; omega

theorem first_real (y m : Int) (hm : 1 ≤ m ∧ m ≤ 12) :
    datetime y m 1 = Cal.daysBeforeYear y * DAY + axisStart m - (if NonLeap y ∧ 3 ≤ m then DAY else 0) := by
  have hr := axisStart_real y m hm
  rw [datetime_first]
  unfold Cal.dayNum
  simp only [DAY] at *
  split
  · rename_i h; rw [if_pos h] at hr; omega
  · rename_i h; rw [if_neg h] at hr; omega

theorem nonleap_if {y c : Int} (hn : NonLeap y) : (if NonLeap y ∧ 3 ≤ c then DAY else 0) = if 3 ≤ c then DAY else 0 := by
  by_cases h : 3 ≤ c
  · rw [if_pos ⟨hn, h⟩, if_pos h]
  · rw [if_neg (fun k => h k.2), if_neg h]

/-- C08 (backward roll), exact: the previous start of month `a` computed by `TimeOfYear` is the true first instant of the
month, minus one day for each 29 February that the code assumes but the calendar does not have. -/
theorem C08_prev_start_exact (a e : Int) (ha : 1 ≤ a ∧ a ≤ 12) (dt : Int) :
    Anchored.prevStart ⟨.year, axisStart a, e⟩ dt = yearBegin a dt - skippedLeapDays a dt * DAY := by
  have hs := year_pos_start a dt ha
  have hm := month_range dt
  have hr := year_real dt
  unfold Anchored.prevStart yearBegin skippedLeapDays yearOccurrence
  simp only [show scopeBack .year dt = 366 * DAY from rfl]
  by_cases hlt : a ≤ month dt
  · rw [if_neg (by omega), if_pos hlt]
    have hf := first_real (year dt) a ha
    by_cases hl : Cal.isLeap (year dt) = true
    · have hn : ¬ NonLeap (year dt) := by simpa [NonLeap] using hl
      rw [if_neg (fun h => hn h.1)] at hr hf
      simp only [hl, Bool.true_eq_false, and_false, if_false, Int.add_zero, Int.zero_mul]
      omega
    · have hl' : Cal.isLeap (year dt) = false := by simpa using hl
      have hn : NonLeap (year dt) := hl
      rw [nonleap_if hn] at hr hf
      simp only [hl', and_true]
      rw [if_neg (show ¬ (month dt < a ∧ 3 ≤ month dt) by omega)]
      simp only [DAY] at *
      split at hr <;> split at hf <;> split <;> omega
  · rw [if_pos (by omega), if_neg hlt]
    have hf := first_real (year dt - 1) a ha
    have hy := Cal.daysBeforeYear_succ (year dt - 1)
    rw [show year dt - 1 + 1 = year dt by omega] at hy
    have hg : (if month dt < a ∧ 3 ≤ month dt ∧ Cal.isLeap (year dt) = false then (1 : Int) else 0) * DAY =
        if NonLeap (year dt) ∧ 3 ≤ month dt then DAY else 0 := by
      unfold NonLeap
      have hlt' : month dt < a := by omega
      by_cases h1 : 3 ≤ month dt <;> cases h2 : Cal.isLeap (year dt) <;> simp [h1, hlt']
    rw [Int.add_mul, hg]
    generalize (if NonLeap (year dt) ∧ 3 ≤ month dt then DAY else 0) = g at hr ⊢
    by_cases hl : Cal.isLeap (year dt - 1) = true
    · have hn : ¬ NonLeap (year dt - 1) := by simpa [NonLeap] using hl
      rw [if_neg (fun h => hn h.1)] at hf
      rw [if_pos hl] at hy
      simp only [hl, Bool.true_eq_false, and_false, if_false, Int.zero_mul]
      simp only [DAY] at *
      omega
    · have hl' : Cal.isLeap (year dt - 1) = false := by simpa using hl
      have hn : NonLeap (year dt - 1) := hl
      rw [if_neg hl] at hy
      rw [nonleap_if hn] at hf
      simp only [hl', and_true]
      simp only [DAY] at *
      split at hf <;> split <;> omega

/-- On 10 April 2023 the occurrence that begins with February has begun on 1 February, and the code is one day off. -/
example : yearBegin 2 (datetime 2023 4 10) = datetime 2023 2 1 ∧ skippedLeapDays 2 (datetime 2023 4 10) = 1 ∧
    skippedLeapDays 2 (datetime 2024 4 10) = 0 ∧ skippedLeapDays 11 (datetime 2023 2 10) = 0 := by decide +kernel

theorem skipped_nonneg (a t : Int) : 0 ≤ skippedLeapDays a t := by
  unfold skippedLeapDays
  split <;> split <;> omega

/-- The span that `rollback` gives inside an occurrence. -/
theorem year_rollback_inside {a e : Int} (ha : 1 ≤ a ∧ a ≤ 12) (now : Int)
    (hin : Anchored.contains ⟨.year, axisStart a, e⟩ now = true)
    (hx : Anchored.isFull ⟨.year, axisStart a, e⟩ = true → yearBegin a now ≠ now) (n : Nat) :
    Period.periodSpan (n + 1) (some (.anchored ⟨.year, axisStart a, e⟩)) now =
      .ok (yearBegin a now - skippedLeapDays a now * DAY, now) := by
  have hle := yearBegin_le ha now
  have hk := skipped_nonneg a now
  have hp := C08_prev_start_exact a e ha now
  have hk' : 0 ≤ skippedLeapDays a now * DAY := Int.mul_nonneg hk (by decide)
  simp only [Period.periodSpan, Period.rollback]
  unfold Anchored.rollback
  by_cases hf : Anchored.isFull ⟨.year, axisStart a, e⟩ = true
  · have := hx hf
    rw [if_pos hf]
    simp only [hp]
    rw [if_neg (by omega), Interval.make_ok.2 ⟨by omega, rfl⟩]
  · rw [if_neg hf]
    have hr : Anchored.rollend ⟨.year, axisStart a, e⟩ now = now := by
      unfold Anchored.rollend
      rw [if_pos hin]
    simp only [hp, hr]
    rw [Interval.make_ok.2 ⟨by omega, rfl⟩]

/-! ## C26 -/

theorem year_executable {a e : Int} (ha : 1 ≤ a ∧ a ≤ 12) (now : Int)
    (hx : Anchored.isFull ⟨.year, axisStart a, e⟩ = true → yearBegin a now ≠ now) (hskip : skippedLeapDays a now = 0)
    (n : Nat) (fromLogs : Bool) (retries : Option Int) (name : String) (w : LogWorld)
    (hpast : ∀ r ∈ w.repo, r.task = name → r.created ≤ now)
    (hcache : fromLogs = false → (∀ b, Seen w name b now) ∧
      ∀ r ∈ w.repo, r.task = name → yearOccurrence a r.noted = yearOccurrence a r.created) :
    ∃ b, executable (n + 1) fromLogs retries (.anchored ⟨.year, axisStart a, e⟩) (oneReading now) name (w.mem name) w.repo = .ok b ∧
      (b = true ↔ Anchored.contains ⟨.year, axisStart a, e⟩ now = true ∧
        (∀ r ∈ w.repo, ¬ InYearly a now name [.success, .inaction, .terminate] r) ∧
        ((w.repo.filter (fun r => decide (InYearly a now name [.fail] r))).length : Int) ≤ retries.getD 0) := by
  by_cases hin : Anchored.contains ⟨.year, axisStart a, e⟩ now = true
  · have hspan := year_rollback_inside ha now hin hx n
    rw [hskip, Int.zero_mul, Int.sub_zero] at hspan
    obtain ⟨b, h1, h2⟩ := executable_span (.anchored ⟨.year, axisStart a, e⟩) now (yearBegin a now) now n
      (by simp [isinPeriod, Period.isDelta, Period.contains, hin])
      hspan fromLogs retries name (w.mem name) w.repo (by
        intro hf
        obtain ⟨c1, c2⟩ := hcache hf
        refine cacheFits_since c1 (fun r hr hn => ?_)
        have ht := (c1 .run).times r hr hn
        rw [yearBegin_iff ha (by omega), yearBegin_iff ha (by omega), c2 r hr hn])
    refine ⟨b, h1, h2.trans ?_⟩
    have hiff : ∀ r ∈ w.repo, r.task = name →
        ((yearBegin a now ≤ r.created ∧ r.created ≤ now) ↔ yearOccurrence a r.created = yearOccurrence a now) := by
      intro r hr hn
      rw [← yearBegin_iff ha (hpast r hr hn)]
      exact ⟨And.left, fun h => ⟨h, hpast r hr hn⟩⟩
    refine Iff.trans (and_congr ?_ ?_) ⟨fun h => ⟨hin, h⟩, And.right⟩
    · constructor
      · rintro h r hr ⟨k1, k2, k3⟩
        simp only [List.mem_cons, List.not_mem_nil, or_false] at k2
        have := (hiff r hr k1).2 k3
        exact h r hr k1 k2 this.1 this.2
      · intro h r hr k1 k2 k3 k4
        exact h r hr ⟨k1, by simpa using k2, (hiff r hr k1).1 ⟨k3, k4⟩⟩
    · have : w.repo.filter (fun r => decide (r.task = name ∧ r.action = .fail ∧ yearBegin a now ≤ r.created ∧ r.created ≤ now)) =
          w.repo.filter (fun r => decide (InYearly a now name [.fail] r)) := by
        apply List.filter_congr
        intro r hr
        rw [decide_eq_decide]
        unfold InYearly
        simp only [List.mem_singleton]
        constructor
        · rintro ⟨k1, k2, k3⟩; exact ⟨k1, k2, (hiff r hr k1).1 k3⟩
        · rintro ⟨k1, k2, k3⟩; exact ⟨k1, k2, (hiff r hr k1).2 k3⟩
      rw [this]
  · refine ⟨false, ?_, by simp [hin]⟩
    have hc : Anchored.contains ⟨.year, axisStart a, e⟩ now = false := by simpa using hin
    have : isinPeriod (n + 1) (.anchored ⟨.year, axisStart a, e⟩) now = .ok false := by
      simp [isinPeriod, Period.isDelta, Period.contains, hc]
    unfold executable
    simp only [oneReading]
    rw [andThen_ok this]
    simp

theorem year_not_full (a b : Int) (ha : 1 ≤ a ∧ a ≤ 12) (hb : 1 ≤ b ∧ b ≤ 12) :
    Anchored.isFull ⟨.year, axisStart a, axisStart b + longestMonth b * DAY - 1⟩ = false := by
  have h1 := axis_bounds a ha
  have h2 := axis_bounds b hb
  by_contra hc
  have hc : Anchored.isFull ⟨.year, axisStart a, axisStart b + longestMonth b * DAY - 1⟩ = true := by
    simpa using hc
  simp only [Anchored.isFull, show Scope.year.max = 366 * DAY from rfl, Bool.or_eq_true, Bool.and_eq_true,
    decide_eq_true_eq] at hc
  rcases hc with hc | hc
  · by_cases hab : a ≤ b
    · by_cases hab' : a = b
      · subst hab'; simp only [DAY] at *; omega
      · have := axis_mono a b ha.1 (by omega) hb.2
        simp only [DAY] at *; omega
    · have := axis_mono b a hb.1 (by omega) ha.2
      simp only [DAY] at *; omega
  · omega

/-- C26 for `TimeOfYear(a, b)`, for all months, logs and retry numbers, evaluated at `now` (which is not the last
microsecond of month `b`): the condition holds exactly when the month is in the range and the task has, since the first
instant of month `a` of the current occurrence, no success, inaction or termination and at most `retries` failures.
Missing: instants that are separated from that first instant by the end of a February with 28 days
(`C26_year_violated`). -/
theorem C26_year_partial (a b : Int) (ha : 1 ≤ a ∧ a ≤ 12) (hb : 1 ≤ b ∧ b ≤ 12) (now : Int)
    (hx : ¬ IsLastMicro b now) (hskip : skippedLeapDays a now = 0)
    (n : Nat) (fromLogs : Bool) (retries : Option Int) (name : String) (w : LogWorld)
    (hpast : ∀ r ∈ w.repo, r.task = name → r.created ≤ now)
    (hcache : fromLogs = false → (∀ b, Seen w name b now) ∧
      ∀ r ∈ w.repo, r.task = name → yearOccurrence a r.noted = yearOccurrence a r.created) :
    ∃ p v, Anchored.init .year (some (.int a)) (some (.int b)) = .ok p ∧
      executable (n + 1) fromLogs retries (.anchored p) (oneReading now) name (w.mem name) w.repo = .ok v ∧
      (v = true ↔ InUnits a b (month now) ∧
        (∀ r ∈ w.repo, ¬ InYearly a now name [.success, .inaction, .terminate] r) ∧
        ((w.repo.filter (fun r => decide (InYearly a now name [.fail] r))).length : Int) ≤ retries.getD 0) := by
  obtain ⟨p, h1, -, h2⟩ := C08_contains_partial a b ha hb
  have hi := (year_init a b ha hb).1
  rw [h1] at hi
  obtain rfl := Except.ok.inj hi
  have hfull := year_not_full a b ha hb
  obtain ⟨v, k1, k2⟩ := year_executable (e := axisStart b + longestMonth b * DAY - 1) ha now
    (by rw [hfull]; simp) hskip n fromLogs retries name w hpast hcache
  refine ⟨_, v, h1, k1, k2.trans (and_congr ?_ Iff.rfl)⟩
  rw [h2 now]
  exact ⟨And.left, fun h => ⟨h, hx⟩⟩

/-- C26 for the whole year, `TimeOfYear()`.  Missing: its first instant, as in `C26_midnight_violated`, and March to
December of years without a 29 February. -/
theorem C26_whole_year_partial (now : Int) (hx : datetime (year now) 1 1 ≠ now) (hskip : Cal.isLeap (year now) = true ∨ month now ≤ 2)
    (n : Nat) (fromLogs : Bool) (retries : Option Int) (name : String) (w : LogWorld)
    (hpast : ∀ r ∈ w.repo, r.task = name → r.created ≤ now)
    (hcache : fromLogs = false → (∀ b, Seen w name b now) ∧ ∀ r ∈ w.repo, r.task = name → year r.noted = year r.created) :
    ∃ p v, Anchored.init .year none none = .ok p ∧
      executable (n + 1) fromLogs retries (.anchored p) (oneReading now) name (w.mem name) w.repo = .ok v ∧
      (v = true ↔
        (∀ r ∈ w.repo, r.task = name → r.action ∈ [.success, .inaction, .terminate] → year r.created ≠ year now) ∧
        ((w.repo.filter (fun r => decide (r.task = name ∧ r.action = .fail ∧ year r.created = year now))).length : Int)
          ≤ retries.getD 0) := by
  have hocc : ∀ t, yearOccurrence 1 t = year t := fun t => by
    have := month_range t
    unfold yearOccurrence
    rw [if_pos this.1]
  have hm := month_range now
  obtain ⟨v, k1, k2⟩ := year_executable (a := 1) (e := 366 * DAY) (by omega) now
    (by intro _; unfold yearBegin; rw [hocc]; exact hx)
    (by
      unfold skippedLeapDays
      rw [hocc]
      rw [if_neg, if_neg] 
      · rfl
      · omega
      · rintro ⟨_, h, h'⟩
        rcases hskip with k | k
        · rw [k] at h'; cases h'
        · omega) n fromLogs retries name w hpast (by simpa only [hocc] using hcache)
  refine ⟨_, v, rfl, k1, k2.trans ?_⟩
  have hc : Anchored.contains ⟨.year, axisStart 1, 366 * DAY⟩ now = true := rfl
  simp only [hc, true_and, InYearly, hocc, List.mem_singleton, not_and, ne_eq]

/-- Non-vacuity: `TimeOfYear("nov", "feb")` on 10 January 2023, after a success on 3 November 2022 and after one on 30
October; `TimeOfYear()` on 10 April 2024, after a success on 31 December 2023. -/
example : InUnits 11 2 (month (datetime 2023 1 10)) ∧ ¬ IsLastMicro 2 (datetime 2023 1 10) ∧
    skippedLeapDays 11 (datetime 2023 1 10) = 0 ∧
    executable 1 true none (.anchored ⟨.year, 305 * DAY, 60 * DAY - 1⟩) (oneReading (datetime 2023 1 10)) "t" .fresh
      [⟨"t", .success, datetime 2022 11 3, datetime 2022 11 3, none⟩] = .ok false ∧
    executable 1 true none (.anchored ⟨.year, 305 * DAY, 60 * DAY - 1⟩) (oneReading (datetime 2023 1 10)) "t" .fresh
      [⟨"t", .success, datetime 2022 10 30, datetime 2022 10 30, none⟩] = .ok true ∧
    executable 1 true none (.anchored ⟨.year, 0, 366 * DAY⟩) (oneReading (datetime 2024 4 10)) "t" .fresh
      [⟨"t", .success, datetime 2023 12 31 12, datetime 2023 12 31 12, none⟩] = .ok true := by decide +kernel

/-- C26 does not hold for years: a task that runs once a year and succeeded on 31 December 2022 is not eligible on any
instant of 10 April 2023, although it has not run in 2023. -/
theorem C26_year_violated :
    ∃ now ops, let w := runLogOps false .fresh ops
      (∀ op ∈ ops, op.Fine) ∧ (∀ r ∈ w.repo, r.task = "t" → r.created ≤ now) ∧
      (∀ r ∈ w.repo, r.task = "t" → year r.created ≠ year now) ∧
      (∀ fromLogs, executable 1 fromLogs none (.anchored ⟨.year, 0, 366 * DAY⟩) (oneReading now) "t" (w.mem "t") w.repo = .ok false) := by
  refine ⟨datetime 2023 4 10 12, [.set "t" .success none (datetime 2022 12 31 15) (datetime 2022 12 31 15) .ok], ?_, ?_, ?_, ?_⟩
  · simp [LogOp.Fine]
  · decide +kernel
  · decide +kernel
  · decide +kernel

/-! ## C27 -/

/-- The position in a year without a 29 February. -/
theorem year_gap (t : Int) (hn : NonLeap (year t)) (hm : month t ≤ 2) : anchorDt .year t < 59 * DAY := by
  have hd := day_range t
  have ho : 0 ≤ t % DAY ∧ t % DAY < DAY := ⟨Int.emod_nonneg _ (by decide), Int.emod_lt_of_pos _ (by decide)⟩
  have hr := month_range t
  have hl : Cal.isLeap (year t) = false := by simpa [NonLeap] using hn
  rw [anchorDt_year]
  rcases (by omega : month t = 1 ∨ month t = 2) with h | h
  · have e : Cal.daysInMonth (year t) 1 = 31 := by simp [Cal.daysInMonth]
    rw [h, e] at hd
    rw [h, show axisStart 1 = 0 from rfl]
    simp only [DAY] at *; omega
  · have e : Cal.daysInMonth (year t) 2 = 28 := by simp [Cal.daysInMonth, hl]
    rw [h, e] at hd
    rw [h, show axisStart 2 = 31 * DAY from rfl]
    simp only [DAY] at *; omega

theorem year_axis (t : Int) : 0 ≤ anchorDt .year t ∧ anchorDt .year t < 366 * DAY := by
  have hpos := anchorDt_year t
  have hd := day_longest t
  have hmr := axis_bounds (month t) (month_range t)
  have ho : 0 ≤ t % DAY ∧ t % DAY < DAY := ⟨Int.emod_nonneg _ (by decide), Int.emod_lt_of_pos _ (by decide)⟩
  simp only [DAY] at *
  omega

theorem year_march (t : Int) : 60 * DAY ≤ anchorDt .year t ↔ 3 ≤ month t := year_pos_start 3 t (by omega)

/-- Positions of two instants that are less than four weeks apart. -/
theorem year_near {i n : Int} (hin : i ≤ n) (hnear : n < i + 28 * DAY) :
    (anchorDt .year n - anchorDt .year i = n - i) ∨
    (anchorDt .year n - anchorDt .year i = n - i + DAY ∧ anchorDt .year i < 59 * DAY ∧ 60 * DAY ≤ anchorDt .year n) ∨
    (anchorDt .year n - anchorDt .year i = n - i - 366 * DAY) := by
  have y := year_mono hin
  have ri := year_real i
  have rn := year_real n
  have ai := year_axis i
  have an := year_axis n
  have mi := year_march i
  have mn := year_march n
  have hmm := monthNumber_mono hin
  unfold monthNumber at hmm
  by_cases h0 : year n = year i
  · rw [h0] at rn
    by_cases hl : NonLeap (year i)
    · rw [nonleap_if hl] at ri rn
      have g := year_gap i hl
      simp only [DAY] at *
      split at ri <;> split at rn <;> omega
    · rw [if_neg (fun h => hl h.1)] at ri rn
      left; omega
  · by_cases h1 : year n = year i + 1
    · have hs := Cal.daysBeforeYear_succ (year i)
      rw [h1] at rn
      have hgn : (if NonLeap (year i + 1) ∧ 3 ≤ month n then DAY else 0) = 0 ∨
          ((if NonLeap (year i + 1) ∧ 3 ≤ month n then DAY else 0) = DAY ∧ 60 * DAY ≤ anchorDt .year n) := by
        split
        · rename_i h; exact .inr ⟨rfl, mn.2 h.2⟩
        · exact .inl rfl
      generalize (if NonLeap (year i + 1) ∧ 3 ≤ month n then DAY else 0) = gn at rn hgn
      by_cases hl : NonLeap (year i)
      · rw [nonleap_if hl] at ri
        rw [if_neg hl] at hs
        have g := year_gap i hl
        simp only [DAY] at *
        split at ri <;> omega
      · rw [if_neg (fun h => hl h.1)] at ri
        rw [if_pos (by simpa [NonLeap] using hl)] at hs
        simp only [DAY] at *
        omega
    · have hs := Cal.daysBeforeYear_lt (show year i + 1 < year n by omega)
      have hs' := Cal.daysBeforeYear_succ (year i)
      exfalso
      split at ri <;> split at rn <;> split at hs' <;> simp only [DAY] at * <;> omega

/-- An instant in the period is not after the end of the period that `rollend` gives less than four weeks later. -/
theorem year_rollend_ge {a b : Int} (ha : 1 ≤ a ∧ a ≤ 12) (hb : 1 ≤ b ∧ b ≤ 12) {i n : Int}
    (hi : Anchored.contains ⟨.year, axisStart a, axisStart b + longestMonth b * DAY - 1⟩ i = true) (hin : i ≤ n)
    (hnear : n < i + 28 * DAY) :
    i ≤ Anchored.rollend ⟨.year, axisStart a, axisStart b + longestMonth b * DAY - 1⟩ n := by
  unfold Anchored.rollend
  by_cases hc : Anchored.contains ⟨.year, axisStart a, axisStart b + longestMonth b * DAY - 1⟩ n = true
  · rw [if_pos hc]; exact hin
  · rw [if_neg hc]
    have hf := year_not_full a b ha hb
    have he : axisStart b + longestMonth b * DAY - 1 = 31 * DAY - 1 ∨ 60 * DAY - 1 ≤ axisStart b + longestMonth b * DAY - 1 := by
      by_cases h1 : b = 1
      · subst h1; exact .inl rfl
      · right
        by_cases h2 : b = 2
        · subst h2; decide
        · have := axis_mono 2 b (by omega) (by omega) hb.2
          have h29 := axis_bounds b hb
          rw [show axisStart 2 + longestMonth 2 * DAY = 60 * DAY from rfl] at this
          simp only [DAY] at *; omega
    unfold Anchored.contains at hi hc
    unfold Anchored.prevEnd
    rw [hf] at hi hc
    simp only [Bool.false_eq_true, if_false, show scopeBack .year n = 366 * DAY from rfl] at hi hc ⊢
    have hn := year_near hin hnear
    have ai := year_axis i
    have an := year_axis n
    generalize axisStart b + longestMonth b * DAY - 1 = e at *
    generalize axisStart a = s at *
    generalize anchorDt .year n = mn at *
    generalize anchorDt .year i = mi at *
    by_cases hse : s > e
    · rw [if_neg (by omega)] at hi hc
      simp only [Bool.or_eq_true, decide_eq_true_eq] at hi hc
      simp only [DAY] at *
      split <;> omega
    · rw [if_pos hse] at hi hc
      simp only [Bool.and_eq_true, decide_eq_true_eq] at hi hc
      simp only [DAY] at *
      split <;> omega

/-- `p` looks back far enough, for evaluations that take less than `W`. -/
def CoversWithin (W : Int) (p : Period) (occ : Int → Int) : Prop :=
  ∀ fuel i n u s e, isinPeriod fuel p i = .ok true → Period.periodSpan fuel (some p) n = .ok (s, e) → u ≤ i → i ≤ n →
    n < i + W → occ u = occ n → s ≤ u ∧ i ≤ e

theorem spaced_within (S : Setup) (name : String) (hp : S.isProc name = false ∨ S.drained = true) (fuel : Nat)
    (retries : Option Int) (p : Period) (W : Int) (occ : Int → Int) (hocc : ∀ t u, t ≤ u → occ t ≤ occ u)
    (hcov : CoversWithin W p occ)
    (hS : ∀ reason first last w, S.start name reason first last w →
      (∃ now, Evaluated fuel S.fromLogs retries p name first last w now) ∧ last < first + W)
    {es : List Ev} {h : HState} (hh : Hist S es h) :
    h.all.Pairwise (fun r s => OfAction name .success r → OfAction name .success s → occ r.noted < occ s.noted) := by
  refine spaced S name hp .success (Or.inr rfl) (fun u v => occ u < occ v) ?_ ?_ hh
  · intro u n v h1 h2
    have := hocc n v h2
    omega
  · intro reason first last w hst hseen
    obtain ⟨⟨now, ev⟩, hW⟩ := hS reason first last w hst
    have o1 := ev.r1; have o2 := ev.r2; have o3 := ev.r3; have o4 := ev.r4; have o5 := ev.r5; have o6 := ev.r6
    refine ⟨now.succeeded, by omega, ?_⟩
    intro r hr hra
    have hall := ev.holds
    unfold executable at hall
    obtain ⟨h1, hall⟩ := andThen_true hall
    obtain ⟨_, hall⟩ := andThen_true hall
    obtain ⟨h2, _⟩ := andThen_true hall
    have ht := hseen.times r hr hra.1
    have hmono := hocc r.noted now.succeeded (by omega)
    by_contra hlt
    have heq : occ r.noted = occ now.succeeded := by omega
    unfold statusCond at h2
    cases hspan : Period.periodSpan fuel (some p) now.succeeded with
    | error e => rw [hspan] at h2; simp at h2
    | ok se =>
      obtain ⟨s, e⟩ := se
      rw [hspan] at h2
      simp only [Except.ok.injEq] at h2
      obtain ⟨c1, c2⟩ := hcov fuel now.isin now.succeeded r.noted s e h1 hspan (by omega) (by omega) (by omega) heq
      exact observe_none hseen h2 r hr hra ⟨c1, by omega⟩

theorem covers_year {a e : Int} (ha : 1 ≤ a ∧ a ≤ 12)
    (hend : Anchored.isFull ⟨.year, axisStart a, e⟩ = true ∨
      ∃ b, 1 ≤ b ∧ b ≤ 12 ∧ e = axisStart b + longestMonth b * DAY - 1) :
    CoversWithin (28 * DAY) (.anchored ⟨.year, axisStart a, e⟩) (yearOccurrence a) := by
  intro fuel i n u l r hin hspan hui hin' hnear hocc
  cases fuel with
  | zero => simp [Period.periodSpan, Period.rollback] at hspan
  | succ fuel =>
    have hi : Anchored.contains ⟨.year, axisStart a, e⟩ i = true := by
      simpa only [isinPeriod, Period.isDelta, Period.contains, Bool.false_eq_true, if_false, Except.ok.injEq] using hin
    have hb := (yearBegin_iff ha (show u ≤ n by omega)).2 hocc
    have hk : ∀ t, 0 ≤ skippedLeapDays a t * DAY := fun t => Int.mul_nonneg (skipped_nonneg a t) (by decide)
    have k1 := hk n
    simp only [Period.periodSpan, Period.rollback] at hspan
    unfold Anchored.rollback at hspan
    by_cases hf : Anchored.isFull ⟨.year, axisStart a, e⟩ = true
    · rw [if_pos hf] at hspan
      simp only [C08_prev_start_exact a e ha] at hspan
      split at hspan
      · simp at hspan
      · rename_i iv hiv
        simp only [Except.ok.injEq, Prod.mk.injEq] at hspan
        obtain ⟨e1, e2⟩ := make_fields hiv
        obtain ⟨rfl, rfl⟩ := hspan
        rw [e1, e2]
        refine ⟨?_, hin'⟩
        split
        · have := yearBegin_le ha (n - 1)
          have := hk (n - 1)
          omega
        · omega
    · obtain ⟨b, hb1, hb2, rfl⟩ := hend.resolve_left hf
      rw [if_neg hf] at hspan
      simp only [C08_prev_start_exact a _ ha] at hspan
      split at hspan
      · simp at hspan
      · rename_i iv hiv
        simp only [Except.ok.injEq, Prod.mk.injEq] at hspan
        obtain ⟨e1, e2⟩ := make_fields hiv
        obtain ⟨rfl, rfl⟩ := hspan
        rw [e1, e2]
        exact ⟨by omega, year_rollend_ge ha ⟨hb1, hb2⟩ hi hin' hnear⟩

/-- C27 for `TimeOfYear(a, b)`, for all months: two success records lie in different occurrences.  An evaluation of the
start condition takes less than four weeks (a clock reading after the end of the period goes back to that end, and the
way back is a day too long when it crosses the end of a February with 28 days). -/
theorem C27_year_partial (S : Setup) (name : String) (hp : S.isProc name = false ∨ S.drained = true) (fuel : Nat)
    (retries : Option Int) (a b : Int) (ha : 1 ≤ a ∧ a ≤ 12) (hb : 1 ≤ b ∧ b ≤ 12) (p : Anchored)
    (hpd : Anchored.init .year (some (.int a)) (some (.int b)) = .ok p)
    (hS : ∀ reason first last w, S.start name reason first last w →
      (∃ now, Evaluated fuel S.fromLogs retries (.anchored p) name first last w now) ∧ last < first + 28 * DAY)
    {es : List Ev} {h : HState} (hh : Hist S es h) :
    h.all.Pairwise (fun r q => OfAction name .success r → OfAction name .success q →
      yearOccurrence a r.noted < yearOccurrence a q.noted) := by
  have hi := (year_init a b ha hb).1
  rw [hpd] at hi
  obtain rfl := Except.ok.inj hi
  exact spaced_within S name hp fuel retries _ _ _ (fun _ _ => yearOccurrence_mono a)
    (covers_year ha (.inr ⟨b, hb.1, hb.2, rfl⟩)) hS hh

/-- C27 for the whole year. -/
theorem C27_whole_year_partial (S : Setup) (name : String) (hp : S.isProc name = false ∨ S.drained = true) (fuel : Nat)
    (retries : Option Int) (p : Anchored) (hpd : Anchored.init .year none none = .ok p)
    (hS : ∀ reason first last w, S.start name reason first last w →
      (∃ now, Evaluated fuel S.fromLogs retries (.anchored p) name first last w now) ∧ last < first + 28 * DAY)
    {es : List Ev} {h : HState} (hh : Hist S es h) :
    h.all.Pairwise (fun r q => OfAction name .success r → OfAction name .success q → year r.noted < year q.noted) := by
  have hi : Anchored.init .year none none = .ok ⟨.year, axisStart 1, 366 * DAY⟩ := rfl
  rw [hpd] at hi
  obtain rfl := Except.ok.inj hi
  have hocc : yearOccurrence 1 = year := funext fun t => by
    have := month_range t
    unfold yearOccurrence
    rw [if_pos this.1]
  have := spaced_within S name hp fuel retries _ _ _ (fun _ _ => yearOccurrence_mono 1)
    (covers_year (a := 1) (by omega) (.inl rfl)) hS hh
  rwa [hocc] at this

/-- The session of the examples: every task has the start condition `TimeOfYear("nov", "feb")`. -/
def winterSetup : Setup where
  fromLogs := false
  start := fun name _ first last w =>
    (∃ now, Evaluated 1 false none (.anchored ⟨.year, 305 * DAY, 60 * DAY - 1⟩) name first last w now) ∧ last < first + 28 * DAY
  isProc := fun _ => false
  drained := true

/-- Non-vacuity of C27 for years: a success in January of year 1 and one in December. -/
example : ∃ es h, Hist winterSetup es h ∧
    (h.log.repo.filter (fun r => decide (r.action = .success))).length = 2 := by
  have h0 := Hist.init (S := winterSetup) 1
  have h1 := h0.step (.check _ "t" 0 (3 * DAY) (3 * DAY) (by decide) (by decide) (by decide) (by decide) (by simp [HState.NoneWaiting, HState.init])
    ⟨⟨oneReading (3 * DAY), by decide, by decide, by decide, by decide, by decide, by decide, by decide +kernel⟩, by decide⟩)
  have h2 := h1.step (.begin _ "t" 0 none (3 * DAY) (3 * DAY) (by decide) (by decide) (by decide))
  have h3 := h2.step (.outcome _ "t" .success none (3 * DAY + 1) (3 * DAY + 1) (by decide) (by decide) (by decide) (by decide))
  have h4 := h3.step (.die _ "t" (by decide))
  have h5 := h4.step (.check _ "t" 0 (340 * DAY) (340 * DAY) (by decide) (by decide) (by decide) (by decide) (by simp [HState.NoneWaiting, HState.init])
    ⟨⟨oneReading (340 * DAY), by decide, by decide, by decide, by decide, by decide, by decide, by decide +kernel⟩, by decide⟩)
  have h6 := h5.step (.begin _ "t" 0 none (340 * DAY) (340 * DAY) (by decide) (by decide) (by decide))
  have h7 := h6.step (.outcome _ "t" .success none (340 * DAY + 1) (340 * DAY + 1) (by decide) (by decide) (by decide) (by decide))
  exact ⟨_, _, h7, by decide +kernel⟩

end Rocketry.Props
