import Verif.Text.TimeTextLemmas
import Verif.Props.YearProps
import Verif.Props.PhraseProps

/-!
# C64: texts that name times
-/

namespace Rocketry.Props

open Rocketry.Spec

theorem fracPoint_lt : ∀ (ds : List Nat) (k : Nat), ds.length ≤ k → (∀ d ∈ ds, d < 10) →
    fracPoint (10 ^ (k - 1)) ds < 10 ^ k
  | [], k, _, _ => by simpa [fracPoint] using Nat.pow_pos (by decide)
  | d :: ds, k, hk, hd => by
    simp only [List.length_cons] at hk
    have hk1 : k = (k - 1) + 1 := by omega
    have h0 := hd d (by simp)
    have hp : 10 ^ k = 10 * 10 ^ (k - 1) := by rw [hk1, Nat.pow_succ, Nat.mul_comm]; simp
    have hr : fracPoint (10 ^ (k - 1) / 10) ds < 10 ^ (k - 1) := by
      cases ds with
      | nil => simpa [fracPoint] using Nat.pow_pos (by decide)
      | cons e es =>
        simp only [List.length_cons] at hk
        have ih := fracPoint_lt (e :: es) (k - 1) (by simp only [List.length_cons]; omega) (fun x hx => hd x (by simp [hx]))
        have : 10 ^ (k - 1) / 10 = 10 ^ (k - 1 - 1) := by
          have h2 : k - 1 = (k - 1 - 1) + 1 := by omega
          rw [h2, Nat.pow_succ, Nat.mul_div_cancel _ (by decide)]
          simp
        rw [this]; exact ih
    rw [fracPoint, hp]
    have : d * 10 ^ (k - 1) ≤ 9 * 10 ^ (k - 1) := Nat.mul_le_mul_right _ (by omega)
    omega

theorem micro_lt {s : SecondsText} (h : s.Proper) : s.micro < 1000000 := fracPoint_lt s.frac 6 h.2.1 h.2.2

theorem clock_bounds {c : ClockText} (h : c.Proper) : c.hour < 24 ∧ c.min < 60 ∧ c.sec < 60 ∧ c.micro < 1000000 := by
  obtain ⟨h1, h2, h3⟩ := h
  refine ⟨h1, h2, ?_⟩
  unfold ClockText.sec ClockText.micro
  cases hs : c.secs with
  | none => exact ⟨by decide, by decide⟩
  | some s => exact ⟨(h3 s hs).1, micro_lt (h3 s hs)⟩

theorem clockOf_bounds {c : Option ClockText} (h : ∀ c' ∈ c, c'.Proper) : 0 ≤ TimeText.clockOf c ∧ TimeText.clockOf c < DAY := by
  cases c with
  | none => exact ⟨Int.le_refl _, by decide⟩
  | some c =>
    have hb := clock_bounds (h c rfl)
    simp only [TimeText.clockOf, ClockText.point, DAY]
    omega

/-- The clock shows a time exactly when that much of the day has passed. -/
theorem showsClock_iff {c : Option ClockText} (h : ∀ c' ∈ c, c'.Proper) (t : Int) :
    TimeText.ShowsClock c t ↔ t % DAY = TimeText.clockOf c := by
  cases c with
  | none =>
    simp only [TimeText.ShowsClock, TimeText.clockOf, hour, minute, second, microsecond, DAY, HOUR, MIN, SEC]
    omega
  | some c =>
    have hb := clock_bounds (h c rfl)
    simp only [TimeText.ShowsClock, TimeText.clockOf, ClockText.point, hour, minute, second, microsecond, DAY, HOUR, MIN, SEC]
    omega

/-- C64: a text naming a time of a minute, hour, day, week, month or year is read as that time: as a beginning it is the
point at which the named time, day or month begins. -/
theorem C64_first (lib : TextLib) (tt : TimeText) (h : tt.Proper) :
    ∃ v, readTime lib tt.scope tt.text = .ok v ∧ anchorVal tt.scope v .start = .ok tt.first := by
  cases tt with
  | minute s =>
    refine ⟨.clock s.point, ?_, rfl⟩
    simp only [readTime, TimeText.scope, TimeText.text, minuteText, searchText_head (matchSeconds_eq h)]
  | hour m s =>
    refine ⟨.clock (m * 60000000 + s.point), ?_, rfl⟩
    simp only [readTime, TimeText.scope, TimeText.text, hourText_eq h.1 h.2]
  | day c =>
    refine ⟨.clock c.point, ?_, rfl⟩
    simp only [readTime, TimeText.scope, TimeText.text, dayText_eq lib h]
  | week k name c =>
    have hk : k < 7 := nameOf_lt h.1
    refine ⟨_, weekText_eq lib h.1 h.2, ?_⟩
    cases c with
    | none =>
      simp only [anchorVal, TimeText.scope, Option.map, TimeText.first, TimeText.clockOf]
      rw [if_pos (by omega)]
      simp only [reduceCtorEq, if_false, Except.ok.injEq, DAY]
      omega
    | some c =>
      simp only [anchorVal, TimeText.scope, Option.map, TimeText.first, TimeText.clockOf]
      rw [if_pos (by omega)]
      simp only [Except.ok.injEq, DAY]
      omega
  | month d =>
    refine ⟨_, monthText_eq lib h, ?_⟩
    cases hc : d.clock <;>
      simp only [anchorVal, TimeText.scope, Option.map, TimeText.first, TimeText.clockOf, hc, reduceCtorEq, if_false,
        Except.ok.injEq, DAY] <;> omega
  | year k name d =>
    have hk : k < 12 := nameOf_lt h.1
    refine ⟨_, yearText_eq lib h.1 (fun d' hd' => (h.2 d' hd').1), ?_⟩
    have hm := monthStart_eq ((k : Int) + 1) (by omega)
    simp only [Int.add_sub_cancel] at hm
    cases d with
    | none =>
      simp only [anchorVal, TimeText.scope, Option.map, TimeText.first]
      rw [if_pos (by omega), hm]
      simp [axisStart, DAY]
    | some d =>
      simp only [anchorVal, TimeText.scope, Option.map, TimeText.first]
      rw [if_pos (by omega), hm]
      simp only [Option.getD, axisStart, Except.ok.injEq, DAY]
      omega

/-- C64: as an end, a text that names a whole day includes the day.  What is missing: the months and days of a year
(`C64_year_month_violated`, `C64_year_day_violated`). -/
theorem C64_last_partial (lib : TextLib) (tt : TimeText) (h : tt.Proper) (hy : tt.scope = .year → tt.Exact) :
    ∃ v, readTime lib tt.scope tt.text = .ok v ∧ anchorVal tt.scope v .stop = .ok tt.last := by
  cases tt with
  | minute s =>
    refine ⟨.clock s.point, ?_, rfl⟩
    simp only [readTime, TimeText.scope, TimeText.text, minuteText, searchText_head (matchSeconds_eq h)]
  | hour m s =>
    refine ⟨.clock (m * 60000000 + s.point), ?_, rfl⟩
    simp only [readTime, TimeText.scope, TimeText.text, hourText_eq h.1 h.2]
  | day c =>
    refine ⟨.clock c.point, ?_, rfl⟩
    simp only [readTime, TimeText.scope, TimeText.text, dayText_eq lib h]
  | week k name c =>
    have hk : k < 7 := nameOf_lt h.1
    refine ⟨_, weekText_eq lib h.1 h.2, ?_⟩
    cases c with
    | none =>
      simp only [anchorVal, TimeText.scope, Option.map, TimeText.last]
      rw [if_pos (by omega)]
      simp only [if_true, Except.ok.injEq, DAY]
      omega
    | some c =>
      simp only [anchorVal, TimeText.scope, Option.map, TimeText.last, TimeText.first, TimeText.clockOf]
      rw [if_pos (by omega)]
      simp only [Except.ok.injEq, DAY]
      omega
  | month d =>
    refine ⟨_, monthText_eq lib h, ?_⟩
    obtain ⟨n, o, c⟩ := d
    cases c <;>
      simp only [anchorVal, TimeText.scope, Option.map, TimeText.last, TimeText.first, TimeText.clockOf, if_true,
        Except.ok.injEq, DAY] <;> omega
  | year k name d =>
    have hk : k < 12 := nameOf_lt h.1
    refine ⟨_, yearText_eq lib h.1 (fun d' hd' => (h.2 d' hd').1), ?_⟩
    have hm := monthStart_eq ((k : Int) + 1) (by omega)
    simp only [Int.add_sub_cancel] at hm
    obtain ⟨⟨n, o, c⟩, rfl, hc⟩ := hy rfl
    cases c with
    | none => exact absurd rfl hc
    | some c =>
      simp only [anchorVal, TimeText.scope, Option.map, TimeText.last, TimeText.first]
      rw [if_pos (by omega), hm]
      simp only [Option.getD, axisStart, Except.ok.injEq, DAY]
      omega

/-- C64: the point a text names is the one at which calendar and clock show it: a moment is at that point of the cycle
exactly when it shows the named time. -/
theorem C64_moment (tt : TimeText) (h : tt.Proper) (t : Int) : anchorDt tt.scope t = tt.first ↔ tt.Shows t := by
  have hclk := clock_recompose t
  cases tt with
  | minute s =>
    have hm := micro_lt h
    have hs := h.1
    simp only [TimeText.scope, anchorDt, TimeText.first, TimeText.Shows, SecondsText.point, toMicroseconds, second, microsecond,
      MIN, SEC]
    omega
  | hour m s =>
    have hm := micro_lt h.2
    have hs := h.2.1
    have h0 := h.1
    simp only [TimeText.scope, anchorDt, TimeText.first, TimeText.Shows, SecondsText.point, toMicroseconds, minute, second, microsecond,
      HOUR, MIN, SEC]
    omega
  | day c =>
    have hs := showsClock_iff (c := some c) (by intro c' hc'; cases hc'; exact h) t
    simp only [TimeText.scope, anchorDt, TimeText.first, TimeText.Shows, hs, hclk]
    rfl
  | week k name c =>
    have hk : k < 7 := nameOf_lt h.1
    have hs := showsClock_iff h.2 t
    have hb := clockOf_bounds h.2
    have hd : 0 ≤ t % DAY ∧ t % DAY < DAY := ⟨Int.emod_nonneg _ (by decide), Int.emod_lt_of_pos _ (by decide)⟩
    simp only [TimeText.scope, anchorDt, TimeText.first, TimeText.Shows, hs, hclk]
    simp only [toMicroseconds, DAY] at *
    omega
  | month d =>
    have hs := showsClock_iff h.2.2.2 t
    have hb := clockOf_bounds h.2.2.2
    have hd : 0 ≤ t % DAY ∧ t % DAY < DAY := ⟨Int.emod_nonneg _ (by decide), Int.emod_lt_of_pos _ (by decide)⟩
    have h3 : anchorDt .month t = (day t - 1) * DAY + t % DAY := by
      rw [← hclk]; simp only [anchorDt, toMicroseconds, DAY]; omega
    simp only [TimeText.scope, h3, TimeText.first, TimeText.Shows, hs]
    simp only [DAY] at *
    omega
  | year k name d =>
    have hk : k < 12 := nameOf_lt h.1
    have hd : 0 ≤ t % DAY ∧ t % DAY < DAY := ⟨Int.emod_nonneg _ (by decide), Int.emod_lt_of_pos _ (by decide)⟩
    have key : ∀ (n : Nat) (c : Option ClockText), 1 ≤ n → (n : Int) ≤ longestMonth (k + 1) → (∀ c' ∈ c, c'.Proper) →
        (anchorDt .year t = axisStart (k + 1) + ((n - 1) * DAY + TimeText.clockOf c) ↔
          month t = k + 1 ∧ day t = n ∧ TimeText.ShowsClock c t) := by
      intro n c h1 h2 hc
      have hs := showsClock_iff hc t
      have hb := clockOf_bounds hc
      have hdl := day_longest t
      have hm := month_range t
      rw [anchorDt_year, hs]
      constructor
      · intro he
        have hmk : month t = k + 1 := by
          rcases Int.lt_trichotomy (month t) (k + 1) with hl | he' | hl
          · have := axis_mono (month t) (k + 1) hm.1 hl (by omega)
            simp only [DAY] at *
            omega
          · exact he'
          · have := axis_mono (k + 1) (month t) (by omega) hl hm.2
            simp only [DAY] at *
            omega
        rw [hmk] at he
        simp only [DAY] at *
        omega
      · rintro ⟨h1, h2, h3⟩
        rw [h1, h2, h3]
        simp only [DAY]
        omega
    cases d with
    | none =>
      have hl := (axis_bounds (k + 1) (by omega)).2.2
      have := key 1 none (by omega) (by omega) (by simp)
      simp only [TimeText.scope, TimeText.first, TimeText.Shows]
      simpa [TimeText.clockOf, axisStart, DAY] using this
    | some d =>
      have hp := h.2 d rfl
      have := key d.num d.clock hp.1.1 hp.2 hp.1.2.2.2
      simpa [TimeText.scope, TimeText.first, TimeText.Shows, axisStart, DAY] using this

/-- `Wed 10:30`, `December 5th 10:00:15.25`. -/
example : (TimeText.week 2 c!"Wed" (some { hour := 10, min := 30 })).Proper ∧
    (TimeText.week 2 c!"Wed" (some { hour := 10, min := 30 })).text = c!"Wed 10:30" ∧
    (TimeText.week 2 c!"Wed" (some { hour := 10, min := 30 })).first = 2 * DAY + 10 * HOUR + 30 * MIN :=
  ⟨⟨⟨c!"wednesday", rfl, .inr (by decide)⟩, by
    intro c hc; cases hc; exact ⟨by decide, by decide, by simp⟩⟩, by decide, by decide⟩

example : ∃ tt : TimeText, tt.Proper ∧ tt.text = c!"December 5th 10:00:15.25" ∧
    tt.Shows (datetime 2024 12 5 10 0 15 250000) ∧
    tt.first = 339 * DAY + 10 * HOUR + 15 * SEC + 250000 := by
  refine ⟨.year 11 c!"December" (some ⟨5, c!"th", some ⟨10, 0, some ⟨15, [2, 5]⟩⟩⟩), ⟨⟨c!"december", rfl, .inl (by decide)⟩, ?_⟩,
    by decide, ?_, by decide⟩
  · intro d hd
    cases hd
    refine ⟨⟨by decide, by decide, by decide, ?_⟩, by decide⟩
    intro c hc
    cases hc
    refine ⟨by decide, by decide, ?_⟩
    intro s hs
    cases hs
    exact ⟨by decide, by decide, by decide⟩
  · refine ⟨by decide +kernel, by decide +kernel, ?_⟩
    exact ⟨by decide +kernel, by decide +kernel, by decide +kernel, by decide +kernel⟩

/-! ### in the phrases -/

/-- The points are within the cycle. -/
theorem point_bounds (tt : TimeText) (h : tt.Proper) (hy : tt.scope = .year → tt.Exact) :
    0 ≤ tt.first ∧ tt.first < tt.scope.max ∧ 0 ≤ tt.last ∧ tt.last ≤ tt.scope.max := by
  have hsec : ∀ s : SecondsText, s.Proper → 0 ≤ s.point ∧ s.point < 60000000 := by
    intro s hs
    have := micro_lt hs
    have := hs.1
    simp only [SecondsText.point]
    omega
  cases tt with
  | minute s =>
    have := hsec s h
    simp only [TimeText.scope, TimeText.first, TimeText.last, Scope.max, toMicroseconds]
    omega
  | hour m s =>
    have := hsec s h.2
    have := h.1
    simp only [TimeText.scope, TimeText.first, TimeText.last, Scope.max, toMicroseconds]
    omega
  | day c =>
    have := clockOf_bounds (c := some c) (by intro c' hc'; cases hc'; exact h)
    simp only [TimeText.clockOf, DAY] at this
    simp only [TimeText.scope, TimeText.first, TimeText.last, Scope.max, toMicroseconds]
    omega
  | week k name c =>
    have hk : k < 7 := nameOf_lt h.1
    have := clockOf_bounds h.2
    simp only [DAY] at this
    cases c <;> simp only [TimeText.scope, TimeText.first, TimeText.last, Scope.max, toMicroseconds] <;> omega
  | month d =>
    have := clockOf_bounds h.2.2.2
    have h1 := h.1
    have h2 := h.2.1
    obtain ⟨n, o, c⟩ := d
    simp only [DAY] at this h1 h2
    cases c <;> simp only [TimeText.scope, TimeText.first, TimeText.last, Scope.max, toMicroseconds] <;> omega
  | year k name d =>
    have hk : k < 12 := nameOf_lt h.1
    obtain ⟨⟨n, o, c⟩, rfl, hc⟩ := hy rfl
    have hp := h.2 _ rfl
    have := clockOf_bounds hp.1.2.2.2
    have hb := axis_bounds ((k : Int) + 1) (by omega)
    have h1 := hp.1.1
    have h2 := hp.2
    cases c with
    | none => exact absurd rfl hc
    | some c =>
      simp only [axisStart, longestMonth, DAY] at this hb h1 h2
      simp only [TimeText.scope, TimeText.first, TimeText.last, Scope.max, toMicroseconds]
      omega

/-- The restriction of a cycle, with named times. -/
inductive TPart where
  | whole
  | starting (a : TimeText)
  | between (a b : TimeText)
  | after (a : TimeText)
  | before (b : TimeText)
  | on (a : TimeText)

/-- As written. -/
def TPart.part : TPart → Part
  | .whole => .whole
  | .starting a => .starting a.text
  | .between a b => .between a.text b.text
  | .after a => .after a.text
  | .before b => .before b.text
  | .on a => .on a.text

/-- The times are times of the cycle. -/
def TPart.Of (sc : Scope) : TPart → Prop
  | .whole => True
  | .starting a => a.Proper ∧ a.scope = sc
  | .between a b => (a.Proper ∧ a.scope = sc) ∧ (b.Proper ∧ b.scope = sc)
  | .after a => a.Proper ∧ a.scope = sc
  | .before b => b.Proper ∧ b.scope = sc
  | .on a => a.Proper ∧ a.scope = sc

/-- The next unit of the cycle: the hours of a day, the days of a week or month, the minutes of an hour, the seconds of a
minute. -/
def unitOf : Scope → Int
  | .second => 1000
  | .minute => 1000000
  | .hour => 60000000
  | .day => 3600000000
  | .week => 86400000000
  | .month => 86400000000
  | .year => 0

/-- The length of a cycle. -/
def cycleOf : Scope → Int
  | .second => 1000000
  | .minute => 60000000
  | .hour => 3600000000
  | .day => 86400000000
  | .week => 7 * 86400000000
  | .month => 31 * 86400000000
  | .year => 366 * 86400000000

/-- A point that is passed in the next cycle. -/
def wrapAt (n x : Int) : Int := if x < n then x else x - n

/-- The part of the cycle that is meant: from where to where. -/
def TPart.span (sc : Scope) : TPart → Int × Int
  | .whole => (0, cycleOf sc)
  | .starting a => (a.first, a.first)
  | .between a b => (a.first, b.last)
  | .after a => (a.first, cycleOf sc)
  | .before b => (0, b.last)
  | .on a => (a.first, wrapAt (cycleOf sc) (a.first + unitOf sc))

theorem cycleOf_eq (sc : Scope) : cycleOf sc = sc.max := by cases sc <;> rfl

theorem unitOf_eq {sc : Scope} (h : sc ≠ .year) : unitOf sc = sc.unit := by cases sc <;> simp_all <;> rfl

/-- The value read from a text. -/
def valOf (lib : TextLib) (sc : Scope) (t : Txt) : AVal := match readTime lib sc t with
  | .ok v => v
  | .error _ => .int 0

theorem val_first (lib : TextLib) {tt : TimeText} (h : tt.Proper) : readTime lib tt.scope tt.text = .ok (valOf lib tt.scope tt.text) ∧
    anchorVal tt.scope (valOf lib tt.scope tt.text) .start = .ok tt.first := by
  obtain ⟨v, h1, h2⟩ := C64_first lib tt h
  unfold valOf
  rw [h1]
  exact ⟨rfl, h2⟩

theorem val_last (lib : TextLib) {tt : TimeText} (h : tt.Proper) (hy : tt.scope = .year → tt.Exact) :
    anchorVal tt.scope (valOf lib tt.scope tt.text) .stop = .ok tt.last := by
  obtain ⟨v, h1, h2⟩ := C64_last_partial lib tt h hy
  unfold valOf
  rw [h1]
  exact h2

theorem validate_ok {sc : Scope} {n : Int} (h : 0 ≤ n) (h' : n ≤ sc.max) : validate sc n = .ok () := by
  rw [validate, if_neg (by omega)]

theorem setStart_ok {sc : Scope} {v : AVal} {n : Int} (hv : anchorVal sc v .start = .ok n) (h : 0 ≤ n) (h' : n ≤ sc.max) :
    setStart sc (some v) = .ok n := by
  simp only [setStart, hv, bind, Except.bind, validate_ok h h', pure, Except.pure]

theorem setEnd_ok {sc : Scope} {s : Int} {v : AVal} {n : Int} (tp st : Bool) (hv : anchorVal sc v .stop = .ok n) (h : 0 ≤ n)
    (h' : n ≤ sc.max) : setEnd sc s (some v) tp st false = .ok n := by
  simp only [setEnd, hv, bind, Except.bind, Bool.false_eq_true, if_false, validate_ok h h', pure, Except.pure]

/-- The part of a cycle meant by the written times is the part between the named points. -/
theorem part_meaning (lib : TextLib) {sc : Scope} (hsc : sc ≠ .year) (w : TPart) (h : w.Of sc) :
    w.part.meaning (valOf lib) sc = .ok ⟨sc, (w.span sc).1, (w.span sc).2⟩ := by
  have hmax : 0 ≤ sc.max := by cases sc <;> decide
  cases w with
  | whole => simp [TPart.part, Part.meaning, Anchored.init, TPart.span, cycleOf_eq]
  | starting a =>
    obtain ⟨hp, rfl⟩ := h
    have hb := point_bounds a hp (fun e => absurd e hsc)
    simp only [TPart.part, Part.meaning, Anchored.starting, Anchored.init, Option.isNone_some, Bool.false_and, Bool.false_eq_true,
      if_false, setStart_ok (val_first lib hp).2 hb.1 (Int.le_of_lt hb.2.1), bind, Except.bind, TPart.span]
    simp only [setEnd, Bool.false_eq_true, if_false, if_true, bind, Except.bind, validate_ok hb.1 (Int.le_of_lt hb.2.1), pure, Except.pure]
  | between a b =>
    obtain ⟨⟨hp, rfl⟩, hq, hbs⟩ := h
    have hb := point_bounds a hp (fun e => absurd e hsc)
    have hb' := point_bounds b hq (fun e => absurd (hbs.symm.trans e) hsc)
    have hv := val_last lib hq (fun e => absurd (hbs.symm.trans e) hsc)
    rw [hbs] at hb' hv
    simp only [TPart.part, Part.meaning, Anchored.init, Option.isNone_some, Bool.false_and, Bool.false_eq_true,
      if_false, setStart_ok (val_first lib hp).2 hb.1 (Int.le_of_lt hb.2.1), bind, Except.bind, TPart.span,
      setEnd_ok _ _ hv hb'.2.2.1 hb'.2.2.2, pure, Except.pure]
  | after a =>
    obtain ⟨hp, rfl⟩ := h
    have hb := point_bounds a hp (fun e => absurd e hsc)
    simp only [TPart.part, Part.meaning, Anchored.init, Option.isNone_some, Bool.false_and, Bool.false_eq_true,
      if_false, setStart_ok (val_first lib hp).2 hb.1 (Int.le_of_lt hb.2.1), bind, Except.bind, TPart.span]
    simp only [setEnd, Bool.false_eq_true, if_false, bind, Except.bind, validate_ok hmax (Int.le_refl _), pure, Except.pure,
      cycleOf_eq]
  | before b =>
    obtain ⟨hp, rfl⟩ := h
    have hb := point_bounds b hp (fun e => absurd e hsc)
    have h0 : setStart b.scope none = .ok 0 := by
      simp only [setStart, bind, Except.bind, validate_ok (Int.le_refl 0) hmax, pure, Except.pure]
    simp only [TPart.part, Part.meaning, Anchored.init, Option.isNone_some, Bool.and_false, Bool.false_eq_true,
      if_false, h0, bind, Except.bind, TPart.span,
      setEnd_ok _ _ (val_last lib hp (fun e => absurd e hsc)) hb.2.2.1 hb.2.2.2, pure, Except.pure]
  | on a =>
    obtain ⟨hp, rfl⟩ := h
    have hb := point_bounds a hp (fun e => absurd e hsc)
    have hu := unitOf_eq hsc
    have hu' : 0 ≤ unitOf a.scope ∧ unitOf a.scope ≤ a.scope.max := by
      revert hsc; cases a.scope <;> intro hsc <;> first | exact absurd rfl hsc | decide
    have ht : toTimepoint a.scope a.first = .ok (wrapAt (cycleOf a.scope) (a.first + unitOf a.scope)) := by
      have : toTimepoint a.scope a.first =
          .ok (if a.first + a.scope.unit ≥ a.scope.max then a.first + a.scope.unit - a.scope.max else a.first + a.scope.unit) := by
        generalize a.scope = sc at hsc
        cases sc <;> first | rfl | exact absurd rfl hsc
      rw [this, wrapAt, cycleOf_eq, hu]
      congr 1
      by_cases hc : a.first + a.scope.unit < a.scope.max
      · rw [if_pos hc, if_neg (by omega)]
      · rw [if_neg hc, if_pos (by omega)]
    have hw : 0 ≤ wrapAt (cycleOf a.scope) (a.first + unitOf a.scope) ∧
        wrapAt (cycleOf a.scope) (a.first + unitOf a.scope) ≤ a.scope.max := by
      rw [wrapAt, cycleOf_eq]
      split <;> omega
    simp only [TPart.part, Part.meaning, Anchored.at, Anchored.init, Option.isNone_some, Bool.false_and, Bool.false_eq_true,
      if_false, setStart_ok (val_first lib hp).2 hb.1 (Int.le_of_lt hb.2.1), bind, Except.bind, TPart.span]
    simp only [setEnd, Bool.false_eq_true, if_false, if_true, ht, bind, Except.bind, validate_ok hw.1 hw.2, pure, Except.pure]

/-- No blank followed by an `a`, no quote and no line break. -/
theorem lastArg_of {a b : Txt} (hne : a ++ b ≠ []) (ha : ∀ c ∈ a, c ≠ ' ' ∧ c ≠ '\n' ∧ c ≠ '\'') (hh : ∀ c ∈ a.head?, c ≠ 'a')
    (hb : ∀ c ∈ b, c ≠ 'a' ∧ c ≠ '\n' ∧ c ≠ '\'') : LastArg (a ++ b) := by
  refine ⟨⟨hne, ?_, ?_⟩, ?_⟩
  · intro h
    rcases List.mem_append.1 h with h | h
    · exact (ha _ h).2.1 rfl
    · exact (hb _ h).2.1 rfl
  · intro h
    rcases List.mem_append.1 h with h | h
    · exact (ha _ h).2.2 rfl
    · exact (hb _ h).2.2 rfl
  · rintro ⟨pre, suf, h⟩
    have key : ∀ (a pre : Txt), (∀ c ∈ a, c ≠ ' ') → pre ++ ' ' :: 'a' :: 'n' :: 'd' :: ' ' :: suf ≠ a ++ b := by
      intro a pre ha he
      have hm : 'a' ∉ b := fun hm => (hb _ hm).1 rfl
      induction a generalizing pre with
      | nil => rw [List.nil_append] at he; exact hm (he ▸ by simp)
      | cons c a ih =>
        cases pre with
        | nil =>
          simp only [List.nil_append, List.cons_append, List.cons.injEq] at he
          exact ha c (by simp) he.1.symm
        | cons d pre =>
          simp only [List.cons_append, List.cons.injEq] at he
          exact ih pre (fun c hc => ha c (by simp [hc])) he.2
    cases pre with
    | nil =>
      simp only [List.nil_append, List.cons_append, List.cons.injEq, true_and] at h
      cases a with
      | nil => rw [List.nil_append] at h; exact (hb 'a' (h ▸ by simp)).1 rfl
      | cons c a =>
        simp only [List.cons_append, List.cons.injEq] at h
        exact hh c (by simp) h.1.symm
    | cons d pre =>
      simp only [List.cons_append, List.cons.injEq] at h
      refine key a pre (fun c hc => (ha c hc).1) ?_
      rw [← h.2]
      simp

theorem digit_plain {c : Char} (h : c.isDigit = true) : c ≠ 'a' ∧ c ≠ '\n' ∧ c ≠ '\'' :=
  ⟨isDigit_ne h (by decide), isDigit_ne h (by decide), isDigit_ne h (by decide)⟩

theorem letter_plain {c : Char} (h : isLetter c = true) : c ≠ ' ' ∧ c ≠ '\n' ∧ c ≠ '\'' := by
  refine ⟨?_, ?_, ?_⟩ <;> rintro rfl <;> revert h <;> decide

theorem clockTail_plain {k : Option ClockText} (h : ∀ c ∈ k, c.Proper) : ∀ c ∈ clockTail k, c ≠ 'a' ∧ c ≠ '\n' ∧ c ≠ '\'' := by
  intro c hc
  rcases clockTail_chars h c hc with h | rfl | rfl | rfl
  · exact digit_plain h
  all_goals decide

theorem ord_plain {o : Txt} (h : o.map lowerChar ∈ [[], c!"st", c!"nd", c!"rd", c!"th", c!"."]) :
    ∀ c ∈ o, c ≠ 'a' ∧ c ≠ '\n' ∧ c ≠ '\'' := by
  intro c hc
  have hm : lowerChar c ∈ o.map lowerChar := List.mem_map_of_mem hc
  simp only [List.mem_cons, List.not_mem_nil, or_false] at h
  refine ⟨?_, ?_, ?_⟩ <;> rintro rfl <;>
    rcases h with h | h | h | h | h | h <;> rw [h] at hm <;> revert hm <;> decide

/-- The named times can be put into a phrase. -/
theorem timeText_arg {tt : TimeText} (h : tt.Proper) (hsc : tt.scope ≠ .year) : LastArg tt.text := by
  have hplain : ∀ c : Char, c.isDigit = true ∨ c = ':' ∨ c = '.' → c ≠ 'a' ∧ c ≠ '\n' ∧ c ≠ '\'' := by
    rintro c (h | rfl | rfl)
    · exact digit_plain h
    all_goals decide
  have hnone : ∀ t : Txt, t ≠ [] → (∀ c ∈ t, c ≠ 'a' ∧ c ≠ '\n' ∧ c ≠ '\'') → LastArg t := by
    intro t ht hc
    exact lastArg_of (a := []) (b := t) ht (by simp) (by simp) hc
  cases tt with
  | minute s =>
    refine hnone _ (by simp [TimeText.text, SecondsText.text, twoDigits]) ?_
    intro c hc
    rcases secondsText_chars h c hc with h | h
    · exact hplain c (.inl h)
    · exact hplain c (.inr (.inr h))
  | hour m s =>
    have h0 := h.1
    refine hnone _ (by simp [TimeText.text, twoDigits]) ?_
    intro c hc
    rcases List.mem_append.1 hc with hc | hc
    · exact hplain c (.inl (twoDigits_digits (by omega) c hc))
    · rcases List.mem_cons.1 hc with rfl | hc
      · exact hplain _ (.inr (.inl rfl))
      · rcases secondsText_chars h.2 c hc with h | h
        · exact hplain c (.inl h)
        · exact hplain c (.inr (.inr h))
  | day c => exact hnone _ c.text_ne (fun x hx => hplain x (clockText_chars h x hx))
  | week k name c =>
    obtain ⟨h1, h2⟩ := weekday_letters h.1
    refine lastArg_of (by simp [h1]) (fun c hc => letter_plain (h2 c hc)) ?_ (clockTail_plain h.2)
    intro c hc
    rintro rfl
    obtain ⟨n, hn, hcase⟩ := h.1
    have hhd : ∀ n ∈ weekdayNames, n.head? ≠ some 'a' ∧ (n.take 3).head? ≠ some 'a' := by decide +kernel
    have hm := hhd n (List.mem_of_getElem? hn)
    have : (name.map lowerChar).head? = some 'a' := by
      have hx : name.head? = some 'a' := hc
      rw [List.head?_map, hx]; decide
    rcases hcase with hcase | hcase
    · exact hm.1 (hcase ▸ this)
    · exact hm.2 (hcase ▸ this)
  | month d =>
    refine hnone _ d.text_ne ?_
    intro c hc
    simp only [TimeText.text, DayText.text, List.mem_append] at hc
    rcases hc with (hc | hc) | hc
    · exact digit_plain (showNat_isDigit _ c hc)
    · exact ord_plain h.2.2.1 c hc
    · exact clockTail_plain h.2.2.2 c hc
  | year k name d => exact absurd rfl hsc

theorem part_proper {sc : Scope} (hsc : sc ≠ .year) (w : TPart) (h : w.Of sc) : w.part.Proper := by
  cases w with
  | whole => trivial
  | starting a => exact (timeText_arg h.1 (h.2 ▸ hsc)).1
  | between a b => exact ⟨(timeText_arg h.1.1 (h.1.2 ▸ hsc)).1, timeText_arg h.2.1 (h.2.2 ▸ hsc)⟩
  | after a => exact (timeText_arg h.1 (h.2 ▸ hsc)).1
  | before b => exact (timeText_arg h.1 (h.2 ▸ hsc)).1
  | on a => exact (timeText_arg h.1 (h.2 ▸ hsc)).1

theorem part_read (lib : TextLib) {sc : Scope} (w : TPart) (h : w.Of sc) :
    ∀ x ∈ w.part.times, readTime lib sc x = .ok (valOf lib sc x) := by
  have key : ∀ a : TimeText, a.Proper ∧ a.scope = sc → readTime lib sc a.text = .ok (valOf lib sc a.text) := by
    rintro a ⟨hp, rfl⟩
    exact (val_first lib hp).1
  intro x hx
  cases w with
  | whole => cases hx
  | between a b =>
    simp only [TPart.part, Part.times, List.mem_cons, List.not_mem_nil, or_false] at hx
    rcases hx with rfl | rfl
    · exact key a h.1
    · exact key b h.2
  | starting a | after a | before a | on a =>
    simp only [TPart.part, Part.times, List.mem_cons, List.not_mem_nil, or_false] at hx
    subst hx
    exact key a h

/-- C64 with C60: "daily between 10:00 and 12:00", "weekly on Monday", "hourly starting 15:00" etc. are read as the condition
that the task may run in the part of the cycle from the first to the second of the named points. -/
theorem C64_exec (lib : TextLib) {sc : Scope} (hsc : sc ≠ .year) (w : TPart) (h : w.Of sc) :
    (parseCondItem (readTime lib) (Phrase.exec sc w.part).text).map resolve =
      .ok (.leaf (.executable ⟨sc, (w.span sc).1, (w.span sc).2⟩)) := by
  rw [C60_phrase_partial (val := valOf lib) (.exec sc w.part) (part_proper hsc w h) hsc trivial ?_]
  · simp only [Phrase.meaning, part_meaning lib hsc w h, Except.map]
  · intro x hx
    simp only [Phrase.times, List.mem_map] at hx
    obtain ⟨t, ht, rfl⟩ := hx
    exact part_read lib w h t ht

/-- C64 with C60: "time of day between 10:00 and 12:00" etc. -/
theorem C64_timeOf (lib : TextLib) {sc : Scope} (w : TPart) (h : w.Of sc) (hin : (Phrase.timeOf sc w.part).InSyntax) :
    (parseCondItem (readTime lib) (Phrase.timeOf sc w.part).text).map resolve =
      .ok (.leaf (.isPeriod ⟨sc, (w.span sc).1, (w.span sc).2⟩)) := by
  have hsc : sc ≠ .year := hin.2.1
  rw [C60_phrase_partial (val := valOf lib) (.timeOf sc w.part) (part_proper hsc w h) hin trivial ?_]
  · simp only [Phrase.meaning, part_meaning lib hsc w h, Except.map]
  · intro x hx
    simp only [Phrase.times, List.mem_map] at hx
    obtain ⟨t, ht, rfl⟩ := hx
    exact part_read lib w h t ht

theorem starting_sound (lib : TextLib) {sc : Scope} (task : Option Txt) (v : Verb) (w : TPart) (h : w.Of sc) (hsc : sc ≠ .year)
    (hs : ∀ a, w = .starting a → sc ≠ .week ∧ sc ≠ .month) : SoundPhrase (valOf lib) (.hasIn task v sc w.part) := by
  cases w with
  | starting a =>
    obtain ⟨hp, rfl⟩ := h
    obtain ⟨h1, h2⟩ := hs a rfl
    have hr := (val_first lib hp).1
    simp only [TPart.part, SoundPhrase, Clock]
    cases a with
    | minute s =>
      refine (?_ : ∃ n, valOf lib (TimeText.minute s).scope (TimeText.minute s).text = .clock n)
      generalize valOf lib (TimeText.minute s).scope (TimeText.minute s).text = x at hr
      simp only [TimeText.scope, readTime] at hr
      split at hr <;> cases hr
      exact ⟨_, rfl⟩
    | hour m s =>
      refine (?_ : ∃ n, valOf lib (TimeText.hour m s).scope (TimeText.hour m s).text = .clock n)
      generalize valOf lib (TimeText.hour m s).scope (TimeText.hour m s).text = x at hr
      simp only [TimeText.scope, readTime] at hr
      split at hr <;> cases hr
      exact ⟨_, rfl⟩
    | day c =>
      refine (?_ : ∃ n, valOf lib (TimeText.day c).scope (TimeText.day c).text = .clock n)
      generalize valOf lib (TimeText.day c).scope (TimeText.day c).text = x at hr
      simp only [TimeText.scope, readTime] at hr
      split at hr <;> cases hr
      exact ⟨_, rfl⟩
    | week k name c => exact absurd rfl h1
    | month d => exact absurd rfl h2
    | year k name d => exact absurd rfl hsc
  | _ => trivial

/-- C64 with C60: "task 'a' has succeeded today before 10:00" etc.  What is missing: "has … starting" with a weekday or day of
the month, as in `C60_starting_violated`. -/
theorem C64_hasIn_partial (lib : TextLib) {sc : Scope} (task : Option Txt) (ht : WhoProper task) (v : Verb) (w : TPart) (h : w.Of sc)
    (hin : sc ≠ .second ∧ sc ≠ .year) (hs : ∀ a, w = .starting a → sc ≠ .week ∧ sc ≠ .month) :
    (parseCondItem (readTime lib) (Phrase.hasIn task v sc w.part).text).map resolve =
      .ok (.leaf (.status v task (some (.anchored ⟨sc, (w.span sc).1, (w.span sc).2⟩)) [])) := by
  have hsc : sc ≠ .year := hin.2
  rw [C60_phrase_partial (val := valOf lib) (.hasIn task v sc w.part) ⟨ht, part_proper hsc w h⟩ hin ?_ ?_]
  · simp only [Phrase.meaning, part_meaning lib hsc w h, Except.map]
  · exact starting_sound lib task v w h hsc hs
  · intro x hx
    simp only [Phrase.times, List.mem_map] at hx
    obtain ⟨t, ht, rfl⟩ := hx
    exact part_read lib w h t ht

/-- `daily between 10:00 and 12:00`, `weekly on Monday`, `task 'fetch' has succeeded this month before 5th`. -/
example : (TPart.between (.day ⟨10, 0, none⟩) (.day ⟨12, 0, none⟩)).Of .day ∧
    (Phrase.exec .day (TPart.between (.day ⟨10, 0, none⟩) (.day ⟨12, 0, none⟩)).part).text = c!"daily between 10:00 and 12:00" ∧
    (TPart.between (.day ⟨10, 0, none⟩) (.day ⟨12, 0, none⟩)).span .day = (10 * HOUR, 12 * HOUR) :=
  ⟨⟨⟨⟨by decide, by decide, by simp⟩, rfl⟩, ⟨by decide, by decide, by simp⟩, rfl⟩, by decide, by decide⟩

example : (TPart.on (.week 0 c!"Monday" none)).Of .week ∧
    (Phrase.timeOf .week (TPart.on (.week 0 c!"Monday" none)).part).InSyntax ∧
    (Phrase.timeOf .week (TPart.on (.week 0 c!"Monday" none)).part).text = c!"time of week on Monday" ∧
    (TPart.on (.week 0 c!"Monday" none)).span .week = (0, DAY) :=
  ⟨⟨⟨⟨c!"monday", rfl, .inl (by decide)⟩, by simp⟩, rfl⟩, by simp [Phrase.InSyntax, TPart.part], by decide, by decide⟩

example : (TPart.before (.month ⟨5, c!"th", none⟩)).Of .month ∧ WhoProper (some c!"fetch") ∧
    (Phrase.hasIn (some c!"fetch") .succeeded .month (TPart.before (.month ⟨5, c!"th", none⟩)).part).text =
      c!"task 'fetch' has succeeded this month before 5th" ∧
    (TPart.before (.month ⟨5, c!"th", none⟩)).span .month = (0, 5 * DAY) :=
  ⟨⟨⟨by decide, by decide, by decide, by simp⟩, rfl⟩, ⟨by decide, by decide, by decide⟩, by decide, by decide⟩

/-! ### where it fails -/

/-- Violated: a month as the end of a part of the year does not include its last microsecond (of the longest such month). -/
theorem C64_year_month_violated (lib : TextLib) (k : Nat) (name : Txt) (h : NameOf monthLongNames k name) :
    ∃ v, readTime lib .year (TimeText.year k name none).text = .ok v ∧
      anchorVal .year v .stop = .ok ((TimeText.year k name none).last - 1) := by
  have hk : k < 12 := nameOf_lt h
  refine ⟨_, yearText_eq lib h (by simp), ?_⟩
  simp only [anchorVal, Option.map, TimeText.last]
  rw [if_pos (by omega)]
  have : ∀ k : Nat, k < 12 → monthStart? ((k : Int) + 1) = some (Cal.daysBeforeMonth 2024 ((k : Int) + 2) * 86400000000) := by decide
  rw [this k hk]

/-- Violated: a day as the end of a part of the year is not included at all: "Jan 5th" as an end is the beginning of the day,
while "5th" as an end of a part of the month is its end. -/
theorem C64_year_day_violated (lib : TextLib) (k : Nat) (name : Txt) (n : Nat) (o : Txt)
    (h : (TimeText.year k name (some ⟨n, o, none⟩)).Proper) :
    ∃ v, readTime lib .year (TimeText.year k name (some ⟨n, o, none⟩)).text = .ok v ∧
      anchorVal .year v .stop = .ok ((TimeText.year k name (some ⟨n, o, none⟩)).last - DAY) := by
  have hk : k < 12 := nameOf_lt h.1
  refine ⟨_, yearText_eq lib h.1 (fun d' hd' => (h.2 d' hd').1), ?_⟩
  have hm := monthStart_eq ((k : Int) + 1) (by omega)
  simp only [Int.add_sub_cancel] at hm
  simp only [anchorVal, Option.map, TimeText.last]
  rw [if_pos (by omega), hm]
  simp only [Option.getD, axisStart, TimeText.clockOf, Except.ok.injEq, DAY]
  omega

example : (TimeText.year 0 c!"Jan" (some ⟨5, c!"th", none⟩)).Proper ∧
    (TimeText.year 0 c!"Jan" (some ⟨5, c!"th", none⟩)).text = c!"Jan 5th" :=
  ⟨⟨⟨c!"january", rfl, .inr (by decide)⟩, by
    intro d hd; cases hd; exact ⟨⟨by decide, by decide, by decide, by simp⟩, by decide⟩⟩, by decide⟩

theorem lookup_only {names : List (List Char)} {m : List (List Char × Int)} {s : List Char} {k : Int}
    (hm : ∀ kv ∈ m, ∃ n ∈ names.zipIdx, kv.2 = (n.2 : Int) ∧ (kv.1 = n.1 ∨ kv.1 = n.1.take 3))
    (h : lookupName m (s.map lowerChar) = some k) : ∃ i : Nat, k = (i : Int) ∧ NameOf names i s := by
  obtain ⟨kv, h1, h2⟩ := Option.map_eq_some_iff.1 h
  have h3 := List.find?_some h1
  obtain ⟨⟨n, i⟩, h4, h5, h6⟩ := hm kv (List.mem_of_find?_eq_some h1)
  simp only [decide_eq_true_eq] at h3
  refine ⟨i, by rw [← h2, h5], n, ?_, ?_⟩
  · exact List.mem_zipIdx_iff_getElem?.1 h4
  · rcases h6 with h6 | h6
    · exact .inl (by rw [← h3, h6])
    · exact .inr (by rw [← h3, h6])

/-- The first word of a text: the first run of letters. -/
theorem wordAndRest_split {s w r : List Char} (h : wordAndRest s = some (w, r)) :
    ∃ pre post, s = pre ++ w ++ post ∧ (∀ c ∈ pre, isLetter c = false) ∧ (∀ c ∈ w, isLetter c = true) ∧ w ≠ [] ∧
      (∀ c ∈ post.head?, isLetter c = false) := by
  unfold wordAndRest at h
  simp only at h
  split at h
  · cases h
  · rename_i hne
    cases h
    refine ⟨s.takeWhile (fun c => !isLetter c), (s.dropWhile (fun c => !isLetter c)).dropWhile isLetter, ?_, ?_, ?_, ?_, ?_⟩
    · rw [List.append_assoc, List.takeWhile_append_dropWhile, List.takeWhile_append_dropWhile]
    · intro c hc
      simpa using List.all_eq_true.1 (List.all_takeWhile (p := fun c => !isLetter c) (l := s)) c hc
    · intro c hc
      exact List.all_eq_true.1 List.all_takeWhile c hc
    · intro h0
      cases hd : s.dropWhile (fun c => !isLetter c) with
      | nil => exact hne hd
      | cons c l =>
        have := List.head?_dropWhile_not (fun c => !isLetter c) s
        rw [hd] at this h0
        simp only [List.head?_cons] at this
        rw [List.takeWhile_cons, if_pos (by simpa using this)] at h0
        cases h0
    · intro c hc
      have := List.head?_dropWhile_not isLetter (s.dropWhile (fun c => !isLetter c))
      rw [Option.mem_def.1 hc] at this
      simpa using this

/-- C64: a text is read as a time of the week only if its first word is the name of the day it is read as, written out
or with three letters, in small or capital letters. -/
theorem C64_week_only (lib : TextLib) (s : List Char) (v : AVal) (h : readTime lib .week s = .ok v) :
    ∃ (pre w post : List Char) (i : Nat) (off : Option Int), s = pre ++ w ++ post ∧ (∀ c ∈ pre, isLetter c = false) ∧
      (∀ c ∈ post.head?, isLetter c = false) ∧ NameOf weekdayNames i w ∧ v = .named (i : Int) off := by
  simp only [readTime, weekText] at h
  split at h
  · cases h
  · rename_i w time hw
    split at h
    · cases h
    · rename_i k hk
      obtain ⟨i, rfl, hi⟩ := lookup_only (names := weekdayNames) (by decide +kernel) hk
      obtain ⟨pre, post, h1, h2, _, _, h3⟩ := wordAndRest_split hw
      split at h
      · cases h
        exact ⟨pre, w, post, i, none, h1, h2, h3, hi, rfl⟩
      · split at h
        · rename_i us _
          cases h
          exact ⟨pre, w, post, i, some us, h1, h2, h3, hi, rfl⟩
        · cases h

/-- C64: the same for times of the year and the names of the months. -/
theorem C64_year_only (lib : TextLib) (s : List Char) (v : AVal) (h : readTime lib .year s = .ok v) :
    ∃ (pre w post : List Char) (i : Nat) (off : Option Int), s = pre ++ w ++ post ∧ (∀ c ∈ pre, isLetter c = false) ∧
      (∀ c ∈ post.head?, isLetter c = false) ∧ NameOf monthLongNames i w ∧ v = .named (i : Int) off := by
  simp only [readTime, yearText] at h
  split at h
  · cases h
  · rename_i w rest hw
    split at h
    · cases h
    · rename_i k hk
      obtain ⟨i, rfl, hi⟩ := lookup_only (names := monthLongNames) (by decide +kernel) hk
      obtain ⟨pre, post, h1, h2, _, _, h3⟩ := wordAndRest_split hw
      split at h
      · cases h
        exact ⟨pre, w, post, i, none, h1, h2, h3, hi, rfl⟩
      · split at h
        · cases h
          exact ⟨pre, w, post, i, _, h1, h2, h3, hi, rfl⟩
        · cases h
        · cases h

example (lib : TextLib) : readTime lib .week c!"Wed" = .ok (.named 2 none) ∧ readTime lib .week c!"Wednes" = .error .value :=
  ⟨rfl, rfl⟩

/-- C64: quarters of an hour are those from 0 to 4, written with or without a blank; others are refused. -/
theorem C64_quarters (n : Nat) (hn : n < 10) (gap : List Char) (hg : gap = [] ∨ gap = [' ']) (word : List Char)
    (hw : word = c!"quarter" ∨ word = c!"q" ∨ word = c!"Quarter") :
    hourText4 (showNat n ++ gap ++ word) = if n ≤ 4 then .ok ((HOUR + 1) * n - 4) else .error .value := by
  have key : ∀ n < 10, ∀ g ∈ [[], [' ']], ∀ w ∈ [c!"quarter", c!"q", c!"Quarter"],
      hourText4 (showNat n ++ g ++ w) = if n ≤ 4 then .ok ((HOUR + 1) * n - 4) else .error .value := by decide +kernel
  exact key n hn gap (by simpa using hg) word (by simpa using hw)

/-- Violated: "1 quarter" to "3 quarter" of an hour are not 15, 30 and 45 minutes but a fraction of a microsecond before
(the values are in quarters of a microsecond), and "0 quarter" is before the hour. -/
theorem C64_quarter_violated : hourText4 c!"1 quarter" = .ok (4 * (15 * MIN) - 3) ∧ hourText4 c!"2 quarter" = .ok (4 * (30 * MIN) - 2) ∧
    hourText4 c!"3 quarter" = .ok (4 * (45 * MIN) - 1) ∧ hourText4 c!"4 quarter" = .ok (4 * HOUR) ∧
    hourText4 c!"0 quarter" = .ok (-4) := by decide +kernel

/-- Violated: a text that does not name a time of the cycle is not refused: characters around the first match are ignored,
seconds go up to 99 and days of the month beyond its end. -/
theorem C64_junk_violated (lib : TextLib) :
    readTime lib .minute c!"10:30" = .ok (.clock (10 * SEC)) ∧
    readTime lib .hour c!"1:30:45" = .ok (.clock (30 * MIN + 45 * SEC)) ∧
    readTime lib .hour c!"10:75" = .ok (.clock (11 * MIN + 15 * SEC)) ∧
    readTime lib .week c!"2022-01-01 Mon" = .ok (.named 0 none) ∧
    (readTime lib .year c!"Feb 30th" = .ok (.named 1 (some (29 * DAY))) ∧
      anchorVal .year (.named 1 (some (29 * DAY))) .start = anchorVal .year (.named 2 none) .start) := by
  refine ⟨?_, ?_, ?_, ?_, ?_, ?_⟩
  · rfl
  · rfl
  · rfl
  · have : wordAndRest c!"2022-01-01 Mon" = some (c!"Mon", []) := by decide +kernel
    simp only [readTime, weekText, this]
    rfl
  · have : wordAndRest c!"Feb 30th" = some (c!"Feb", c!"30th") := by decide +kernel
    simp only [readTime, yearText, this]
    rfl
  · decide +kernel

/-- Violated: refused texts do not raise `ValueError`: seconds written with one digit raise `TypeError`, texts without a
letter or digit `AttributeError`; so does "12" as a month, which the comment of `TimeOfYear.anchor_str` allows
(rocketry/time/interval.py:349); and an unknown month raises `KeyError`. -/
theorem C64_refused_violated (lib : TextLib) :
    readTime lib .minute c!"5" = .error .type ∧ readTime lib .week c!"1" = .error .attribute ∧
    readTime lib .month c!"first" = .error .attribute ∧ readTime lib .year c!"12" = .error .attribute ∧
    readTime lib .year c!"Foo" = .error .key := by
  refine ⟨?_, ?_, ?_, ?_, ?_⟩ <;> rfl

end Rocketry.Props
