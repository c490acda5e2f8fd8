import Verif.Spec.CronSpec
import Verif.Props.YearProps
import Verif.Props.PeriodProps

/-!
# Lemmas about cron periods
-/

namespace Rocketry.Props
open Rocketry Spec

/-- The classes used by cron. -/
def CronScope (sc : Scope) : Prop := sc = .hour ∨ sc = .day ∨ sc = .week ∨ sc = .month ∨ sc = .year

/-- Bounds on whole minutes inside the cycle, not the empty arc. -/
def Good (a : Anchored) : Prop :=
  0 ≤ a.start ∧ 0 ≤ a.stop ∧
  (a.scope ≠ .year → a.start % MIN = 0 ∧ a.stop % MIN = 0 ∧ a.start < a.scope.max ∧ a.stop ≤ a.scope.max ∧
    a.scope ≠ .second) ∧
  (a.scope = .year → a.start % MIN = 0 ∧ (a.stop + 1) % MIN = 0 ∧ a.stop < 366 * DAY)

/-- The object `cls.at(i)`. -/
def atA (sc : Scope) (i : Int) : Anchored :=
  match sc with
  | .year => ⟨.year, axisStart i, axisStart i + longestMonth i * DAY - 1⟩
  | sc => ⟨sc, (i - (unitRange sc).1) * sc.unit,
      (if i = (unitRange sc).2 then 0 else i - (unitRange sc).1 + 1) * sc.unit⟩

/-- The object `cls(i, j)`. -/
def rangeA (sc : Scope) (i j : Int) : Anchored :=
  match sc with
  | .year => ⟨.year, axisStart i, axisStart j + longestMonth j * DAY - 1⟩
  | sc => ⟨sc, (i - (unitRange sc).1) * sc.unit, (j - (unitRange sc).1 + 1) * sc.unit⟩

abbrev InRange (sc : Scope) (i : Int) : Prop := (unitRange sc).1 ≤ i ∧ i ≤ (unitRange sc).2

/-- The instants at which a yearly period is one microsecond short. -/
abbrev YearOk (sc : Scope) (t : Int) : Prop := sc = .year → ¬ IsLastMicro (month t) t

theorem unitNumber_year (t : Int) : unitNumber .year t = month t := rfl

theorem atA_ok (sc : Scope) (i : Int) (h : InRange sc i) : Anchored.at sc (.int i) = .ok (atA sc i) := by
  by_cases hy : sc = .year
  · subst hy; exact year_at i h
  · have := at_units sc hy i h
    rw [this]; cases sc <;> first | rfl | contradiction

theorem atA_contains (sc : Scope) (i : Int) (h : InRange sc i) (t : Int) (ht : YearOk sc t) :
    (atA sc i).contains t = true ↔ unitNumber sc t = i := by
  by_cases hy : sc = .year
  · subst hy
    obtain ⟨p, h1, h2⟩ := C08_at_partial i h
    rw [year_at i h] at h1
    have hp : atA .year i = p := Except.ok.inj h1
    rw [hp, h2 t, unitNumber_year]
    have := ht rfl
    constructor
    · exact fun h => h.1
    · rintro rfl; exact ⟨rfl, this⟩
  · have := at_units_contains sc hy i h t
    rw [← this]; cases sc <;> first | rfl | contradiction

theorem ite_bound {i k m x : Int} (h : (if i = m then 0 else k) = x) : (i = m ∧ x = 0) ∨ (i ≠ m ∧ x = k) := by
  by_cases hi : i = m
  · rw [if_pos hi] at h; exact Or.inl ⟨hi, h.symm⟩
  · rw [if_neg hi] at h; exact Or.inr ⟨hi, h.symm⟩

theorem axisStart_minute (i : Int) (h : InRange .year i) :
    axisStart i % MIN = 0 ∧ axisStart i + longestMonth i * DAY ≤ 366 * DAY := by
  refine ⟨?_, (axis_bounds i h).2.1⟩
  unfold axisStart
  simp only [DAY, MIN]
  omega

theorem atA_good (sc : Scope) (hsc : CronScope sc) (i : Int) (h : InRange sc i) : Good (atA sc i) := by
  unfold Good
  rcases hsc with rfl | rfl | rfl | rfl | rfl
  · simp only [atA, InRange, unitRange, Scope.unit, Scope.max, toMicroseconds, MIN] at *
    generalize hx : (if i = 59 then (0 : Int) else i - 0 + 1) = x
    have hx' := ite_bound hx
    refine ⟨by omega, by omega, fun _ => ⟨by omega, by omega, by omega, by omega, by simp⟩, by simp⟩
  · simp only [atA, InRange, unitRange, Scope.unit, Scope.max, toMicroseconds, MIN] at *
    generalize hx : (if i = 23 then (0 : Int) else i - 0 + 1) = x
    have hx' := ite_bound hx
    refine ⟨by omega, by omega, fun _ => ⟨by omega, by omega, by omega, by omega, by simp⟩, by simp⟩
  · simp only [atA, InRange, unitRange, Scope.unit, Scope.max, toMicroseconds, MIN] at *
    generalize hx : (if i = 7 then (0 : Int) else i - 1 + 1) = x
    have hx' := ite_bound hx
    refine ⟨by omega, by omega, fun _ => ⟨by omega, by omega, by omega, by omega, by simp⟩, by simp⟩
  · simp only [atA, InRange, unitRange, Scope.unit, Scope.max, toMicroseconds, MIN] at *
    generalize hx : (if i = 31 then (0 : Int) else i - 1 + 1) = x
    have hx' := ite_bound hx
    refine ⟨by omega, by omega, fun _ => ⟨by omega, by omega, by omega, by omega, by simp⟩, by simp⟩
  · have := axis_bounds i h
    have := axisStart_minute i h
    simp only [atA, DAY, MIN] at *
    refine ⟨by omega, by omega, fun h => absurd rfl h, fun _ => ⟨by omega, by omega, by omega⟩⟩

theorem rangeA_ok (sc : Scope) (i j : Int) (hi : InRange sc i) (hj : InRange sc j) :
    Anchored.init sc (some (.int i)) (some (.int j)) = .ok (rangeA sc i j) := by
  by_cases hy : sc = .year
  · subst hy; exact (year_init i j hi hj).1
  · rw [init_units sc hy i j hi hj]; cases sc <;> first | rfl | contradiction

theorem rangeA_contains (sc : Scope) (i j : Int) (hi : InRange sc i) (hj : InRange sc j) (t : Int)
    (ht : YearOk sc t) : (rangeA sc i j).contains t = true ↔ InUnits i j (unitNumber sc t) := by
  by_cases hy : sc = .year
  · subst hy
    obtain ⟨p, h1, -, h2⟩ := C08_contains_partial i j hi hj
    rw [(year_init i j hi hj).1] at h1
    have hp : rangeA .year i j = p := Except.ok.inj h1
    rw [hp, h2 t, unitNumber_year]
    have := ht rfl
    constructor
    · exact fun h => h.1
    · intro h
      refine ⟨h, ?_⟩
      intro hl
      apply this
      have := hl.1
      rw [this]; exact hl
  · have := init_units_contains sc hy i j hi hj t
    rw [← this]; cases sc <;> first | rfl | contradiction

theorem rangeA_good (sc : Scope) (hsc : CronScope sc) (i j : Int) (hi : InRange sc i) (hj : InRange sc j) :
    Good (rangeA sc i j) := by
  unfold Good
  rcases hsc with rfl | rfl | rfl | rfl | rfl
  · simp only [rangeA, InRange, unitRange, Scope.unit, Scope.max, toMicroseconds, MIN] at *
    refine ⟨by omega, by omega, fun _ => ⟨by omega, by omega, by omega, by omega, by simp⟩, by simp⟩
  · simp only [rangeA, InRange, unitRange, Scope.unit, Scope.max, toMicroseconds, MIN] at *
    refine ⟨by omega, by omega, fun _ => ⟨by omega, by omega, by omega, by omega, by simp⟩, by simp⟩
  · simp only [rangeA, InRange, unitRange, Scope.unit, Scope.max, toMicroseconds, MIN] at *
    refine ⟨by omega, by omega, fun _ => ⟨by omega, by omega, by omega, by omega, by simp⟩, by simp⟩
  · simp only [rangeA, InRange, unitRange, Scope.unit, Scope.max, toMicroseconds, MIN] at *
    refine ⟨by omega, by omega, fun _ => ⟨by omega, by omega, by omega, by omega, by simp⟩, by simp⟩
  · have := axis_bounds i hi
    have := axis_bounds j hj
    have := axisStart_minute i hi
    have := axisStart_minute j hj
    simp only [rangeA, DAY, MIN] at *
    refine ⟨by omega, by omega, fun h => absurd rfl h, fun _ => ⟨by omega, by omega, by omega⟩⟩

theorem at_congr {sc : Scope} {v w : AVal} (h : anchorVal sc v .start = anchorVal sc w .start) :
    Anchored.at sc v = Anchored.at sc w := by
  simp only [Anchored.at, Anchored.init, setStart, h, Option.isNone, Bool.false_and, Bool.false_eq_true, if_false]

theorem init_congr {sc : Scope} {v w v' w' : AVal} (h : anchorVal sc v .start = anchorVal sc w .start)
    (h' : anchorVal sc v' .stop = anchorVal sc w' .stop) :
    Anchored.init sc (some v) (some v') = Anchored.init sc (some w) (some w') := by
  simp only [Anchored.init, setStart, setEnd, h, h', Option.isNone, Bool.false_and, Bool.false_eq_true, if_false]

/-- A name and its number anchor to the same point, on either side. -/
theorem named_int (sc : Scope) (hsc : sc = .week ∨ sc = .month ∨ sc = .year) (k : Int)
    (hk : InRange sc (k + (unitRange sc).1)) (side : Side) :
    anchorVal sc (.named k none) side = anchorVal sc (.int (k + (unitRange sc).1)) side := by
  rcases hsc with rfl | rfl | rfl
  · simp only [unitRange, InRange] at hk
    have h1 : anchorVal .week (.int (k + 1)) side = .ok (anchorIntBase .week (k + 1 - 1) side) := if_pos hk
    have h2 : anchorVal .week (.named k none) side = .ok (DAY * k + (if side = .stop then DAY else 0)) :=
      if_pos (by omega)
    rw [h2]; refine Eq.trans ?_ h1.symm
    cases side <;>
      simp only [anchorIntBase, Scope.unit, toMicroseconds, DAY, reduceCtorEq, if_true, if_false] <;>
      congr 1 <;> omega
  · simp only [unitRange, InRange] at hk
    have h1 : anchorVal .month (.int (k + 1)) side = .ok (anchorIntBase .month (k + 1 - 1) side) := if_pos hk
    have h2 : anchorVal .month (.named k none) side = .ok (DAY * k + (if side = .stop then DAY else 0)) := rfl
    rw [h2]; refine Eq.trans ?_ h1.symm
    cases side <;>
      simp only [anchorIntBase, Scope.unit, toMicroseconds, DAY, reduceCtorEq, if_true, if_false] <;>
      congr 1 <;> omega
  · simp only [unitRange, InRange] at hk
    have e : k + 1 - 1 = k := by omega
    cases side <;> simp only [anchorVal, anchorInt, unitRange, Option.getD_none, Int.add_zero, e] <;>
      rw [if_pos (by omega), if_pos (by omega)]

theorem clock_int (sc : Scope) (hsc : sc = .hour ∨ sc = .day) (k : Int) (hk : InRange sc k) :
    anchorVal sc (.clock (k * sc.unit)) .start = anchorVal sc (.int k) .start := by
  rcases hsc with rfl | rfl <;> simp only [unitRange, InRange] at hk <;>
    simp only [anchorVal, anchorInt, anchorIntBase] <;> rw [if_pos (by omega)]

/-- `cls.at(_unit_names[k])`. -/
theorem atPeriod_name (sc : Scope) (hsc : CronScope sc) (k : Int) (hk : InRange sc (k + (unitRange sc).1)) :
    atPeriod sc (unitName sc k) = .ok (.anchored (atA sc (k + (unitRange sc).1))) := by
  have h : Anchored.at sc (unitName sc k) = Anchored.at sc (.int (k + (unitRange sc).1)) := by
    apply at_congr
    rcases hsc with rfl | rfl | rfl | rfl | rfl
    · have := clock_int .hour (Or.inl rfl) k (by simpa [unitRange, InRange] using hk)
      simpa [unitName, unitRange] using this
    · have := clock_int .day (Or.inr rfl) k (by simpa [unitRange, InRange] using hk)
      simpa [unitName, unitRange] using this
    · exact named_int .week (Or.inl rfl) k hk .start
    · exact named_int .month (Or.inr (Or.inl rfl)) k hk .start
    · exact named_int .year (Or.inr (Or.inr rfl)) k hk .start
  unfold atPeriod
  rw [h, atA_ok sc _ hk]

/-- A value of the expression anchors like its number. -/
theorem cronVal_int (sc : Scope) (v : CVal) (hv : ValidVal sc v) (side : Side) :
    anchorVal sc (cronVal sc v) side = anchorVal sc (.int (cronNumber sc v)) side := by
  obtain ⟨h1, h2, h3⟩ := hv
  cases v with
  | num n =>
    have : cronConv sc n = cronNumber sc (.num n) := by
      cases sc <;> simp [cronConv, cronNumber]
    simp only [cronVal, this]
  | name k =>
    simp only [cronVal, cronNumber] at *
    have := named_int sc (by rcases h3 ⟨k, rfl⟩ with h | h <;> simp [h]) k ⟨by omega, by omega⟩ side
    rw [this, Int.add_comm]

theorem unitCount_range (sc : Scope) (hsc : CronScope sc) :
    unitCount sc = (unitRange sc).2 - (unitRange sc).1 + 1 := by
  rcases hsc with rfl | rfl | rfl | rfl | rfl <;> rfl

theorem anyMembers_anchored (as : List Anchored) : ∀ acc : List Period,
    Period.anyMembers acc (as.map .anchored) = acc ++ as.map .anchored := by
  induction as with
  | nil => intro acc; simp [Period.anyMembers]
  | cons a l ih => intro acc; simp [Period.anyMembers, ih]

/-- The set of clock periods consists of the given ones. -/
theorem setOf_anchored (as : List Anchored) : ∃ bs : List Anchored,
    Period.setOf (as.map .anchored) = bs.map .anchored ∧ ∀ a, a ∈ bs ↔ a ∈ as := by
  have h1 : ∀ p ∈ Period.setOf (as.map .anchored), ∃ a, p = .anchored a := by
    intro p hp
    obtain ⟨a, _, rfl⟩ := List.mem_map.1 (Period.mem_setOf hp)
    exact ⟨a, rfl⟩
  have h2 : ∀ l : List Period, (∀ p ∈ l, ∃ a, p = .anchored a) → ∃ bs : List Anchored, l = bs.map .anchored := by
    intro l
    induction l with
    | nil => intro _; exact ⟨[], rfl⟩
    | cons p l ih =>
      intro h
      obtain ⟨a, rfl⟩ := h p (by simp)
      obtain ⟨bs, rfl⟩ := ih (fun q hq => h q (by simp [hq]))
      exact ⟨a :: bs, rfl⟩
  obtain ⟨bs, hbs⟩ := h2 _ h1
  refine ⟨bs, hbs, fun a => ⟨fun ha => ?_, fun ha => ?_⟩⟩
  · have : Period.anchored a ∈ Period.setOf (as.map .anchored) := by
      rw [hbs]; exact List.mem_map.2 ⟨a, ha, rfl⟩
    obtain ⟨b, hb, he⟩ := List.mem_map.1 (Period.mem_setOf this)
    rw [← Period.anchored.inj he]; exact hb
  · obtain ⟨q, hq, hs⟩ := Period.setOf_covers (List.mem_map.2 ⟨a, ha, rfl⟩ : Period.anchored a ∈ as.map .anchored)
    rw [hbs] at hq
    obtain ⟨b, hb, rfl⟩ := List.mem_map.1 hq
    simp only [Period.same, decide_eq_true_eq] at hs
    rw [← hs]; exact hb

theorem mapE_at (sc : Scope) (hsc : CronScope sc) : ∀ ks : List Int,
    (∀ k ∈ ks, InRange sc (k + (unitRange sc).1)) →
    mapE (fun k => atPeriod sc (unitName sc k)) ks =
      .ok ((ks.map fun k => atA sc (k + (unitRange sc).1)).map .anchored)
  | [], _ => rfl
  | k :: l, h => by
    simp only [mapE, atPeriod_name sc hsc k (h k (by simp)), mapE_at sc hsc l (fun k hk => h k (by simp [hk])),
      List.map_cons]

/-- The shape of the periods cron fields are turned into: one clock period or a union of clock periods. -/
def CronLeaf (p : Period) : Prop :=
  (∃ a, p = .anchored a ∧ Good a) ∨ (∃ as : List Anchored, as ≠ [] ∧ p = .any (as.map .anchored) ∧ ∀ a ∈ as, Good a)

/-- The clock periods inside a leaf. -/
def Inside (a : Anchored) (p : Period) : Prop := p = .anchored a ∨ ∃ as, p = .any as ∧ .anchored a ∈ as

/-- A clock period whose `rollback`, inside the minute that starts at `m`, returns a half-open span: if the span
reaches the present, it goes back at least to `m`; it reaches the present if `m` is in the period. -/
def Tidy (a : Anchored) : Prop :=
  ∀ m n : Int, m % MIN = 0 → m < n → n < m + MIN → ∃ l r, a.rollback n = .ok ⟨l, r, .left⟩ ∧ l < r ∧ r ≤ n ∧
    (r = n → l ≤ m) ∧ (a.contains m = true → r = n)

theorem tidy_of_lastRun {a : Anchored} {In : Int → Prop} (hin : ∀ t, a.contains t = true ↔ In t)
    (hm : ∀ t u, t / MIN = u / MIN → (In t ↔ In u))
    (h : ∀ dt, ∃ l r, a.rollback dt = .ok ⟨l, r, if l = r then .both else .left⟩ ∧ LastRun In dt l r) : Tidy a := by
  intro m n h1 h2 h3
  obtain ⟨l, r, g1, g2⟩ := h n
  have hal : l % MIN = 0 := by
    refine Classical.byContradiction fun hne => g2.entry.2 ((hm (l - 1) l ?_).2 g2.entry.1)
    simp only [MIN] at *; omega
  have hlr : l ≠ r := by
    intro e
    have := (g2.degenerate e).1
    simp only [MIN] at *; omega
  have ho := g2.ordered
  refine ⟨l, r, by rw [g1, if_neg hlr], by omega, g2.le, ?_, ?_⟩
  · intro hr; simp only [MIN] at *; omega
  · intro hc
    refine g2.cut ((hm n m ?_).2 ((hin m).1 hc))
    simp only [MIN] at *; omega

theorem inArc_minute {sc : Scope} {L s e : Int} (hL : cycleLen sc = some L) (hsc : sc ≠ .second) (hs : s % MIN = 0)
    (he : e % MIN = 0) (t u : Int) (h : t / MIN = u / MIN) : InArc L s e t ↔ InArc L s e u := by
  unfold InArc
  cases sc <;> simp only [cycleLen, Option.some.injEq, reduceCtorEq] at hL
  · exact absurd rfl hsc
  all_goals subst hL; simp only [MIN] at *; omega

theorem good_tidy {a : Anchored} (ha : Good a) (hm : a.scope ≠ .month) (hy : a.scope ≠ .year) : Tidy a := by
  obtain ⟨L, hL⟩ : ∃ L, cycleLen a.scope = some L := by
    generalize hs : a.scope = sc at *
    cases sc <;> simp_all [cycleLen]
  obtain ⟨h1, h2, h3, -⟩ := ha
  have h3 := h3 hy
  rw [cycleLen_max hL] at h3
  have hb : Bounds a L := ⟨h1, by omega, h2, by omega⟩
  by_cases hf : a.isFull = true
  · intro m n g1 g2 g3
    obtain ⟨l, k1, k2⟩ := C04_rollback_full a L hL hb hf n
    have hle := k2.le
    have hoc := k2.occurs
    have hal : l % MIN = 0 := by
      have hst := h3.1
      have hse := h3.2.2.2.2
      generalize a.start = s at *
      generalize hs : a.scope = sc at *
      cases sc <;> simp only [cycleLen, Option.some.injEq, reduceCtorEq] at hL
      · exact absurd rfl hse
      all_goals subst hL; simp only [MIN] at *; omega
    refine ⟨l, n, k1, by omega, by omega, fun _ => ?_, fun _ => rfl⟩
    simp only [MIN] at *; omega
  · refine tidy_of_lastRun (C02_contains a L hL hb) (fun t u h => ?_)
      (fun dt => C04_rollback_partial a L hL hb (by simpa using hf) (by unfold Degenerate; omega) dt)
    exact inArc_minute hL h3.2.2.2.2 h3.1 h3.2.1 t u h

theorem inMonth_minute {s e : Int} (hs : s % MIN = 0) (he : e % MIN = 0) (t u : Int) (h : t / MIN = u / MIN) :
    InMonth s e t ↔ InMonth s e u := by
  have hd : dayOf t = dayOf u := by simp only [dayOf, DAY, MIN] at *; omega
  have hy : year t = year u := by simp only [year, hd]
  have hmo : month t = month u := by simp only [month, yday, hy, hd]
  have hb : ∃ d, datetime (year u) (month u) 1 = d * DAY :=
    ⟨Cal.dayNum (year u) (month u) 1, by simp only [datetime, toMicroseconds]; omega⟩
  obtain ⟨d, hb⟩ := hb
  unfold InMonth Between sinceMonthStart
  rw [hy, hmo, hb]
  simp only [DAY, MIN] at *
  split <;> omega

theorem prevStart_month (s e n : Int) (hs : 0 ≤ s) (hs' : s ≤ 28 * DAY) (ms : s % MIN = 0) :
    Anchored.prevStart ⟨.month, s, e⟩ n ≤ n ∧ Anchored.prevStart ⟨.month, s, e⟩ n % MIN = 0 := by
  have h1 := month_base n
  have h2 := anchorDt_month_nonneg n
  have h3 : ∃ k, scopeBack .month n = k * DAY ∧ 28 ≤ k := by
    refine ⟨_, Int.mul_comm _ _, (Cal.daysInMonth_range _ _).1⟩
  obtain ⟨k, h3, h4⟩ := h3
  unfold Anchored.prevStart
  simp only [h3]
  generalize anchorDt .month n = a at *
  generalize Cal.dayNum (year n) (month n) 1 = d at *
  simp only [DAY, MIN] at *
  split <;> omega

theorem tidy_month {s e : Int} (hs : 0 ≤ s) (hs' : s ≤ 28 * DAY) (he : 0 ≤ e) (he' : e ≤ 28 * DAY)
    (h0 : ¬ (s = 0 ∧ e = 28 * DAY)) (h1 : ¬ (s = 28 * DAY ∧ e = 0)) (ms : s % MIN = 0) (me : e % MIN = 0) :
    Tidy ⟨.month, s, e⟩ := by
  by_cases hse : s = e
  · intro m n g1 g2 g3
    have hp := prevStart_month s e n hs hs' ms
    have hf : Anchored.isFull ⟨.month, s, e⟩ = true := by simp [Anchored.isFull, hse]
    have hne : n ≠ Anchored.prevStart ⟨.month, s, e⟩ n := by
      intro h; rw [← h] at hp; simp only [MIN] at *; omega
    refine ⟨Anchored.prevStart ⟨.month, s, e⟩ n, n, ?_, by omega, by omega, fun _ => ?_, fun _ => rfl⟩
    · unfold Anchored.rollback
      simp only [hf, if_true]
      rw [if_neg hne]
      exact Interval.make_ok.2 ⟨hp.1, rfl⟩
    · simp only [MIN] at *; omega
  · exact tidy_of_lastRun (C07_contains s e) (inMonth_minute ms me)
      (fun dt => (C07_up_to_28th s e hs hs' he he' hse h0 h1 dt 0).2)

/-- A clock period that rolls correctly in both directions. -/
def SoundArc (a : Anchored) : Prop := Forward a ∧ Tidy a

/-- `p` selects the unit numbers `S`, for the cycle `sc`; if `E`, its clock periods roll correctly. -/
structure Selects (sc : Scope) (E : Prop) (p : Period) (S : Int → Prop) : Prop where
  leaf : CronLeaf p
  scope : ∀ a, Inside a p → a.scope = sc
  fwd : E → ∀ a, Inside a p → SoundArc a
  sem : ∀ t, YearOk sc t → (sem p t ↔ S (unitNumber sc t))

theorem inside_anchored {a b : Anchored} (h : Inside b (.anchored a)) : b = a := by
  rcases h with h | ⟨as, h, _⟩
  · simp only [Period.anchored.injEq] at h; exact h.symm
  · exact absurd h (by simp)

theorem inside_any {b : Anchored} {as : List Anchored} (h : Inside b (.any (as.map .anchored))) : b ∈ as := by
  rcases h with h | ⟨l, h, hl⟩
  · exact absurd h (by simp)
  · simp only [Period.any.injEq] at h
    subst h
    simpa using hl

theorem selects_anchored (sc : Scope) (E : Prop) (a : Anchored) (ha : Good a) (hs : a.scope = sc) (S : Int → Prop)
    (hE : E → SoundArc a)
    (h : ∀ t, YearOk sc t → (a.contains t = true ↔ S (unitNumber sc t))) : Selects sc E (.anchored a) S :=
  ⟨Or.inl ⟨a, rfl, ha⟩, fun b hb => by rw [inside_anchored hb]; exact hs,
    fun e b hb => by rw [inside_anchored hb]; exact hE e, fun t ht => by rw [sem]; exact h t ht⟩

/-- Bounds inside a fixed cycle are enough to roll forward correctly. -/
theorem good_forward {a : Anchored} (ha : Good a) (hm : a.scope ≠ .month) (hy : a.scope ≠ .year) : Forward a := by
  obtain ⟨L, hL⟩ : ∃ L, cycleLen a.scope = some L := by
    generalize hs : a.scope = sc at *
    cases sc <;> simp_all [cycleLen]
  obtain ⟨h1, h2, h3, -⟩ := ha
  have h3 := h3 hy
  rw [cycleLen_max hL] at h3
  refine forward_fixed hL ⟨h1, by omega, h2, by omega⟩ ?_
  unfold Degenerate
  omega

theorem good_sound {a : Anchored} (ha : Good a) (hm : a.scope ≠ .month) (hy : a.scope ≠ .year) : SoundArc a :=
  ⟨good_forward ha hm hy, good_tidy ha hm hy⟩

theorem sound_atA_month (i : Int) (h : InRange .month i) (h' : i ≤ 28) : SoundArc (atA .month i) := by
  simp only [InRange, unitRange] at h
  have : atA .month i = ⟨.month, (i - 1) * DAY, i * DAY⟩ := by
    simp only [atA, unitRange, Scope.unit, toMicroseconds, DAY]
    generalize hx : (if i = 31 then (0 : Int) else i - 1 + 1) = x
    have hx' := ite_bound hx
    congr 1 <;> omega
  rw [this]
  simp only [DAY]
  exact ⟨forward_month (by omega) (by simp only [DAY]; omega) (by omega) (by simp only [DAY]; omega)
    (by simp only [DAY]; omega) (by simp only [DAY]; omega),
    tidy_month (by omega) (by simp only [DAY]; omega) (by omega) (by simp only [DAY]; omega)
      (by simp only [DAY]; omega) (by simp only [DAY]; omega) (by simp only [MIN]; omega) (by simp only [MIN]; omega)⟩

theorem sound_rangeA_month (i j : Int) (hi : InRange .month i) (hj : InRange .month j) (hi' : i ≤ 28)
    (hj' : j ≤ 28) (h : ¬ (i = 1 ∧ j = 28)) : SoundArc (rangeA .month i j) := by
  simp only [InRange, unitRange] at hi hj
  have : rangeA .month i j = ⟨.month, (i - 1) * DAY, j * DAY⟩ := by
    simp only [rangeA, unitRange, Scope.unit, toMicroseconds, DAY]
    congr 1; omega
  rw [this]
  simp only [DAY]
  exact ⟨forward_month (by omega) (by simp only [DAY]; omega) (by omega) (by simp only [DAY]; omega)
    (by simp only [DAY]; omega) (by simp only [DAY]; omega),
    tidy_month (by omega) (by simp only [DAY]; omega) (by omega) (by simp only [DAY]; omega)
      (by simp only [DAY]; omega) (by simp only [DAY]; omega) (by simp only [MIN]; omega) (by simp only [MIN]; omega)⟩

theorem scope_atA (sc : Scope) (i : Int) : (atA sc i).scope = sc := by cases sc <;> rfl
theorem scope_rangeA (sc : Scope) (i j : Int) : (rangeA sc i j).scope = sc := by cases sc <;> rfl

theorem createRange_selects (sc : Scope) (hsc : CronScope sc) (start stop : Option Int) (n : Nat) (hn : 0 < n)
    (h0 : 0 ≤ start.getD 0) (h1 : start.getD 0 < unitCount sc) (h2 : start.getD 0 < stop.getD (unitCount sc)) :
    ∃ p, createRange sc start stop n = .ok p ∧ Selects sc (sc ≠ .month ∧ sc ≠ .year) p (fun v =>
      start.getD 0 ≤ v - (unitRange sc).1 ∧ v - (unitRange sc).1 < stop.getD (unitCount sc) ∧
      (v - (unitRange sc).1 - start.getD 0) % (n : Int) = 0) := by
  have hc := unitCount_range sc hsc
  generalize hlo : start.getD 0 = lo at *
  generalize hhi : stop.getD (unitCount sc) = hi at *
  have hslice : sliceIdx (unitCount sc) start stop n =
      .ok (((List.range (unitCount sc).toNat).map Int.ofNat).filter fun k =>
      decide (lo ≤ k) && decide (k < hi) && decide ((k - lo) % (n : Int) = 0)) := by
    unfold sliceIdx
    rw [if_neg (by omega)]
    simp only [hlo, hhi]
  generalize hks : (((List.range (unitCount sc).toNat).map Int.ofNat).filter fun k =>
      decide (lo ≤ k) && decide (k < hi) && decide ((k - lo) % (n : Int) = 0)) = ks at hslice
  have hmem : ∀ k, k ∈ ks ↔ 0 ≤ k ∧ k < unitCount sc ∧ lo ≤ k ∧ k < hi ∧ (k - lo) % (n : Int) = 0 := by
    intro k
    rw [← hks, List.mem_filter]
    simp only [List.mem_map, List.mem_range, Bool.and_eq_true, decide_eq_true_eq]
    constructor
    · rintro ⟨⟨m, hm, rfl⟩, ⟨h1, h2⟩, h3⟩
      simp only [Int.ofNat_eq_natCast] at *
      exact ⟨by omega, by omega, h1, h2, h3⟩
    · rintro ⟨h1, h2, h3, h4, h5⟩
      exact ⟨⟨k.toNat, by omega, by simp only [Int.ofNat_eq_natCast]; omega⟩, ⟨h3, h4⟩, h5⟩
  have hin : ∀ k ∈ ks, InRange sc (k + (unitRange sc).1) := by
    intro k hk
    have := (hmem k).1 hk
    exact ⟨by omega, by omega⟩
  have hmap := mapE_at sc hsc ks hin
  have hne : ks ≠ [] := by
    intro h
    have : lo ∈ ks := (hmem lo).2 ⟨by omega, by omega, by omega, by omega, by simp⟩
    rw [h] at this
    simp at this
  generalize has : (ks.map fun k => atA sc (k + (unitRange sc).1)) = as at hmap
  have hane : as ≠ [] := by rw [← has]; simpa using hne
  have hgood : ∀ a ∈ as, Good a := by
    intro a ha
    rw [← has, List.mem_map] at ha
    obtain ⟨k, hk, rfl⟩ := ha
    exact atA_good sc hsc _ (hin k hk)
  have hscope : ∀ a ∈ as, a.scope = sc := by
    intro a ha
    rw [← has, List.mem_map] at ha
    obtain ⟨k, hk, rfl⟩ := ha
    exact scope_atA _ _
  obtain ⟨bs, hbs, hmb⟩ := setOf_anchored as
  have hcr : createRange sc start stop n = .ok (.any (bs.map .anchored)) := by
    unfold createRange
    simp only [hslice, hmap, Period.mkAny, anyMembers_anchored, List.nil_append, hbs]
    rw [if_neg (by simpa using hane)]
  have hane' : bs ≠ [] := by
    obtain ⟨a, ha⟩ := List.exists_mem_of_ne_nil _ hane
    exact List.ne_nil_of_mem ((hmb a).2 ha)
  have hmk : ∀ v, (∃ k ∈ ks, atA sc (k + (unitRange sc).1) = v) ↔ v ∈ bs := by
    intro v
    rw [hmb, ← has, List.mem_map]
  replace hgood : ∀ a ∈ bs, Good a := fun a ha => hgood a ((hmb a).1 ha)
  replace hscope : ∀ a ∈ bs, a.scope = sc := fun a ha => hscope a ((hmb a).1 ha)
  refine ⟨.any (bs.map .anchored), hcr, Or.inr ⟨bs, hane', rfl, hgood⟩, fun b hb => hscope b (inside_any hb), ?_, ?_⟩
  · intro hE a ha
    have ha := inside_any ha
    exact good_sound (hgood a ha) (by rw [hscope a ha]; exact hE.1) (by rw [hscope a ha]; exact hE.2)
  · intro t ht
    have hr := unitNumber_range sc t
    rw [sem]
    constructor
    · rintro ⟨p, hp, hs⟩
      obtain ⟨a, ha, rfl⟩ := List.mem_map.1 hp
      obtain ⟨k, hk, rfl⟩ := (hmk a).2 ha
      simp only [sem] at hs
      rw [atA_contains sc _ (hin k hk) t ht] at hs
      have := (hmem k).1 hk
      rw [hs]
      rw [show k + (unitRange sc).1 - (unitRange sc).1 = k by omega]
      exact ⟨this.2.2.1, this.2.2.2.1, this.2.2.2.2⟩
    · rintro ⟨h1, h2, h3⟩
      have hk : unitNumber sc t - (unitRange sc).1 ∈ ks := (hmem _).2 ⟨by omega, by omega, h1, h2, h3⟩
      refine ⟨.anchored (atA sc (unitNumber sc t - (unitRange sc).1 + (unitRange sc).1)), ?_, ?_⟩
      · exact List.mem_map.2 ⟨_, (hmk _).1 ⟨_, hk, rfl⟩, rfl⟩
      · rw [sem, atA_contains sc _ (hin _ hk) t ht]
        omega

/-- Every valid item becomes a period that selects the numbers of the item. -/
theorem itemPeriod_selects (sc : Scope) (hsc : CronScope sc) (i : CItem) (hi : ValidItem sc i) (hs : i ≠ .star) :
    ∃ p, itemPeriod sc i = .ok (some p) ∧ Selects sc (EarlyItem sc i) p (itemSelects sc i) := by
  have hc := unitCount_range sc hsc
  have hlo : (unitRange sc).1 ≤ (unitRange sc).2 := by cases sc <;> decide
  cases i with
  | star => exact absurd rfl hs
  | starStep n =>
    obtain ⟨p, h1, h2⟩ := createRange_selects sc hsc none none n hi (by simp) (by simp; omega) (by simp; omega)
    refine ⟨p, by simp only [itemPeriod, h1], h2.leaf, h2.scope, fun hE => h2.fwd ?_, fun t ht => ?_⟩
    · constructor <;> rintro rfl <;> simp [EarlyItem] at hE
    rw [h2.sem t ht]
    have hr := unitNumber_range sc t
    simp only [Option.getD_none, Int.sub_zero, itemSelects]
    constructor
    · exact fun h => h.2.2
    · exact fun h => ⟨by omega, by omega, h⟩
  | «at» v st =>
    cases st with
    | some n => exact absurd hi (by simp [ValidItem])
    | none =>
      simp only [ValidItem] at hi
      have hr : InRange sc (cronNumber sc v) := ⟨hi.1, hi.2.1⟩
      have h : Anchored.at sc (cronVal sc v) = .ok (atA sc (cronNumber sc v)) := by
        rw [at_congr (cronVal_int sc v hi .start), atA_ok sc _ hr]
      refine ⟨.anchored (atA sc (cronNumber sc v)), by simp only [itemPeriod, atPeriod, h], ?_⟩
      refine selects_anchored sc _ _ (atA_good sc hsc _ hr) (scope_atA _ _) _ (fun hE => ?_) (fun t ht => by
        rw [atA_contains sc _ hr t ht]; rfl)
      by_cases hm : sc = .month
      · subst hm; exact sound_atA_month _ hr hE
      · refine good_sound (atA_good sc hsc _ hr) (by rw [scope_atA]; exact hm) ?_
        rw [scope_atA]; rintro rfl; exact hE
  | range a b st =>
    cases st with
    | none =>
      simp only [ValidItem] at hi
      have ha : InRange sc (cronNumber sc a) := ⟨hi.1.1, hi.1.2.1⟩
      have hb : InRange sc (cronNumber sc b) := ⟨hi.2.1, hi.2.2.1⟩
      have h : Anchored.init sc (some (cronVal sc a)) (some (cronVal sc b)) =
          .ok (rangeA sc (cronNumber sc a) (cronNumber sc b)) := by
        rw [init_congr (cronVal_int sc a hi.1 .start) (cronVal_int sc b hi.2 .stop), rangeA_ok sc _ _ ha hb]
      refine ⟨.anchored (rangeA sc (cronNumber sc a) (cronNumber sc b)), by simp only [itemPeriod, h], ?_⟩
      refine selects_anchored sc _ _ (rangeA_good sc hsc _ _ ha hb) (scope_rangeA _ _ _) _ (fun hE => ?_)
        (fun t ht => by rw [rangeA_contains sc _ _ ha hb t ht]; rfl)
      by_cases hm : sc = .month
      · subst hm; exact sound_rangeA_month _ _ ha hb hE.1 hE.2.1 hE.2.2
      · refine good_sound (rangeA_good sc hsc _ _ ha hb) (by rw [scope_rangeA]; exact hm) ?_
        rw [scope_rangeA]; rintro rfl; exact hE
    | some n =>
      simp only [ValidItem] at hi
      obtain ⟨hn, ha, hb, hab, hkind⟩ := hi
      obtain ⟨p0, h0, -⟩ := createRange_selects sc hsc none none n hn (by simp) (by simp; omega) (by simp; omega)
      have hidx : cronIdx sc a = cronNumber sc a - (unitRange sc).1 ∧
          cronIdx sc b = cronNumber sc b - (unitRange sc).1 := by
        rcases hkind with rfl | rfl | ⟨⟨k, rfl⟩, ⟨l, rfl⟩⟩
        · cases a <;> cases b <;> simp_all [cronIdx, cronNumber, cronConv, unitRange, ValidVal]
        · cases a <;> cases b <;> simp_all [cronIdx, cronNumber, cronConv, unitRange, ValidVal]
        · simp only [cronIdx, cronNumber]; omega
      have hra := ha.1
      have hra' := ha.2.1
      have hrb := hb.1
      have hrb' := hb.2.1
      obtain ⟨p, h1, h2⟩ := createRange_selects sc hsc (some (cronIdx sc a)) (some (cronIdx sc b + 1)) n hn
        (by simp; omega) (by simp; omega) (by simp; omega)
      refine ⟨p, by simp only [itemPeriod, h0, h1], h2.leaf, h2.scope, fun hE => h2.fwd ?_, fun t ht => ?_⟩
      · constructor <;> rintro rfl <;> simp [EarlyItem] at hE
      rw [h2.sem t ht]
      have hr := unitNumber_range sc t
      simp only [Option.getD_some, itemSelects, hidx.1, hidx.2]
      rw [show unitNumber sc t - (unitRange sc).1 - (cronNumber sc a - (unitRange sc).1) =
        unitNumber sc t - cronNumber sc a by omega]
      constructor
      · rintro ⟨h1, h2, h3⟩; exact ⟨by omega, by omega, h3⟩
      · rintro ⟨h1, h2, h3⟩; exact ⟨by omega, by omega, h3⟩

/-- The clock periods of a leaf. -/
theorem leaf_shape {x : Period} (h : CronLeaf x) : ∃ as : List Anchored, as ≠ [] ∧ (∀ a ∈ as, Good a) ∧
      x ≠ .always ∧ (∀ t, sem x t ↔ ∃ a ∈ as, a.contains t = true) ∧
      (∀ a ∈ as, Inside a x) ∧
      (∀ acc l, Period.anyMembers acc (x :: l) = Period.anyMembers (acc ++ as.map .anchored) l) := by
  rcases h with ⟨a, rfl, ha⟩ | ⟨as, hne, rfl, ha⟩
  · refine ⟨[a], by simp, by simpa using ha, by simp, by intro t; rw [sem]; simp, by simp [Inside], ?_⟩
    intro acc l; simp [Period.anyMembers]
  · refine ⟨as, hne, ha, by simp, ?_, ?_, ?_⟩
    · intro t
      rw [sem]
      constructor
      · rintro ⟨p, hp, hs⟩
        obtain ⟨a, ha, rfl⟩ := List.mem_map.1 hp
        rw [sem] at hs
        exact ⟨a, ha, hs⟩
      · rintro ⟨a, ha, hs⟩
        exact ⟨.anchored a, List.mem_map.2 ⟨a, ha, rfl⟩, by rw [sem]; exact hs⟩
    · intro a ha
      exact Or.inr ⟨_, rfl, List.mem_map.2 ⟨a, ha, rfl⟩⟩
    · intro acc l; simp [Period.anyMembers]

/-- `|` of two leaves. -/
theorem or_leaf {p q : Period} (hp : CronLeaf p) (hq : CronLeaf q) :
    ∃ r, p.or q = .ok r ∧ CronLeaf r ∧ (∀ a, Inside a r → Inside a p ∨ Inside a q) ∧
      ∀ t, sem r t ↔ sem p t ∨ sem q t := by
  obtain ⟨as, a1, a2, a3, a4, a5, a6⟩ := leaf_shape hp
  obtain ⟨bs, b1, b2, b3, b4, b5, b6⟩ := leaf_shape hq
  obtain ⟨cs, hcs, hmc⟩ := setOf_anchored (as ++ bs)
  simp only [List.mem_append] at hmc
  have hor : p.or q = .ok (.any (cs.map .anchored)) := by
    have : p.or q = Period.mkAny [p, q] := by
      unfold Period.or
      split <;> simp_all
    rw [this, Period.mkAny, a6, b6]
    rw [← hcs]
    simp [Period.anyMembers]
  have c1 : cs ≠ [] := by
    obtain ⟨a, ha⟩ := List.exists_mem_of_ne_nil _ a1
    exact List.ne_nil_of_mem ((hmc a).2 (Or.inl ha))
  refine ⟨_, hor, Or.inr ⟨cs, c1, rfl, ?_⟩, ?_, ?_⟩
  · intro a ha
    rcases (hmc a).1 ha with h | h
    · exact a2 a h
    · exact b2 a h
  · intro a ha
    rcases (hmc a).1 (inside_any ha) with h | h
    · exact Or.inl (a5 a h)
    · exact Or.inr (b5 a h)
  · intro t
    rw [a4, b4, sem]
    constructor
    · rintro ⟨p, hp, hs⟩
      obtain ⟨a, ha, rfl⟩ := List.mem_map.1 hp
      rw [sem] at hs
      rcases (hmc a).1 ha with h | h
      · exact Or.inl ⟨a, h, hs⟩
      · exact Or.inr ⟨a, h, hs⟩
    · rintro (⟨a, ha, hs⟩ | ⟨a, ha, hs⟩)
      · exact ⟨.anchored a, List.mem_map.2 ⟨a, (hmc a).2 (Or.inl ha), rfl⟩, by rw [sem]; exact hs⟩
      · exact ⟨.anchored a, List.mem_map.2 ⟨a, (hmc a).2 (Or.inr ha), rfl⟩, by rw [sem]; exact hs⟩

theorem or_selects (sc : Scope) (E F : Prop) (p q : Period) (S T : Int → Prop) (hp : Selects sc E p S)
    (hq : Selects sc F q T) : ∃ r, p.or q = .ok r ∧ Selects sc (E ∧ F) r (fun v => S v ∨ T v) := by
  obtain ⟨r, h1, h2, h3, h4⟩ := or_leaf hp.leaf hq.leaf
  refine ⟨r, h1, h2, ?_, ?_, ?_⟩
  · intro a ha
    rcases h3 a ha with h | h
    · exact hp.scope a h
    · exact hq.scope a h
  · rintro ⟨hE, hF⟩ a ha
    rcases h3 a ha with h | h
    · exact hp.fwd hE a h
    · exact hq.fwd hF a h
  · intro t ht
    rw [h4, hp.sem t ht, hq.sem t ht]

theorem Selects.congr {sc : Scope} {E F : Prop} {p : Period} {S T : Int → Prop} (h : Selects sc E p S)
    (hST : ∀ v, S v ↔ T v) (hEF : F → E) :
    Selects sc F p T := ⟨h.leaf, h.scope, fun hF => h.fwd (hEF hF), fun t ht => by rw [h.sem t ht, hST]⟩

theorem fieldLoop_selects (sc : Scope) (hsc : CronScope sc) : ∀ (items : List CItem) (E : Prop) (q : Period)
    (S : Int → Prop), (∀ i ∈ items, i ≠ .star ∧ ValidItem sc i) → Selects sc E q S →
    ∃ p, fieldLoop sc (some q) items = .ok (some p) ∧
      Selects sc (E ∧ ∀ i ∈ items, EarlyItem sc i) p (fun v => S v ∨ fieldSelects sc items v)
  | [], E, q, S, _, hq => ⟨q, rfl, hq.congr (fun v => by simp [fieldSelects]) (fun h => h.1)⟩
  | i :: l, E, q, S, h, hq => by
    obtain ⟨p, h1, h2⟩ := itemPeriod_selects sc hsc i (h i (by simp)).2 (h i (by simp)).1
    obtain ⟨r, h3, h4⟩ := or_selects sc _ _ q p S _ hq h2
    obtain ⟨p', h5, h6⟩ := fieldLoop_selects sc hsc l _ r _ (fun j hj => h j (by simp [hj])) h4
    refine ⟨p', by simp only [fieldLoop, h1, h3, h5], h6.congr (fun v => ?_) ?_⟩
    · simp only [fieldSelects, List.mem_cons, exists_eq_or_imp, or_assoc]
    · rintro ⟨hE, hF⟩
      exact ⟨⟨hE, hF i (by simp)⟩, fun j hj => hF j (by simp [hj])⟩

theorem fieldLoop_stars (sc : Scope) (acc : Option Period) : ∀ items : List CItem, (∀ i ∈ items, i = .star) →
    fieldLoop sc acc items = .ok acc
  | [], _ => rfl
  | i :: l, h => by
    have := h i (by simp)
    subst this
    simp only [fieldLoop, itemPeriod, fieldLoop_stars sc acc l (fun j hj => h j (by simp [hj]))]

/-- A valid field becomes `always` when it is only `*`, and otherwise a period that selects its numbers. -/
theorem fieldPeriod_selects (sc : Scope) (hsc : CronScope sc) (items : List CItem) (hv : ValidField sc items) :
    (Unrestricted items ∧ fieldPeriod sc items = .ok .always ∧ ∀ v, fieldSelects sc items v) ∨
    (¬ Unrestricted items ∧ ∃ p, fieldPeriod sc items = .ok p ∧
      Selects sc (∀ i ∈ items, EarlyItem sc i) p (fieldSelects sc items)) := by
  obtain ⟨hne, hv | hv⟩ := hv
  · refine Or.inl ⟨hv, ?_, ?_⟩
    · simp only [fieldPeriod, fieldLoop_stars sc none items hv]
    · intro v
      cases items with
      | nil => exact absurd rfl hne
      | cons i l =>
        refine ⟨i, by simp, ?_⟩
        rw [hv i (by simp)]
        trivial
  · right
    cases items with
    | nil => exact absurd rfl hne
    | cons i l =>
      refine ⟨fun h => (hv i (by simp)).1 (h i (by simp)), ?_⟩
      obtain ⟨p, h1, h2⟩ := itemPeriod_selects sc hsc i (hv i (by simp)).2 (hv i (by simp)).1
      obtain ⟨p', h5, h6⟩ := fieldLoop_selects sc hsc l _ p _ (fun j hj => hv j (by simp [hj])) h2
      refine ⟨p', by simp only [fieldPeriod, fieldLoop, h1, h5], h6.congr (fun v => ?_) ?_⟩
      · simp only [fieldSelects, List.mem_cons, exists_eq_or_imp]
      · intro h
        exact ⟨h i (by simp), fun j hj => h j (by simp [hj])⟩

/-! ### the whole expression -/

/-- The conjunction built by repeated `&`. -/
def joinP : List Period → Period
  | [p] => p
  | l => .all l

theorem leaf_not_all {p : Period} (h : CronLeaf p) : (∀ l, p ≠ .all l) ∧ p ≠ .always := by
  rcases h with ⟨a, rfl, _⟩ | ⟨as, _, rfl, _⟩ <;> simp

/-- Pairwise unequal periods. -/
abbrev Unequal (ms : List Period) : Prop := ms.Pairwise fun a b => Period.same a b = false

theorem distinct_snoc {ms : List Period} {q : Period} (h : Unequal ms) (hq : ∀ p ∈ ms, Period.same p q = false) :
    Unequal (ms ++ [q]) :=
  List.pairwise_append.2 ⟨h, List.pairwise_singleton _ _, fun x hx y hy => by rw [List.mem_singleton.1 hy]; exact hq x hx⟩

/-- Equal leaves have the same clock periods. -/
theorem inside_same {p q : Period} (hp : CronLeaf p) (h : Period.same p q = true) :
    ∃ a, Inside a p ∧ Inside a q := by
  rcases hp with ⟨a, rfl, _⟩ | ⟨as, hne, rfl, _⟩
  · cases q <;> simp [Period.same] at h
    subst h
    exact ⟨a, Or.inl rfl, Or.inl rfl⟩
  · cases q <;> simp only [Period.same, Bool.false_eq_true] at h
    rename_i qs
    rw [Period.sets_iff] at h
    obtain ⟨a, ha⟩ := List.exists_mem_of_ne_nil _ hne
    have hm : Period.anchored a ∈ as.map Period.anchored := List.mem_map.2 ⟨a, ha, rfl⟩
    obtain ⟨q, hq, hs⟩ := h.1 _ hm
    cases q <;> simp [Period.same] at hs
    subst hs
    exact ⟨a, Or.inr ⟨_, rfl, hm⟩, Or.inr ⟨_, rfl, hq⟩⟩

/-- Leaves of different classes are not equal. -/
theorem not_same {p q : Period} (S : Scope → Prop) (hp : CronLeaf p) (h1 : ∀ a, Inside a p → S a.scope)
    (h2 : ∀ a, Inside a q → ¬ S a.scope) : Period.same p q = false := by
  cases h : Period.same p q with
  | false => rfl
  | true =>
    obtain ⟨a, ha, hb⟩ := inside_same hp h
    exact absurd (h1 a ha) (h2 a hb)

theorem and_join (ms : List Period) (hne : ms ≠ []) (hms : ∀ p ∈ ms, CronLeaf p) (q : Period) (hq : CronLeaf q)
    (hd : Unequal ms) (hn : ∀ p ∈ ms, Period.same p q = false) :
    (joinP ms).and q = .ok (joinP (ms ++ [q])) := by
  have hq' := leaf_not_all hq
  have hset := Period.setOf_new (distinct_snoc hd hn)
  have e1 : ∀ p : Period, p ≠ .always → p.and q = Period.mkAll [p, q] := by
    intro p hp
    unfold Period.and
    split <;> simp_all
  have e2 : Period.allMembers [q] = [q] := by
    cases q <;> simp_all [Period.allMembers]
  match ms, hne with
  | [p], _ =>
    have hp := leaf_not_all (hms p (by simp))
    rw [joinP, e1 p hp.2]
    have : Period.allMembers [p, q] = [p, q] := by
      cases p <;> simp_all [Period.allMembers]
    simp only [List.cons_append, List.nil_append] at hset
    simp [Period.mkAll, this, hset, joinP]
  | p :: p' :: l, _ =>
    rw [joinP, e1 _ (by simp)]
    · simp only [List.cons_append] at hset
      simp [Period.mkAll, Period.allMembers, joinP, e2, hset]
    · simp

theorem and_always (p : Period) : p.and .always = .ok p := by
  unfold Period.and
  split <;> simp_all

theorem sem_join (ms : List Period) (t : Int) : sem (joinP ms) t ↔ ∀ p ∈ ms, sem p t := by
  match ms with
  | [] => rw [joinP]; rw [sem]; simp
  | [p] => simp [joinP]
  | p :: q :: l => rw [joinP, sem]; simp

/-- The full minute of `TimeOfMinute()`. -/
def minutely : Anchored := ⟨.minute, 0, Scope.minute.max⟩

theorem minutely_good : Good minutely := by
  unfold Good; decide

theorem minutely_sem (t : Int) : sem (.anchored minutely) t := by
  rw [sem]; simp [Anchored.contains, Anchored.isFull, minutely]

theorem cronDays_leaf {p q : Period} (hp : CronLeaf p) (hq : CronLeaf q) : cronDays p q = p.or q := by
  have := (leaf_not_all hp).2
  have := (leaf_not_all hq).2
  unfold cronDays
  split <;> simp_all

/-- One more factor of the conjunction: either nothing (`always`) or a leaf. -/
theorem and_step (ms : List Period) (hne : ms ≠ []) (hms : ∀ p ∈ ms, CronLeaf p) (q : Period)
    (hq : q = .always ∨ CronLeaf q) (hd : Unequal ms) (hn : ∀ p ∈ ms, Period.same p q = false) :
    ∃ ms', (joinP ms).and q = .ok (joinP ms') ∧ ms' ≠ [] ∧
      (∀ p, p ∈ ms' ↔ p ∈ ms ∨ (p = q ∧ q ≠ .always)) ∧ Unequal ms' := by
  rcases hq with rfl | hq
  · exact ⟨ms, and_always _, hne, by simp, hd⟩
  · refine ⟨ms ++ [q], and_join ms hne hms q hq hd hn, by simp, ?_, distinct_snoc hd hn⟩
    intro p
    have := (leaf_not_all hq).2
    simp only [List.mem_append, List.mem_singleton]
    constructor
    · rintro (h | h)
      · exact Or.inl h
      · exact Or.inr ⟨h, this⟩
    · rintro (h | h)
      · exact Or.inl h
      · exact Or.inr h.1

/-- A field as a factor of the conjunction. -/
structure Factor (sc : Scope) (items : List CItem) (q : Period) : Prop where
  shape : (q = .always ∧ Unrestricted items ∧ ∀ v, fieldSelects sc items v) ∨ (CronLeaf q ∧ ¬ Unrestricted items)
  sem : q ≠ .always → ∀ t, YearOk sc t → (Spec.sem q t ↔ fieldSelects sc items (unitNumber sc t))
  scope : ∀ a, Inside a q → a.scope = sc
  fwd : (∀ i ∈ items, EarlyItem sc i) → ∀ a, Inside a q → SoundArc a

theorem field_factor (sc : Scope) (hsc : CronScope sc) (items : List CItem) (hv : ValidField sc items) :
    ∃ q, fieldPeriod sc items = .ok q ∧ Factor sc items q := by
  rcases fieldPeriod_selects sc hsc items hv with ⟨h1, h2, h3⟩ | ⟨h1, p, h2, h3⟩
  · refine ⟨.always, h2, Or.inl ⟨rfl, h1, h3⟩, fun h => absurd rfl h, ?_, ?_⟩ <;>
      simp [Inside]
  · exact ⟨p, h2, Or.inr ⟨h3.leaf, h1⟩, fun _ => h3.sem, h3.scope, h3.fwd⟩

/-- What the sub-period of a cron expression is. -/
structure SubOk (c : CronExpr) (ms : List Period) : Prop where
  minute : .anchored minutely ∈ ms
  leaf : ∀ p ∈ ms, CronLeaf p
  scope : ∀ p ∈ ms, ∀ a, Inside a p → a.scope = .year → ¬ Unrestricted c.month
  fwd : (∀ i ∈ c.minute, EarlyItem .hour i) → (∀ i ∈ c.hour, EarlyItem .day i) →
    (∀ i ∈ c.dayOfMonth, EarlyItem .month i) → (∀ i ∈ c.dayOfWeek, EarlyItem .week i) → Unrestricted c.month →
    ∀ p ∈ ms, ∀ a, Inside a p → SoundArc a
  sem : ∀ t, (¬ Unrestricted c.month → ¬ IsLastMicro (month t) t) → ((∀ p ∈ ms, sem p t) ↔ CronMatches c t)

theorem factor_sem {sc : Scope} {items : List CItem} {q : Period} (h : Factor sc items q) (t : Int)
    (ht : ¬ Unrestricted items → YearOk sc t) :
    (q ≠ .always → Spec.sem q t) ↔ fieldSelects sc items (unitNumber sc t) := by
  rcases h.shape with ⟨rfl, h1, h2⟩ | ⟨h1, h2⟩
  · simp [h2]
  · have := (leaf_not_all h1).2
    rw [← h.sem this t (ht h2)]
    simp [this]

theorem days_factor {dom dow : List CItem} {p q : Period} (hp : Factor .month dom p) (hq : Factor .week dow q) :
    ∃ d, cronDays p q = .ok d ∧ (d = .always ∨ CronLeaf d) ∧ (∀ a, Inside a d → Inside a p ∨ Inside a q) ∧
      ∀ t, (d ≠ .always → sem d t) ↔
        ((¬ Unrestricted dom ∧ ¬ Unrestricted dow ∧
          (fieldSelects .month dom (day t) ∨ fieldSelects .week dow (weekday t + 1))) ∨
         ((Unrestricted dom ∨ Unrestricted dow) ∧
          fieldSelects .month dom (day t) ∧ fieldSelects .week dow (weekday t + 1))) := by
  have sp := fun t => factor_sem hp t (fun _ h => absurd h (by simp))
  have sq := fun t => factor_sem hq t (fun _ h => absurd h (by simp))
  have e1 : ∀ t, unitNumber .month t = day t := fun _ => rfl
  have e2 : ∀ t, unitNumber .week t = weekday t + 1 := fun _ => rfl
  simp only [e1] at sp
  simp only [e2] at sq
  rcases hp.shape with ⟨rfl, h1, h2⟩ | ⟨h1, h2⟩
  · refine ⟨q, ?_, ?_, fun a ha => Or.inr ha, ?_⟩
    · cases q <;> rfl
    · rcases hq.shape with h | h
      · exact Or.inl h.1
      · exact Or.inr h.1
    · intro t
      rw [sq t]
      simp [h1, h2]
  · rcases hq.shape with ⟨rfl, h3, h4⟩ | ⟨h3, h4⟩
    · refine ⟨p, ?_, Or.inr h1, fun a ha => Or.inl ha, ?_⟩
      · have := (leaf_not_all h1).2
        unfold cronDays
        split <;> simp_all [and_always]
      · intro t
        rw [sp t]
        simp [h2, h3, h4]
    · obtain ⟨r, r1, r2, r3, r4⟩ := or_leaf h1 h3
      refine ⟨r, by rw [cronDays_leaf h1 h3, r1], Or.inr r2, r3, ?_⟩
      intro t
      have := (leaf_not_all r2).2
      rw [← sp t, ← sq t]
      have n1 := (leaf_not_all h1).2
      have n2 := (leaf_not_all h3).2
      simp [h2, h4, r4, this, n1, n2]

theorem factor_leaf {sc : Scope} {items : List CItem} {q : Period} (h : Factor sc items q) :
    q = .always ∨ CronLeaf q := by
  rcases h.shape with h | h
  · exact Or.inl h.1
  · exact Or.inr h.1

/-- Every valid expression has a sub-period, a conjunction of leaves that means the expression. -/
theorem subperiod_ok (c : CronExpr) (hc : ValidCron c) : ∃ ms, c.subperiod = .ok (joinP ms) ∧ SubOk c ms := by
  obtain ⟨dom, d1, d2⟩ := field_factor .month (by simp [CronScope]) c.dayOfMonth hc.dayOfMonth
  obtain ⟨dow, w1, w2⟩ := field_factor .week (by simp [CronScope]) c.dayOfWeek hc.dayOfWeek
  obtain ⟨mi, i1, i2⟩ := field_factor .hour (by simp [CronScope]) c.minute hc.minute
  obtain ⟨h, h1, h2⟩ := field_factor .day (by simp [CronScope]) c.hour hc.hour
  obtain ⟨mo, m1, m2⟩ := field_factor .year (by simp [CronScope]) c.month hc.month
  obtain ⟨days, e1, e2, e3, e4⟩ := days_factor d2 w2
  have s1 : ∃ ms, mi.and (.anchored minutely) = .ok (joinP ms) ∧ ms ≠ [] ∧
      (∀ p, p ∈ ms ↔ p = .anchored minutely ∨ (p = mi ∧ mi ≠ .always)) ∧ Unequal ms := by
    rcases factor_leaf i2 with rfl | hl
    · exact ⟨[.anchored minutely], rfl, by simp, by simp, List.pairwise_singleton _ _⟩
    · have hn : ∀ p ∈ [mi], Period.same p (.anchored minutely) = false := by
        intro p hp
        rw [List.mem_singleton.1 hp]
        refine not_same (· = .hour) hl i2.scope ?_
        intro a ha
        rw [inside_anchored ha]
        decide
      have hj : (joinP [mi]).and (.anchored minutely) = .ok (joinP ([mi] ++ [.anchored minutely])) :=
        and_join [mi] (by simp) (by simpa using hl) _ (Or.inl ⟨_, rfl, minutely_good⟩)
          (List.pairwise_singleton _ _) hn
      rw [show joinP [mi] = mi from rfl] at hj
      refine ⟨_, hj, by simp, ?_, distinct_snoc (List.pairwise_singleton _ _) hn⟩
      have := (leaf_not_all hl).2
      intro p; simp [this, or_comm]
  obtain ⟨ms1, a1, a2, a3, x1⟩ := s1
  have y1 : ∀ p ∈ ms1, ∀ a, Inside a p → a.scope = .minute ∨ a.scope = .hour := by
    intro p hp a ha
    rcases (a3 p).1 hp with rfl | ⟨rfl, hn⟩
    · rw [inside_anchored ha]; exact Or.inl rfl
    · exact Or.inr (i2.scope a ha)
  have l1 : ∀ p ∈ ms1, CronLeaf p := by
    intro p hp
    rcases (a3 p).1 hp with rfl | ⟨rfl, hn⟩
    · exact Or.inl ⟨_, rfl, minutely_good⟩
    · rcases factor_leaf i2 with h | h
      · exact absurd h hn
      · exact h
  obtain ⟨ms2, b1, b2, b3, x2⟩ := and_step ms1 a2 l1 h (factor_leaf h2) x1 (fun p hp =>
    not_same (fun sc => sc = .minute ∨ sc = .hour) (l1 p hp) (y1 p hp)
      (fun a ha => by rw [h2.scope a ha]; decide))
  have y2 : ∀ p ∈ ms2, ∀ a, Inside a p → a.scope = .minute ∨ a.scope = .hour ∨ a.scope = .day := by
    intro p hp a ha
    rcases (b3 p).1 hp with hp | ⟨rfl, hn⟩
    · rcases y1 p hp a ha with h | h <;> simp [h]
    · exact Or.inr (Or.inr (h2.scope a ha))
  have l2 : ∀ p ∈ ms2, CronLeaf p := by
    intro p hp
    rcases (b3 p).1 hp with hp | ⟨rfl, hn⟩
    · exact l1 p hp
    · rcases factor_leaf h2 with h | h
      · exact absurd h hn
      · exact h
  obtain ⟨ms3, c1, c2, c3, x3⟩ := and_step ms2 b2 l2 mo (factor_leaf m2) x2 (fun p hp =>
    not_same (fun sc => sc = .minute ∨ sc = .hour ∨ sc = .day) (l2 p hp) (y2 p hp)
      (fun a ha => by rw [m2.scope a ha]; decide))
  have y3 : ∀ p ∈ ms3, ∀ a, Inside a p →
      a.scope = .minute ∨ a.scope = .hour ∨ a.scope = .day ∨ a.scope = .year := by
    intro p hp a ha
    rcases (c3 p).1 hp with hp | ⟨rfl, hn⟩
    · rcases y2 p hp a ha with h | h | h <;> simp [h]
    · exact Or.inr (Or.inr (Or.inr (m2.scope a ha)))
  have l3 : ∀ p ∈ ms3, CronLeaf p := by
    intro p hp
    rcases (c3 p).1 hp with hp | ⟨rfl, hn⟩
    · exact l2 p hp
    · rcases factor_leaf m2 with h | h
      · exact absurd h hn
      · exact h
  obtain ⟨ms4, f1, f2, f3, -⟩ := and_step ms3 c2 l3 days e2 x3 (fun p hp =>
    not_same (fun sc => sc = .minute ∨ sc = .hour ∨ sc = .day ∨ sc = .year) (l3 p hp) (y3 p hp)
      (fun a ha => by
        rcases e3 a ha with h | h
        · rw [d2.scope a h]; decide
        · rw [w2.scope a h]; decide))
  have hmem : ∀ p, p ∈ ms4 ↔ (p = .anchored minutely ∨ (p = mi ∧ mi ≠ .always)) ∨ (p = h ∧ h ≠ .always) ∨
      (p = mo ∧ mo ≠ .always) ∨ (p = days ∧ days ≠ .always) := by
    intro p
    rw [f3, c3, b3, a3]; simp only [or_assoc]
  refine ⟨ms4, ?_, ?_, ?_, ?_, ?_, ?_⟩
  · unfold CronExpr.subperiod
    simp only [bindE, d1, w1, e1, i1, h1, m1]
    have a1' : mi.and (.anchored ⟨.minute, 0, Scope.minute.max⟩) = .ok (joinP ms1) := a1
    simp only [a1', b1, c1, f1]
  · rw [hmem]; simp
  · intro p hp
    rcases (hmem p).1 hp with (rfl | ⟨rfl, hn⟩) | ⟨rfl, hn⟩ | ⟨rfl, hn⟩ | ⟨rfl, hn⟩
    · exact Or.inl ⟨_, rfl, minutely_good⟩
    · exact (factor_leaf i2).resolve_left hn
    · exact (factor_leaf h2).resolve_left hn
    · exact (factor_leaf m2).resolve_left hn
    · exact e2.resolve_left hn
  · intro p hp a ha hy
    rcases (hmem p).1 hp with (rfl | ⟨rfl, hn⟩) | ⟨rfl, hn⟩ | ⟨rfl, hn⟩ | ⟨rfl, hn⟩
    · rw [inside_anchored ha] at hy; exact absurd hy (by decide)
    · rw [i2.scope a ha] at hy; exact absurd hy (by decide)
    · rw [h2.scope a ha] at hy; exact absurd hy (by decide)
    · rcases m2.shape with h | h
      · exact absurd h.1 hn
      · exact h.2
    · rcases e3 a ha with h | h
      · rw [d2.scope a h] at hy; exact absurd hy (by decide)
      · rw [w2.scope a h] at hy; exact absurd hy (by decide)
  · intro g1 g2 g3 g4 g5 p hp a ha
    rcases (hmem p).1 hp with (rfl | ⟨rfl, hn⟩) | ⟨rfl, hn⟩ | ⟨rfl, hn⟩ | ⟨rfl, hn⟩
    · rw [inside_anchored ha]; exact good_sound minutely_good (by decide) (by decide)
    · exact i2.fwd g1 a ha
    · exact h2.fwd g2 a ha
    · rcases m2.shape with h | h
      · exact absurd h.1 hn
      · exact absurd g5 h.2
    · rcases e3 a ha with h | h
      · exact d2.fwd g3 a h
      · exact w2.fwd g4 a h
  · intro t ht
    have q1 := factor_sem i2 t (fun _ h => absurd h (by decide))
    have q2 := factor_sem h2 t (fun _ h => absurd h (by decide))
    have q3 := factor_sem m2 t (fun hu _ => ht hu)
    have q4 := e4 t
    have k1 : unitNumber .hour t = minute t := rfl
    have k2 : unitNumber .day t = hour t := rfl
    have k3 : unitNumber .year t = month t := rfl
    rw [k1] at q1
    rw [k2] at q2
    rw [k3] at q3
    unfold CronMatches
    rw [← q1, ← q2, ← q3, ← q4]
    constructor
    · intro hall
      refine ⟨fun hn => hall _ ((hmem _).2 ?_), fun hn => hall _ ((hmem _).2 ?_), fun hn => hall _ ((hmem _).2 ?_),
        fun hn => hall _ ((hmem _).2 ?_)⟩ <;> simp [hn]
    · rintro ⟨g1, g2, g3, g4⟩ p hp
      rcases (hmem p).1 hp with (rfl | ⟨rfl, hn⟩) | ⟨rfl, hn⟩ | ⟨rfl, hn⟩ | ⟨rfl, hn⟩
      · exact minutely_sem t
      · exact g1 hn
      · exact g2 hn
      · exact g3 hn
      · exact g4 hn

end Rocketry.Props
