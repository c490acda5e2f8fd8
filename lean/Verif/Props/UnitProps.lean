import Verif.Props.AnchoredProps

/-!
# C05, C06: boundary occurrences; `at`, `starting` and integer ranges
-/

set_option linter.unusedSimpArgs false

namespace Rocketry.Props
open Rocketry Spec

/-- C05: `next_start` is the first occurrence of the start boundary after `dt`. -/
theorem C05_next_start (p : Anchored) (L : Int) (hL : cycleLen p.scope = some L) (hb : Bounds p L)
    (dt : Int) : NextOccurrence L p.start dt (p.nextStart dt) := by
  rcases p with ⟨sc, s, e⟩
  obtain ⟨h1, h2, h3, h4⟩ := hb
  simp only [] at *
  unfold Anchored.nextStart
  simp only []
  rw [anchorDt_fixed hL, cycleLen_fwd hL]
  cases sc <;> simp [cycleLen] at hL <;> subst hL <;> constructor <;> (try intro x hx1 hx2) <;>
    split at * <;> omega

/-- C05: `next_end` is the first occurrence of the end boundary after `dt`. -/
theorem C05_next_end (p : Anchored) (L : Int) (hL : cycleLen p.scope = some L) (hb : Bounds p L)
    (dt : Int) : NextOccurrence L p.stop dt (p.nextEnd dt) := by
  have := C05_next_start ⟨p.scope, p.stop, p.start⟩ L hL ⟨hb.3, hb.4, hb.1, hb.2⟩ dt
  exact this

/-- C05: `prev_start` is the last occurrence of the start boundary not after `dt`. -/
theorem C05_prev_start (p : Anchored) (L : Int) (hL : cycleLen p.scope = some L) (hb : Bounds p L)
    (dt : Int) : PrevOccurrence L p.start dt (p.prevStart dt) := by
  rcases p with ⟨sc, s, e⟩
  obtain ⟨h1, h2, h3, h4⟩ := hb
  simp only [] at *
  unfold Anchored.prevStart
  simp only []
  rw [anchorDt_fixed hL, cycleLen_back hL]
  cases sc <;> simp [cycleLen] at hL <;> subst hL <;> constructor <;> (try intro x hx1 hx2) <;>
    split at * <;> omega

/-- C05: `prev_end` is the last occurrence of the end boundary not after `dt`. -/
theorem C05_prev_end (p : Anchored) (L : Int) (hL : cycleLen p.scope = some L) (hb : Bounds p L)
    (dt : Int) : PrevOccurrence L p.stop dt (p.prevEnd dt) := by
  have := C05_prev_start ⟨p.scope, p.stop, p.start⟩ L hL ⟨hb.3, hb.4, hb.1, hb.2⟩ dt
  exact this

/-- Tuesday 10:00 to Friday: from Wednesday the next start is a week later than the previous one. -/
example : Bounds ⟨.week, DAY + 10 * HOUR, 5 * DAY⟩ (7 * 24 * 60 * 60 * 1000000) ∧
    Anchored.nextStart ⟨.week, DAY + 10 * HOUR, 5 * DAY⟩ (datetime 2024 5 1) = datetime 2024 5 7 10 ∧
    Anchored.prevStart ⟨.week, DAY + 10 * HOUR, 5 * DAY⟩ (datetime 2024 5 1) = datetime 2024 4 30 10 :=
  ⟨⟨by decide, by decide, by decide, by decide⟩, by decide, by decide⟩

/-- `k`-fold application of `next_start`. -/
def iterNextStart (p : Anchored) : Nat → Int → Int
  | 0, dt => dt
  | k + 1, dt => p.nextStart (iterNextStart p k dt)

/-- C05: repeatedly taking `next_start` visits every later occurrence of the boundary exactly once, in order:
the instants after `dt` at which the boundary occurs are exactly the iterates, and the iterates increase. -/
theorem C05_iterate (p : Anchored) (L : Int) (hL : cycleLen p.scope = some L) (hb : Bounds p L)
    (dt : Int) :
    (∀ x, dt < x → ((x - p.start) % L = 0 ↔ ∃ k : Nat, iterNextStart p (k + 1) dt = x)) ∧
    (∀ j k : Nat, j < k → iterNextStart p j dt < iterNextStart p k dt) := by
  have hmono : ∀ j k : Nat, j < k → iterNextStart p j dt < iterNextStart p k dt := by
    intro j k hjk
    induction k with
    | zero => omega
    | succ k ih =>
      have h1 := (C05_next_start p L hL hb (iterNextStart p k dt)).gt
      have h2 : iterNextStart p (k + 1) dt = p.nextStart (iterNextStart p k dt) := rfl
      by_cases hk : j = k
      · subst hk; omega
      · have := ih (by omega); omega
  refine ⟨?_, hmono⟩
  intro x hx
  constructor
  · intro hocc
    -- the last iterate that is below `x`
    have hgrow : ∀ k : Nat, dt + k ≤ iterNextStart p k dt := by
      intro k
      induction k with
      | zero => simp [iterNextStart]
      | succ k ih => have := hmono k (k + 1) (by omega); push_cast; omega
    have : ∀ k : Nat, iterNextStart p k dt < x → iterNextStart p (k + 1) dt ≤ x := by
      intro k hk
      by_contra hc
      exact (C05_next_start p L hL hb (iterNextStart p k dt)).least x hk (by
        have : iterNextStart p (k + 1) dt = p.nextStart (iterNextStart p k dt) := rfl
        omega) hocc
    have hfind : ∀ n : Nat, iterNextStart p n dt < x ∨ ∃ k : Nat, iterNextStart p (k + 1) dt = x := by
      intro n
      induction n with
      | zero => left; simpa [iterNextStart] using hx
      | succ n ih =>
        rcases ih with ih | ih
        · have := this n ih
          by_cases he : iterNextStart p (n + 1) dt = x
          · exact Or.inr ⟨n, he⟩
          · left; omega
        · exact Or.inr ih
    rcases hfind (x - dt).toNat with h | h
    · have := hgrow (x - dt).toNat
      omega
    · exact h
  · rintro ⟨k, hk⟩
    rw [← hk]
    exact (C05_next_start p L hL hb (iterNextStart p k dt)).occurs

example : iterNextStart ⟨.day, 10 * HOUR, 15 * HOUR⟩ 2 (datetime 2024 2 28 11) = datetime 2024 3 1 10 := by
  decide

/-! ## C06 -/

/-- position = whole units + remainder, in terms of the datetime fields -/
theorem unit_split (sc : Scope) (hsc : sc ≠ .year) (t : Int) :
    ∃ o, 0 ≤ o ∧ o < sc.unit ∧
      anchorDt sc t = (unitNumber sc t - (unitRange sc).1) * sc.unit + o := by
  have h1 := hour_range t
  have h2 := minute_range t
  have h3 := second_range t
  have h4 := microsecond_range t
  refine ⟨anchorDt sc t - (unitNumber sc t - (unitRange sc).1) * sc.unit, ?_⟩
  cases sc <;> simp only [unitNumber, unitRange, anchorDt, Scope.unit, toMicroseconds,
    MS, SEC, MIN, HOUR, DAY] at * <;> first | omega | contradiction

theorem unitNumber_range (sc : Scope) (t : Int) :
    (unitRange sc).1 ≤ unitNumber sc t ∧ unitNumber sc t ≤ (unitRange sc).2 := by
  have h1 := hour_range t
  have h2 := minute_range t
  have h3 := second_range t
  have h4 := microsecond_range t
  have h5 := weekday_range t
  have h6 := month_range t
  have h7 := day_range t
  have h8 := Cal.daysInMonth_range (year t) (month t)
  cases sc <;> simp only [unitNumber, unitRange] <;> omega

/-- `anchor_int` for valid numbers (all classes but `TimeOfYear`). -/
theorem anchorInt_ok (sc : Scope) (hsc : sc ≠ .year) (i : Int)
    (hi : (unitRange sc).1 ≤ i ∧ i ≤ (unitRange sc).2) (side : Side) :
    anchorInt sc i side = .ok ((i - (unitRange sc).1 + (if side = .stop then 1 else 0)) * sc.unit) := by
  cases sc <;> simp only [unitRange] at hi <;> (try contradiction) <;> cases side <;>
    simp only [anchorInt, anchorIntBase, unitRange] <;>
    (rw [if_pos (by omega)]; simp)

theorem unit_max (sc : Scope) (hsc : sc ≠ .year) :
    sc.max = ((unitRange sc).2 - (unitRange sc).1 + 1) * sc.unit := by
  cases sc <;> first | rfl | contradiction

theorem unit_pos (sc : Scope) (hsc : sc ≠ .year) : 0 < sc.unit := by
  cases sc <;> first | decide | contradiction

theorem mulU_le {U : Int} (hU : 0 < U) {a b : Int} : a * U ≤ b * U ↔ a ≤ b :=
  Int.mul_le_mul_right hU

theorem mulU_le_add {U : Int} {o : Int} (h1 : 0 ≤ o) (h2 : o < U) {a n : Int} :
    a * U ≤ n * U + o ↔ a ≤ n := by
  constructor
  · intro h
    by_contra hc
    have : (n + 1) * U ≤ a * U := Int.mul_le_mul_of_nonneg_right (by omega) (by omega)
    rw [Int.add_mul] at this
    omega
  · intro h
    have : a * U ≤ n * U := Int.mul_le_mul_of_nonneg_right h (by omega)
    omega

theorem mulU_lt_add {U : Int} {o : Int} (h1 : 0 ≤ o) (h2 : o < U) {b n : Int} :
    n * U + o < b * U ↔ n < b := by
  rw [← Int.not_le, mulU_le_add h1 h2, Int.not_le]

theorem mulU_eq {U : Int} (hU : 0 < U) {a b : Int} : a * U = b * U ↔ a = b := by
  have h1 := mulU_le hU (a := a) (b := b)
  have h2 := mulU_le hU (a := b) (b := a)
  omega

theorem validate_units (sc : Scope) (hsc : sc ≠ .year) (k : Int) (h0 : 0 ≤ k)
    (h1 : k ≤ (unitRange sc).2 - (unitRange sc).1 + 1) : validate sc (k * sc.unit) = .ok () := by
  have hU := unit_pos sc hsc
  unfold validate
  rw [unit_max sc hsc, if_neg]
  have h2 := mulU_le hU (a := 0) (b := k)
  have h3 := mulU_le hU (a := k) (b := (unitRange sc).2 - (unitRange sc).1 + 1)
  simp only [Int.zero_mul] at h2
  omega

/-- Membership of a period whose bounds are whole units. -/
theorem contains_units (sc : Scope) (hsc : sc ≠ .year) (a b : Int) (t : Int) :
    Anchored.contains ⟨sc, a * sc.unit, b * sc.unit⟩ t = true ↔
      (a = b ∨ (a = 0 ∧ b = (unitRange sc).2 - (unitRange sc).1 + 1)) ∨
      (if a ≤ b then a ≤ unitNumber sc t - (unitRange sc).1 ∧ unitNumber sc t - (unitRange sc).1 < b
        else a ≤ unitNumber sc t - (unitRange sc).1 ∨ unitNumber sc t - (unitRange sc).1 < b) := by
  obtain ⟨o, ho1, ho2, ho3⟩ := unit_split sc hsc t
  have hU := unit_pos sc hsc
  have z : a * sc.unit = 0 ↔ a = 0 := by
    have := mulU_eq hU (a := a) (b := 0)
    simpa using this
  have c1 : Anchored.isFull ⟨sc, a * sc.unit, b * sc.unit⟩ = true ↔
      (a = b ∨ (a = 0 ∧ b = (unitRange sc).2 - (unitRange sc).1 + 1)) := by
    simp only [Anchored.isFull, unit_max sc hsc, Bool.or_eq_true, Bool.and_eq_true, decide_eq_true_eq,
      mulU_eq hU, z]
  by_cases hf : Anchored.isFull ⟨sc, a * sc.unit, b * sc.unit⟩ = true
  · have := c1.1 hf
    simp only [Anchored.contains, hf, if_true, true_iff]
    exact Or.inl this
  · have hn : ¬ _ := fun h => hf (c1.2 h)
    simp only [Anchored.contains, hf, if_false, ho3, Bool.false_eq_true, hn, false_or]
    have hle := mulU_le hU (a := a) (b := b)
    by_cases hab : a ≤ b
    · have : ¬ a * sc.unit > b * sc.unit := by omega
      simp only [this, hab, if_true, not_false_eq_true, Bool.and_eq_true, decide_eq_true_eq,
        mulU_le_add ho1 ho2, mulU_lt_add ho1 ho2]
    · have : a * sc.unit > b * sc.unit := by omega
      simp only [this, hab, if_false, not_true_eq_false, Bool.or_eq_true, decide_eq_true_eq, ge_iff_le,
        mulU_le_add ho1 ho2, mulU_lt_add ho1 ho2]

/-- The object built by `cls(a, b)` with integers. -/
theorem init_units (sc : Scope) (hsc : sc ≠ .year) (a b : Int)
    (ha : (unitRange sc).1 ≤ a ∧ a ≤ (unitRange sc).2) (hb : (unitRange sc).1 ≤ b ∧ b ≤ (unitRange sc).2) :
    Anchored.init sc (some (.int a)) (some (.int b)) =
      .ok ⟨sc, (a - (unitRange sc).1) * sc.unit, (b - (unitRange sc).1 + 1) * sc.unit⟩ := by
  simp only [Anchored.init, setStart, setEnd, anchorVal, anchorInt_ok sc hsc _ ha, anchorInt_ok sc hsc _ hb,
    bind, Except.bind, Option.isNone, Bool.and_self, Bool.false_eq_true,
    if_false, if_true, reduceCtorEq, Int.add_zero, pure, Except.pure]
  rw [validate_units sc hsc _ (by omega) (by omega)]
  simp only []
  rw [validate_units sc hsc _ (by omega) (by omega)]

theorem init_units_contains (sc : Scope) (hsc : sc ≠ .year) (a b : Int)
    (ha : (unitRange sc).1 ≤ a ∧ a ≤ (unitRange sc).2) (hb : (unitRange sc).1 ≤ b ∧ b ≤ (unitRange sc).2) (t : Int) :
    Anchored.contains ⟨sc, (a - (unitRange sc).1) * sc.unit, (b - (unitRange sc).1 + 1) * sc.unit⟩ t = true ↔
      InUnits a b (unitNumber sc t) := by
  rw [contains_units sc hsc]
  have hr := unitNumber_range sc t
  unfold InUnits
  generalize unitNumber sc t = n at *
  split <;> split <;> omega

/-- C06: a range of integers selects exactly the units in the range, inclusive, wrapping around when the first
is larger than the last (hours of day, weekdays 1-7, days of month 1-31, …; `TimeOfYear`: see C08). -/
theorem C06_range (sc : Scope) (hsc : sc ≠ .year) (a b : Int)
    (ha : (unitRange sc).1 ≤ a ∧ a ≤ (unitRange sc).2) (hb : (unitRange sc).1 ≤ b ∧ b ≤ (unitRange sc).2) :
    ∃ p, Anchored.init sc (some (.int a)) (some (.int b)) = .ok p ∧
      ∀ t, p.contains t = true ↔ InUnits a b (unitNumber sc t) :=
  ⟨_, init_units sc hsc a b ha hb, init_units_contains sc hsc a b ha hb⟩

/-- `TimeOfWeek(6, 1)`: Saturday to Monday. -/
example : (unitRange .week).1 ≤ 6 ∧ (6 : Int) ≤ (unitRange .week).2 ∧ InUnits 6 1 7 ∧ ¬ InUnits 6 1 3 := by
  decide

/-- C06: one integer as start only: that unit and the later ones of the cycle; as end only: that unit and the
earlier ones. -/
theorem C06_open_range (sc : Scope) (hsc : sc ≠ .year) (a : Int)
    (ha : (unitRange sc).1 ≤ a ∧ a ≤ (unitRange sc).2) :
    (∃ p, Anchored.init sc (some (.int a)) none = .ok p ∧
      ∀ t, p.contains t = true ↔ a ≤ unitNumber sc t) ∧
    (∃ p, Anchored.init sc none (some (.int a)) = .ok p ∧
      ∀ t, p.contains t = true ↔ unitNumber sc t ≤ a) := by
  refine ⟨⟨⟨sc, (a - (unitRange sc).1) * sc.unit, ((unitRange sc).2 - (unitRange sc).1 + 1) * sc.unit⟩, ?_, ?_⟩,
    ⟨⟨sc, 0 * sc.unit, (a - (unitRange sc).1 + 1) * sc.unit⟩, ?_, ?_⟩⟩
  · simp only [Anchored.init, setStart, setEnd, anchorVal, anchorInt_ok sc hsc _ ha,
      bind, Except.bind, unit_max sc hsc, Option.isNone, Bool.and_self, Bool.false_eq_true,
      if_false, if_true, reduceCtorEq, Int.add_zero, Bool.false_and, Bool.and_false, Bool.and_true, pure,
      Except.pure]
    rw [validate_units sc hsc _ (by omega) (by omega)]
    simp only []
    rw [validate_units sc hsc _ (by omega) (by omega)]
  · intro t
    rw [contains_units sc hsc]
    have hr := unitNumber_range sc t
    generalize unitNumber sc t = n at *
    split <;> omega
  · have hz := validate_units sc hsc 0 (by omega) (by omega)
    rw [Int.zero_mul] at hz
    simp only [Anchored.init, setStart, setEnd, anchorVal, anchorInt_ok sc hsc _ ha,
      bind, Except.bind, Option.isNone, Bool.and_self, Bool.false_eq_true,
      if_false, if_true, reduceCtorEq, Int.add_zero, Bool.false_and, Bool.and_false, Bool.and_true, pure,
      Except.pure, hz, Int.zero_mul]
    rw [validate_units sc hsc _ (by omega) (by omega)]
  · intro t
    rw [contains_units sc hsc]
    have hr := unitNumber_range sc t
    generalize unitNumber sc t = n at *
    split <;> omega

example : (unitRange .day).1 ≤ 9 ∧ (9 : Int) ≤ (unitRange .day).2 := by decide

/-- The object built by `cls.at(i)`. -/
theorem at_units (sc : Scope) (hsc : sc ≠ .year) (i : Int)
    (hi : (unitRange sc).1 ≤ i ∧ i ≤ (unitRange sc).2) :
    Anchored.at sc (.int i) = .ok ⟨sc, (i - (unitRange sc).1) * sc.unit,
      (if i = (unitRange sc).2 then 0 else i - (unitRange sc).1 + 1) * sc.unit⟩ := by
  have hmax := unit_max sc hsc
  have hU := unit_pos sc hsc
  have e3 : toTimepoint sc ((i - (unitRange sc).1) * sc.unit) =
      .ok ((if i = (unitRange sc).2 then 0 else i - (unitRange sc).1 + 1) * sc.unit) := by
    have h1 : toTimepoint sc ((i - (unitRange sc).1) * sc.unit) =
        .ok (if (i - (unitRange sc).1) * sc.unit + sc.unit ≥ sc.max then
          (i - (unitRange sc).1) * sc.unit + sc.unit - sc.max
          else (i - (unitRange sc).1) * sc.unit + sc.unit) := by
      cases sc <;> first | rfl | contradiction
    have h2 : (i - (unitRange sc).1) * sc.unit + sc.unit = (i - (unitRange sc).1 + 1) * sc.unit := by
      rw [Int.add_mul]; omega
    rw [h1, h2, hmax]
    have h3 := mulU_le hU (a := (unitRange sc).2 - (unitRange sc).1 + 1) (b := i - (unitRange sc).1 + 1)
    by_cases hi2 : i = (unitRange sc).2
    · rw [if_pos (by omega), if_pos hi2, hi2, Int.sub_self, Int.zero_mul]
    · rw [if_neg (by omega), if_neg hi2]
  simp only [Anchored.at, Anchored.init, setStart, setEnd, anchorVal, anchorInt_ok sc hsc _ hi,
    bind, Except.bind, Option.isNone, Bool.and_self, Bool.false_eq_true, pure, Except.pure,
    if_false, if_true, reduceCtorEq, Int.add_zero, Bool.false_and, Bool.and_false, Bool.and_true]
  rw [validate_units sc hsc _ (by omega) (by omega)]
  simp only [e3]
  rw [validate_units sc hsc _ (by split <;> omega) (by split <;> omega)]

theorem at_units_contains (sc : Scope) (hsc : sc ≠ .year) (i : Int)
    (hi : (unitRange sc).1 ≤ i ∧ i ≤ (unitRange sc).2) (t : Int) :
    Anchored.contains ⟨sc, (i - (unitRange sc).1) * sc.unit,
      (if i = (unitRange sc).2 then 0 else i - (unitRange sc).1 + 1) * sc.unit⟩ t = true ↔ unitNumber sc t = i := by
  rw [contains_units sc hsc]
  have hr := unitNumber_range sc t
  have hlo : (unitRange sc).1 < (unitRange sc).2 := by cases sc <;> decide
  generalize unitNumber sc t = n at *
  by_cases hi2 : i = (unitRange sc).2
  · simp only [hi2, if_true]; split <;> omega
  · simp only [hi2, if_false]; split <;> omega

/-- C06: `at(i)` selects exactly unit `i`. -/
theorem C06_at (sc : Scope) (hsc : sc ≠ .year) (i : Int)
    (hi : (unitRange sc).1 ≤ i ∧ i ≤ (unitRange sc).2) :
    ∃ p, Anchored.at sc (.int i) = .ok p ∧ ∀ t, p.contains t = true ↔ unitNumber sc t = i :=
  ⟨_, at_units sc hsc i hi, at_units_contains sc hsc i hi⟩

/-- `TimeOfDay.at(23)`: the last hour of the day, whose end wraps to 0. -/
example : Anchored.at .day (.int 23) = .ok ⟨.day, 23 * HOUR, 0⟩ := rfl

/-- C06: `starting(i)` covers the whole cycle, counted from the beginning of unit `i`: every instant is in the
period and rolling forward ends at the next instant at which unit `i` begins. -/
theorem C06_starting (sc : Scope) (L : Int) (hL : cycleLen sc = some L) (i : Int)
    (hi : (unitRange sc).1 ≤ i ∧ i ≤ (unitRange sc).2) :
    ∃ p, Anchored.starting sc (.int i) = .ok p ∧ (∀ t, p.contains t = true) ∧
      ∀ n dt, ∃ r, Anchored.rollforward (n + 1) p dt = .ok ⟨dt, r, .left⟩ ∧ dt < r ∧
        (unitNumber sc r = i ∧ unitNumber sc (r - 1) ≠ i) ∧
        ∀ x, dt < x → x < r → ¬ (unitNumber sc x = i ∧ unitNumber sc (x - 1) ≠ i) := by
  have hsc : sc ≠ .year := by rintro rfl; simp [cycleLen] at hL
  have hv := validate_units sc hsc (i - (unitRange sc).1) (by omega) (by omega)
  have hfull : Anchored.isFull ⟨sc, (i - (unitRange sc).1) * sc.unit, (i - (unitRange sc).1) * sc.unit⟩ = true := by
    simp [Anchored.isFull]
  have hb : Bounds ⟨sc, (i - (unitRange sc).1) * sc.unit, (i - (unitRange sc).1) * sc.unit⟩ L := by
    have h1 := validate_ok hv
    rw [cycleLen_max hL] at h1
    exact ⟨h1.1, h1.2, h1.1, h1.2⟩
  refine ⟨⟨sc, (i - (unitRange sc).1) * sc.unit, (i - (unitRange sc).1) * sc.unit⟩, ?_, ?_, ?_⟩
  · simp only [Anchored.starting, Anchored.init, setStart, setEnd, anchorVal, anchorInt_ok sc hsc _ hi,
      bind, Except.bind, Option.isNone, Bool.and_self, Bool.false_eq_true, hv, pure, Except.pure,
      if_false, if_true, reduceCtorEq, Int.add_zero, Bool.false_and, Bool.and_false, Bool.and_true]
  · intro t; simp [Anchored.contains, hfull]
  · intro n dt
    obtain ⟨r, hr1, hr2⟩ := C03_rollforward_full _ L hL hb hfull n dt
    obtain ⟨h1, h2, h3⟩ := hr2
    refine ⟨r, hr1, h1, ?_, ?_⟩
    · cases sc <;> simp [cycleLen] at hL <;> subst hL <;>
        simp only [unitNumber, microsecond, second, minute, hour, weekday, dayOf, unitRange, Scope.unit,
          toMicroseconds, DAY, HOUR, MIN, SEC, MS] at * <;> omega
    · intro x hx1 hx2
      have := h3 x hx1 hx2
      cases sc <;> simp [cycleLen] at hL <;> subst hL <;>
        simp only [unitNumber, microsecond, second, minute, hour, weekday, dayOf, unitRange, Scope.unit,
          toMicroseconds, DAY, HOUR, MIN, SEC, MS] at * <;> omega

example : cycleLen .day = some (24 * 60 * 60 * 1000000) ∧ (unitRange .day).1 ≤ 10 := by decide

/-- C06: integers outside the unit range are refused with `ValueError`, for every class but `TimeOfSecond`. -/
theorem C06_reject_partial (sc : Scope) (hsc : sc ≠ .second) (i : Int)
    (hi : ¬ ((unitRange sc).1 ≤ i ∧ i ≤ (unitRange sc).2)) :
    Anchored.at sc (.int i) = .error .value ∧ Anchored.starting sc (.int i) = .error .value ∧
    ∀ b, Anchored.init sc (some (.int i)) b = .error .value := by
  have : ∀ side, anchorInt sc i side = .error .value := by
    intro side
    cases sc <;> simp only [unitRange] at hi <;> simp only [anchorInt] <;>
      first | rw [if_neg (by omega)] | contradiction
  simp only [Anchored.at, Anchored.starting, Anchored.init, setStart, anchorVal, this, bind, Except.bind,
    Option.isNone, Bool.false_and, Bool.false_eq_true, if_false, and_self, implies_true]

example : ¬ ((unitRange .week).1 ≤ 0 ∧ (0 : Int) ≤ (unitRange .week).2) := by decide

/-- C06, finding: `TimeOfSecond` accepts 1000 although a second has milliseconds 0-999;
`TimeOfSecond.at(1000)` then means millisecond 0. -/
theorem C06_reject_violated :
    ¬ ((unitRange .second).1 ≤ 1000 ∧ (1000 : Int) ≤ (unitRange .second).2) ∧
    ∃ p, Anchored.at .second (.int 1000) = .ok p ∧ p.contains 0 = true ∧ p.contains 999999 = false :=
  ⟨by decide, ⟨.second, SEC, 1000⟩, by decide, by decide, by decide⟩

end Rocketry.Props
