import Verif.Time.CronLemmas
import Mathlib.Tactic.ByContra

/-!
# C18-C20: cron expressions
-/

namespace Rocketry.Props
open Rocketry Spec

theorem leaf_plain {p : Period} (h : CronLeaf p) : Plain p ∧ ∀ t, Clean t p := by
  rcases h with ⟨a, rfl, ha⟩ | ⟨as, _, rfl, ha⟩
  · refine ⟨?_, fun t => ?_⟩
    · rw [Plain]; exact ⟨ha.1, ha.2.1⟩
    · simp [Clean]
  · refine ⟨?_, fun t => ?_⟩
    · rw [Plain]
      intro p hp
      obtain ⟨a, ha', rfl⟩ := List.mem_map.1 hp
      rw [Plain]; exact ⟨(ha a ha').1, (ha a ha').2.1⟩
    · rw [Clean]
      intro p hp
      obtain ⟨a, ha', rfl⟩ := List.mem_map.1 hp
      simp [NoEnd]

theorem join_plain {ms : List Period} (h : ∀ p ∈ ms, CronLeaf p) : Plain (joinP ms) ∧ ∀ t, Clean t (joinP ms) := by
  match ms with
  | [] => simp [joinP, Plain, Clean]
  | [p] => exact leaf_plain (h p (by simp))
  | p :: q :: l =>
    rw [joinP]
    · refine ⟨?_, fun t => ?_⟩
      · rw [Plain]; exact fun r hr => (leaf_plain (h r hr)).1
      · rw [Clean]; exact fun r hr => (leaf_plain (h r hr)).2 t
    · simp

/-- C18: whenever `dt in Cron(...)` returns, it says whether the fields match; with a month field the last
microsecond of a month is excluded (see `C18_month_violated`). -/
theorem C18_contains_partial (c : CronExpr) (hc : ValidCron c) (dt : Int) (hd : dt < MAXT)
    (hm : ¬ Unrestricted c.month → ¬ IsLastMicro (month dt) dt) (n : Nat) (b : Bool)
    (h : c.contains n dt = .ok b) : b = true ↔ CronMatches c dt := by
  obtain ⟨ms, h1, h2⟩ := subperiod_ok c hc
  have hp := join_plain h2.leaf
  simp only [CronExpr.contains, CronExpr.rollforward, h1, bindE] at h
  cases hr : (joinP ms).rollforward n dt with
  | error e => simp [hr] at h
  | ok i =>
    simp only [hr, Except.ok.injEq] at h
    have hw := rollforward_weak n _ dt i hp.1 hr
    have hw2 := (hw.2.2.2 hd).1 (hp.2 dt)
    rw [← h, ← h2.sem dt hm, ← sem_join, hw2]
    simp [Interval.contains, hw.1]

/-- "*/15 8-17 * * mon-fri" as read from text. -/
def officeHours : CronExpr :=
  ⟨[.starStep 15], [.range (.num 8) (.num 17) none], [.star], [.star], [.range (.name 0) (.name 4) none]⟩

example : (match parseCron "*/15" "8-17" "*" "*" "Mon-fri" with
    | .ok c => decide (c.minute = officeHours.minute ∧ c.hour = officeHours.hour ∧
        c.dayOfMonth = officeHours.dayOfMonth ∧ c.month = officeHours.month ∧ c.dayOfWeek = officeHours.dayOfWeek)
    | .error _ => false) = true := by decide +kernel

theorem officeHours_valid : ValidCron officeHours where
  minute := ⟨by simp [officeHours], Or.inr (by simp [officeHours, ValidItem])⟩
  hour := ⟨by simp [officeHours], Or.inr (by simp [officeHours, ValidItem, ValidVal, cronNumber, unitRange])⟩
  dayOfMonth := ⟨by simp [officeHours], Or.inl (by simp [officeHours])⟩
  month := ⟨by simp [officeHours], Or.inl (by simp [officeHours])⟩
  dayOfWeek := ⟨by simp [officeHours], Or.inr (by simp [officeHours, ValidItem, ValidVal, cronNumber, unitRange])⟩

/-- Tuesday 2024-05-07 09:30:20 matches, 09:31 does not, Sunday does not. -/
example : officeHours.contains 20 (datetime 2024 5 7 9 30 20) = .ok true ∧
    officeHours.contains 20 (datetime 2024 5 7 9 31) = .ok false ∧
    officeHours.contains 20 (datetime 2024 5 5 9 30) = .ok false := by decide +kernel

/-- C18 is false with a month field at the last microsecond of the month: `Cron("*", "*", "*", "3", "*")`
does not contain 2024-03-31 23:59:59.999999 though every field matches. -/
theorem C18_month_violated :
    let c : CronExpr := ⟨[.star], [.star], [.star], [.at (.num 3) none], [.star]⟩
    ValidCron c ∧ CronMatches c (datetime 2024 3 31 23 59 59 999999) ∧
      c.contains 20 (datetime 2024 3 31 23 59 59 999999) = .ok false := by
  refine ⟨⟨?_, ?_, ?_, ?_, ?_⟩, ?_, by decide +kernel⟩
  · exact ⟨by simp, Or.inl (by simp)⟩
  · exact ⟨by simp, Or.inl (by simp)⟩
  · exact ⟨by simp, Or.inl (by simp)⟩
  · exact ⟨by simp, Or.inr (by simp [ValidItem, ValidVal, cronNumber, unitRange])⟩
  · exact ⟨by simp, Or.inl (by simp)⟩
  · have hm : month (datetime 2024 3 31 23 59 59 999999) = 3 := by decide +kernel
    refine ⟨⟨.star, by simp, trivial⟩, ⟨.star, by simp, trivial⟩, ⟨_, List.mem_singleton.2 rfl, ?_⟩,
      Or.inr ⟨Or.inl (by simp [Unrestricted]), ⟨.star, by simp, trivial⟩, ⟨.star, by simp, trivial⟩⟩⟩
    rw [hm]; rfl

/-- C18: a `*` next to other items of a list is ignored: `"*,5"` as hour means 5 only, although the list as such
selects every hour. -/
theorem C18_star_in_list_violated :
    let c : CronExpr := ⟨[.star], [.star, .at (.num 5) none], [.star], [.star], [.star]⟩
    fieldSelects .day c.hour 7 ∧ c.contains 20 (datetime 2024 3 31 7) = .ok false ∧
      c.contains 20 (datetime 2024 3 31 5) = .ok true :=
  ⟨⟨.star, by simp, trivial⟩, by decide +kernel, by decide +kernel⟩

/-- C18: `x/n` with a single number is `x` intersected with every `n`-th: `"4/2"` is just 4, and `"5/2"` is never
true (and asking exhausts the recursion). -/
theorem C18_single_step_violated :
    let c : CronExpr := ⟨[.at (.num 4) (some 2)], [.star], [.star], [.star], [.star]⟩
    let d : CronExpr := ⟨[.at (.num 5) (some 2)], [.star], [.star], [.star], [.star]⟩
    c.contains 20 (datetime 2024 3 31 7 4) = .ok true ∧ c.contains 20 (datetime 2024 3 31 7 6) = .ok false ∧
      d.contains 20 (datetime 2024 3 31 7 5) = .error .recursion := by
  decide +kernel

/-- C18: the 31st of the month: membership raises `ValueError` when asked in February. -/
theorem C18_day31_violated :
    let c : CronExpr := ⟨[.star], [.star], [.at (.num 31) none], [.star], [.star]⟩
    ValidCron c ∧ c.contains 20 (datetime 2024 2 10) = .error .value := by
  refine ⟨⟨?_, ?_, ?_, ?_, ?_⟩, by decide +kernel⟩
  · exact ⟨by simp, Or.inl (by simp)⟩
  · exact ⟨by simp, Or.inl (by simp)⟩
  · exact ⟨by simp, Or.inr (by simp [ValidItem, ValidVal, cronNumber, unitRange])⟩
  · exact ⟨by simp, Or.inl (by simp)⟩
  · exact ⟨by simp, Or.inl (by simp)⟩

/-! ### C19 -/

/-- C19, where it holds: `a-b` with step `n` in the minute and hour fields, and with names in the weekday and month
fields, is a period whose instants are exactly those with number `a, a+n, …` up to `b`. -/
theorem C19_steps_partial (sc : Scope) (hsc : CronScope sc) (a b : CVal) (n : Nat)
    (h : ValidItem sc (.range a b (some n))) :
    ∃ p, itemPeriod sc (.range a b (some n)) = .ok (some p) ∧
      ∀ t, YearOk sc t → (sem p t ↔ ∃ k : Nat, unitNumber sc t = cronNumber sc a + k * n ∧
        unitNumber sc t ≤ cronNumber sc b) := by
  obtain ⟨p, h1, h2⟩ := itemPeriod_selects sc hsc _ h (by simp)
  refine ⟨p, h1, fun t ht => ?_⟩
  have hn : 0 < n := h.1
  rw [h2.sem t ht]
  simp only [itemSelects]
  constructor
  · rintro ⟨g1, g2, g3⟩
    refine ⟨((unitNumber sc t - cronNumber sc a) / n).toNat, ?_, g2⟩
    have hd : 0 ≤ (unitNumber sc t - cronNumber sc a) / n := Int.ediv_nonneg (by omega) (by omega)
    rw [Int.toNat_of_nonneg hd]
    have := Int.mul_ediv_add_emod (unitNumber sc t - cronNumber sc a) n
    rw [Int.mul_comm]
    omega
  · rintro ⟨k, g1, g2⟩
    have : 0 ≤ (k : Int) * n := Int.mul_nonneg (by omega) (by omega)
    refine ⟨by omega, g2, ?_⟩
    rw [g1, show cronNumber sc a + (k : Int) * n - cronNumber sc a = (k : Int) * n by omega]
    exact Int.mul_emod_left _ _

example : ValidItem .hour (.range (.num 10) (.num 40) (some 15)) ∧
    ValidItem .week (.range (.name 0) (.name 4) (some 2)) := by
  refine ⟨?_, ?_⟩ <;> simp [ValidItem, ValidVal, cronNumber, unitRange]

/-- C19 is false for numbers in the fields that count from 1: `a-b` with step `n` selects the numbers
`a+1, a+1+n, …` up to `b+1`. -/
theorem C19_off_by_one_violated (sc : Scope) (hsc : sc = .month ∨ sc = .year ∨ sc = .week) (a b : Int) (n : Nat)
    (hn : 0 < n) (ha : 1 ≤ a) (hab : a ≤ b) (hb : b < (unitRange sc).2) :
    ∃ p, itemPeriod sc (.range (.num a) (.num b) (some n)) = .ok (some p) ∧
      ∀ t, YearOk sc t → (sem p t ↔ a + 1 ≤ unitNumber sc t ∧ unitNumber sc t ≤ b + 1 ∧
        (unitNumber sc t - (a + 1)) % (n : Int) = 0) := by
  have hsc' : CronScope sc := by rcases hsc with rfl | rfl | rfl <;> simp [CronScope]
  have hlo : (unitRange sc).1 = 1 := by rcases hsc with rfl | rfl | rfl <;> rfl
  have hc := unitCount_range sc hsc'
  have hi : cronIdx sc (.num a) = a ∧ cronIdx sc (.num b) = b := by
    rcases hsc with rfl | rfl | rfl
    · exact ⟨rfl, rfl⟩
    · exact ⟨rfl, rfl⟩
    · simp only [cronIdx, cronConv]
      rw [if_neg (by omega), if_neg (by omega)]; exact ⟨rfl, rfl⟩
  obtain ⟨p0, h0, -⟩ := createRange_selects sc hsc' none none n hn (by simp) (by simp; omega) (by simp; omega)
  obtain ⟨p, h1, h2⟩ := createRange_selects sc hsc' (some a) (some (b + 1)) n hn
    (by simp; omega) (by simp; omega) (by simp; omega)
  refine ⟨p, by simp only [itemPeriod, hi, h0, h1], fun t ht => ?_⟩
  rw [h2.sem t ht]
  simp only [Option.getD_some, hlo]
  rw [show unitNumber sc t - 1 - a = unitNumber sc t - (a + 1) by omega]
  constructor <;> rintro ⟨g1, g2, g3⟩ <;> exact ⟨by omega, by omega, g3⟩

/-- `"1-7/2"` as day of month does not contain the 1st, and contains the 2nd. -/
example : let c : CronExpr := ⟨[.star], [.star], [.range (.num 1) (.num 7) (some 2)], [.star], [.star]⟩
    c.contains 20 (datetime 2024 3 1) = .ok false ∧ c.contains 20 (datetime 2024 3 2) = .ok true := by
  decide +kernel

/-- `"6-7/1"` as day of week: the position 7 does not exist and Saturday is lost; `"7-7/1"` raises. -/
example : let c : CronExpr := ⟨[.star], [.star], [.star], [.star], [.range (.num 6) (.num 7) (some 1)]⟩
    let d : CronExpr := ⟨[.star], [.star], [.star], [.star], [.range (.num 7) (.num 7) (some 1)]⟩
    c.contains 20 (datetime 2024 3 2) = .ok false ∧ c.contains 20 (datetime 2024 3 3) = .ok true ∧
    d.contains 20 (datetime 2024 3 3) = .error .value := by
  decide +kernel

/-! ### C20 -/

theorem good_right {a : Anchored} (ha : Good a) (hy : a.scope ≠ .year) : ∀ {n : Nat} {dt : Int} {i : Interval},
    Anchored.rollforward n a dt = .ok i → i.right % MIN = 0 := by
  have hend : ∀ dt, a.nextEnd dt % MIN = 0 := by
    intro dt
    have hst := (ha.2.2.1 hy).2.1
    have hbase : (dt - anchorDt a.scope dt) % MIN = 0 ∧ scopeForward a.scope dt % MIN = 0 := by
      by_cases hm : a.scope = .month
      · rw [hm, month_base]
        simp only [scopeForward, DAY, MIN]
        omega
      · obtain ⟨L, hL⟩ : ∃ L, cycleLen a.scope = some L := by
          generalize hs : a.scope = sc at *
          cases sc <;> simp_all [cycleLen]
        have hs1 := (ha.2.2.1 hy).2.2.2.2
        rw [anchorDt_fixed hL, cycleLen_fwd hL]
        generalize a.scope = sc at *
        cases sc <;> simp [cycleLen] at hL <;> subst hL <;> simp only [MIN] <;> first | omega | contradiction
    unfold Anchored.nextEnd
    simp only
    simp only [MIN] at *
    split <;> omega
  intro n
  induction n with
  | zero => intro dt i h; simp [Anchored.rollforward] at h
  | succ n ih =>
    intro dt i h
    unfold Anchored.rollforward at h
    split at h
    · simp only at h
      split at h <;> rw [Interval.make_ok] at h <;> obtain ⟨_, rfl⟩ := h <;> exact hend _
    · simp only at h
      split at h
      · exact ih h
      · rw [Interval.make_ok] at h
        obtain ⟨_, rfl⟩ := h
        exact hend _

theorem leaf_right {p : Period} (hp : CronLeaf p) (hy : ∀ a, Inside a p → a.scope ≠ .year) {n : Nat} {dt : Int}
    {i : Interval} (h : p.rollforward n dt = .ok i) : i.right % MIN = 0 := by
  cases n with
  | zero => simp [Period.rollforward] at h
  | succ n =>
    rcases hp with ⟨a, rfl, ha⟩ | ⟨as, _, rfl, ha⟩
    · simp only [Period.rollforward] at h
      exact good_right ha (hy a (Or.inl rfl)) h
    · simp only [Period.rollforward] at h
      cases hm : mapE (fun p => Period.rollforward n p dt) (as.map .anchored) with
      | error e => simp [hm] at h
      | ok is =>
        simp only [hm] at h
        obtain ⟨j, hj, he⟩ := (mergeForward_ok h).2.2.2.2
        obtain ⟨p, hp, hpj⟩ := (mapE_ok hm).2.1 j hj
        obtain ⟨a, ha', rfl⟩ := List.mem_map.1 hp
        rw [he]
        cases n with
        | zero => simp [Period.rollforward] at hpj
        | succ n =>
          simp only [Period.rollforward] at hpj
          exact good_right (ha a ha') (hy a (Or.inr ⟨_, rfl, List.mem_map.2 ⟨a, ha', rfl⟩⟩)) hpj

/-- The last round of `All.rollforward`. -/
theorem all_unroll {ps : List Period} : ∀ {n : Nat} {dt : Int} {i : Interval},
    (Period.all ps).rollforward n dt = .ok i → ∃ m dt' is, mapE (fun p => Period.rollforward m p dt') ps = .ok is ∧
      reduceAnd is = .ok i
  | 0, dt, i, h => by simp [Period.rollforward] at h
  | n + 1, dt, i, h => by
    simp only [Period.rollforward] at h
    cases hm : mapE (fun p => Period.rollforward n p dt) ps with
    | error e => simp [hm] at h
    | ok is =>
      simp only [hm] at h
      by_cases ho : allOverlap is = true
      · rw [if_pos ho] at h
        exact ⟨n, dt, is, hm, h⟩
      · rw [if_neg ho] at h
        cases hl : maxLeft is with
        | error e => simp [hl] at h
        | ok next =>
          simp only [hl] at h
          exact all_unroll h

theorem minutely_roll {n : Nat} {dt : Int} {i : Interval} (h : (Period.anchored minutely).rollforward n dt = .ok i) :
    i = ⟨dt, (dt / MIN + 1) * MIN, .left⟩ := by
  cases n with
  | zero => simp [Period.rollforward] at h
  | succ n =>
    simp only [Period.rollforward] at h
    have hf : minutely.isFull = true := by decide
    have he : minutely.nextEnd dt = (dt / MIN + 1) * MIN := by
      have : anchorDt minutely.scope dt = dt % (60 * 1000000) := anchorDt_fixed rfl dt
      simp only [Anchored.nextEnd, this]
      have hlt : dt % (60 * 1000000) < minutely.stop := by
        simp only [minutely, Scope.max, toMicroseconds]; omega
      rw [if_pos hlt]
      simp only [minutely, Scope.max, toMicroseconds, MIN]
      omega
    unfold Anchored.rollforward at h
    simp only [hf, if_true, he] at h
    rw [if_neg (by simp only [MIN]; omega), Interval.make_ok] at h
    exact h.2

/-- The end of the span: the end of the minute in which it starts. -/
theorem join_right {ms : List Period} (hmin : .anchored minutely ∈ ms) (hleaf : ∀ p ∈ ms, CronLeaf p)
    (hy : ∀ p ∈ ms, ∀ a, Inside a p → a.scope ≠ .year) {n : Nat} {dt : Int} {i : Interval}
    (h : (joinP ms).rollforward n dt = .ok i) (hlt : i.left < i.right) : i.right = (i.left / MIN + 1) * MIN := by
  have key : ∀ l : List Period, (∀ p ∈ l, CronLeaf p) → (∀ p ∈ l, ∀ a, Inside a p → a.scope ≠ .year) →
      .anchored minutely ∈ l → (Period.all l).rollforward n dt = .ok i → i.right = (i.left / MIN + 1) * MIN := by
    intro l hl hy hmin h
    obtain ⟨m, dt', is, h1, h2⟩ := all_unroll h
    have hm := mapE_ok h1
    have hcl : ∀ j ∈ is, j.closed = .left := by
      intro j hj
      obtain ⟨p, hp, hpj⟩ := hm.2.1 j hj
      exact (rollforward_weak _ _ _ _ (leaf_plain (hl p hp)).1 hpj).1
    obtain ⟨r1, r2, r3, r4⟩ := reduceAnd_left hcl h2
    obtain ⟨j, hj, hjr⟩ := hm.1 _ hmin
    have hj' := minutely_roll hjr
    have b := r2 j hj
    rw [hj'] at b
    simp only at b
    obtain ⟨k, hk, hkr⟩ := r4
    obtain ⟨p, hp, hpk⟩ := hm.2.1 k hk
    have hal := leaf_right (hl p hp) (hy p hp) hpk
    rw [← hkr] at hal
    simp only [MIN] at *
    omega
  match ms, hmin with
  | [p], hmin =>
    simp only [List.mem_singleton] at hmin
    subst hmin
    have := minutely_roll h
    rw [this]
  | p :: q :: l, hmin =>
    rw [joinP] at h
    · exact key _ hleaf hy hmin h
    · simp

theorem leaf_fwd {p : Period} (h : CronLeaf p) (hf : ∀ a, Inside a p → Forward a) : Fwd p ∧ ∀ lo hi, Live p lo hi := by
  rcases h with ⟨a, rfl, ha⟩ | ⟨as, hne, rfl, ha⟩
  · refine ⟨?_, fun _ _ => ?_⟩
    · rw [Fwd]; exact hf a (Or.inl rfl)
    · simp [Live]
  · have hin : ∀ a ∈ as, Inside a (.any (as.map .anchored)) := fun a ha =>
      Or.inr ⟨_, rfl, List.mem_map.2 ⟨a, ha, rfl⟩⟩
    refine ⟨?_, fun _ _ => ?_⟩
    · rw [Fwd]
      intro p hp
      obtain ⟨a, ha', rfl⟩ := List.mem_map.1 hp
      rw [Fwd]; exact hf a (hin a ha')
    · rw [Live]
      refine ⟨by simpa using hne, ?_⟩
      intro p hp
      obtain ⟨a, ha', rfl⟩ := List.mem_map.1 hp
      simp [Live]

/-- Every valid field selects some number. -/
theorem field_some (sc : Scope) (items : List CItem) (hv : ValidField sc items) :
    ∃ v, (unitRange sc).1 ≤ v ∧ v ≤ (unitRange sc).2 ∧ fieldSelects sc items v ∧
      (sc = .month → (∀ i ∈ items, EarlyItem sc i) → v ≤ 28) := by
  have hlo : (unitRange sc).1 ≤ (unitRange sc).2 := by cases sc <;> decide
  obtain ⟨hne, hv⟩ := hv
  match items, hne with
  | i :: l, _ =>
    have hi : i = .star ∨ (i ≠ .star ∧ ValidItem sc i) := by
      rcases hv with hv | hv
      · exact Or.inl (hv i (by simp))
      · exact Or.inr (hv i (by simp))
    have fin : ∀ v, itemSelects sc i v → fieldSelects sc (i :: l) v := fun v h => ⟨i, by simp, h⟩
    cases i with
    | star => exact ⟨(unitRange sc).1, by omega, hlo, fin _ trivial, by rintro rfl _; decide⟩
    | starStep n =>
      refine ⟨(unitRange sc).1, by omega, hlo, fin _ ?_, by rintro rfl _; decide⟩
      simp [itemSelects]
    | «at» v st =>
      have hi := hi.resolve_left (by simp)
      cases st with
      | some n => exact absurd hi.2 (by simp [ValidItem])
      | none =>
        have hv : ValidVal sc v := hi.2
        refine ⟨cronNumber sc v, hv.1, hv.2.1, fin _ rfl, ?_⟩
        rintro rfl h
        exact h (.at v none) (by simp)
    | range a b st =>
      have hi := hi.resolve_left (by simp)
      cases st with
      | none =>
        have hv : ValidVal sc a ∧ ValidVal sc b := hi.2
        refine ⟨cronNumber sc a, hv.1.1, hv.1.2.1, fin _ ?_, ?_⟩
        · simp only [itemSelects, InUnits]
          split <;> omega
        · rintro rfl h
          have := h (.range a b none) (by simp)
          exact this.1
      | some n =>
        have hv : ValidItem sc (.range a b (some n)) := hi.2
        simp only [ValidItem] at hv
        refine ⟨cronNumber sc a, hv.2.1.1, hv.2.1.2.1, fin _ ?_, ?_⟩
        · simp only [itemSelects]
          exact ⟨by omega, hv.2.2.2.1, by simp⟩
        · rintro rfl h
          have := h (.range a b (some n)) (by simp)
          exact absurd this (by simp [EarlyItem])

/-- Some later day has the wanted weekday; some later day has the wanted day of the month. -/
theorem later_weekday (dt w h m : Int) (hw : 1 ≤ w ∧ w ≤ 7) (hh : 0 ≤ h ∧ h ≤ 23) (hm : 0 ≤ m ∧ m ≤ 59) :
    ∃ x, dt ≤ x ∧ minute x = m ∧ hour x = h ∧ weekday x + 1 = w := by
  refine ⟨(dt / DAY + 1 + (w - 1 - (dt / DAY + 1)) % 7) * DAY + h * HOUR + m * MIN, ?_, ?_, ?_, ?_⟩ <;>
    simp only [minute, hour, weekday, dayOf, DAY, HOUR, MIN] <;> omega

theorem later_day (dt d h m : Int) (hd : 1 ≤ d ∧ d ≤ 28) (hh : 0 ≤ h ∧ h ≤ 23) (hm : 0 ≤ m ∧ m ≤ 59) :
    ∃ x, dt ≤ x ∧ minute x = m ∧ hour x = h ∧ day x = d := by
  have hmr := month_range dt
  have hn := dayNum_next (year dt) (month dt) hmr.1 hmr.2
  have hr := nextMonth_range (year dt) (month dt) hmr.1 hmr.2
  generalize nextMonth (year dt) (month dt) = q at hn hr
  have hdm := Cal.daysInMonth_range q.1 q.2
  have hb := month_base dt
  have hl := anchorDt_month_lt dt
  unfold monthLen at hl
  have hf := dayNum_first q.1 q.2 d
  generalize hx : Cal.dayNum q.1 q.2 d * DAY + h * HOUR + m * MIN = x
  have e1 : dayOf x = Cal.dayNum q.1 q.2 d := by
    simp only [dayOf, DAY, HOUR, MIN] at *; omega
  have := ymd_unique x q.1 q.2 d hr ⟨by omega, by omega⟩ (by rw [e1])
  refine ⟨x, ?_, ?_, ?_, this.2.2⟩
  · simp only [DAY, HOUR, MIN] at *; omega
  · simp only [minute, DAY, HOUR, MIN] at *; omega
  · simp only [hour, DAY, HOUR, MIN] at *; omega

theorem cron_matches_later (c : CronExpr) (hc : ValidCron c) (hmon : Unrestricted c.month)
    (hdom : ∀ i ∈ c.dayOfMonth, EarlyItem .month i) (dt : Int) : ∃ x, dt ≤ x ∧ CronMatches c x := by
  obtain ⟨m, m1, m2, m3, -⟩ := field_some .hour c.minute hc.minute
  obtain ⟨h, h1, h2, h3, -⟩ := field_some .day c.hour hc.hour
  obtain ⟨w, w1, w2, w3, -⟩ := field_some .week c.dayOfWeek hc.dayOfWeek
  obtain ⟨d, d1, d2, d3, d4⟩ := field_some .month c.dayOfMonth hc.dayOfMonth
  replace d4 := d4 rfl hdom
  simp only [unitRange] at *
  have free : ∀ {sc : Scope} {items : List CItem}, ValidField sc items → Unrestricted items →
      ∀ v, fieldSelects sc items v := by
    intro sc items hv hu v
    cases items with
    | nil => exact absurd rfl hv.1
    | cons i l => exact ⟨i, by simp, by rw [hu i (by simp)]; trivial⟩
  have hmo := free hc.month hmon
  by_cases hud : Unrestricted c.dayOfMonth
  · obtain ⟨x, x1, x2, x3, x4⟩ := later_weekday dt w h m ⟨w1, w2⟩ ⟨h1, h2⟩ ⟨m1, m2⟩
    refine ⟨x, x1, by rw [x2]; exact m3, by rw [x3]; exact h3, hmo _, Or.inr ⟨Or.inl hud, free hc.dayOfMonth hud _, ?_⟩⟩
    rw [x4]; exact w3
  · obtain ⟨x, x1, x2, x3, x4⟩ := later_day dt d h m ⟨d1, d4⟩ ⟨h1, h2⟩ ⟨m1, m2⟩
    by_cases huw : Unrestricted c.dayOfWeek
    · exact ⟨x, x1, by rw [x2]; exact m3, by rw [x3]; exact h3, hmo _,
        Or.inr ⟨Or.inr huw, by rw [x4]; exact d3, free hc.dayOfWeek huw _⟩⟩
    · exact ⟨x, x1, by rw [x2]; exact m3, by rw [x3]; exact h3, hmo _,
        Or.inl ⟨hud, huw, Or.inl (by rw [x4]; exact d3)⟩⟩

/-- C20: without month field, and with days of the month that every month has, rolling forward from any `dt`
returns a span that starts at the earliest matching instant at or after `dt` and ends at the end of its minute. -/
theorem C20_rollforward (c : CronExpr) (hc : ValidCron c) (hmon : Unrestricted c.month)
    (hdom : ∀ i ∈ c.dayOfMonth, EarlyItem .month i) (dt : Int) :
    ∃ N l, (∀ n, N ≤ n → c.rollforward n dt = .ok ⟨l, (l / MIN + 1) * MIN, .left⟩) ∧ dt ≤ l ∧ CronMatches c l ∧
      ∀ x, dt ≤ x → x < l → ¬ CronMatches c x := by
  obtain ⟨ms, h1, h2⟩ := subperiod_ok c hc
  obtain ⟨x, hx1, hx2⟩ := cron_matches_later c hc hmon hdom dt
  have hsem : ∀ t, (∀ p ∈ ms, sem p t) ↔ CronMatches c t := fun t => h2.sem t (fun h => absurd hmon h)
  have hf := h2.fwd (fun _ _ => trivial) (fun _ _ => trivial) hdom (fun _ _ => trivial) hmon
  have hy : ∀ p ∈ ms, ∀ a, Inside a p → a.scope ≠ .year := fun p hp a ha h => h2.scope p hp a ha h hmon
  have hlf : ∀ p ∈ ms, Fwd p ∧ ∀ lo hi, Live p lo hi := fun p hp => leaf_fwd (h2.leaf p hp) (fun a ha => (hf p hp a ha).1)
  have hne : ms ≠ [] := by
    intro h; have := h2.minute; rw [h] at this; simp at this
  have hj : Fwd (joinP ms) ∧ Live (joinP ms) dt dt := by
    match ms, hne with
    | [p], _ => exact ⟨(hlf p (by simp)).1, (hlf p (by simp)).2 dt dt⟩
    | p :: q :: l, _ =>
      rw [joinP]
      · refine ⟨?_, ?_⟩
        · rw [Fwd]; exact fun r hr => (hlf r hr).1
        · rw [Live]
          refine ⟨by simp, x, hx1, ?_, fun r hr => (hlf r hr).2 dt x⟩
          rw [sem]; exact (hsem x).2 hx2
      · simp
  obtain ⟨N, hN⟩ := rollforward_live (joinP ms) dt dt hj.1 hj.2
  obtain ⟨i, hi, g1, g2⟩ := hN N (by omega) dt (by omega) (by omega)
  have hs := rollforward_span N (joinP ms) dt i hj.1 hi
  have hr := join_right h2.minute h2.leaf hy hi g2
  have hcl := hs.closed
  have hin := hs.inside i.left (by omega) g2
  have hnb := hs.none_before
  rcases i with ⟨l, r, cl⟩
  simp only at hr hcl g1 g2 hin hnb
  subst hr hcl
  refine ⟨N, l, ?_, g1, ?_, ?_⟩
  · intro n hn
    simp only [CronExpr.rollforward, h1, bindE]
    exact rollforward_le hn hi
  · rw [← hsem, ← sem_join]; exact hin
  · intro y hy1 hy2
    rw [← hsem, ← sem_join]
    exact hnb y hy1 hy2

/-- From Friday 2024-05-10 17:50:30 the next office quarter is Monday 08:00; inside a matching minute the span
starts at once. -/
example : officeHours.rollforward 60 (datetime 2024 5 10 17 50 30) =
      .ok ⟨datetime 2024 5 13 8, datetime 2024 5 13 8 1, .left⟩ ∧
    officeHours.rollforward 60 (datetime 2024 5 10 17 45 30) =
      .ok ⟨datetime 2024 5 10 17 45 30, datetime 2024 5 10 17 46, .left⟩ := by decide +kernel

example : Unrestricted officeHours.month ∧ ∀ i ∈ officeHours.dayOfMonth, EarlyItem .month i := by
  simp [officeHours, Unrestricted, EarlyItem]

/-- C18: under the same conditions membership is always answered. -/
theorem C18_answers (c : CronExpr) (hc : ValidCron c) (hmon : Unrestricted c.month)
    (hdom : ∀ i ∈ c.dayOfMonth, EarlyItem .month i) (dt : Int) :
    ∃ N, ∀ n, N ≤ n → ∃ b, c.contains n dt = .ok b ∧ (b = true ↔ CronMatches c dt) := by
  obtain ⟨N, l, h1, h2, h3, h4⟩ := C20_rollforward c hc hmon hdom dt
  refine ⟨N, fun n hn => ⟨Interval.contains ⟨l, (l / MIN + 1) * MIN, .left⟩ dt,
    by simp only [CronExpr.contains, h1 n hn, bindE], ?_⟩⟩
  simp only [Interval.contains]
  by_cases he : l = dt
  · subst he
    simp only [h3, iff_true]
    simp [MIN]; omega
  · have : ¬ CronMatches c dt := h4 dt (by omega) (by omega)
    simp only [this, iff_false]
    simp; omega

/-- C20 is false with a month field: in a year that is not a leap year `Cron("0 0 1 3 *")` rolled forward from
February misses 1 March. -/
theorem C20_month_violated :
    let c : CronExpr := ⟨[.at (.num 0) none], [.at (.num 0) none], [.at (.num 1) none], [.at (.num 3) none], [.star]⟩
    CronMatches c (datetime 2023 3 1) ∧
      c.rollforward 90 (datetime 2023 2 1) = .ok ⟨datetime 2024 3 1, datetime 2024 3 1 0 1, .left⟩ := by
  refine ⟨?_, by decide +kernel⟩
  have e : minute (datetime 2023 3 1) = 0 ∧ hour (datetime 2023 3 1) = 0 ∧ month (datetime 2023 3 1) = 3 ∧
      day (datetime 2023 3 1) = 1 := by decide +kernel
  obtain ⟨e1, e2, e3, e4⟩ := e
  refine ⟨⟨_, List.mem_singleton.2 rfl, ?_⟩, ⟨_, List.mem_singleton.2 rfl, ?_⟩, ⟨_, List.mem_singleton.2 rfl, ?_⟩,
    Or.inr ⟨Or.inr (by simp [Unrestricted]), ⟨_, List.mem_singleton.2 rfl, ?_⟩, ⟨.star, by simp, trivial⟩⟩⟩
  · rw [e1]; rfl
  · rw [e2]; rfl
  · rw [e3]; rfl
  · rw [e4]; rfl

/-! ### texts -/

theorem names_ok (sc : Scope) : ∀ k : Fin (cronNames sc).length,
    parseVal sc (showVal sc (.name k.val)) = .ok (.name k.val) ∧ ',' ∉ showVal sc (.name k.val) ∧
      '/' ∉ showVal sc (.name k.val) ∧ '-' ∉ showVal sc (.name k.val) ∧ showVal sc (.name k.val) ≠ ['*'] := by
  cases sc <;> decide +kernel

theorem digits_no {l : List Char} (h : ∀ c ∈ l, '0' ≤ c ∧ c ≤ '9') : ',' ∉ l ∧ '/' ∉ l ∧ '-' ∉ l ∧ '*' ∉ l := by
  refine ⟨?_, ?_, ?_, ?_⟩ <;> intro hc <;> exact absurd (h _ hc) (by decide)

theorem showVal_ok (sc : Scope) (v : CVal) (hv : Writable sc v) :
    parseVal sc (showVal sc v) = .ok v ∧ ',' ∉ showVal sc v ∧ '/' ∉ showVal sc v ∧ '-' ∉ showVal sc v ∧
      showVal sc v ≠ ['*'] := by
  cases v with
  | num n =>
    have hn : 0 ≤ n := hv
    have hd := digits_no (showNat_digits n.toNat)
    refine ⟨?_, hd.1, hd.2.1, hd.2.2.1, ?_⟩
    · unfold parseVal showVal
      rw [if_pos (isDigits_showNat _), digitsVal_showNat, Int.toNat_of_nonneg hn]
    · intro h
      exact hd.2.2.2 (by simp only [showVal] at h; rw [h]; simp)
  | name k =>
    obtain ⟨h0, h1⟩ := hv
    have := names_ok sc ⟨k.toNat, by omega⟩
    simpa [Int.toNat_of_nonneg h0] using this

theorem showStep_ok (st : Option Nat) : ',' ∉ showStep st := by
  cases st with
  | none => simp [showStep]
  | some n => simp [showStep, (digits_no (showNat_digits n)).1]

/-- `e/n` is split at the slash. -/
theorem parseItem_step (sc : Scope) (e : List Char) (st : Option Nat) (he : '/' ∉ e) :
    parseItem sc (e ++ showStep st) = parseRange sc e st := by
  cases st with
  | none => simp [showStep, parseItem, he]
  | some n =>
    have hn := (digits_no (showNat_digits n)).2.1
    unfold parseItem
    rw [if_pos (by simp [showStep]), showStep, splitChar_cons _ he, splitChar_no hn]
    simp only [isDigits_showNat, if_true, digitsVal_showNat]

theorem parseItem_show (sc : Scope) (i : CItem) (hi : WritableItem sc i) : parseItem sc (showItem sc i) = .ok i := by
  cases i with
  | star => have := parseItem_step sc ['*'] none (by simp); simpa [showStep, showItem, parseRange] using this
  | starStep n =>
    have := parseItem_step sc ['*'] (some n) (by simp)
    simpa [showStep, showItem, parseRange] using this
  | «at» v st =>
    obtain ⟨h1, h2, h3, h4, h5⟩ := showVal_ok sc v hi
    simp only [showItem]
    rw [parseItem_step sc _ st h3, parseRange.eq_def, if_neg h4, if_neg h5, h1]
    rfl
  | range a b st =>
    obtain ⟨h1, h2, h3, h4, h5⟩ := showVal_ok sc a hi.1
    obtain ⟨g1, g2, g3, g4, g5⟩ := showVal_ok sc b hi.2
    simp only [showItem]
    rw [parseItem_step sc _ st (by simp [h3, g3]), parseRange.eq_def, if_pos (by simp), splitChar_cons _ h4,
      splitChar_no g4]
    simp only [h1, g1, bindE]

/-- C18, reading: a field written from items reads back as those items (so the theorems above speak about the
texts). -/
theorem C18_text (sc : Scope) (items : List CItem) (hne : items ≠ []) (h : ∀ i ∈ items, WritableItem sc i) :
    parseField sc (showField sc items) = .ok items := by
  unfold parseField showField
  rw [String.toList_ofList, splitChar_join (by simpa using hne)]
  · have : ∀ l : List CItem, (∀ i ∈ l, WritableItem sc i) → mapE (parseItem sc) (l.map (showItem sc)) = .ok l := by
      intro l
      induction l with
      | nil => intro _; rfl
      | cons i l ih =>
        intro h
        simp only [List.map_cons, mapE, parseItem_show sc i (h i (by simp)), ih (fun j hj => h j (by simp [hj]))]
    exact this items h
  · intro w hw
    obtain ⟨i, hi, rfl⟩ := List.mem_map.1 hw
    have hi := h i hi
    cases i with
    | star => simp [showItem]
    | starStep n => simp [showItem, (digits_no (showNat_digits n)).1]
    | «at» v st => simp [showItem, (showVal_ok sc v hi).2.1, showStep_ok]
    | range a b st => simp [showItem, (showVal_ok sc a hi.1).2.1, (showVal_ok sc b hi.2).2.1, showStep_ok]

example : showField .week [.range (.name 0) (.name 4) (some 2), .at (.num 0) none] = "mon-fri/2,0" := by
  decide +kernel

end Rocketry.Props
